import Verif.Registry.Props
import Verif.Inj.Model

/-!
# The decimals a pool computes with: C188

Pools of the curve kinds ask for the decimals of their assets once, when they are created
(`packages/astroport/src/querier.rs:118-150`), and keep them; the registry of native coins lives on.
-/

namespace Verif.Registry.Decimals

variable {A D : Type} [DecidableEq A] [LinearOrder D]

/-! ## Model -/

/-- `AssetInfo`, packages/astroport/src/asset.rs:408-427: a coin with its denom or a token with its address; `D` are texts. -/
inductive Info (D : Type)
  | native (denom : D)
  | token (addr : D)
  deriving DecidableEq, Repr

/-- `AssetInfo::to_string`, packages/astroport/src/asset.rs:401-407: the bare denom or address. -/
def Info.name : Info D → D
  | .native d => d
  | .token a => a

/-- `query_token_precision`, packages/astroport/src/querier.rs:118-150: coins are looked up in the registry, tokens asked
themselves (`token` is what they answer, `none` if they do not). -/
def decimalsOf (r : State A D) (token : D → Option Nat) : Info D → Res Nat
  | .native d => orErr (decimals r d) (.invalid "The precision was not found")
  | .token a => orErr (token a) (.invalid "no answer")

/-- `store_precisions`, packages/astroport_pcl_common/src/state.rs:399-411 and contracts/pair_stable/src/state.rs:53-67 (which returns
the greatest one). -/
def store (r : State A D) (token : D → Option Nat) : List (D × Nat) → Nat → List (Info D) → Res (List (D × Nat) × Nat)
  | ps, m, [] => .ok (ps, m)
  | ps, m, a :: as => do
    let k ← decimalsOf r token a
    store r token (kvInsert a.name k ps) (max m k) as

/-- `get_precision`, packages/astroport_pcl_common/src/state.rs:413-424, contracts/pair_stable/src/state.rs:70-72. -/
def get (ps : List (D × Nat)) (a : Info D) : Res Nat := orErr (kvGet a.name ps) (.invalid "InvalidAsset")

/-- What a pool keeps: its assets, their decimals and the greatest of them. -/
structure Pool (D : Type) where
  assets : List (Info D)
  precisions : List (D × Nat)
  greatest : Nat

/-- The part of a pool's creation that fixes the decimals. -/
def create (r : State A D) (token : D → Option Nat) (as : List (Info D)) : Res (Pool D) := do
  let (ps, m) ← store r token [] 0 as
  .ok ⟨as, ps, m⟩

/-- The registry and all pools. -/
structure World (A D : Type) where
  reg : State A D
  pools : List (Pool D)

/-- A message to the registry, or the creation of a pool while tokens answer as `token` says. -/
inductive Op (A D : Type)
  | registry (sender : A) (o : Registry.Op A D)
  | create (token : D → Option Nat) (assets : List (Info D))

/-- One transaction; `me` is the registry. -/
def exec (me : A) (w : World A D) : Op A D → Res (World A D)
  | .registry u o => do
    let r ← Registry.exec me w.reg u o
    .ok { w with reg := r }
  | .create token as => do
    let p ← create w.reg token as
    .ok { w with pools := w.pools ++ [p] }

/-- A history. -/
def run (me : A) (w : World A D) (os : List (Op A D)) : World A D := os.foldl (fun w o => commit' w (exec me w o)) w

/-! ## Specification -/

/-- The pool computes with the decimals the registry `r` and the tokens gave for its assets (if their texts differ), knows no
others, and its greatest decimals are the greatest of these. -/
structure ComputesWith (r : State A D) (token : D → Option Nat) (p : Pool D) : Prop where
  exact : (p.assets.map Info.name).Nodup → ∀ a ∈ p.assets, ∃ k, get p.precisions a = .ok k ∧ match a with
    | .native d => decimals r d = some k ∧ k ≤ 18
    | .token t => token t = some k
  others : ∀ a : Info D, (∀ b ∈ p.assets, b.name ≠ a.name) → fails (get p.precisions a) = true
  atMost : ∀ a ∈ p.assets, ∀ k, get p.precisions a = .ok k → k ≤ p.greatest
  attained : p.assets ≠ [] → (p.assets.map Info.name).Nodup → ∃ a ∈ p.assets, get p.precisions a = .ok p.greatest

/-! ## Lemmas -/

theorem store_ok {r : State A D} {token : D → Option Nat} : ∀ {as : List (Info D)} {ps ps' : List (D × Nat)} {m m' : Nat},
    store r token ps m as = .ok (ps', m') →
    (∀ n, n ∉ as.map Info.name → kvGet n ps' = kvGet n ps) ∧
    ((as.map Info.name).Nodup → ∀ a ∈ as, ∃ k, decimalsOf r token a = .ok k ∧ kvGet a.name ps' = some k) ∧
    (∀ a ∈ as, ∃ k, decimalsOf r token a = .ok k ∧ k ≤ m') ∧ m ≤ m' ∧
    (m' = m ∨ ∃ a ∈ as, decimalsOf r token a = .ok m') ∧
    (∀ n k, n ∈ as.map Info.name → kvGet n ps' = some k → ∃ a ∈ as, a.name = n ∧ decimalsOf r token a = .ok k) ∧
    (∀ n ∈ as.map Info.name, ∃ k, kvGet n ps' = some k)
  | [], ps, ps', m, m', h => by
    simp only [store, Except.ok.injEq, Prod.mk.injEq] at h
    obtain ⟨rfl, rfl⟩ := h
    simp
  | a :: as, ps, ps', m, m', h => by
    simp only [store, bind_ok_iff] at h
    obtain ⟨k, hk, h⟩ := h
    obtain ⟨h1, h2, h3, h4, h5, h6, h7⟩ := store_ok h
    refine ⟨?_, ?_, ?_, le_trans (le_max_left _ _) h4, ?_, ?_, ?_⟩
    · intro n hn
      simp only [List.map_cons, List.mem_cons, not_or] at hn
      rw [h1 n hn.2, kvGet_insert, if_neg hn.1]
    · intro hnd b hb
      simp only [List.map_cons, List.nodup_cons] at hnd
      rcases List.mem_cons.1 hb with rfl | hb
      · refine ⟨k, hk, ?_⟩
        rw [h1 _ hnd.1, kvGet_insert, if_pos rfl]
      · exact h2 hnd.2 b hb
    · intro b hb
      rcases List.mem_cons.1 hb with rfl | hb
      · exact ⟨k, hk, le_trans (le_max_right _ _) h4⟩
      · exact h3 b hb
    · rcases h5 with rfl | ⟨b, hb, h5⟩
      · rcases max_choice m k with hm | hm
        · exact .inl hm
        · exact .inr ⟨a, by simp, by rw [hm]; exact hk⟩
      · exact .inr ⟨b, by simp [hb], h5⟩
    · intro n j hn hj
      by_cases hin : n ∈ as.map Info.name
      · obtain ⟨b, hb, h⟩ := h6 n j hin hj
        exact ⟨b, by simp [hb], h⟩
      · rw [h1 n hin, kvGet_insert] at hj
        simp only [List.map_cons, List.mem_cons, hin, or_false] at hn
        rw [if_pos hn] at hj
        cases hj
        exact ⟨a, by simp, hn.symm, hk⟩
    · intro n hn
      by_cases hin : n ∈ as.map Info.name
      · exact h7 n hin
      · rw [h1 n hin, kvGet_insert]
        simp only [List.map_cons, List.mem_cons, hin, or_false] at hn
        exact ⟨k, by rw [if_pos hn]⟩

theorem store_accepts {r : State A D} {token : D → Option Nat} : ∀ {as : List (Info D)} (ps : List (D × Nat)) (m : Nat),
    (∀ a ∈ as, ∃ k, decimalsOf r token a = .ok k) → ∃ x, store r token ps m as = .ok x
  | [], _, _, _ => ⟨_, rfl⟩
  | a :: as, ps, m, h => by
    obtain ⟨k, hk⟩ := h a (by simp)
    obtain ⟨x, hx⟩ := store_accepts (as := as) (kvInsert a.name k ps) (max m k) (fun b hb => h b (by simp [hb]))
    exact ⟨x, by simp [store, hk, hx]⟩

theorem decimals_native {r : State A D} {token : D → Option Nat} {d : D} {k : Nat} :
    decimalsOf r token (.native d) = .ok k ↔ decimals r d = some k := by
  simp [decimalsOf, orErr_ok]

theorem decimals_token {r : State A D} {token : D → Option Nat} {a : D} {k : Nat} :
    decimalsOf r token (.token a) = .ok k ↔ token a = some k := by
  simp [decimalsOf, orErr_ok]

theorem run_snoc (me : A) (w : World A D) (os : List (Op A D)) (o : Op A D) :
    run me w (os ++ [o]) = commit' (run me w os) (exec me (run me w os) o) := by
  simp [run, List.foldl_append]

/-- The registry's part of a world's history is a history of the registry. -/
theorem reg_run (me : A) (w : World A D) (os : List (Op A D)) :
    ∃ l, (run me w os).reg = Registry.run me w.reg l := by
  have app : ∀ (l : List (A × Registry.Op A D)) (s : State A D) (x : A × Registry.Op A D),
      Registry.run me s (l ++ [x]) = commit' (Registry.run me s l) (Registry.exec me (Registry.run me s l) x.1 x.2) := by
    intro l
    induction l with
    | nil => intro s x; rfl
    | cons y l ih => intro s x; exact ih _ x
  induction os using List.reverseRecOn with
  | nil => exact ⟨[], rfl⟩
  | append_singleton os o ih =>
    obtain ⟨l, hl⟩ := ih
    rw [run_snoc]
    cases o with
    | registry u o =>
      refine ⟨l ++ [(u, o)], ?_⟩
      rw [app, ← hl]
      simp only [exec]
      cases Registry.exec me (run me w os).reg u o <;> rfl
    | create token as =>
      refine ⟨l, ?_⟩
      rw [← hl]
      simp only [exec]
      cases create (run me w os).reg token as <;> rfl

/-! ## C188 -/

/-- **C188**: a pool is created exactly when every coin among its assets is registered and every token answers. -/
theorem C188_created_iff (r : State A D) (token : D → Option Nat) (as : List (Info D)) :
    (∃ p, create r token as = .ok p) ↔
      ∀ a ∈ as, match a with
        | .native d => ∃ k, decimals r d = some k
        | .token t => ∃ k, token t = some k := by
  have key : (∀ a ∈ as, ∃ k, decimalsOf r token a = .ok k) ↔
      ∀ a ∈ as, match a with
        | .native d => ∃ k, decimals r d = some k
        | .token t => ∃ k, token t = some k := by
    refine forall₂_congr fun a _ => ?_
    cases a with
    | native d => simp [decimals_native]
    | token t => simp [decimals_token]
  rw [← key]
  constructor
  · rintro ⟨p, h⟩ a ha
    simp only [create, bind_ok_iff, Prod.exists, Except.ok.injEq] at h
    obtain ⟨ps, m, h, rfl⟩ := h
    obtain ⟨k, hk, _⟩ := (store_ok h).2.2.1 a ha
    exact ⟨k, hk⟩
  · intro h
    obtain ⟨⟨ps, m⟩, hx⟩ := store_accepts [] 0 h
    refine ⟨⟨as, ps, m⟩, ?_⟩
    simp [create, hx]

/-- **C188**: nothing that is sent to the registry, and no later creation, changes what a pool computes with. -/
theorem C188_nothing_changes_it (me : A) (w : World A D) (os : List (Op A D)) (i : Nat) (p : Pool D)
    (hp : w.pools[i]? = some p) : (run me w os).pools[i]? = some p := by
  induction os using List.reverseRecOn with
  | nil => exact hp
  | append_singleton os o ih =>
    rw [run_snoc]
    cases hx : exec me (run me w os) o with
    | error e => exact ih
    | ok w' =>
      cases o with
      | registry u x =>
        simp only [exec, bind_ok_iff, Except.ok.injEq] at hx
        obtain ⟨r, _, rfl⟩ := hx
        exact ih
      | create token as =>
        simp only [exec, bind_ok_iff, Except.ok.injEq] at hx
        obtain ⟨q, _, rfl⟩ := hx
        obtain ⟨hlt, _⟩ := List.getElem?_eq_some_iff.1 ih
        show ((run me w os).pools ++ [q])[i]? = some p
        rw [List.getElem?_append_left hlt]
        exact ih

/-- **C188**: in every history of the registry and of any number of pools, each pool that was ever created keeps computing with the
decimals its assets had at that moment - whatever has been registered, changed or removed since -, knows no other assets, and its
greatest decimals are the greatest of these.  (Assets whose texts differ; see below for those that share one.) -/
theorem C188_decimals_of_creation_partial (me owner : A) (bank : D → A → Nat) (os : List (Op A D)) (p : Pool D)
    (hp : p ∈ (run me ⟨instantiate owner bank, []⟩ os).pools) :
    ∃ (pre post : List (Op A D)) (token : D → Option Nat), os = pre ++ .create token p.assets :: post ∧
      ComputesWith (run me ⟨instantiate owner bank, []⟩ pre).reg token p := by
  induction os using List.reverseRecOn with
  | nil => simp [run] at hp
  | append_singleton os o ih =>
    rw [run_snoc] at hp
    have old : p ∈ (run me ⟨instantiate owner bank, []⟩ os).pools →
        ∃ (pre post : List (Op A D)) (token : D → Option Nat), os ++ [o] = pre ++ .create token p.assets :: post ∧
          ComputesWith (run me ⟨instantiate owner bank, []⟩ pre).reg token p := fun h => by
      obtain ⟨pre, post, token, e, h⟩ := ih h
      exact ⟨pre, post ++ [o], token, by rw [e]; simp, h⟩
    cases hx : exec me (run me ⟨instantiate owner bank, []⟩ os) o with
    | error e => rw [hx] at hp; exact old hp
    | ok w =>
      rw [hx] at hp
      cases o with
      | registry u x =>
        simp only [exec, bind_ok_iff, Except.ok.injEq] at hx
        obtain ⟨r, _, rfl⟩ := hx
        exact old hp
      | create token as =>
        simp only [exec, bind_ok_iff, Except.ok.injEq] at hx
        obtain ⟨q, hq, rfl⟩ := hx
        rcases List.mem_append.1 hp with h | h
        · exact old h
        · obtain rfl := List.mem_singleton.1 h
          simp only [create, bind_ok_iff, Prod.exists, Except.ok.injEq] at hq
          obtain ⟨ps, m, hs, rfl⟩ := hq
          obtain ⟨h1, h2, h3, _, h5, h6, _⟩ := store_ok hs
          refine ⟨os, [], token, rfl, ?_, ?_, ?_, ?_⟩
          · intro hnd a ha
            obtain ⟨k, hk, hg⟩ := h2 hnd a ha
            refine ⟨k, by simp [get, hg, orErr], ?_⟩
            cases a with
            | native d =>
              rw [decimals_native] at hk
              refine ⟨hk, ?_⟩
              obtain ⟨l, hl⟩ := reg_run me ⟨instantiate owner bank, []⟩ os
              rw [hl] at hk
              exact C63_decimals_in_range me owner bank l d k hk
            | token t => exact decimals_token.1 hk
          · intro a ha
            have hn : a.name ∉ as.map Info.name := by
              intro hm
              obtain ⟨b, hb, e⟩ := List.mem_map.1 hm
              exact ha b hb e
            have := h1 _ hn
            simp [get, this, kvGet, orErr, fails]
          · intro a ha k hk
            simp only [get, orErr_ok] at hk
            obtain ⟨b, hb, _, hd⟩ := h6 a.name k (List.mem_map_of_mem ha) hk
            obtain ⟨k', hk', hle⟩ := h3 b hb
            rw [hd] at hk'; cases hk'; exact hle
          · intro hne hnd
            rcases h5 with rfl | ⟨a, ha, hd⟩
            · obtain ⟨a, ha⟩ := List.exists_mem_of_ne_nil _ hne
              obtain ⟨k, hk, hle⟩ := h3 a ha
              obtain ⟨k', hk', hg⟩ := h2 hnd a ha
              rw [hk] at hk'; cases hk'
              obtain rfl : k = 0 := by omega
              exact ⟨a, ha, by simp [get, hg, orErr]⟩
            · obtain ⟨k', hk', hg⟩ := h2 hnd a ha
              rw [hd] at hk'; cases hk'
              exact ⟨a, ha, by simp [get, hg, orErr]⟩

/-- The owner is 1, account 2 registers coin 5 with six decimals, a pool of it and token 7 (18 decimals) is created, then the owner
changes the coin to eight decimals and removes it. -/
def demoHistory : List (Op Nat Nat) :=
  [.registry 2 (.register [(5, 1)] [(5, 6)]), .create (fun _ => some 18) [.native 5, .token 7],
   .registry 1 (.add [(5, 8)]), .create (fun _ => some 18) [.native 5, .token 7], .registry 1 (.remove [5]),
   .create (fun _ => some 18) [.native 5, .token 7]]

/-- See `demoHistory`. -/
def demoWorld : World Nat Nat := run 0 ⟨instantiate 1 (fun _ _ => 10), []⟩ demoHistory

/-- Non-vacuity: the first pool has six decimals, the second eight, the third is refused. -/
example : demoWorld.pools.map (fun p => (get p.precisions (.native 5), get p.precisions (.token 7), p.greatest)) =
      [(.ok 6, .ok 18, 18), (.ok 8, .ok 18, 18)] ∧
    (demoWorld.pools.map (fun p => (p.assets.map Info.name))) = [[5, 7], [5, 7]] ∧
    decimals demoWorld.reg 5 = none ∧
    fails (exec 0 demoWorld (.create (fun _ => some 18) [.native 5, .token 7])) = true := by
  refine ⟨by rfl, by decide +kernel, by decide +kernel, by decide +kernel⟩

/-- **C188 is violated** when a coin's denom is the text of the token's address: the two share one entry, and the pool computes with
the token's decimals for the coin. -/
theorem C188_same_text_violated :
    okAnd (create (A := Nat) (Registry.run 0 (instantiate 1 fun _ _ => 10) [(1, .add [(5, 6)])]) (fun _ => some 18)
      [.native 5, .token 5]) (fun p => decide (get p.precisions (.native 5) = .ok 18)) = true ∧
    decimals (Registry.run 0 (instantiate 1 fun _ (_ : Nat) => 10) [(1, .add [(5, 6)])]) 5 = some 6 := by
  refine ⟨by decide +kernel, by decide +kernel⟩

/-- `update_market_ticks`, contracts/pair_concentrated_inj/src/contract.rs:1000-1011, with the decimals the registry has now. -/
def updateTicks (r : State A D) (token : D → Option Nat) (base : Info D) (ob : Inj.OB) (price qty : Nat) : Res Inj.OB := do
  let k ← decimalsOf r token base
  Inj.setTicks ob k price qty

/-- **C188 is violated** by the pairs on the Injective exchange: once the registry's entry of their first coin has been changed,
anybody can make them convert the exchange's unchanged quantity step with the new decimals, while the rest of the pair still
computes with the old ones. -/
theorem C188_ticks_follow_registry_violated :
    let r := Registry.run 0 (instantiate 1 fun _ (_ : Nat) => 10) [(1, .add [(5, 6)])]
    let r' := Registry.run 0 r [(1, .add [(5, 8)])]
    okAnd (Inj.newOB 2 1 6 (10 ^ 14) (1000 * 10 ^ 18)) (fun ob => decide (ob.qtyTick = 10 ^ 15) &&
      fails (updateTicks r (fun _ => none) (.native 5) ob (10 ^ 14) (1000 * 10 ^ 18)) &&
      okAnd (updateTicks r' (fun _ => none) (.native 5) ob (10 ^ 14) (1000 * 10 ^ 18)) (fun ob => decide (ob.qtyTick = 10 ^ 13))) = true ∧
    okAnd (create r (fun _ => none) [.native 5]) (fun p => decide (get p.precisions (.native 5) = .ok 6)) = true := by
  refine ⟨by decide +kernel, by decide +kernel⟩

end Verif.Registry.Decimals
