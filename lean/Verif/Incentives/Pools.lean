import Verif.Asset.Props
import Verif.Base.Paging
import Mathlib.Data.List.Lex

/-!
# The list of pools of the incentives contract (C159)

A pool comes into being when somebody stakes its LP token, announces a reward for it, or gives it a share of the ASTRO
emission.  Nothing ever removes one.  Only the keys of the map are modelled here; the contents of a pool are in
`Incentives/Model.lean`.
-/

namespace Verif.Incentives.Pools

open Verif Verif.Asset

/-- `POOLS` (`contracts/tokenomics/incentives/src/state.rs:35`): keyed by the bytes of the LP token
(`packages/astroport/src/asset.rs:376-390`), ascending.  With each key the text it stands for (`String::from_utf8` in the query). -/
abbrev Store := List (List Nat × Str)

/-- `PoolInfo::save` (`contracts/tokenomics/incentives/src/state.rs:441-480`), the key only. -/
def save (s : Store) (i : Info) : Store := kvInsert i.bytes i.name s

/-- Calls that save a pool which need not exist before: `deposit` (`contracts/tokenomics/incentives/src/execute.rs:177-216`, the LP token
is the asset sent), `incentivize` (`contracts/tokenomics/incentives/src/utils.rs:201-306`) and `setup_pools`
(`contracts/tokenomics/incentives/src/execute.rs:266-344`), the latter two with texts.  `accepted` is the outcome of all other checks. -/
inductive Op where
  | deposit (lp : Info) (accepted : Bool)
  | incentivize (lp : Str) (accepted : Bool)
  | setup (lps : List Str) (accepted : Bool)
  deriving DecidableEq

/-- Reading the LP tokens of `setup_pools` (`contracts/tokenomics/incentives/src/execute.rs:283-300`). -/
def readAll (okAddr : Str → Bool) : List Str → Res (List Info)
  | [] => .ok []
  | t :: ts => do
    let i ← determineAssetInfo okAddr t
    let is ← readAll okAddr ts
    .ok (i :: is)

/-- One call.  A cw20 deposit comes from the token contract itself, a native one from the coins sent, so the asset of a
deposit is valid, and a chain's native denoms are not addresses. -/
def exec (okAddr : Str → Bool) (s : Store) : Op → Res Store
  | .deposit lp accepted => do
    require (determineAssetInfo okAddr lp.name = .ok lp) (.invalid "impossible on the chain")
    require (accepted = true) (.invalid "refused")
    .ok (save s lp)
  | .incentivize lp accepted => do
    let i ← determineAssetInfo okAddr lp
    require (accepted = true) (.invalid "refused")
    .ok (save s i)
  | .setup lps accepted => do
    let is ← readAll okAddr lps
    require (accepted = true) (.invalid "refused")
    .ok (is.foldl save s)

/-- A failed call changes nothing. -/
def step (okAddr : Str → Bool) (s : Store) (o : Op) : Store := commit' s (exec okAddr s o)

/-- A history. -/
def run (okAddr : Str → Bool) (os : List Op) : Store := os.foldl (step okAddr) []

/-- `list_pools` (`contracts/tokenomics/incentives/src/query.rs:118-138`), `MAX_PAGE_LIMIT = 50`
(`packages/astroport/src/incentives.rs:28`) being only the default: an unreadable starting point is an error. -/
def listPools (okAddr : Str → Bool) (s : Store) (startAfter : Option Str) (limit : Option Nat) : Res (List Str) :=
  match startAfter with
  | none => .ok ((kvPage s none (limit.getD 50)).map Prod.snd)
  | some t => do
    let i ← determineAssetInfo okAddr t
    .ok ((kvPage s (some i.bytes) (limit.getD 50)).map Prod.snd)

/-- A reader: `n` pages, each starting after the last pool of the one before. -/
def readPools (page : Option Str → Res (List Str)) : Nat → Option Str → Res (List Str)
  | 0, _ => .ok []
  | n + 1, start => do
    let p ← page start
    match p.getLast? with
    | none => .ok []
    | some t => do
      let rest ← readPools page n (some t)
      .ok (p ++ rest)

/-! ## Specification -/

/-- The LP tokens named by a call. -/
def named : Op → List Str
  | .deposit lp _ => [lp.name]
  | .incentivize lp _ => [lp]
  | .setup lps _ => lps

/-- Did some call of the history succeed and name this LP token? -/
def Opened (okAddr : Str → Bool) (os : List Op) (t : Str) : Prop :=
  ∃ pre o post, os = pre ++ o :: post ∧ t ∈ named o ∧ ∃ s', exec okAddr (run okAddr pre) o = .ok s'

/-! ## Proofs -/

/-- Every entry is the text of a readable asset, stored under its bytes. -/
def Good (okAddr : Str → Bool) (s : Store) : Prop :=
  KvSorted s ∧ ∀ x ∈ s, ∃ i, determineAssetInfo okAddr x.2 = .ok i ∧ i.bytes = x.1

theorem determine_name {okAddr : Str → Bool} {t : Str} {i : Info} (h : determineAssetInfo okAddr t = .ok i) : i.name = t :=
  (((C145_determine okAddr t).1 i).1 h).1

theorem bytes_name (i : Info) : i.bytes = utf8 i.name := by cases i <;> rfl

theorem save_good {okAddr : Str → Bool} {s : Store} (hG : Good okAddr s) {i : Info}
    (hi : determineAssetInfo okAddr i.name = .ok i) : Good okAddr (save s i) := by
  refine ⟨kvSorted_insert hG.1, fun x hx => ?_⟩
  rcases mem_kvInsert hx with rfl | hx
  · exact ⟨i, hi, rfl⟩
  · exact hG.2 x hx

theorem readAll_ok {okAddr : Str → Bool} : ∀ {ts : List Str} {is : List Info}, readAll okAddr ts = .ok is →
    is.map Info.name = ts ∧ ∀ i ∈ is, determineAssetInfo okAddr i.name = .ok i
  | [], is, h => by simp only [readAll, Except.ok.injEq] at h; subst h; simp
  | t :: ts, is, h => by
    simp only [readAll, bind_ok_iff, Except.ok.injEq] at h
    obtain ⟨i, h1, js, h2, rfl⟩ := h
    obtain ⟨h3, h4⟩ := readAll_ok h2
    have hn := determine_name h1
    refine ⟨by rw [List.map_cons, hn, h3], ?_⟩
    intro j hj
    rcases List.mem_cons.1 hj with rfl | hj
    · rw [hn]; exact h1
    · exact h4 j hj

/-- The assets a successful call saves. -/
theorem exec_saves {okAddr : Str → Bool} {s s' : Store} {o : Op} (h : exec okAddr s o = .ok s') :
    ∃ is : List Info, s' = is.foldl save s ∧ is.map Info.name = named o ∧
      ∀ i ∈ is, determineAssetInfo okAddr i.name = .ok i := by
  cases o with
  | deposit lp accepted =>
    simp only [exec, bind_ok_iff, require_ok, exists_const, Except.ok.injEq] at h
    obtain ⟨h1, _, rfl⟩ := h
    exact ⟨[lp], rfl, rfl, by simpa using h1⟩
  | incentivize lp accepted =>
    simp only [exec, bind_ok_iff, require_ok, exists_const, Except.ok.injEq] at h
    obtain ⟨i, h1, _, rfl⟩ := h
    have hn := determine_name h1
    exact ⟨[i], rfl, by simp [named, hn], by simpa [hn] using h1⟩
  | setup lps accepted =>
    simp only [exec, bind_ok_iff, require_ok, exists_const, Except.ok.injEq] at h
    obtain ⟨is, h1, _, rfl⟩ := h
    obtain ⟨h2, h3⟩ := readAll_ok h1
    exact ⟨is, rfl, h2, h3⟩

theorem foldl_good {okAddr : Str → Bool} : ∀ (is : List Info) {s : Store}, Good okAddr s →
    (∀ i ∈ is, determineAssetInfo okAddr i.name = .ok i) → Good okAddr (is.foldl save s)
  | [], _, h, _ => h
  | i :: is, _, h, hi => foldl_good is (save_good h (hi i (by simp))) fun j hj => hi j (by simp [hj])

/-- Texts stored. -/
def texts (s : Store) : List Str := s.map Prod.snd

theorem mem_texts_save {okAddr : Str → Bool} (hA : ∀ t, okAddr t = true → ∀ c ∈ t, c.toNat ≤ 127) {s : Store}
    (hG : Good okAddr s) {i : Info} (hi : determineAssetInfo okAddr i.name = .ok i) (t : Str) :
    t ∈ texts (save s i) ↔ t = i.name ∨ t ∈ texts s := by
  have hG' := save_good hG hi
  have key : ∀ {z : Store}, Good okAddr z → ∀ {t : Str}, t ∈ texts z ↔ kvGet (utf8 t) z = some t := by
    intro z hz t
    constructor
    · intro ht
      obtain ⟨x, hx, rfl⟩ := List.mem_map.1 ht
      obtain ⟨j, hj, hb⟩ := hz.2 x hx
      have : utf8 x.2 = x.1 := by rw [← hb, bytes_name, determine_name hj]
      rw [this]
      exact kvGet_of_mem hz.1 hx
    · intro h
      exact List.mem_map.2 ⟨_, kvGet_mem h, rfl⟩
  rw [key hG', key hG]
  unfold save
  rw [kvGet_insert, bytes_name]
  constructor
  · intro h
    split_ifs at h with hk
    · left; exact (Option.some.inj h).symm
    · right; exact h
  · rintro (rfl | h)
    · rw [if_pos rfl]
    · split_ifs with hk
      · -- equal bytes, equal text
        have ht : t ∈ texts s := (key hG).2 h
        obtain ⟨x, hx, rfl⟩ := List.mem_map.1 ht
        obtain ⟨j, hj, _⟩ := hG.2 x hx
        have hasc : ∀ {u : Str} {k : Info}, determineAssetInfo okAddr u = .ok k → ∀ c ∈ u, c.toNat ≤ 127 := by
          intro u k hk c hc
          obtain ⟨h1, h2, _⟩ := ((C145_determine okAddr u).1 k).1 hk
          cases k with
          | token a =>
            simp only [Info.name] at h1
            subst h1
            simp only [Info.check, require_ok] at h2
            exact hA _ h2 c hc
          | native d =>
            simp only [Info.name] at h1
            subst h1
            obtain ⟨c0, rest, rfl, h3, h4, _⟩ := (C68_denom_grammar d).1 h2
            rcases List.mem_cons.1 hc with rfl | hc
            · have := tail_ascii (Or.inl h3); omega
            · have := tail_ascii (h4 c hc); omega
        have h1 := hasc hj
        have h2 := hasc hi
        rw [utf8_ascii h1, utf8_ascii h2] at hk
        rw [List.map_injective_iff.2 (fun a b h => Char.toNat_inj.1 h) hk]
      · exact h

theorem mem_texts_foldl {okAddr : Str → Bool} (hA : ∀ t, okAddr t = true → ∀ c ∈ t, c.toNat ≤ 127) (t : Str) :
    ∀ (is : List Info) {s : Store}, Good okAddr s → (∀ i ∈ is, determineAssetInfo okAddr i.name = .ok i) →
    (t ∈ texts (is.foldl save s) ↔ t ∈ is.map Info.name ∨ t ∈ texts s)
  | [], s, _, _ => by simp
  | i :: is, s, hG, hi => by
    rw [List.foldl_cons, mem_texts_foldl hA t is (save_good hG (hi i (by simp))) (fun j hj => hi j (by simp [hj])),
      mem_texts_save hA hG (hi i (by simp)), List.map_cons, List.mem_cons]
    tauto

theorem run_append (okAddr : Str → Bool) (os : List Op) (o : Op) :
    run okAddr (os ++ [o]) = step okAddr (run okAddr os) o := by simp [run, List.foldl_append]

theorem run_spec {okAddr : Str → Bool} (hA : ∀ t, okAddr t = true → ∀ c ∈ t, c.toNat ≤ 127) (os : List Op) :
    Good okAddr (run okAddr os) ∧ ∀ t, t ∈ texts (run okAddr os) ↔ Opened okAddr os t := by
  induction os using List.reverseRecOn with
  | nil =>
    refine ⟨⟨List.Pairwise.nil, by simp [run]⟩, fun t => ?_⟩
    simp only [run, texts, List.foldl_nil, List.map_nil, List.not_mem_nil, false_iff]
    rintro ⟨pre, o, post, h, _⟩
    simp at h
  | append_singleton os o ih =>
    obtain ⟨hG, hm⟩ := ih
    rw [run_append]
    have hsplit : ∀ t, Opened okAddr (os ++ [o]) t ↔
        Opened okAddr os t ∨ (t ∈ named o ∧ ∃ s', exec okAddr (run okAddr os) o = .ok s') := by
      intro t
      constructor
      · rintro ⟨pre, o', post, h, h1, h2⟩
        rcases List.eq_nil_or_concat post with rfl | ⟨post', z, rfl⟩
        · obtain ⟨h3, h4⟩ := List.append_inj' h rfl
          obtain rfl : o = o' := by simpa using h4
          subst h3
          exact Or.inr ⟨h1, h2⟩
        · left
          have h : os ++ [o] = (pre ++ o' :: post') ++ [z] := by simpa using h
          obtain ⟨h3, _⟩ := List.append_inj' h rfl
          exact ⟨pre, o', post', h3, h1, h2⟩
      · rintro (⟨pre, o', post, rfl, h1, h2⟩ | ⟨h1, h2⟩)
        · exact ⟨pre, o', post ++ [o], by simp, h1, h2⟩
        · exact ⟨os, o, [], rfl, h1, h2⟩
    unfold step
    cases he : exec okAddr (run okAddr os) o with
    | error e =>
      refine ⟨hG, fun t => ?_⟩
      rw [hsplit, he]
      simp only [commit', reduceCtorEq, exists_false, and_false, or_false]
      exact hm t
    | ok s' =>
      obtain ⟨is, rfl, h2, h3⟩ := exec_saves he
      refine ⟨foldl_good is hG h3, fun t => ?_⟩
      rw [hsplit, he]
      simp only [commit', Except.ok.injEq, exists_eq', and_true]
      rw [mem_texts_foldl hA t is hG h3, h2, hm t]
      tauto

theorem readPools_walk {okAddr : Str → Bool} {s : Store} (hG : Good okAddr s) (limit : Option Nat) :
    ∀ (n : Nat) (start : Option Str) (k : Option (List Nat)),
    (start = none ∧ k = none ∨ ∃ t i, start = some t ∧ determineAssetInfo okAddr t = .ok i ∧ k = some i.bytes) →
    readPools (fun a => listPools okAddr s a limit) n start = .ok ((kvWalk s (limit.getD 50) n k).map Prod.snd)
  | 0, _, _, _ => rfl
  | n + 1, start, k, hk => by
    have hp : listPools okAddr s start limit = .ok ((kvPage s k (limit.getD 50)).map Prod.snd) := by
      rcases hk with ⟨rfl, rfl⟩ | ⟨t, i, rfl, hi, rfl⟩
      · rfl
      · simp only [listPools, hi, ok_bind]
    unfold readPools kvWalk
    rw [hp, ok_bind, List.getLast?_map]
    cases hl : (kvPage s k (limit.getD 50)).getLast? with
    | none => rfl
    | some e =>
      have hmem : e ∈ s := by
        have h1 := List.mem_of_getLast? hl
        unfold kvPage at h1
        have h1 := List.mem_of_mem_take h1
        cases k with
        | none => exact h1
        | some k =>
          simp only [Option.map_some, Option.getD_some, kvAfter] at h1
          exact (List.mem_filter.1 h1).1
      obtain ⟨i, hi, hb⟩ := hG.2 e hmem
      have ih := readPools_walk hG limit n (some e.2) (some e.1) (Or.inr ⟨e.2, i, rfl, hi, by rw [hb]⟩)
      simp only [Option.map_some, ih, ok_bind, List.map_append]

/-- **C159.**  After every history, a reader of `ListPools` with any limit but zero gets exactly the LP tokens that were ever
staked, given a reward or set up for ASTRO, each once.  (Addresses of the chain are ASCII.) -/
theorem C159_all_pools_listed (okAddr : Str → Bool) (hA : ∀ t, okAddr t = true → ∀ c ∈ t, c.toNat ≤ 127) (os : List Op)
    (limit : Option Nat) (hl : limit ≠ some 0) (n : Nat) (hn : (run okAddr os).length ≤ n) :
    ∃ l, readPools (fun a => listPools okAddr (run okAddr os) a limit) n none = .ok l ∧ l.Nodup ∧
      ∀ t, t ∈ l ↔ Opened okAddr os t := by
  obtain ⟨hG, hm⟩ := run_spec hA os
  have hw := readPools_walk hG limit n none none (Or.inl ⟨rfl, rfl⟩)
  have hp : 0 < limit.getD 50 := by
    cases limit with
    | none => decide
    | some k => exact Nat.pos_of_ne_zero fun h => hl (by rw [← h]; rfl)
  rw [kvWalk_complete _ hG.1 _ _ hp hn] at hw
  refine ⟨_, hw, ?_, hm⟩
  rw [List.Nodup, List.pairwise_map]
  refine List.Pairwise.imp_of_mem ?_ hG.1
  intro a b ha hb hab he
  obtain ⟨i, hi, hia⟩ := hG.2 a ha
  obtain ⟨j, hj, hjb⟩ := hG.2 b hb
  rw [he, hj] at hi
  obtain rfl := Except.ok.inj hi
  rw [← hia, ← hjb] at hab
  exact lt_irrefl _ hab

/-- C159: a single page is at most as long as asked (50 by default), a page after an LP token holds only later pools, and an
unreadable starting point is refused. -/
theorem C159_page (okAddr : Str → Bool) (s : Store) (start : Option Str) (limit : Option Nat) :
    (∀ l, listPools okAddr s start limit = .ok l → l.length ≤ limit.getD 50 ∧
      ∀ t ∈ l, ∃ x ∈ s, x.2 = t ∧ ∀ u, start = some u → utf8 u < x.1) ∧
    ((∃ e, listPools okAddr s start limit = .error e) ↔ ∃ t, start = some t ∧ okAddr t = false ∧ ¬DenomGrammar t) := by
  cases start with
  | none =>
    refine ⟨fun l h => ?_, ?_⟩
    · simp only [listPools, Except.ok.injEq] at h
      subst h
      refine ⟨by simp [kvPage], fun t ht => ?_⟩
      obtain ⟨x, hx, rfl⟩ := List.mem_map.1 ht
      exact ⟨x, List.mem_of_mem_take hx, rfl, by simp⟩
    · simp [listPools]
  | some t =>
    have hE := (C145_determine okAddr t).2
    refine ⟨fun l h => ?_, ?_⟩
    · simp only [listPools, bind_ok_iff, Except.ok.injEq] at h
      obtain ⟨i, hi, rfl⟩ := h
      refine ⟨by simp [kvPage], fun u hu => ?_⟩
      obtain ⟨x, hx, rfl⟩ := List.mem_map.1 hu
      have hx := List.mem_of_mem_take hx
      simp only [Option.map_some, Option.getD_some, kvAfter] at hx
      obtain ⟨hx, hlt⟩ := List.mem_filter.1 hx
      refine ⟨x, hx, rfl, ?_⟩
      rintro v hv
      obtain rfl := Option.some.inj hv
      rw [← determine_name hi, ← bytes_name]
      simpa using hlt
    · simp only [listPools, Option.some.injEq, exists_eq_left']
      rw [← hE]
      cases determineAssetInfo okAddr t with
      | ok i => simp [ok_bind]
      | error e => simp [error_bind]

/-- Addresses start with `w`; pools: two minted natively, one cw20, one set up twice, one refused. -/
def wOps : List Op :=
  [.deposit (.native "factory/wasm1b/astroport/share".toList) true, .incentivize "wasm1lp".toList true,
   .setup ["factory/wasm1a/astroport/share".toList, "factory/wasm1b/astroport/share".toList] true,
   .incentivize "factory/wasm1z/astroport/share".toList false, .setup ["!".toList] true]

/-- See `wOps`. -/
def wAddr (t : Str) : Bool := t.all (fun c => decide (c.toNat ≤ 127)) && decide (t.head? = some 'w')

example : ∀ t, wAddr t = true → ∀ c ∈ t, c.toNat ≤ 127 := by
  intro t h c hc
  simp only [wAddr, Bool.and_eq_true, List.all_eq_true, decide_eq_true_eq] at h
  exact h.1 c hc

example : okAnd (readPools (fun a => listPools wAddr (run wAddr wOps) a (some 2)) 3 none) (fun l => decide (l =
    ["factory/wasm1a/astroport/share".toList, "factory/wasm1b/astroport/share".toList, "wasm1lp".toList])) = true := by
  decide +kernel

end Verif.Incentives.Pools
