import Verif.Converter.Props
import Verif.Upgrade.Versions

/-!
# Turning a constant product pool into the pair in front of the converter: C185

`contracts/pair_astro_converter` cannot be instantiated; it takes over a constant product pool of old and new ASTRO.  From then
on the pair knows two messages, a swap with coins and the receipt of tokens to swap, and answers that it is empty.

Specification: `Converted` (C62: what a conversion is), the balances in `State`.
-/

namespace Verif.Converter

open Verif

variable {A D : Type} [DecidableEq A] [DecidableEq D]

/-! ## Model -/

/-- `Config`, contracts/pair_astro_converter/src/state.rs: assets and LP token of the former pool, the converter, and its two
tokens. -/
structure PairCfg (A D : Type) where
  assets : List (Info A D)
  lp : A
  conv : A
  src : Info A D
  dst : Info A D

/-- `migrate` with `migrate_config` and `sanity_checks`, contracts/pair_astro_converter/src/contract.rs:151-195 and
contracts/pair_astro_converter/src/migration.rs:26-71: `c` is what the converter at `conv` reports. -/
def takeOver (stored : Upgrade.Stamp) (assets : List (Info A D)) (lp conv : A) (c : Cfg A D) :
    Res (Upgrade.Stamp × PairCfg A D) := do
  let v ← Upgrade.migrate stored ⟨.converterPair, false⟩
  require (assets.length = 2) (.invalid "Only 2 assets are supported")
  require (c.old ∈ assets) (.invalid "Pair doesn't have old ASTRO specified in the converter contract")
  require (Info.native c.new ∈ assets) (.invalid "Pair doesn't have new ASTRO denom specified in the converter contract")
  .ok (v, ⟨assets, lp, conv, c.old, .native c.new⟩)

/-- `Cw20HookMsg`, packages/astroport/src/pair.rs: a swap, or a withdrawal of liquidity. -/
inductive Hook (A : Type) where
  | swap (dst : Option A)
  | withdraw

/-- `ExecuteMsg`, packages/astroport/src/pair.rs: receipt of tokens, swap, and everything else a pool knows (deposits, withdrawals,
settings, ownership). -/
inductive PairMsg (A D : Type) where
  | receive (sender : A) (n : Nat) (h : Hook A)
  | swap (offer : Info A D) (n : Nat) (dst : Option A)
  | other

/-- `swap`, contracts/pair_astro_converter/src/contract.rs:98-149: the pair sends the offered amount on to the converter. -/
def pairSwap (p : PairCfg A D) (c : Cfg A D) (pair : A) (s : State A D) (sender : A) (offer : Info A D) (n : Nat)
    (dst : Option A) : Res (State A D) := do
  require (offer = p.src) (.invalid "AssetMismatch")
  match p.src with
  | .token a => do
    let s ← send s (.token a) pair p.conv n
    cw20Receive c p.conv s a pair n (some (dst.getD sender))
  | .native d => do
    let s ← sendAll s pair p.conv [(d, n)]
    convert c p.conv s pair [(d, n)] (some (dst.getD sender))

/-- `execute` and `receive_cw20`, contracts/pair_astro_converter/src/contract.rs:48-90. -/
def pairExecute (p : PairCfg A D) (c : Cfg A D) (pair : A) (s : State A D) (caller : A) (funds : List (D × Nat)) :
    PairMsg A D → Res (State A D)
  | .receive u n (.swap dst) => pairSwap p c pair s u (.token caller) n dst
  | .receive _ _ .withdraw => .error (.invalid "NotSupported")
  | .swap (.native d) n dst => do
    let m ← mustPay d funds
    require (m = n) (.invalid "Native token balance mismatch")
    pairSwap p c pair s caller (.native d) n dst
  | .swap (.token _) _ _ => .error (.invalid "Cw20DirectSwap")
  | .other => .error (.invalid "NotSupported")

/-- `Pool`, contracts/pair_astro_converter/src/queries.rs:61-72 and 88-98: assets and LP tokens, all reported as none. -/
def queryPool (p : PairCfg A D) : List (Info A D × Nat) × Nat := (p.assets.map fun i => (i, 0), 0)

/-- What can happen: messages to the pair, sends of tokens to the pair with a hook, and everything else (messages to the
converter, transfers, returns over IBC). -/
inductive PairTx (A D : Type) where
  | call (funds : List (D × Nat)) (m : PairMsg A D)
  | sendTo (token : A) (n : Nat) (h : Hook A)
  | world (o : Op A D)

/-- One transaction of `x`; ASTRO's token contract calls `Receive` only for tokens that were sent. -/
def pairTx (p : PairCfg A D) (c : Cfg A D) (pair : A) (s : State A D) (x : A) : PairTx A D → Res (State A D)
  | .call funds m => do
    require (c.old ≠ .token x) .unauthorized
    let s ← sendAll s x pair funds
    pairExecute p c pair s x funds m
  | .sendTo t n h => do
    let s ← send s (.token t) x pair n
    pairExecute p c pair s t [] (.receive x n h)
  | .world o => exec c p.conv pair s x o

/-- A history after the upgrade; the converter and the pair sign nothing. -/
def pairRun (p : PairCfg A D) (c : Cfg A D) (pair : A) : State A D → List (A × PairTx A D) → State A D
  | s, [] => s
  | s, (x, t) :: rest => pairRun p c pair
      (if x = p.conv ∨ x = pair then s else commit' s (pairTx p c pair s x t)) rest

/-! ## Lemmas -/

theorem takeOver_ok {stored v : Upgrade.Stamp} {assets : List (Info A D)} {lp conv : A} {c : Cfg A D} {p : PairCfg A D}
    (h : takeOver stored assets lp conv c = .ok (v, p)) : p = ⟨assets, lp, conv, c.old, .native c.new⟩ := by
  simp only [takeOver, bind_ok_iff, require_ok, exists_const, Except.ok.injEq, Prod.mk.injEq] at h
  exact h.choose_spec.2.2.2.2.2.symm

/-- A swap after the upgrade is one in front of the converter. -/
theorem call_swap {c : Cfg A D} {p : PairCfg A D} (hp : p.src = c.old) {pair x : A} {s s' : State A D}
    {funds : List (D × Nat)} {offer : Info A D} {n : Nat} {dst : Option A}
    (h : pairTx p c pair s x (.call funds (.swap offer n dst)) = .ok s') :
    exec c p.conv pair s x (.pairNative offer n funds dst) = .ok s' := by
  simp only [pairTx, bind_ok_iff, require_ok, exists_const] at h
  obtain ⟨_, s1, h1, h⟩ := h
  simp only [exec, bind_ok_iff]
  refine ⟨s1, h1, ?_⟩
  cases offer with
  | token a => simp [pairExecute] at h
  | native d =>
    simp only [pairExecute, bind_ok_iff, require_ok, exists_const] at h
    obtain ⟨m, hm, rfl, h⟩ := h
    simp only [bind_ok_iff, require_ok, exists_const]
    refine ⟨m, hm, rfl, ?_⟩
    simp only [pairSwap, bind_ok_iff, require_ok, exists_const] at h
    obtain ⟨hd, h⟩ := h
    rw [← hd] at h
    simp only [pairSwapNative, bind_ok_iff, require_ok, exists_const]
    exact ⟨hd.trans hp, by simpa only [bind_ok_iff] using h⟩

theorem sendTo_swap {c : Cfg A D} {p : PairCfg A D} (hp : p.src = c.old) {pair x t : A} {s s' : State A D} {n : Nat}
    {dst : Option A} (h : pairTx p c pair s x (.sendTo t n (.swap dst)) = .ok s') :
    exec c p.conv pair s x (.pairCw20 t n dst) = .ok s' := by
  simp only [pairTx, bind_ok_iff, pairExecute, pairSwap, require_ok, exists_const] at h
  obtain ⟨s1, h1, hd, h⟩ := h
  rw [← hd] at h
  simp only [exec, bind_ok_iff, pairSwapCw20, require_ok, exists_const]
  exact ⟨s1, h1, hd.trans hp, by simpa only [bind_ok_iff] using h⟩

theorem converted_keeps {c : Cfg A D} {me pair x r : A} {s s' : State A D} {n : Nat}
    (h : Converted c me s s' x r n) (hx : x ≠ pair) (hm : me ≠ pair) (i : Info A D) : s.bal i pair ≤ s'.bal i pair := by
  by_cases h1 : i = c.old
  · subst h1
    rw [move_apply h.old pair, if_neg (Ne.symm hx)]
    omega
  · by_cases h2 : i = .native c.new
    · subst h2
      rw [move_apply h.new pair, if_neg (Ne.symm hm)]
      omega
    · rw [h.rest i h1 h2]

theorem world_keeps {c : Cfg A D} (hne : c.old ≠ .native c.new) {me pair x : A} {s s' : State A D} {o : Op A D}
    (hx : x ≠ pair) (hm : me ≠ pair) (h : exec c me pair s x o = .ok s') (i : Info A D) : s.bal i pair ≤ s'.bal i pair := by
  cases o with
  | convert funds r =>
    simp only [exec, bind_ok_iff] at h
    obtain ⟨s1, h1, h2⟩ := h
    unfold convert at h2
    split at h2
    · rename_i d hd
      rw [bind_ok_iff] at h2
      obtain ⟨n, h3, h4⟩ := h2
      obtain ⟨rfl, _⟩ := mustPay_ok h3
      refine converted_keeps (two_sends hne ?_ h4) hx hm i
      rw [hd]
      exact sendAll_one h1
    · simp at h2
  | cw20Send t n r =>
    simp only [exec, bind_ok_iff] at h
    obtain ⟨s1, h1, h2⟩ := h
    unfold cw20Receive at h2
    split at h2
    · rename_i a ha
      simp only [bind_ok_iff, require_ok, exists_const] at h2
      obtain ⟨rfl, h3⟩ := h2
      refine converted_keeps (two_sends hne ?_ h3) hx hm i
      rw [ha]
      exact h1
    · simp at h2
  | forged claimed n r =>
    obtain ⟨e, he⟩ := C62_forged_refused c me pair s x claimed n r
    rw [he] at h
    simp at h
  | transferForBurning funds t =>
    rw [(C62_burning_takes_only_old c me pair s s' x funds t (.inr h)).2.2 i pair (.inr (Ne.symm hm))]
  | burn funds =>
    rw [(C62_burning_takes_only_old c me pair s s' x funds none (.inl h)).2.2 i pair (.inr (Ne.symm hm))]
  | pairNative offer n funds dst => exact converted_keeps (pairNative_converted hne h).2 hx hm i
  | pairCw20 t n dst => exact converted_keeps (pairCw20_converted hne h).2 hx hm i
  | refund n =>
    simp only [exec, bind_ok_iff, csub_ok, Except.ok.injEq] at h
    obtain ⟨r, ⟨h1, rfl⟩, rfl⟩ := h
    by_cases hi : i = c.old
    · subst hi
      simp only [Function.update_self, credit_apply]
      split <;> omega
    · simp only
      rw [Function.update_of_ne hi]
  | transfer j dst n => exact send_mono h hx i

/-! ## C185 -/

/-- **C185.**  The upgrade is accepted exactly of constant product pools of certain old versions whose two assets are the
converter's old and new token, in any order; assets and LP token stay, and the pair trades the old token for the new one. -/
theorem C185_upgrade_accepted_iff (ibc : D → Bool) (old : Info A D) (new : D) (params : Bool) (c : Cfg A D)
    (hc : instantiate ibc old new params = .ok c) (stored v : Upgrade.Stamp) (assets : List (Info A D)) (lp conv : A)
    (p : PairCfg A D) :
    takeOver stored assets lp conv c = .ok (v, p) ↔
      (stored.name = "astroport-pair" ∧ stored.version ∈ ([⟨1, 0, 1⟩, ⟨1, 1, 0⟩, ⟨1, 3, 0⟩, ⟨1, 3, 3⟩] : List Upgrade.Version)) ∧
      (assets = [old, .native new] ∨ assets = [.native new, old]) ∧
      v = ⟨"astroport-pair-converter", 1, 0, 0⟩ ∧ p = ⟨assets, lp, conv, old, .native new⟩ := by
  obtain ⟨rfl, rfl, hne⟩ := instantiate_ok hc
  simp only [takeOver, Upgrade.migrate, bind_ok_iff, require_ok, exists_const, Except.ok.injEq, Prod.mk.injEq,
    Upgrade.accepts, Upgrade.stamp, Bool.and_eq_true, decide_eq_true_eq]
  constructor
  · rintro ⟨_, ⟨hs, rfl⟩, hl, h1, h2, rfl, rfl⟩
    refine ⟨hs, ?_, rfl, rfl⟩
    obtain ⟨a, b, rfl⟩ := List.length_eq_two.1 hl
    simp only [List.mem_cons, List.not_mem_nil, or_false] at h1 h2
    rcases h1 with h1 | h1 <;> rcases h2 with h2 | h2
    · exact absurd (h1.trans h2.symm) hne
    · exact .inl (by rw [h1, h2])
    · exact .inr (by rw [h1, h2])
    · exact absurd (h1.trans h2.symm) hne
  · rintro ⟨hs, ha, rfl, rfl⟩
    refine ⟨_, ⟨hs, rfl⟩, ?_⟩
    rcases ha with rfl | rfl <;> simp

/-- **C185.**  After the upgrade the pair accepts nothing but offers of the old token, by coins attached or tokens really sent,
and every such trade is a conversion one to one for the receiver named: the pair keeps and gives nothing. -/
theorem C185_trades_are_conversions (ibc : D → Bool) (old : Info A D) (new : D) (params : Bool) (c : Cfg A D)
    (hc : instantiate ibc old new params = .ok c) (stored v : Upgrade.Stamp) (assets : List (Info A D)) (lp conv : A)
    (p : PairCfg A D) (hp : takeOver stored assets lp conv c = .ok (v, p)) (pair x : A) (s s' : State A D)
    (t : PairTx A D) (ht : ∀ o, t ≠ .world o) (h : pairTx p c pair s x t = .ok s') :
    ∃ n dst, Converted c conv s s' x (dst.getD x) n ∧
      ((∃ funds, t = .call funds (.swap old n dst)) ∨ ∃ a, old = .token a ∧ t = .sendTo a n (.swap dst)) := by
  obtain ⟨rfl, rfl, hne⟩ := instantiate_ok hc
  rw [takeOver_ok hp] at h
  cases t with
  | world o => exact absurd rfl (ht o)
  | sendTo a n k =>
    cases k with
    | withdraw =>
      simp only [pairTx, bind_ok_iff, pairExecute] at h
      obtain ⟨_, _, h⟩ := h
      cases h
    | swap dst =>
      obtain ⟨ha, hcv⟩ := pairCw20_converted hne (sendTo_swap rfl h)
      exact ⟨n, dst, hcv, .inr ⟨a, ha.symm, rfl⟩⟩
  | call funds m =>
    cases m with
    | swap offer n dst =>
      obtain ⟨rfl, hcv⟩ := pairNative_converted hne (call_swap rfl h)
      exact ⟨n, dst, hcv, .inl ⟨funds, rfl⟩⟩
    | other =>
      simp only [pairTx, bind_ok_iff, pairExecute] at h
      obtain ⟨_, _, _, _, h⟩ := h
      cases h
    | receive u n k =>
      cases k with
      | withdraw =>
        simp only [pairTx, bind_ok_iff, pairExecute] at h
        obtain ⟨_, _, _, _, h⟩ := h
        cases h
      | swap dst =>
        simp only [pairTx, bind_ok_iff, pairExecute, pairSwap, require_ok, exists_const] at h
        obtain ⟨h1, _, _, h2, _⟩ := h
        exact absurd h2.symm h1

/-- What one transaction leaves the pair. -/
theorem pairTx_keeps {c : Cfg A D} (hne : c.old ≠ .native c.new) {p : PairCfg A D} (hp : p.src = c.old) {pair x : A}
    {s s' : State A D} {t : PairTx A D} (hx : x ≠ pair) (hm : p.conv ≠ pair) (h : pairTx p c pair s x t = .ok s')
    (i : Info A D) : s.bal i pair ≤ s'.bal i pair := by
  cases t with
  | world o => exact world_keeps hne hx hm h i
  | sendTo a n k =>
    cases k with
    | withdraw =>
      simp only [pairTx, bind_ok_iff, pairExecute] at h
      obtain ⟨_, _, h⟩ := h
      cases h
    | swap dst => exact converted_keeps (pairCw20_converted hne (sendTo_swap hp h)).2 hx hm i
  | call funds m =>
    cases m with
    | swap offer n dst => exact converted_keeps (pairNative_converted hne (call_swap hp h)).2 hx hm i
    | other =>
      simp only [pairTx, bind_ok_iff, pairExecute] at h
      obtain ⟨_, _, _, _, h⟩ := h
      cases h
    | receive u n k =>
      cases k with
      | withdraw =>
        simp only [pairTx, bind_ok_iff, pairExecute] at h
        obtain ⟨_, _, _, _, h⟩ := h
        cases h
      | swap dst =>
        simp only [pairTx, bind_ok_iff, pairExecute, pairSwap, require_ok, exists_const] at h
        obtain ⟨h1, _, _, h2, _⟩ := h
        exact absurd (hp.symm.trans h2.symm) h1

/-- **C185, what holds of the liquidity.**  Nobody can take anything the pool held at the upgrade, whatever happens afterwards.
Missing: that its providers can. -/
theorem C185_liquidity_untouched_partial (ibc : D → Bool) (old : Info A D) (new : D) (params : Bool) (c : Cfg A D)
    (hc : instantiate ibc old new params = .ok c) (stored v : Upgrade.Stamp) (assets : List (Info A D)) (lp conv : A)
    (p : PairCfg A D) (hp : takeOver stored assets lp conv c = .ok (v, p)) (pair : A) (hm : conv ≠ pair) (s : State A D)
    (ts : List (A × PairTx A D)) (i : Info A D) : s.bal i pair ≤ (pairRun p c pair s ts).bal i pair := by
  obtain ⟨rfl, rfl, hne⟩ := instantiate_ok hc
  rw [takeOver_ok hp]
  induction ts generalizing s with
  | nil => exact le_refl _
  | cons t rest ih =>
    obtain ⟨x, t⟩ := t
    refine le_trans ?_ (ih _)
    by_cases hx : x = conv ∨ x = pair
    · rw [if_pos hx]
    · rw [if_neg hx]
      simp only [not_or] at hx
      cases hr : pairTx ⟨assets, lp, conv, c.old, .native c.new⟩ c pair s x t with
      | error e => exact le_refl _
      | ok s' => exact pairTx_keeps (p := ⟨assets, lp, conv, c.old, .native c.new⟩) hne rfl hx.2 hm hr i

/-- A pool (address 11) of 1000 old and 1000 new tokens whose LP tokens (contract 50) are all held by account 2; the converter
(address 10) has 5000 new tokens. -/
def pooled : State Nat Nat where
  bal := fun i a =>
    if i = .native 1 ∧ a = 10 then 5000
    else if (i = .native 0 ∨ i = .native 1) ∧ a = 11 then 1000
    else if i = .token 50 ∧ a = 2 then 1000
    else if i = .native 0 ∧ a < 5 then 100
    else 0
  burned := 0
  bridged := 0

/-- **C185, what is false.**  The upgrade is accepted of a pool with liquidity.  From then on the pair reports that it holds
nothing and that there are no LP tokens, refuses the holder of all LP tokens every withdrawal (by whatever message), and in
every history keeps all that was in the pool: the liquidity is lost to its providers. -/
theorem C185_liquidity_lost_violated :
    ∃ (v : Upgrade.Stamp) (p : PairCfg Nat Nat),
      takeOver ⟨"astroport-pair", 1, 3, 3⟩ [.native 0, .native 1] 50 10 demoC = .ok (v, p) ∧
      pooled.bal (.native 0) 11 = 1000 ∧ pooled.bal (.native 1) 11 = 1000 ∧ pooled.bal (.token p.lp) 2 = 1000 ∧
      queryPool p = ([(.native 0, 0), (.native 1, 0)], 0) ∧
      ∀ ts : List (Nat × PairTx Nat Nat),
        1000 ≤ (pairRun p demoC 11 pooled ts).bal (.native 0) 11 ∧
        1000 ≤ (pairRun p demoC 11 pooled ts).bal (.native 1) 11 ∧
        (∀ n k s', pairTx p demoC 11 (pairRun p demoC 11 pooled ts) 2 (.sendTo p.lp n k) ≠ .ok s') ∧
        ∀ funds u n k s', pairTx p demoC 11 (pairRun p demoC 11 pooled ts) 2 (.call funds (.receive u n k)) ≠ .ok s' := by
  have hc : instantiate (fun d => decide (d = 0)) (.native 0) 1 true = (.ok demoC : Res (Cfg Nat Nat)) := by rfl
  have hp : takeOver ⟨"astroport-pair", 1, 3, 3⟩ [.native 0, .native 1] 50 10 demoC =
      .ok (⟨"astroport-pair-converter", 1, 0, 0⟩, ⟨[.native 0, .native 1], 50, 10, .native 0, .native 1⟩) :=
    (C185_upgrade_accepted_iff _ _ _ _ _ hc _ _ _ _ _ _).2 ⟨⟨rfl, by decide⟩, .inl rfl, rfl, rfl⟩
  refine ⟨_, _, hp, rfl, rfl, rfl, rfl, fun ts => ⟨?_, ?_, ?_, ?_⟩⟩
  · exact C185_liquidity_untouched_partial _ _ _ _ _ hc _ _ _ _ _ _ hp 11 (by decide) pooled ts (.native 0)
  · exact C185_liquidity_untouched_partial _ _ _ _ _ hc _ _ _ _ _ _ hp 11 (by decide) pooled ts (.native 1)
  · intro n k s' h
    obtain ⟨_, _, _, h | ⟨a, h, _⟩⟩ := C185_trades_are_conversions _ _ _ _ _ hc _ _ _ _ _ _ hp 11 2 _ s' _ (by simp) h
    · obtain ⟨_, h⟩ := h; cases h
    · cases h
  · intro funds u n k s' h
    obtain ⟨_, _, _, h | ⟨a, h, _⟩⟩ := C185_trades_are_conversions _ _ _ _ _ hc _ _ _ _ _ _ hp 11 2 _ s' _ (by simp) h
    · obtain ⟨_, h⟩ := h; cases h
    · cases h

/-- Trades work after the upgrade, with coins and (where the old token is a cw20 token) with tokens. -/
example : okAnd (takeOver ⟨"astroport-pair", 1, 0, 1⟩ [.native 1, .native 0] 50 10 demoC) (fun x =>
    let s := pairRun x.2 demoC 11 pooled [(3, .call [(0, 60)] (.swap (.native 0) 60 (some 4))), (3, .call [(0, 20)]
      (.swap (.native 0) 30 none)), (2, .sendTo 50 1000 .withdraw), (1, .world (.convert [(0, 5)] none))]
    decide ([s.bal (.native 1) 4, s.bal (.native 0) 3, s.bal (.native 0) 10, s.bal (.native 1) 10, s.bal (.native 0) 11,
      s.bal (.native 1) 11, s.bal (.token 50) 2] = [60, 40, 65, 4935, 1000, 1000, 1000])) = true := by
  decide +kernel

example : okAnd (instantiate (fun _ => false) (.token 77) 1 false : Res (Cfg Nat Nat)) (fun c =>
    okAnd (takeOver ⟨"astroport-pair", 1, 1, 0⟩ [.token 77, .native 1] 50 10 c) (fun x =>
      okAnd (pairTx x.2 c 11 { pooled with bal := fun i a => if i = .native 1 ∧ a = 10 then 1000 else if a < 5 then 100 else 0 }
        2 (.sendTo 77 60 (.swap none))) (fun s =>
        decide (s.bal (.native 1) 2 = 160 ∧ s.bal (.token 77) 10 = 60 ∧ s.bal (.token 77) 11 = 0)))) = true := by
  decide +kernel

/-- Pools of other tokens are refused. -/
example : fails (takeOver ⟨"astroport-pair", 1, 3, 3⟩ [.native 0, .native 2] 50 10 demoC) = true ∧
    fails (takeOver ⟨"astroport-pair", 1, 3, 3⟩ [.native 0, .native 1, .native 2] 50 10 demoC) = true ∧
    fails (takeOver ⟨"astroport-pair", 1, 5, 0⟩ [.native 0, .native 1] 50 10 demoC) = true := by
  decide +kernel

end Verif.Converter
