import Verif.XYK.Model
import Verif.Asset.Props
import Verif.Base.Listing

/-!
# Coins, tokens and allowances around a pair

The part of the chain that every pair with two assets sees in the same way: the bank, the cw20 tokens with their
allowances, coins attached to a message, and the messages by which a pair pays.  `Stable/Entry.lean` and
`PCL/Entry.lean` put a pair's own code on top of it.
-/

namespace Verif.Ledgers

open Verif
open Verif.XYK (sendOpt)
open Verif.Asset (Str Info Coin assertSent assertCoins sent declared)

set_option linter.unusedSectionVars false

variable {A : Type} [DecidableEq A]

/-- The balances of all coins and of all cw20 tokens, and allowances (token, owner, spender). -/
structure Led (A : Type) where
  bank : Str → A → Nat
  tok : Str → A → Nat
  allow : Str → A → A → Nat

/-- What never changes about a pair (`PairInfo`, packages/astroport/src/asset.rs:600-615), and the address of every account
as text. -/
structure Cfg (A : Type) where
  me : A
  infos : Bool → Info
  /-- denom of the LP token -/
  lp : Str
  addr : A → Str
  /-- valid addresses -/
  okAddr : Str → Bool
  /-- decimals of the two assets -/
  prec : Bool → Nat

/-- The two assets differ, and neither is the LP token. -/
structure Cfg.Ok (c : Cfg A) : Prop where
  ne : c.infos false ≠ c.infos true
  lp : ∀ i, c.infos i ≠ .native c.lp

/-- The ledger of an asset. -/
def Led.of (w : Led A) : Info → A → Nat
  | .native d => w.bank d
  | .token t => w.tok t

/-- The ledgers with another ledger of an asset. -/
def Led.set (w : Led A) : Info → (A → Nat) → Led A
  | .native d, l => { w with bank := Function.update w.bank d l }
  | .token t, l => { w with tok := Function.update w.tok t l }

/-- A transfer. -/
def Led.move (w : Led A) (k : Info) (src dst : A) (n : Nat) : Res (Led A) := do
  let l ← Verif.move (w.of k) src dst n
  .ok (w.set k l)

/-- The bank: coins attached to a message. -/
def attach (w : Led A) (src dst : A) : List Coin → Res (Led A)
  | [] => .ok w
  | c :: cs => do
    let w ← w.move (.native c.denom) src dst c.amount
    attach w src dst cs

/-- Attached coins as the bank accepts them: each denom once, none zero. -/
def ValidFunds (funds : List Coin) : Prop := (funds.map Coin.denom).Nodup ∧ ∀ c ∈ funds, c.amount ≠ 0

instance (funds : List Coin) : Decidable (ValidFunds funds) := inferInstanceAs (Decidable (_ ∧ _))

/-- `is_native_token`, packages/astroport/src/asset.rs:486-491. -/
def isNative : Info → Bool
  | .native _ => true
  | .token _ => false

/-- `Asset::into_msg`, packages/astroport/src/asset.rs:183-202, and its execution: the bank refuses to send nothing. -/
def pay (me : A) (w : Led A) (k : Info) (dst : A) (n : Nat) : Res (Led A) := do
  require (¬ (isNative k = true ∧ n = 0)) (.invalid "invalid coins")
  w.move k me dst n

/-- A payment that is skipped when there is nothing to pay or nobody to receive it (contracts/pair_stable/src/contract.rs:
612-615, 623-640, 643-653 with `calculate_maker_fee`, 704-719; contracts/pair_concentrated/src/contract.rs:755-772). -/
def payNonzero (me : A) (w : Led A) (k : Info) (dst : Option A) (n : Nat) : Res (Led A) :=
  match dst with
  | none => .ok w
  | some a => if n = 0 then .ok w else pay me w k a n

/-- `TransferFrom` of a cw20 token (packages `cw20-base`): within the allowance. -/
def transferFrom (w : Led A) (t : Str) (owner spender dst : A) (n : Nat) : Res (Led A) := do
  let left ← csub (w.allow t owner spender) n
  let l ← Verif.move (w.tok t) owner dst n
  .ok { w with tok := Function.update w.tok t l
               allow := fun t' o s => if t' = t ∧ o = owner ∧ s = spender then left else w.allow t' o s }

/-- The LP token (a coin of the token factory) is minted: `tf_mint_msg`. -/
def mint (w : Led A) (d : Str) (dst : A) (n : Nat) : Led A :=
  { w with bank := Function.update w.bank d (credit (w.bank d) dst n) }

/-- `tf_burn_msg`. -/
def burn (w : Led A) (d : Str) (src : A) (n : Nat) : Res (Led A) := do
  let l ← debit (w.bank d) src n
  .ok { w with bank := Function.update w.bank d l }

/-- `cw_utils::one_coin`. -/
def oneCoin : List Coin → Res Coin
  | [x] => if x.amount = 0 then .error (.invalid "NoFunds") else .ok x
  | [] => .error (.invalid "NoFunds")
  | _ => .error (.invalid "MultipleDenoms")

/-- Which of the two assets of the pair. -/
def label (c : Cfg A) (k : Info) : Option Bool :=
  if k = c.infos false then some false else if k = c.infos true then some true else none

/-- The declared amount of an asset, as `get_assets_collection` (contracts/pair_stable/src/utils.rs:493-520) pairs it with its pool. -/
def amountOf (assets : List Asset.Asset) (k : Info) : Nat :=
  ((assets.find? fun a => decide (a.info = k)).map Asset.Asset.amount).getD 0

/-- The deposit of one asset arrives: contracts/pair_stable/src/contract.rs:369-387, executed. -/
def pull (c : Cfg A) (w : Led A) (sender : A) (i : Bool) (d : Nat) : Res (Led A) :=
  match c.infos i with
  | .native _ => .ok w
  | .token t => if d = 0 then .ok w else transferFrom w t sender c.me c.me d

/-! ## Lemmas -/

theorem move_zero (l : A → Nat) (a b : A) : Verif.move l a b 0 = .ok l := by
  refine move_ok.2 ⟨l, debit_ok.2 ⟨Nat.zero_le _, by simp⟩, ?_⟩
  simp [credit]

theorem move_move {l l₁ l₂ : A → Nat} {a b : A} (hab : a ≠ b) {m n : Nat} (h1 : Verif.move l a b m = .ok l₁)
    (h2 : Verif.move l₁ a b n = .ok l₂) : Verif.move l a b (m + n) = .ok l₂ := by
  have hm := move_le h1
  have hn := move_le h2
  have e1 := move_apply h1
  have e2 := move_apply h2
  have ha := e1 a
  rw [if_pos rfl, if_neg hab] at ha
  obtain ⟨l', h⟩ := move_succeeds (l := l) (a := a) (b := b) (n := m + n) (by omega)
  rw [h]
  congr 1
  funext x
  rw [move_apply h, e2, e1]
  by_cases hx : x = a
  · have hxb : x ≠ b := fun e => hab (hx.symm.trans e)
    simp only [if_pos hx, if_neg hxb]
    omega
  · simp only [if_neg hx]
    split_ifs <;> omega

/-- A transfer in two parts. -/
theorem move_rest {l l₁ l₂ : A → Nat} {a b : A} (hab : a ≠ b) {m n : Nat} (h1 : Verif.move l a b m = .ok l₁)
    (h2 : Verif.move l a b (m + n) = .ok l₂) : Verif.move l₁ a b n = .ok l₂ := by
  have hle := move_le h2
  have ha := move_apply h1 a
  rw [if_pos rfl, if_neg hab] at ha
  obtain ⟨l', h⟩ := move_succeeds (l := l₁) (a := a) (b := b) (n := n) (by omega)
  have := move_move hab h1 h
  rw [h2, Except.ok.injEq] at this
  rw [this, h]

/-- A transfer of one asset (to nobody: none) and nothing else. -/
structure Moved (w : Led A) (k : Info) (src : A) (dst : Option A) (n : Nat) (w' : Led A) : Prop where
  move : sendOpt (w.of k) src dst n = .ok (w'.of k)
  other : ∀ j, j ≠ k → w'.of j = w.of j

theorem of_set (w : Led A) (k j : Info) (l : A → Nat) : (w.set k l).of j = if j = k then l else w.of j := by
  cases k <;> cases j <;> simp [Led.set, Led.of, Function.update_apply]

theorem move_moved {w w' : Led A} {k : Info} {src dst : A} {n : Nat} (h : w.move k src dst n = .ok w') :
    Moved w k src (some dst) n w' := by
  simp only [Led.move, bind_ok_iff, Except.ok.injEq] at h
  obtain ⟨l, h1, rfl⟩ := h
  exact ⟨by rw [of_set, if_pos rfl]; exact h1, fun j hj => by rw [of_set, if_neg hj]⟩

theorem move_keeps {w w' : Led A} {k : Info} {src dst : A} {n : Nat} (h : w.move k src dst n = .ok w') :
    w'.allow = w.allow := by
  simp only [Led.move, bind_ok_iff, Except.ok.injEq] at h
  obtain ⟨l, _, rfl⟩ := h
  cases k <;> rfl

theorem pay_moved {me : A} {w w' : Led A} {k : Info} {dst : A} {n : Nat} (h : pay me w k dst n = .ok w') :
    Moved w k me (some dst) n w' := by
  simp only [pay, bind_ok_iff, require_ok, exists_const] at h
  exact move_moved h.2

theorem pay_keeps {me : A} {w w' : Led A} {k : Info} {dst : A} {n : Nat} (h : pay me w k dst n = .ok w') :
    w'.allow = w.allow := by
  simp only [pay, bind_ok_iff, require_ok, exists_const] at h
  exact move_keeps h.2

theorem payNonzero_moved {me : A} {w w' : Led A} {k : Info} {dst : Option A} {n : Nat}
    (h : payNonzero me w k dst n = .ok w') : Moved w k me dst n w' := by
  unfold payNonzero at h
  cases dst with
  | none =>
    simp only [Except.ok.injEq] at h
    subst h
    exact ⟨rfl, fun _ _ => rfl⟩
  | some a =>
    simp only at h
    by_cases hn : n = 0
    · rw [if_pos hn, Except.ok.injEq] at h
      subst h
      subst hn
      exact ⟨move_zero _ _ _, fun _ _ => rfl⟩
    · rw [if_neg hn] at h
      exact pay_moved h

theorem payNonzero_keeps {me : A} {w w' : Led A} {k : Info} {dst : Option A} {n : Nat}
    (h : payNonzero me w k dst n = .ok w') : w'.allow = w.allow := by
  unfold payNonzero at h
  split at h
  · simp only [Except.ok.injEq] at h
    rw [h]
  · split_ifs at h
    · simp only [Except.ok.injEq] at h
      rw [h]
    · exact pay_keeps h

theorem transferFrom_moved {w w' : Led A} {t : Str} {owner spender dst : A} {n : Nat}
    (h : transferFrom w t owner spender dst n = .ok w') : Moved w (.token t) owner (some dst) n w' := by
  simp only [transferFrom, bind_ok_iff, csub_ok, Except.ok.injEq] at h
  obtain ⟨left, ⟨_, rfl⟩, l, h1, rfl⟩ := h
  refine ⟨?_, ?_⟩
  · simp only [Led.of, Function.update_self]
    exact h1
  · intro j hj
    cases j with
    | native d => rfl
    | token t' =>
      have : t' ≠ t := fun e => hj (by rw [e])
      simp [Led.of, this]

theorem transferFrom_allow {w w' : Led A} {t : Str} {owner spender dst : A} {n : Nat}
    (h : transferFrom w t owner spender dst n = .ok w') :
    (∀ t' o s, ¬ (t' = t ∧ o = owner ∧ s = spender) → w'.allow t' o s = w.allow t' o s) ∧
      w'.allow t owner spender + n = w.allow t owner spender := by
  simp only [transferFrom, bind_ok_iff, csub_ok, Except.ok.injEq] at h
  obtain ⟨left, ⟨hle, rfl⟩, l, h1, rfl⟩ := h
  refine ⟨fun t' o s hn => if_neg hn, ?_⟩
  simp only [and_self, if_true]
  omega

theorem sent_cons (x : Coin) (xs : List Coin) (d : Str) :
    sent (x :: xs) d = (if x.denom = d then x.amount else 0) + sent xs d := by
  unfold sent
  by_cases h : x.denom = d <;> simp [h]

theorem attach_keeps {src dst : A} : ∀ {funds : List Coin} {w w' : Led A}, attach w src dst funds = .ok w' →
    w'.allow = w.allow
  | [], w, w', h => by
    simp only [attach, Except.ok.injEq] at h
    rw [h]
  | x :: xs, w, w', h => by
    simp only [attach, bind_ok_iff] at h
    obtain ⟨w1, h1, h2⟩ := h
    exact (attach_keeps h2).trans (move_keeps h1)

theorem attach_spec {src dst : A} (hne : src ≠ dst) : ∀ {funds : List Coin} {w w' : Led A},
    attach w src dst funds = .ok w' →
    (∀ d, Verif.move (w.bank d) src dst (sent funds d) = .ok (w'.bank d)) ∧ w'.tok = w.tok
  | [], w, w', h => by
    simp only [attach, Except.ok.injEq] at h
    subst h
    exact ⟨fun d => move_zero _ _ _, rfl⟩
  | x :: xs, w, w', h => by
    simp only [attach, bind_ok_iff] at h
    obtain ⟨w1, h1, h2⟩ := h
    obtain ⟨i1, i2⟩ := attach_spec hne h2
    have m := move_moved h1
    refine ⟨fun d => ?_, ?_⟩
    · rw [sent_cons]
      by_cases hd : x.denom = d
      · rw [if_pos hd]
        subst hd
        exact move_move hne m.move (i1 _)
      · rw [if_neg hd, Nat.zero_add]
        have := m.other (.native d) (by simpa using fun e => hd e.symm)
        have e : w1.bank d = w.bank d := this
        rw [← e]
        exact i1 d
    · funext t
      rw [i2]
      exact m.other (.token t) (by simp)

/-- Coins that are there can be attached. -/
theorem attach_succeeds {src dst : A} (hne : src ≠ dst) : ∀ {funds : List Coin} {w : Led A},
    (∀ d, sent funds d ≤ w.bank d src) → ∃ w', attach w src dst funds = .ok w'
  | [], w, _ => ⟨w, rfl⟩
  | x :: xs, w, h => by
    have hx := h x.denom
    rw [sent_cons, if_pos rfl] at hx
    obtain ⟨l, hl⟩ := move_succeeds (l := w.bank x.denom) (a := src) (b := dst) (n := x.amount) (by omega)
    have hm : w.move (.native x.denom) src dst x.amount = .ok (w.set (.native x.denom) l) := by
      simp only [Led.move, Led.of, hl, ok_bind]
    have := attach_succeeds hne (funds := xs) (w := w.set (.native x.denom) l) (by
      intro d
      have hd := h d
      rw [sent_cons] at hd
      by_cases he : x.denom = d
      · subst he
        rw [if_pos rfl] at hd
        simp only [Led.set, Function.update_self]
        rw [move_apply hl, if_pos rfl, if_neg hne]
        omega
      · rw [if_neg he] at hd
        simp only [Led.set, Function.update_of_ne (Ne.symm he)]
        omega)
    obtain ⟨w', hw⟩ := this
    exact ⟨w', by simp only [attach, hm, ok_bind]; exact hw⟩

theorem label_infos {c : Cfg A} (hc : c.Ok) (i : Bool) : label c (c.infos i) = some i := by
  cases i
  · simp [label]
  · simp [label, hc.ne.symm]

theorem label_some {c : Cfg A} {k : Info} {i : Bool} (h : label c k = some i) : k = c.infos i := by
  unfold label at h
  split_ifs at h <;> simp_all

theorem infos_inj {c : Cfg A} (hc : c.Ok) {i j : Bool} (h : c.infos i = c.infos j) : i = j := by
  have := congrArg (label c) h
  rw [label_infos hc, label_infos hc] at this
  simpa using this

theorem Moved.mono {w w' : Led A} {k : Info} {src : A} {dst : Option A} {n : Nat} (m : Moved w k src dst n w') {a : A}
    (ha : a ≠ src) (j : Info) : w.of j a ≤ w'.of j a := by
  by_cases hj : j = k
  · subst hj
    have := m.move
    cases dst with
    | none =>
      simp only [sendOpt, Except.ok.injEq] at this
      rw [this]
    | some d =>
      simp only [sendOpt] at this
      rw [move_apply this, if_neg ha]
      exact Nat.le_add_right _ _
  · rw [m.other j hj]

theorem attach_mono {src dst : A} : ∀ {funds : List Coin} {w w' : Led A}, attach w src dst funds = .ok w' →
    ∀ {a : A}, a ≠ src → ∀ j, w.of j a ≤ w'.of j a
  | [], w, w', h, a, ha, j => by
    simp only [attach, Except.ok.injEq] at h
    rw [h]
  | x :: xs, w, w', h, a, ha, j => by
    simp only [attach, bind_ok_iff] at h
    obtain ⟨w1, h1, h2⟩ := h
    exact Nat.le_trans ((move_moved h1).mono ha j) (attach_mono h2 ha j)

theorem mint_of {w : Led A} {d : Str} {dst : A} {n : Nat} (k : Info) (hk : k ≠ .native d) : (mint w d dst n).of k = w.of k := by
  cases k with
  | token t => rfl
  | native x =>
    have : x ≠ d := fun e => hk (by rw [e])
    simp [mint, Led.of, this]

theorem mint_mono {w : Led A} {d : Str} {dst : A} {n : Nat} (k : Info) (a : A) : w.of k a ≤ (mint w d dst n).of k a := by
  by_cases hk : k = .native d
  · subst hk
    simp only [mint, Led.of, Function.update_self, credit_apply]
    split_ifs <;> omega
  · rw [mint_of k hk]

theorem burn_of {w w' : Led A} {d : Str} {src : A} {n : Nat} (h : burn w d src n = .ok w') (k : Info) (hk : k ≠ .native d) :
    w'.of k = w.of k := by
  simp only [burn, bind_ok_iff, Except.ok.injEq] at h
  obtain ⟨l, _, rfl⟩ := h
  cases k with
  | token t => rfl
  | native x =>
    have : x ≠ d := fun e => hk (by rw [e])
    simp [Led.of, this]

theorem burn_mono {w w' : Led A} {d : Str} {src : A} {n : Nat} (h : burn w d src n = .ok w') (k : Info) {a : A} (ha : a ≠ src) :
    w.of k a ≤ w'.of k a := by
  by_cases hk : k = .native d
  · simp only [burn, bind_ok_iff, Except.ok.injEq] at h
    obtain ⟨l, hl, rfl⟩ := h
    subst hk
    simp only [Led.of, Function.update_self]
    rw [debit_apply hl, if_neg ha]
  · rw [burn_of h k hk]

theorem oneCoin_ok {funds : List Coin} {x : Coin} (h : oneCoin funds = .ok x) : funds = [x] ∧ x.amount ≠ 0 := by
  unfold oneCoin at h
  split at h
  · split_ifs at h with hz
    simp only [Except.ok.injEq] at h
    subst h
    exact ⟨rfl, hz⟩
  · simp at h
  · simp at h

theorem foldlM_append_ok {σ α : Type} {f : σ → α → Res σ} {xs ys : List α} {s s' s'' : σ}
    (h1 : xs.foldlM f s = .ok s') (h2 : ys.foldlM f s' = .ok s'') : (xs ++ ys).foldlM f s = .ok s'' := by
  rw [List.foldlM_append, h1]
  exact h2

theorem amountOf_eq {assets : List Asset.Asset} (hn : (assets.map Asset.Asset.info).Nodup) (k : Info) :
    amountOf assets k = declared assets k := by
  unfold amountOf
  cases hf : assets.find? (fun a => decide (a.info = k)) with
  | none =>
    rw [Asset.declared_of_not_mem]
    · rfl
    · intro a ha he
      have := List.find?_eq_none.1 hf a ha
      simp [he] at this
  | some a =>
    have hm := List.mem_of_find?_eq_some hf
    have hk : a.info = k := by simpa using List.find?_some hf
    rw [← hk, Asset.declared_of_mem hn hm]
    rfl

theorem forAll_ok {α : Type} {f : α → Res Unit} : ∀ {l : List α}, Asset.forAll f l = .ok () → ∀ x ∈ l, f x = .ok ()
  | [], _, x, hx => by simp at hx
  | y :: ys, h, x, hx => by
    simp only [Asset.forAll, bind_ok_iff] at h
    obtain ⟨⟨⟩, h1, h2⟩ := h
    rcases List.mem_cons.1 hx with rfl | hx
    · exact h1
    · exact forAll_ok h2 x hx

theorem pull_other {c : Cfg A} {l l' : Led A} {x : A} {i : Bool} {d : Nat} (h : pull c l x i d = .ok l') :
    (∀ j, j ≠ c.infos i → l'.of j = l.of j) ∧ l'.bank = l.bank := by
  unfold pull at h
  generalize c.infos i = k at *
  cases k with
  | native k =>
    simp only [Except.ok.injEq] at h
    subst h
    exact ⟨fun _ _ => rfl, rfl⟩
  | token t =>
    simp only at h
    split_ifs at h
    · simp only [Except.ok.injEq] at h
      subst h
      exact ⟨fun _ _ => rfl, rfl⟩
    · have m := transferFrom_moved h
      exact ⟨m.other, funext fun d => m.other (.native d) (by simp)⟩

theorem pay_nonzero {me : A} {w w' : Led A} {k : Info} {dst : A} {n : Nat} (h : pay me w k dst n = .ok w') :
    ¬ (isNative k = true ∧ n = 0) := by
  simp only [pay, bind_ok_iff, require_ok, exists_const] at h
  exact h.1

theorem pull_mono {c : Cfg A} {l l' : Led A} {x a : A} {i : Bool} {d : Nat} (h : pull c l x i d = .ok l')
    (ha : a ≠ x) (j : Info) : l.of j a ≤ l'.of j a := by
  unfold pull at h
  split at h
  · simp only [Except.ok.injEq] at h
    rw [h]
  · split_ifs at h
    · simp only [Except.ok.injEq] at h
      rw [h]
    · exact (transferFrom_moved h).mono ha j

end Verif.Ledgers
