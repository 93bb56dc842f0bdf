import Verif.SaleTax.History
import Verif.Upgrade.Versions

/-!
# Upgrading a constant product pool to a pool with sale tax (C154)

`migrate` of `contracts/pair_xyk_sale_tax` takes over constant product pools of the versions 1.3.0 to 1.5.1.  The stored
configuration is carried over with the taxes added.  Those versions had issued a cw20 LP token, while the new code knows
only coins of the token factory: it looks up the supply, takes payments and mints in a *coin* of the name of the old token.
-/

namespace Verif.SaleTax

open Verif.XYK

variable {A : Type} [DecidableEq A]

/-- `Config` of the constant product pool, contracts/pair/src/state.rs:11-28. -/
structure OldConfig (A : Type) where
  infos : Bool → Info
  lpToken : String
  factory : A
  twap : Twap
  track : Bool
  feeShare : Option (Nat × A)
  tracker : Option A

/-- `Config` of the pool with sale tax, contracts/pair_xyk_sale_tax/src/state.rs. -/
structure NewConfig (A : Type) where
  infos : Bool → Info
  lpToken : String
  factory : A
  twap : Twap
  track : Bool
  tracker : Option A
  tax : Config A

/-- `MigrateMsg`, packages/astroport/src/pair_xyk_sale_tax.rs. -/
structure MigrateMsg (A : Type) where
  taxes : Taxes A
  admin : A

/-- `migrate`, contracts/pair_xyk_sale_tax/src/contract.rs:1417-1468; the check of name and version is
`Verif.Upgrade.migrate`. -/
def migrate (denomOk : String → Bool) (stored : Upgrade.Stamp) (old : OldConfig A) (m : MigrateMsg A) :
    Res (Upgrade.Stamp × NewConfig A) := do
  let st ← Upgrade.migrate stored ⟨.saleTax, false⟩
  let t ← checkTaxes denomOk old.infos m.taxes
  .ok (st, { infos := old.infos, lpToken := old.lpToken, factory := old.factory, twap := old.twap, track := old.track,
             tracker := none, tax := { taxes := t, admin := m.admin } })

/-- What the LP token of a pool is: a coin that the pool has created with the token factory, or a cw20 token. -/
inductive LpKind
  | coin
  | cw20
  deriving DecidableEq, Repr

/-- The pool after the upgrade: the pair as the new code sees it, in which `st.lp` and `st.supply` are the ledger and the
supply of the *coin* named like the LP token; whether the pool may mint that coin; and the ledger of the cw20 token of that
address, if the LP token was one. -/
structure After (A : Type) where
  world : World A
  mayMint : Bool
  cw20 : A → Nat

/-- The chain after the upgrade of a pool in the state `s`.  If the LP token is a cw20 token, the coin of the same name does
not exist: bank coins are created by the token factory under names `factory/…` only, so nobody holds any of it and the pool
is not allowed to mint it. -/
def upgraded (kind : LpKind) (s : State A) (c : NewConfig A) : After A :=
  match kind with
  | .coin => { world := { st := { s with twap := c.twap }, cfg := c.tax }, mayMint := true, cw20 := fun _ => 0 }
  | .cw20 => { world := { st := { s with twap := c.twap, lp := fun _ => 0, supply := 0 }, cfg := c.tax }
               mayMint := false, cw20 := s.lp }

/-- Transactions after the upgrade: those of the pool, transfers of the old cw20 LP token, and sending it to the pool with a
message (`receive_cw20`, contracts/pair_xyk_sale_tax/src/contract.rs:276-323, which knows no message but `Swap`, and that only from
the contracts of the pool's assets). -/
inductive AOp (A : Type)
  | pool (o : TOp A)
  | sendCw20 (src dst : A) (n : Nat)
  | cw20ToPool (src : A) (n : Nat)

/-- Does the transaction mint LP tokens? -/
def TOp.mints : TOp A → Bool
  | .provide .. => true
  | _ => false

/-- One transaction.  `tf_mint_msg` (packages/astroport/src/token_factory.rs) fails for a coin the pool has not created, and with
it the deposit. -/
def aexec (denomOk : String → Bool) (infos : Bool → Info) (me : A) (a : After A) : AOp A → Res (After A)
  | .pool o => do
    let w ← texec denomOk infos me a.world o
    require (o.mints = true → a.mayMint = true) (.invalid "denom does not exist")
    .ok { a with world := w }
  | .sendCw20 u v n => do
    require (u ≠ me) .unauthorized
    let l ← move a.cw20 u v n
    .ok { a with cw20 := l }
  | .cw20ToPool _ _ => .error .unauthorized

/-- Reverting step. -/
def astep (denomOk : String → Bool) (infos : Bool → Info) (me : A) (a : After A) (o : AOp A) : After A :=
  commit' a (aexec denomOk infos me a o)

/-- History. -/
def arun (denomOk : String → Bool) (infos : Bool → Info) (me : A) (a : After A) (os : List (AOp A)) : After A :=
  os.foldl (astep denomOk infos me) a

/-! ## Specification -/

/-- Nobody can get anything out of the pool's liquidity: every withdrawal is refused, whoever tries and whatever amount. -/
def NobodyCanWithdraw (denomOk : String → Bool) (infos : Bool → Info) (me : A) (a : After A) : Prop :=
  ∀ now user n mins, ∃ e, aexec denomOk infos me a (.pool (.withdraw now user n mins)) = .error e

/-- Nobody can add liquidity either. -/
def NobodyCanProvide (denomOk : String → Bool) (infos : Bool → Info) (me : A) (a : After A) : Prop :=
  ∀ now user d0 d1 tol minLp rcv, ∃ e, aexec denomOk infos me a (.pool (.provide now user d0 d1 tol minLp rcv)) = .error e

/-! ## Lemmas -/

/-- No coin of the name of the LP token exists, and the pool cannot make any. -/
structure NoCoin (a : After A) : Prop where
  lp : ∀ u, a.world.st.lp u = 0
  mint : a.mayMint = false

theorem withdraw_noCoin {denomOk : String → Bool} {infos : Bool → Info} {me : A} {a : After A} (h : NoCoin a) :
    NobodyCanWithdraw denomOk infos me a := by
  intro now user n mins
  cases hx : aexec denomOk infos me a (.pool (.withdraw now user n mins)) with
  | error e => exact ⟨e, rfl⟩
  | ok a' =>
    exfalso
    simp only [aexec, texec, withdraw, XYK.withdraw, bind_ok_iff, require_ok, exists_const] at hx
    obtain ⟨w, ⟨_, x, ⟨hn, l, hl, _⟩, _⟩, _⟩ := hx
    have := move_le hl
    rw [h.lp] at this
    omega

theorem provide_noCoin {denomOk : String → Bool} {infos : Bool → Info} {me : A} {a : After A} (h : NoCoin a) :
    NobodyCanProvide denomOk infos me a := by
  intro now user d0 d1 tol minLp rcv
  cases hx : aexec denomOk infos me a (.pool (.provide now user d0 d1 tol minLp rcv)) with
  | error e => exact ⟨e, rfl⟩
  | ok a' =>
    exfalso
    simp only [aexec, bind_ok_iff, require_ok, exists_const] at hx
    obtain ⟨w, _, hm, _⟩ := hx
    have := hm rfl
    rw [h.mint] at this
    simp at this

theorem astep_noCoin {denomOk : String → Bool} {infos : Bool → Info} {me : A} {a : After A} (h : NoCoin a) (o : AOp A) :
    NoCoin (astep denomOk infos me a o) := by
  unfold astep
  cases hx : aexec denomOk infos me a o with
  | error e => exact h
  | ok a' =>
    show NoCoin a'
    cases o with
    | pool o =>
      cases o with
      | provide now u d0 d1 tol minLp r =>
        obtain ⟨e, he⟩ := provide_noCoin (denomOk := denomOk) (infos := infos) (me := me) h now u d0 d1 tol minLp r
        rw [he] at hx
        cases hx
      | withdraw now u n mins =>
        obtain ⟨e, he⟩ := withdraw_noCoin (denomOk := denomOk) (infos := infos) (me := me) h now u n mins
        rw [he] at hx
        cases hx
      | swap now u i n b m r f =>
        simp only [aexec, texec, bind_ok_iff, require_ok, exists_const, Prod.exists, Except.ok.injEq] at hx
        obtain ⟨w, ⟨_, s, out, hs, rfl⟩, _, rfl⟩ := hx
        unfold swap at hs
        simp only [bind_ok_iff, csub_ok, u128_ok, Except.ok.injEq, Prod.mk.injEq] at hs
        obtain ⟨_, _, _, _, _, _, _, _, _, _, _, _, _, _, _, _, _, _, _, _, _, _, rfl, _⟩ := hs
        exact ⟨h.lp, h.mint⟩
      | send i u v n =>
        simp only [aexec, texec, bind_ok_iff, require_ok, exists_const, Except.ok.injEq] at hx
        obtain ⟨w, ⟨_, l, _, rfl⟩, _, rfl⟩ := hx
        exact ⟨h.lp, h.mint⟩
      | sendLp u v n =>
        simp only [aexec, texec, bind_ok_iff, require_ok, exists_const, Except.ok.injEq] at hx
        obtain ⟨w, ⟨_, l, hl, rfl⟩, _, rfl⟩ := hx
        refine ⟨fun x => ?_, h.mint⟩
        have hle := move_le hl
        have := move_apply hl x
        rw [h.lp] at hle
        rw [h.lp x] at this
        simp only
        rw [this]
        split <;> split <;> omega
      | config o =>
        simp only [aexec, texec, bind_ok_iff, require_ok, exists_const, Except.ok.injEq] at hx
        obtain ⟨w, ⟨_, c, _, rfl⟩, _, rfl⟩ := hx
        exact ⟨h.lp, h.mint⟩
    | sendCw20 u v n =>
      simp only [aexec, bind_ok_iff, require_ok, exists_const, Except.ok.injEq] at hx
      obtain ⟨_, l, _, rfl⟩ := hx
      exact ⟨h.lp, h.mint⟩
    | cw20ToPool u n => simp [aexec] at hx

theorem arun_noCoin {denomOk : String → Bool} {infos : Bool → Info} {me : A} : ∀ (os : List (AOp A)) {a : After A},
    NoCoin a → NoCoin (arun denomOk infos me a os)
  | [], _, h => h
  | o :: os, _, h => arun_noCoin os (astep_noCoin h o)

/-! ## C154 -/

omit [DecidableEq A] in
/-- C154: the upgrade takes only constant product pools of the listed versions.  It keeps the pool's assets, its LP token, the
factory, the accumulated prices with their time, and whether balances are recorded; it drops the shared fee and the tracker;
the taxes are those of the message, each on one of the pool's own coins and at most 50%. -/
theorem C154_settings_carried_over {denomOk : String → Bool} {stored st : Upgrade.Stamp} {old : OldConfig A}
    {m : MigrateMsg A} {c : NewConfig A} (h : migrate denomOk stored old m = .ok (st, c)) :
    stored.name = "astroport-pair" ∧
    stored.version ∈ ([⟨1, 3, 0⟩, ⟨1, 3, 1⟩, ⟨1, 3, 3⟩, ⟨1, 4, 0⟩, ⟨1, 5, 0⟩, ⟨1, 5, 1⟩] : List Upgrade.Version) ∧
    c.infos = old.infos ∧ c.lpToken = old.lpToken ∧ c.factory = old.factory ∧ c.twap = old.twap ∧ c.track = old.track ∧
    c.tracker = none ∧ c.tax.taxes = m.taxes ∧ c.tax.admin = m.admin ∧
    ∀ d r a, (d, r, a) ∈ m.taxes → r * 2 ≤ 10 ^ 18 ∧ (old.infos false = .native d ∨ old.infos true = .native d) := by
  simp only [migrate, Upgrade.migrate, bind_ok_iff, require_ok, exists_const, Except.ok.injEq, Prod.mk.injEq] at h
  obtain ⟨_, ⟨h1, rfl⟩, t, ht, rfl, rfl⟩ := h
  simp only [Upgrade.accepts, Bool.and_eq_true, decide_eq_true_eq] at h1
  have key : ∀ (l t : Taxes A), checkTaxes denomOk old.infos l = .ok t →
      t = l ∧ ∀ d r a, (d, r, a) ∈ l → r * 2 ≤ 10 ^ 18 ∧ (old.infos false = .native d ∨ old.infos true = .native d) := by
    intro l
    induction l with
    | nil =>
      intro t ht
      simp only [checkTaxes, Except.ok.injEq] at ht
      exact ⟨ht.symm, by simp⟩
    | cons e rest ih =>
      intro t ht
      simp only [checkTaxes, bind_ok_iff, require_ok, exists_const, Except.ok.injEq] at ht
      obtain ⟨_, h2, h3, r, hr, rfl⟩ := ht
      obtain ⟨rfl, hrest⟩ := ih r hr
      refine ⟨rfl, fun d r' a hm => ?_⟩
      rcases List.mem_cons.1 hm with rfl | hm
      · refine ⟨?_, ?_⟩
        · simp only [DEC] at h3
          omega
        · rcases h2 with h2 | h2
          · exact .inl h2.symm
          · exact .inr h2.symm
      · exact hrest d r' a hm
  obtain ⟨rfl, hk⟩ := key _ _ ht
  exact ⟨h1.1, h1.2, rfl, rfl, rfl, rfl, rfl, rfl, rfl, rfl, hk⟩

/-- C154 (partial: pools whose LP token is a coin of the token factory): after the upgrade every holder of LP tokens withdraws
as before, at the same time for the same refund and with the same effect.  What is missing: pools whose LP token is a cw20
token, see `C154_liquidity_stranded_violated`. -/
theorem C154_withdraw_as_before_partial {denomOk : String → Bool} {stored st : Upgrade.Stamp} {old : OldConfig A}
    {m : MigrateMsg A} {c : NewConfig A} (h : migrate denomOk stored old m = .ok (st, c)) (me : A) (s : State A)
    (hs : s.twap = old.twap) (now : Nat) (user : A) (n : Nat) (s' : State A)
    (hw : XYK.exec me s (.withdraw now user n none) = .ok s') :
    aexec denomOk c.infos me (upgraded .coin s c) (.pool (.withdraw now user n none)) =
      .ok { upgraded .coin s c with world := { st := s', cfg := c.tax } } := by
  have htw : c.twap = s.twap := by
    rw [(C154_settings_carried_over h).2.2.2.2.2.1, hs]
  have hst : (upgraded .coin s c).world.st = s := by
    show { s with twap := c.twap } = s
    rw [htw]
  simp only [XYK.exec, Op.signer, bind_ok_iff, Prod.exists, Except.ok.injEq] at hw
  obtain ⟨_, hu, s1, r0, r1, hw, rfl⟩ := hw
  have hu' := (require_ok _ _ _).1 hu
  have hr : require ((TOp.withdraw now user n none : TOp A).signer ≠ me) Err.unauthorized = .ok () := (require_ok _ _ _).2 hu'
  simp only [aexec, texec, withdraw]
  rw [hst, hr, hw]
  rfl

/-- C154 is violated for pools whose LP token is a cw20 token, which is what the versions the upgrade accepts had issued
(contracts/pair/src/contract.rs:1425 refuses the same upgrade for this reason): after the upgrade, whatever happens, nobody
can ever withdraw liquidity from the pool or add any. -/
theorem C154_liquidity_stranded_violated (denomOk : String → Bool) (me : A) (s : State A) (c : NewConfig A)
    (os : List (AOp A)) :
    NobodyCanWithdraw denomOk c.infos me (arun denomOk c.infos me (upgraded .cw20 s c) os) ∧
    NobodyCanProvide denomOk c.infos me (arun denomOk c.infos me (upgraded .cw20 s c) os) := by
  have h : NoCoin (arun denomOk c.infos me (upgraded .cw20 s c) os) := arun_noCoin os ⟨fun _ => rfl, rfl⟩
  exact ⟨withdraw_noCoin h, provide_noCoin h⟩

/-! ## Concrete cases -/

/-- An old pool of two coins. -/
def demoOld : OldConfig Nat :=
  { infos := fun b => if b then .native "uusd" else .native "uluna", lpToken := "wasm1lp", factory := 7,
    twap := demoState.twap, track := true, feeShare := some (100, 8), tracker := none }

/-- The upgrade is accepted with a tax of 5% on sales of one of the coins. -/
example : okAnd (migrate (fun _ => true) ⟨"astroport-pair", 1, 5, 0⟩ demoOld ⟨[("uluna", 5 * 10 ^ 16, 9)], 3⟩)
    (fun r => decide (r.1 = Upgrade.stamp .saleTax ∧ r.2.lpToken = "wasm1lp" ∧ r.2.tax.taxes = [("uluna", 5 * 10 ^ 16, 9)])) =
    true := by decide +kernel

/-- The configuration after it. -/
def demoNew : NewConfig Nat :=
  { infos := demoOld.infos, lpToken := "wasm1lp", factory := 7, twap := demoState.twap, track := true, tracker := none,
    tax := { taxes := [], admin := 3 } }

/-- A withdrawal that the old pool executed is refused after the upgrade of the pool with a cw20 LP token, while swaps go on. -/
example :
    let s : State Nat := { demoState with lp := fun a => if a = 1 then 10 ^ 12 else 0 }
    okAnd (XYK.exec 0 s (.withdraw 10 1 500 none)) (fun s' => decide (0 < s'.bal false 1)) = true ∧
    okAnd (aexec (fun _ => true) demoNew.infos 0 (upgraded .coin s demoNew) (.pool (.withdraw 10 1 500 none))) (fun _ => true) = true ∧
    okAnd (aexec (fun _ => true) demoNew.infos 0 (upgraded .cw20 s demoNew) (.pool (.withdraw 10 1 500 none))) (fun _ => true) = false ∧
    okAnd (aexec (fun _ => true) demoNew.infos 0 (upgraded .cw20 s demoNew) (.pool (.swap 10 1 false 1000 none none 1 demoFees)))
      (fun _ => true) = true := by
  refine ⟨by decide +kernel, by decide +kernel, by decide +kernel, by decide +kernel⟩

end Verif.SaleTax
