import Verif.SaleTax.Props
import Verif.XYK.History

/-!
# Histories of a pair with sale tax

A pair with sale tax is a plain pair whose traders pay the tax besides: every transaction has the effect of a plain
transaction and, for a taxed swap, of a payment by the trader to the tax recipient.  What is proved of plain pairs
therefore holds of pairs with sale tax.
-/

namespace Verif.SaleTax
open Verif.XYK
variable {A : Type} [DecidableEq A]

/-- The pair and its configuration. -/
structure World (A : Type) where
  st : State A
  cfg : Config A

/-- contracts/pair_xyk_sale_tax/src/contract.rs:209-300, `execute`, and plain transfers. -/
inductive TOp (A : Type)
  | provide (now : Nat) (sender : A) (d0 d1 : Nat) (tol minLp : Option Nat) (receiver : A)
  | withdraw (now : Nat) (sender : A) (amount : Nat) (mins : Option (List (Bool × Nat)))
  | swap (now : Nat) (sender : A) (i : Bool) (offer : Nat) (belief maxSpread : Option Nat) (receiver : A) (f : Fees A)
  | send (i : Bool) (src dst : A) (n : Nat)
  | sendLp (src dst : A) (n : Nat)
  | config (o : CfgOp A)

/-- The account that signs. -/
def TOp.signer : TOp A → A
  | .provide _ u _ _ _ _ _ | .withdraw _ u _ _ | .swap _ u _ _ _ _ _ _ | .send _ u _ _ | .sendLp u _ _ => u
  | .config o => o.sender

/-- One transaction; the pair never signs. -/
def texec (denomOk : String → Bool) (infos : Bool → Info) (me : A) (w : World A) (o : TOp A) : Res (World A) := do
  require (o.signer ≠ me) .unauthorized
  match o with
  | .provide now u d0 d1 tol minLp r => do
    let (s, _) ← provide me w.st now u d0 d1 tol minLp r
    .ok { w with st := s }
  | .withdraw now u n mins => do
    let (s, _) ← withdraw me w.st now u n mins
    .ok { w with st := s }
  | .swap now u i n b m r f => do
    let (s, _) ← swap infos w.cfg me w.st now u i n b m r f
    .ok { w with st := s }
  | .send i u v n => do
    let l ← move (w.st.bal i) u v n
    .ok { w with st := { w.st with bal := fun j => if j = i then l else w.st.bal j } }
  | .sendLp u v n => do
    let l ← move w.st.lp u v n
    .ok { w with st := { w.st with lp := l } }
  | .config o => do
    let c ← updateConfig denomOk infos w.cfg o.owner o.sender o.taxes o.admin
    .ok { w with cfg := c }

/-- Reverting step. -/
def tstep (denomOk : String → Bool) (infos : Bool → Info) (me : A) (w : World A) (o : TOp A) : World A :=
  commit' w (texec denomOk infos me w o)

/-- History. -/
def trun (denomOk : String → Bool) (infos : Bool → Info) (me : A) (w : World A) (os : List (TOp A)) : World A :=
  os.foldl (tstep denomOk infos me) w

/-- Specification: the transactions of a plain pair that have the effect of a successful transaction of a pair with sale
tax under the taxes `t`: the trader swaps what the tax leaves and pays the tax. -/
def plain (infos : Bool → Info) (t : Taxes A) : TOp A → List (Op A)
  | .provide now u d0 d1 tol _ r => [.provide now u d0 d1 tol none r]
  | .withdraw now u n _ => [.withdraw now u n none]
  | .swap now u i n b m r f =>
    match getTax t (infos i).str with
    | some (rate, recipient) =>
      [.swap now u i (n - n * rate / 10 ^ 18) b m r { f with share := none }, .send i u recipient (n * rate / 10 ^ 18)]
    | none => [.swap now u i n b m r { f with share := none }]
  | .send i u v n => [.send i u v n]
  | .sendLp u v n => [.sendLp u v n]
  | .config _ => []

/-- Specification: all these transactions succeed, one after the other, and lead from `s` to `s'`. -/
def Succeed (me : A) (s s' : State A) : List (Op A) → Prop
  | [] => s' = s
  | o :: os => ∃ s₁, exec me s o = .ok s₁ ∧ Succeed me s₁ s' os

theorem Succeed.run {me : A} {s s' : State A} {os : List (Op A)} (h : Succeed me s s' os) : XYK.run me s os = s' := by
  induction os generalizing s with
  | nil => exact h.symm
  | cons o os ih =>
    obtain ⟨s₁, h1, h2⟩ := h
    have : XYK.run me s (o :: os) = XYK.run me s₁ os := by
      show List.foldl (XYK.step me) (XYK.step me s o) os = _
      unfold XYK.step
      rw [h1]
      rfl
    rw [this]
    exact ih h2

/-! ## Swaps -/

/-- Paying the net offer and the tax separately. -/
theorem split_move {l bo l2 : A → Nat} {u me a : A} {net tax : Nat} (hu : u ≠ me)
    (h1 : move l u me (tax + net) = .ok bo) (h2 : move bo me a tax = .ok l2) :
    ∃ b1, move l u me net = .ok b1 ∧ move b1 u a tax = .ok l2 := by
  have hle := move_le h1
  obtain ⟨b1, hb1⟩ := move_succeeds (l := l) (a := u) (b := me) (n := net) (by omega)
  have hbu := move_apply hb1 u
  rw [if_pos rfl, if_neg hu] at hbu
  obtain ⟨l', hl'⟩ := move_succeeds (l := b1) (a := u) (b := a) (n := tax) (by omega)
  refine ⟨b1, hb1, ?_⟩
  rw [hl']
  congr 1
  funext x
  rw [move_apply hl' x, move_apply h2 x, move_apply hb1 x, move_apply h1 x]
  by_cases hx : x = u
  · subst hx
    rw [if_pos rfl, if_pos rfl, if_neg hu, if_neg hu, if_pos rfl, if_neg hu]
    omega
  · rw [if_neg hx, if_neg hx, if_neg hx]
    by_cases hm : x = me
    · subst hm
      rw [if_pos rfl, if_pos rfl, if_pos rfl]
      omega
    · rw [if_neg hm, if_neg hm, if_neg hm]

/-- The maker's part of the commission. -/
def makerPart (f : Fees A) (commission : Nat) : Nat :=
  match f.feeAddr with
  | some _ => mulDec commission f.maker
  | none => 0

/-- A swap with the net offer, untaxed. -/
theorem plain_swap {me : A} {s : State A} {now : Nat} {u : A} (hu : u ≠ me) {i : Bool} {net mk : Nat}
    {b m : Option Nat} {r : A} {f : Fees A} {cs : SwapResult} {bo ba ba2 : A → Nat} {tw : Twap}
    (hmk : mk = makerPart f cs.commission)
    (hbo : move (s.bal i) u me net = .ok bo)
    (hcs : computeSwap (s.bal i me) (s.bal (!i) me) net f.total = .ok cs)
    (hg : cs.ret + cs.commission < U128)
    (hsp : assertMaxSpread b m net (cs.ret + cs.commission) cs.spread = .ok ())
    (hba : move (s.bal (!i)) me r cs.ret = .ok ba)
    (hba2 : sendOpt ba me f.feeAddr mk = .ok ba2)
    (hto : s.bal i me + net < U128)
    (hta : cs.ret + mk ≤ s.bal (!i) me)
    (htw : accumulate s.twap now (if i then s.bal (!i) me else s.bal i me) (if i then s.bal i me else s.bal (!i) me) =
      .ok tw) :
    exec me s (.swap now u i net b m r { f with share := none }) =
      .ok { s with bal := fun j => if j = i then bo else ba2, twap := tw,
                   tracked := fun j => if j = i then s.bal i me + net else s.bal (!i) me - (cs.ret + mk) } := by
  have hbm := move_apply hbo me
  rw [if_neg (Ne.symm hu), if_pos rfl] at hbm
  have hpool : csub (bo me) net = .ok (s.bal i me) := by
    rw [csub_ok]; omega
  have hsplit : splitFees { f with share := none } cs.commission = .ok (0, mk) := by
    unfold splitFees feeShareAmount
    simp only [ok_bind, Nat.sub_zero]
    rw [hmk]
    rfl
  unfold exec
  rw [(require_ok _ _ ()).2 (show (Op.swap now u i net b m r { f with share := none }).signer ≠ me from hu), ok_bind]
  simp only
  unfold XYK.swap
  rw [hbo, ok_bind, hpool, ok_bind]
  simp only
  rw [hcs, ok_bind, (u128_ok _ _).2 ⟨hg, rfl⟩, ok_bind, hsp, ok_bind, hsplit, ok_bind]
  simp only
  rw [hba, ok_bind]
  have h0 : sendOpt ba me (Option.map (fun x : Nat × A => x.2) none) 0 = .ok ba := rfl
  rw [h0, ok_bind, hba2, ok_bind, (u128_ok _ _).2 ⟨hto, rfl⟩, ok_bind, Nat.add_zero, (csub_ok _ _ _).2 ⟨hta, rfl⟩, ok_bind,
    htw, ok_bind, ok_bind]

/-- A successful swap of a pair with sale tax is a plain swap of the net offer and a payment of the tax. -/
theorem swap_plain {infos : Bool → Info} (hclash : NoClash infos) {cfg : Config A}
    (hg : GoodTaxes infos cfg.taxes) {me : A} {s s' : State A} {now : Nat} {u : A} (hu : u ≠ me) {i : Bool}
    {offer : Nat} {b m : Option Nat} {r : A} {f : Fees A} {out : Out}
    (h : swap infos cfg me s now u i offer b m r f = .ok (s', out)) :
    Succeed me s s' (plain infos cfg.taxes (.swap now u i offer b m r f)) := by
  unfold swap at h
  simp only [bind_ok_iff, csub_ok, u128_ok, Except.ok.injEq, Prod.mk.injEq] at h
  obtain ⟨bo, hbo, op, ⟨hop, rfl⟩, x, hr, gross, ⟨hgr, rfl⟩, _, hsp, ba, hba, bal, hbal, ba2, hba2, tOff,
    ⟨hto, rfl⟩, tAsk, ⟨hta, rfl⟩, tw, htw, hs', rfl⟩ := h
  have hbm := move_apply hbo me
  rw [if_neg (Ne.symm hu), if_pos rfl] at hbm
  have hpool : bo me - offer = s.bal i me := by omega
  rw [hpool] at hr hto htw hs'
  unfold computeSwapTax at hr
  simp only [bind_ok_iff, Prod.exists, Except.ok.injEq] at hr
  obtain ⟨net, tx, hd, cs, hcs, rfl⟩ := hr
  simp only at hgr hsp hba hbal hba2 hto hta hs'
  obtain ⟨mk, hmk⟩ : ∃ mk, mk = makerPart f cs.commission := ⟨_, rfl⟩
  change sendOpt (bal !i) me f.feeAddr (makerPart f cs.commission) = .ok ba2 at hba2
  change cs.ret + makerPart f cs.commission ≤ s.bal (!i) me at hta
  have hs2 : s' = { s with
      bal := fun j => if j = i then bal i else ba2
      twap := tw
      tracked := fun j => if j = i then s.bal i me + net else
        s.bal (!i) me - (cs.ret + makerPart f cs.commission) } := hs'.symm
  clear hs'
  rw [← hmk] at hba2 hta hs2
  subst hs2
  have hni : (!i) ≠ i := by cases i <;> decide
  unfold plain
  simp only
  cases htc : getTax cfg.taxes (infos i).str with
  | none =>
    rw [htc] at hd hbal
    simp only [deduct, Except.ok.injEq, Prod.mk.injEq] at hd
    obtain ⟨rfl, rfl⟩ := hd
    simp only [sendTax, Except.ok.injEq] at hbal
    subst hbal
    simp only [if_neg hni] at hba2
    refine ⟨_, plain_swap hu hmk hbo hcs hgr hsp hba hba2 hto hta htw, ?_⟩
    simp only [Succeed, if_true]
  | some p =>
    obtain ⟨rate, a⟩ := p
    have hrate := (getTax_good hg htc).1
    rw [htc] at hd hbal
    obtain ⟨d1, _, _, d4⟩ := deduct_ok hd (by
      intro r' a' he
      simp only [Option.some.injEq, Prod.mk.injEq] at he
      obtain ⟨rfl, rfl⟩ := he
      exact hrate)
    have htx : offer * rate / 10 ^ 18 = tx := (d4 rate a rfl).symm
    simp only
    rw [htx]
    have hnet : offer - tx = net := by omega
    rw [hnet]
    -- the ledger of the offered asset
    obtain ⟨l2, hl2, hbal2⟩ : ∃ l2, move bo me a tx = .ok l2 ∧ bal = fun j => if j = i then l2 else ba := by
      unfold sendTax at hbal
      simp only at hbal
      split at hbal
      · rw [taxedAsset_eq hclash hg htc, ok_bind] at hbal
        simp only [bind_ok_iff, if_true, Except.ok.injEq] at hbal
        obtain ⟨l, hl, rfl⟩ := hbal
        refine ⟨l, hl, ?_⟩
        funext j
        split <;> rfl
      · next h0 =>
        simp only [Except.ok.injEq] at hbal
        have h0 : tx = 0 := by simpa using h0
        subst h0
        obtain ⟨l, hl⟩ := move_succeeds (l := bo) (a := me) (b := a) (n := 0) (Nat.zero_le _)
        have : l = bo := by
          funext y
          rw [move_apply hl y]
          split <;> split <;> omega
        subst this
        exact ⟨l, hl, hbal.symm⟩
    subst hbal2
    simp only [if_neg hni] at hba2
    rw [← d1] at hbo
    obtain ⟨b1, hb1, hb2⟩ := split_move hu hbo hl2
    refine ⟨_, plain_swap hu hmk hb1 hcs hgr hsp hba hba2 hto hta htw, ?_⟩
    refine ⟨_, ?_, rfl⟩
    unfold exec
    rw [(require_ok _ _ ()).2 (show (Op.send i u a tx).signer ≠ me from hu), ok_bind]
    simp only [if_true]
    rw [hb2, ok_bind]
    congr 1
    simp only [State.mk.injEq, and_true]
    funext j
    split <;> rfl

/-! ## All transactions -/

theorem exec_intro {me : A} {s : State A} {o : Op A} (hs : o.signer ≠ me) {r : Res (State A)}
    (h : XYK.exec me s o = (require (o.signer ≠ me) .unauthorized >>= fun _ => r)) : XYK.exec me s o = r := by
  rw [h, (require_ok _ _ ()).2 hs, ok_bind]

theorem texec_plain {denomOk : String → Bool} {infos : Bool → Info} (hclash : NoClash infos) {me : A} {w w' : World A}
    {o : TOp A} (hg : GoodTaxes infos w.cfg.taxes) (h : texec denomOk infos me w o = .ok w') :
    Succeed me w.st w'.st (plain infos w.cfg.taxes o) ∧ GoodTaxes infos w'.cfg.taxes := by
  unfold texec at h
  simp only [bind_ok_iff, require_ok, exists_const] at h
  obtain ⟨hs, h⟩ := h
  cases o with
  | provide now u d0 d1 tol minLp r =>
    simp only [bind_ok_iff, Prod.exists, Except.ok.injEq] at h
    obtain ⟨s, x, h, rfl⟩ := h
    refine ⟨⟨s, ?_, rfl⟩, hg⟩
    refine exec_intro (o := .provide now u d0 d1 tol none r) hs (r := .ok s) ?_
    unfold SaleTax.provide at h
    unfold XYK.exec
    simp only [h, ok_bind]
  | withdraw now u n mins =>
    simp only [bind_ok_iff, Prod.exists, Except.ok.injEq] at h
    obtain ⟨s, x, y, h, rfl⟩ := h
    refine ⟨⟨s, ?_, rfl⟩, hg⟩
    refine exec_intro (o := .withdraw now u n none) hs (r := .ok s) ?_
    unfold SaleTax.withdraw at h
    unfold XYK.exec
    simp only [h, ok_bind]
  | swap now u i n b m r f =>
    simp only [bind_ok_iff, Prod.exists, Except.ok.injEq] at h
    obtain ⟨s, x, h, rfl⟩ := h
    exact ⟨swap_plain hclash hg hs h, hg⟩
  | send i u v n =>
    simp only [bind_ok_iff, Except.ok.injEq] at h
    obtain ⟨l, h, rfl⟩ := h
    refine ⟨⟨_, ?_, rfl⟩, hg⟩
    refine exec_intro (o := .send i u v n) hs (r := .ok _) ?_
    unfold XYK.exec
    simp only [h, ok_bind]
  | sendLp u v n =>
    simp only [bind_ok_iff, Except.ok.injEq] at h
    obtain ⟨l, h, rfl⟩ := h
    refine ⟨⟨_, ?_, rfl⟩, hg⟩
    refine exec_intro (o := .sendLp u v n) hs (r := .ok _) ?_
    unfold XYK.exec
    simp only [h, ok_bind]
  | config o =>
    simp only [bind_ok_iff, Except.ok.injEq] at h
    obtain ⟨c, h, rfl⟩ := h
    exact ⟨rfl, updateConfig_good hg h⟩

/-- **C134.**  Every transaction of a pair with sale tax that succeeds has exactly the effect, on all balances, LP tokens,
accumulators and recorded reserves, of a plain pair's transaction that succeeds, followed for a taxed swap by a payment of
the tax by the trader to the tax recipient.  (`NoClash` excludes a token whose address is the other asset's denom, see
`C18_same_name_violated`.) -/
theorem C134_plain_transaction_and_tax (denomOk : String → Bool) (infos : Bool → Info) (hclash : NoClash infos) (me : A)
    (w w' : World A) (o : TOp A) (hg : GoodTaxes infos w.cfg.taxes) (h : texec denomOk infos me w o = .ok w') :
    Succeed me w.st w'.st (plain infos w.cfg.taxes o) := (texec_plain hclash hg h).1

theorem run_append (me : A) (s : State A) (os os' : List (Op A)) :
    XYK.run me s (os ++ os') = XYK.run me (XYK.run me s os) os' := by
  unfold XYK.run; rw [List.foldl_append]

/-- Transactions of a plain pair with the effect of a history. -/
def plainRun (denomOk : String → Bool) (infos : Bool → Info) (me : A) : World A → List (TOp A) → List (Op A)
  | _, [] => []
  | w, o :: os =>
    (match texec denomOk infos me w o with
      | .ok _ => plain infos w.cfg.taxes o
      | .error _ => []) ++ plainRun denomOk infos me (tstep denomOk infos me w o) os

theorem trun_plain {denomOk : String → Bool} {infos : Bool → Info} (hclash : NoClash infos) {me : A}
    (os : List (TOp A)) (w : World A) (hg : GoodTaxes infos w.cfg.taxes) :
    (trun denomOk infos me w os).st = XYK.run me w.st (plainRun denomOk infos me w os) ∧
      GoodTaxes infos (trun denomOk infos me w os).cfg.taxes := by
  induction os generalizing w with
  | nil => exact ⟨rfl, hg⟩
  | cons o os ih =>
    have hrun : trun denomOk infos me w (o :: os) = trun denomOk infos me (tstep denomOk infos me w o) os := rfl
    rw [hrun]
    unfold plainRun
    rw [run_append]
    cases hx : texec denomOk infos me w o with
    | error e =>
      have : tstep denomOk infos me w o = w := by unfold tstep; rw [hx]; rfl
      rw [this]
      exact ih w hg
    | ok w' =>
      have : tstep denomOk infos me w o = w' := by unfold tstep; rw [hx]; rfl
      rw [this]
      obtain ⟨h1, h2⟩ := texec_plain hclash hg hx
      simp only
      rw [h1.run]
      exact ih w' h2

theorem plainRun_swap {denomOk : String → Bool} {infos : Bool → Info} {me : A} (os : List (TOp A)) (w : World A)
    {now : Nat} {u : A} {i : Bool} {n : Nat} {b m : Option Nat} {r : A} {f : Fees A}
    (h : Op.swap now u i n b m r f ∈ plainRun denomOk infos me w os) :
    ∃ n' f', TOp.swap now u i n' b m r f' ∈ os ∧ f = { f' with share := none } := by
  induction os generalizing w with
  | nil => simp [plainRun] at h
  | cons o os ih =>
    unfold plainRun at h
    rcases List.mem_append.1 h with h | h
    · split at h
      · unfold plain at h
        cases o with
        | swap now u i n b m r f =>
          simp only at h
          split at h
          · simp only [List.mem_cons, Op.swap.injEq, List.not_mem_nil, reduceCtorEq, or_false] at h
            obtain ⟨rfl, rfl, rfl, _, rfl, rfl, rfl, rfl⟩ := h
            exact ⟨_, _, List.mem_cons_self, rfl⟩
          · simp only [List.mem_cons, Op.swap.injEq, List.not_mem_nil, or_false] at h
            obtain ⟨rfl, rfl, rfl, _, rfl, rfl, rfl, rfl⟩ := h
            exact ⟨_, _, List.mem_cons_self, rfl⟩
        | _ => simp at h
      · simp at h
    · obtain ⟨n', f', h1, h2⟩ := ih _ h
      exact ⟨n', f', List.mem_cons_of_mem _ h1, h2⟩

/-- A new pair. -/
def start (bal : Bool → A → Nat) (c : Config A) : World A := ⟨init bal, c⟩

/-- **C134.**  Every history of a pair with sale tax leaves all balances, LP tokens, accumulators and recorded reserves as
some history of a plain pair does, in which the swaps are the same except that the offers are smaller. -/
theorem C134_history_of_plain_pair (denomOk : String → Bool) (infos : Bool → Info) (hclash : NoClash infos) (me : A)
    (bal : Bool → A → Nat) (taxes : Taxes A) (admin : A) (c : Config A)
    (hc : initConfig denomOk infos taxes admin = .ok c) (os : List (TOp A)) :
    ∃ ps : List (Op A), (trun denomOk infos me (start bal c) os).st = XYK.run me (init bal) ps ∧
      ∀ now u i n b m r f, Op.swap now u i n b m r f ∈ ps →
        ∃ n' f', TOp.swap now u i n' b m r f' ∈ os ∧ f = { f' with share := none } :=
  ⟨_, (trun_plain hclash os (start bal c) (initConfig_good hc)).1, fun _ _ _ _ _ _ _ _ h => plainRun_swap os _ h⟩

/-- **C134.**  In every history of a pair with sale tax: the LP supply is the sum of all LP balances; once LP tokens exist,
at least 1000 stay locked in the pair; and what all LP holders can redeem together never exceeds the reserves. -/
theorem C134_lp_tokens_backed [Fintype A] (denomOk : String → Bool) (infos : Bool → Info) (hclash : NoClash infos) (me : A)
    (bal : Bool → A → Nat) (taxes : Taxes A) (admin : A) (c : Config A)
    (hc : initConfig denomOk infos taxes admin = .ok c) (os : List (TOp A)) :
    let s := (trun denomOk infos me (start bal c) os).st
    s.supply = ∑ a, s.lp a ∧ (0 < s.supply → 1000 ≤ s.lp me) ∧
    ∀ c0 c1 : A → Nat, (∀ a, queryShare me s (s.lp a) = .ok (c0 a, c1 a)) →
      (∑ a, c0 a) ≤ s.bal false me ∧ (∑ a, c1 a) ≤ s.bal true me := by
  intro s
  obtain ⟨ps, hps, _⟩ := C134_history_of_plain_pair denomOk infos hclash me bal taxes admin c hc os
  have hs : s = XYK.run me (init bal) ps := hps
  rw [hs]
  obtain ⟨h1, _, h3⟩ := C14_minimum_liquidity_locked me bal ps []
  exact ⟨h1, fun h => (h3 h).1, fun c0 c1 hq => C09_claims_covered me bal ps c0 c1 hq⟩

/-- The reserves grow while a tax is paid to the pair itself, and do not change if it is paid to anybody else. -/
theorem exec_send_le {me : A} {s s' : State A} {i : Bool} {u v : A} {n : Nat} (h : exec me s (.send i u v n) = .ok s')
    (j : Bool) : s.bal j me ≤ s'.bal j me := by
  obtain ⟨hu, l, hl, rfl⟩ := exec_cases h
  simp only
  split
  · next hj =>
    subst hj
    rw [move_apply hl me, if_neg (Ne.symm hu)]
    omega
  · exact le_refl _

theorem product_texec [Fintype A] {denomOk : String → Bool} {infos : Bool → Info} (hclash : NoClash infos) {me : A}
    {w w' : World A} {o : TOp A} (hg : GoodTaxes infos w.cfg.taxes) (hsup : w.st.supply ≠ 0) (hi : LpInv me w.st)
    (hf : ∀ now u i n b m r f, o = .swap now u i n b m r f → f.total ≤ 10 ^ 18 ∧ f.maker ≤ 10 ^ 18)
    (hsmall : ∀ i, w'.st.bal i me ≤ 10 ^ 18) (h : texec denomOk infos me w o = .ok w') :
    w.st.bal false me * w.st.bal true me * w'.st.supply ^ 2 ≤
      w'.st.bal false me * w'.st.bal true me * w.st.supply ^ 2 ∧ w'.st.supply ≠ 0 ∧ LpInv me w'.st := by
  obtain ⟨hp, _⟩ := texec_plain hclash hg h
  have hinv := lpInv_run (plain infos w.cfg.taxes o) hi
  rw [hp.run] at hinv
  refine ⟨?_, hinv.2.1 hsup, hinv.1⟩
  -- one plain transaction
  have one : ∀ o' : Op A, (∀ now u i n b m r f, o' = .swap now u i n b m r f → f.Valid) →
      Succeed me w.st w'.st [o'] → w.st.bal false me * w.st.bal true me * w'.st.supply ^ 2 ≤
        w'.st.bal false me * w'.st.bal true me * w.st.supply ^ 2 := by
    rintro o' hv ⟨s1, h1, h2⟩
    have h2 : w'.st = s1 := h2
    rw [h2] at hsmall ⊢
    exact product_exec hsup hv hsmall h1
  unfold plain at hp
  cases o with
  | swap now u i n b m r f =>
    obtain ⟨v1, v2⟩ := hf now u i n b m r f rfl
    have hv : ({ f with share := none } : Fees A).Valid := ⟨v1, v2, by simp⟩
    simp only at hp
    split at hp
    · obtain ⟨s1, h1, s2, h2, h3⟩ := hp
      have h3 : w'.st = s2 := h3
      rw [h3] at hsmall ⊢
      have hle := exec_send_le h2
      have hsu : s2.supply = s1.supply := by obtain ⟨_, l, _, rfl⟩ := exec_cases h2; rfl
      have hp := product_exec hsup (fun _ _ _ _ _ _ _ _ e => by
        simp only [Op.swap.injEq] at e
        obtain ⟨_, _, _, _, _, _, _, rfl⟩ := e
        exact hv) (fun j => le_trans (hle j) (hsmall j)) h1
      rw [hsu]
      exact le_trans hp (Nat.mul_le_mul_right _ (Nat.mul_le_mul (hle _) (hle _)))
    · exact one _ (fun _ _ _ _ _ _ _ _ e => by
        simp only [Op.swap.injEq] at e
        obtain ⟨_, _, _, _, _, _, _, rfl⟩ := e
        exact hv) hp
  | provide now u d0 d1 tol minLp r => exact one _ (by simp) hp
  | withdraw now u n mins => exact one _ (by simp) hp
  | send i u v n => exact one _ (by simp) hp
  | sendLp u v n => exact one _ (by simp) hp
  | config o =>
    have hp : w'.st = w.st := hp
    rw [hp]

/-- **C134 (partial).**  Taxes do not cost the LP holders anything: along every history with valid fees during which the
reserves stay at or below `10^18` units, `reserve₀·reserve₁ / supply²` never falls.  Missing: larger reserves, as for plain
pairs (`C08_constant_product_violated`). -/
theorem C134_liquidity_per_lp_never_falls_partial [Fintype A] (denomOk : String → Bool) (infos : Bool → Info)
    (hclash : NoClash infos) (me : A) (bal : Bool → A → Nat) (taxes : Taxes A) (admin : A) (c : Config A)
    (hc : initConfig denomOk infos taxes admin = .ok c) (os os' : List (TOp A))
    (hpos : 0 < (trun denomOk infos me (start bal c) os).st.supply)
    (hf : ∀ now u i n b m r f, TOp.swap now u i n b m r f ∈ os' → f.total ≤ 10 ^ 18 ∧ f.maker ≤ 10 ^ 18)
    (hsmall : ∀ k i, (trun denomOk infos me (trun denomOk infos me (start bal c) os) (os'.take k)).st.bal i me ≤ 10 ^ 18) :
    let s := (trun denomOk infos me (start bal c) os).st
    let s' := (trun denomOk infos me (trun denomOk infos me (start bal c) os) os').st
    s.bal false me * s.bal true me * s'.supply ^ 2 ≤ s'.bal false me * s'.bal true me * s.supply ^ 2 := by
  obtain ⟨h1, hg⟩ := trun_plain hclash (denomOk := denomOk) (me := me) os (start bal c) (initConfig_good hc)
  have hi : LpInv me (trun denomOk infos me (start bal c) os).st := by
    rw [h1]; exact (lpInv_run _ (lpInv_init me bal)).1
  have hs0 : (trun denomOk infos me (start bal c) os).st.supply ≠ 0 := by omega
  intro s s'
  simp only [s, s']
  clear s s' hpos h1
  generalize trun denomOk infos me (start bal c) os = w at *
  induction os' generalizing w with
  | nil => exact le_refl _
  | cons o os' ih =>
    have hrun : trun denomOk infos me w (o :: os') = trun denomOk infos me (tstep denomOk infos me w o) os' := rfl
    rw [hrun]
    have hk : ∀ k i, (trun denomOk infos me (tstep denomOk infos me w o) (os'.take k)).st.bal i me ≤ 10 ^ 18 :=
      fun k i => hsmall (k + 1) i
    have h0 : ∀ i, (tstep denomOk infos me w o).st.bal i me ≤ 10 ^ 18 := fun i => hk 0 i
    cases hx : texec denomOk infos me w o with
    | error e =>
      have he : tstep denomOk infos me w o = w := by unfold tstep; rw [hx]; rfl
      rw [he] at hk ⊢
      exact ih (fun _ _ _ _ _ _ _ _ h => hf _ _ _ _ _ _ _ _ (List.mem_cons_of_mem _ h)) w hk hg hi hs0
    | ok w' =>
      have he : tstep denomOk infos me w o = w' := by unfold tstep; rw [hx]; rfl
      rw [he] at hk h0 ⊢
      obtain ⟨h1, h2, h3⟩ := product_texec hclash hg hs0 hi
        (fun _ _ _ _ _ _ _ _ e => hf _ _ _ _ _ _ _ _ (by rw [e]; exact List.mem_cons_self)) h0 hx
      have ht := ih (fun _ _ _ _ _ _ _ _ h => hf _ _ _ _ _ _ _ _ (List.mem_cons_of_mem _ h)) w' hk
        (texec_plain hclash hg hx).2 h3 h2
      exact cross_trans (d := w'.st.supply ^ 2) (by positivity) h1 ht

/-- Transactions that are swaps. -/
def TOp.isSwap : TOp A → Bool
  | .swap .. => true
  | _ => false

theorem loss_texec [Fintype A] {denomOk : String → Bool} {infos : Bool → Info} (hclash : NoClash infos) {me : A}
    {w w' : World A} {o : TOp A} (hg : GoodTaxes infos w.cfg.taxes) (hsup : w.st.supply ≠ 0) (hi : LpInv me w.st)
    (hf : ∀ now u i n b m r f, o = .swap now u i n b m r f → f.total ≤ 10 ^ 18 ∧ f.maker ≤ 10 ^ 18) {q : Nat}
    (hq : ∀ i, q ≤ w'.st.bal i me) (h : texec denomOk infos me w o = .ok w') :
    w.st.bal false me * w.st.bal true me * w'.st.supply ^ 2 * (q * 10 ^ 18) ^ (if o.isSwap then 1 else 0) ≤
      w'.st.bal false me * w'.st.bal true me * w.st.supply ^ 2 * (q * 10 ^ 18 + 1) ^ (if o.isSwap then 1 else 0) ∧
    w'.st.supply ≠ 0 ∧ LpInv me w'.st := by
  obtain ⟨hp, _⟩ := texec_plain hclash hg h
  have hinv := lpInv_run (plain infos w.cfg.taxes o) hi
  rw [hp.run] at hinv
  refine ⟨?_, hinv.2.1 hsup, hinv.1⟩
  -- one plain transaction
  have one : ∀ o' : Op A, (∀ now u i n b m r f, o' = .swap now u i n b m r f → f.Valid) →
      o'.isSwap = o.isSwap → Succeed me w.st w'.st [o'] →
      w.st.bal false me * w.st.bal true me * w'.st.supply ^ 2 * (q * 10 ^ 18) ^ (if o.isSwap then 1 else 0) ≤
        w'.st.bal false me * w'.st.bal true me * w.st.supply ^ 2 * (q * 10 ^ 18 + 1) ^ (if o.isSwap then 1 else 0) := by
    rintro o' hv hsw ⟨s1, h1, h2⟩
    have h2 : w'.st = s1 := h2
    rw [h2] at hq ⊢
    rw [← hsw]
    exact loss_exec hsup hv (fun _ _ i _ _ _ _ _ _ => hq (!i)) h1
  unfold plain at hp
  cases o with
  | swap now u i n b m r f =>
    obtain ⟨v1, v2⟩ := hf now u i n b m r f rfl
    have hv : ({ f with share := none } : Fees A).Valid := ⟨v1, v2, by simp⟩
    simp only at hp
    split at hp
    · obtain ⟨s1, h1, s2, h2, h3⟩ := hp
      have h3 : w'.st = s2 := h3
      rw [h3] at hq ⊢
      have hle := exec_send_le h2
      have hsu : s2.supply = s1.supply := by obtain ⟨_, l, _, rfl⟩ := exec_cases h2; rfl
      have hask : s2.bal (!i) me = s1.bal (!i) me := by
        obtain ⟨_, l, _, rfl⟩ := exec_cases h2
        cases i <;> simp
      have hp := loss_exec (q := q) hsup (fun _ _ _ _ _ _ _ _ e => by
        simp only [Op.swap.injEq] at e
        obtain ⟨_, _, _, _, _, _, _, rfl⟩ := e
        exact hv) (fun _ _ j _ _ _ _ _ e => by
        simp only [Op.swap.injEq] at e
        obtain ⟨_, _, rfl, _⟩ := e
        rw [← hask]
        exact hq _) h1
      rw [hsu]
      refine le_trans hp ?_
      exact Nat.mul_le_mul_right _ (Nat.mul_le_mul_right _ (Nat.mul_le_mul (hle _) (hle _)))
    · exact one _ (fun _ _ _ _ _ _ _ _ e => by
        simp only [Op.swap.injEq] at e
        obtain ⟨_, _, _, _, _, _, _, rfl⟩ := e
        exact hv) rfl hp
  | provide now u d0 d1 tol minLp r => exact one _ (by simp) rfl hp
  | withdraw now u n mins => exact one _ (by simp) rfl hp
  | send i u v n => exact one _ (by simp) rfl hp
  | sendLp u v n => exact one _ (by simp) rfl hp
  | config o =>
    have hp : w'.st = w.st := hp
    rw [hp]
    simp [TOp.isSwap]

/-- **C134, reserves of any size.**  Along every history of a pair with sale tax, with valid fees, during which both
reserves stay at or above `q` units, `reserve₀·reserve₁ / supply²` falls by at most a factor
`q·10^18 / (q·10^18 + 1)` per swap. -/
theorem C134_rounding_loss_bounded [Fintype A] (denomOk : String → Bool) (infos : Bool → Info)
    (hclash : NoClash infos) (me : A) (bal : Bool → A → Nat) (taxes : Taxes A) (admin : A) (c : Config A)
    (hc : initConfig denomOk infos taxes admin = .ok c) (os os' : List (TOp A))
    (hpos : 0 < (trun denomOk infos me (start bal c) os).st.supply)
    (hf : ∀ now u i n b m r f, TOp.swap now u i n b m r f ∈ os' → f.total ≤ 10 ^ 18 ∧ f.maker ≤ 10 ^ 18) (q : Nat)
    (hq : ∀ k i, q ≤ (trun denomOk infos me (trun denomOk infos me (start bal c) os) (os'.take k)).st.bal i me) :
    let s := (trun denomOk infos me (start bal c) os).st
    let s' := (trun denomOk infos me (trun denomOk infos me (start bal c) os) os').st
    let swaps := (os'.filter TOp.isSwap).length
    s.bal false me * s.bal true me * s'.supply ^ 2 * (q * 10 ^ 18) ^ swaps ≤
      s'.bal false me * s'.bal true me * s.supply ^ 2 * (q * 10 ^ 18 + 1) ^ swaps := by
  obtain ⟨h1, hg⟩ := trun_plain hclash (denomOk := denomOk) (me := me) os (start bal c) (initConfig_good hc)
  have hi : LpInv me (trun denomOk infos me (start bal c) os).st := by
    rw [h1]; exact (lpInv_run _ (lpInv_init me bal)).1
  have hs0 : (trun denomOk infos me (start bal c) os).st.supply ≠ 0 := by omega
  intro s s' swaps
  simp only [s, s', swaps]
  clear s s' swaps hpos h1
  generalize trun denomOk infos me (start bal c) os = w at *
  induction os' generalizing w with
  | nil => simp [trun]
  | cons o os' ih =>
    have hrun : trun denomOk infos me w (o :: os') = trun denomOk infos me (tstep denomOk infos me w o) os' := rfl
    rw [hrun]
    have hk : ∀ k i, q ≤ (trun denomOk infos me (tstep denomOk infos me w o) (os'.take k)).st.bal i me :=
      fun k i => hq (k + 1) i
    have h0 : ∀ i, q ≤ (tstep denomOk infos me w o).st.bal i me := fun i => hk 0 i
    have hlen : ((o :: os').filter TOp.isSwap).length =
        (if o.isSwap then 1 else 0) + (os'.filter TOp.isSwap).length := by
      rw [List.filter_cons]
      split <;> simp [Nat.add_comm]
    rw [hlen, pow_add, pow_add]
    cases hx : texec denomOk infos me w o with
    | error e =>
      have he : tstep denomOk infos me w o = w := by unfold tstep; rw [hx]; rfl
      rw [he] at hk ⊢
      have ht := ih (fun _ _ _ _ _ _ _ _ h => hf _ _ _ _ _ _ _ _ (List.mem_cons_of_mem _ h)) w hk hg hi hs0
      have hpw : (q * 10 ^ 18) ^ (if o.isSwap then 1 else 0) ≤ (q * 10 ^ 18 + 1) ^ (if o.isSwap then 1 else 0) :=
        Nat.pow_le_pow_left (Nat.le_succ _) _
      generalize (if o.isSwap then 1 else 0) = e at *
      generalize (os'.filter TOp.isSwap).length = l at *
      rw [mul_left_comm, mul_left_comm _ ((q * 10 ^ 18 + 1) ^ e)]
      exact Nat.mul_le_mul hpw ht
    | ok w' =>
      have he : tstep denomOk infos me w o = w' := by unfold tstep; rw [hx]; rfl
      rw [he] at hk h0 ⊢
      obtain ⟨h1, h2, h3⟩ := loss_texec hclash hg hs0 hi
        (fun _ _ _ _ _ _ _ _ e => hf _ _ _ _ _ _ _ _ (by rw [e]; exact List.mem_cons_self)) h0 hx
      have ht := ih (fun _ _ _ _ _ _ _ _ h => hf _ _ _ _ _ _ _ _ (List.mem_cons_of_mem _ h)) w' hk
        (texec_plain hclash hg hx).2 h3 h2
      have hS : 0 < w'.st.supply ^ 2 := by positivity
      generalize (if o.isSwap then 1 else 0) = e at *
      generalize (os'.filter TOp.isSwap).length = l at *
      exact XYK.loss_trans hS h1 ht

/-- The code violates the full claim, as for plain pairs: an untaxed swap of one unit in a pool of `2·10^18 - 1` units of
both assets lowers the product of the reserves; the LP supply is unchanged. -/
theorem C134_liquidity_per_lp_violated :
    okAnd (initConfig (fun _ => true) demoInfos [("uusd", 5 * 10 ^ 16, (9 : Fin 10))] 5) (fun c => decide (
      let w := trun (fun _ => true) demoInfos 0 (start (fun _ a => if a = 0 then 0 else 10 ^ 19) c)
        [.provide 5 1 (2 * 10 ^ 18 - 1) (2 * 10 ^ 18 - 1) none none 1]
      let w' := trun (fun _ => true) demoInfos 0 w [.swap 6 2 true 1 none none 2 ⟨3 * 10 ^ 15, 10 ^ 17, some 7, none⟩]
      0 < w.st.supply ∧ w'.st.bal false 0 * w'.st.bal true 0 * w.st.supply ^ 2 <
        w.st.bal false 0 * w.st.bal true 0 * w'.st.supply ^ 2)) = true := by decide +kernel

/-! ## Concrete cases -/

/-- A deposit, a taxed sale of 1000001 (50000 tax), a change of the tax, an untaxed purchase, a withdrawal. -/
def demoOps : List (TOp (Fin 10)) :=
  [.provide 5 1 1000000000 1000000000 none none 1, .swap 6 2 false 1000001 none none 2 ⟨3 * 10 ^ 15, 10 ^ 17, some 7, none⟩,
    .config ⟨5, 5, some [("uusd", 10 ^ 17, 8)], none⟩, .swap 7 2 true 5000 none none 2 ⟨3 * 10 ^ 15, 10 ^ 17, some 7, none⟩,
    .withdraw 8 1 400000000 none]

def demoBal : Bool → Fin 10 → Nat := fun _ a => if a = 0 then 0 else 10 ^ 11

example : okAnd (initConfig (fun _ => true) demoInfos [("uusd", 5 * 10 ^ 16, (9 : Fin 10))] 5) (fun c => decide (
    let w := trun (fun _ => true) demoInfos 0 (start demoBal c) demoOps
    w.st.bal false 9 = 10 ^ 11 + 50000 ∧ w.st.lp 1 = 599999000 ∧ w.cfg.taxes = [("uusd", 10 ^ 17, 8)] ∧
    w.st.bal false 0 ≤ 10 ^ 18 ∧ 0 < w.st.supply)) = true := by decide +kernel

example : plain demoInfos demoCfg.taxes (.swap 6 2 false 1000001 none none 2 demoFees) =
    [.swap 6 2 false 950001 none none 2 demoFees, .send false 2 9 50000] := by rfl

end Verif.SaleTax
