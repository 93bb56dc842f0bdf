import Verif.Transmuter.Props

/-!
# C181: messages to a transmuter pool

`execute` with whatever coins a message carries; which messages are accepted, who pays, and what LP tokens are worth.
-/

namespace Verif.Transmuter

open Verif.Asset
variable {A : Type} [DecidableEq A]

/-- `ExecuteMsg` of a pair, packages/astroport/src/pair.rs:55-146, as far as the transmuter tells messages apart. -/
inductive Msg (A : Type)
  | provide (assets : List Asset) (autoStake : Option Bool) (receiver : Option A)
  | swap (offer : Asset) (ask : Option Info) (dst : Option A)
  | withdraw (assets : List Asset)
  /-- `Receive`, `UpdateConfig`, `ProposeNewOwner`, … -/
  | other

/-- The requested assets as coins, if all are. -/
def asCoins : List Asset → Option (List Coin)
  | [] => some []
  | ⟨.native d, n⟩ :: as => (asCoins as).map (⟨d, n⟩ :: ·)
  | ⟨.token _, _⟩ :: _ => none

/-- `execute`, contracts/pair_transmuter/src/contract.rs:97-130, with `one_coin` of `withdraw_liquidity` (142-148).  `lpD` is the
denom of the LP token.  LP tokens attached to a deposit or a swap are refused by the checks of the coins sent
(`assert_coins_properly_sent`, `assert_sent_native_token_balance`), since the LP token is no asset of the pool; the model
refuses them at once.  Requested cw20 tokens are not in the pool (160-164), nor is a cw20 token asked for in a swap
(contracts/pair_transmuter/src/utils.rs:80-83; the model fails for it as for nothing asked); with two assets what is asked for
is ignored. -/
def execute (c : Cfg A) (lpD : Str) (s : State A) (sender : A) (funds : List Coin) : Msg A → Res (State A)
  | .provide assets autoStake receiver => do
    require (autoStake ≠ some true) (.invalid "Auto stake is not supported")
    require (∀ x ∈ funds, x.denom ≠ lpD) (.invalid "Supplied coins contain a foreign denom")
    provide c s sender funds assets receiver
  | .swap offer ask dst => do
    require (∀ x ∈ funds, x.denom ≠ lpD) (.invalid "MissingDenom")
    let x ← swap c s sender funds offer (ask.bind denomOf) dst
    .ok x.1
  | .withdraw assets =>
    match funds with
    | [x] => do
      require (x.denom = lpD) (.invalid "MissingDenom")
      let req ← orErr (asCoins assets) (.invalid "InvalidAsset")
      let y ← withdraw c s sender x.amount req
      .ok y.1
    | _ => .error (.invalid "PaymentError")
  | .other => .error (.invalid "NotSupported")

/-! ## Who pays -/

theorem receive_other {me sender : A} (hs : sender ≠ me) : ∀ {funds : List Coin} {b b' : Str → A → Nat},
    receive me sender funds b = .ok b' → ∀ d, (∀ v, v ≠ sender → b d v ≤ b' d v) ∧ b d sender = b' d sender + sent funds d
  | [], b, b', h, d => by
    simp only [receive, Except.ok.injEq] at h; subst h; simp [sent]
  | c :: cs, b, b', h, d => by
    simp only [receive, bind_ok_iff] at h
    obtain ⟨l, hl, h⟩ := h
    have hle := move_le hl
    obtain ⟨i1, i2⟩ := receive_other hs h d
    by_cases hd : d = c.denom
    · subst hd
      simp only [Function.update_self] at i1 i2
      refine ⟨fun v hv => le_trans ?_ (i1 v hv), ?_⟩
      · rw [move_apply hl]; simp [hv]
      · have h1 := move_apply hl sender
        simp only [if_true, hs, if_false] at h1
        simp only [sent, List.filter_cons, decide_true, if_true, List.map_cons, List.sum_cons]
        simp only [sent] at i2
        omega
    · rw [Function.update_of_ne hd] at i1 i2
      refine ⟨i1, ?_⟩
      simp only [sent, List.filter_cons, Ne.symm hd, decide_false] at i2 ⊢
      simpa using i2

theorem pay_other {me dst : A} : ∀ {l : List Coin} {b b' : Str → A → Nat},
    pay me dst l b = .ok b' → ∀ d v, v ≠ me → b d v ≤ b' d v
  | [], b, b', h, d, v, _ => by
    simp only [pay, Except.ok.injEq] at h; subst h; exact le_refl _
  | x :: xs, b, b', h, d, v, hv => by
    simp only [pay, bind_ok_iff] at h
    obtain ⟨l, hl, h⟩ := h
    refine le_trans ?_ (pay_other h d v hv)
    by_cases hd : d = x.denom
    · subst hd
      rw [Function.update_self, move_apply hl]; simp [hv]
    · rw [Function.update_of_ne hd]

/-- **C181 (who pays).**  A message takes from no account other than its sender and the pool; from the sender it takes at most
the coins attached, of the pool's assets and of the LP token. -/
theorem C181_only_the_sender_pays (c : Cfg A) (lpD : Str) (s s' : State A) (sender : A) (hs : sender ≠ c.me)
    (funds : List Coin) (m : Msg A) (h : execute c lpD s sender funds m = .ok s') :
    (∀ v, v ≠ sender → v ≠ c.me → (∀ d, s.bal d v ≤ s'.bal d v) ∧ s.lp v ≤ s'.lp v) ∧
    (∀ d, d ≠ lpD → s.bal d sender ≤ s'.bal d sender + sent funds d) ∧ s.lp sender ≤ s'.lp sender + sent funds lpD := by
  cases m with
  | provide assets auto r =>
    simp only [execute, provide, bind_ok_iff, require_ok, exists_const, Except.ok.injEq] at h
    obtain ⟨_, hl, b, hb, _, _, _, _, share, _, _, sup, _, rfl⟩ := h
    refine ⟨fun v hv _ => ⟨fun d => (receive_other hs hb d).1 v hv, ?_⟩, fun d _ => ?_, ?_⟩
    · show s.lp v ≤ credit s.lp _ share v
      rw [credit_apply]; split <;> omega
    · have := (receive_other hs hb d).2
      show s.bal d sender ≤ b d sender + _
      omega
    · show s.lp sender ≤ credit s.lp _ share sender + _
      rw [credit_apply]; split <;> omega
  | swap offer ask dst =>
    simp only [execute, swap, bind_ok_iff, require_ok, exists_const, Except.ok.injEq] at h
    obtain ⟨_, x, ⟨b, hb, _, _, h⟩, rfl⟩ := h
    split at h
    · simp at h
    · simp only [bind_ok_iff, require_ok, exists_const, Except.ok.injEq] at h
      obtain ⟨out, _, _, l, hl, rfl⟩ := h
      have hpay : ∀ d v, v ≠ c.me → b d v ≤ Function.update b out.denom l d v := by
        intro d v hv
        by_cases hd : d = out.denom
        · subst hd
          rw [Function.update_self, move_apply hl]; simp [hv]
        · rw [Function.update_of_ne hd]
      refine ⟨fun v hv hm => ⟨fun d => le_trans ((receive_other hs hb d).1 v hv) (hpay d v hm), le_refl _⟩,
        fun d _ => ?_, Nat.le_add_right _ _⟩
      have h1 := (receive_other hs hb d).2
      have h2 := hpay d sender hs
      show s.bal d sender ≤ Function.update b out.denom l d sender + _
      omega
  | withdraw assets =>
    simp only [execute] at h
    split at h
    · rename_i x
      simp only [withdraw, bind_ok_iff, require_ok, exists_const, Except.ok.injEq, orErr_ok] at h
      obtain ⟨hx, req, _, y, ⟨_, lp, hlp, h⟩, rfl⟩ := h
      have hsent : sent [x] lpD = x.amount := by simp [sent, hx]
      have hle := move_le hlp
      have hv1 : ∀ v, v ≠ sender → v ≠ c.me → lp v = s.lp v := by
        intro v h1 h2
        rw [move_apply hlp]; simp [h1, h2]
      have hv2 : lp sender + x.amount = s.lp sender := by
        have := move_apply hlp sender
        simp only [if_true, hs, if_false] at this
        omega
      split at h
      · simp only [bind_ok_iff, Except.ok.injEq] at h
        obtain ⟨ratio, _, refund, _, b, hb, lp2, hl2, sup, _, rfl⟩ := h
        refine ⟨fun v h1 h2 => ⟨fun d => pay_other hb d v h2, ?_⟩, fun d _ => ?_, ?_⟩
        · show s.lp v ≤ lp2 v
          rw [debit_apply hl2, if_neg h2, hv1 v h1 h2]
        · have := pay_other hb d sender hs
          show s.bal d sender ≤ b d sender + _
          omega
        · show s.lp sender ≤ lp2 sender + _
          rw [debit_apply hl2, if_neg hs, hsent]; omega
      · simp only [bind_ok_iff, require_ok, exists_const, Except.ok.injEq] at h
        obtain ⟨required, _, unused, _, lp1, hl1, b, hb, _, lp2, hl2, sup, _, rfl⟩ := h
        refine ⟨fun v h1 h2 => ⟨fun d => pay_other hb d v h2, ?_⟩, fun d _ => ?_, ?_⟩
        · show s.lp v ≤ lp2 v
          rw [debit_apply hl2, if_neg h2, move_apply hl1, if_neg h2, hv1 v h1 h2]; omega
        · have := pay_other hb d sender hs
          show s.bal d sender ≤ b d sender + _
          omega
        · show s.lp sender ≤ lp2 sender + _
          rw [debit_apply hl2, if_neg hs, move_apply hl1, if_neg hs, hsent]; omega
    · simp at h
  | other => simp [execute] at h

/-! ## What is accepted -/

/-- **C181 (swaps).**  A message that offers a coin of the pool and carries exactly it goes through, provided the value fits in
128 bits, it buys at least one unit of the other asset (of the asked one, in pools of more than two assets) and the pool has
that much.  The receiver gets exactly the value, rounded down. -/
theorem C181_swaps_accepted (c : Cfg A) (lpD : Str) (s : State A) (sender : A) (hs : sender ≠ c.me) (d e : Str) (x : Nat)
    (ask : Option Info) (dst : Option A) (hx : 0 < x) (hlp : d ≠ lpD) (hbal : x ≤ s.bal d sender)
    (hd : d ∈ c.assets) (he : e ∈ c.assets)
    (hask : if c.assets.length > 2 then ask = some (.native e) else c.assets.find? (fun y => decide (y ≠ d)) = some e)
    (hfit : x * c.coeff d < U128) (hpos : c.coeff e ≤ x * c.coeff d)
    (hres : x * c.coeff d / c.coeff e ≤ s.bal e c.me) (hto : dst.getD sender ≠ c.me) :
    ∃ s', execute c lpD s sender [⟨d, x⟩] (.swap ⟨.native d, x⟩ ask dst) = .ok s' ∧
      s'.lp = s.lp ∧ s'.supply = s.supply ∧
      (d ≠ e → s'.bal d c.me = s.bal d c.me + x ∧
        s'.bal e c.me + x * c.coeff d / c.coeff e = s.bal e c.me ∧
        s'.bal e (dst.getD sender) = s.bal e (dst.getD sender) + x * c.coeff d / c.coeff e) := by
  have hce := coeff_pos he
  have hout : 0 < x * c.coeff d / c.coeff e := Nat.div_pos hpos hce
  generalize hout' : x * c.coeff d / c.coeff e = out at *
  obtain ⟨l, hl⟩ := move_succeeds (b := c.me) hbal
  have hb : receive c.me sender [⟨d, x⟩] s.bal = .ok (Function.update s.bal d l) := by
    simp [receive, hl]
  have hsent : assertSent ⟨.native d, x⟩ [⟨d, x⟩] = .ok () := (C67_single_coin d x _).2 ⟨rfl, by omega⟩
  have hlm : l c.me = s.bal d c.me + x := by rw [move_apply hl]; simp [Ne.symm hs]
  have hge : out ≤ Function.update s.bal d l e c.me := by
    by_cases h : e = d
    · subst h; rw [Function.update_self, hlm]; omega
    · rw [Function.update_of_ne h]; exact hres
  have hn : normalize c d x = .ok (x * c.coeff d) := normalize_ok.2 ⟨hd, hfit, rfl⟩
  have hdn : denormalize c e (x * c.coeff d) = .ok out := denormalize_ok.2 ⟨he, hout'⟩
  have hask' : (if c.assets.length > 2 then ask.bind denomOf else c.assets.find? fun y => decide (y ≠ d)) = some e := by
    split at hask
    · rename_i h; rw [if_pos h, hask]; rfl
    · rename_i h; rw [if_neg h, hask]
  have hswap : assertAndSwap c (Function.update s.bal d l) ⟨d, x⟩ (ask.bind denomOf) = .ok ⟨e, out⟩ := by
    unfold assertAndSwap
    simp only [hn, ok_bind, hask', orErr]
    simp only [require, he, if_true, ok_bind, hdn, hge]
  obtain ⟨l2, hl2⟩ := move_succeeds (b := dst.getD sender) hge
  refine ⟨{ s with bal := Function.update (Function.update s.bal d l) e l2 }, ?_, rfl, rfl, fun hne => ?_⟩
  · have h1 : require (∀ y ∈ [(⟨d, x⟩ : Coin)], y.denom ≠ lpD) (.invalid "MissingDenom") = .ok () :=
      (require_ok _ _ _).2 (by simp [hlp])
    have h3 : require (out ≠ 0) (.invalid "invalid coins") = .ok () := (require_ok _ _ _).2 (by omega)
    simp only [execute, h1, ok_bind, swap, hb, hsent, hswap, h3, hl2]
  · have hne' : e ≠ d := Ne.symm hne
    refine ⟨?_, ?_, ?_⟩
    · show Function.update (Function.update s.bal d l) e l2 d c.me = _
      rw [Function.update_of_ne hne, Function.update_self, hlm]
    · show Function.update (Function.update s.bal d l) e l2 e c.me + out = _
      have := move_apply hl2 c.me
      simp only [if_true, Ne.symm hto, if_false, Function.update_of_ne hne'] at this
      rw [Function.update_self, this]; omega
    · show Function.update (Function.update s.bal d l) e l2 e (dst.getD sender) = _
      have := move_apply hl2 (dst.getD sender)
      simp only [if_true, hto, if_false, Function.update_of_ne hne'] at this
      rw [Function.update_self, this]

theorem receive_succeeds {me sender : A} : ∀ {l : List Coin} {b : Str → A → Nat}, (l.map Coin.denom).Nodup →
    (∀ x ∈ l, x.amount ≤ b x.denom sender) → ∃ b', receive me sender l b = .ok b'
  | [], b, _, _ => ⟨b, rfl⟩
  | x :: l, b, hn, h => by
    obtain ⟨m, hm⟩ := move_succeeds (b := me) (h x (by simp))
    rw [List.map_cons, List.nodup_cons] at hn
    obtain ⟨b', hb⟩ := receive_succeeds (me := me) (sender := sender) (l := l) (b := Function.update b x.denom m) hn.2
      (fun y hy => by
        have : y.denom ≠ x.denom := fun he => hn.1 (he ▸ List.mem_map.2 ⟨y, hy, rfl⟩)
        rw [Function.update_of_ne this]
        exact h y (by simp [hy]))
    exact ⟨b', by simp only [receive, hm, ok_bind, hb]⟩

/-- A coin as an asset. -/
def toAsset (x : Coin) : Asset := ⟨.native x.denom, x.amount⟩

theorem sumShares_succeeds {c : Cfg A} : ∀ {l : List Coin} {acc : Nat}, (∀ x ∈ l, x.denom ∈ c.assets) →
    acc + worth c l < U128 → sumShares c (l.map toAsset) acc = .ok (acc + worth c l)
  | [], acc, _, _ => by simp [sumShares, worth]
  | x :: l, acc, h, hw => by
    simp only [worth, List.map_cons, List.sum_cons] at hw
    have hm : x.amount * c.coeff x.denom = c.coeff x.denom * x.amount := Nat.mul_comm _ _
    have e1 : normalize c x.denom x.amount = .ok (c.coeff x.denom * x.amount) :=
      normalize_ok.2 ⟨h x (by simp), by omega, hm⟩
    have e2 : u128 (acc + c.coeff x.denom * x.amount) = .ok (acc + c.coeff x.denom * x.amount) := by
      simp only [u128_ok]; exact ⟨by omega, trivial⟩
    have ih := sumShares_succeeds (c := c) (l := l) (acc := acc + c.coeff x.denom * x.amount)
      (fun y hy => h y (by simp [hy])) (by unfold worth; omega)
    simp only [List.map_cons, toAsset, sumShares, e1, ok_bind, e2]
    rw [ih]
    simp only [worth, List.map_cons, List.sum_cons]
    congr 1
    omega

/-- **C181 (deposits).**  A message that carries different coins of the pool and declares exactly them goes through; the
receiver gets LP tokens of exactly their value. -/
theorem C181_deposits_accepted (c : Cfg A) (lpD : Str) (s : State A) (sender : A) (funds : List Coin)
    (receiver : Option A) (hne : funds ≠ []) (hn : (funds.map Coin.denom).Nodup)
    (hin : ∀ x ∈ funds, x.denom ∈ c.assets ∧ validateNativeDenom x.denom = .ok () ∧ x.denom ≠ lpD ∧
      x.amount ≤ s.bal x.denom sender)
    (hpos : 0 < worth c funds) (hfit : s.supply + worth c funds < U128) :
    ∃ s', execute c lpD s sender funds (.provide (funds.map toAsset) none receiver) = .ok s' ∧
      s'.lp = credit s.lp (receiver.getD sender) (worth c funds) ∧ s'.supply = s.supply + worth c funds := by
  obtain ⟨b, hb⟩ := receive_succeeds (me := c.me) (sender := sender) hn (fun x hx => (hin x hx).2.2.2)
  have hinfo : (funds.map toAsset).map Asset.info = (funds.map Coin.denom).map Info.native := by
    simp [List.map_map, Function.comp_def, toAsset]
  have hnd : ((funds.map toAsset).map Asset.info).Nodup := by
    rw [hinfo]
    exact hn.map (fun a b h => Info.native.inj h)
  have h1 : checkDenoms ((funds.map toAsset).map Asset.info) = .ok () := by
    unfold checkDenoms
    simp only [bind_ok_iff, require_ok, exists_const]
    refine ⟨hnd, forAll_ok.2 ?_⟩
    intro i hi
    rw [hinfo] at hi
    simp only [List.mem_map] at hi
    obtain ⟨_, ⟨x, hx, rfl⟩, rfl⟩ := hi
    exact (hin x hx).2.1
  have h2 : assertCoins funds (funds.map toAsset) (c.assets.map .native) = .ok () := by
    refine (assertCoins_ok hn).2 ⟨by simpa using hne, hnd, fun a ha => ?_, fun x hx => ?_⟩
    · simp only [List.mem_map] at ha
      obtain ⟨x, hx, rfl⟩ := ha
      refine ⟨List.mem_map.2 ⟨x.denom, (hin x hx).1, rfl⟩, fun d hd => ?_⟩
      have hd : x.denom = d := Info.native.inj hd
      subst hd
      show sent funds x.denom = x.amount
      clear hb h1 hnd hinfo hpos hfit hne
      induction funds with
      | nil => simp at hx
      | cons y ys ih =>
        rw [List.map_cons, List.nodup_cons] at hn
        rcases List.mem_cons.1 hx with rfl | hx
        · have : ys.filter (fun z => decide (z.denom = x.denom)) = [] := by
            rw [List.filter_eq_nil_iff]
            intro z hz
            simp only [decide_eq_true_eq]
            exact fun he => hn.1 (he ▸ List.mem_map.2 ⟨z, hz, rfl⟩)
          simp [sent, this]
        · have hyx : y.denom ≠ x.denom := fun he => hn.1 (he ▸ List.mem_map.2 ⟨x, hx, rfl⟩)
          have := ih hn.2 (fun z hz => hin z (by simp [hz])) hx
          simpa [sent, List.filter_cons, hyx] using this
    · exact List.mem_map.2 ⟨x.denom, (hin x hx).1, rfl⟩
  have h3 := sumShares_succeeds (c := c) (l := funds) (acc := 0) (fun x hx => (hin x hx).1) (by omega)
  rw [Nat.zero_add] at h3
  have h4 : require (∀ x ∈ funds, x.denom ≠ lpD) (.invalid "Supplied coins contain a foreign denom") = .ok () :=
    (require_ok _ _ _).2 (fun x hx => (hin x hx).2.2.1)
  have h5 : require (worth c funds ≠ 0) (.invalid "invalid coins") = .ok () := (require_ok _ _ _).2 (by omega)
  have h6 : u128 (s.supply + worth c funds) = .ok (s.supply + worth c funds) := by
    simp only [u128_ok]; exact ⟨hfit, trivial⟩
  have h7 : require ((none : Option Bool) ≠ some true) (.invalid "Auto stake is not supported") = .ok () :=
    (require_ok _ _ _).2 (by simp)
  refine ⟨⟨b, credit s.lp (receiver.getD sender) (worth c funds), s.supply + worth c funds⟩, ?_, rfl, rfl⟩
  simp only [execute, h7, h4, ok_bind, provide, hb, h1, h2, h3, h5, h6]

/-- **C181 (withdrawals).**  Whoever holds LP tokens can turn in any positive part of them without asking for particular
assets: the message goes through and burns exactly these, and pays of every asset the pool's balance times the share (a
number with 18 decimals), rounded down. -/
theorem C181_withdrawals_accepted (c : Cfg A) (hn : c.assets.Nodup) (lpD : Str) (s : State A)
    (hcap : ∀ d ∈ c.assets, s.bal d c.me < U128) (sender : A) (hs : sender ≠ c.me) (amount : Nat)
    (hpos : 0 < amount) (hlp : amount ≤ s.lp sender) (hsup : amount ≤ s.supply) :
    ∃ s', execute c lpD s sender [⟨lpD, amount⟩] (.withdraw []) = .ok s' ∧
      s'.lp sender + amount = s.lp sender ∧ s'.supply + amount = s.supply ∧
      ∀ d ∈ c.assets, s'.bal d c.me + mulDec (s.bal d c.me) (amount * DEC / s.supply) = s.bal d c.me ∧
        s'.bal d sender = s.bal d sender + mulDec (s.bal d c.me) (amount * DEC / s.supply) := by
  have hD := DEC_pos
  have hS : s.supply ≠ 0 := by omega
  have hratio : amount * DEC / s.supply ≤ DEC := by
    apply Nat.div_le_of_le_mul
    exact Nat.mul_le_mul_right _ hsup
  have hDU : DEC < U128 := by decide
  have e1 : decFromRatio amount s.supply = .ok (amount * DEC / s.supply) := by
    simp only [decFromRatio_ok]; exact ⟨hS, by omega, trivial⟩
  generalize amount * DEC / s.supply = ratio at *
  have hmd : ∀ n, mulDec n ratio ≤ n := by
    intro n
    have h1 := mulDec_mul_le n ratio
    have h2 : n * ratio ≤ n * DEC := Nat.mul_le_mul_left _ hratio
    exact Nat.le_of_mul_le_mul_right (le_trans h1 h2) hD
  have e2 : ∀ l : List Str, (∀ d ∈ l, s.bal d c.me < U128) →
      shareInAssets s.bal c.me ratio l = .ok (l.map fun d => ⟨d, mulDec (s.bal d c.me) ratio⟩) := by
    intro l
    induction l with
    | nil => intro _; rfl
    | cons d ds ih =>
      intro h
      have hu : u128 (mulDec (s.bal d c.me) ratio) = .ok (mulDec (s.bal d c.me) ratio) := by
        simp only [u128_ok]
        have := hmd (s.bal d c.me)
        have := h d (by simp)
        exact ⟨by omega, trivial⟩
      simp only [shareInAssets, hu, ok_bind, ih (fun d hd => h d (by simp [hd])), List.map_cons]
  obtain ⟨lp1, hl1⟩ := move_succeeds (b := c.me) hlp
  have hlm : lp1 c.me = s.lp c.me + amount := by rw [move_apply hl1]; simp [Ne.symm hs]
  have hls : lp1 sender + amount = s.lp sender := by
    have := move_apply hl1 sender
    simp only [if_true, hs, if_false] at this
    omega
  have hl2 : debit lp1 c.me amount = .ok (Function.update lp1 c.me (lp1 c.me - amount)) :=
    debit_ok.2 ⟨by omega, rfl⟩
  -- paying
  have hpay : ∀ (l : List Str) (b : Str → A → Nat), l.Nodup → (∀ d ∈ l, b d = s.bal d) →
      ∃ b', pay c.me sender ((l.map fun d => (⟨d, mulDec (s.bal d c.me) ratio⟩ : Coin)).filter
        fun x => decide (x.amount ≠ 0)) b = .ok b' ∧ (∀ d, d ∉ l → b' d = b d) ∧
        ∀ d ∈ l, b' d c.me + mulDec (s.bal d c.me) ratio = s.bal d c.me ∧
          b' d sender = s.bal d sender + mulDec (s.bal d c.me) ratio := by
    intro l
    induction l with
    | nil => intro b _ _; exact ⟨b, rfl, fun _ _ => rfl, by simp⟩
    | cons d ds ih =>
      intro b hnd hb
      rw [List.nodup_cons] at hnd
      by_cases h0 : mulDec (s.bal d c.me) ratio = 0
      · obtain ⟨b', h1, h2, h3⟩ := ih b hnd.2 (fun e he => hb e (by simp [he]))
        refine ⟨b', ?_, fun e he => h2 e (fun h => he (by simp [h])), fun e he => ?_⟩
        · rw [List.map_cons, List.filter_cons]
          simpa [h0] using h1
        · rcases List.mem_cons.1 he with rfl | he
          · rw [h2 e hnd.1, hb e (by simp), h0]; simp
          · exact h3 e he
      · have hle : mulDec (s.bal d c.me) ratio ≤ b d c.me := by
          rw [hb d (by simp)]; exact hmd _
        obtain ⟨m, hm⟩ := move_succeeds (b := sender) hle
        obtain ⟨b', h1, h2, h3⟩ := ih (Function.update b d m) hnd.2 (fun e he => by
          have : e ≠ d := fun h => hnd.1 (h ▸ he)
          rw [Function.update_of_ne this]; exact hb e (by simp [he]))
        refine ⟨b', ?_, fun e he => ?_, fun e he => ?_⟩
        · rw [List.map_cons, List.filter_cons]
          simp only [ne_eq, h0, not_false_eq_true, decide_true, if_true, pay, hm, ok_bind]
          simpa using h1
        · have hed : e ≠ d := fun h => he (by simp [h])
          rw [h2 e (fun h => he (by simp [h])), Function.update_of_ne hed]
        · rcases List.mem_cons.1 he with rfl | he
          · rw [h2 e hnd.1, Function.update_self]
            have a1 := move_apply hm c.me
            have a2 := move_apply hm sender
            simp only [if_true, Ne.symm hs, hs, if_false, hb e (by simp)] at a1 a2
            have := hmd (s.bal e c.me)
            exact ⟨by omega, by omega⟩
          · exact h3 e he
  obtain ⟨b, hb, _, hb3⟩ := hpay c.assets s.bal hn (fun _ _ => rfl)
  refine ⟨⟨b, Function.update lp1 c.me (lp1 c.me - amount), s.supply - amount⟩, ?_, ?_, ?_, hb3⟩
  · have h1 : require (amount ≠ 0) (.invalid "NoFunds") = .ok () := (require_ok _ _ _).2 (by omega)
    have h2 : csub s.supply amount = .ok (s.supply - amount) := by simp only [csub_ok]; exact ⟨hsup, trivial⟩
    simp only [execute, asCoins, orErr, withdraw, hl1, e1, e2 c.assets hcap, hb, hl2, h1, h2, ok_bind]
    simp [require]
  · show Function.update lp1 c.me _ sender + amount = _
    rw [Function.update_of_ne hs]; exact hls
  · show s.supply - amount + amount = _
    omega

/-- **C181 (refused).**  Withdrawals that do not carry exactly one coin, of the LP token and not empty, are refused; so are
deposits that ask for staking, and all other messages. -/
theorem C181_refused (c : Cfg A) (lpD : Str) (s s' : State A) (sender : A) (funds : List Coin) (assets : List Asset)
    (r : Option A) :
    (execute c lpD s sender funds (.withdraw assets) = .ok s' → ∃ n, 0 < n ∧ funds = [⟨lpD, n⟩]) ∧
    execute c lpD s sender funds (.provide assets (some true) r) ≠ .ok s' ∧
    execute c lpD s sender funds .other ≠ .ok s' := by
  refine ⟨fun h => ?_, fun h => ?_, fun h => ?_⟩
  · simp only [execute] at h
    split at h
    · rename_i x
      simp only [withdraw, bind_ok_iff, require_ok, exists_const] at h
      obtain ⟨hx, _, _, _, ⟨h0, _⟩, _⟩ := h
      exact ⟨x.amount, by omega, by rw [← hx]⟩
    · simp at h
  · simp [execute, require] at h
  · simp [execute] at h

/-! ## What LP tokens are worth -/

theorem balanced_value {c : Cfg A} (hn : c.assets.Nodup) {b b' : Str → A → Nat} {dst : A} {ratio amount supply : Nat}
    (hr : decFromRatio amount supply = .ok ratio)
    (hp : pay c.me dst ((c.assets.map fun d => (⟨d, mulDec (b d c.me) ratio⟩ : Coin)).filter fun x => decide (x.amount ≠ 0)) b
      = .ok b') : reserves c b * (supply - amount) ≤ reserves c b' * supply := by
  have h1 := (reserves_pay hp).1
  rw [worth_filter] at h1
  have hw : worth c (c.assets.map fun d => (⟨d, mulDec (b d c.me) ratio⟩ : Coin)) =
      ∑ d ∈ c.assets.toFinset, c.coeff d * mulDec (b d c.me) ratio := by
    have := worth_eq_sum (c := c) (ds := c.assets.map fun d => (⟨d, mulDec (b d c.me) ratio⟩ : Coin))
      (by simpa [List.map_map, Function.comp_def] using hn) (fun d => mulDec (b d c.me) ratio) (by simp)
    rw [this]
    congr 1
    simp [List.map_map, Function.comp_def]
  rw [hw] at h1
  simp only [decFromRatio_ok] at hr
  obtain ⟨hs0, _, hr⟩ := hr
  have hD := DEC_pos
  have hrs : ratio * supply ≤ amount * DEC := by rw [← hr]; exact Nat.div_mul_le_self _ _
  have h2 : (∑ d ∈ c.assets.toFinset, c.coeff d * mulDec (b d c.me) ratio) * (DEC * supply) ≤
      reserves c b * (amount * DEC) := by
    unfold reserves
    rw [Finset.sum_mul, Finset.sum_mul]
    apply Finset.sum_le_sum
    intro d _
    have h3 := mulDec_mul_le (b d c.me) ratio
    calc c.coeff d * mulDec (b d c.me) ratio * (DEC * supply)
        = c.coeff d * supply * (mulDec (b d c.me) ratio * DEC) := by ring
      _ ≤ c.coeff d * supply * (b d c.me * ratio) := Nat.mul_le_mul_left _ h3
      _ = c.coeff d * b d c.me * (ratio * supply) := by ring
      _ ≤ _ := Nat.mul_le_mul_left _ hrs
  generalize (∑ d ∈ c.assets.toFinset, c.coeff d * mulDec (b d c.me) ratio) = W at h1 h2
  have h4 : W * supply ≤ reserves c b * amount := by
    have : W * supply * DEC ≤ reserves c b * amount * DEC := by
      calc W * supply * DEC = W * (DEC * supply) := by ring
        _ ≤ _ := h2
        _ = _ := by ring
    exact Nat.le_of_mul_le_mul_right this hD
  have h5 : reserves c b - W ≤ reserves c b' := by omega
  refine le_trans ?_ (Nat.mul_le_mul_right _ h5)
  rw [Nat.mul_sub, Nat.sub_mul]
  omega

/-- **C181 (value), partial.**  No operation other than a deposit lowers the value behind each LP token (cross-multiplied), if
nothing but surplus is above par; and deposits keep it at par or above (C43).
Missing: a deposit dilutes a surplus (`C181_surplus_diluted_violated`). -/
theorem C181_value_per_lp_partial [Fintype A] (c : Cfg A) (hn : c.assets.Nodup) (s s' : State A) (hB : Backed c s)
    (o : Op A) (hs : o.sender ≠ c.me) (hnp : ∀ u f a r, o ≠ .provide u f a r) (h : exec c s o = .ok s') :
    reserves c s.bal * s'.supply ≤ reserves c s'.bal * s.supply := by
  obtain ⟨hV, hL⟩ := hB
  cases o with
  | provide u f a r => exact absurd rfl (hnp u f a r)
  | swap sender funds offer ask receiver =>
    simp only [exec, bind_ok_iff, Except.ok.injEq] at h
    obtain ⟨⟨s2, out⟩, hx, rfl⟩ := h
    obtain ⟨i, x⟩ := offer
    cases i with
    | token t => simp [swap] at hx
    | native d =>
      obtain ⟨_, _, _, _, h5, h6, h7⟩ := C42_one_to_one c s s2 sender funds d x ask receiver out hs hx
      show reserves c s.bal * s2.supply ≤ reserves c s2.bal * s.supply
      rw [h7]; exact Nat.mul_le_mul_right _ h5
  | withdraw sender amount assets =>
    simp only [exec, withdraw, bind_ok_iff, require_ok, exists_const, Except.ok.injEq] at h
    obtain ⟨x, ⟨_, lp, hlp, h⟩, rfl⟩ := h
    cases assets with
    | nil =>
      simp only [bind_ok_iff, csub_ok, Except.ok.injEq] at h
      obtain ⟨ratio, hr, refund, hrf, b, hb, lp2, hl2, sup, ⟨hle, rfl⟩, rfl⟩ := h
      rw [shareInAssets_ok hrf] at hb
      exact balanced_value hn hr hb
    | cons a as =>
      simp only [bind_ok_iff, csub_ok, require_ok, exists_const, Except.ok.injEq] at h
      obtain ⟨req, hr, unused, ⟨_, rfl⟩, lp1, hl1', b, hb, _, lp2, hl2, sup, ⟨hle, rfl⟩, rfl⟩ := h
      obtain ⟨hin, hreq⟩ := sumRequired_ok hr
      have h1 := (reserves_pay hb).1
      rw [worth_filter] at h1
      rw [Nat.zero_add] at hreq
      rw [← hreq] at h1
      show reserves c s.bal * (s.supply - req) ≤ reserves c b * s.supply
      have h2 : reserves c s.bal - req ≤ reserves c b := by omega
      refine le_trans ?_ (Nat.mul_le_mul_right _ h2)
      rw [Nat.mul_sub, Nat.sub_mul]
      have h3 : req * s.supply ≤ reserves c s.bal * req := by
        rw [Nat.mul_comm]; exact Nat.mul_le_mul_right _ hV
      omega
  | sendLp src dst n =>
    simp only [exec, bind_ok_iff, Except.ok.injEq] at h
    obtain ⟨l, hl, rfl⟩ := h
    exact le_refl _
  | send src dst d n =>
    simp only [exec, bind_ok_iff, Except.ok.injEq] at h
    obtain ⟨l, hl, rfl⟩ := h
    show reserves c s.bal * s.supply ≤ reserves c (Function.update s.bal d l) * s.supply
    refine Nat.mul_le_mul_right _ ?_
    have h1 := reserves_update c s.bal d l
    have h2 : s.bal d c.me ≤ l c.me := by
      rw [move_apply hl]
      have : c.me ≠ src := fun h => hs h.symm
      simp only [this, if_false]
      omega
    have h3 := Nat.mul_le_mul_left (c.coeff d) h2
    split_ifs at h1 <;> omega

section Witness

private def mUsd : Str := "usdc".toList
private def mDai : Str := "udai".toList
private def mLp : Str := "factory/pool/astroport/share".toList
private def mCfg : Cfg (Fin 3) := ⟨0, [mUsd, mDai], fun d => if d = mUsd then 2 else 4⟩

/-- Account 1 holds all LP tokens, of a value of 10000 units of USDC; someone has given the pool another 5000; account 2 has coins. -/
private def mState : State (Fin 3) :=
  ⟨fun d a => if a = 0 then (if d = mUsd then 15000 else 0) else if a = 2 then 1000000 else 0,
    fun a => if a = 1 then 1000000 else 0, 1000000⟩

private def mRun (l : List (Fin 3 × List Coin × Msg (Fin 3))) : State (Fin 3) :=
  l.foldl (fun s x => commit' s (execute mCfg mLp s x.1 x.2.1 x.2.2)) mState

/-- **C181 (value), violated.**  What LP tokens can be turned in for may fall by what others do: of a surplus of 5000 units of
USDC, account 2 takes half by depositing coins of equal value and turning in the LP tokens it got at once, for more than it
has deposited.  Before that, account 1 alone had got it all. -/
theorem C181_surplus_diluted_violated :
    Backed mCfg mState ∧
    (mRun [(1, [⟨mLp, 1000000⟩], .withdraw [])]).bal mUsd 1 = 15000 ∧
    (mRun [(2, [⟨mUsd, 10000⟩], .provide [⟨.native mUsd, 10000⟩] none none),
      (2, [⟨mLp, 1000000⟩], .withdraw []), (1, [⟨mLp, 1000000⟩], .withdraw [])]).bal mUsd 1 = 12500 ∧
    (mRun [(2, [⟨mUsd, 10000⟩], .provide [⟨.native mUsd, 10000⟩] none none),
      (2, [⟨mLp, 1000000⟩], .withdraw [])]).bal mUsd 2 = 1002500 := by
  refine ⟨⟨by decide +kernel, by decide +kernel⟩, by decide +kernel, by decide +kernel, by decide +kernel⟩

/-- A swap, a deposit and a withdrawal that go through, with coins that meet the hypotheses of the theorems. -/
example : okAnd (execute mCfg mLp mState 2 [⟨mDai, 12345⟩] (.swap ⟨.native mDai, 12345⟩ none none))
      (fun s => decide (s.bal mUsd 2 = 1000123 ∧ s.bal mDai 0 = 12345)) = true ∧
    okAnd (execute mCfg mLp mState 2 [⟨mDai, 12345⟩, ⟨mUsd, 10⟩]
      (.provide ([⟨mDai, 12345⟩, ⟨mUsd, 10⟩].map toAsset) none (some 1))) (fun s => decide (s.lp 1 = 1013345)) = true ∧
    okAnd (execute mCfg mLp mState 1 [⟨mLp, 500⟩] (.withdraw [])) (fun s => decide (s.bal mUsd 1 = 7)) = true ∧
    mCfg.assets.Nodup ∧ (∀ d ∈ mCfg.assets, mState.bal d mCfg.me < U128) ∧
    mCfg.assets.find? (fun y => decide (y ≠ mDai)) = some mUsd ∧
    validateNativeDenom mUsd = .ok () ∧ validateNativeDenom mDai = .ok () := by
  refine ⟨?_, ?_, ?_, ?_, ?_, ?_, ?_, ?_⟩ <;> decide +kernel

end Witness

end Verif.Transmuter
