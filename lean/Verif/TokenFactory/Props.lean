import Verif.TokenFactory.Model
import Mathlib.Tactic.Ring

/-!
# C191: LP tokens are minted and burnt alike on every chain
-/

namespace Verif.TokenFactory

/-! ## The encoding can be read back -/

theorem readVarint_varint (n : Nat) (r : Bytes) : readVarint (varint n ++ r) = some (n, r) := by
  induction n using Nat.strong_induction_on with
  | _ n ih =>
    rw [varint]
    by_cases h : n < 128
    · simp [h, readVarint]
    · rw [if_neg h, List.cons_append, readVarint, if_neg (by omega), ih (n / 128) (by omega)]
      simp only [Option.map_some, Option.some.injEq, Prod.mk.injEq, and_true]
      omega

theorem varint_ne (n : Nat) : varint n ≠ [] := by
  rw [varint]; split <;> simp

theorem fields_nil (k : Nat) : fields k [] = some [] := by cases k <;> rfl

theorem fields_field (k tag : Nat) (s r : Bytes) :
    fields (k + 1) (field tag s ++ r) = (fields k r).map (fun x => (tag, s) :: x) := by
  have e : field tag s ++ r = varint (tag * 8 + 2) ++ (varint s.length ++ (s ++ r)) := by simp [field]
  have hv := readVarint_varint (tag * 8 + 2) (varint s.length ++ (s ++ r))
  rw [← e] at hv
  have hne : field tag s ++ r ≠ [] := by
    rw [e]; simp [varint_ne]
  obtain ⟨b, bs, hb⟩ := List.exists_cons_of_ne_nil hne
  rw [hb] at hv ⊢
  rw [fields, hv]
  simp only [Option.bind_some]
  rw [if_pos (by omega), readVarint_varint]
  simp only [Option.bind_some]
  rw [if_pos (by simp)]
  have : (tag * 8 + 2) / 8 = tag := by omega
  simp [this]

/-- Fields one after the other. -/
def encode (fs : List (Nat × Bytes)) : Bytes := (fs.map (fun x => field x.1 x.2)).flatten

theorem fields_encode : ∀ (fs : List (Nat × Bytes)) (k : Nat), fs.length ≤ k → fields k (encode fs) = some fs
  | [], k, _ => fields_nil k
  | x :: fs, 0, h => by simp at h
  | x :: fs, k + 1, h => by
    have : encode (x :: fs) = field x.1 x.2 ++ encode fs := by simp [encode]
    rw [this, fields_field, fields_encode fs k (by simpa using h)]
    rfl

theorem length_encode : ∀ fs : List (Nat × Bytes), fs.length ≤ (encode fs).length
  | [] => Nat.zero_le _
  | x :: fs => by
    have e : encode (x :: fs) = field x.1 x.2 ++ encode fs := by simp [encode]
    have h1 : 0 < (varint (x.1 * 8 + 2)).length := List.length_pos_iff.2 (varint_ne _)
    have h2 := length_encode fs
    rw [e, List.length_append, field, List.length_append, List.length_append, List.length_cons]
    omega

theorem parse_encode (fs : List (Nat × Bytes)) : parse (encode fs) = some fs :=
  fields_encode fs _ (length_encode fs)

theorem strField_ne {s : Bytes} (tag : Nat) (h : s ≠ []) : strField tag s = encode [(tag, s)] := by
  simp [strField, h, encode]

theorem field_eq (tag : Nat) (s : Bytes) : field tag s = encode [(tag, s)] := by simp [encode]

theorem encode_append (a b : List (Nat × Bytes)) : encode a ++ encode b = encode (a ++ b) := by simp [encode]

theorem digits_ne (n : Nat) : digits n ≠ [] := by
  rw [digits]; split <;> simp

theorem digits_ok (n : Nat) : (∀ c ∈ digits n, 48 ≤ c ∧ c ≤ 57) ∧
    (digits n).foldl (fun a c => a * 10 + (c - 48)) 0 = n := by
  induction n using Nat.strong_induction_on with
  | _ n ih =>
    rw [digits]
    by_cases h : n < 10
    · simp only [h, if_true, List.mem_singleton, forall_eq, List.foldl_cons, List.foldl_nil]
      omega
    · rw [if_neg h, List.foldl_append, (ih (n / 10) (by omega)).2]
      refine ⟨fun c hc => ?_, ?_⟩
      · rcases List.mem_append.1 hc with hc | hc
        · exact (ih (n / 10) (by omega)).1 c hc
        · rw [List.mem_singleton] at hc; omega
      · simp only [List.foldl_cons, List.foldl_nil]; omega

theorem readDec_digits (n : Nat) : readDec (digits n) = some n := by
  have h := digits_ok n
  unfold readDec
  rw [if_pos ⟨digits_ne n, by simpa using h.1⟩, h.2]

theorem coin_read {d : Bytes} (hd : d ≠ []) (n : Nat) : parse (protoCoin d n) = some [(1, d), (2, digits n)] := by
  rw [protoCoin, strField_ne 1 hd, strField_ne 2 (digits_ne n), encode_append, parse_encode]
  rfl

/-- The fields of a mint message. -/
theorem mint_read {ch : Chain} {me d r : Bytes} {n : Nat} (hm : me ≠ []) (hr : r ≠ []) :
    parse (mintBytes ch me d n r) = some (match ch with
      | .osmosis => [(1, me), (2, protoCoin d n), (3, r)]
      | .injective => [(1, me), (2, protoCoin d n)]
      | .sei => [(2, protoCoin d n)]) := by
  cases ch
  · show parse (strField 1 me ++ field 2 (protoCoin d n) ++ strField 3 r) = _
    rw [strField_ne 1 hm, strField_ne 3 hr, field_eq, encode_append, encode_append, parse_encode]
    rfl
  · show parse (strField 1 me ++ field 2 (protoCoin d n)) = _
    rw [strField_ne 1 hm, field_eq, encode_append, parse_encode]
    rfl
  · show parse (field 2 (protoCoin d n)) = _
    rw [field_eq, parse_encode]

/-- The fields of a burn message. -/
theorem burn_read {ch : Chain} {me d : Bytes} {n : Nat} (hm : me ≠ []) :
    parse (burnBytes ch me d n) = some (match ch with
      | .sei => [(2, protoCoin d n)]
      | _ => [(1, me), (2, protoCoin d n)]) := by
  cases ch
  · show parse (strField 1 me ++ field 2 (protoCoin d n) ++ strField 3 []) = _
    rw [strField_ne 1 hm, field_eq, encode_append, show strField 3 [] = [] from rfl, List.append_nil, parse_encode]
    rfl
  · show parse (strField 1 me ++ field 2 (protoCoin d n)) = _
    rw [strField_ne 1 hm, field_eq, encode_append, parse_encode]
    rfl
  · show parse (field 2 (protoCoin d n)) = _
    rw [field_eq, parse_encode]

/-- **C191**: whoever reads a mint message by the rules of the wire format finds the contract as sender, the
denom, the amount and, where the chain knows one, the receiver that were meant; a burn message names the
contract, the denom and the amount and nobody else to burn from; a message that creates a denom names the contract
and the name; and the contract reads from the chain's answer exactly the denom the chain created.  For all
texts and amounts. -/
theorem C191_messages_read_back (ch : Chain) (me d r sub : Bytes) (n : Nat) (hm : me ≠ []) (hd : d ≠ []) (hr : r ≠ [])
    (hs : sub ≠ []) :
    (∃ fs coin, parse (mintBytes ch me d n r) = some fs ∧ parse (get 2 fs) = some coin ∧
      get 1 fs = (if ch = .sei then [] else me) ∧ get 3 fs = (if ch = .osmosis then r else []) ∧
      get 1 coin = d ∧ readDec (get 2 coin) = some n) ∧
    (∃ fs coin, parse (burnBytes ch me d n) = some fs ∧ parse (get 2 fs) = some coin ∧
      get 1 fs = (if ch = .sei then [] else me) ∧ get 3 fs = [] ∧
      get 1 coin = d ∧ readDec (get 2 coin) = some n) ∧
    (∃ fs, parse (createBytes ch me sub) = some fs ∧ get 1 fs = (if ch = .sei then [] else me) ∧ get 2 fs = sub) ∧
    newDenom (responseBytes d) = some d := by
  have hc := coin_read hd n
  have g1 : get 1 [(1, d), (2, digits n)] = d := rfl
  have g2 : get 2 [(1, d), (2, digits n)] = digits n := rfl
  refine ⟨⟨_, _, mint_read hm hr, ?_, ?_, ?_, g1, by rw [g2]; exact readDec_digits n⟩,
    ⟨_, _, burn_read hm, ?_, ?_, ?_, g1, by rw [g2]; exact readDec_digits n⟩, ?_, ?_⟩
  · cases ch <;> exact hc
  · cases ch <;> rfl
  · cases ch <;> rfl
  · cases ch <;> exact hc
  · cases ch <;> rfl
  · cases ch <;> rfl
  · cases ch
    · refine ⟨[(1, me), (2, sub)], ?_, rfl, rfl⟩
      show parse (strField 1 me ++ strField 2 sub) = _
      rw [strField_ne 1 hm, strField_ne 2 hs, encode_append, parse_encode]; rfl
    · refine ⟨[(1, me), (2, sub)], ?_, rfl, rfl⟩
      show parse (strField 1 me ++ strField 2 sub) = _
      rw [strField_ne 1 hm, strField_ne 2 hs, encode_append, parse_encode]; rfl
    · refine ⟨[(2, sub)], ?_, rfl, rfl⟩
      show parse (strField 2 sub) = _
      rw [strField_ne 2 hs, parse_encode]
  · show (parse (strField 1 d)).map (get 1) = some d
    rw [strField_ne 1 hd, parse_encode]
    rfl

/-! ## What the chain does with them -/

theorem header_mint {ch : Chain} {me d r : Bytes} {n : Nat} {b : Bank} (hm : me ≠ []) (hd : d ≠ []) (hr : r ≠ [])
    {x : List (Nat × Bytes) × Bytes × Nat} :
    header ch me b (mintBytes ch me d n r) = .ok x ↔
      (n ≠ 0 ∧ b.admin d = some me) ∧ x.2 = (d, n) ∧ get 3 x.1 = (if ch = .osmosis then r else []) ∧
        parse (mintBytes ch me d n r) = some x.1 := by
  have hc := coin_read hd n
  have hn : readDec (digits n) = some n := readDec_digits n
  obtain ⟨fs, d', n'⟩ := x
  simp only [header, bind_ok_iff, orErr_ok, require_ok, exists_const, Except.ok.injEq, Prod.mk.injEq]
  rw [mint_read hm hr]
  constructor
  · rintro ⟨fs', h1, _, coin, h2, m, h3, h4, h5, rfl, rfl, rfl⟩
    obtain rfl := Option.some.inj h1
    have e : some coin = some [(1, d), (2, digits n)] := by
      rw [← h2, ← hc]; cases ch <;> rfl
    obtain rfl := Option.some.inj e
    have e2 : some m = some n := by rw [← h3, ← hn]; rfl
    obtain rfl := Option.some.inj e2
    refine ⟨⟨h4, h5⟩, ⟨rfl, rfl⟩, ?_, rfl⟩
    cases ch <;> rfl
  · rintro ⟨⟨h4, h5⟩, ⟨rfl, rfl⟩, h6, h7⟩
    obtain rfl := Option.some.inj h7
    refine ⟨_, rfl, ?_, [(1, d'), (2, digits n')], ?_, n', hn, h4, h5, rfl, rfl, rfl⟩
    · cases ch <;> rfl
    · cases ch <;> exact hc

theorem header_burn {ch : Chain} {me d : Bytes} {n : Nat} {b : Bank} (hm : me ≠ []) (hd : d ≠ [])
    {x : List (Nat × Bytes) × Bytes × Nat} :
    header ch me b (burnBytes ch me d n) = .ok x ↔
      (n ≠ 0 ∧ b.admin d = some me) ∧ x.2 = (d, n) ∧ get 3 x.1 = [] ∧ parse (burnBytes ch me d n) = some x.1 := by
  have hc := coin_read hd n
  have hn : readDec (digits n) = some n := readDec_digits n
  obtain ⟨fs, d', n'⟩ := x
  simp only [header, bind_ok_iff, orErr_ok, require_ok, exists_const, Except.ok.injEq, Prod.mk.injEq]
  rw [burn_read hm]
  constructor
  · rintro ⟨fs', h1, _, coin, h2, m, h3, h4, h5, rfl, rfl, rfl⟩
    obtain rfl := Option.some.inj h1
    have e : some coin = some [(1, d), (2, digits n)] := by
      rw [← h2, ← hc]; cases ch <;> rfl
    obtain rfl := Option.some.inj e
    have e2 : some m = some n := by rw [← h3, ← hn]; rfl
    obtain rfl := Option.some.inj e2
    refine ⟨⟨h4, h5⟩, ⟨rfl, rfl⟩, ?_, rfl⟩
    cases ch <;> rfl
  · rintro ⟨⟨h4, h5⟩, ⟨rfl, rfl⟩, h6, h7⟩
    obtain rfl := Option.some.inj h7
    refine ⟨_, rfl, ?_, [(1, d'), (2, digits n')], ?_, n', hn, h4, h5, rfl, rfl, rfl⟩
    · cases ch <;> rfl
    · cases ch <;> exact hc

/-- The account the chain mints to. -/
def mintedTo (ch : Chain) (me r : Bytes) : Bytes := if ch = .osmosis then r else me

theorem deliver_mint {ch : Chain} {me d r : Bytes} {n : Nat} {b b' : Bank} (hm : me ≠ []) (hd : d ≠ []) (hr : r ≠ []) :
    deliver ch me b (.mint (mintBytes ch me d n r)) = .ok b' ↔
      n ≠ 0 ∧ b.admin d = some me ∧ b.supply d + n < U256 ∧
        b.set d (credit (fun a => b.bal a d) (mintedTo ch me r) n) (b.supply d + n) = b' := by
  simp only [deliver, bind_ok_iff, Prod.exists, header_mint hm hd hr, u256_ok, Except.ok.injEq, Prod.mk.injEq]
  constructor
  · rintro ⟨fs, d', n', ⟨⟨h1, h2⟩, ⟨rfl, rfl⟩, h3, _⟩, _, ⟨h4, rfl⟩, rfl⟩
    refine ⟨h1, h2, h4, ?_⟩
    rw [h3]
    cases ch <;> simp [mintedTo, hr]
  · rintro ⟨h1, h2, h3, rfl⟩
    refine ⟨_, d, n, ⟨⟨h1, h2⟩, ⟨rfl, rfl⟩, ?_, mint_read hm hr⟩, _, ⟨h3, rfl⟩, ?_⟩
    · cases ch <;> rfl
    · cases ch
      · simp [mintedTo, hr, get]
      · simp [mintedTo]
      · simp [mintedTo]

/-- **C191**: on every chain the code is built for, minting succeeds exactly when the amount is positive, the contract
is the denom's admin and the supply stays below 2^256; then the receiver has that much more of that denom, the supply
has grown by it, and no other balance, of any account and denom, has changed. -/
theorem C191_mint_on_every_chain (ch : Chain) (me d r : Bytes) (n : Nat) (b : Bank) (hm : me ≠ []) (hd : d ≠ [])
    (hr : r ≠ []) :
    ((∃ b', deliverAll ch me b (mintMsgs ch me d n r) = .ok b') ↔
      0 < n ∧ b.admin d = some me ∧ b.supply d + n < 2 ^ 256) ∧
    ∀ b', deliverAll ch me b (mintMsgs ch me d n r) = .ok b' →
      (∀ a d', b'.bal a d' = b.bal a d' + if a = r ∧ d' = d then n else 0) ∧
      (∀ d', b'.supply d' = b.supply d' + if d' = d then n else 0) ∧ b'.admin = b.admin := by
  have key : ∀ b', deliverAll ch me b (mintMsgs ch me d n r) = .ok b' ↔
      (n ≠ 0 ∧ b.admin d = some me ∧ b.supply d + n < U256) ∧
        b.set d (credit (fun a => b.bal a d) r n) (b.supply d + n) = b' := by
    intro b'
    by_cases hone : ch = .osmosis ∨ me = r
    · have e1 : mintMsgs ch me d n r = [.mint (mintBytes ch me d n r)] := by
        unfold mintMsgs
        cases ch <;> simp_all
      have e2 : mintedTo ch me r = r := by
        unfold mintedTo
        rcases hone with h | h
        · rw [if_pos h]
        · split
          · rfl
          · exact h
      rw [e1]
      simp only [deliverAll, bind_ok_iff, deliver_mint hm hd hr, e2, Except.ok.injEq]
      constructor
      · rintro ⟨_, ⟨h1, h2, h3, rfl⟩, rfl⟩
        exact ⟨⟨h1, h2, h3⟩, rfl⟩
      · rintro ⟨⟨h1, h2, h3⟩, rfl⟩
        exact ⟨_, ⟨h1, h2, h3, rfl⟩, rfl⟩
    · have hc : ch ≠ .osmosis := fun h => hone (Or.inl h)
      have hne : me ≠ r := fun h => hone (Or.inr h)
      have e1 : mintMsgs ch me d n r = [.mint (mintBytes ch me d n r), .send r d n] := by
        unfold mintMsgs
        cases ch <;> simp_all
      have e2 : mintedTo ch me r = me := by unfold mintedTo; rw [if_neg hc]
      have e3 : deliver ch me (b.set d (credit (fun a => b.bal a d) me n) (b.supply d + n)) (.send r d n)
          = if n ≠ 0 then .ok (b.set d (credit (fun a => b.bal a d) r n) (b.supply d + n))
            else .error (.invalid "invalid coins") := by
        by_cases hn : n = 0
        · simp [deliver, hn, require]
        · have hb : (fun a => (b.set d (credit (fun a => b.bal a d) me n) (b.supply d + n)).bal a d)
              = credit (fun a => b.bal a d) me n := by funext a; simp [Bank.set]
          have hmv : move (credit (fun a => b.bal a d) me n) me r n = .ok (credit (fun a => b.bal a d) r n) := by
            have : n ≤ credit (fun a => b.bal a d) me n me := by simp
            simp only [move, debit, if_pos this, ok_bind, Except.ok.injEq]
            funext a
            by_cases h1 : a = r
            · subst h1
              simp [credit, Function.update, Ne.symm hne]
            · by_cases h2 : a = me
              · subst h2
                simp [credit, Function.update, h1]
              · simp [credit, Function.update, h1, h2]
          rw [if_pos hn]
          simp only [deliver, hb, hmv, bind_ok_iff, require_ok, exists_const, Except.ok.injEq]
          refine ⟨hn, _, rfl, ?_⟩
          unfold Bank.set
          simp only [Bank.mk.injEq, and_true]
          constructor
          · funext a d'; split <;> rfl
          · funext d'; by_cases h : d' = d <;> simp [h]
      rw [e1]
      simp only [deliverAll, bind_ok_iff, deliver_mint hm hd hr, e2, Except.ok.injEq]
      constructor
      · rintro ⟨_, ⟨h1, h2, h3, rfl⟩, b2, h4, rfl⟩
        rw [e3, if_pos h1] at h4
        exact ⟨⟨h1, h2, h3⟩, Except.ok.inj h4⟩
      · rintro ⟨⟨h1, h2, h3⟩, rfl⟩
        exact ⟨_, ⟨h1, h2, h3, rfl⟩, _, by rw [e3, if_pos h1], rfl⟩
  refine ⟨⟨?_, ?_⟩, ?_⟩
  · rintro ⟨b', h⟩
    obtain ⟨⟨h1, h2, h3⟩, _⟩ := (key b').1 h
    exact ⟨Nat.pos_of_ne_zero h1, h2, h3⟩
  · rintro ⟨h1, h2, h3⟩
    exact ⟨_, (key _).2 ⟨⟨Nat.pos_iff_ne_zero.1 h1, h2, h3⟩, rfl⟩⟩
  · intro b' h
    obtain ⟨_, rfl⟩ := (key b').1 h
    refine ⟨fun a d' => ?_, fun d' => ?_, rfl⟩
    · by_cases h1 : d' = d
      · subst h1
        by_cases h2 : a = r
        · subst h2; simp [Bank.set, credit]
        · simp [Bank.set, credit, h2, Function.update]
      · simp [Bank.set, h1]
    · by_cases h1 : d' = d
      · subst h1; simp [Bank.set]
      · simp [Bank.set, h1]

/-- **C191**: on every chain, burning succeeds exactly when the amount is positive, the contract is the denom's admin
and holds that much, and there is that much; then the contract has that much less, the supply has fallen by it, and no
other balance has changed. -/
theorem C191_burn_on_every_chain (ch : Chain) (me d : Bytes) (n : Nat) (b : Bank) (hm : me ≠ []) (hd : d ≠ []) :
    ((∃ b', deliverAll ch me b (burnMsgs ch me d n) = .ok b') ↔
      0 < n ∧ b.admin d = some me ∧ n ≤ b.bal me d ∧ n ≤ b.supply d) ∧
    ∀ b', deliverAll ch me b (burnMsgs ch me d n) = .ok b' →
      (∀ a d', b'.bal a d' = b.bal a d' - if a = me ∧ d' = d then n else 0) ∧
      (∀ d', b'.supply d' = b.supply d' - if d' = d then n else 0) ∧ b'.admin = b.admin := by
  have key : ∀ b', deliverAll ch me b (burnMsgs ch me d n) = .ok b' ↔
      (n ≠ 0 ∧ b.admin d = some me ∧ n ≤ b.bal me d ∧ n ≤ b.supply d) ∧
        b.set d (Function.update (fun a => b.bal a d) me (b.bal me d - n)) (b.supply d - n) = b' := by
    intro b'
    simp only [burnMsgs, deliverAll, deliver, bind_ok_iff, Prod.exists, header_burn hm hd, csub_ok, Except.ok.injEq,
      Prod.mk.injEq]
    constructor
    · rintro ⟨_, ⟨fs, d', n', ⟨⟨h1, h2⟩, ⟨rfl, rfl⟩, h3, _⟩, l, h4, _, ⟨h5, rfl⟩, rfl⟩, rfl⟩
      rw [h3] at h4
      simp only [ne_eq, not_true_eq_false, and_false, if_false, debit] at h4
      by_cases h6 : n' ≤ b.bal me d'
      · rw [if_pos h6] at h4
        obtain rfl := Except.ok.inj h4
        exact ⟨⟨h1, h2, h6, h5⟩, rfl⟩
      · rw [if_neg h6] at h4; cases h4
    · rintro ⟨⟨h1, h2, h3, h4⟩, rfl⟩
      refine ⟨_, ⟨_, d, n, ⟨⟨h1, h2⟩, ⟨rfl, rfl⟩, ?_, burn_read hm⟩, _, ?_, _, ⟨h4, rfl⟩, rfl⟩, rfl⟩
      · cases ch <;> rfl
      · have : ∀ x : Bytes, x = me → debit (fun a => b.bal a d) x n
            = .ok (Function.update (fun a => b.bal a d) me (b.bal me d - n)) := by
          rintro x rfl; unfold debit; rw [if_pos h3]
        apply this
        cases ch <;> rfl
  refine ⟨⟨?_, ?_⟩, ?_⟩
  · rintro ⟨b', h⟩
    obtain ⟨⟨h1, h2, h3⟩, _⟩ := (key b').1 h
    exact ⟨Nat.pos_of_ne_zero h1, h2, h3⟩
  · rintro ⟨h1, h2, h3⟩
    exact ⟨_, (key _).2 ⟨⟨Nat.pos_iff_ne_zero.1 h1, h2, h3⟩, rfl⟩⟩
  · intro b' h
    obtain ⟨_, rfl⟩ := (key b').1 h
    refine ⟨fun a d' => ?_, fun d' => ?_, rfl⟩
    · by_cases h1 : d' = d
      · subst h1
        by_cases h2 : a = me
        · subst h2; simp [Bank.set]
        · simp [Bank.set, h2, Function.update]
      · simp [Bank.set, h1]
    · by_cases h1 : d' = d
      · subst h1; simp [Bank.set]
      · simp [Bank.set, h1]

/-! ## Examples -/

/-- The contract `[112]` is the admin of its denom; another account has some. -/
def demoBank : Bank where
  bal := fun a d => if a = [97] ∧ d = [102, 47, 112] then 5 else 0
  supply := fun d => if d = [102, 47, 112] then 5 else 0
  admin := fun d => if d = [102, 47, 112] then some [112] else none

/-- On each chain, 300 units are minted to account `[98]` and 300 more to the contract, which burns 120; an amount of
zero and a foreign denom are refused. -/
example : ∀ ch ∈ [Chain.osmosis, .injective, .sei],
    okAnd (deliverAll ch [112] demoBank (mintMsgs ch [112] [102, 47, 112] 300 [98] ++
        mintMsgs ch [112] [102, 47, 112] 300 [112] ++ burnMsgs ch [112] [102, 47, 112] 120)) (fun b =>
      decide (b.bal [98] [102, 47, 112] = 300 ∧ b.bal [112] [102, 47, 112] = 180 ∧ b.bal [97] [102, 47, 112] = 5 ∧
        b.supply [102, 47, 112] = 485)) = true ∧
    fails (deliverAll ch [112] demoBank (mintMsgs ch [112] [102, 47, 112] 0 [98])) = true ∧
    fails (deliverAll ch [112] demoBank (mintMsgs ch [112] [103] 1 [98])) = true := by
  decide +kernel

end Verif.TokenFactory
