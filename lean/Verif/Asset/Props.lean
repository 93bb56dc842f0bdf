import Verif.Asset.Model

/-!
# C67, C68, C145: coin checks, the denom grammar and assets given as text
-/

namespace Verif.Asset

/-! ## Specification -/

/-- The letters of the denom grammar. -/
def Letter (c : Char) : Prop := ('a' ≤ c ∧ c ≤ 'z') ∨ ('A' ≤ c ∧ c ≤ 'Z')
/-- The characters allowed after the first. -/
def Tail (c : Char) : Prop :=
  Letter c ∨ ('0' ≤ c ∧ c ≤ '9') ∨ c = '/' ∨ c = ':' ∨ c = '.' ∨ c = '_' ∨ c = '-'
/-- `[a-zA-Z][a-zA-Z0-9/:._-]{2,127}`. -/
def DenomGrammar (s : Str) : Prop :=
  ∃ c rest, s = c :: rest ∧ Letter c ∧ (∀ d ∈ rest, Tail d) ∧ 2 ≤ rest.length ∧ rest.length ≤ 127

/-- Amount of a denom among the sent coins. -/
def sent (coins : List Coin) (d : Str) : Nat := ((coins.filter fun c => decide (c.denom = d)).map Coin.amount).sum
/-- Amount declared for an asset. -/
def declared (input : List Asset) (i : Info) : Nat := ((input.filter fun a => decide (a.info = i)).map Asset.amount).sum

/-! ## Lemmas -/

theorem asciiAlphabetic_iff (c : Char) : asciiAlphabetic c = true ↔ Letter c := by
  simp only [asciiAlphabetic, Letter, Bool.or_eq_true, Bool.and_eq_true, decide_eq_true_eq, Char.le_def,
    UInt32.le_iff_toNat_le]
  have h : c.val.toNat = c.toNat := rfl
  rw [h]
  have h1 : ('a' : Char).val.toNat = 97 := rfl
  have h2 : ('z' : Char).val.toNat = 122 := rfl
  have h3 : ('A' : Char).val.toNat = 65 := rfl
  have h4 : ('Z' : Char).val.toNat = 90 := rfl
  rw [h1, h2, h3, h4]
  omega

theorem tail_iff (c : Char) : (asciiAlphanumeric c || decide (c ∈ separators)) = true ↔ Tail c := by
  have hd : (decide (48 ≤ c.toNat) && decide (c.toNat ≤ 57)) = true ↔ ('0' ≤ c ∧ c ≤ '9') := by
    simp only [Bool.and_eq_true, decide_eq_true_eq, Char.le_def, UInt32.le_iff_toNat_le]
    exact Iff.rfl
  unfold asciiAlphanumeric Tail
  rw [Bool.or_eq_true, Bool.or_eq_true, asciiAlphabetic_iff, hd, decide_eq_true_eq, or_assoc]
  simp only [separators, List.mem_cons, List.not_mem_nil, or_false]

/-- A character of the grammar takes one byte, its code. -/
theorem utf8_one {c : Char} (h : c.toNat ≤ 127) : (String.utf8EncodeChar c).map UInt8.toNat = [c.toNat] := by
  have h' : c.val.toNat ≤ 127 := h
  unfold String.utf8EncodeChar
  simp only [h', if_true]
  simp only [List.map_cons, List.map_nil, UInt8.toNat_ofNat', List.cons.injEq, and_true]
  show c.val.toNat % 256 = c.val.toNat
  omega

theorem tail_ascii {c : Char} (h : Tail c) : 45 ≤ c.toNat ∧ c.toNat ≤ 122 := by
  have e : ∀ a b : Char, a ≤ b ↔ a.toNat ≤ b.toNat := fun a b => by
    rw [Char.le_def, UInt32.le_iff_toNat_le]; exact Iff.rfl
  have h1 : ('a' : Char).toNat = 97 := rfl
  have h2 : ('z' : Char).toNat = 122 := rfl
  have h3 : ('A' : Char).toNat = 65 := rfl
  have h4 : ('Z' : Char).toNat = 90 := rfl
  have h5 : ('0' : Char).toNat = 48 := rfl
  have h6 : ('9' : Char).toNat = 57 := rfl
  simp only [Tail, Letter, e, h1, h2, h3, h4, h5, h6] at h
  rcases h with h | h | rfl | rfl | rfl | rfl | rfl
  · omega
  · omega
  all_goals decide

theorem utf8_ascii : ∀ {s : Str}, (∀ c ∈ s, c.toNat ≤ 127) → utf8 s = s.map Char.toNat
  | [], _ => rfl
  | c :: s, h => by
    have ih := utf8_ascii (s := s) (fun d hd => h d (by simp [hd]))
    unfold utf8 at *
    rw [List.flatMap_cons, ih, utf8_one (h c (by simp))]
    rfl

theorem forAll_ok {α : Type} {f : α → Res Unit} : ∀ {l : List α} {u : Unit}, forAll f l = .ok u ↔ ∀ x ∈ l, f x = .ok ()
  | [] => by simp [forAll]
  | x :: xs => by
    simp only [forAll, bind_ok_iff, forAll_ok (l := xs), List.mem_cons, forall_eq_or_imp]
    constructor
    · rintro ⟨_, h1, h2⟩; exact ⟨h1, h2⟩
    · rintro ⟨h1, h2⟩; exact ⟨(), h1, h2⟩

theorem mem_of_find {coins : List Coin} {d : Str} (hn : (coins.map Coin.denom).Nodup) :
    ((coins.find? fun c => decide (c.denom = d)).map Coin.amount).getD 0 = sent coins d := by
  induction coins with
  | nil => rfl
  | cons c cs ih =>
    rw [List.map_cons, List.nodup_cons] at hn
    have ih := ih hn.2
    unfold sent at *
    rw [List.find?_cons]
    by_cases h : c.denom = d
    · have h0 : cs.filter (fun c => decide (c.denom = d)) = [] := by
        rw [List.filter_eq_nil_iff]
        intro x hx
        simp only [decide_eq_true_eq]
        intro hxd
        exact hn.1 (by rw [h, ← hxd]; exact List.mem_map_of_mem hx)
      simp [h, h0]
    · simp [h] at ih ⊢
      exact ih

theorem declared_of_mem {input : List Asset} (hn : (input.map Asset.info).Nodup) {a : Asset} (ha : a ∈ input) :
    declared input a.info = a.amount := by
  induction input with
  | nil => simp at ha
  | cons b bs ih =>
    rw [List.map_cons, List.nodup_cons] at hn
    unfold declared at *
    rcases List.mem_cons.1 ha with rfl | ha
    · have h0 : bs.filter (fun c => decide (c.info = a.info)) = [] := by
        rw [List.filter_eq_nil_iff]
        intro x hx
        simp only [decide_eq_true_eq]
        intro hxd
        exact hn.1 (by rw [← hxd]; exact List.mem_map_of_mem hx)
      simp [h0]
    · have h : b.info ≠ a.info := fun h => hn.1 (by rw [h]; exact List.mem_map_of_mem ha)
      simp only [List.filter_cons, h, decide_false]
      exact ih hn.2 ha

theorem declared_of_not_mem {input : List Asset} {i : Info} (h : ∀ a ∈ input, a.info ≠ i) : declared input i = 0 := by
  unfold declared
  have h0 : input.filter (fun c => decide (c.info = i)) = [] := by
    rw [List.filter_eq_nil_iff]
    intro x hx
    simpa using h x hx
  rw [h0]; rfl

theorem assertCoins_ok {coins : List Coin} {input : List Asset} {pool : List Info}
    (hn : (coins.map Coin.denom).Nodup) :
    assertCoins coins input pool = .ok () ↔ input ≠ [] ∧ (input.map Asset.info).Nodup ∧
      (∀ a ∈ input, a.info ∈ pool ∧ ∀ d, a.info = .native d → sent coins d = a.amount) ∧
      ∀ c ∈ coins, Info.native c.denom ∈ pool := by
  have h : ∀ a, checkInput coins pool a = .ok () ↔
      a.info ∈ pool ∧ ∀ d, a.info = .native d → sent coins d = a.amount := by
    intro a
    simp only [checkInput, bind_ok_iff, require_ok, exists_const]
    apply and_congr_right
    intro _
    cases hi : a.info with
    | token x => simp
    | native d =>
      simp only [require_ok, mem_of_find hn, Info.native.injEq, forall_eq']
  simp only [assertCoins, bind_ok_iff, require_ok, exists_const, forAll_ok, h]

/-! ## C67 -/

/-- C67: whatever coins are sent (each denom at most once, as the chain guarantees) and whatever is
declared, an accepted message has sent exactly the declared amount of every declared native asset; and
all declared assets and sent coins belong to the pool. -/
theorem C67_declared_was_sent (coins : List Coin) (input : List Asset) (pool : List Info)
    (hn : (coins.map Coin.denom).Nodup) (h : assertCoins coins input pool = .ok ()) :
    (∀ a ∈ input, ∀ d, a.info = .native d → sent coins d = declared input (.native d)) ∧
    (∀ a ∈ input, a.info ∈ pool) ∧ ∀ c ∈ coins, Info.native c.denom ∈ pool := by
  obtain ⟨_, h2, h3, h4⟩ := (assertCoins_ok hn).1 h
  refine ⟨?_, fun a ha => (h3 a ha).1, h4⟩
  intro a ha d hd
  rw [(h3 a ha).2 d hd, ← hd, declared_of_mem h2 ha]

/-- C67, partial: if every native asset of the pool is declared, then an accepted message has sent exactly the
declared amount of every denom whatsoever.
Missing: messages that declare only some of the pool's assets (`C67_undeclared_coin_violated`). -/
theorem C67_sent_equals_declared_partial (coins : List Coin) (input : List Asset) (pool : List Info)
    (hn : (coins.map Coin.denom).Nodup) (hall : ∀ d, Info.native d ∈ pool → ∃ a ∈ input, a.info = .native d)
    (h : assertCoins coins input pool = .ok ()) (d : Str) : sent coins d = declared input (.native d) := by
  obtain ⟨h1, h2, h3⟩ := C67_declared_was_sent coins input pool hn h
  by_cases hd : ∃ a ∈ input, a.info = .native d
  · obtain ⟨a, ha, hd⟩ := hd
    exact h1 a ha d hd
  · rw [declared_of_not_mem (fun a ha he => hd ⟨a, ha, he⟩)]
    unfold sent
    have h0 : coins.filter (fun c => decide (c.denom = d)) = [] := by
      rw [List.filter_eq_nil_iff]
      intro c hc
      simp only [decide_eq_true_eq]
      rintro rfl
      exact hd (hall _ (h3 c hc))
    rw [h0]; rfl

/-- C67: honest messages are accepted. -/
theorem C67_honest_accepted (coins : List Coin) (input : List Asset) (pool : List Info)
    (hn : (coins.map Coin.denom).Nodup) (h0 : input ≠ []) (h1 : (input.map Asset.info).Nodup)
    (h2 : ∀ a ∈ input, a.info ∈ pool) (h3 : ∀ c ∈ coins, Info.native c.denom ∈ pool)
    (h4 : ∀ d, sent coins d = declared input (.native d)) : assertCoins coins input pool = .ok () := by
  refine (assertCoins_ok hn).2 ⟨h0, h1, fun a ha => ⟨h2 a ha, fun d hd => ?_⟩, h3⟩
  rw [h4, ← hd, declared_of_mem h1 ha]

/-- C67 is violated: a coin of the pool that was not declared is accepted (and becomes a gift). -/
theorem C67_undeclared_coin_violated :
    assertCoins [⟨"uluna".toList, 5⟩, ⟨"uusd".toList, 7⟩] [⟨.native "uluna".toList, 5⟩]
      [.native "uluna".toList, .native "uusd".toList] = .ok () := by decide

/-- C67: the single coin check accepts a native asset iff exactly that coin, not zero, is the only one sent. -/
theorem C67_single_coin (d : Str) (n : Nat) (funds : List Coin) :
    assertSent ⟨.native d, n⟩ funds = .ok () ↔ funds = [⟨d, n⟩] ∧ n ≠ 0 := by
  unfold assertSent
  simp only [bind_ok_iff, require_ok]
  constructor
  · rintro ⟨m, h, rfl⟩
    unfold mustPay at h
    split at h
    · simp at h
    · rename_i c
      split_ifs at h with h1 h2
      simp only [Except.ok.injEq] at h
      subst h
      subst h2
      exact ⟨rfl, h1⟩
    · simp at h
  · rintro ⟨rfl, hn⟩
    exact ⟨n, by simp [mustPay, hn], rfl⟩

example : assertCoins [⟨"uluna".toList, 5⟩, ⟨"uusd".toList, 7⟩]
    [⟨.native "uluna".toList, 5⟩, ⟨.native "uusd".toList, 7⟩, ⟨.token "wasm1abc".toList, 3⟩]
    [.native "uluna".toList, .native "uusd".toList, .token "wasm1abc".toList] = .ok () := by decide
example : ∃ e, assertCoins [⟨"uluna".toList, 5⟩] [⟨.native "uluna".toList, 6⟩] [.native "uluna".toList] = .error e :=
  ⟨_, rfl⟩

/-! ## C68 -/

/-- C68: a denom is accepted iff it belongs to the Cosmos SDK grammar. -/
theorem C68_denom_grammar (s : Str) : validateNativeDenom s = .ok () ↔ DenomGrammar s := by
  have hlen : ∀ c rest, Letter c → (∀ d ∈ rest, Tail d) → byteLen (c :: rest) = rest.length + 1 := by
    intro c rest h1 h2
    unfold byteLen
    rw [utf8_ascii]
    · simp
    · intro d hd
      rcases List.mem_cons.1 hd with rfl | hd
      · have := tail_ascii (Or.inl h1); omega
      · have := tail_ascii (h2 d hd); omega
  unfold validateNativeDenom DenomGrammar
  cases s with
  | nil =>
    simp only [bind_ok_iff, require_ok]
    constructor
    · rintro ⟨_, _, h⟩; exact absurd h (by simp)
    · rintro ⟨c, rest, h, _⟩; exact absurd h (by simp)
  | cons c rest =>
    simp only [bind_ok_iff, require_ok, exists_const, asciiAlphabetic_iff, tail_iff]
    have hD : DENOM_MAX_LENGTH = 128 := rfl
    constructor
    · rintro ⟨h1, h2, h3⟩
      have := hlen c rest h2 h3
      exact ⟨c, rest, rfl, h2, h3, by omega, by omega⟩
    · rintro ⟨c', rest', he, h2, h3, h4, h5⟩
      obtain ⟨rfl, rfl⟩ := List.cons.inj he
      have := hlen c rest h2 h3
      exact ⟨by omega, h2, h3⟩

example : validateNativeDenom "ibc/27394FB092D2ECCD56123C74F36E4C1F926001CEADA9CA97EA622B25F41E5EB2".toList = .ok () := by
  decide
example : ∃ e, validateNativeDenom "1abc".toList = .error e := ⟨_, rfl⟩
example : ∃ e, validateNativeDenom "ué".toList = .error e := ⟨_, rfl⟩

/-- The bytes of an accepted denom determine it. -/
theorem utf8_inj {s s' : Str} (h : validateNativeDenom s = .ok ()) (h' : validateNativeDenom s' = .ok ())
    (he : utf8 s = utf8 s') : s = s' := by
  have ha : ∀ s, validateNativeDenom s = .ok () → ∀ c ∈ s, c.toNat ≤ 127 := by
    intro s hs
    obtain ⟨c, rest, rfl, h1, h2, _⟩ := (C68_denom_grammar s).1 hs
    intro d hd
    rcases List.mem_cons.1 hd with rfl | hd
    · have := tail_ascii (Or.inl h1); omega
    · have := tail_ascii (h2 d hd); omega
  rw [utf8_ascii (ha s h), utf8_ascii (ha s' h')] at he
  exact List.map_injective_iff.2 (fun a b h => Char.toNat_inj.1 h) he

/-! ## C145 -/

/-- The text of an asset identifier. -/
def Info.name : Info → Str
  | .token a => a
  | .native d => d

/-- C145: what is read from a text is a valid asset with this text, an address if it can be one; texts of valid assets are
accepted and others refused. -/
theorem C145_determine (okAddr : Str → Bool) (s : Str) :
    (∀ i, determineAssetInfo okAddr s = .ok i ↔ i.name = s ∧ Info.check okAddr i = .ok () ∧
      (okAddr s = true → i = .token s)) ∧
    ((∃ e, determineAssetInfo okAddr s = .error e) ↔ okAddr s = false ∧ ¬ DenomGrammar s) := by
  unfold determineAssetInfo
  cases ha : okAddr s with
  | true =>
    simp only [if_true, Except.ok.injEq, reduceCtorEq, exists_false, Bool.true_eq_false, false_and, and_true]
    intro i
    constructor
    · rintro rfl
      exact ⟨rfl, by simp [Info.check, ha], fun _ => rfl⟩
    · rintro ⟨_, _, h⟩
      exact (h trivial).symm
  | false =>
    simp only [Bool.false_eq_true, if_false, false_implies, and_true, true_and]
    cases hv : validateNativeDenom s with
    | ok u =>
      have hg := (C68_denom_grammar s).1 hv
      simp only [Except.ok.injEq, reduceCtorEq, exists_false, hg, not_true_eq_false, and_true]
      intro i
      constructor
      · rintro rfl
        exact ⟨rfl, hv⟩
      · rintro ⟨h1, h2⟩
        cases i with
        | token a =>
          simp only [Info.name] at h1
          subst h1
          simp [Info.check, ha] at h2
        | native d => simp only [Info.name] at h1; rw [h1]
    | error e =>
      have hg : ¬ DenomGrammar s := fun h => by
        rw [(C68_denom_grammar s).2 h] at hv; simp at hv
      simp only [reduceCtorEq, false_iff, not_and, hg, not_false_eq_true, iff_true]
      refine ⟨fun i h1 h2 => ?_, _, rfl⟩
      cases i with
      | token a =>
        simp only [Info.name] at h1
        subst h1
        simp [Info.check, ha] at h2
      | native d =>
        simp only [Info.name] at h1
        subst h1
        simp only [Info.check, hv, reduceCtorEq] at h2

/-- C145, partial: an asset is read back from its text, if it is valid and, being native, its denom is not an address.
Missing: native denoms that are addresses (`C145_read_back_violated`). -/
theorem C145_read_back_partial (okAddr : Str → Bool) (i : Info) (h : Info.check okAddr i = .ok ())
    (hn : ∀ d, i = .native d → okAddr d = false) : determineAssetInfo okAddr i.name = .ok i := by
  rw [(C145_determine okAddr i.name).1]
  refine ⟨rfl, h, fun ha => ?_⟩
  cases i with
  | token a => rfl
  | native d =>
    change okAddr d = true at ha
    rw [hn d rfl] at ha
    exact absurd ha (by simp)

/-- C145 is violated for native denoms that are addresses: such a denom is a valid asset, but is read back as a cw20
token. -/
theorem C145_read_back_violated :
    let okAddr : Str → Bool := fun s => decide (s = "wasm1abc".toList)
    Info.check okAddr (.native "wasm1abc".toList) = .ok () ∧
      determineAssetInfo okAddr (Info.native "wasm1abc".toList).name = .ok (.token "wasm1abc".toList) := by decide

example : determineAssetInfo (fun s => decide (s = "wasm1abc".toList)) "uluna".toList = .ok (.native "uluna".toList) ∧
    determineAssetInfo (fun s => decide (s = "wasm1abc".toList)) "wasm1abc".toList = .ok (.token "wasm1abc".toList) := by
  decide
example : ∃ e, determineAssetInfo (fun _ => false) "1uluna".toList = .error e := ⟨_, rfl⟩

end Verif.Asset
