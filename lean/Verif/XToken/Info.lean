import Verif.Asset.Props

/-!
# Name, symbol, decimals and logo of the xASTRO token

`InstantiateMsg::validate` of `packages/astroport/src/xastro_token.rs` and `packages/astroport/src/token.rs`, and the
checks of embedded logos of `contracts/tokenomics/xastro_token/src/contract.rs`.  Texts are lists of characters, stored
as UTF-8 bytes; logos are lists of bytes.
-/

namespace Verif.XToken.Info

open Verif.Asset

/-! ## Model -/

/-- packages/astroport/src/xastro_token.rs:113-119 and packages/astroport/src/token.rs:68-74, `is_valid_name`. -/
def isValidName (name : Str) : Bool :=
  if byteLen name < 3 ∨ byteLen name > 50 then false else true

/-- The loop of packages/astroport/src/xastro_token.rs:127-131. -/
def symbolByte (b : Nat) : Bool :=
  if b ≠ 45 ∧ (b < 65 ∨ b > 90) ∧ (b < 97 ∨ b > 122) then false else true

/-- packages/astroport/src/xastro_token.rs:122-133, `is_valid_symbol`. -/
def isValidSymbol (symbol : Str) : Bool :=
  if byteLen symbol < 3 ∨ byteLen symbol > 12 then false else (utf8 symbol).all symbolByte

/-- The loop of packages/astroport/src/token.rs:82-90. -/
def symbolByteToken (b : Nat) : Bool :=
  if b ≠ 45 ∧ (b < 47 ∨ b > 57) ∧ (b < 65 ∨ b > 90) ∧ (b < 97 ∨ b > 122) then false else true

/-- packages/astroport/src/token.rs:77-92, `is_valid_symbol`. -/
def isValidSymbolToken (symbol : Str) : Bool :=
  if byteLen symbol < 3 ∨ byteLen symbol > 12 then false else (utf8 symbol).all symbolByteToken

/-- packages/astroport/src/xastro_token.rs:93-109 (`sym` is `isValidSymbol`) and packages/astroport/src/token.rs:48-64
(`sym` is `isValidSymbolToken`), `InstantiateMsg::validate`. -/
def validate (sym : Str → Bool) (name symbol : Str) (decimals : Nat) : Res Unit := do
  require (isValidName name = true) (.invalid "Name is not in the expected format (3-50 UTF-8 bytes)")
  require (sym symbol = true) (.invalid "Ticker symbol is not in expected format [a-zA-Z\\-]{3,12}")
  require (¬ decimals > 18) (.invalid "Decimals must not exceed 18")

/-- contracts/tokenomics/xastro_token/src/contract.rs:36 `LOGO_SIZE_CAP`. -/
def LOGO_SIZE_CAP : Nat := 5 * 1024

/-- The first piece of `data.split_inclusive(|c| *c == b'>')`, contracts/tokenomics/xastro_token/src/contract.rs:43-46: up to and with
the first `>`, or all of the data; nothing for empty data. -/
def firstPiece : List Nat → Option (List Nat)
  | [] => none
  | b :: rest =>
    if b = 62 then some [b]
    else match firstPiece rest with
      | none => some [b]
      | some p => some (b :: p)

/-- contracts/tokenomics/xastro_token/src/contract.rs:48 `PREFIX`, the bytes of `<?xml `. -/
def PREFIX : List Nat := [60, 63, 120, 109, 108, 32]
/-- contracts/tokenomics/xastro_token/src/contract.rs:49 `POSTFIX`, the bytes of `?>`. -/
def POSTFIX : List Nat := [63, 62]
/-- contracts/tokenomics/xastro_token/src/contract.rs:80 `HEADER`. -/
def HEADER : List Nat := [0x89, 80, 78, 71, 0x0d, 0x0a, 0x1a, 0x0a]

/-- contracts/tokenomics/xastro_token/src/contract.rs:39-59, `verify_xml_preamble`. -/
def verifyXmlPreamble (data : List Nat) : Res Unit := do
  let p ← orErr (firstPiece data) (.invalid "InvalidXmlPreamble")
  require (PREFIX.isPrefixOf p = true ∧ POSTFIX.isSuffixOf p = true) (.invalid "InvalidXmlPreamble")

/-- contracts/tokenomics/xastro_token/src/contract.rs:62-70, `verify_xml_logo`. -/
def verifyXmlLogo (logo : List Nat) : Res Unit := do
  verifyXmlPreamble logo
  require (¬ logo.length > LOGO_SIZE_CAP) (.invalid "LogoTooBig")

/-- contracts/tokenomics/xastro_token/src/contract.rs:73-88, `verify_png_logo`. -/
def verifyPngLogo (logo : List Nat) : Res Unit := do
  require (¬ logo.length > LOGO_SIZE_CAP) (.invalid "LogoTooBig")
  require (HEADER.isPrefixOf logo = true) (.invalid "InvalidPngHeader")

/-- cw20 `Logo`. -/
inductive Logo where
  | svg (data : List Nat)
  | png (data : List Nat)
  | url (u : Str)

/-- contracts/tokenomics/xastro_token/src/contract.rs:91-97, `verify_logo`. -/
def verifyLogo : Logo → Res Unit
  | .svg d => verifyXmlLogo d
  | .png d => verifyPngLogo d
  | .url _ => .ok ()

/-! ## Specification -/

/-- The documented shape of a ticker: 3 to 12 letters or hyphens. -/
def Ticker (s : Str) : Prop :=
  3 ≤ s.length ∧ s.length ≤ 12 ∧
    ∀ c ∈ s, c = '-' ∨ ('a'.toNat ≤ c.toNat ∧ c.toNat ≤ 'z'.toNat) ∨ ('A'.toNat ≤ c.toNat ∧ c.toNat ≤ 'Z'.toNat)

/-- The text of a logo begins with an XML declaration: `<?xml `, anything without a closing bracket, `?>`. -/
def XmlHeader (data : List Nat) : Prop :=
  ∃ attrs rest : List Nat, '>'.toNat ∉ attrs ∧
    data = "<?xml ".toList.map Char.toNat ++ attrs ++ "?>".toList.map Char.toNat ++ rest

/-- A PNG file begins with these eight bytes. -/
def PngHeader (data : List Nat) : Prop :=
  ∃ rest : List Nat, data = [137, 'P'.toNat, 'N'.toNat, 'G'.toNat, 13, 10, 26, 10] ++ rest

/-! ## Lemmas -/

theorem last_byte {c : Char} (h : 127 < c.toNat) : c.toNat % 64 + 128 ∈ (String.utf8EncodeChar c).map UInt8.toNat := by
  have h' : ¬ c.val.toNat ≤ 127 := by
    have : c.val.toNat = c.toNat := rfl
    omega
  have hm : (UInt8.ofNat (c.val.toNat % 64 + 128)).toNat = c.toNat % 64 + 128 := by
    rw [UInt8.toNat_ofNat']
    show (c.toNat % 64 + 128) % 256 = _
    omega
  rw [← hm]
  refine List.mem_map_of_mem ?_
  unfold String.utf8EncodeChar
  simp only [h', if_false]
  split
  · simp
  · split <;> simp

theorem ascii_of_bytes {s : Str} (h : ∀ b ∈ utf8 s, b ≤ 127) : ∀ c ∈ s, c.toNat ≤ 127 := by
  intro c hc
  by_contra hn
  have := h (c.toNat % 64 + 128) (by unfold utf8; exact List.mem_flatMap.2 ⟨c, hc, last_byte (by omega)⟩)
  omega

theorem char_eq_iff (c d : Char) : c = d ↔ c.toNat = d.toNat :=
  ⟨fun h => by rw [h], fun h => Char.toNat_inj.1 h⟩

theorem firstPiece_none {l : List Nat} : firstPiece l = none ↔ l = [] := by
  cases l with
  | nil => simp [firstPiece]
  | cons b rest =>
    simp only [firstPiece, reduceCtorEq, iff_false]
    split
    · simp
    · split <;> simp

/-- The first piece: without a closing bracket it is everything, otherwise it ends with the first one. -/
theorem firstPiece_some {l p : List Nat} (h : firstPiece l = some p) :
    (62 ∉ l ∧ p = l) ∨ ∃ a rest, 62 ∉ a ∧ p = a ++ [62] ∧ l = a ++ [62] ++ rest := by
  induction l generalizing p with
  | nil => simp [firstPiece] at h
  | cons b rest ih =>
    simp only [firstPiece] at h
    split at h
    · rename_i hb
      subst hb
      injection h with h
      exact Or.inr ⟨[], rest, by simp, by simp [← h], by simp⟩
    · rename_i hb
      split at h
      · rename_i hn
        rw [firstPiece_none] at hn
        subst hn
        injection h with h
        exact Or.inl ⟨by simpa using Ne.symm hb, h.symm⟩
      · rename_i q hq
        injection h with h
        subst h
        rcases ih hq with ⟨h1, h2⟩ | ⟨a, r, h1, h2, h3⟩
        · exact Or.inl ⟨by simpa using ⟨Ne.symm hb, h1⟩, by rw [h2]⟩
        · exact Or.inr ⟨b :: a, r, by simpa using ⟨Ne.symm hb, h1⟩, by simp [h2], by simp [h3]⟩

theorem firstPiece_append {a rest : List Nat} (h : 62 ∉ a) : firstPiece (a ++ [62] ++ rest) = some (a ++ [62]) := by
  induction a with
  | nil => simp [firstPiece]
  | cons b a ih =>
    simp only [List.mem_cons, not_or] at h
    have ih := ih h.2
    simp only [List.cons_append, firstPiece]
    rw [if_neg (Ne.symm h.1), ih]

theorem xml_iff (data : List Nat) : verifyXmlPreamble data = .ok () ↔ XmlHeader data := by
  have e1 : "<?xml ".toList.map Char.toNat = PREFIX := by decide
  have e2 : "?>".toList.map Char.toNat = POSTFIX := by decide
  have e3 : '>'.toNat = 62 := by decide
  unfold verifyXmlPreamble XmlHeader
  rw [e1, e2, e3]
  simp only [bind_ok_iff, orErr_ok, require_ok, List.isPrefixOf_iff_prefix, List.isSuffixOf_iff_suffix]
  constructor
  · rintro ⟨p, hp, ⟨u, hu⟩, ⟨w, hw⟩⟩
    rcases firstPiece_some hp with ⟨h1, h2⟩ | ⟨a, rest, h1, h2, h3⟩
    · exfalso
      apply h1
      rw [← h2, ← hw]
      simp [POSTFIX]
    · have ha : a = w ++ [63] := by
        have : w ++ [63] ++ [62] = a ++ [62] := by rw [← h2, ← hw]; simp [POSTFIX]
        exact (List.append_cancel_right this).symm
      have hx : PREFIX ++ u = w ++ [63] ++ [62] := by rw [hu, h2, ha]
      -- the prefix fits before the question mark
      have hl : PREFIX.length ≤ w.length := by
        by_contra hc
        have hlen : PREFIX.length = 6 := rfl
        have hwl : w.length < 6 := by omega
        have key : (PREFIX ++ u)[w.length]? = some 63 := by rw [hx]; simp
        rw [List.getElem?_append_left (by omega)] at key
        have key3 : (PREFIX ++ u)[w.length + 1]? = some 62 := by
          rw [hx, List.append_assoc]
          simp
        have hk : w.length = 1 := by
          have : w.length = 0 ∨ w.length = 1 ∨ w.length = 2 ∨ w.length = 3 ∨ w.length = 4 ∨ w.length = 5 := by omega
          rcases this with h | h | h | h | h | h
          · rw [h] at key; exact absurd key (by decide)
          · exact h
          all_goals (rw [h] at key; exact absurd key (by decide))
        rw [hk, List.getElem?_append_left (by omega)] at key3
        exact absurd key3 (by decide)
      obtain ⟨v, hv⟩ : ∃ v, w = PREFIX ++ v := by
        have := congrArg (List.take PREFIX.length) hx
        rw [List.take_left, List.append_assoc, List.take_append_of_le_length hl] at this
        exact ⟨w.drop PREFIX.length, by conv_lhs => rw [← List.take_append_drop PREFIX.length w]; rw [← this]⟩
      refine ⟨v, rest, fun hm => h1 (by rw [ha, hv]; simp [hm]), ?_⟩
      rw [h3, ha, hv]
      simp [POSTFIX]
  · rintro ⟨attrs, rest, h1, h2⟩
    have hn : 62 ∉ PREFIX ++ attrs ++ [63] := by simp [PREFIX, h1]
    have := firstPiece_append (rest := rest) hn
    refine ⟨PREFIX ++ attrs ++ [63] ++ [62], ?_, ⟨attrs ++ [63] ++ [62], by simp⟩, ⟨PREFIX ++ attrs, by simp [POSTFIX]⟩⟩
    rw [← this, h2]
    simp [POSTFIX]

/-! ## The theorems -/

/-- C148: the xASTRO token can be created exactly with a name of 3 to 50 bytes, a ticker of 3 to 12 letters or hyphens and
at most 18 decimals. -/
theorem C148_token_metadata (name symbol : Str) (decimals : Nat) :
    validate isValidSymbol name symbol decimals = .ok () ↔
      (3 ≤ (utf8 name).length ∧ (utf8 name).length ≤ 50) ∧ Ticker symbol ∧ decimals ≤ 18 := by
  have hsym : isValidSymbol symbol = true ↔ Ticker symbol := by
    have hb : ∀ b, symbolByte b = true ↔ (b = 45 ∨ (97 ≤ b ∧ b ≤ 122) ∨ (65 ≤ b ∧ b ≤ 90)) := by
      intro b
      unfold symbolByte
      split <;> simp <;> omega
    have e1 : 'a'.toNat = 97 := rfl
    have e2 : 'z'.toNat = 122 := rfl
    have e3 : 'A'.toNat = 65 := rfl
    have e4 : 'Z'.toNat = 90 := rfl
    have e5 : '-'.toNat = 45 := rfl
    unfold Ticker
    simp only [char_eq_iff, e1, e2, e3, e4, e5]
    unfold isValidSymbol
    constructor
    · intro h
      split at h
      · exact absurd h (by simp)
      · rename_i hl
        simp only [List.all_eq_true, hb] at h
        have ha := ascii_of_bytes (s := symbol) (fun b hm => by have := h b hm; omega)
        unfold byteLen at hl
        rw [utf8_ascii ha] at hl h
        simp only [List.length_map] at hl
        refine ⟨by omega, by omega, fun c hc => h _ (List.mem_map_of_mem hc)⟩
    · rintro ⟨h1, h2, h3⟩
      have ha : ∀ c ∈ symbol, c.toNat ≤ 127 := fun c hc => by have := h3 c hc; omega
      have hl : byteLen symbol = symbol.length := by unfold byteLen; rw [utf8_ascii ha]; simp
      rw [if_neg (by omega), utf8_ascii ha]
      simp only [List.all_eq_true, hb, List.mem_map]
      rintro b ⟨c, hc, rfl⟩
      exact h3 c hc
  have hname : isValidName name = true ↔ (3 ≤ (utf8 name).length ∧ (utf8 name).length ≤ 50) := by
    unfold isValidName byteLen
    split <;> simp <;> omega
  unfold validate
  simp only [bind_ok_iff, require_ok, exists_const, hsym, hname]
  constructor
  · rintro ⟨h1, h2, h3⟩; exact ⟨h1, h2, by omega⟩
  · rintro ⟨h1, h2, h3⟩; exact ⟨h1, h2, by omega⟩

example : validate isValidSymbol "Staked Astroport".toList "xASTRO".toList 6 = .ok () := by decide
example : Ticker "xASTRO".toList := by unfold Ticker; decide
example : ¬ Ticker "xAST.".toList := by unfold Ticker; decide

/-- C148 fails for the general token message, whose error text promises the same format: it accepts digits and slashes. -/
theorem C148_general_token_symbol_violated :
    validate isValidSymbolToken "Token".toList "A/1".toList 6 = .ok () ∧ ¬ Ticker "A/1".toList := by
  unfold Ticker
  decide

/-- C148 (partial): the general token message asks of name and decimals what the xASTRO message asks, and accepts every ticker in
the documented format; besides letters and hyphens it lets digits and slashes through, and nothing else. -/
theorem C148_general_token_metadata_partial (name symbol : Str) (decimals : Nat) :
    (validate isValidSymbolToken name symbol decimals = .ok () ↔
      (3 ≤ (utf8 name).length ∧ (utf8 name).length ≤ 50) ∧ decimals ≤ 18 ∧ 3 ≤ symbol.length ∧ symbol.length ≤ 12 ∧
      ∀ c ∈ symbol, c = '-' ∨ c = '/' ∨ ('0'.toNat ≤ c.toNat ∧ c.toNat ≤ '9'.toNat) ∨
        ('a'.toNat ≤ c.toNat ∧ c.toNat ≤ 'z'.toNat) ∨ ('A'.toNat ≤ c.toNat ∧ c.toNat ≤ 'Z'.toNat)) ∧
    (validate isValidSymbol name symbol decimals = .ok () → validate isValidSymbolToken name symbol decimals = .ok ()) := by
  have hb : ∀ b, symbolByteToken b = true ↔
      (b = 45 ∨ b = 47 ∨ (48 ≤ b ∧ b ≤ 57) ∨ (97 ≤ b ∧ b ≤ 122) ∨ (65 ≤ b ∧ b ≤ 90)) := by
    intro b
    unfold symbolByteToken
    split <;> simp <;> omega
  have e1 : 'a'.toNat = 97 := rfl
  have e2 : 'z'.toNat = 122 := rfl
  have e3 : 'A'.toNat = 65 := rfl
  have e4 : 'Z'.toNat = 90 := rfl
  have e5 : '-'.toNat = 45 := rfl
  have e6 : '/'.toNat = 47 := rfl
  have e7 : '0'.toNat = 48 := rfl
  have e8 : '9'.toNat = 57 := rfl
  have hsym : isValidSymbolToken symbol = true ↔ 3 ≤ symbol.length ∧ symbol.length ≤ 12 ∧
      ∀ c ∈ symbol, c = '-' ∨ c = '/' ∨ ('0'.toNat ≤ c.toNat ∧ c.toNat ≤ '9'.toNat) ∨
        ('a'.toNat ≤ c.toNat ∧ c.toNat ≤ 'z'.toNat) ∨ ('A'.toNat ≤ c.toNat ∧ c.toNat ≤ 'Z'.toNat) := by
    simp only [char_eq_iff, e1, e2, e3, e4, e5, e6, e7, e8]
    unfold isValidSymbolToken
    constructor
    · intro h
      split at h
      · exact absurd h (by simp)
      · rename_i hl
        simp only [List.all_eq_true, hb] at h
        have ha := ascii_of_bytes (s := symbol) (fun b hm => by have := h b hm; omega)
        unfold byteLen at hl
        rw [utf8_ascii ha] at hl h
        simp only [List.length_map] at hl
        refine ⟨by omega, by omega, fun c hc => h _ (List.mem_map_of_mem hc)⟩
    · rintro ⟨h1, h2, h3⟩
      have ha : ∀ c ∈ symbol, c.toNat ≤ 127 := fun c hc => by have := h3 c hc; omega
      have hl : byteLen symbol = symbol.length := by unfold byteLen; rw [utf8_ascii ha]; simp
      rw [if_neg (by omega), utf8_ascii ha]
      simp only [List.all_eq_true, hb, List.mem_map]
      rintro b ⟨c, hc, rfl⟩
      exact h3 c hc
  have hname : isValidName name = true ↔ (3 ≤ (utf8 name).length ∧ (utf8 name).length ≤ 50) := by
    unfold isValidName byteLen
    split <;> simp <;> omega
  have main : validate isValidSymbolToken name symbol decimals = .ok () ↔
      (3 ≤ (utf8 name).length ∧ (utf8 name).length ≤ 50) ∧ decimals ≤ 18 ∧ 3 ≤ symbol.length ∧ symbol.length ≤ 12 ∧
      ∀ c ∈ symbol, c = '-' ∨ c = '/' ∨ ('0'.toNat ≤ c.toNat ∧ c.toNat ≤ '9'.toNat) ∨
        ('a'.toNat ≤ c.toNat ∧ c.toNat ≤ 'z'.toNat) ∨ ('A'.toNat ≤ c.toNat ∧ c.toNat ≤ 'Z'.toNat) := by
    unfold validate
    simp only [bind_ok_iff, require_ok, exists_const, hsym, hname]
    constructor
    · rintro ⟨h1, h2, h3⟩; exact ⟨h1, by omega, h2⟩
    · rintro ⟨h1, h2, h3⟩; exact ⟨h1, h3, by omega⟩
  refine ⟨main, fun h => main.2 ?_⟩
  obtain ⟨h1, ⟨h2, h3, h4⟩, h5⟩ := (C148_token_metadata name symbol decimals).1 h
  refine ⟨h1, h5, h2, h3, fun c hc => ?_⟩
  rcases h4 c hc with h | h | h
  · exact .inl h
  · exact .inr (.inr (.inr (.inl h)))
  · exact .inr (.inr (.inr (.inr h)))

example : validate isValidSymbolToken "Liquidity".toList "uLP-1/2".toList 6 = .ok () := by decide

/-- C148: an embedded logo is accepted exactly if it has at most 5 KiB and begins as an SVG file with an XML declaration or
as a PNG file must; links are not checked. -/
theorem C148_logo (l : Logo) :
    verifyLogo l = .ok () ↔
      match l with
      | .svg d => XmlHeader d ∧ d.length ≤ 5120
      | .png d => PngHeader d ∧ d.length ≤ 5120
      | .url _ => True := by
  have hc : LOGO_SIZE_CAP = 5120 := rfl
  cases l with
  | svg d =>
    simp only [verifyLogo, verifyXmlLogo, bind_ok_iff, require_ok, hc]
    rw [← xml_iff]
    constructor
    · rintro ⟨_, h1, h2⟩; exact ⟨h1, by omega⟩
    · rintro ⟨h1, h2⟩; exact ⟨(), h1, by omega⟩
  | png d =>
    have e : [137, 'P'.toNat, 'N'.toNat, 'G'.toNat, 13, 10, 26, 10] = HEADER := by decide
    simp only [verifyLogo, verifyPngLogo, bind_ok_iff, require_ok, exists_const, hc, List.isPrefixOf_iff_prefix, PngHeader, e]
    constructor
    · rintro ⟨h1, t, ht⟩; exact ⟨⟨t, ht.symm⟩, by omega⟩
    · rintro ⟨⟨t, ht⟩, h1⟩; exact ⟨by omega, t, ht.symm⟩
  | url u => simp [verifyLogo]

example : verifyLogo (.svg ("<?xml version=\"1.0\"?><svg></svg>".toList.map Char.toNat)) = .ok () := by decide
example : ∃ e, verifyLogo (.svg ("<svg></svg>".toList.map Char.toNat)) = .error e := ⟨_, rfl⟩

end Verif.XToken.Info
