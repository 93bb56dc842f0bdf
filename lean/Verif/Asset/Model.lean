import Verif.Base.Res

/-!
# Model of `packages/astroport/src/asset.rs`: asset identifiers, denom grammar, coin checks
-/

namespace Verif.Asset

/-- A Rust `String`/`&str`: a sequence of Unicode scalar values. -/
abbrev Str := List Char

/-- `AssetInfo` (`packages/astroport/src/asset.rs:357-363`): a cw20 token address or a native denom. -/
inductive Info
  | token (addr : Str)
  | native (denom : Str)
  deriving DecidableEq, Repr

/-- UTF-8 bytes of a string. -/
def utf8 (s : Str) : List Nat := s.flatMap fun c => (String.utf8EncodeChar c).map UInt8.toNat

/-- `str::len`: length in bytes. -/
def byteLen (s : Str) : Nat := (utf8 s).length

/-- `AssetInfo::as_bytes` (`packages/astroport/src/asset.rs:548-553`). -/
def Info.bytes : Info → List Nat
  | .token a => utf8 a
  | .native d => utf8 d

/-- `AssetInfo::equal` (`packages/astroport/src/asset.rs:530-543`). -/
def Info.equal : Info → Info → Bool
  | .native d, .native d' => decide (d = d')
  | .token a, .token a' => decide (a = a')
  | _, _ => false

/-- `DENOM_MAX_LENGTH` (`packages/astroport/src/asset.rs:29`). -/
def DENOM_MAX_LENGTH : Nat := 128

/-- `char::is_ascii_alphabetic`. -/
def asciiAlphabetic (c : Char) : Bool :=
  (decide (65 ≤ c.toNat) && decide (c.toNat ≤ 90)) || (decide (97 ≤ c.toNat) && decide (c.toNat ≤ 122))
/-- `char::is_ascii_alphanumeric`. -/
def asciiAlphanumeric (c : Char) : Bool :=
  asciiAlphabetic c || (decide (48 ≤ c.toNat) && decide (c.toNat ≤ 57))

/-- The allowed separators (`packages/astroport/src/asset.rs:589`). -/
def separators : List Char := ['/', ':', '.', '_', '-']

/-- `validate_native_denom` (`packages/astroport/src/asset.rs:574-599`). -/
def validateNativeDenom (s : Str) : Res Unit := do
  require (¬(byteLen s < 3 ∨ byteLen s > DENOM_MAX_LENGTH)) (.invalid "Invalid denom length")
  match s with
  | [] => .error (.invalid "unwrap on None")
  | first :: rest => do
    require (asciiAlphabetic first = true) (.invalid "First character is not ASCII alphabetic")
    require (∀ c ∈ rest, (asciiAlphanumeric c || decide (c ∈ separators)) = true)
      (.invalid "Not all characters are ASCII alphanumeric or a separator")

/-- `AssetInfo::check` (`packages/astroport/src/asset.rs:556-567`); `okAddr` is the chain's `addr_validate`. -/
def Info.check (okAddr : Str → Bool) : Info → Res Unit
  | .token a => require (okAddr a = true) (.invalid "addr_validate")
  | .native d => validateNativeDenom d

/-- `determine_asset_info` (`packages/astroport/src/asset.rs:739-753`). -/
def determineAssetInfo (okAddr : Str → Bool) (s : Str) : Res Info :=
  if okAddr s then .ok (.token s)
  else match validateNativeDenom s with
    | .ok _ => .ok (.native s)
    | .error _ => .error (.invalid "Cannot determine asset info")

/-- `cosmwasm_std::Coin`. -/
structure Coin where
  denom : Str
  amount : Nat
  deriving DecidableEq, Repr

/-- `Asset` (`packages/astroport/src/asset.rs:62-67`). -/
structure Asset where
  info : Info
  amount : Nat
  deriving DecidableEq, Repr

/-- `cw_utils::must_pay`: exactly one coin, not zero, of that denom. -/
def mustPay (funds : List Coin) (denom : Str) : Res Nat :=
  match funds with
  | [] => .error (.invalid "NoFunds")
  | [c] =>
    if c.amount = 0 then .error (.invalid "NoFunds")
    else if c.denom = denom then .ok c.amount
    else .error (.invalid "MissingDenom")
  | _ => .error (.invalid "MultipleDenoms")

/-- `Asset::assert_sent_native_token_balance` (`packages/astroport/src/asset.rs:256-270`). -/
def assertSent (a : Asset) (funds : List Coin) : Res Unit :=
  match a.info with
  | .native d => do
    let n ← mustPay funds d
    require (a.amount = n) (.invalid "Native token balance mismatch")
  | .token _ => .ok ()

/-- One step of the first loop of `assert_coins_properly_sent` (`packages/astroport/src/asset.rs:314-338`). -/
def checkInput (coins : List Coin) (pool : List Info) (a : Asset) : Res Unit := do
  require (a.info ∈ pool) (.invalid "Asset is not in the pool")
  match a.info with
  | .native d =>
    require (((coins.find? fun c => decide (c.denom = d)).map Coin.amount).getD 0 = a.amount)
      (.invalid "Native token balance mismatch")
  | .token _ => .ok ()

/-- `try_for_each`. -/
def forAll {α : Type} (f : α → Res Unit) : List α → Res Unit
  | [] => .ok ()
  | x :: xs => do
    f x
    forAll f xs

/-- `assert_coins_properly_sent` (`packages/astroport/src/asset.rs:297-353`).  Note that the second loop compares with the
assets of the pool, not with the declared ones. -/
def assertCoins (coins : List Coin) (input : List Asset) (pool : List Info) : Res Unit := do
  require (input ≠ []) (.invalid "Empty input assets")
  require (input.map Asset.info).Nodup (.invalid "Duplicated assets in the input")
  forAll (checkInput coins pool) input
  forAll (fun c => require (Info.native c.denom ∈ pool) (.invalid "Supplied coins contain a foreign denom")) coins

end Verif.Asset
