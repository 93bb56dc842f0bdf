import Verif.Base.Ledger

/-!
# Messages to the chain's token factory

packages/astroport/src/token_factory.rs builds the messages that create, mint and burn LP tokens, in three dialects
selected at compile time.  Texts and messages are lists of bytes.
-/

namespace Verif.TokenFactory

/-- Texts (UTF-8) and encoded messages. -/
abbrev Bytes := List Nat

/-- The cargo features `injective` and `sei`; neither of them is the default. -/
inductive Chain
  | osmosis
  | injective
  | sei
  deriving DecidableEq, Repr

/-! ## Encoding (the derived `prost::Message`) -/

/-- Variable length numbers, as `prost` writes keys and lengths (packages/astroport/src/token_factory.rs:8-193, the derived
encoders). -/
def varint (n : Nat) : Bytes := if n < 128 then [n] else (n % 128 + 128) :: varint (n / 128)
termination_by n

/-- One field with number `tag`: key with wire type 2, length, contents. -/
def field (tag : Nat) (s : Bytes) : Bytes := varint (tag * 8 + 2) ++ varint s.length ++ s

/-- A `string` field: left out when empty. -/
def strField (tag : Nat) (s : Bytes) : Bytes := if s = [] then [] else field tag s

/-- `Uint128::to_string`: decimal digits (48 is `0`). -/
def digits (n : Nat) : Bytes := if n < 10 then [48 + n] else digits (n / 10) ++ [48 + n % 10]
termination_by n

/-- `ProtoCoin`, packages/astroport/src/token_factory.rs:1: denom and amount in digits. -/
def protoCoin (denom : Bytes) (n : Nat) : Bytes := strField 1 denom ++ strField 2 (digits n)

/-- `MsgCreateDenom`, packages/astroport/src/token_factory.rs:44-60 and its use in `tf_create_denom_msg`,
packages/astroport/src/token_factory.rs:214-233. -/
def createBytes (ch : Chain) (sender subdenom : Bytes) : Bytes :=
  match ch with
  | .sei => strField 2 subdenom
  | _ => strField 1 sender ++ strField 2 subdenom

/-- `MsgMint`, packages/astroport/src/token_factory.rs:135-159, as filled by `tf_mint_msg`,
packages/astroport/src/token_factory.rs:246-271. -/
def mintBytes (ch : Chain) (sender denom : Bytes) (n : Nat) (receiver : Bytes) : Bytes :=
  match ch with
  | .osmosis => strField 1 sender ++ field 2 (protoCoin denom n) ++ strField 3 receiver
  | .injective => strField 1 sender ++ field 2 (protoCoin denom n)
  | .sei => field 2 (protoCoin denom n)

/-- `MsgBurn`, packages/astroport/src/token_factory.rs:85-109, as filled by `tf_burn_msg`,
packages/astroport/src/token_factory.rs:304-329: the account to burn from is left empty. -/
def burnBytes (ch : Chain) (sender denom : Bytes) (n : Nat) : Bytes :=
  match ch with
  | .osmosis => strField 1 sender ++ field 2 (protoCoin denom n) ++ strField 3 []
  | .injective => strField 1 sender ++ field 2 (protoCoin denom n)
  | .sei => field 2 (protoCoin denom n)

/-- What the contract sends.  The type URLs (packages/astroport/src/token_factory.rs:62-69, 111-118, 161-168) are the
constructors; the URL is that of the module of the chain the code is built for. -/
inductive Msg
  | mint (body : Bytes)
  | burn (body : Bytes)
  | send (dst denom : Bytes) (n : Nat)
  deriving DecidableEq, Repr

/-- `tf_mint_msg`, packages/astroport/src/token_factory.rs:235-298: where the chain mints to the sender only, a transfer
follows unless the sender is the receiver. -/
def mintMsgs (ch : Chain) (sender denom : Bytes) (n : Nat) (receiver : Bytes) : List Msg :=
  let m := Msg.mint (mintBytes ch sender denom n receiver)
  match ch with
  | .osmosis => [m]
  | _ => if sender = receiver then [m] else [m, .send receiver denom n]

/-- `tf_burn_msg`, packages/astroport/src/token_factory.rs:300-335. -/
def burnMsgs (ch : Chain) (sender denom : Bytes) (n : Nat) : List Msg := [.burn (burnBytes ch sender denom n)]

/-! ## Decoding

Also used by the contracts for the answer to `MsgCreateDenom`. -/

/-- Reading a variable length number. -/
def readVarint : Bytes → Option (Nat × Bytes)
  | [] => none
  | b :: bs => if b < 128 then some (b, bs) else (readVarint bs).map (fun x => (b - 128 + 128 * x.1, x.2))

/-- Reading fields of wire type 2 (a message with fields of other types is refused here). -/
def fields : Nat → Bytes → Option (List (Nat × Bytes))
  | _, [] => some []
  | 0, _ :: _ => none
  | k + 1, b :: bs =>
    (readVarint (b :: bs)).bind fun key =>
      if key.1 % 8 = 2 then
        (readVarint key.2).bind fun len =>
          if len.1 ≤ len.2.length then
            (fields k (len.2.drop len.1)).map (fun r => (key.1 / 8, len.2.take len.1) :: r)
          else none
      else none

/-- All fields of a message. -/
def parse (bs : Bytes) : Option (List (Nat × Bytes)) := fields bs.length bs

/-- The value of field `tag`: the last one given, empty if none is. -/
def get (tag : Nat) (fs : List (Nat × Bytes)) : Bytes :=
  (((fs.filter (fun x => x.1 == tag)).getLast?).map (·.2)).getD []

/-- `MsgCreateDenomResponse::try_from`, packages/astroport/src/token_factory.rs:29-43. -/
def newDenom (bs : Bytes) : Option Bytes := (parse bs).map (get 1)

/-- `MsgCreateDenomResponse`, packages/astroport/src/token_factory.rs:8-12, as the chain writes it. -/
def responseBytes (denom : Bytes) : Bytes := strField 1 denom

/-! ## The chain -/

/-- Coins, their supply and who may mint and burn them. -/
structure Bank where
  bal : Bytes → Bytes → Nat
  supply : Bytes → Nat
  admin : Bytes → Option Bytes

/-- Amounts in digits. -/
def readDec (s : Bytes) : Option Nat :=
  if s ≠ [] ∧ s.all (fun c => 48 ≤ c ∧ c ≤ 57) then some (s.foldl (fun a c => a * 10 + (c - 48)) 0) else none

/-- The sender and the coin of a mint or burn message sent by the contract `me`. On Sei the message has no sender
and the contract stands for it; elsewhere the sender must be the contract, and the admin of the denom. -/
def header (ch : Chain) (me : Bytes) (b : Bank) (body : Bytes) : Res (List (Nat × Bytes) × Bytes × Nat) := do
  let fs ← orErr (parse body) (.invalid "decode")
  require ((if ch = .sei then me else get 1 fs) = me) .unauthorized
  let coin ← orErr (parse (get 2 fs)) (.invalid "decode")
  let n ← orErr (readDec (get 2 coin)) (.invalid "decode")
  require (n ≠ 0) (.invalid "invalid coins")
  require (b.admin (get 1 coin) = some me) .unauthorized
  .ok (fs, get 1 coin, n)

/-- Sets one denom's balances. -/
def Bank.set (b : Bank) (d : Bytes) (l : Bytes → Nat) (s : Nat) : Bank :=
  { b with bal := fun a d' => if d' = d then l a else b.bal a d', supply := fun d' => if d' = d then s else b.supply d' }

/-- What the chain does with a message of the contract `me`: the token factory modules of the three chains and the
bank.  (Specification of the environment; not code of this repository.) -/
def deliver (ch : Chain) (me : Bytes) (b : Bank) : Msg → Res Bank
  | .mint body => do
    let (fs, d, n) ← header ch me b body
    let dst := if ch = .osmosis ∧ get 3 fs ≠ [] then get 3 fs else me
    let s ← u256 (b.supply d + n)
    .ok (b.set d (credit (fun a => b.bal a d) dst n) s)
  | .burn body => do
    let (fs, d, n) ← header ch me b body
    let src := if ch = .osmosis ∧ get 3 fs ≠ [] then get 3 fs else me
    let l ← debit (fun a => b.bal a d) src n
    let s ← csub (b.supply d) n
    .ok (b.set d l s)
  | .send dst d n => do
    require (n ≠ 0) (.invalid "invalid coins")
    let l ← move (fun a => b.bal a d) me dst n
    .ok (b.set d l (b.supply d))

/-- The messages of one response, in order; all or nothing. -/
def deliverAll (ch : Chain) (me : Bytes) : Bank → List Msg → Res Bank
  | b, [] => .ok b
  | b, m :: ms => do
    let b ← deliver ch me b m
    deliverAll ch me b ms

end Verif.TokenFactory
