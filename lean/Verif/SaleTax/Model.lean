import Verif.XYK.Model

/-!
# Model of the sale-tax constant product pair, `contracts/pair_xyk_sale_tax/src/contract.rs`

The pure XYK arithmetic is textually the same as in `contracts/pair` and is reused from `Verif.XYK`.
Differences: a tax on the offered asset, no fee sharing, minimum parameters are ignored.
-/

namespace Verif.SaleTax
open Verif.XYK

/-- `AssetInfo`, packages/astroport/src/asset.rs. -/
inductive Info
  | native (denom : String)
  | token (addr : String)
  deriving DecidableEq, Repr

/-- `AssetInfo::to_string`, packages/astroport/src/asset.rs (Display impl): the denom or the address. -/
def Info.str : Info → String
  | .native d => d
  | .token a => a

/-- `TaxConfigs`: denom ↦ (rate in Decimal atomics, recipient); a `HashMap`, here an association list
(first entry counts; the map has no duplicate keys). -/
abbrev Taxes (A : Type) := List (String × Nat × A)

/-- `TaxConfigsChecked::get`, packages/astroport/src/pair_xyk_sale_tax.rs. -/
def getTax {A : Type} (t : Taxes A) (k : String) : Option (Nat × A) :=
  match t.find? (fun e => e.1 = k) with
  | some e => some e.2
  | none => none

/-- The tax part of `Config`. -/
structure Config (A : Type) where
  taxes : Taxes A
  admin : A

/-- `TaxConfigUnchecked::check` and `TaxConfigsUnchecked::check`,
packages/astroport/src/pair_xyk_sale_tax.rs.  `denomOk` is `validate_native_denom`. -/
def checkTaxes {A : Type} (denomOk : String → Bool) (infos : Bool → Info) :
    Taxes A → Res (Taxes A)
  | [] => .ok []
  | e :: rest => do
    require (denomOk e.1 = true) (.invalid "Invalid denom")
    require (Info.native e.1 = infos false ∨ Info.native e.1 = infos true)
      (.invalid "Tax denom must be one of the pair assets")
    require (¬ e.2.1 > DEC / 2) (.invalid "Tax rate cannot be more than 50%")
    let r ← checkTaxes denomOk infos rest
    .ok (e :: r)

variable {A : Type} [DecidableEq A]

/-- Config part of `instantiate`, contracts/pair_xyk_sale_tax/src/contract.rs:66-96. -/
def initConfig (denomOk : String → Bool) (infos : Bool → Info) (taxes : Taxes A) (admin : A) :
    Res (Config A) := do
  require (infos false ≠ infos true) (.invalid "DoublingAssets")
  let t ← checkTaxes denomOk infos taxes
  .ok { taxes := t, admin := admin }

/-- Replace the tax table, contracts/pair_xyk_sale_tax/src/contract.rs:765-770. -/
def setTaxes (denomOk : String → Bool) (infos : Bool → Info) (c : Config A) (sender : A) :
    Option (Taxes A) → Res (Config A)
  | none => .ok c
  | some t => do
    require (sender = c.admin) .unauthorized
    let t ← checkTaxes denomOk infos t
    .ok { c with taxes := t }

/-- Replace the admin, contracts/pair_xyk_sale_tax/src/contract.rs:771-776. -/
def setAdmin (c : Config A) (sender : A) : Option A → Res (Config A)
  | none => .ok c
  | some a => do
    require (sender = c.admin) .unauthorized
    .ok { c with admin := a }

/-- `update_config`, contracts/pair_xyk_sale_tax/src/contract.rs:750-781.  `owner` is the factory owner at that moment. -/
def updateConfig (denomOk : String → Bool) (infos : Bool → Info) (c : Config A) (owner sender : A)
    (taxes : Option (Taxes A)) (admin : Option A) : Res (Config A) := do
  require (sender = owner ∨ sender = c.admin) .unauthorized
  let c ← setTaxes denomOk infos c sender taxes
  setAdmin c sender admin

/-- Result of the sale-tax `compute_swap`. -/
structure TaxedSwap where
  ret : Nat
  spread : Nat
  commission : Nat
  /-- offer after tax -/
  offer : Nat
  tax : Nat
  deriving DecidableEq, Repr

/-- Tax deduction at the start of `compute_swap`, contracts/pair_xyk_sale_tax/src/contract.rs:1158-1166. -/
def deduct (offer : Nat) : Option (Nat × A) → Res (Nat × Nat)
  | some (rate, _) => do
    let tax := mulDec offer rate
    let net ← csub offer tax
    .ok (net, tax)
  | none => .ok (offer, 0)

/-- `compute_swap`, contracts/pair_xyk_sale_tax/src/contract.rs:1150-1200. -/
def computeSwapTax (offerPool askPool offer rate : Nat) (tax : Option (Nat × A)) : Res TaxedSwap := do
  let (net, t) ← deduct offer tax
  let r ← computeSwap offerPool askPool net rate
  .ok { ret := r.ret, spread := r.spread, commission := r.commission, offer := net, tax := t }

/-- Rounding up division used by `Uint128::mul_ceil`. -/
def mulDecCeil (x dec : Nat) : Nat :=
  if x * dec % DEC = 0 then x * dec / DEC else x * dec / DEC + 1

/-- Gross-up at the end of `compute_offer_amount`, contracts/pair_xyk_sale_tax/src/contract.rs:1245-1249. -/
def addTax (offer : Nat) : Option (Nat × A) → Res Nat
  | some (rate, _) => do
    let om ← csub DEC rate
    let inv ← decDiv DEC om
    u128 (mulDecCeil offer inv)
  | none => .ok offer

/-- `compute_offer_amount`, contracts/pair_xyk_sale_tax/src/contract.rs:1213-1252. -/
def computeOfferTax (offerPool askPool ask rate : Nat) (tax : Option (Nat × A)) : Res OfferResult := do
  let r ← computeOfferAmount offerPool askPool ask rate
  let o ← addTax r.offer tax
  .ok { r with offer := o }

/-- The pool asset that pays the tax: the bank message sends coins of denom
`offer_asset.info.to_string()` (contracts/pair_xyk_sale_tax/src/contract.rs:679-690). -/
def taxedAsset (infos : Bool → Info) (i : Bool) : Res Bool :=
  if infos i = .native (infos i).str then .ok i
  else if infos (!i) = .native (infos i).str then .ok (!i)
  else .error (.invalid "insufficient funds")

/-- Sending the tax, contracts/pair_xyk_sale_tax/src/contract.rs:679-690; `bal` are the ledgers of the two pool assets. -/
def sendTax (infos : Bool → Info) (me : A) (bal : Bool → A → Nat) (i : Bool) (tax : Nat) :
    Option (Nat × A) → Res (Bool → A → Nat)
  | none => .ok bal
  | some (_, recipient) =>
    if tax ≠ 0 then do
      let k ← taxedAsset infos i
      let l ← move (bal k) me recipient tax
      .ok (fun j => if j = k then l else bal j)
    else .ok bal

/-- What a swap reports. -/
structure Out where
  ret : Nat
  spread : Nat
  commission : Nat
  makerFee : Nat
  tax : Nat
  deriving DecidableEq, Repr

/-- `swap`, contracts/pair_xyk_sale_tax/src/contract.rs:594-746.  `f.share` is not used by this pair. -/
def swap (infos : Bool → Info) (cfg : Config A) (me : A) (s : State A) (now : Nat) (sender : A) (i : Bool)
    (offer : Nat) (belief maxSpread : Option Nat) (receiver : A) (f : Fees A) :
    Res (State A × Out) := do
  let bo ← move (s.bal i) sender me offer
  let offerPool ← csub (bo me) offer
  let askPool := s.bal (!i) me
  let tc := getTax cfg.taxes (infos i).str
  let r ← computeSwapTax offerPool askPool offer f.total tc
  let gross ← u128 (r.ret + r.commission)
  assertMaxSpread belief maxSpread r.offer gross r.spread
  let ba ← move (s.bal (!i)) me receiver r.ret
  let bal ← sendTax infos me (fun j => if j = i then bo else ba) i r.tax tc
  let maker := match f.feeAddr with
    | some _ => mulDec r.commission f.maker
    | none => 0
  let ba ← sendOpt (bal (!i)) me f.feeAddr maker
  let tOff ← u128 (offerPool + r.offer)
  let tAsk ← csub askPool (r.ret + maker)
  let tw ← accumulate s.twap now (if i then askPool else offerPool) (if i then offerPool else askPool)
  .ok ({ s with bal := fun j => if j = i then bal i else ba, twap := tw,
                tracked := fun j => if j = i then tOff else tAsk },
       { ret := r.ret, spread := r.spread, commission := r.commission, makerFee := maker, tax := r.tax })

/-- `query_simulation`, contracts/pair_xyk_sale_tax/src/contract.rs:930-977. -/
def simulation (infos : Bool → Info) (cfg : Config A) (me : A) (s : State A) (i : Bool) (offer : Nat)
    (f : Fees A) : Res SwapResult := do
  let r ← computeSwapTax (s.bal i me) (s.bal (!i) me) offer f.total (getTax cfg.taxes (infos i).str)
  .ok { ret := r.ret, spread := r.spread, commission := r.commission }

/-- `query_reverse_simulation`, contracts/pair_xyk_sale_tax/src/contract.rs:984-1032 (`i` is the offered asset). -/
def reverseSimulation (infos : Bool → Info) (cfg : Config A) (me : A) (s : State A) (i : Bool) (ask : Nat)
    (f : Fees A) : Res OfferResult :=
  computeOfferTax (s.bal i me) (s.bal (!i) me) ask f.total (getTax cfg.taxes (infos i).str)

/-- `ProvideLiquidity`, contracts/pair_xyk_sale_tax/src/contract.rs:228-243: `min_lp_to_receive` is dropped (`..`); the rest is the XYK
deposit. -/
def provide (me : A) (s : State A) (now : Nat) (sender : A) (d0 d1 : Nat) (tol : Option Nat)
    (_minLp : Option Nat) (receiver : A) : Res (State A × Nat) :=
  XYK.provide me s now sender d0 d1 tol none receiver

/-- `WithdrawLiquidity`, contracts/pair_xyk_sale_tax/src/contract.rs:268: `min_assets_to_receive` is dropped (`..`). -/
def withdraw (me : A) (s : State A) (now : Nat) (sender : A) (amount : Nat)
    (_mins : Option (List (Bool × Nat))) : Res (State A × (Nat × Nat)) :=
  XYK.withdraw me s now sender amount none

/-- One configuration transaction: who, the factory owner then, and the update. -/
structure CfgOp (A : Type) where
  owner : A
  sender : A
  taxes : Option (Taxes A)
  admin : Option A

def cfgStep (denomOk : String → Bool) (infos : Bool → Info) (c : Config A) (o : CfgOp A) : Config A :=
  commit' c (updateConfig denomOk infos c o.owner o.sender o.taxes o.admin)

def cfgRun (denomOk : String → Bool) (infos : Bool → Info) (c : Config A) (os : List (CfgOp A)) :
    Config A := os.foldl (cfgStep denomOk infos) c

end Verif.SaleTax
