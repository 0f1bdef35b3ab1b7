import Verif.Spec.BlindDone
import Verif.Spec.Zkp
/-
When a transaction balances.
-/
namespace Verif

variable {z : Zkp} {M : Type} [AddCommGroup M] [Module Scalar M]

/-- Generator of the asset of an output: that of the asset itself if it is explicit, else the
commitment. -/
def Pedersen.assetPt (P : Pedersen z M) : Bytes → M
  | 1 :: a => P.H a
  | c => P.genRead c

/-- The group element an output stands for: amount times generator if the amount is explicit,
else the commitment. -/
def Pedersen.outPt (P : Pedersen z M) (o : TxOut) : M :=
  match o.nValue with
  | [] => 0
  | 1 :: v => (beVal v : Scalar) • P.assetPt o.nAsset
  | c => P.comRead c

/-- The group element an issued amount stands for. -/
def Pedersen.issuedPt (P : Pedersen z M) (id value : Bytes) : M :=
  match value with
  | [] => 0
  | 1 :: v => (beVal v : Scalar) • P.H id
  | c => P.comRead c

/-- The group element a spent output stands for, as its descriptor opens it. -/
def Pedersen.spentPt (P : Pedersen z M) (d : Desc) : M :=
  (d.amount.toNat : Scalar) • (P.H d.asset + scalar d.assetBlindingFactor • P.G) + scalar d.blindingFactor • P.G

/-- Both issued amounts of an input.  `conf`: the token is that of a confidential issuance. -/
def Pedersen.issuancePt (P : Pedersen z M) (E : Env) (conf : Bool) (t : TxIn) : M :=
  P.issuedPt (assetId E t) t.assetIssuance.nAmount + P.issuedPt (tokenId E conf t) t.assetIssuance.nInflationKeys

/-- Consensus takes the token of a confidential issuance if the issued amount is a commitment. -/
def TxIn.confidential (t : TxIn) : Bool :=
  match t.assetIssuance.nAmount with
  | x :: c => (x = 8 || x = 9) && c.length = 32
  | [] => false

/-- What goes in equals what comes out, as group elements. -/
def Balanced (P : Pedersen z M) (E : Env) (descs : List Desc) (t : Tx) : Prop :=
  (descs.map P.spentPt).sum + (t.vin.map fun i => P.issuancePt E i.confidential i).sum = (t.vout.map P.outPt).sum

/-- Keys are given only for inputs that issue something, a key for the tokens only together
with one for the issued amount, and descriptors have amounts that fit eight bytes (blinding itself
refuses negative amounts of inputs that hide something). -/
structure KeysFine (A : BlindArgs) (t : Tx) : Prop where
  issuing : ∀ i token key, i < t.vin.length → A.issuanceKey i token = some key →
    (t.vin.getD i default).assetIssuance.isNull = false
  tokens : ∀ i key, A.issuanceKey i true = some key → ∃ key', A.issuanceKey i false = some key'
  amounts : ∀ d ∈ A.descs, d.amount < 2 ^ 64

/-! Amounts per asset, before blinding. -/

/-- An explicit amount. -/
def amountOf : Bytes → Nat
  | 1 :: v => beVal v
  | _ => 0

/-- Amounts spent, issued and put into outputs, with their assets.  The tokens are those of a
confidential issuance where the issued amount is going to be hidden. -/
def spentAmounts (descs : List Desc) : List (Bytes × Nat) := descs.map fun d => (d.asset, d.amount.toNat)
def issuedAmounts (E : Env) (A : BlindArgs) (t : Tx) : List (Bytes × Nat) :=
  t.vin.zipIdx.flatMap fun x =>
    [(assetId E x.1, amountOf x.1.assetIssuance.nAmount),
     (tokenId E (A.assetKeys.getD x.2 none).isSome x.1, amountOf x.1.assetIssuance.nInflationKeys)]
def outAmounts (t : Tx) : List (Bytes × Nat) := t.vout.map fun o => (o.nAsset.drop 1, amountOf o.nValue)

/-- Total amount of an asset. -/
def total (a : Bytes) (l : List (Bytes × Nat)) : Nat := ((l.filter fun x => x.1 = a).map Prod.snd).sum

/-- Everything is explicit and for every asset as much goes in as comes out. -/
structure AmountsBalance (E : Env) (A : BlindArgs) (t : Tx) : Prop where
  outputs : ∀ o ∈ t.vout, IsExplicitValue o.nValue ∧ IsExplicitAsset o.nAsset
  issued : ∀ i ∈ t.vin, (i.assetIssuance.nAmount = [] ∨ IsExplicitValue i.assetIssuance.nAmount) ∧
    (i.assetIssuance.nInflationKeys = [] ∨ IsExplicitValue i.assetIssuance.nInflationKeys)
  balance : ∀ a, total a (spentAmounts A.descs ++ issuedAmounts E A t) = total a (outAmounts t)

end Verif
