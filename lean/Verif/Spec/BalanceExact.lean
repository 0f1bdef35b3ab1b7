import Verif.Spec.Balance
/-
By how much a blinded transaction fails to balance, in terms of blinding factors.
-/
namespace Verif

/-- What the spent outputs hide: for each, amount times asset blinding factor plus blinding
factor. -/
def spentMask (descs : List Desc) : Scalar :=
  (descs.map fun d => (d.amount.toNat : Scalar) * scalar d.assetBlindingFactor + scalar d.blindingFactor).sum

/-- What the outputs hide according to the factors `blind()` returned. -/
def reportedMask (vout : List TxOut) (bfs abfs : List Bytes) : Scalar :=
  ((List.range vout.length).map fun j =>
    (amountOf (vout.getD j {}).nValue : Scalar) * scalar (abfs.getD j []) + scalar (bfs.getD j [])).sum

/-- What `n` inputs hide in issued amounts. -/
def issuedMask (n : Nat) (ibf : Nat → Bool → Bytes) : Scalar :=
  ((List.range n).map fun i => scalar (ibf i false) + scalar (ibf i true)).sum

/-- An issued amount is as it was, or it is hidden under `bf`. -/
inductive IssuedBy (E : Env) (t t' : Tx) (i : Nat) (token : Bool) : Bytes → Prop
  | same : (t'.vin.getD i default).issued token = (t.vin.getD i default).issued token →
      IssuedBy E t t' i token (List.replicate 32 0)
  | hidden (v gen com bf : Bytes) : (t.vin.getD i default).issued token = 1 :: v →
      E.z.generateBlinded (pseudoId E (t.vin.getD i default) token) (List.replicate 32 0) = some gen →
      E.z.commit bf (beVal v) gen = some com → E.z.commitSerialize com = some ((t'.vin.getD i default).issued token) →
      IsValueCommitment ((t'.vin.getD i default).issued token) → IssuedBy E t t' i token bf

/-- The amounts issued by `t`, the tokens being those the network takes them for in `t'`. -/
def issuedAmountsIn (E : Env) (t t' : Tx) : List (Bytes × Nat) :=
  (List.range t.vin.length).flatMap fun i =>
    [(assetId E (t.vin.getD i default), amountOf (t.vin.getD i default).assetIssuance.nAmount),
     (tokenId E (t'.vin.getD i default).confidential (t.vin.getD i default), amountOf (t.vin.getD i default).assetIssuance.nInflationKeys)]

/-- `t` is explicit, and as much of every asset goes in as comes out, if what it issues is what
`t'` issues. -/
structure PlainBalance (E : Env) (descs : List Desc) (t t' : Tx) : Prop where
  outputs : ∀ o ∈ t.vout, IsExplicitValue o.nValue ∧ IsExplicitAsset o.nAsset
  issued : ∀ i ∈ t.vin, (i.assetIssuance.nAmount = [] ∨ IsExplicitValue i.assetIssuance.nAmount) ∧
    (i.assetIssuance.nInflationKeys = [] ∨ IsExplicitValue i.assetIssuance.nInflationKeys)
  balance : ∀ a, total a (spentAmounts descs ++ issuedAmountsIn E t t') = total a (outAmounts t)

end Verif
