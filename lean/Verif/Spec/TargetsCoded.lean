import Verif.Spec.Targets
/-
The targets `blind()` uses for every transaction, reissued tokens included.
-/
namespace Verif

/-- A new issuance of an asset or of tokens: the inputs for which a token id is computed. -/
def MakesToken (txin : TxIn) : Prop :=
  (txin.assetIssuance.nAmount ≠ [] ∨ txin.assetIssuance.nInflationKeys ≠ []) ∧
    AllZero txin.assetIssuance.assetBlindingNonce

/-- `id` is the token of the last new issuance among the inputs up to `i`. -/
def LastToken (E : Env) (A : BlindArgs) (vin : List TxIn) (i : Nat) (id : Bytes) : Prop :=
  ∃ j txin, j ≤ i ∧ vin[j]? = some txin ∧ MakesToken txin ∧ id = tokenId E (A.tokenKeys.getD j none).isSome txin ∧
    ∀ k x, j < k → k ≤ i → vin[k]? = some x → ¬ MakesToken x

/-- Targets of input `i` of a transaction with inputs `vin`: what it spends, the asset it issues
and, if it issues tokens, the token of the last new issuance. -/
structure CodedTargets (E : Env) (A : BlindArgs) (vin : List TxIn) (i : Nat) (txin : TxIn) (d : Desc) (l : List Target) : Prop where
  parts : ∃ t l1 l2, l = t :: (l1 ++ l2) ∧ SpentTarget E.z A i d t ∧
    IssuedTarget E.z (assetId E txin) txin.assetIssuance.nAmount l1 ∧
    ((txin.assetIssuance.nInflationKeys = [] ∧ l2 = []) ∨
      ∃ id, LastToken E A vin i id ∧ ¬ AllZero id ∧ IssuedTarget E.z id txin.assetIssuance.nInflationKeys l2)
  amount : ¬ IsValueCommitment txin.assetIssuance.nAmount
  keys : ¬ IsValueCommitment txin.assetIssuance.nInflationKeys

/-- Input by input, then the auxiliary generators beyond the inputs. -/
def IsCodedTargets (E : Env) (A : BlindArgs) (tx : Tx) (L : List Target) : Prop :=
  ∃ (Ls : List (List Target)) (L2 : List Target), Ls.length = (tx.vin.zip A.descs).length ∧
    (∀ i txin d l, tx.vin[i]? = some txin → A.descs[i]? = some d → Ls[i]? = some l → CodedTargets E A tx.vin i txin d l) ∧
    AuxTargets E.z (A.auxGens.drop tx.vin.length) L2 ∧ L = Ls.flatten ++ L2

end Verif
