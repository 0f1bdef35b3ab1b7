import Verif.Spec.Unblind
import Verif.Spec.Targets
import Verif.Spec.BlindDone
/-
What can be wrong with a request to blind or to unblind, and how it is told.
-/
namespace Verif

/-- Things that can be wrong with a request to blind.  Numbers are those of inputs, generators or outputs. -/
inductive Problem
  /-- the asset of the input is unknown, and there are no generators -/
  | noGenerator (i : Nat)
  /-- the generator given for the input, whose asset is unknown, is none -/
  | badGenerator (i : Nat)
  /-- the issued amount, or the number of tokens, is hidden already -/
  | hiddenIssuance (i : Nat) (token : Bool)
  /-- a generator beyond the inputs is none -/
  | extraGenerator (i : Nat)
  /-- a hidden input of a negative amount -/
  | negative (i : Nat)
  /-- a key for an issued amount, or number of tokens, that is not explicit -/
  | notExplicit (i : Nat) (token : Bool)
  /-- a key for one with a rangeproof -/
  | proofInPlace (i : Nat) (token : Bool)
  /-- the key for an output is not valid -/
  | badKey (j : Nat)
  | hiddenValue (j : Nat)
  | hiddenAsset (j : Nat)
  /-- the output has a witness -/
  | witness (j : Nat)
  | fee (j : Nat)
  deriving DecidableEq, Repr

/-- A key is given for output `j`. -/
def Wanted (A : BlindArgs) (j : Nat) : Prop := ∃ pk, A.pubkeys[j]? = some pk ∧ pk ≠ []

/-- The request has the problem. -/
def Problem.Present (E : Env) (A : BlindArgs) (tx : Tx) : Problem → Prop
  | .noGenerator i => i < tx.vin.length ∧ (∃ d, A.descs[i]? = some d ∧ AllZero d.asset) ∧ A.auxGens = []
  | .badGenerator i => i < tx.vin.length ∧ (∃ d, A.descs[i]? = some d ∧ AllZero d.asset) ∧
      ∃ g, A.auxGens[i]? = some g ∧ E.z.genParse g = none
  | .hiddenIssuance i token => ∃ txin, tx.vin[i]? = some txin ∧ IsValueCommitment (txin.issued token)
  | .extraGenerator i => tx.vin.length ≤ i ∧ ∃ g, A.auxGens[i]? = some g ∧ E.z.genParse g = none
  | .negative i => i < tx.vin.length ∧ ∃ d, A.descs[i]? = some d ∧ d.blinded = true ∧ d.amount < 0
  | .notExplicit i token => ∃ txin key, tx.vin[i]? = some txin ∧ txin.assetIssuance.isNull = false ∧
      A.issuanceKey i token = some key ∧ ¬ IsExplicitValue (txin.issued token)
  | .proofInPlace i token => ∃ txin key, tx.vin[i]? = some txin ∧ txin.assetIssuance.isNull = false ∧
      A.issuanceKey i token = some key ∧ (tx.inWit i).issuedProof token ≠ []
  | .badKey j => Wanted A j ∧ E.z.pubValid (A.pubkeys.getD j []) = false
  | .hiddenValue j => Wanted A j ∧ ¬ IsExplicitValue (tx.vout.getD j {}).nValue
  | .hiddenAsset j => Wanted A j ∧ ¬ IsExplicitAsset (tx.vout.getD j {}).nAsset
  | .witness j => Wanted A j ∧ tx.outWit j ≠ {}
  | .fee j => Wanted A j ∧ (tx.vout.getD j {}).scriptPubKey = []

/-- The order in which problems are looked for: what the inputs spend and issue, input by input; further generators;
amounts and keys, input by input; outputs one by one. -/
def Problem.place : Problem → Nat × Nat × Nat
  | .noGenerator i => (0, i, 0)
  | .badGenerator i => (0, i, 0)
  | .hiddenIssuance i token => (0, i, if token then 2 else 1)
  | .extraGenerator i => (1, i, 0)
  | .negative i => (2, i, 0)
  | .notExplicit i token => (2, i, if token then 3 else 1)
  | .proofInPlace i token => (2, i, if token then 4 else 2)
  | .badKey j => (3, j, 0)
  | .hiddenValue j => (3, j, 1)
  | .hiddenAsset j => (3, j, 2)
  | .witness j => (3, j, 3)
  | .fee j => (3, j, 4)

def Problem.Before (p q : Problem) : Prop :=
  p.place.1 < q.place.1 ∨ p.place.1 = q.place.1 ∧
    (p.place.2.1 < q.place.2.1 ∨ p.place.2.1 = q.place.2.1 ∧ p.place.2.2 < q.place.2.2)

/-- The first problem of the request. -/
def FirstProblem (E : Env) (A : BlindArgs) (tx : Tx) (p : Problem) : Prop :=
  p.Present E A tx ∧ ∀ q : Problem, q.Before p → ¬ q.Present E A tx

/-- How the problem should be told: with the number of the input, generator or output. -/
def Problem.text : Problem → String
  | .noGenerator i => "input asset " ++ toString i ++ " is empty, but auxiliary_generators was not supplied"
  | .badGenerator i => "auxiliary generator " ++ toString i ++ " is not valid"
  | .hiddenIssuance _ token => "issuance is not empty, but " ++ (if token then "nInflationKeys" else "nAmount") ++ " is a commitment"
  | .extraGenerator i => "auxiliary generator " ++ toString i ++ " is not valid"
  | .negative i => "input blinding factors (or asset blinding factors) for input " ++ toString i ++
      " is not empty, but amount specified for this input is negative"
  | .notExplicit i false => "blind_issuance_asset_keys is specified for input " ++ toString i ++ ", but issuance.nAmount is not explicit"
  | .notExplicit i true => "blind_issuance_token_keys is specified for input " ++ toString i ++ ", but issuance.nInflationKeys is not explicit"
  | .proofInPlace i false => "blind_issuance_asset_keys is specified for input " ++ toString i ++
      ", but issuanceAmountRangeproof is already in place"
  | .proofInPlace i true => "blind_issuance_token_keys is specified for input " ++ toString i ++
      ", but inflationKeysRangeproof is already in place"
  | .badKey j => "blinding pubkey for output " ++ toString j ++ " is not valid"
  | .hiddenValue j => "valid blinding pubkey specified for output " ++ toString j ++ ", but nValue for this output is not explicit"
  | .hiddenAsset j => "valid blinding pubkey specified for output " ++ toString j ++ ", but nAsset for this output is not explicit"
  | .witness j => "valid blinding pubkey specified for output " ++ toString j ++
      ", but txout witness for this output is already in place"
  | .fee j => "valid blinding pubkey specified for output " ++ toString j ++ ", but this output is a fee output"

/-- How it is told: without the number if a rangeproof is in place. -/
def Problem.told : Problem → String
  | .proofInPlace _ false => "blind_issuance_asset_keys is specified for input %d, but issuanceAmountRangeproof is already in place"
  | .proofInPlace _ true => "blind_issuance_token_keys is specified for input %d, but inflationKeysRangeproof is already in place"
  | p => p.text

/-- Too little was blinded. -/
def shortfall (num wanted : Nat) : String :=
  "blinded " ++ toString num ++ " outputs/issuances, but should have blinded " ++ toString wanted ++
    " (this check can be turned off with is_blind_success_strict=False)"

/-- Why an output does not open under a key, with the text. -/
inductive Closed (E : Env) (key confValue confAsset confNonce script proof : Bytes) : String → Prop
  | noProof : proof = [] → Closed E key confValue confAsset confNonce script proof "rangeproof is empty"
  | nonce : proof ≠ [] → confNonce ≠ [] → E.z.pubValid confNonce = false →
      Closed E key confValue confAsset confNonce script proof "nNonce.commitment is not a valid pubkey"
  | value (nonce : Bytes) (extra : Option Bytes) : proof ≠ [] → RightNonce E key confNonce script nonce extra → ¬ IsValueCommitment confValue →
      Closed E key confValue confAsset confNonce script proof "value is not a commitment"
  | assetCommitment (nonce : Bytes) (extra : Option Bytes) : proof ≠ [] → RightNonce E key confNonce script nonce extra → IsValueCommitment confValue →
      IsAssetCommitment confAsset → E.z.genParse confAsset = none →
      Closed E key confValue confAsset confNonce script proof "cannot parse asset commitment as a generator"
  | asset (nonce : Bytes) (extra : Option Bytes) (a : Bytes) : proof ≠ [] → RightNonce E key confNonce script nonce extra → IsValueCommitment confValue →
      confAsset = 1 :: a → a.length = 32 → E.z.generate a = none →
      Closed E key confValue confAsset confNonce script proof "unable to create a generator out of asset explicit data"
  | valueCommitment (nonce : Bytes) (extra : Option Bytes) (g : Bytes) : proof ≠ [] → RightNonce E key confNonce script nonce extra → IsValueCommitment confValue →
      Shown E.z confAsset g → E.z.commitParse confValue = none →
      Closed E key confValue confAsset confNonce script proof "cannot parse value commitment as Pedersen commitment"
  | rewind (nonce : Bytes) (extra : Option Bytes) (g c : Bytes) : proof ≠ [] → RightNonce E key confNonce script nonce extra →
      IsValueCommitment confValue → Shown E.z confAsset g → E.z.commitParse confValue = some c →
      E.z.rangeRewind nonce c proof extra g = none →
      Closed E key confValue confAsset confNonce script proof "unable to rewind rangeproof"
  | amount (nonce : Bytes) (extra : Option Bytes) (g c bf msg : Bytes) (amount size : Nat) : proof ≠ [] →
      RightNonce E key confNonce script nonce extra → IsValueCommitment confValue → Shown E.z confAsset g →
      E.z.commitParse confValue = some c → E.z.rangeRewind nonce c proof extra g = some (bf, amount, msg, size) →
      21 * 10 ^ 14 < amount →
      Closed E key confValue confAsset confNonce script proof "resulting amount after rangeproof rewind is outside MoneyRange"
  | message (nonce : Bytes) (extra : Option Bytes) (g c bf msg : Bytes) (amount size : Nat) : proof ≠ [] →
      RightNonce E key confNonce script nonce extra → IsValueCommitment confValue → Shown E.z confAsset g →
      E.z.commitParse confValue = some c → E.z.rangeRewind nonce c proof extra g = some (bf, amount, msg, size) →
      amount ≤ 21 * 10 ^ 14 → size ≠ 64 →
      Closed E key confValue confAsset confNonce script proof "resulting message after rangeproof rewind is not 64 bytes in size"
  | generator (nonce : Bytes) (extra : Option Bytes) (g c bf msg : Bytes) (amount : Nat) : proof ≠ [] →
      RightNonce E key confNonce script nonce extra → IsValueCommitment confValue → Shown E.z confAsset g →
      E.z.commitParse confValue = some c → E.z.rangeRewind nonce c proof extra g = some (bf, amount, msg, 64) →
      amount ≤ 21 * 10 ^ 14 → E.z.generateBlinded (msg.take 32) ((msg.drop 32).take 32) = none →
      Closed E key confValue confAsset confNonce script proof
        "unable to recalculate a generator from asset type and asset blinder resulted from rangeproof rewind"
  | mismatch (nonce : Bytes) (extra : Option Bytes) (g c bf msg : Bytes) (amount : Nat) (g' s s' : Bytes) : proof ≠ [] →
      RightNonce E key confNonce script nonce extra → IsValueCommitment confValue → Shown E.z confAsset g →
      E.z.commitParse confValue = some c → E.z.rangeRewind nonce c proof extra g = some (bf, amount, msg, 64) →
      amount ≤ 21 * 10 ^ 14 → E.z.generateBlinded (msg.take 32) ((msg.drop 32).take 32) = some g' →
      E.z.genSerialize g = some s → E.z.genSerialize g' = some s' → s ≠ s' →
      Closed E key confValue confAsset confNonce script proof
        "generator recalculated after rangeproof rewind does not match generator presented in asset commitment"

end Verif
