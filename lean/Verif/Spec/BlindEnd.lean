import Verif.Spec.BlindDone
/-
What a transaction may look like however an attempt to blind it ends.
-/
namespace Verif

/-- Output `j` hides amount and asset but got no proofs: no surjection proof was found. -/
structure Committed (E : Env) (A : BlindArgs) (t t' : Tx) (j : Nat) (bf abf : Bytes) : Prop where
  committed : IsValueCommitment (t'.vout.getD j {}).nValue
  hidden : ∃ asset v gen com seed x, HiddenBy E.z (t.vout.getD j {}) (t'.vout.getD j {}) bf abf asset v gen com ∧
    E.z.secValid seed = true ∧ (t'.vout.getD j {}).nNonce = E.z.pubOf seed ∧ E.z.ecdh seed (A.pubkeys.getD j []) = some x
  noProofs : t'.outWit j = t.outWit j

/-- Output `j` was gone through. -/
inductive OutputDone (E : Env) (A : BlindArgs) (t t' : Tx) (j : Nat) : Prop
  | notAsked : A.pubkeys.getD j [] = [] → Untouched t t' j → OutputDone E A t t' j
  | blinded (bf abf : Bytes) : A.pubkeys.getD j [] ≠ [] → Blinded E A t t' j bf abf → OutputDone E A t t' j
  | committed (bf abf : Bytes) : A.pubkeys.getD j [] ≠ [] → Committed E A t t' j bf abf → OutputDone E A t t' j

/-- The issued amount (or number of tokens) at `x` and its proof stayed. -/
def IssuanceSame (t t' : Tx) (x : Nat × Bool) : Prop :=
  t'.vin[x.1]?.map (fun y => y.issued x.2) = t.vin[x.1]?.map (fun y => y.issued x.2) ∧
  (t'.inWit x.1).issuedProof x.2 = (t.inWit x.1).issuedProof x.2

/-- The issued amount at `x` was gone through. -/
inductive IssuanceDone (E : Env) (A : BlindArgs) (t t' : Tx) (x : Nat × Bool) : Prop
  | notAsked : A.issuanceKey x.1 x.2 = none → IssuanceSame t t' x → IssuanceDone E A t t' x
  /-- nothing is issued -/
  | nothing : (t.vin.getD x.1 default).issued x.2 = [] → IssuanceSame t t' x → IssuanceDone E A t t' x
  /-- a reissuance has no tokens to blind -/
  | reissued : x.2 = true → ¬ AllZero (t.vin.getD x.1 default).assetIssuance.assetBlindingNonce → IssuanceSame t t' x →
      IssuanceDone E A t t' x
  | blinded (key : Bytes) : A.issuanceKey x.1 x.2 = some key → IssuanceBlinded E A t t' x.1 x.2 key →
      IssuanceDone E A t t' x

/-- The order in which issued amounts are gone through: input by input, amount before tokens. -/
def IssuanceBefore (x y : Nat × Bool) : Prop := x.1 < y.1 ∨ (x.1 = y.1 ∧ x.2 = false ∧ y.2 = true)

/-- How far blinding got.  What comes before that place is finished, what comes after is as it
was; at that place no proof was written, and nothing at all unless an exception was raised. -/
inductive GotTo (E : Env) (A : BlindArgs) (t t' : Tx) (raised : Prop) : Prop
  /-- refused -/
  | start : t' = t → GotTo E A t t' raised
  | issuance (x : Nat × Bool) (key : Bytes) : A.issuanceKey x.1 x.2 = some key →
      (∀ y, IssuanceBefore y x → IssuanceDone E A t t' y) → (∀ y, IssuanceBefore x y → IssuanceSame t t' y) →
      (t'.inWit x.1).issuedProof x.2 = (t.inWit x.1).issuedProof x.2 → (¬ raised → IssuanceSame t t' x) →
      (∀ j, Untouched t t' j) → GotTo E A t t' raised
  | output (j : Nat) : (∀ x, IssuanceDone E A t t' x) → (∀ k, k < j → OutputDone E A t t' k) →
      (∀ k, j < k → Untouched t t' k) → t'.outWit j = t.outWit j → (¬ raised → Untouched t t' j) → GotTo E A t t' raised

end Verif
