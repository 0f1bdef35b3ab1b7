import Verif.Spec.BlindEnd
/-
Counting what a call of `blind()` has finished, by looking at the transactions before and after.
-/
namespace Verif.Spec

/-- Outputs asked for that have a surjection proof now. -/
def finishedOutputs (A : BlindArgs) (t' : Tx) : List Nat :=
  (List.range t'.vout.length).filter fun j => A.pubkeys.getD j [] ≠ [] ∧ (t'.outWit j).surjectionproof ≠ []

/-- Issued amounts and numbers of tokens that are no longer what they were. -/
def changedIssued (t t' : Tx) : List (Nat × Bool) :=
  ((List.range t.vin.length).flatMap fun i => [(i, false), (i, true)]).filter fun x =>
    (t'.vin.getD x.1 default).issued x.2 ≠ (t.vin.getD x.1 default).issued x.2

end Verif.Spec
