import Verif.Spec.BlindEnd
import Verif.Spec.Zkp
/-
What may happen to a transaction while several calls of `blind()` are made, by whomever.
-/
namespace Verif

/-- Inputs and outputs were added at the end; what was there is as it was, with its witnesses. -/
structure Appended (t t' : Tx) : Prop where
  inputs : t.vin <+: t'.vin
  outputs : t.vout <+: t'.vout
  inWit : ∀ i, i < t.vin.length → t'.inWit i = t.inWit i
  outWit : ∀ j, j < t.vout.length → t'.outWit j = t.outWit j

/-- `t'` came from `t` by any number of calls of `blind()`, however they ended, with any arguments and draws and any library whose asset
commitments look like such, and by appending. -/
inductive Later : Tx → Tx → Prop
  | refl (t : Tx) : Later t t
  | call {t t' : Tx} (E : Env) (A : BlindArgs) : Formats E.z → Later t t' → Later t (blindTransaction E A t').2
  | append {t t' t'' : Tx} : Later t t' → Appended t' t'' → Later t t''

end Verif
