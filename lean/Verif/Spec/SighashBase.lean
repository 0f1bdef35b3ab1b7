import Verif.Spec.Sighash
import Verif.Spec.Push
/-
The legacy signature hash preimage.
-/
namespace Verif.Spec

/-- `c` is the script `s` without its code separators; `s` is a sequence of complete
operations. -/
inductive StripSep : Bytes → Bytes → Prop
  | nil : StripSep [] []
  | sep {s c} : StripSep s c → StripSep (0xab :: s) c
  | op {b s c} : 0x4e < b → b ≠ 0xab → StripSep s c → StripSep (b :: s) (b :: c)
  | push {d w s c} : PushEnc d w → StripSep s c → StripSep (w ++ s) (w ++ c)

/-- Inputs of the signed transaction: only the signed input has a script, NONE and SINGLE
drop the other sequence numbers, ANYONECANPAY the other inputs. -/
def legacyInputs (code : Bytes) (vin : List TxIn) (idx ht : Nat) : List TxIn :=
  if AnyoneCanPay ht then (vin[idx]?.toList).map fun i => { i with scriptSig := code }
  else vin.mapIdx fun k i =>
    if k = idx then { i with scriptSig := code }
    else { i with scriptSig := [], nSequence := if OutAll ht then i.nSequence else 0 }

/-- Outputs of the signed transaction. -/
def legacyOutputs (vout : List TxOut) (idx ht : Nat) : List TxOut :=
  if OutNone ht then []
  else if OutSingle ht then List.replicate idx ({} : TxOut) ++ vout[idx]?.toList
  else vout

/-- An input in the signed transaction: the index carries no flag bits, an issuance is
appended. -/
def SigInEnc (i : TxIn) (w : Bytes) : Prop :=
  ∃ x s q t, UIntEnc 4 i.prevout.n x ∧ BytesEnc VarIntMin i.scriptSig s ∧ UIntEnc 4 i.nSequence q ∧
    ((NoIssue i.assetIssuance ∧ t = []) ∨ (¬ NoIssue i.assetIssuance ∧ IssuanceEnc i.assetIssuance t)) ∧
    w = i.prevout.hash ++ x ++ s ++ q ++ t

/-- The string that is hashed: no flag byte, no witnesses, hash type at the end. -/
def LegacyPreimage (code : Bytes) (tx : Tx) (idx ht : Nat) (w : Bytes) : Prop :=
  ∃ v i o l t, SIntEnc 4 tx.nVersion v ∧ VecEnc VarIntMin SigInEnc (legacyInputs code tx.vin idx ht) i ∧
    VecEnc VarIntMin (TxOutEnc true) (legacyOutputs tx.vout idx ht) o ∧ UIntEnc 4 tx.nLockTime l ∧
    SIntEnc 4 (ht : Int) t ∧ w = v ++ i ++ o ++ l ++ t

end Verif.Spec
