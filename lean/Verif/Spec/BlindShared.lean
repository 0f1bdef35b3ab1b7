import Verif.BlindShared
import Verif.Spec.Blind
/-
Transactions that list one object more than once.
-/
namespace Verif.Spec

/-- No object is listed twice. -/
structure Distinct (S : Sharing) (t : Tx) : Prop where
  vin : ∀ p q, p < t.vin.length → q < t.vin.length → S.vin p = S.vin q → p = q
  vout : ∀ p q, p < t.vout.length → q < t.vout.length → S.vout p = S.vout q → p = q
  inwit : ∀ p q, p < t.wit.vtxinwit.length → q < t.wit.vtxinwit.length → S.inwit p = S.inwit q → p = q
  outwit : ∀ p q, p < t.wit.vtxoutwit.length → q < t.wit.vtxoutwit.length → S.outwit p = S.outwit q → p = q

/-- Positions among the first of the lists `t` had that hold one object show the same in `t'`. -/
structure OneValue (S : Sharing) (t t' : Tx) : Prop where
  vin : ∀ p q, p < t.vin.length → q < t.vin.length → S.vin p = S.vin q → t'.vin[p]? = t'.vin[q]?
  vout : ∀ p q, p < t.vout.length → q < t.vout.length → S.vout p = S.vout q → t'.vout[p]? = t'.vout[q]?
  inwit : ∀ p q, p < t.wit.vtxinwit.length → q < t.wit.vtxinwit.length → S.inwit p = S.inwit q →
    t'.wit.vtxinwit[p]? = t'.wit.vtxinwit[q]?
  outwit : ∀ p q, p < t.wit.vtxoutwit.length → q < t.wit.vtxoutwit.length → S.outwit p = S.outwit q →
    t'.wit.vtxoutwit[p]? = t'.wit.vtxoutwit[q]?

/-- Position `p` holds the object of a position of which `asked` is true. -/
def Reached (ids : Nat → Nat) (n : Nat) (asked : Nat → Prop) (p : Nat) : Prop :=
  ∃ q, asked q ∧ (q = p ∨ q < n ∧ p < n ∧ ids q = ids p)

/-- There is a pubkey for output `j`. -/
def AskedOut (A : BlindArgs) (j : Nat) : Prop := A.pubkeys.getD j [] ≠ []
/-- There is an asset or token key for input `i`. -/
def AskedIn (A : BlindArgs) (i : Nat) : Prop := ∃ k, A.assetKeys[i]? = some (some k) ∨ A.tokenKeys[i]? = some (some k)

/-- `t'` differs from `t` only in objects that are listed at a position asked for. -/
structure OnlyReached (S : Sharing) (A : BlindArgs) (t0 t t' : Tx) : Prop where
  version : t'.nVersion = t.nVersion
  lockTime : t'.nLockTime = t.nLockTime
  numIn : t'.vin.length = t.vin.length
  numOut : t'.vout.length = t.vout.length
  inputs : ∀ i, ¬ Reached S.vin t0.vin.length (AskedIn A) i → t'.vin[i]? = t.vin[i]?
  prevouts : t'.vin.map (fun x => (x.prevout, x.scriptSig, x.nSequence, x.isPegin)) = t.vin.map (fun x => (x.prevout, x.scriptSig, x.nSequence, x.isPegin))
  outputs : ∀ j, ¬ Reached S.vout t0.vout.length (AskedOut A) j → t'.vout[j]? = t.vout[j]?
  scripts : t'.vout.map TxOut.scriptPubKey = t.vout.map TxOut.scriptPubKey
  inWits : ∀ i, ¬ Reached S.inwit t0.wit.vtxinwit.length (AskedIn A) i → t'.inWit i = t.inWit i
  scriptWitness : ∀ i, (t'.inWit i).scriptWitness = (t.inWit i).scriptWitness
  peginWitness : ∀ i, (t'.inWit i).peginWitness = (t.inWit i).peginWitness
  outWits : ∀ j, ¬ Reached S.outwit t0.wit.vtxoutwit.length (AskedOut A) j → t'.outWit j = t.outWit j

end Verif.Spec
