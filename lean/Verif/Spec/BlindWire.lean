import Verif.Spec.WireTx
import Verif.Spec.Blind
import Verif.Tx
/-
Surviving the wire, for transactions whose witness lists may be missing.
-/
namespace Verif.Spec

/-- The transaction with missing witnesses filled in with empty ones. -/
def fillWitness (tx : Tx) : Tx :=
  { tx with wit := ⟨tx.wit.vtxinwit ++ List.replicate (tx.vin.length - tx.wit.vtxinwit.length) {},
                    tx.wit.vtxoutwit ++ List.replicate (tx.vout.length - tx.wit.vtxoutwit.length) {}⟩ }

/-- All fields fit the wire; each witness list is complete or missing altogether. -/
structure FitsWire (tx : Tx) : Prop where
  fields : WFTx (fillWitness tx)
  ins : tx.wit.vtxinwit = [] ∨ tx.wit.vtxinwit.length = tx.vin.length
  outs : tx.wit.vtxoutwit = [] ∨ tx.wit.vtxoutwit.length = tx.vout.length

/-- Written to bytes, the transaction is read back, but for missing witnesses. -/
def Survives (tx : Tx) : Prop :=
  ∃ b t, serializeTx tx = .ok b ∧ deserializeTx b = .ok t ∧ t = fillWitness tx

end Verif.Spec
