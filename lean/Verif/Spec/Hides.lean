import Verif.Spec.Balance
import Verif.Spec.BlindGoes
/-
What somebody who sees a blinded transaction can tell about amounts and assets: two requests that look the same
from outside, and when draws hide both in the same way.
-/
namespace Verif

variable {z : Zkp} {M : Type} [AddCommGroup M] [Module Scalar M]

/-- A point of a generator or of a commitment that the library made is written in one way. -/
structure Pedersen.Canonical (P : Pedersen z M) : Prop where
  generator : ∀ a r g s a' r' g' s', z.generateBlinded a r = some g → z.genSerialize g = some s → z.generateBlinded a' r' = some g' →
    z.genSerialize g' = some s' → P.genPt g = P.genPt g' → s = s'
  commitment : ∀ b v g c s b' v' g' c' s', z.commit b v g = some c → z.commitSerialize c = some s → z.commit b' v' g' = some c' →
    z.commitSerialize c' = some s' → P.comPt c = P.comPt c' → s = s'

/-- Two requests that differ only in what is to be hidden: in amounts and assets of the outputs and in issued amounts that are
to be blinded, and in how the spent outputs are opened (their points add up to the same). -/
structure LooksLike (P : Pedersen z M) (A B : BlindArgs) (t u : Tx) : Prop where
  pubkeys : B.pubkeys = A.pubkeys
  keys : ∀ i token, (B.issuanceKey i token).isSome = (A.issuanceKey i token).isSome
  spent : (B.descs.map P.spentPt).sum = (A.descs.map P.spentPt).sum
  inputs : u.vin.map TxIn.fixed = t.vin.map TxIn.fixed
  issued : ∀ i token, A.issuanceKey i token = none →
    (u.vin.getD i default).issued token = (t.vin.getD i default).issued token
  scripts : u.vout.map TxOut.scriptPubKey = t.vout.map TxOut.scriptPubKey
  outputs : ∀ j : Nat, A.pubkeys.getD j [] = [] → u.vout[j]? = t.vout[j]?

/-- The point of the generator of an output under a factor. -/
def Pedersen.hiddenAsset (P : Pedersen z M) (o : TxOut) (r : Bytes) : M := P.H (o.nAsset.drop 1) + scalar r • P.G

/-- The point of its commitment. -/
def Pedersen.hiddenValue (P : Pedersen z M) (o : TxOut) (r b : Bytes) : M :=
  (plainAmount o.nValue : Scalar) • P.hiddenAsset o r + scalar b • P.G

/-- Number of the first of four draws for the `k`-th output that is to be blinded. -/
def drawOf (A : BlindArgs) (t : Tx) (k : Nat) : Nat := (issuancesAsked A t).length + 4 * k

/-- The draws of both requests hide what they are for in the same points; nothing is said about the value factor drawn for the last
output, which is not used, nor about seeds of surjection proofs.  Ephemeral keys are the same. -/
structure SameDraws (P : Pedersen z M) (E : Env) (A B : BlindArgs) (t u : Tx) : Prop where
  issued : ∀ k i token, (issuancesAsked A t)[k]? = some (i, token) →
    (plainAmount ((u.vin.getD i default).issued token) : Scalar) • P.H (pseudoId E (t.vin.getD i default) token) + scalar (B.rand k) • P.G
      = (plainAmount ((t.vin.getD i default).issued token) : Scalar) • P.H (pseudoId E (t.vin.getD i default) token) + scalar (A.rand k) • P.G
  asset : ∀ k j, (outputsAsked A)[k]? = some j →
    P.hiddenAsset (u.vout.getD j {}) (B.rand (drawOf A t k + 1)) = P.hiddenAsset (t.vout.getD j {}) (A.rand (drawOf A t k + 1))
  value : ∀ k j, (outputsAsked A)[k]? = some j → k + 1 < (outputsAsked A).length →
    P.hiddenValue (u.vout.getD j {}) (B.rand (drawOf A t k + 1)) (B.rand (drawOf A t k))
      = P.hiddenValue (t.vout.getD j {}) (A.rand (drawOf A t k + 1)) (A.rand (drawOf A t k))
  ephemeral : ∀ k j, (outputsAsked A)[k]? = some j → B.rand (drawOf A t k + 2) = A.rand (drawOf A t k + 2)

end Verif
