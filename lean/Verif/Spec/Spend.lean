import Verif.Spec.Balance
import Verif.Results
/-
Descriptors of outputs that are to be spent.
-/
namespace Verif

/-- The descriptor tells the truth about an output, as the recipient knows it: by unblinding with
a key, or because everything is explicit. -/
inductive DescribedBy (E : Env) (o : TxOut) (w : TxOutWitness) : Desc → Prop
  | unblinded (key asset : Bytes) (amount : Nat) (bf abf : Bytes) (r : ResultObj) (d : Desc) :
      unblind E key o.nValue o.nAsset o.nNonce o.scriptPubKey w.rangeproof = .ok (.success asset amount bf abf) →
      (UnblindResult.success asset amount bf abf).obj = .ok r → r.getDescriptor = .ok d → DescribedBy E o w d
  | plain (a v : Bytes) : o.nAsset = 1 :: a → o.nValue = 1 :: v → a.length = 32 → v.length = 8 →
      DescribedBy E o w ⟨a, beVal v, List.replicate 32 0, List.replicate 32 0⟩

/-- What is spent, read from the spent outputs themselves, and what is issued equals what comes
out, as group elements. -/
def SpendsBalanced {z : Zkp} {M : Type} [AddCommGroup M] [Module Scalar M] (P : Pedersen z M) (E : Env)
    (spent : List TxOut) (t : Tx) : Prop :=
  (spent.map P.outPt).sum + (t.vin.map fun i => P.issuancePt E i.confidential i).sum = (t.vout.map P.outPt).sum

end Verif
