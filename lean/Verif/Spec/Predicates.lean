import Verif.Spec.WireTx
/-
What the wire form of an output, a witness or an issuance has to look like for the object to count
as null or as a fee output. Written on bytes only.
-/
namespace Verif.Spec

/-- Nothing but zero bytes. -/
def Blank (w : Bytes) : Prop := ∀ x ∈ w, x = 0

/-- The four zero bytes of an output with no asset, no value, no nonce and no script. -/
def NullOutWire (w : Bytes) : Prop := w = [0, 0, 0, 0]

/-- A fee output: explicit asset, explicit amount, any nonce, empty script. -/
def FeeOutWire (w : Bytes) : Prop :=
  ∃ asset amount c nonce, asset.length = 32 ∧ amount.length = 8 ∧ NonceEnc c nonce
    ∧ w = (1 :: asset) ++ (1 :: amount) ++ nonce ++ [0]

/-- An issuance whose amount and inflation keys are both absent. -/
def NullIssuanceWire (w : Bytes) : Prop := w.length = 66 ∧ w.drop 64 = [0, 0]

/-- Field lengths every constructor call leaves behind. -/
def OutBuilt (o : TxOut) : Prop :=
  (o.nAsset.length = 0 ∨ o.nAsset.length = 33) ∧ (o.nValue.length = 0 ∨ o.nValue.length = 9 ∨ o.nValue.length = 33)
    ∧ (o.nNonce.length = 0 ∨ o.nNonce.length = 33)

end Verif.Spec
