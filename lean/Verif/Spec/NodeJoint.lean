import Verif.Spec.Node
import Verif.Spec.Joint
/-
A transaction made in turns, as the network can accept it: what a party has to know of the inputs of
the others is the asset commitments of what they spend.
-/
namespace Verif

/-- What a party passes to blinding in its turn: `tx` is what it was given, `tx2` has its own inputs
and outputs, `spent` are the outputs that the inputs of the final transaction spend. -/
structure Offered (E : Env) (A : BlindArgs) (spent : List TxOut) (foreign own : List Desc) (tx tx2 : Tx) : Prop where
  strict : A.strict = true
  bits : A.ctBits.getD 52 ≤ 52
  /-- nothing is issued -/
  issues : ∀ t ∈ tx2.vin, t.assetIssuance.nAmount = [] ∧ t.assetIssuance.nInflationKeys = []
  known : ∀ d ∈ own, ¬ AllZero d.asset
  unknown : ∀ d ∈ foreign, AllZero d.asset
  /-- the generators of the assets others spend, before or after, and none beyond -/
  told : ∀ i, i < spent.length → i < tx.vin.length ∨ tx2.vin.length ≤ i →
    ∃ g, assetGen E.z (spent.getD i {}).nAsset = some g ∧ E.z.genSerialize g = some (A.auxGens.getD i [])
  aux : A.auxGens.length ≤ spent.length
  /-- outputs of others are left alone -/
  old : ∀ j, j < tx.vout.length → A.pubkeys.getD j [] = [] ∧ tx2.outWit j = tx.outWit j
  /-- own ones are plain, and carry no proofs if they are to stay so -/
  new : ∀ j, tx.vout.length ≤ j → j < tx2.vout.length → IsExplicitValue (tx2.vout.getD j {}).nValue ∧
    IsExplicitAsset (tx2.vout.getD j {}).nAsset ∧ amountOf (tx2.vout.getD j {}).nValue ≤ maxMoney ∧
    (A.pubkeys.getD j [] = [] → (0 < amountOf (tx2.vout.getD j {}).nValue ∨ Unspendable (tx2.vout.getD j {}).scriptPubKey) ∧
      nonceSort (tx2.vout.getD j {}).nNonce ≠ .invalid ∧ tx2.outWit j = {})

/-- Turns as in `Joint`, everybody being told the asset commitments of the others. -/
inductive NetJoint (E : Env) (spent : List TxOut) : List Desc → Tx → Prop
  | start {tx : Tx} : tx.vin = [] → tx.vout = [] → NetJoint E spent [] tx
  | turn {A : BlindArgs} {known foreign own : List Desc} {ins : List TxIn} {outs : List TxOut} {tx tx2 tx' : Tx} :
      NetJoint E spent known tx → Turn E A foreign own ins outs tx tx2 tx' → Offered E A spent foreign own tx tx2 →
      NetJoint E spent (known ++ own) tx'

end Verif
