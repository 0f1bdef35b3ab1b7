import Verif.Spec.Node
import Verif.Spec.Spend
/-
What the network and the recipient of an output know about it.
-/
namespace Verif

/-- Rewinding a rangeproof ends by making the commitment anew from what was found and comparing, and
a commitment that was read is written as it was. -/
structure RewindExact (z : Zkp) : Prop where
  remade : ∀ nonce c proof extra g b v msg n, z.rangeRewind nonce c proof extra g = some (b, v, msg, n) → z.commit b v g = some c
  canonical : ∀ s c, z.commitParse s = some c → z.commitSerialize c = some s

/-- A plain amount that can be on the chain and be spent. -/
def OnChain (o : TxOut) : Prop := ∀ v, o.nValue = 1 :: v → 0 < beVal v ∧ beVal v ≤ maxMoney

end Verif
