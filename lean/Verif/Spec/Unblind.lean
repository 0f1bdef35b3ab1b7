import Verif.Spec.Blind
/-
When an output opens.
-/
namespace Verif

/-- The shared secret with which the rangeproof was made and the script it is tied to: a
Diffie-Hellman secret hashed, or the key itself without any script if the output carries no
nonce. -/
inductive RightNonce (E : Env) (key confNonce script : Bytes) : Bytes → Option Bytes → Prop
  | shared (s : Bytes) : confNonce ≠ [] → E.z.pubValid confNonce = true → E.z.ecdh key confNonce = some s →
      RightNonce E key confNonce script (E.h.fn s) (if script = [] then none else some script)
  | direct : confNonce = [] → RightNonce E key confNonce script key none

/-- The generator an output shows: its commitment parsed, the generator of its explicit
asset, or, if it has no asset, a zeroed buffer. -/
inductive Shown (z : Zkp) (confAsset : Bytes) : Bytes → Prop
  | commitment (g : Bytes) : IsAssetCommitment confAsset → z.genParse confAsset = some g → Shown z confAsset g
  | explicit (a g : Bytes) : confAsset = 1 :: a → a.length = 32 → z.generate a = some g → Shown z confAsset g
  | nothing : ¬ IsAssetCommitment confAsset → ¬ IsExplicitAsset confAsset → Shown z confAsset (List.replicate 64 0)

/-- The output opens to asset, amount and factors under the key. -/
structure Opens (E : Env) (key confValue confAsset confNonce script proof : Bytes)
    (asset : Bytes) (amount : Nat) (bf abf : Bytes) : Prop where
  hasProof : proof ≠ []
  value : IsValueCommitment confValue
  money : amount ≤ 21 * 10 ^ 14
  rewound : ∃ nonce extra g c msg, RightNonce E key confNonce script nonce extra ∧ Shown E.z confAsset g ∧
    E.z.commitParse confValue = some c ∧ E.z.rangeRewind nonce c proof extra g = some (bf, amount, msg, 64) ∧
    msg.take 64 = asset ++ abf ∧ asset.length = 32 ∧ abf.length = 32 ∧
    ∃ g' s, E.z.generateBlinded asset abf = some g' ∧ E.z.genSerialize g = some s ∧ E.z.genSerialize g' = some s

end Verif
