import Verif.Confidential
import Verif.Spec.WireTx
/-
The three confidential classes with the sizes and markers of the Elements format,
written down independently of the class attributes they are compared with.
-/
namespace Verif.Spec

/-- Class, explicit length, the two commitment markers. -/
inductive ConfClass : ConfKind → Nat → UInt8 → UInt8 → Prop
  | value : ConfClass valueKind 9 8 9
  | asset : ConfClass assetKind 33 10 11
  | nonce : ConfClass nonceKind 33 2 3

/-- 64-bit two's complement, most significant byte first, after marker 1. -/
def ExplicitAmount (v : Int) (c : Bytes) : Prop :=
  ∃ b, c = 1 :: b ∧ SIntEnc 8 v b.reverse

end Verif.Spec
