import Verif.Spec.Wire
/-
Script pushes, as a relation.
-/
namespace Verif.Spec

/-- `w` is a script operation that pushes `d`, in any of the four encodings. -/
inductive PushEnc : Bytes → Bytes → Prop
  | direct {d} : d.length < 0x4c → PushEnc d (UInt8.ofNat d.length :: d)
  | one {d l} : UIntEnc 1 d.length l → PushEnc d (0x4c :: (l ++ d))
  | two {d l} : UIntEnc 2 d.length l → PushEnc d (0x4d :: (l ++ d))
  | four {d l} : UIntEnc 4 d.length l → PushEnc d (0x4e :: (l ++ d))

/-- OP_RETURN, a push of the 32-byte genesis hash, a push of a non-empty script, anything. -/
def PegoutScript (s genesis spk : Bytes) : Prop :=
  ∃ p1 p2 rest, s = 0x6a :: (p1 ++ p2 ++ rest) ∧ PushEnc genesis p1 ∧ genesis.length = 32 ∧
    PushEnc spk p2 ∧ spk ≠ []

end Verif.Spec
