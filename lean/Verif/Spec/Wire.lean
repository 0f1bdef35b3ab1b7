import Verif.Bytes
/-
The wire grammar, written as relations between values and byte strings.  Nothing
here refers to the readers or writers of the model; only byte-string values
(`leVal`) are used.

`…Enc x b` reads "b is an encoding of x".
-/
namespace Verif.Spec

/-- Largest byte string a stream read may ask for. -/
def maxItem : Nat := 33554432

/-- `b` is the little-endian representation of `n` in `k` bytes. -/
def UIntEnc (k : Nat) (n : Nat) (b : Bytes) : Prop := b.length = k ∧ leVal b = n

/-- `b` is the little-endian two's complement representation of `v` in `k` bytes. -/
def SIntEnc (k : Nat) (v : Int) (b : Bytes) : Prop :=
  b.length = k ∧
    (2 * leVal b < 256 ^ k ∧ v = leVal b ∨ 256 ^ k ≤ 2 * leVal b ∧ v = (leVal b : Int) - (256 ^ k : Nat))

/-- Compact size, not necessarily in shortest form. -/
inductive VarIntEnc : Nat → Bytes → Prop
  | one {n x} : x.toNat = n → n < 0xfd → VarIntEnc n [x]
  | two {n b} : UIntEnc 2 n b → VarIntEnc n (0xfd :: b)
  | four {n b} : UIntEnc 4 n b → VarIntEnc n (0xfe :: b)
  | eight {n b} : UIntEnc 8 n b → VarIntEnc n (0xff :: b)

/-- Length of the shortest compact size encoding of `n`. -/
def varIntSize (n : Nat) : Nat :=
  if n < 253 then 1 else if n < 65536 then 3 else if n < 4294967296 then 5 else 9

/-- Compact size in shortest form. -/
def VarIntMin (n : Nat) (b : Bytes) : Prop := VarIntEnc n b ∧ b.length = varIntSize n

/-- Length-prefixed byte string; `L` is the relation for the length prefix. -/
def BytesEnc (L : Nat → Bytes → Prop) (s : Bytes) (b : Bytes) : Prop :=
  ∃ l, L s.length l ∧ s.length ≤ maxItem ∧ b = l ++ s

/-- Items one after the other. -/
inductive SeqEnc {α : Type} (E : α → Bytes → Prop) : List α → Bytes → Prop
  | nil : SeqEnc E [] []
  | cons {x xs b bs} : E x b → SeqEnc E xs bs → SeqEnc E (x :: xs) (b ++ bs)

/-- Length-prefixed list. -/
def VecEnc {α : Type} (L : Nat → Bytes → Prop) (E : α → Bytes → Prop) (xs : List α) (b : Bytes) : Prop :=
  ∃ l r, L xs.length l ∧ SeqEnc E xs r ∧ b = l ++ r

/-- The concatenation of two encodings. -/
def Cat (A B : Bytes → Prop) (b : Bytes) : Prop := ∃ x y, A x ∧ B y ∧ b = x ++ y

end Verif.Spec
