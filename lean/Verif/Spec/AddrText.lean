import Verif.Bytes
/-
What base58 text is, and what an address written with BIP 173 and BIP 350 looks like, independent of the code.
-/
namespace Verif.Spec

/-- The letters of base58, value 0 to 57: digits and letters without `0`, `O`, `I` and `l`. -/
def letters58 : List Char :=
  ['1', '2', '3', '4', '5', '6', '7', '8', '9',
   'A', 'B', 'C', 'D', 'E', 'F', 'G', 'H', 'J', 'K', 'L', 'M', 'N', 'P', 'Q', 'R', 'S', 'T', 'U', 'V', 'W', 'X', 'Y', 'Z',
   'a', 'b', 'c', 'd', 'e', 'f', 'g', 'h', 'i', 'j', 'k', 'm', 'n', 'o', 'p', 'q', 'r', 's', 't', 'u', 'v', 'w', 'x', 'y', 'z']

def letter58 (v : Nat) : Nat := (letters58.getD v ' ').toNat

/-- The number that digits stand for, the most significant first. -/
def value (base : Nat) (d : List Nat) : Nat := d.foldl (fun n x => base * n + x) 0

/-- The number of zeros at the beginning. -/
def zeros (d : List Nat) : Nat := (d.takeWhile (· = 0)).length

/-- The text stands for the bytes: the same number, and as many zeros at the beginning. -/
def Base58 (s : List Nat) (b : Bytes) : Prop :=
  ∃ d : List Nat, s = d.map letter58 ∧ (∀ x ∈ d, x < 58) ∧ value 58 d = value 256 (b.map UInt8.toNat) ∧ zeros d = zeros (b.map UInt8.toNat)

/-- What a base58 address is: prefix, data and four bytes of the hash of both. -/
def Base58Check (H : Bytes → Bytes) (pre data : Bytes) (s : List Nat) : Prop := Base58 s (pre ++ data ++ (H (pre ++ data)).take 4)

/-- A codec for segwit addresses. -/
structure SegwitCodec where
  encode : List Nat → Nat → Bytes → List Nat
  decode : List Nat → List Nat → Option (Nat × Bytes)

/-- A human readable part of a few small letters. -/
def SmallHrp (hrp : List Nat) : Prop := hrp ≠ [] ∧ hrp.length ≤ 20 ∧ ∀ c ∈ hrp, 97 ≤ c ∧ c ≤ 122

/-- Version and length of the witness programs in use: 20 or 32 bytes of version 0, 32 bytes of the others. -/
def UsualProg (v : Nat) (p : Bytes) : Prop := v ≤ 16 ∧ (p.length = 20 ∧ v = 0 ∨ p.length = 32)

/-- What BIP 173 and BIP 350 promise of `encode` and `decode` of segwit addresses; `low` is the text in lower case. -/
structure SegwitCodec.Standard (S : SegwitCodec) (low : List Nat → List Nat) : Prop where
  /-- What is encoded is decoded. -/
  reads : ∀ hrp v p, SmallHrp hrp → UsualProg v p → S.decode hrp (S.encode hrp v p) = some (v, p)
  /-- What is decoded is, in lower case, what is encoded. -/
  writes : ∀ hrp s v p, S.decode hrp s = some (v, p) → S.encode hrp v p = low s
  /-- Part, separator, version, five bits to a letter, six letters of checksum. -/
  looks : ∀ hrp v p, SmallHrp hrp → UsualProg v p →
    ∃ d : List Nat, S.encode hrp v p = hrp ++ '1'.toNat :: d ∧ d.length = 1 + (8 * p.length + 4) / 5 + 6

end Verif.Spec
