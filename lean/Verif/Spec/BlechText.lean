import Verif.Spec.Bits
import Verif.Spec.Blech
/-
What the text of a blech32 address is: the alphabet of BIP 173, five bits to a letter, and a
checksum that is the remainder of a polynomial over the field with 32 elements.
-/
namespace Verif.Spec

/-- The alphabet of BIP 173, value 0 to 31. -/
def alphabet : List Char :=
  ['q', 'p', 'z', 'r', 'y', '9', 'x', '8',
   'g', 'f', '2', 't', 'v', 'd', 'w', '0',
   's', '3', 'j', 'n', '5', '4', 'k', 'h',
   'c', 'e', '6', 'm', 'u', 'a', '7', 'l']

/-- Code point of the letter for a value. -/
def letter (v : Nat) : Nat := (alphabet.getD v ' ').toNat

/-- Multiplication by the root `x` in the field of polynomials over two elements modulo
`x^5 + x^3 + 1`, written as numbers below 32. -/
def times2 (a : Nat) : Nat := if a < 16 then 2 * a else (2 * a - 32) ^^^ 9

/-- Multiplication in this field, by Horner over the five bits of the first factor. -/
def times (a b : Nat) : Nat :=
  [4, 3, 2, 1, 0].foldl (fun r i => times2 r ^^^ if a.testBit i then b else 0) 0

/-- The checksum polynomial of degree 12 without its leading coefficient 1, highest power first. -/
def genPoly : List Nat := [0, 31, 10, 18, 31, 14, 18, 0, 23, 22, 4, 6]

/-- `r * X + v` modulo the checksum polynomial, for a remainder `r` of twelve coefficients, highest
power first. -/
def remStep (r : List Nat) (v : Nat) : List Nat :=
  List.zipWith (· ^^^ ·) (r.tail ++ [v]) (genPoly.map (times (r.headD 0)))

/-- Remainder of the polynomial with coefficient 1 followed by the given ones. -/
def remainder (vs : List Nat) : List Nat := vs.foldl remStep [0, 0, 0, 0, 0, 0, 0, 0, 0, 0, 0, 1]

/-- What the remainder has to be: 1 for version 0, another constant for the others. -/
def goodRemainder (v : Nat) : List Nat :=
  if v = 0 then [0, 0, 0, 0, 0, 0, 0, 0, 0, 0, 0, 1] else [8, 21, 12, 23, 5, 8, 25, 21, 1, 29, 29, 1]

/-- The text of a version and a program (blinding pubkey and hash) under a human readable part. -/
def IsText (hrp : List Nat) (v : Nat) (prog : Bytes) (s : List Nat) : Prop :=
  ∃ d cs : List Nat, s = hrp ++ '1'.toNat :: (v :: d ++ cs).map letter ∧
    (∀ x ∈ v :: d ++ cs, x < 32) ∧
    (∃ z, z < 5 ∧ bitString 5 d = bitString 8 (prog.map UInt8.toNat) ++ List.replicate z false) ∧
    cs.length = 12 ∧
    remainder (hrp.map (· / 32) ++ 0 :: hrp.map (· % 32) ++ (v :: d ++ cs)) = goodRemainder v

end Verif.Spec
