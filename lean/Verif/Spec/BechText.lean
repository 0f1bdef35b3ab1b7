import Verif.Spec.BlechText
/-
What the text of a segwit address without blinding key is, by BIP 173 and BIP 350: letters of five
bits and a checksum that is the remainder of a polynomial over the field with 32 elements.
-/
namespace Verif.Spec.BechText

/-- A step of long division by a polynomial with leading coefficient 1 and the other coefficients
`g`, highest power first: the remainder times X, plus the next coefficient, less a multiple of the
divisor. -/
def divStep (g c : List Nat) (v : Nat) : List Nat :=
  List.zipWith (fun x y => x ^^^ y) (c.tail ++ [v]) (g.map (times (c.headD 0)))

/-- The remainder of the polynomial with coefficients `p`, highest power first. -/
def divide (g p : List Nat) : List Nat := p.foldl (divStep g) (g.map fun _ => 0)

/-- The generator of BIP 173: x⁶ + 29x⁵ + 22x⁴ + 20x³ + 21x² + 29x + 18. -/
def generator : List Nat := [29, 22, 20, 21, 29, 18]

/-- What the remainder has to be: 1 for version 0 (BIP 173), the six symbols of 0x2bc830a3 for the
others (BIP 350). -/
def goal (v : Nat) : List Nat := if v = 0 then [0, 0, 0, 0, 0, 1] else [21, 28, 16, 12, 5, 3]

/-- The text of a version and a program under a human readable part. -/
def IsText (hrp : List Nat) (v : Nat) (prog : Bytes) (s : List Nat) : Prop :=
  ∃ d cs : List Nat, s = hrp ++ '1'.toNat :: (v :: d ++ cs).map letter ∧
    (∀ x ∈ v :: d ++ cs, x < 32) ∧
    (∃ z, z < 5 ∧ bitString 5 d = bitString 8 (prog.map UInt8.toNat) ++ List.replicate z false) ∧
    cs.length = 6 ∧
    divide generator (1 :: (hrp.map (· / 32) ++ 0 :: hrp.map (· % 32) ++ (v :: d ++ cs))) = goal v

end Verif.Spec.BechText
