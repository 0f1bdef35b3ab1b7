/-
Bit strings of lists of fixed-width numbers, most significant bit first.
-/
namespace Verif.Spec

/-- The `k` low bits of `v`, most significant first. -/
def bitsBE : Nat → Nat → List Bool
  | 0, _ => []
  | k + 1, v => v.testBit k :: bitsBE k v

/-- The concatenated `k`-bit groups of a list. -/
def bitString (k : Nat) (l : List Nat) : List Bool := l.flatMap (bitsBE k)

end Verif.Spec
