import Verif.Spec.Blech
/-
Errors next to each other.
-/
namespace Verif.Spec

/-- Two texts of one length that differ, but for letter case, only within `n` characters in a row. -/
def Within (n : Nat) (s t : List Nat) : Prop :=
  s.length = t.length ∧ ∃ a, ∀ i, i < s.length → (i < a ∨ a + n ≤ i) → sameLetter (s.getD i 0) (t.getD i 0)

end Verif.Spec
