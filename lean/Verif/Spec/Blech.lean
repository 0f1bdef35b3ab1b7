import Verif.Bytes
/-
What a blech32 address is allowed to be, independent of the code.
-/
namespace Verif.Spec

/-- A human readable part: not empty, printable ASCII, no upper case letter. -/
def HrpOk (hrp : List Nat) : Prop :=
  hrp ≠ [] ∧ ∀ c ∈ hrp, 33 ≤ c ∧ c ≤ 126 ∧ ¬ (65 ≤ c ∧ c ≤ 90)

/-- Version and payload length (blinding key and witness program together). -/
def ProgOk (v n : Nat) : Prop := v ≤ 16 ∧ 2 ≤ n ∧ n ≤ 73 ∧ (v = 0 → n = 53 ∨ n = 65)

instance (v n : Nat) : Decidable (ProgOk v n) := by unfold ProgOk; infer_instance

/-- Equal up to the case of ASCII letters. -/
def sameLetter (a b : Nat) : Prop := a = b ∨ (65 ≤ a ∧ a ≤ 90 ∧ b = a + 32) ∨ (65 ≤ b ∧ b ≤ 90 ∧ a = b + 32)

instance (a b : Nat) : Decidable (sameLetter a b) := by unfold sameLetter; infer_instance

/-- Number of positions at which two strings have different characters, ignoring case. -/
def distance (s t : List Nat) : Nat :=
  ((s.zip t).filter fun p => decide (¬ sameLetter p.1 p.2)).length

/-- A string with both upper and lower case letters. -/
def MixedCase (s : List Nat) : Prop := (∃ c ∈ s, 65 ≤ c ∧ c ≤ 90) ∧ ∃ c ∈ s, 97 ≤ c ∧ c ≤ 122

end Verif.Spec
