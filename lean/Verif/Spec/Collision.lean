import Verif.Hash
/-
Collisions, always at named strings: a bare existence statement would be true of
every function with a finite range.
-/
namespace Verif.Spec

/-- `x` and `y` are a collision of `f`. -/
def CollAt (f : Bytes → Bytes) (x y : Bytes) : Prop := x ≠ y ∧ f x = f y

/-- A collision of the inner or the outer application of a doubled hash. -/
def DblCollAt (f : Bytes → Bytes) (x y : Bytes) : Prop := CollAt f x y ∨ CollAt f (f x) (f y)

end Verif.Spec
namespace Verif
open Spec

theorem dbl_inj_or {h : HashFn} {x y : Bytes} (e : h.dbl x = h.dbl y) : x = y ∨ DblCollAt h.fn x y := by
  by_cases h1 : x = y
  · exact Or.inl h1
  · by_cases h2 : h.fn x = h.fn y
    · exact Or.inr (Or.inl ⟨h1, h2⟩)
    · exact Or.inr (Or.inr ⟨h2, e⟩)

end Verif
