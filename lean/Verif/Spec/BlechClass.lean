import Verif.BlechClass
/-
Which classes a hierarchy of blech32 classes offers, and which one a version and a program belong to.
-/
namespace Verif.Spec.BlechClass
open Verif.BlechClass

mutual
/-- The classes with a version that a class stands for, in order: itself, or those it is dispatched to. -/
def offers : Cls → List Cls
  | .mk i d h w n m => if d = true ∧ m ≠ [] then offersAll m else [.mk i d h w n m]
def offersAll : List Cls → List Cls
  | [] => []
  | k :: ks => (if 0 ≤ k.witver then [k] else offers k) ++ offersAll ks
end

/-- A version and a program belong to a class. -/
def fits (witver : Nat) (data : Bytes) (k : Cls) : Bool := decide (k.witver = witver) && decide (k.dataLen = some data.length)

mutual
/-- Nothing is missing in a hierarchy: a class that is not dispatched further has a version and a length. -/
def Complete : Cls → Prop
  | .mk _ d _ w n m => d = true ∧ (m = [] → 0 ≤ w ∧ n ≠ none) ∧ CompleteAll m
def CompleteAll : List Cls → Prop
  | [] => True
  | k :: ks => (if 0 ≤ k.witver then k.dataLen ≠ none else Complete k) ∧ CompleteAll ks
end

mutual
/-- A class that stands for one class only has a length too. -/
def Named : Cls → Prop
  | .mk _ _ _ _ n m => (m.length = 1 → n ≠ none) ∧ NamedAll m
def NamedAll : List Cls → Prop
  | [] => True
  | k :: ks => (0 ≤ k.witver ∨ Named k) ∧ NamedAll ks
end

end Verif.Spec.BlechClass
