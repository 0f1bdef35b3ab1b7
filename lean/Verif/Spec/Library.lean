import Verif.Library
/-
What a history of path settings and library requests should show to the caller.
-/
namespace Verif

/-- The last path a history set to an existing file. -/
def lastSet : List LibOp → Option String
  | [] => none
  | op :: ops =>
    match lastSet ops, op with
    | some p, _ => some p
    | none, .setPath p true => some p
    | none, _ => none

/-- A history asks for the library at step `i`. -/
def AsksAt (ops : List LibOp) (i : Nat) : Prop := ∃ w, ops[i]? = some (.get w)

/-- Step `i` gave the caller the handle `h`. -/
def GaveAt (ev : List LibEvent) (i : Nat) (h : LibHandle) : Prop := (ev[i]?).map (·.out) = some (.handle h)

/-- Step `i` loaded a library from `p`, where `none` means the default place. -/
def LoadedAt (ev : List LibEvent) (i : Nat) (p : Option String) : Prop := (ev[i]?).bind (·.load) = some p

end Verif
