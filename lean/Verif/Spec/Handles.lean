import Verif.Surjection
/-
How an object in memory of the native library is to be used.
-/
namespace Verif

/-- There is no object yet, there is one, or it was freed. -/
inductive HandleState
  | none
  | live
  | freed
  deriving DecidableEq, Repr

/-- What a call does to the object; no result: a use of an object that does not exist. -/
def HandleState.step : HandleState → HandleOp → Option HandleState
  | .none, .allocate true => some .live
  | .none, .allocate false => some .none
  | .live, .allocate _ => Option.none
  | .live, .destroy => some .freed
  | .live, _ => some .live
  | _, _ => Option.none

/-- Calls one after the other. -/
def HandleState.run : HandleState → List HandleOp → Option HandleState
  | s, [] => some s
  | s, o :: r => (s.step o).bind fun t => t.run r

end Verif
