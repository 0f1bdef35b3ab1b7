import Verif.Bytes
/-
Loading the native library: core/secp256k1.py:46-79, elementstx/__init__.py:48-64 and
util.py:15.

`secp256k1_load_library` and `secp256k1_create_and_init_context` belong to
python-bitcointx; each call of them may succeed with any result or raise, and the answers
may differ from call to call, so they are an argument of every `get_secp256k1` call.
-/
namespace Verif

/-- What `secp256k1_load_library` returns: the loaded library (identified by a number) and
whether it has the symbol `secp256k1_rangeproof_info`. -/
structure RawLib where
  id : Nat
  hasRangeproof : Bool
  deriving DecidableEq, Repr

/-- `Secp256k1_ZKP`, core/secp256k1.py:41-45.  A context is a number. -/
structure LibHandle where
  lib : RawLib
  hasZkp : Bool
  blindCtx : Option Nat
  deriving DecidableEq, Repr

/-- Module globals `elementstx.util._secp256k1_library_path` (util.py:15) and
`elementstx.core.secp256k1._secp256k1` (core/secp256k1.py:46). -/
structure LibState where
  path : Option String := none
  handle : Option LibHandle := none
  deriving DecidableEq, Repr

/-- The answers of python-bitcointx during one call. -/
structure LibWorld where
  load : Option String → Except PyErr RawLib
  context : RawLib → Except PyErr Nat

/-- The body of the `if` in `get_secp256k1`, core/secp256k1.py:53-77. -/
def loadHandle (w : LibWorld) (path : Option String) : Except PyErr LibHandle :=
  match w.load path with
  | .error e => .error e
  | .ok lib =>
    if lib.hasRangeproof then
      match w.context lib with
      | .error e => .error e
      | .ok ctx => .ok { lib, hasZkp := true, blindCtx := some ctx }
    else .ok { lib, hasZkp := false, blindCtx := none }

/-- One call made by the user of the package. -/
inductive LibOp
  /-- `set_custom_secp256k1_path(path)`; the flag is the answer of `os.path.isfile`. -/
  | setPath (path : String) (isFile : Bool)
  /-- `get_custom_secp256k1_path()` -/
  | getPath
  /-- `get_secp256k1()` -/
  | get (w : LibWorld)

/-- How a call ended. -/
inductive LibOut
  | done
  | path (p : Option String)
  | handle (h : LibHandle)
  | raised (e : PyErr)
  deriving DecidableEq, Repr

/-- A call's outcome and the argument of its `secp256k1_load_library` call, if it made one. -/
structure LibEvent where
  out : LibOut
  load : Option (Option String) := none
  deriving DecidableEq, Repr

/-- `get_secp256k1`, core/secp256k1.py:49-79. -/
def getSecp (w : LibWorld) (s : LibState) : LibEvent × LibState :=
  match s.handle with
  | some h => (⟨.handle h, none⟩, s)
  | none =>
    match loadHandle w s.path with
    | .error e => (⟨.raised e, some s.path⟩, s)
    | .ok h => (⟨.handle h, some s.path⟩, { s with handle := some h })

/-- One call: elementstx/__init__.py:48-64 and core/secp256k1.py:49-79. -/
def libStep (s : LibState) : LibOp → LibEvent × LibState
  | .setPath p isFile => if !isFile then (⟨.raised .valueError, none⟩, s) else (⟨.done, none⟩, { s with path := some p })
  | .getPath => (⟨.path s.path, none⟩, s)
  | .get w => getSecp w s

/-- A history of calls, starting in state `s`. -/
def libRun (s : LibState) : List LibOp → List LibEvent
  | [] => []
  | op :: ops => (libStep s op).1 :: libRun (libStep s op).2 ops

/-- The state after a history. -/
def libState (s : LibState) (ops : List LibOp) : LibState := ops.foldl (fun s op => (libStep s op).2) s

end Verif
