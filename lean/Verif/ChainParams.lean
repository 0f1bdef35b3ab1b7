import Verif.Bytes
/-
Chain parameters (elementstx/__init__.py): where a chain keeps its data and what it is called.
-/
namespace Verif.ChainParams
open Verif

/-- `str.split('/')`. -/
def splitSlash : List Char → List (List Char)
  | [] => [[]]
  | c :: t =>
    if c = '/' then [] :: splitSlash t
    else match splitSlash t with
      | [] => [[c]]
      | a :: r => (c :: a) :: r

/-- The parameter classes, elementstx/__init__.py:25-26 and 40.  A class made by subclassing one of
them takes its methods. -/
inductive Class
  | elements
  | liquidV1
  deriving DecidableEq, Repr

/-- `RPC_PORT`, lines 27 and 41. -/
def rpcPort : Class → Nat
  | .elements => 7041
  | .liquidV1 => 7042

/-- The names a class is registered with, lines 26 and 40; `NAME` is the first
(`ChainParamsMeta`, python-bitcointx). -/
def registered : Class → List String
  | .elements => ["elements", "elements/elementsregtest"]
  | .liquidV1 => ["elements/liquidv1"]

/-- `ElementsParams.get_datadir_extra_name`, lines 30-35, and the one of
`ElementsLiquidV1Params`, lines 44-45, for an object of the class, or of a subclass of it, with this
`NAME`. -/
def datadirExtraName (c : Class) (name : List Char) : Except PyErr (List Char) :=
  let parts := splitSlash name
  match c with
  | .elements =>
    if parts.length = 1 then
      match parts[0]? with
      | some p => .ok (p ++ "regtest".toList)
      | none => .error .indexError
    else match parts[1]? with
      | some p => .ok p
      | none => .error .indexError
  | .liquidV1 =>
    match parts[1]? with
    | some p => .ok p
    | none => .error .indexError

/-- `ElementsParams.get_network_id`, lines 37-38; inherited by `ElementsLiquidV1Params`, and the
method called is the one of the class of the object. -/
def networkId (c : Class) (name : List Char) : Except PyErr (List Char) := datadirExtraName c name

end Verif.ChainParams
