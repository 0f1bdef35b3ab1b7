import Verif.Blind
/-
Result objects of blinding and unblinding, core/__init__.py:92-186.

The message of a failure is the text given to the constructor.  Type checks of fields
other than the message are the Lean types.
-/
namespace Verif

/-- What a caller may pass as `error_msg`: a string or any other object. -/
inductive PyArg
  | str (s : String)
  | other

/-- Objects of the classes `BlindingFailure`, `UnblindingFailure`, `BlindingSuccess` and
`UnblindingSuccess`, core/__init__.py:116-186. -/
inductive ResultObj
  | blindingFailure (errorMessage : String)
  | unblindingFailure (errorMessage : String)
  | blindingSuccess (num : Int) (blindingFactors assetBlindingFactors : List Bytes)
  | unblindingSuccess (asset : Bytes) (amount : Int) (blindingFactor assetBlindingFactor : Bytes)
  deriving DecidableEq

/-- `bool(s)` of a string. -/
def strTruth (s : String) : Bool := s.length != 0

/-- `BlindingOrUnblindingFailure.__init__`, core/__init__.py:121-124: the stored message. -/
def failureInit : PyArg → Except PyErr String
  | .other => .error .assertion
  | .str s => if strTruth s then .ok s else .error .assertion

def blindingFailureNew (m : PyArg) : Except PyErr ResultObj := (failureInit m).map .blindingFailure
def unblindingFailureNew (m : PyArg) : Except PyErr ResultObj := (failureInit m).map .unblindingFailure

/-- `BlindingSuccess.__init__`, core/__init__.py:152-161. -/
def blindingSuccessNew (num : Int) (bf abf : List Bytes) : Except PyErr ResultObj := .ok (.blindingSuccess num bf abf)

/-- `MoneyRange` on an `int` with the default `MAX_MONEY` (python-bitcointx). -/
def moneyRangeInt (n : Int) : Bool := 0 ≤ n && n ≤ 2100000000000000

/-- `UnblindingSuccess.__init__`, core/__init__.py:174-180. -/
def unblindingSuccessNew (asset : Bytes) (amount : Int) (bf abf : Bytes) : Except PyErr ResultObj :=
  if moneyRangeInt amount then .ok (.unblindingSuccess asset amount bf abf) else .error .assertion

/-- The property `error`, core/__init__.py:118-119 and 131-133. -/
def ResultObj.error : ResultObj → String
  | .blindingFailure m => m
  | .unblindingFailure m => m
  | .blindingSuccess .. => ""
  | .unblindingSuccess .. => ""

/-- The property `ok`, core/__init__.py:105-113. -/
def ResultObj.ok (r : ResultObj) : Bool := if strTruth r.error then false else true

/-- `bool(result)`, core/__init__.py:93-98. -/
def ResultObj.truth (_ : ResultObj) : Except PyErr Bool := .error .typeError

/-- The result object that a returned blinding result stands for. -/
def BlindResult.obj : BlindResult → Except PyErr ResultObj
  | .success n bf abf => blindingSuccessNew n bf abf
  | .failure m => blindingFailureNew (.str m)

/-- The result object that a returned unblinding result stands for. -/
def UnblindResult.obj : UnblindResult → Except PyErr ResultObj
  | .success a n bf abf => unblindingSuccessNew a n bf abf
  | .failure m => unblindingFailureNew (.str m)

/-- `UnblindingSuccess.get_descriptor`, core/__init__.py:182-186.  The other result classes have
no such method. -/
def ResultObj.getDescriptor : ResultObj → Except PyErr Desc
  | .unblindingSuccess asset amount bf abf => .ok ⟨asset, amount, bf, abf⟩
  | _ => .error .attributeError

end Verif
