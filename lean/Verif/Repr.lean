import Verif.Blind
/-
Printed forms: `__repr__` and `__str__` of fields, issuances, inputs, outputs and witnesses,
core/__init__.py:292-305, 308-309, 394-396, 509-515, 609-616, 724-728, 790-800, 889-894, 999-1003,
and what Python makes of the printed constructor calls.

The text is modelled as the sequence of its Python tokens (white space dropped).  Numbers, byte
strings (`bytes_repr`, `x('...')`) and quoted hex digits are one token each: that these texts
tell their values apart is taken from Python and python-bitcointx.  The printed form of scripts
(python-bitcointx) is a parameter.
-/
namespace Verif

/-- The classes printed. -/
inductive Cls
  /-- `CConfidentialValue` -/
  | value
  /-- `CConfidentialAsset` -/
  | asset
  /-- `CConfidentialNonce` -/
  | nonce
  /-- `CAsset` -/
  | cas
  /-- `CAssetIssuance` -/
  | issuance
  /-- `CElementsOutPoint` -/
  | outPoint
  /-- `CElementsTxIn` -/
  | txIn
  /-- `CElementsTxOut` -/
  | txOut
  /-- `CScriptWitness` -/
  | stack
  /-- `CElementsTxInWitness` -/
  | inWit
  /-- `CElementsTxOutWitness` -/
  | outWit
  /-- `CElementsTxWitness` -/
  | txWit
  deriving DecidableEq

/-- Printed expressions. -/
inductive PyExpr
  /-- decimal number -/
  | int (v : Int)
  /-- `0x%x` -/
  | hex (n : Nat)
  /-- `True`, `False` -/
  | bool (b : Bool)
  /-- `x('...')` -/
  | bytes (b : Bytes)
  /-- `lx('...')` -/
  | lx (b : Bytes)
  /-- hex digits between quotes -/
  | quoted (b : Bytes)
  /-- hex digits without quotes -/
  | digits (b : Bytes)
  /-- the word `CONFIDENTIAL` -/
  | confidential
  /-- whatever python-bitcointx prints for a script -/
  | script (text : String)
  | call (cls : Cls) (args : List PyExpr)
  | list (items : List PyExpr)
  /-- the keyword argument `is_pegin=%r` -/
  | isPegin (b : Bool)

/-- Tokens of the printed text. -/
inductive Tok
  | int (v : Int)
  | hex (n : Nat)
  | bool (b : Bool)
  | bytes (b : Bytes)
  | lx (b : Bytes)
  | quoted (b : Bytes)
  | digits (b : Bytes)
  | confidential
  | script (text : String)
  | name (c : Cls)
  | isPegin
  | opn | cls | lbr | rbr | comma | eq
  deriving DecidableEq

mutual
/-- The text of an expression. -/
def PyExpr.text : PyExpr → List Tok
  | .int v => [.int v]
  | .hex n => [.hex n]
  | .bool b => [.bool b]
  | .bytes b => [.bytes b]
  | .lx b => [.lx b]
  | .quoted b => [.quoted b]
  | .digits b => [.digits b]
  | .confidential => [.confidential]
  | .script s => [.script s]
  | .call c args => .name c :: .opn :: (textSeq args ++ [.cls])
  | .list items => .lbr :: (textSeq items ++ [.rbr])
  | .isPegin b => [.isPegin, .eq, .bool b]
/-- `', '.join(...)`. -/
def textSeq : List PyExpr → List Tok
  | [] => []
  | e :: es => e.text ++ textRest es
/-- The later items, each after its comma. -/
def textRest : List PyExpr → List Tok
  | [] => []
  | e :: es => .comma :: (e.text ++ textRest es)
end

/-- Which of the two printed forms: `strfn` of `_repr_or_str`. -/
inductive Form
  | repr | str
  deriving DecidableEq

/-- `CAsset.__repr__`, core/__init__.py:308-309. -/
def casRepr (a : Bytes) : PyExpr := .call .cas [.quoted a]

/-- `CConfidentialValue`: `__str__` and `__repr__` of the base class with its `_get_explicit`,
core/__init__.py:292-305, 382-383. -/
def valueText (f : Form) (c : Bytes) : Except PyErr PyExpr := do
  if confIsExplicit valueKind c then
    let v ← valueToAmount c
    return .call .value [.int v]
  else match f with
    | .str => return .call .value [.confidential]
    | .repr => return .call .value [.bytes c]

/-- `CConfidentialAsset`: the same, core/__init__.py:292-305, 353-354; `str` of a `CAsset` is
that of `Uint256` (python-bitcointx). -/
def assetText (f : Form) (c : Bytes) : Except PyErr PyExpr := do
  if confIsExplicit assetKind c then
    let a ← assetToAsset c
    match f with
    | .str => return .call .asset [.digits a]
    | .repr => return .call .asset [casRepr a]
  else match f with
    | .str => return .call .asset [.confidential]
    | .repr => return .call .asset [.bytes c]

/-- `CConfidentialNonce`: `__str__` of the base class with its `_get_explicit`,
core/__init__.py:292-297, 391-392; own `__repr__`, 394-396. -/
def nonceText (f : Form) (c : Bytes) : PyExpr :=
  match f with
  | .str => .call .nonce [.confidential]
  | .repr => .call .nonce [.bytes c]

/-- `CAssetIssuance._repr_or_str`, core/__init__.py:790-800. -/
def issuanceText (f : Form) (i : Issuance) : Except PyErr PyExpr := do
  let r : List PyExpr := []
  let r := if !isNull32 i.assetBlindingNonce then r ++ [.bytes i.assetBlindingNonce] else r
  let r := if !isNull32 i.assetEntropy then r ++ [.bytes i.assetEntropy] else r
  let r ← if !confIsNull i.nAmount then (valueText f i.nAmount).map (fun e => r ++ [e]) else .ok r
  let r ← if !confIsNull i.nInflationKeys then (valueText f i.nInflationKeys).map (fun e => r ++ [e]) else .ok r
  return .call .issuance r

/-- `COutPoint.__repr__` and `__str__` (python-bitcointx). -/
def outPointText (o : OutPoint) : PyExpr :=
  if o.hash = zero32 ∧ o.n = 0xffffffff then .call .outPoint []
  else .call .outPoint [.lx o.hash, .int o.n]

/-- `CElementsTxIn._repr_or_str`, core/__init__.py:889-894; `script` prints scripts. -/
def txInText (script : Bytes → String) (f : Form) (i : TxIn) : Except PyErr PyExpr := do
  let s ← issuanceText f i.assetIssuance
  return .call .txIn [outPointText i.prevout, .script (script i.scriptSig), .hex i.nSequence,
    s, .isPegin i.isPegin]

/-- `CElementsTxOut._repr_or_str`, core/__init__.py:999-1003. -/
def txOutText (script : Bytes → String) (f : Form) (o : TxOut) : Except PyErr PyExpr := do
  let v ← valueText f o.nValue
  let a ← assetText f o.nAsset
  return .call .txOut [v, .script (script o.scriptPubKey), a, nonceText f o.nNonce]

/-- `CScriptWitness.__repr__` (python-bitcointx). -/
def stackText (s : List Bytes) : PyExpr := .call .stack [.list (s.map .bytes)]

/-- `CElementsTxInWitness._repr_or_str`, core/__init__.py:509-515. -/
def inWitText (w : TxInWitness) : PyExpr :=
  if w.isNull then .call .inWit []
  else .call .inWit [stackText w.scriptWitness, .bytes w.issuanceAmountRangeproof,
    .bytes w.inflationKeysRangeproof, stackText w.peginWitness]

/-- `CElementsTxOutWitness.__repr__`, core/__init__.py:609-616. -/
def outWitText (w : TxOutWitness) : PyExpr :=
  if w.isNull then .call .outWit []
  else .call .outWit [.bytes w.surjectionproof, .bytes w.rangeproof]

/-- `CElementsTxWitness._repr_or_str`, core/__init__.py:724-728. -/
def txWitText (w : TxWitness) : PyExpr :=
  .call .txWit [.list (w.vtxinwit.map inWitText), .list (w.vtxoutwit.map outWitText)]

/-! ### Evaluating a printed call -/

/-- Python values the printed calls are made of. -/
inductive PyVal
  | int (v : Int)
  | bytes (b : Bytes)
  | str
  | uint256 (b : Bytes)
  | cvalue (c : Bytes)
  | casset (c : Bytes)
  | cnonce (c : Bytes)
  | issuance (i : Issuance)
  | stack (s : List Bytes)
  | inWit (w : TxInWitness)
  | outWit (w : TxOutWitness)
  | list (l : List PyVal)
  | txWit (w : TxWitness)

/-- A list of `bytes` objects. -/
def bytesItems : List PyVal → Option (List Bytes)
  | [] => some []
  | .bytes b :: l => (bytesItems l).map (b :: ·)
  | _ => none

/-- A list of input witnesses. -/
def inWitItems : List PyVal → Option (List TxInWitness)
  | [] => some []
  | .inWit b :: l => (inWitItems l).map (b :: ·)
  | _ => none

/-- A list of output witnesses. -/
def outWitItems : List PyVal → Option (List TxOutWitness)
  | [] => some []
  | .outWit b :: l => (outWitItems l).map (b :: ·)
  | _ => none

/-- `CAssetIssuance(*args)`, core/__init__.py:757-769: up to four arguments, by position; each must
be of its class. -/
def issuanceCall : List PyVal → Except PyErr PyVal
  | [] => .ok (.issuance {})
  | [.uint256 n] => .ok (.issuance { assetBlindingNonce := n })
  | [.uint256 n, .uint256 e] => .ok (.issuance { assetBlindingNonce := n, assetEntropy := e })
  | [.uint256 n, .uint256 e, .cvalue a] => .ok (.issuance { assetBlindingNonce := n, assetEntropy := e, nAmount := a })
  | [.uint256 n, .uint256 e, .cvalue a, .cvalue k] => .ok (.issuance ⟨n, e, a, k⟩)
  | _ => .error .typeError

/-- `CConfidentialValue(*args)`, core/__init__.py:362-371. -/
def valueCall : List PyVal → Except PyErr PyVal
  | [] => (confNew valueKind []).map .cvalue
  | [.int v] => (valueFromAmount v).map .cvalue
  | [.bytes b] => (confNew valueKind b).map .cvalue
  | _ => .error .typeError

/-- `CConfidentialAsset(*args)`, core/__init__.py:332-342. -/
def assetCall : List PyVal → Except PyErr PyVal
  | [] => (confNew assetKind []).map .casset
  | [.uint256 a] => (assetFromAsset a).map .casset
  | [.bytes b] => (confNew assetKind b).map .casset
  | _ => .error .typeError

/-- `CConfidentialNonce(*args)`, core/__init__.py:233-241. -/
def nonceCall : List PyVal → Except PyErr PyVal
  | [] => (confNew nonceKind []).map .cnonce
  | [.bytes b] => (confNew nonceKind b).map .cnonce
  | _ => .error .typeError

/-- `CAsset(*args)`: `Uint256.__init__` of python-bitcointx, which takes bytes. -/
def casCall : List PyVal → Except PyErr PyVal
  | [] => .ok (.uint256 zero32)
  | [.bytes b] => (assetNew b).map .uint256
  | _ => .error .typeError

/-- `CScriptWitness(*args)` (python-bitcointx). -/
def stackCall : List PyVal → Except PyErr PyVal
  | [] => .ok (.stack [])
  | [.list l] => (match bytesItems l with | some s => .ok (.stack s) | none => .error .typeError)
  | _ => .error .typeError

/-- `CElementsTxInWitness(*args)`, core/__init__.py:444-463. -/
def inWitCall : List PyVal → Except PyErr PyVal
  | [] => .ok (.inWit {})
  | [.stack s] => .ok (.inWit { scriptWitness := s })
  | [.stack s, .bytes a] => .ok (.inWit { scriptWitness := s, issuanceAmountRangeproof := a })
  | [.stack s, .bytes a, .bytes k] =>
    .ok (.inWit { scriptWitness := s, issuanceAmountRangeproof := a, inflationKeysRangeproof := k })
  | [.stack s, .bytes a, .bytes k, .stack p] => .ok (.inWit ⟨s, a, k, p⟩)
  | _ => .error .typeError

/-- `CElementsTxOutWitness(*args)`, core/__init__.py:552-557. -/
def outWitCall : List PyVal → Except PyErr PyVal
  | [] => .ok (.outWit {})
  | [.bytes s] => .ok (.outWit { surjectionproof := s })
  | [.bytes s, .bytes r] => .ok (.outWit ⟨s, r⟩)
  | _ => .error .typeError

/-- `CElementsTxWitness(*args)` with both arguments, core/__init__.py:649-663. -/
def txWitCall : List PyVal → Except PyErr PyVal
  | [.list i, .list o] =>
    (match inWitItems i, outWitItems o with
     | some i, some o => .ok (.txWit ⟨i, o⟩)
     | _, _ => .error .typeError)
  | _ => .error .typeError

/-- Calling a class with evaluated arguments.  Outpoints, inputs and outputs are printed but not
evaluated here. -/
def callCls : Cls → List PyVal → Except PyErr PyVal
  | .value, args => valueCall args
  | .asset, args => assetCall args
  | .nonce, args => nonceCall args
  | .cas, args => casCall args
  | .issuance, args => issuanceCall args
  | .stack, args => stackCall args
  | .inWit, args => inWitCall args
  | .outWit, args => outWitCall args
  | .txWit, args => txWitCall args
  | .outPoint, _ => .error .notImplemented
  | .txIn, _ => .error .notImplemented
  | .txOut, _ => .error .notImplemented

mutual
/-- `eval` of a printed expression, arguments from left to right. -/
def PyExpr.eval : PyExpr → Except PyErr PyVal
  | .int v => .ok (.int v)
  | .hex n => .ok (.int n)
  | .bytes b => .ok (.bytes b)
  | .lx b => .ok (.bytes b)
  | .quoted _ => .ok .str
  | .call c args => (evalSeq args).bind (callCls c)
  | .list items => (evalSeq items).map .list
  | _ => .error .nameError
def evalSeq : List PyExpr → Except PyErr (List PyVal)
  | [] => .ok []
  | e :: es => e.eval.bind fun v => (evalSeq es).map (v :: ·)
end

end Verif
