import Verif.Tx
/-
Objects in memory: who shares what with whom.

Python objects are cells of a heap and refer to each other by index.  A `bytearray` is an
address in a separate store, since its content may change in place; `bytes` are values.
The lists held by mutable objects belong to the object holding them: editing such a list
is an update of that object.

From python-bitcointx come `to_mutable`/`to_immutable`/`clone` (`from_instance` of the other
class), `_from_instance` (the object itself if it and the wanted class are both immutable,
else a new object made of the arguments), the constructors of `CTxIn` and `CTransaction`
(they convert what they are given with `from_outpoint`, `from_txin`, `from_txout`,
`from_witness`), and the rule that these names mean the mutable classes inside methods of
mutable classes.  Attributes of immutable objects cannot be assigned.
-/
namespace Verif

/-- Contents of `bytearray`s by address. -/
abbrev Mem := Nat → Bytes

/-- `Union[bytes, bytearray]`. -/
inductive Buf
  | bytes (b : Bytes)
  | array (addr : Nat)
  deriving DecidableEq, Repr

def Buf.read (m : Mem) : Buf → Bytes
  | .bytes b => b
  | .array a => m a

/-- `bytes(x)`. -/
def Buf.freeze (m : Mem) (b : Buf) : Buf := .bytes (b.read m)

/-- Replacing the content of one `bytearray`. -/
def Mem.write (m : Mem) (w : Nat × Bytes) : Mem := fun a => if a = w.1 then w.2 else m a

/-! ### Constructors that take buffers -/

/-- A confidential commitment object: its attribute `commitment`. -/
structure ConfObj where
  commitment : Buf

/-- `CConfidentialCommitmentBase.__init__`, core/__init__.py:233-241. -/
def confInit (k : ConfKind) (m : Mem) (c : Buf) : Except PyErr ConfObj :=
  if (c.read m).length = 0 ∨ (c.read m).length = k.explicitSize ∨ (c.read m).length = committedSize then
    .ok ⟨c.freeze m⟩
  else .error .valueError

/-- `CElementsTxInWitness.__init__`, core/__init__.py:441-459: the two proofs as stored. -/
def txInWitnessInit (m : Mem) (amountProof keysProof : Buf) : Buf × Buf := (amountProof.freeze m, keysProof.freeze m)

/-- `CElementsTxOutWitness.__init__`, core/__init__.py:549-554: the two proofs as stored. -/
def txOutWitnessInit (_ : Mem) (surjectionproof rangeproof : Buf) : Buf × Buf := (surjectionproof, rangeproof)

/-! ### The heap -/

abbrev Ref := Nat

/-- Attributes of an object, core/__init__.py:427-428, 538, 635, 806-807, 937, 1059 and
`COutPoint`. -/
inductive Body
  | outpoint (hash : Bytes) (n : Nat)
  | txin (prevout : Ref) (scriptSig : Bytes) (nSequence : Nat) (assetIssuance : Issuance) (isPegin : Bool)
  | txout (nValue scriptPubKey nAsset nNonce : Bytes)
  | inwit (scriptWitness : List Bytes) (amountProof keysProof : Buf) (peginWitness : List Bytes)
  | outwit (surjectionproof rangeproof : Buf)
  | wit (vtxinwit vtxoutwit : List Ref)
  | tx (nVersion : Int) (vin vout : List Ref) (nLockTime : Nat) (wit : Ref)
  deriving DecidableEq

/-- An object: whether its class is mutable, and its attributes. -/
structure ObjCell where
  mutable : Bool
  body : Body
  deriving DecidableEq

abbrev Heap := List ObjCell

/-- Objects an object refers to. -/
def Body.refs : Body → List Ref
  | .txin p .. => [p]
  | .wit i o => i ++ o
  | .tx _ i o _ w => i ++ o ++ [w]
  | _ => []

/-! ### `from_instance`

`mt` says whether the wanted class is the mutable one. -/

/-- `COutPoint.from_outpoint` (python-bitcointx). -/
def copyOutPoint (mt : Bool) (h : Heap) (r : Ref) : Except PyErr (Ref × Heap) :=
  match h[r]? with
  | some ⟨c, .outpoint x n⟩ =>
    if !mt && !c then .ok (r, h)
    else
      match outPointNew x n with
      | .error e => .error e
      | .ok o => .ok (h.length, h ++ [⟨mt, .outpoint o.hash o.n⟩])
  | _ => .error .typeError

/-- `CElementsTxIn.from_instance`, core/__init__.py:901-909, with `CElementsTxIn.__init__`,
core/__init__.py:819-832, and `CTxIn.__init__`, which converts the outpoint once more. -/
def copyTxIn (mt : Bool) (h : Heap) (r : Ref) : Except PyErr (Ref × Heap) :=
  match h[r]? with
  | some ⟨c, .txin p s q i g⟩ =>
    match copyOutPoint mt h p with
    | .error e => .error e
    | .ok (p1, h1) =>
      if !mt && !c then .ok (r, h1)
      else
        match copyOutPoint mt h1 p1 with
        | .error e => .error e
        | .ok (p2, h2) => .ok (h2.length, h2 ++ [⟨mt, .txin p2 s q i g⟩])
  | _ => .error .typeError

/-- `CElementsTxOut.from_instance`, core/__init__.py:1021-1026, with `__init__`,
core/__init__.py:949-971. -/
def copyTxOut (mt : Bool) (h : Heap) (r : Ref) : Except PyErr (Ref × Heap) :=
  match h[r]? with
  | some ⟨c, .txout v s a n⟩ => if !mt && !c then .ok (r, h) else .ok (h.length, h ++ [⟨mt, .txout v s a n⟩])
  | _ => .error .typeError

/-- `CElementsTxInWitness.from_instance`, core/__init__.py:488-496, with `__init__`,
core/__init__.py:441-459. -/
def copyInWit (m : Mem) (mt : Bool) (h : Heap) (r : Ref) : Except PyErr (Ref × Heap) :=
  match h[r]? with
  | some ⟨c, .inwit s a k p⟩ =>
    if !mt && !c then .ok (r, h)
    else
      let x := txInWitnessInit m a k
      .ok (h.length, h ++ [⟨mt, .inwit s x.1 x.2 p⟩])
  | _ => .error .typeError

/-- `CElementsTxOutWitness.from_instance`, core/__init__.py:594-600, with `__init__`,
core/__init__.py:549-554. -/
def copyOutWit (m : Mem) (mt : Bool) (h : Heap) (r : Ref) : Except PyErr (Ref × Heap) :=
  match h[r]? with
  | some ⟨c, .outwit s p⟩ =>
    if !mt && !c then .ok (r, h)
    else
      let x := txOutWitnessInit m s p
      .ok (h.length, h ++ [⟨mt, .outwit x.1 x.2⟩])
  | _ => .error .typeError

/-- `[f(x) for x in l]`. -/
def copyList (f : Heap → Ref → Except PyErr (Ref × Heap)) : Heap → List Ref → Except PyErr (List Ref × Heap)
  | h, [] => .ok ([], h)
  | h, r :: rs =>
    match f h r with
    | .error e => .error e
    | .ok (r', h1) =>
      match copyList f h1 rs with
      | .error e => .error e
      | .ok (rs', h2) => .ok (r' :: rs', h2)

/-- `CElementsTxWitness.from_instance`, core/__init__.py:708-712, with `__init__`,
core/__init__.py:646-663. -/
def copyWit (m : Mem) (mt : Bool) (h : Heap) (r : Ref) : Except PyErr (Ref × Heap) :=
  match h[r]? with
  | some ⟨c, .wit i o⟩ =>
    if !mt && !c then .ok (r, h)
    else
      match copyList (copyInWit m mt) h i with
      | .error e => .error e
      | .ok (i', h1) =>
        match copyList (copyOutWit m mt) h1 o with
        | .error e => .error e
        | .ok (o', h2) => .ok (h2.length, h2 ++ [⟨mt, .wit i' o'⟩])
  | _ => .error .typeError

/-! ### What an object shows -/

def viewOutPoint (h : Heap) (r : Ref) : Option OutPoint :=
  match h[r]? with
  | some ⟨_, .outpoint x n⟩ => some ⟨x, n⟩
  | _ => none

def viewTxIn (h : Heap) (r : Ref) : Option TxIn :=
  match h[r]? with
  | some ⟨_, .txin p s q i g⟩ => (viewOutPoint h p).map fun o => ⟨o, s, q, i, g⟩
  | _ => none

def viewTxOut (h : Heap) (r : Ref) : Option TxOut :=
  match h[r]? with
  | some ⟨_, .txout v s a n⟩ => some ⟨v, s, a, n⟩
  | _ => none

def viewInWit (m : Mem) (h : Heap) (r : Ref) : Option TxInWitness :=
  match h[r]? with
  | some ⟨_, .inwit s a k p⟩ => some ⟨s, a.read m, k.read m, p⟩
  | _ => none

def viewOutWit (m : Mem) (h : Heap) (r : Ref) : Option TxOutWitness :=
  match h[r]? with
  | some ⟨_, .outwit s p⟩ => some ⟨s.read m, p.read m⟩
  | _ => none

def viewAll {α} (f : Ref → Option α) : List Ref → Option (List α)
  | [] => some []
  | r :: rs =>
    match f r, viewAll f rs with
    | some x, some xs => some (x :: xs)
    | _, _ => none

def viewWit (m : Mem) (h : Heap) (r : Ref) : Option TxWitness :=
  match h[r]? with
  | some ⟨_, .wit i o⟩ =>
    match viewAll (viewInWit m h) i, viewAll (viewOutWit m h) o with
    | some i, some o => some ⟨i, o⟩
    | _, _ => none
  | _ => none

def viewTx (m : Mem) (h : Heap) (r : Ref) : Option Tx :=
  match h[r]? with
  | some ⟨_, .tx v i o l w⟩ =>
    match viewAll (viewTxIn h) i, viewAll (viewTxOut h) o, viewWit m h w with
    | some i, some o, some w => some ⟨v, i, o, l, w⟩
    | _, _, _ => none
  | _ => none

/-! ### Transactions -/

/-- `CTxWitness([CTxInWitness() for …], [CTxOutWitness() for …])`. -/
def freshWit (mt : Bool) (h : Heap) (nin nout : Nat) : Ref × Heap :=
  let h1 := h ++ List.replicate nin ⟨mt, .inwit [] (.bytes []) (.bytes []) []⟩
  let h2 := h1 ++ List.replicate nout ⟨mt, .outwit (.bytes []) (.bytes [])⟩
  (h2.length, h2 ++ [⟨mt, .wit ((List.range nin).map (h.length + ·)) ((List.range nout).map (h1.length + ·))⟩])

/-- The witness `CTransaction.__init__` stores: `from_witness` of the given one.  `renew` says
that a null witness is replaced by empty witnesses, one per input and output; both
possibilities are covered. -/
def initWit (renew : Bool) (m : Mem) (mt : Bool) (h : Heap) (w : Ref) (nin nout : Nat) : Except PyErr (Ref × Heap) :=
  match viewWit m h w with
  | none => .error .typeError
  | some x => if renew && x.isNull then .ok (freshWit mt h nin nout) else copyWit m mt h w

/-- `from_instance` of transaction classes (python-bitcointx), which the classes at
core/__init__.py:1058-1069 and 1147-1160 inherit. -/
def copyTx (renew : Bool) (m : Mem) (mt : Bool) (h : Heap) (r : Ref) : Except PyErr (Ref × Heap) :=
  match h[r]? with
  | some ⟨c, .tx v i o l w⟩ =>
    if !mt && !c then .ok (r, h)
    else
      match copyList (copyTxIn mt) h i with
      | .error e => .error e
      | .ok (i', h1) =>
        match copyList (copyTxOut mt) h1 o with
        | .error e => .error e
        | .ok (o', h2) =>
          match initWit renew m mt h2 w i'.length o'.length with
          | .error e => .error e
          | .ok (w', h3) => .ok (h3.length, h3 ++ [⟨mt, .tx v i' o' l w'⟩])
  | _ => .error .typeError

/-! ### What may happen to objects -/

/-- One step of a program using the objects. -/
inductive Act
  /-- assigning attributes of an object, or editing a list it holds: its new attributes -/
  | set (r : Ref) (b : Body)
  /-- making an object -/
  | new (c : ObjCell)
  /-- changing a `bytearray` in place -/
  | poke (addr : Nat) (b : Bytes)

/-- Assignments to immutable objects raise and change nothing. -/
def actHeap (h : Heap) : Act → Heap
  | .set r b =>
    match h[r]? with
    | some ⟨true, _⟩ => h.set r ⟨true, b⟩
    | _ => h
  | .new c => h ++ [c]
  | .poke .. => h

def actMem (m : Mem) : Act → Mem
  | .poke a b => m.write (a, b)
  | _ => m

def runHeap (h : Heap) (as : List Act) : Heap := as.foldl actHeap h
def runMem (m : Mem) (as : List Act) : Mem := as.foldl actMem m

end Verif
