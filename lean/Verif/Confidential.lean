import Verif.Types
import Verif.Serialize
/-
Confidential field classes, core/__init__.py:221-396.
-/
namespace Verif

/-- Class attributes `_explicitSize`, `_prefixA`, `_prefixB` (core/__init__.py:225-227). -/
structure ConfKind where
  explicitSize : Nat
  prefixA : UInt8
  prefixB : UInt8

/-- `CConfidentialAsset`, core/__init__.py:328-330. -/
def assetKind : ConfKind := ⟨33, 10, 11⟩
/-- `CConfidentialValue`, core/__init__.py:358-360. -/
def valueKind : ConfKind := ⟨9, 8, 9⟩
/-- `CConfidentialNonce`, core/__init__.py:387-389. -/
def nonceKind : ConfKind := ⟨33, 2, 3⟩

/-- `_committedSize`, core/__init__.py:229. -/
def committedSize : Nat := 33

/-- `CConfidentialCommitmentBase.__init__`, core/__init__.py:233-241. -/
def confNew (k : ConfKind) (c : Bytes) : Except PyErr Bytes :=
  if c.length = 0 ∨ c.length = k.explicitSize ∨ c.length = committedSize then .ok c
  else .error .valueError

/-- How many bytes the marker byte announces, core/__init__.py:248-256. -/
def confReadSize (k : ConfKind) (v : UInt8) : P Nat :=
  if v = 0 then pure 0
  else if v = 1 then pure k.explicitSize
  else if v = k.prefixA ∨ v = k.prefixB then pure committedSize
  else P.raise .witnessSerialization

/-- The commitment bytes, core/__init__.py:258-261. -/
def confReadRest (v : UInt8) (readSize : Nat) : P Bytes :=
  if readSize > 0 then do
    let rest ← serRead (readSize - 1)
    return v :: rest
  else return []

/-- `stream_deserialize`, core/__init__.py:244-263. -/
def readConf (k : ConfKind) : P Bytes := do
  let version ← serRead 1
  let v := version.headD 0
  let readSize ← confReadSize k v
  let commitment ← confReadRest v readSize
  fun s => (confNew k commitment).map (·, s)

/-- `stream_serialize`, core/__init__.py:265-269. -/
def serConf (c : Bytes) : Bytes := if c.length ≠ 0 then c else [0]

/-- `is_null`, core/__init__.py:272-273. -/
def confIsNull (c : Bytes) : Bool := c.length == 0

/-- `is_explicit`, core/__init__.py:276-278. -/
def confIsExplicit (k : ConfKind) (c : Bytes) : Bool :=
  c.length == k.explicitSize && c.head? == some 1

/-- `is_commitment`, core/__init__.py:281-283. -/
def confIsCommitment (k : ConfKind) (c : Bytes) : Bool :=
  c.length == committedSize && (c.head? == some k.prefixA || c.head? == some k.prefixB)

/-- `is_valid`, core/__init__.py:286-287. -/
def confIsValid (k : ConfKind) (c : Bytes) : Bool :=
  confIsNull c || confIsExplicit k c || confIsCommitment k c

/-- `CConfidentialValue(int)`, core/__init__.py:366-370. -/
def valueFromAmount (v : Int) : Except PyErr Bytes := do
  let b ← packSBE 8 v
  confNew valueKind (1 :: b)

/-- `CConfidentialValue.to_amount`, core/__init__.py:377-380. -/
def valueToAmount (c : Bytes) : Except PyErr Int :=
  if confIsExplicit valueKind c then .ok (untwos 8 (beVal (c.drop 1)))
  else .error .typeError

/-- `CAsset(data)` — `Uint256.__init__` of python-bitcointx: 32 bytes required. -/
def assetNew (d : Bytes) : Except PyErr Bytes :=
  if d.length = 32 then .ok d else .error .valueError

/-- `CConfidentialAsset(CAsset)`, core/__init__.py:337-341. -/
def assetFromAsset (a : Bytes) : Except PyErr Bytes := confNew assetKind (1 :: a)

/-- `CConfidentialAsset.to_asset`, core/__init__.py:348-351. -/
def assetToAsset (c : Bytes) : Except PyErr Bytes :=
  if confIsExplicit assetKind c then assetNew (c.drop 1)
  else .error .typeError

end Verif
