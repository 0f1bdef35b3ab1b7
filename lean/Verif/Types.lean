import Verif.Bytes
/-
The data held by Elements transaction objects.  Confidential fields are the bytes
of their `commitment` attribute.
-/
namespace Verif

/-- 32 zero bytes: `Uint256()`. -/
def zero32 : Bytes := List.replicate 32 0

/-- `COutPoint` (python-bitcointx): hash and index. -/
structure OutPoint where
  hash : Bytes
  n : Nat
  deriving DecidableEq, Repr, Inhabited

/-- `CAssetIssuance`, core/__init__.py:748-769. -/
structure Issuance where
  assetBlindingNonce : Bytes := zero32
  assetEntropy : Bytes := zero32
  nAmount : Bytes := []
  nInflationKeys : Bytes := []
  deriving DecidableEq, Repr, Inhabited

/-- `CElementsTxIn`, core/__init__.py:806-832. -/
structure TxIn where
  prevout : OutPoint
  scriptSig : Bytes := []
  nSequence : Nat := 0xffffffff
  assetIssuance : Issuance := {}
  isPegin : Bool := false
  deriving DecidableEq, Repr, Inhabited

/-- `CElementsTxOut`, core/__init__.py:937-971. -/
structure TxOut where
  nValue : Bytes := []
  scriptPubKey : Bytes := []
  nAsset : Bytes := []
  nNonce : Bytes := []
  deriving DecidableEq, Repr, Inhabited

/-- `CElementsTxInWitness`, core/__init__.py:424-459.  A `CScriptWitness` is its stack. -/
structure TxInWitness where
  scriptWitness : List Bytes := []
  issuanceAmountRangeproof : Bytes := []
  inflationKeysRangeproof : Bytes := []
  peginWitness : List Bytes := []
  deriving DecidableEq, Repr, Inhabited

/-- `CElementsTxOutWitness`, core/__init__.py:538-555. -/
structure TxOutWitness where
  surjectionproof : Bytes := []
  rangeproof : Bytes := []
  deriving DecidableEq, Repr, Inhabited

/-- `CElementsTxWitness`, core/__init__.py:635-663. -/
structure TxWitness where
  vtxinwit : List TxInWitness := []
  vtxoutwit : List TxOutWitness := []
  deriving DecidableEq, Repr, Inhabited

/-- `CElementsTransaction`, core/__init__.py:1058-1063. -/
structure Tx where
  nVersion : Int
  vin : List TxIn
  vout : List TxOut
  nLockTime : Nat
  wit : TxWitness
  deriving DecidableEq, Repr, Inhabited

end Verif
