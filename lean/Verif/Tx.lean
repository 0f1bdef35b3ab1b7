import Verif.Confidential
/-
Transaction parts and transactions: (de)serialization, core/__init__.py:424-1143.
-/
namespace Verif

/-- `OUTPOINT_ISSUANCE_FLAG`, core/__init__.py:70. -/
def OUTPOINT_ISSUANCE_FLAG : Nat := 1 <<< 31
/-- `OUTPOINT_PEGIN_FLAG`, core/__init__.py:72. -/
def OUTPOINT_PEGIN_FLAG : Nat := 1 <<< 30
/-- `OUTPOINT_INDEX_MASK`, core/__init__.py:76. -/
def OUTPOINT_INDEX_MASK : Nat := 0x3fffffff

/-! ### Issuance -/

/-- `CAssetIssuance.is_null`, core/__init__.py:772-773. -/
def Issuance.isNull (i : Issuance) : Bool := confIsNull i.nAmount && confIsNull i.nInflationKeys

/-- `CAssetIssuance.stream_deserialize`, core/__init__.py:776-782. -/
def readIssuance : P Issuance := do
  let nonce ← serRead 32
  let entropy ← serRead 32
  let amount ← readConf valueKind
  let keys ← readConf valueKind
  return ⟨nonce, entropy, amount, keys⟩

/-- `CAssetIssuance.stream_serialize`, core/__init__.py:784-788. -/
def serIssuance (i : Issuance) : Bytes :=
  i.assetBlindingNonce ++ i.assetEntropy ++ serConf i.nAmount ++ serConf i.nInflationKeys

/-! ### Inputs -/

/-- `COutPoint.__init__` (python-bitcointx): 32-byte hash, index in 32 bits. -/
def outPointNew (hash : Bytes) (n : Nat) : Except PyErr OutPoint :=
  if hash.length ≠ 32 then .error .valueError
  else if n > 0xffffffff then .error .valueError
  else .ok ⟨hash, n⟩

/-- `COutPoint.stream_serialize` (python-bitcointx). -/
def serOutPoint (o : OutPoint) : Except PyErr Bytes := do
  if o.hash.length ≠ 32 then throw .assertion
  let n ← packU 4 o.n
  return o.hash ++ n

/-- `COutPoint.stream_deserialize` (python-bitcointx). -/
def readOutPoint : P OutPoint := do
  let hash ← serRead 32
  let n ← readU 4
  return ⟨hash, n⟩

/-- `CElementsTxIn.stream_deserialize`, core/__init__.py:835-862; the base part is
`CTxIn.stream_deserialize` (outpoint, scriptSig, sequence). -/
def readTxIn : P TxIn := do
  let base ← readOutPoint
  let scriptSig ← readVarBytes
  let nSequence ← readU 4
  if base.n = 0xffffffff then
    return ⟨base, scriptSig, nSequence, {}, false⟩
  else
    let hasIssuance := base.n &&& OUTPOINT_ISSUANCE_FLAG != 0
    let isPegin := base.n &&& OUTPOINT_PEGIN_FLAG != 0
    let prevout : OutPoint := ⟨base.hash, base.n &&& OUTPOINT_INDEX_MASK⟩
    let iss ← if hasIssuance then readIssuance else pure {}
    return ⟨prevout, scriptSig, nSequence, iss, isPegin⟩

/-- The outpoint written by `CElementsTxIn.stream_serialize` and whether an issuance
follows, core/__init__.py:866-880.  `n & ~MASK` on a non-negative int keeps the bits
from 30 up. -/
def wireOutPoint (forSighash : Bool) (i : TxIn) : Except PyErr (OutPoint × Bool) := do
  if i.prevout.n = 0xffffffff then
    return (i.prevout, false)
  else
    if (i.prevout.n >>> 30) <<< 30 ≠ 0 then throw .txInSerialization
    let hasIssuance := !i.assetIssuance.isNull
    let n := i.prevout.n &&& OUTPOINT_INDEX_MASK
    let n :=
      if !forSighash then
        let n := if hasIssuance then n ||| OUTPOINT_ISSUANCE_FLAG else n
        if i.isPegin then n ||| OUTPOINT_PEGIN_FLAG else n
      else n
    let o ← outPointNew i.prevout.hash n
    return (o, hasIssuance)

/-- `CElementsTxIn.stream_serialize`, core/__init__.py:864-887. -/
def serTxIn (forSighash : Bool) (i : TxIn) : Except PyErr Bytes := do
  let (outpoint, hasIssuance) ← wireOutPoint forSighash i
  let o ← serOutPoint outpoint
  let s ← serVarBytes i.scriptSig
  let q ← packU 4 i.nSequence
  let iss := if hasIssuance then serIssuance i.assetIssuance else []
  return o ++ s ++ q ++ iss

/-! ### Outputs -/

/-- `CElementsTxOut.stream_deserialize`, core/__init__.py:974-980. -/
def readTxOut : P TxOut := do
  let nAsset ← readConf assetKind
  let nValue ← readConf valueKind
  let nNonce ← readConf nonceKind
  let scriptPubKey ← readVarBytes
  return ⟨nValue, scriptPubKey, nAsset, nNonce⟩

/-- `CElementsTxOut.stream_serialize`, core/__init__.py:982-986. -/
def serTxOut (o : TxOut) : Except PyErr Bytes := do
  let s ← serVarBytes o.scriptPubKey
  return serConf o.nAsset ++ serConf o.nValue ++ serConf o.nNonce ++ s

/-- `CElementsTxOut.is_null`, core/__init__.py:989-991. -/
def TxOut.isNull (o : TxOut) : Bool :=
  confIsNull o.nAsset && confIsNull o.nValue && confIsNull o.nNonce && o.scriptPubKey.length == 0

/-- `CElementsTxOut.is_fee`, core/__init__.py:994-997. -/
def TxOut.isFee (o : TxOut) : Bool :=
  o.scriptPubKey.length == 0 && confIsExplicit valueKind o.nValue && confIsExplicit assetKind o.nAsset

/-! ### Witnesses -/

/-- `CScriptWitness.stream_deserialize` (python-bitcointx). -/
def readStack : P (List Bytes) := do
  let n ← readVarInt
  readN readVarBytes n

/-- `CScriptWitness.stream_serialize` (python-bitcointx). -/
def serStack (w : List Bytes) : Except PyErr Bytes := do
  let l ← serVarInt w.length
  let b ← serN serVarBytes w
  return l ++ b

/-- `CElementsTxInWitness.is_null`, core/__init__.py:462-466. -/
def TxInWitness.isNull (w : TxInWitness) : Bool :=
  w.issuanceAmountRangeproof.length == 0 && w.inflationKeysRangeproof.length == 0
    && w.scriptWitness.length == 0 && w.peginWitness.length == 0

/-- `CElementsTxInWitness.stream_deserialize`, core/__init__.py:469-476. -/
def readTxInWitness : P TxInWitness := do
  let a ← readVarBytes
  let k ← readVarBytes
  let s ← readStack
  let p ← readStack
  return ⟨s, a, k, p⟩

/-- `CElementsTxInWitness.stream_serialize`, core/__init__.py:478-482. -/
def serTxInWitness (w : TxInWitness) : Except PyErr Bytes := do
  let a ← serVarBytes w.issuanceAmountRangeproof
  let k ← serVarBytes w.inflationKeysRangeproof
  let s ← serStack w.scriptWitness
  let p ← serStack w.peginWitness
  return a ++ k ++ s ++ p

/-- `CElementsTxOutWitness.is_null`, core/__init__.py:558-559. -/
def TxOutWitness.isNull (w : TxOutWitness) : Bool :=
  w.surjectionproof.length == 0 && w.rangeproof.length == 0

/-- `CElementsTxOutWitness.stream_deserialize`, core/__init__.py:562-566. -/
def readTxOutWitness : P TxOutWitness := do
  let s ← readVarBytes
  let r ← readVarBytes
  return ⟨s, r⟩

/-- `CElementsTxOutWitness.stream_serialize`, core/__init__.py:568-570. -/
def serTxOutWitness (w : TxOutWitness) : Except PyErr Bytes := do
  let s ← serVarBytes w.surjectionproof
  let r ← serVarBytes w.rangeproof
  return s ++ r

/-- `CElementsTxWitness.is_null`, core/__init__.py:666-673. -/
def TxWitness.isNull (w : TxWitness) : Bool :=
  w.vtxinwit.all TxInWitness.isNull && w.vtxoutwit.all TxOutWitness.isNull

/-- `CElementsTxWitness.stream_deserialize`, core/__init__.py:676-696 (the two counts
are list lengths, hence never negative). -/
def readTxWitness (numInputs numOutputs : Nat) : P TxWitness := do
  let i ← readN readTxInWitness numInputs
  let o ← readN readTxOutWitness numOutputs
  return ⟨i, o⟩

/-- `CElementsTxWitness.stream_serialize`, core/__init__.py:698-702. -/
def serTxWitness (w : TxWitness) : Except PyErr Bytes := do
  let i ← serN serTxInWitness w.vtxinwit
  let o ← serN serTxOutWitness w.vtxoutwit
  return i ++ o

/-! ### Transactions -/

/-- The witness `CTransaction.__init__` creates when none is given
(python-bitcointx): one empty witness per input and per output. -/
def emptyWitness (nin nout : Nat) : TxWitness :=
  ⟨List.replicate nin {}, List.replicate nout {}⟩

/-- `CElementsTransaction.stream_deserialize`, core/__init__.py:1071-1108. -/
def readTx : P Tx := do
  let nVersion ← readS 4
  let flag ← readU 1
  if flag = 1 then
    let vin ← readVec readTxIn
    let vout ← readVec readTxOut
    let nLockTime ← readU 4
    let wit ← readTxWitness vin.length vout.length
    if wit.isNull then P.raise .valueError
    else return ⟨nVersion, vin, vout, nLockTime, wit⟩
  else
    let vin ← readVec readTxIn
    let vout ← readVec readTxOut
    let nLockTime ← readU 4
    return ⟨nVersion, vin, vout, nLockTime, emptyWitness vin.length vout.length⟩

/-- `CElementsTransaction.deserialize`. -/
def deserializeTx (b : Bytes) : Except PyErr Tx := deserializeAll readTx b

/-- `CElementsTransaction.stream_serialize`, core/__init__.py:1110-1131. -/
def serTx (includeWitness forSighash : Bool) (tx : Tx) : Except PyErr Bytes := do
  let v ← packS 4 tx.nVersion
  if includeWitness && !tx.wit.isNull then
    if !(tx.wit.vtxinwit.length == 0 || tx.wit.vtxinwit.length == tx.vin.length) then
      throw .assertion
    if !(tx.wit.vtxoutwit.length == 0 || tx.wit.vtxoutwit.length == tx.vout.length) then
      throw .assertion
    let i ← serVec (serTxIn false) tx.vin
    let o ← serVec serTxOut tx.vout
    let l ← packU 4 tx.nLockTime
    let w ← serTxWitness tx.wit
    return v ++ [1] ++ i ++ o ++ l ++ w
  else
    let f : Bytes := if !forSighash then [0] else []
    let i ← serVec (serTxIn forSighash) tx.vin
    let o ← serVec serTxOut tx.vout
    let l ← packU 4 tx.nLockTime
    return v ++ f ++ i ++ o ++ l

/-- `tx.serialize()`. -/
def serializeTx (tx : Tx) : Except PyErr Bytes := serTx true false tx

/-- `num_issuances`, core/__init__.py:1134-1143. -/
def numIssuances (tx : Tx) : Nat :=
  tx.vin.foldl (fun acc i =>
    if !i.assetIssuance.isNull then
      let acc := if !confIsNull i.assetIssuance.nAmount then acc + 1 else acc
      if !confIsNull i.assetIssuance.nInflationKeys then acc + 1 else acc
    else acc) 0

end Verif
