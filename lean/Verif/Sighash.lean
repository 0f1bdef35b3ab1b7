import Verif.Hash
import Verif.Script
/-
Signature hashes: core/script.py:113-378 and the legacy algorithm of
python-bitcointx that SIGVERSION_BASE is delegated to.

A preimage is built from the strings that are hashed on the way, which are kept in a
structure of their own so that statements about collisions can name them.
-/
namespace Verif

/-- Python list indexing: negative indices count from the end. -/
def pyGet {α : Type} (l : List α) (i : Int) : Except PyErr α :=
  let j := if i < 0 then i + l.length else i
  if j < 0 then .error .indexError
  else match l[j.toNat]? with
    | some x => .ok x
    | none => .error .indexError

def SIGHASH_ALL : Nat := 1
def SIGHASH_NONE : Nat := 2
def SIGHASH_SINGLE : Nat := 3
def SIGHASH_ANYONECANPAY : Nat := 0x80

/-- `SIGVERSION_*` constants of python-bitcointx. -/
inductive SigVersion | base | witnessV0 | taproot | tapscript
  deriving DecidableEq, Repr

/-- `hashtype & SIGHASH_ANYONECANPAY`. -/
def htAcp (ht : Nat) : Bool := ht &&& SIGHASH_ANYONECANPAY != 0
/-- `(hashtype & 0x1f) == SIGHASH_SINGLE`. -/
def htSingle (ht : Nat) : Bool := ht &&& 0x1f == SIGHASH_SINGLE
/-- `(hashtype & 0x1f) == SIGHASH_NONE`. -/
def htNone (ht : Nat) : Bool := ht &&& 0x1f == SIGHASH_NONE

/-- Issuance bytes in a signature hash: a zero byte if null. -/
def issuanceOrZero (i : Issuance) : Bytes := if i.isNull then [0] else serIssuance i

/-! ### Segwit v0 -/

/-- Strings hashed separately; `none` leaves 32 zero bytes, core/script.py:142-145. -/
structure V0Parts where
  prevouts : Option Bytes
  issuance : Option Bytes
  sequence : Option Bytes
  outputs : Option Bytes
  deriving DecidableEq, Repr

/-- core/script.py:147-156. -/
def v0Prevouts (tx : Tx) (ht : Nat) : Except PyErr (Option Bytes) :=
  if !htAcp ht then (serN (fun i : TxIn => serOutPoint i.prevout) tx.vin).map some else .ok none

/-- core/script.py:149-157. -/
def v0Issuance (tx : Tx) (ht : Nat) : Option Bytes :=
  if !htAcp ht then some (tx.vin.map (fun i => issuanceOrZero i.assetIssuance)).flatten else none

/-- core/script.py:159-163. -/
def v0Sequence (tx : Tx) (ht : Nat) : Except PyErr (Option Bytes) :=
  if !htAcp ht && !htSingle ht && !htNone ht then
    (serN (fun i : TxIn => packU 4 i.nSequence) tx.vin).map some
  else .ok none

/-- core/script.py:165-172. -/
def v0Outputs (tx : Tx) (inIdx : Int) (ht : Nat) : Except PyErr (Option Bytes) :=
  if !htSingle ht && !htNone ht then (serN serTxOut tx.vout).map some
  else if htSingle ht && decide (inIdx < tx.vout.length) then do
    let o ← pyGet tx.vout inIdx
    (serTxOut o).map some
  else .ok none

/-- core/script.py:147-172. -/
def v0Parts (tx : Tx) (inIdx : Int) (ht : Nat) : Except PyErr V0Parts := do
  let prevouts ← v0Prevouts tx ht
  let sequence ← v0Sequence tx ht
  let outputs ← v0Outputs tx inIdx ht
  return ⟨prevouts, v0Issuance tx ht, sequence, outputs⟩

/-- Hash of an optional part. -/
def partHash (h : HashFn) : Option Bytes → Bytes
  | none => zero32
  | some x => h.dbl x

/-- core/script.py:174-187.  The lock time is packed as a signed integer. -/
def v0Preimage (h : HashFn) (script : Bytes) (tx : Tx) (inIdx : Int) (ht : Nat) (amount : Bytes)
    (p : V0Parts) : Except PyErr Bytes := do
  let v ← packS 4 tx.nVersion
  let i ← pyGet tx.vin inIdx
  let o ← serOutPoint i.prevout
  let s ← serVarBytes script
  let q ← packU 4 i.nSequence
  let iss := if !i.assetIssuance.isNull then serIssuance i.assetIssuance else []
  let l ← packS 4 (tx.nLockTime : Int)
  let t ← packS 4 (ht : Int)
  return v ++ partHash h p.prevouts ++ partHash h p.sequence ++ partHash h p.issuance
    ++ o ++ s ++ amount ++ q ++ iss ++ partHash h p.outputs ++ l ++ t

/-- `RawElementsSignatureHash` for SIGVERSION_WITNESS_V0, core/script.py:139-191. -/
def sighashV0 (h : HashFn) (script : Bytes) (tx : Tx) (inIdx : Int) (ht : Nat) (amount : Option Bytes) :
    Except PyErr Bytes :=
  match amount with
  | none => .error .typeError
  | some a => do
    let p ← v0Parts tx inIdx ht
    let pre ← v0Preimage h script tx inIdx ht a p
    return h.dbl pre

/-! ### Legacy -/

/-- `b'\x01' + b'\x00' * 31`. -/
def hashOne : Bytes := 1 :: List.replicate 31 0

/-- Sequence numbers of other inputs zeroed (NONE and SINGLE). -/
def zeroOtherSeq (inIdx : Int) (vin : List TxIn) : List TxIn :=
  vin.mapIdx fun k i => if (k : Int) = inIdx then i else { i with nSequence := 0 }

/-- Outputs kept by the legacy algorithm (python-bitcointx). -/
def legacyVout (tx : Tx) (inIdx : Int) (ht : Nat) : Except PyErr (List TxOut) :=
  if htNone ht then .ok []
  else if htSingle ht then do
    let o ← pyGet tx.vout inIdx
    return List.replicate inIdx.toNat ({} : TxOut) ++ [o]
  else .ok tx.vout

/-- Inputs with the script code in place of the signed scriptSig and all others blanked. -/
def legacyScripts (code : Bytes) (tx : Tx) (inIdx : Int) : List TxIn :=
  let pos := if inIdx < 0 then inIdx + tx.vin.length else inIdx
  tx.vin.mapIdx fun k i => if (k : Int) = pos then { i with scriptSig := code } else { i with scriptSig := [] }

/-- ANYONECANPAY keeps only the signed input. -/
def legacyAcp (vin : List TxIn) (inIdx : Int) (ht : Nat) : Except PyErr (List TxIn) :=
  if htAcp ht then (pyGet vin inIdx).map ([·]) else .ok vin

/-- `RawBitcoinSignatureHash` for SIGVERSION_BASE (python-bitcointx), applied to an
Elements transaction.  The second component says whether an error string came with the
constant hash. -/
def sighashBase (h : HashFn) (script : Bytes) (tx : Tx) (inIdx : Int) (ht : Nat) :
    Except PyErr (Bytes × Bool) :=
  if inIdx ≥ tx.vin.length then .ok (hashOne, true)
  else do
    let _ ← pyGet tx.vin inIdx
    let code ← legacyScriptCode script
    let vin := legacyScripts code tx inIdx
    if htSingle ht && decide (inIdx ≥ tx.vout.length) then return (hashOne, true)
    else
      let vout ← legacyVout tx inIdx ht
      let vin := if htNone ht || htSingle ht then zeroOtherSeq inIdx vin else vin
      let vin ← legacyAcp vin inIdx ht
      let s ← serTx false true { tx with vin := vin, vout := vout, wit := {} }
      let t ← packS 4 (ht : Int)
      return (h.dbl (s ++ t), false)

/-- `RawElementsSignatureHash`, core/script.py:113-191. -/
def rawSighash (h : HashFn) (script : Bytes) (tx : Tx) (inIdx : Int) (ht : Nat) (amount : Option Bytes)
    (sv : SigVersion) : Except PyErr (Bytes × Bool) :=
  match sv with
  | .base => sighashBase h script tx inIdx ht
  | .witnessV0 => (sighashV0 h script tx inIdx ht amount).map (·, false)
  | _ => .error .valueError

/-- `SIGHASH_Type(hashtype)` (python-bitcointx): ALL, NONE or SINGLE, with or without
ANYONECANPAY. -/
def sighashTypeNew (ht : Nat) : Except PyErr Nat :=
  if ht = 1 ∨ ht = 2 ∨ ht = 3 ∨ ht = 0x81 ∨ ht = 0x82 ∨ ht = 0x83 then .ok ht else .error .valueError

/-- `CElementsScript.sighash`, core/script.py:396-408; `raw_sighash`, lines 413-427, passes its arguments on. -/
def sighash (h : HashFn) (script : Bytes) (tx : Tx) (inIdx : Int) (ht : Nat) (amount : Option Bytes)
    (sv : SigVersion) : Except PyErr Bytes := do
  let ht ← sighashTypeNew ht
  let (d, err) ← rawSighash h script tx inIdx ht amount sv
  if err then throw .valueError
  return d

/-! ### Taproot -/

/-- `SIGHASH_Type` objects: output type and ANYONECANPAY bit.  The class admits no other
values. -/
inductive OutType | all | none | single
  deriving DecidableEq, Repr
structure HashType where
  out : OutType
  acp : Bool
  deriving DecidableEq, Repr

/-- `bytes([hashtype])`. -/
def HashType.byte (t : HashType) : UInt8 :=
  (match t.out with | .all => 1 | .none => 2 | .single => 3) + if t.acp then 0x80 else 0

/-- `get_outpoint_flag`, core/script.py:264-273. -/
def outpointFlag (i : TxIn) : Bytes :=
  let opf := if !i.assetIssuance.isNull then 0 ||| OUTPOINT_ISSUANCE_FLAG else 0
  let opf := if i.isPegin then opf ||| OUTPOINT_PEGIN_FLAG else opf
  [UInt8.ofNat (opf >>> 24)]

/-- Pair every input with its witness: `txTo.wit.vtxinwit[inp_i]` raises IndexError when
the vector is too short. -/
def zipWit {α β : Type} : List α → List β → Except PyErr (List (α × β))
  | [], _ => .ok []
  | _ :: _, [] => .error .indexError
  | x :: xs, y :: ys => (zipWit xs ys).map ((x, y) :: ·)

/-- Strings hashed when ANYONECANPAY is not set, core/script.py:275-315.  The loop of the
code feeds several hash objects at once; here they are produced one after the other, so
that only the exception chosen when several would be raised may differ. -/
structure TapInputs where
  flags : Bytes
  prevouts : Bytes
  assets : Bytes
  scripts : Bytes
  sequences : Bytes
  issuances : Bytes
  proofs : Bytes
  deriving DecidableEq, Repr

/-- core/script.py:284-302. -/
def tapInputs (tx : Tx) (spent : List TxOut) : Except PyErr TapInputs := do
  let assets := (spent.map fun o => serConf o.nAsset ++ serConf o.nValue).flatten
  let scripts ← serN (fun o : TxOut => serVarBytes o.scriptPubKey) spent
  let prevouts ← serN (fun i : TxIn => serOutPoint i.prevout) tx.vin
  let sequences ← serN (fun i : TxIn => packU 4 i.nSequence) tx.vin
  let issuances := (tx.vin.map fun i => issuanceOrZero i.assetIssuance).flatten
  let wit ← zipWit tx.vin tx.wit.vtxinwit
  let proofs ← serN (fun p : TxIn × TxInWitness => do
    let a ← serVarBytes p.2.issuanceAmountRangeproof
    let k ← serVarBytes p.2.inflationKeysRangeproof
    return a ++ k) wit
  return ⟨(tx.vin.map outpointFlag).flatten, prevouts, assets, scripts, sequences, issuances, proofs⟩

/-- Strings hashed for the outputs under ALL, core/script.py:317-327. -/
structure TapOutputs where
  outputs : Bytes
  witnesses : Bytes
  deriving DecidableEq, Repr

/-- core/script.py:321-324. -/
def tapOutputs (tx : Tx) : Except PyErr TapOutputs := do
  let outputs ← serN serTxOut tx.vout
  let wit ← zipWit tx.vout tx.wit.vtxoutwit
  let witnesses ← serN (fun p : TxOut × TxOutWitness => serTxOutWitness p.2) wit
  return ⟨outputs, witnesses⟩

/-- The signed input under ANYONECANPAY, core/script.py:336-354.  First component: what is
written before the hash of the rangeproofs, second: the rangeproof string, if any. -/
structure TapSigned where
  head : Bytes
  proofs : Option Bytes
  deriving DecidableEq, Repr

/-- Issuance of the signed input and its rangeproofs, core/script.py:345-354. -/
def tapSignedIssuance (tx : Tx) (inIdx : Nat) (i : Issuance) : Except PyErr (Bytes × Option Bytes) :=
  if i.isNull then .ok ([0], none)
  else do
    let w ← pyGet tx.wit.vtxinwit inIdx
    return (serIssuance i, some (w.issuanceAmountRangeproof ++ w.inflationKeysRangeproof))

/-- core/script.py:336-354. -/
def tapSigned (tx : Tx) (inIdx : Nat) (spent : List TxOut) : Except PyErr TapSigned := do
  let i ← pyGet tx.vin inIdx
  let o ← serOutPoint i.prevout
  let s ← pyGet spent inIdx
  let q ← packU 4 i.nSequence
  let r ← tapSignedIssuance tx inIdx i.assetIssuance
  return ⟨outpointFlag i ++ o ++ serConf s.nAsset ++ serConf s.nValue ++ s.scriptPubKey ++ q ++ r.1, r.2⟩

/-- The single output under SINGLE, core/script.py:361-366: the range check lets
`outIdx == len(vout)` through to an IndexError. -/
def tapSingle (tx : Tx) (inIdx : Nat) : Except PyErr TapOutputs :=
  if inIdx > tx.vout.length then .error .valueError
  else do
    let o ← pyGet tx.vout inIdx
    let so ← serTxOut o
    let w ← pyGet tx.wit.vtxoutwit inIdx
    let sw ← serTxOutWitness w
    return ⟨so, sw⟩

/-- Keyword arguments of `ElementsSignatureHashSchnorr`. -/
structure TapArgs where
  hashtype : Option HashType := none
  sigversion : SigVersion := .taproot
  tapleafHash : Option Bytes := none
  codeseparatorPos : Option Int := some (-1)
  annexHash : Option Bytes := none
  genesisHash : Bytes

/-- Everything hashed separately. -/
structure TapParts where
  inputs : Option TapInputs
  outputs : Option TapOutputs
  signed : Option TapSigned
  single : Option TapOutputs
  deriving DecidableEq, Repr

/-- `hashtype` after the default is applied, core/script.py:249-254. -/
def TapArgs.ht (a : TapArgs) : HashType := a.hashtype.getD ⟨.all, false⟩
/-- `hashtype_byte`, core/script.py:249-254. -/
def TapArgs.htByte (a : TapArgs) : UInt8 := match a.hashtype with | none => 0 | some t => t.byte

/-- `x is not None and len(x) != 32`. -/
def badHash : Option Bytes → Bool
  | some t => decide (t.length ≠ 32)
  | none => false

/-- Argument checks, core/script.py:206-241; gives `ext_flag`. -/
def tapCheck (tx : Tx) (inIdx : Int) (spent : List TxOut) (a : TapArgs) : Except PyErr Nat :=
  if inIdx < 0 then .error .valueError
  else if inIdx ≥ tx.vin.length then .error .valueError
  else if badHash a.tapleafHash then .error .valueError
  else if badHash a.annexHash then .error .valueError
  else if a.genesisHash.length ≠ 32 then .error .valueError
  else match a.sigversion with
    | .taproot => if spent.length ≠ tx.vin.length then .error .valueError else .ok 0
    | .tapscript => if spent.length ≠ tx.vin.length then .error .valueError else .ok 1
    | _ => .error .valueError

/-- `x` if the condition holds. -/
def optPart {α : Type} (b : Bool) (x : Except PyErr α) : Except PyErr (Option α) :=
  if b then x.map some else .ok none

/-- Gathers the hashed strings, core/script.py:275-366. -/
def tapParts (tx : Tx) (inIdx : Nat) (spent : List TxOut) (t : HashType) : Except PyErr TapParts := do
  let inputs ← optPart (!t.acp) (tapInputs tx spent)
  let outputs ← optPart (t.out == .all) (tapOutputs tx)
  let signed ← optPart t.acp (tapSigned tx inIdx spent)
  let single ← optPart (t.out == .single) (tapSingle tx inIdx)
  return ⟨inputs, outputs, signed, single⟩

def TapInputs.bytes (h : HashFn) (p : TapInputs) : Bytes :=
  h.fn p.flags ++ h.fn p.prevouts ++ h.fn p.assets ++ h.fn p.scripts ++ h.fn p.sequences
    ++ h.fn p.issuances ++ h.fn p.proofs
def TapOutputs.bytes (h : HashFn) (p : TapOutputs) : Bytes := h.fn p.outputs ++ h.fn p.witnesses
def TapSigned.bytes (h : HashFn) (p : TapSigned) : Bytes :=
  p.head ++ (match p.proofs with | none => [] | some x => h.fn x)

/-- Trailer of a tapscript signature, core/script.py:368-375 (`key_version` is 0). -/
def tapTrailer (a : TapArgs) : Except PyErr Bytes :=
  if a.sigversion = .tapscript then
    match a.tapleafHash, a.codeseparatorPos with
    | none, _ => .error .valueError
    | some _, none => .error .valueError
    | some l, some c => do
      let p ← packS 4 c
      return l ++ [0] ++ p
  else .ok []

/-- core/script.py:329-334. -/
def spendType (ext : Nat) (a : TapArgs) : UInt8 := UInt8.ofNat ((ext <<< 1) + if a.annexHash.isSome then 1 else 0)

/-- core/script.py:355-356. -/
def tapIdx (inIdx : Nat) (a : TapArgs) : Except PyErr Bytes := if a.ht.acp then .ok [] else packU 4 inIdx

/-- core/script.py:358-359. -/
def tapAnnex : Option Bytes → Except PyErr Bytes
  | some x => serVarBytes x
  | none => .ok []

/-- Bytes of an optional part. -/
def optBytes {α : Type} (f : α → Bytes) : Option α → Bytes
  | some x => f x
  | none => []

/-- The string written to `f`, core/script.py:243-375. -/
def tapMessage (h : HashFn) (tx : Tx) (inIdx : Nat) (a : TapArgs) (ext : Nat) (p : TapParts) :
    Except PyErr Bytes := do
  let v ← packS 4 tx.nVersion
  let l ← packU 4 tx.nLockTime
  let idx ← tapIdx inIdx a
  let annex ← tapAnnex a.annexHash
  let trailer ← tapTrailer a
  return [a.htByte] ++ v ++ l ++ optBytes (·.bytes h) p.inputs ++ optBytes (·.bytes h) p.outputs
    ++ [spendType ext a] ++ optBytes (·.bytes h) p.signed ++ idx ++ annex
    ++ optBytes (·.bytes h) p.single ++ trailer

/-- `b'TapSighash/elements'`. -/
def tapSighashTag : Bytes := [84, 97, 112, 83, 105, 103, 104, 97, 115, 104, 47, 101, 108, 101, 109, 101, 110, 116, 115]
/-- `b'TapLeaf/elements'`. -/
def tapLeafTag : Bytes := [84, 97, 112, 76, 101, 97, 102, 47, 101, 108, 101, 109, 101, 110, 116, 115]

/-- `tagged_hasher(tag)` (python-bitcointx, BIP340): SHA256(SHA256(tag) ‖ SHA256(tag) ‖ m). -/
def taggedPreimage (h : HashFn) (tag m : Bytes) : Bytes := h.fn tag ++ h.fn tag ++ m

/-- `ElementsSignatureHashSchnorr`, core/script.py:194-378. -/
def sighashSchnorr (h : HashFn) (tx : Tx) (inIdx : Int) (spent : List TxOut) (a : TapArgs) :
    Except PyErr Bytes := do
  let ext ← tapCheck tx inIdx spent a
  let p ← tapParts tx inIdx.toNat spent a.ht
  let m ← tapMessage h tx inIdx.toNat a ext p
  return h.fn (taggedPreimage h tapSighashTag (a.genesisHash ++ a.genesisHash ++ m))

/-- `CElementsScript.sighash_schnorr`, core/script.py:433-457. -/
def scriptSighashSchnorr (h : HashFn) (script : Bytes) (tx : Tx) (inIdx : Int) (spent : List TxOut)
    (ht : Option HashType) (codesep : Option Int) (annex : Option Bytes) (genesis : Bytes) :
    Except PyErr Bytes := do
  let s ← serVarBytes script
  sighashSchnorr h tx inIdx spent
    { hashtype := ht, sigversion := .tapscript,
      tapleafHash := some (h.fn (taggedPreimage h tapLeafTag ([0xc4] ++ s))),
      codeseparatorPos := codesep, annexHash := annex, genesisHash := genesis }

end Verif
