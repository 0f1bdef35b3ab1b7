import Verif.CrossSwap
import Verif.Results
import Verif.Sighash
import Verif.Wallet
/-
examples/spend-to-confidential-address.py: spends the first output of a transaction that pays to a
key to a given address.

Reading the files, the command line and the address text are left out: the script is given the
transaction, the secret bytes of the two keys and the address.  Keys are compressed.
-/
namespace Verif.SpendAddr
open Verif CrossSwap

/-- Functions of python-bitcointx and of the elliptic curve the script calls. -/
structure World where
  /-- `Hash160` -/
  hash160 : Bytes → Bytes
  /-- `key.sign` -/
  sign : (key digest : Bytes) → Bytes
  /-- `VerifyScript` raises if it does not accept, lines 261-263 -/
  verify : (scriptSig scriptPubKey : Bytes) → Tx → Except PyErr Unit

structure Args where
  inputTx : Tx
  key : Bytes
  bkey : Bytes
  dst : Addr
  /-- `os.urandom(32)`, line 194 -/
  dummy : Bytes
  rand : Nat → Bytes

/-- State of the loop over the outputs, lines 94-107. -/
structure Found where
  utxo : Option (Nat × TxOut) := none
  fee : Option (Bytes × Int) := none

/-- One output, lines 98-107. -/
def look (spk : Bytes) (n : Nat) (o : TxOut) (f : Found) : Except PyErr Found := do
  let f := if f.utxo.isNone && o.scriptPubKey == spk then { f with utxo := some (n, o) } else f
  if o.isFee then do
    match f.fee with
    | some (asset, _) => if asset ≠ o.nAsset then throw .assertion
    | none => pure ()
    let fee ← valueToAmount o.nValue
    return { f with fee := some (o.nAsset, fee) }
  else return f

/-- The loop, lines 98-107. -/
def scan (spk : Bytes) : Nat → List TxOut → Found → Except PyErr Found
  | _, [], f => .ok f
  | n, o :: os, f => do
    let f ← look spk n o f
    scan spk (n + 1) os f

/-- What is known about the output, lines 123-144; `none` is `sys.exit(-1)`. -/
def describe (E : Env) (a : Args) (n : Nat) (o : TxOut) : Except PyErr (Option Desc) :=
  if confIsExplicit valueKind o.nValue then do
    let amount ← valueToAmount o.nValue
    if !confIsExplicit assetKind o.nAsset then throw .assertion
    let asset ← assetToAsset o.nAsset
    return some ⟨asset, amount, zero32, zero32⟩
  else do
    let w ← pyGet a.inputTx.wit.vtxoutwit n
    let r ← unblind E a.bkey o.nValue o.nAsset o.nNonce o.scriptPubKey w.rangeproof
    match ← r.obj with
    | .unblindingSuccess asset amount bf abf => return some ⟨asset, amount, bf, abf⟩
    | _ => return none

/-- `CElementsTransaction(vin, vout)`: version 2, lock time 0, an empty witness for each input and
output (python-bitcointx). -/
def newTx (vin : List TxIn) (vout : List TxOut) : Tx :=
  ⟨2, vin, vout, 0, ⟨vin.map fun _ => {}, vout.map fun _ => {}⟩⟩

/-- The transaction of lines 157-181. -/
def build (E : Env) (a : Args) (n : Nat) (d : Desc) (feeAsset : Bytes) (fee : Int) : Except PyErr Tx := do
  let id ← txid E.h a.inputTx
  let value ← valueFromAmount (d.amount - fee)
  let asset ← assetFromAsset d.asset
  let script ← a.dst.toScriptPubKey
  let feeValue ← valueFromAmount fee
  return newTx [{ prevout := ⟨id, n⟩ }]
    [{ nValue := value, nAsset := asset, scriptPubKey := script }, { nValue := feeValue, nAsset := feeAsset }]

/-- The dummy output and the pubkeys, lines 161-166, 184 and 189-202. -/
def addDummy (E : Env) (a : Args) (explicit : Bool) (asset : Bytes) (tx : Tx) : Except PyErr (Tx × List Bytes) :=
  let pub := if a.dst.conf then a.dst.blindingPubkey else []
  if !explicit && !a.dst.conf then do
    if !E.z.secValid a.dummy then throw .valueError
    let value ← valueFromAmount 0
    let asset ← assetFromAsset asset
    return ({ tx with vout := tx.vout ++ [{ nValue := value, nAsset := asset, scriptPubKey := script [.op 0x6a] }] },
      [pub, [], E.z.pubOf a.dummy])
  else .ok (tx, [pub, []])

/-- `CScript([0, Hash160(key.pub)])`, lines 89 and 252. -/
def innerScript (W : World) (pub : Bytes) : Bytes := script [.num 0, .data (W.hash160 pub)]
/-- `to_p2sh_scriptPubKey()`, lines 89 and 256. -/
def srcScript (W : World) (pub : Bytes) : Bytes :=
  script [.op 0xa9, .data (W.hash160 (innerScript W pub)), .op 0x87]
/-- `script_for_sighash`, lines 242-243. -/
def signScript (W : World) (pub : Bytes) : Bytes :=
  script [.op 0x76, .op 0xa9, .data (W.hash160 pub), .op 0x88, .op 0xac]

/-- Signing, lines 240-263. -/
def signTx (E : Env) (W : World) (a : Args) (utxo : TxOut) (t : Tx) : Except PyErr Tx := do
  let pub := E.z.pubOf a.key
  let digest ← sighash E.h (signScript W pub) t 0 SIGHASH_ALL (some utxo.nValue) .witnessV0
  let sig := W.sign a.key digest ++ [UInt8.ofNat SIGHASH_ALL]
  if t.vin.length = 0 ∨ t.wit.vtxinwit.length = 0 then throw .indexError
  let scriptSig := script [.data (innerScript W pub)]
  let t := { t with
    vin := t.vin.modify 0 fun i => { i with scriptSig }
    wit := { t.wit with vtxinwit := t.wit.vtxinwit.set 0 { scriptWitness := [sig, pub] } } }
  W.verify scriptSig (srcScript W pub) t
  return t

/-- Blinding and the checks after it, lines 206-234; `none` is `sys.exit(-1)`. -/
def blindTx (E : Env) (a : Args) (d : Desc) (tx : Tx) (pubs : List Bytes) : Except PyErr (Option Tx) := do
  let before ← serializeTx tx
  match blindTransaction E { descs := [d], pubkeys := pubs, rand := a.rand } tx with
  | (.error e, _) => .error e
  | (.ok (.failure _), _) => .ok none
  | (.ok (.success num _ _), t) =>
    if num ≠ (pubs.filter (· ≠ [])).length then .error .assertion
    else if num = 0 then do
      let after ← serializeTx t
      if before ≠ after then throw .assertion
      return some t
    else .ok (some t)

/-- The script from line 89 on.  `none` is `sys.exit(-1)`; else the transaction that is printed. -/
def spend (E : Env) (W : World) (a : Args) : Except PyErr (Option Tx) := do
  let f ← scan (srcScript W (E.z.pubOf a.key)) 0 a.inputTx.vout {}
  match f.utxo, f.fee with
  | none, _ => return none
  | some _, none => return none
  | some (n, utxo), some (feeAsset, fee) =>
    match ← describe E a n utxo with
    | none => return none
    | some d =>
      if d.amount < fee * 2 then return none
      else
        let tx ← build E a n d feeAsset fee
        let (tx, pubs) ← addDummy E a (confIsExplicit valueKind utxo.nValue) d.asset tx
        match ← blindTx E a d tx pubs with
        | none => return none
        | some t =>
          let t ← signTx E W a utxo t
          let _ ← serializeTx t
          return some t

end Verif.SpendAddr
