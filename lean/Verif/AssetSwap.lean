import Verif.SpendAddr
/-
examples/asset-atomic-swap.py: two parties swap assets in one transaction they make together.

Messages that were received are arguments, as they are after decoding.  What the nodes of the
parties answer (outputs to spend, keys, new addresses) is given.  Amounts are in satoshi, assets and
hashes in the byte order of the library.  Keys are compressed.
-/
namespace Verif.AssetSwap
open Verif CrossSwap SpendAddr

/-- Functions of python-bitcointx and of the elliptic curve the script calls. -/
structure World where
  /-- `Hash160` -/
  hash160 : Bytes → Bytes
  /-- `key.sign` -/
  sign : (key digest : Bytes) → Bytes
  /-- `VerifyScript` raises if it does not accept, lines 909-911 -/
  verify : (scriptPubKey amount : Bytes) → Tx → Nat → Except PyErr Unit

/-- How a participant stops: `die`, or some other exception. -/
inductive Stop
  | died
  | raised (e : PyErr)
  deriving DecidableEq

def up {α : Type} : Except PyErr α → Except Stop α
  | .ok x => .ok x
  | .error e => .error (.raised e)

/-- What `listunspent` and `dumpprivkey` tell about an output, lines 770-796 and 826-852. -/
structure Utxo where
  prevout : OutPoint
  asset : Bytes
  amount : Int
  blinder : Bytes
  assetBlinder : Bytes
  /-- `amountcommitment` -/
  amountCommitment : Option Bytes
  /-- `assetcommitment` -/
  assetCommitment : Option Bytes
  key : Bytes
  addr : Addr

/-- `FIXED_FEE_SATOSHI`, line 72. -/
def fixedFee : Int := 10000

/-- `BlindingInputDescriptor` for an own output, lines 246-251, 468-472 and 935-941. -/
def Utxo.desc (u : Utxo) : Desc := ⟨u.asset, u.amount, u.blinder, u.assetBlinder⟩
/-- `CTxIn(prevout=...)`, lines 243-245, 445-446 and 933-934. -/
def Utxo.txin (u : Utxo) : TxIn := { prevout := u.prevout }

/-- An offer, lines 132-137 and 418. -/
structure Offer where
  asset : Bytes
  amount : Int
  deriving DecidableEq

/-- `CScript([OP_DUP, OP_HASH160, Hash160(key.pub), OP_EQUALVERIFY, OP_CHECKSIG])`, lines 869-870. -/
def signScript (W : World) (pub : Bytes) : Bytes :=
  script [.op 0x76, .op 0xa9, .data (W.hash160 pub), .op 0x88, .op 0xac]
/-- `CScript([0, Hash160(key.pub)])`, line 903. -/
def innerScript (W : World) (pub : Bytes) : Bytes := script [.num 0, .data (W.hash160 pub)]

/-- The amount that is signed, lines 881-884. -/
def Utxo.signedAmount (u : Utxo) : Except PyErr Bytes :=
  match u.amountCommitment with
  | some c => confNew valueKind c
  | none => valueFromAmount u.amount

/-- The kinds of address that are supported, lines 872-879.  Confidential address classes are
registered with the plain ones of their kind (wallet.py:344-378). -/
def Utxo.sigVersion (u : Utxo) : Except PyErr SigVersion :=
  match u.addr.kind with
  | .p2pkh => .ok .base
  | .p2sh | .p2wpkh => .ok .witnessV0
  | _ => .error .assertion

/-- Unlocking script and witness, lines 892-906; `none` leaves the witness. -/
def unlock (W : World) (kind : Kind) (sig pub : Bytes) : Bytes × Option TxInWitness :=
  match kind with
  | .p2pkh => (script [.data sig, .data pub], none)
  | .p2wpkh => ([], some { scriptWitness := [sig, pub] })
  | _ => (script [.data (innerScript W pub)], some { scriptWitness := [sig, pub] })

/-- The script the signed input is checked against, lines 895, 900 and 907. -/
def lockScript (W : World) (addr : Addr) (pub : Bytes) : Except PyErr Bytes :=
  match addr.kind with
  | .p2pkh | .p2wpkh => addr.toScriptPubKey
  | _ => .ok (script [.op 0xa9, .data (W.hash160 (innerScript W pub)), .op 0x87])

/-- Assignments to `tx.vin[i].scriptSig` and `tx.wit.vtxinwit[i]`, lines 892-906. -/
def put (t : Tx) (i : Nat) (u : Bytes × Option TxInWitness) : Except PyErr Tx :=
  if t.vin.length ≤ i then .error .indexError
  else
    let t := { t with vin := t.vin.modify i fun x => { x with scriptSig := u.1 } }
    match u.2 with
    | none => .ok t
    | some w =>
      if t.wit.vtxinwit.length ≤ i then .error .indexError
      else .ok { t with wit := { t.wit with vtxinwit := t.wit.vtxinwit.set i w } }

/-- `sign_input`, lines 862-911. -/
def signInput (E : Env) (W : World) (t : Tx) (i : Nat) (u : Utxo) : Except PyErr Tx := do
  let pub := E.z.pubOf u.key
  let sv ← u.sigVersion
  let amount ← u.signedAmount
  let digest ← sighash E.h (signScript W pub) t i SIGHASH_ALL (some amount) sv
  let sig := W.sign u.key digest ++ [UInt8.ofNat SIGHASH_ALL]
  let t ← put t i (unlock W u.addr.kind sig pub)
  let spk ← lockScript W u.addr pub
  W.verify spk amount t i
  return t

/-- The loops over inputs to sign, lines 325-327 and 979-980. -/
def signAll (E : Env) (W : World) : Tx → Nat → List Utxo → Except PyErr Tx
  | t, _, [] => .ok t
  | t, i, u :: us => do
    let t ← signInput E W t i u
    signAll E W t (i + 1) us

/-- `addr.blinding_pubkey`: plain addresses have none. -/
def pubkeyOf (a : Addr) : Except PyErr Bytes := if a.conf then .ok a.blindingPubkey else .error .attributeError

/-- An explicit output, lines 265-268, 274-277, 287-288, 447-449, 957-959 and 963-964. -/
def payTo (asset : Bytes) (amount : Int) (script : Bytes) : Except PyErr TxOut := do
  let value ← valueFromAmount amount
  let asset ← assetFromAsset asset
  return { nValue := value, nAsset := asset, scriptPubKey := script }

/-- What Alice has before the partial transaction arrives. -/
structure Alice where
  asset1 : Utxo
  asset2 : Utxo
  fee : Utxo
  feeAsset : Bytes
  /-- the address sent to Bob, lines 150 and 161, and its blinding key -/
  dst : Addr
  bkey : Bytes
  change : Addr
  rand : Nat → Bytes

/-- `utxos_to_add`, line 231. -/
def Alice.utxos (a : Alice) : List Utxo := [a.asset1, a.asset2, a.fee]
/-- `my_offers`, lines 132-137: the newly issued assets, all of them. -/
def Alice.offers (a : Alice) : List Offer := [⟨a.asset1.asset, a.asset1.amount⟩, ⟨a.asset2.asset, a.asset2.amount⟩]

/-- An output opens with the key to what was offered, lines 174-189 and 526-543. -/
def checkOffer (E : Env) (key : Bytes) (o : TxOut) (w : TxOutWitness) (offer : Offer) : Except Stop Unit := do
  let r ← up (unblind E key o.nValue o.nAsset o.nNonce o.scriptPubKey w.rangeproof)
  match ← up r.obj with
  | .unblindingSuccess asset amount _ _ =>
    if asset ≠ offer.asset then throw .died
    if amount ≠ offer.amount then throw .died
  | _ => throw .died

/-- Checks on the partial transaction, lines 170-189. -/
def checkPartial (E : Env) (a : Alice) (offer : Offer) (partialTx : Tx) : Except Stop Unit := do
  if partialTx.vout.length ≠ 1 then throw .died
  let o ← up (pyGet partialTx.vout 0)
  let w ← up (pyGet partialTx.wit.vtxoutwit 0)
  checkOffer E a.bkey o w offer

/-- Outputs to Bob and their keys, lines 264-269. -/
def payOffers : List (Offer × Addr) → Except PyErr (List TxOut × List Bytes)
  | [] => .ok ([], [])
  | (f, b) :: l => do
    let s ← b.toScriptPubKey
    let o ← payTo f.asset f.amount s
    let pub ← pubkeyOf b
    let (outs, pubs) ← payOffers l
    return (o :: outs, pub :: pubs)

/-- The combined transaction and the keys, lines 208-306. -/
def combine (a : Alice) (bobAddrs : List Addr) (partialTx : Tx) : Except PyErr (Tx × List Bytes) := do
  let (outs, pubs) ← payOffers (a.offers.zip bobAddrs)
  let change ← a.change.toScriptPubKey
  let changeOut ← payTo a.feeAsset (a.fee.amount - fixedFee) change
  let changePub ← pubkeyOf a.change
  let feeOut ← payTo a.feeAsset fixedFee []
  return ({ partialTx with
    vin := partialTx.vin ++ a.utxos.map Utxo.txin
    vout := partialTx.vout ++ (outs ++ [changeOut, feeOut])
    wit := ⟨partialTx.wit.vtxinwit ++ [{}, {}, {}], partialTx.wit.vtxoutwit ++ [{}, {}, {}, {}]⟩ },
    [] :: (pubs ++ [changePub, []]))

/-- Arguments of Alice's blinding, lines 213-223, 246-260 and 309-311. -/
def aliceArgs (a : Alice) (pubs : List Bytes) (bobCommitment : Bytes) : BlindArgs :=
  { descs := ⟨zero32, -1, zero32, zero32⟩ :: a.utxos.map Utxo.desc
    pubkeys := pubs
    auxGens := bobCommitment :: a.utxos.map fun _ => List.replicate 33 0
    rand := a.rand }

/-- Alice from Bob's addresses to the transaction sent back, lines 194-331. -/
def aliceAdd (E : Env) (W : World) (a : Alice) (partialTx : Tx) (bobAddrs : List Addr) (bobCommitment : Bytes) : Except Stop Tx := do
  if bobAddrs.length ≠ a.offers.length then throw .died
  let (tx, pubs) ← up (combine a bobAddrs partialTx)
  match blindTransaction E (aliceArgs a pubs bobCommitment) tx with
  | (.error e, _) => throw (.raised e)
  | (.ok (.failure _), _) => throw .died
  | (.ok (.success num _ _), t) =>
    if num ≠ 3 then throw .died
    up (signAll E W t 1 a.utxos)

/-- Alice from the partial transaction to the transaction sent back, lines 170-331. -/
def aliceJoin (E : Env) (W : World) (a : Alice) (offer : Offer) (partialTx : Tx) (bobAddrs : List Addr) (bobCommitment : Bytes) :
    Except Stop Tx := do
  checkPartial E a offer partialTx
  aliceAdd E W a partialTx bobAddrs bobCommitment

/-- The check of the transaction that comes back, lines 350-371: what is published, or `none` if Alice
claims the funds back.  An input there is no counterpart for raises IndexError, which is caught. -/
def aliceFinal (tx signed : Tx) : Option Tx :=
  let same := (signed.vin.zipIdx).all fun x =>
    match tx.vin[x.2]? with
    | some i => i.prevout == x.1.prevout
    | none => false
  if same then some signed else none

/-- What Bob has before the address and commitments arrive. -/
structure Bob where
  utxo : Utxo
  rand : Nat → Bytes

/-- Bob's part of the transaction, lines 437-488. -/
def bobStart (E : Env) (b : Bob) (aliceAddr : Addr) (aliceCommitments : List Bytes) : Except Stop Tx := do
  let own ← match b.utxo.assetCommitment with
    | some c => .ok c
    | none => .error (.raised .nameError)
  let s ← up aliceAddr.toScriptPubKey
  let out ← up (payTo b.utxo.asset b.utxo.amount s)
  let pub ← up (pubkeyOf aliceAddr)
  let args : BlindArgs := { descs := [b.utxo.desc], pubkeys := [pub], auxGens := own :: aliceCommitments, rand := b.rand }
  match blindTransaction E args (newTx [b.utxo.txin] [out]) with
  | (.error e, _) => throw (.raised e)
  | (.ok (.failure _), _) => throw .died
  | (.ok (.success num _ _), t) => if num ≠ 1 then throw .died else return t

/-- The loop over Alice's offers, lines 525-543.  There is a key for each offer, lines 495-498. -/
def checkOffers (E : Env) (tx : Tx) : Nat → List (Offer × Bytes) → Except Stop Unit
  | _, [] => .ok ()
  | n, (f, key) :: l => do
    let o ← up (pyGet tx.vout (n + 1))
    let w ← up (pyGet tx.wit.vtxoutwit (n + 1))
    checkOffer E key o w f
    checkOffers E tx (n + 1) l

/-- Bob from Alice's transaction to the final one, lines 513-560. -/
def bobFinish (E : Env) (W : World) (b : Bob) (offers : List (Offer × Bytes)) (semi : Tx) : Except Stop Tx := do
  if semi.vout.length ≠ offers.length + 3 then throw .died
  let last ← up (pyGet semi.vout (-1))
  if !last.isFee then throw .died
  checkOffers E semi 0 offers
  up (signInput E W semi 0 b.utxo)

/-- `asset_amounts[idesc.asset] = amount`, line 952: an entry that is there is overwritten. -/
def dictSet (k : Bytes) (v : Int) : List (Bytes × Int) → List (Bytes × Int)
  | [] => [(k, v)]
  | (k', v') :: l => if k' = k then (k, v) :: l else (k', v') :: dictSet k v l

/-- What is sent back of an input, lines 946-950. -/
def claimAmount (feeAsset : Bytes) (u : Utxo) : Except PyErr Int :=
  if u.asset = feeAsset then
    if u.amount - fixedFee < fixedFee then .error .assertion else .ok (u.amount - fixedFee)
  else .ok u.amount

/-- The loop of lines 945-952. -/
def assetAmounts (feeAsset : Bytes) : List Utxo → List (Bytes × Int) → Except PyErr (List (Bytes × Int))
  | [], d => .ok d
  | u :: us, d => do
    let amount ← claimAmount feeAsset u
    assetAmounts feeAsset us (dictSet u.asset amount d)

/-- The loop of lines 955-960.  `addrs n` is the n-th new address. -/
def claimOutputs (addrs : Nat → Addr) : Nat → List (Bytes × Int) → Except PyErr (List TxOut × List Bytes)
  | _, [] => .ok ([], [])
  | n, (asset, amount) :: l => do
    let s ← (addrs n).toScriptPubKey
    let o ← payTo asset amount s
    let pub ← pubkeyOf (addrs n)
    let (outs, pubs) ← claimOutputs addrs (n + 1) l
    return (o :: outs, pub :: pubs)

/-- `claim_funds_back`, lines 919-986, up to the transaction that is sent. -/
def claimBack (E : Env) (W : World) (feeAsset : Bytes) (addrs : Nat → Addr) (rand : Nat → Bytes) (us : List Utxo) :
    Except PyErr Tx := do
  let d ← assetAmounts feeAsset us []
  let (outs, pubs) ← claimOutputs addrs 0 d
  let feeOut ← payTo feeAsset fixedFee []
  match blindTransaction E { descs := us.map Utxo.desc, pubkeys := pubs ++ [[]], rand }
      (newTx (us.map Utxo.txin) (outs ++ [feeOut])) with
  | (.error e, _) => .error e
  | (.ok (.failure _), _) => .error .assertion
  | (.ok (.success num _ _), t) =>
    if num ≠ us.length then .error .assertion else signAll E W t 0 us

/-- Insertion by amount that keeps the order of equal ones. -/
def insertUtxo (u : Utxo) : List Utxo → List Utxo
  | [] => [u]
  | v :: l => if u.amount ≤ v.amount then u :: v :: l else v :: insertUtxo u l
/-- `utxo_list.sort(key=lambda u: u['amount'])`, line 838. -/
def sortUtxos (l : List Utxo) : List Utxo := l.foldr insertUtxo []

/-- The first output that is enough, lines 839-842. -/
def pickFee (l : List Utxo) : Option Utxo := (sortUtxos l).find? fun u => fixedFee * 2 ≤ u.amount

/-- `find_utxo_for_fee`, lines 826-852.  `CAsset` has no method `to_commitment` (it is called
`to_comm_secp256k1itment`, core/__init__.py:311). -/
def findFeeUtxo (l : List Utxo) : Except Stop Utxo :=
  match pickFee l with
  | none => .error .died
  | some u => if u.assetCommitment.isNone then .error (.raised .attributeError) else .ok u

end Verif.AssetSwap
