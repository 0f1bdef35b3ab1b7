import Verif.AssetSwap
/-
How examples/confidential-cross-chain-atomic-swap.py spends the Elements side of the swap: the checks
on the deposit, the transaction that is built, blinding, signing.

Talking to the nodes, waiting and messages are left out: a participant is given the transaction the
node returned for a transaction id, and new addresses.  `lx` and `x` of these texts are left out too.
-/
namespace Verif.SwapSpend
open Verif CrossSwap SpendAddr

/-- `coins_to_satoshi(pre_agreed_amount)`, lines 107, 386, 655 and 676. -/
def agreed : Int := 101000000
/-- `coins_to_satoshi(fixed_fee_amount)`, lines 110 and 654. -/
def fee : Int := 1000000

/-- What python-bitcointx, python-ecdsa and the command line provide. -/
structure World where
  /-- `Hash160` -/
  hash160 : Bytes → Bytes
  /-- `key.sign` -/
  sign : (key digest : Bytes) → Bytes
  /-- `CKey.add`, line 725 -/
  addKeys : Bytes → Bytes → Except PyErr Bytes
  /-- `CPubKey.add`, lines 160 and 330 -/
  addPubs : Bytes → Bytes → Except PyErr Bytes
  /-- `rkey.sign_digest(...)` of the hash of the byte 1, lines 733-734 -/
  revealSign : (key : Bytes) → Bytes
  /-- `get_known_k_r`, lines 763-771 -/
  r : Nat
  /-- `bitcoin_asset`, line 87 -/
  asset : Bytes

/-- An exception that is not caught. -/
def up {α : Type} : Except PyErr α → Except CrossSwap.Stop α
  | .ok a => .ok a
  | .error e => .error (.raise e)

/-- `P2SHCoinAddress.from_redeemScript(...).to_scriptPubKey()`, lines 165, 369, 484 and 562. -/
def p2sh (W : World) (redeem : Bytes) : Bytes := script [.op 0xa9, .data (W.hash160 redeem), .op 0x87]

/-- What `from_redeemScript` of addresses makes sure of, lines 165, 194, 345 and 369: python-bitcointx refuses scripts that no node would run,
those of more than 520 bytes for P2SH and of more than 10000 bytes for P2WSH. -/
def redeemable (limit : Nat) (redeem : Bytes) : Except PyErr Bytes := if limit < redeem.length then .error .valueError else .ok redeem

/-- The number of the output and what unblinding told, line 499. -/
structure Opened where
  n : Nat
  amount : Int
  bf : Bytes
  abf : Bytes

/-- Unblinding the output that was found, lines 486-495.  Hexadecimal texts of assets are equal if
the assets are. -/
def openVout (E : Env) (W : World) (key : Bytes) (wits : List TxOutWitness) (n : Nat) (o : TxOut) : Except CrossSwap.Stop Opened := do
  let w ← up (pyGet wits n)
  let r ← up (unblind E key o.nValue o.nAsset o.nNonce o.scriptPubKey w.rangeproof)
  match ← up r.obj with
  | .unblindingSuccess asset amount bf abf => if asset ≠ W.asset then throw .die else return ⟨n, amount, bf, abf⟩
  | _ => throw .die

/-- `find_and_unblind_vout`, lines 482-499: the outputs from number `n` on. -/
def findVout (E : Env) (W : World) (spk key : Bytes) (wits : List TxOutWitness) : Nat → List TxOut → Except CrossSwap.Stop Opened
  | _, [] => .error .die
  | n, o :: os => if o.scriptPubKey = spk then openVout E W key wits n o else findVout E W spk key wits (n + 1) os

/-- Arguments of `create_elt_spend_tx`, lines 649-652, and what it draws. -/
structure Job where
  dst : Addr
  txid : Bytes
  n : Nat
  contract : Bytes
  key : Bytes
  bf : Bytes
  abf : Bytes
  /-- `os.urandom(32)`, line 659 -/
  dummy : Bytes
  rand : Nat → Bytes

/-- The transaction before blinding and the keys, lines 654-675.  `COutPoint(...)` of python-bitcointx
checks its arguments. -/
def eltPlain (E : Env) (W : World) (j : Job) : Except PyErr (Tx × List Bytes) :=
  if !E.z.secValid j.dummy then .error .valueError
  else if j.txid.length ≠ 32 ∨ 0xffffffff < j.n then .error .valueError
  else do
  let value ← valueFromAmount (agreed - fee)
  let asset ← assetFromAsset W.asset
  let s ← j.dst.toScriptPubKey
  let pub ← AssetSwap.pubkeyOf j.dst
  let nonce ← confNew nonceKind pub
  let zero ← valueFromAmount 0
  let dummyNonce ← confNew nonceKind (E.z.pubOf j.dummy)
  let feeValue ← valueFromAmount fee
  return (newTx [{ prevout := ⟨j.txid, j.n⟩ }]
    [{ nValue := value, nAsset := asset, scriptPubKey := s, nNonce := nonce },
     { nValue := zero, nAsset := asset, nNonce := dummyNonce, scriptPubKey := script [.op 0x6a] },
     { nValue := feeValue, nAsset := asset }],
    [pub, E.z.pubOf j.dummy])

/-- The unlocking script, lines 709-717 and 725-760.  `reveal` holds `contract_key` and `blinding_key`;
without it `branch_condition` is `False`. -/
def unlocking (W : World) (contract sig : Bytes) : Option (Bytes × Bytes) → Except PyErr Bytes
  | some (ck, bk) => do
    let q ← W.addKeys ck bk
    revealScriptSig contract sig (W.revealSign q) W.r
  | none => .ok (timeoutScriptSig contract sig)

/-- Setting the sequence number and signing, lines 694-719. -/
def eltSign (E : Env) (W : World) (j : Job) (reveal : Option (Bytes × Bytes)) (t : Tx) : Except PyErr Tx := do
  let t := if reveal.isSome then t
    else { t with vin := t.vin.modify 0 fun i => { i with nSequence := eltSequence false } }
  let amount ← valueFromAmount agreed
  let digest ← sighash E.h j.contract t 0 SIGHASH_ALL (some amount) .base
  let sig := W.sign j.key digest ++ [UInt8.ofNat SIGHASH_ALL]
  let ss ← unlocking W j.contract sig reveal
  return { t with vin := t.vin.modify 0 fun i => { i with scriptSig := ss } }

/-- `create_elt_spend_tx`, lines 649-719. -/
def eltSpend (E : Env) (W : World) (j : Job) (reveal : Option (Bytes × Bytes)) : Except CrossSwap.Stop Tx := do
  let (tx, pubs) ← up (eltPlain E W j)
  match blindTransaction E { descs := [⟨W.asset, agreed, j.bf, j.abf⟩], pubkeys := pubs, rand := j.rand } tx with
  | (.error e, _) => throw (.raise e)
  | (.ok (.failure _), _) => throw .die
  | (.ok (.success ..), t) => up (eltSign E W j reveal t)

/-- What Bob has when Alice tells the id of the deposit. -/
structure Bob where
  contractKey : Bytes
  blindingKey : Bytes
  spendKey : Bytes
  /-- `alice_elt_exit_pub_raw` -/
  alicePub : Bytes
  /-- the new address, line 395, and what is drawn -/
  dst : Addr
  dummy : Bytes
  rand : Nat → Bytes

/-- `elt_contract` of Bob, lines 330 and 365-369. -/
def bobContract (E : Env) (W : World) (b : Bob) : Except PyErr Bytes := do
  let reveal ← W.addPubs (E.z.pubOf b.contractKey) (E.z.pubOf b.blindingKey)
  redeemable 520 (eltContract W.r reveal (E.z.pubOf b.spendKey) b.alicePub)

/-- Bob from the id of the deposit to the claim that is sent, lines 365-415. -/
def bobClaim (E : Env) (W : World) (b : Bob) (txid : Bytes) (confirmations : Int) (tx : Tx) : Except CrossSwap.Stop Tx := do
  let contract ← up (bobContract E W b)
  if confirmations < 2 then .error .die
  else
  let u ← findVout E W (p2sh W contract) b.blindingKey tx.wit.vtxoutwit 0 tx.vout
  if u.amount ≠ agreed then .error .die
  else if !b.dst.conf then .error (.raise .assertion)
  else
  let t ← eltSpend E W ⟨b.dst, txid, u.n, contract, b.spendKey, u.bf, u.abf, b.dummy, b.rand⟩
    (some (b.contractKey, b.blindingKey))
  let _ ← up (serializeTx t)
  return t

/-- What Alice has when the swap fails. -/
structure Alice where
  exitKey : Bytes
  blindingKey : Bytes
  /-- `contract_pubkey_raw` and `bob_elt_pubkey_raw` -/
  contractPub : Bytes
  bobPub : Bytes
  /-- the new address, line 579, and what is drawn -/
  dst : Addr
  dummy : Bytes
  rand : Nat → Bytes

/-- `elt_contract` of Alice, lines 158-165. -/
def aliceContract (E : Env) (W : World) (a : Alice) : Except PyErr Bytes := do
  let reveal ← W.addPubs a.contractPub (E.z.pubOf a.blindingKey)
  redeemable 520 (eltContract W.r reveal a.bobPub (E.z.pubOf a.exitKey))

/-- `try_reclaim_elt`, lines 562-590, after the loop that waits for the timeout. -/
def aliceReclaim (E : Env) (W : World) (a : Alice) (txid : Bytes) (tx : Tx) : Except CrossSwap.Stop Tx := do
  let contract ← up (aliceContract E W a)
  let u ← findVout E W (p2sh W contract) a.blindingKey tx.wit.vtxoutwit 0 tx.vout
  let t ← eltSpend E W ⟨a.dst, txid, u.n, contract, a.exitKey, u.bf, u.abf, a.dummy, a.rand⟩ none
  let _ ← up (serializeTx t)
  return t

end Verif.SwapSpend
