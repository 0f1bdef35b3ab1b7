import Verif.SwapSpend
/-
The Bitcoin side of examples/confidential-cross-chain-atomic-swap.py: what Alice checks before sending the
asset, how they find the revealed key in Bob's transaction and claim the bitcoins, and how Bob takes them back.

Talking to the nodes, waiting and messages are left out, as in SwapSpend.lean.  Bitcoin transactions are those
of python-bitcointx.
-/
namespace Verif.SwapBtc
open Verif CrossSwap SwapSpend

/-- `CTxIn` of Bitcoin. -/
structure BtcIn where
  prevout : OutPoint
  scriptSig : Bytes := []
  nSequence : Nat := 0xffffffff

/-- `CTxOut` of Bitcoin. -/
structure BtcOut where
  nValue : Int
  scriptPubKey : Bytes

/-- `CTransaction` of Bitcoin; the witness holds a stack for every input, top last. -/
structure BtcTx where
  nVersion : Nat := 2
  vin : List BtcIn
  vout : List BtcOut
  nLockTime : Nat := 0
  witness : List (List Bytes)

/-- What python-bitcointx, python-ecdsa and hashlib provide for this side. -/
structure Btc where
  sha256 : Bytes → Bytes
  /-- `CBitcoinScript.sighash` with `sigversion=SIGVERSION_WITNESS_V0`, line 623 -/
  sighash : (script : Bytes) → BtcTx → (n hashtype : Nat) → (amount : Int) → Bytes
  /-- `serialize`, lines 297 and 547 -/
  serialize : BtcTx → Except PyErr Bytes
  /-- the public key of a secret number, lines 272-273; `none` if `CKey.from_secret_bytes` raises -/
  pub : Nat → Option Bytes
  /-- `k` of `get_known_k_r`, line 264 -/
  k : Nat
  /-- `r_inverse`, line 267 -/
  rInv : Nat
  /-- `ecdsa.SECP256k1.order`, line 265 -/
  order : Nat

/-- `P2WSHCoinAddress.from_redeemScript(...).to_scriptPubKey()`, lines 194, 205, 345 and 514. -/
def p2wsh (B : Btc) (redeem : Bytes) : Bytes := script [.num 0, .data (B.sha256 redeem)]

/-- What Alice has on the Bitcoin side. -/
structure AliceBtc where
  /-- `alice_btc_key` -/
  key : Bytes
  /-- `bob_btc_exit_pub_raw` -/
  bobPub : Bytes
  /-- the script of the new address, line 291 -/
  dst : Bytes

/-- `btc_contract` of Alice, lines 178-181. -/
def aliceBtcContract (E : Env) (W : World) (a : Alice) (x : AliceBtc) : Except PyErr Bytes := do
  let p ← W.addPubs a.contractPub (E.z.pubOf x.key)
  return btcContract p x.bobPub

/-- The search for the contract, lines 204-210: the outputs from number `n` on. -/
def findBtc (spk : Bytes) : Nat → List BtcOut → Except CrossSwap.Stop (Nat × BtcOut)
  | _, [] => .error .die
  | n, o :: os => if o.scriptPubKey = spk then .ok (n, o) else findBtc spk (n + 1) os

/-- Alice's checks of Bob's deposit, lines 178-215, before the asset is sent; the number of the output. -/
def aliceChecks (E : Env) (W : World) (B : Btc) (a : Alice) (x : AliceBtc) (confirmations : Int) (tx : BtcTx) :
    Except CrossSwap.Stop Nat := do
  let contract ← up (aliceBtcContract E W a x)
  if confirmations < 6 then .error .die
  else
  let contract ← up (redeemable 10000 contract)
  let (n, o) ← findBtc (p2wsh B contract) 0 tx.vout
  if o.nValue ≠ agreed then .error .die else .ok n

/-- `s[-n:]` for positive `n`. -/
def lastBytes (n : Nat) (s : Bytes) : Bytes := s.drop (s.length - n)

/-- The search for the input with the revealed key, lines 245-254. -/
def findReveal (txid contract : Bytes) : List TxIn → Except CrossSwap.Stop Bytes
  | [] => .error .die
  | i :: is =>
    if i.prevout.hash = txid ∧ lastBytes contract.length i.scriptSig = contract then .ok i.scriptSig
    else findReveal txid contract is

/-- `create_btc_spend_tx`, lines 602-646.  `COutPoint(...)` of python-bitcointx checks its arguments. -/
def btcSpend (W : World) (B : Btc) (dst txid : Bytes) (n : Nat) (contract key : Bytes) (branch : Bool) : Except PyErr BtcTx :=
  if txid.length ≠ 32 ∨ 0xffffffff < n then .error .valueError
  else
  let t : BtcTx := { vin := [{ prevout := ⟨txid, n⟩ }], vout := [⟨agreed - fee, dst⟩], witness := [[]] }
  let t := if branch then t else { t with vin := t.vin.modify 0 fun i => { i with nSequence := btcSequence false } }
  let sig := W.sign key (B.sighash contract t 0 SIGHASH_ALL agreed) ++ [UInt8.ofNat SIGHASH_ALL]
  let t := { t with vin := t.vin.modify 0 fun i => { i with scriptSig := [] } }
  .ok { t with witness := t.witness.set 0 [sig, if branch then [1] else [], contract] }

/-- Alice from Bob's transaction `tx`, which spends the Elements deposit `eltTxid`, to the claim of output `n` of
the Bitcoin deposit `btcTxid`, lines 243-297.  The numbers of keys are their 32 bytes, most significant first. -/
def aliceClaim (E : Env) (W : World) (B : Btc) (a : Alice) (x : AliceBtc) (eltTxid : Bytes) (tx : Tx) (btcTxid : Bytes) (n : Nat) :
    Except CrossSwap.Stop BtcTx := do
  let target ← up (W.addPubs a.contractPub (E.z.pubOf a.blindingKey))
  let elt ← up (aliceContract E W a)
  let btc ← up (aliceBtcContract E W a x)
  let scriptSig ← findReveal eltTxid elt tx.vin
  let q ← recoverKey B.pub B.order B.k (beVal (B.sha256 [1])) B.rInv target scriptSig
  let key ← claimKey B.order q (beVal a.blindingKey) (beVal x.key)
  let t ← up (btcSpend W B x.dst btcTxid n btc (beBytes 32 key) true)
  let _ ← up (B.serialize t)
  return t

/-- An output as the node describes it, lines 525-528: its number and the scripts of its addresses, if there is an
entry `scriptPubKey`.  Texts of addresses are equal if the scripts are. -/
structure JsonOut where
  n : Nat
  addresses : Option (List Bytes)

/-- The search of lines 525-533. -/
def findJson (spk : Bytes) : List JsonOut → Except CrossSwap.Stop Nat
  | [] => .error .die
  | o :: os =>
    match o.addresses with
    | none => findJson spk os
    | some l => if spk ∈ l then .ok o.n else findJson spk os

/-- What Bob has on the Bitcoin side. -/
structure BobBtc where
  /-- `bob_btc_exit_key` -/
  exitKey : Bytes
  /-- `alice_btc_pub_raw` -/
  alicePub : Bytes
  /-- the script of the new address, line 540 -/
  dst : Bytes

/-- `btc_contract` of Bob, lines 338-345. -/
def bobBtcContract (E : Env) (W : World) (b : Bob) (x : BobBtc) : Except PyErr Bytes := do
  let p ← W.addPubs (E.z.pubOf b.contractKey) x.alicePub
  redeemable 10000 (btcContract p (E.z.pubOf x.exitKey))

/-- `try_reclaim_btc`, lines 514-547, after the loop that waits for the timeout. -/
def bobReclaim (E : Env) (W : World) (B : Btc) (b : Bob) (x : BobBtc) (txid : Bytes) (outs : List JsonOut) :
    Except CrossSwap.Stop BtcTx := do
  let contract ← up (bobBtcContract E W b x)
  let n ← findJson (p2wsh B contract) outs
  let t ← up (btcSpend W B x.dst txid n contract x.exitKey false)
  let _ ← up (B.serialize t)
  return t

end Verif.SwapBtc
