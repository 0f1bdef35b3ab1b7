import Verif.AssetSwap
/-
The participants of examples/asset-atomic-swap.py from beginning to end: what they send and ask for, in which order, and
what happens when something goes wrong (`participant`, lines 676-724).

A participant is a program that asks the world and goes on with the answer.  The world (other participant, node) may answer
anything, and differently each time.  Messages on the console, sleeping and `connect_rpc` are left out, and so is
`bob_be_sneaky`.  In messages, addresses and hexadecimal strings are as they are after decoding; data of another type, or
that cannot be decoded, is an exception where it arrives.  Amounts are in satoshi.
-/
namespace Verif.AssetRun
open Verif AssetSwap

/-- Types of messages, lines 115-386 and 723. -/
inductive MsgKind
  | ready
  | waitTxid
  | offer
  | address
  | partialTx
  | addresses
  | semiSigned
  | final
  | goodbye
  | bye
  | other
  deriving DecidableEq

/-- The data of a message. -/
inductive Data
  | nothing
  /-- a transaction id or a serialized transaction -/
  | bytes (b : Bytes)
  | offer (f : Offer)
  | offers (l : List Offer)
  /-- an address and asset commitments -/
  | address (a : Addr) (commitments : List Bytes)
  | addresses (l : List Addr) (commitment : Bytes)
  | other

/-- `[msg_type, data]`, line 707. -/
structure Msg where
  kind : MsgKind
  data : Data

/-- An exception in a call: `JSONRPCError`, or another. -/
inductive Fault
  | rpc
  | other

/-- What a participant asks of the world. -/
inductive Query
  /-- `pipe.send`, line 707 -/
  | send (m : Msg)
  /-- `pipe.poll(timeout)` and `pipe.recv`, lines 692-694 -/
  | recv (timeout : Nat)
  /-- `issueasset(1.0, 0)`, line 776 -/
  | issue
  /-- `listunspent` of an asset, lines 785 and 836 -/
  | unspent (minconf maxconf : Nat) (asset : Bytes)
  /-- `dumpprivkey`, lines 794 and 843 -/
  | key (a : Addr)
  /-- `getnewaddress` and `dumpblindingkey`, lines 818-821 -/
  | newAddr
  /-- `generatetoaddress` and `getnewaddress`, lines 126, 374, 760 and 988 -/
  | generate
  /-- `getrawtransaction(txid, 1)` -/
  | tx (txid : Bytes)
  /-- `getbalance`, lines 378, 587 and 858 -/
  | balance (asset : Bytes)
  /-- `sendrawtransaction` -/
  | publish (b : Bytes)

/-- What is answered if there is no exception. -/
@[reducible] def Val : Query → Type
  | .send _ => Unit
  | .recv _ => Option Msg
  | .issue => Bytes
  | .unspent _ _ _ => List Utxo
  | .key _ => Bytes
  | .newAddr => Addr × Bytes
  | .generate => Unit
  /- the entry `confirmations`, if there is one -/
  | .tx _ => Option Int
  | .balance _ => Int
  | .publish _ => Bytes

abbrev Ans (q : Query) : Type := Except Fault (Val q)

/-- A program. -/
inductive Prog
  /-- the function returns -/
  | finish
  /-- an exception that the function does not catch, `die` (lines 688-689) too -/
  | raise
  /-- `sys.exit(0)`, line 371, or `sys.exit(-1)`, line 698: `SystemExit` is not an `Exception` -/
  | exit (fine : Bool)
  | ask (q : Query) (next : Ans q → Prog)

/-- A call whose exceptions are not caught. -/
def call (q : Query) (next : Val q → Prog) : Prog :=
  .ask q fun
    | .ok a => next a
    | .error _ => .raise

/-- A computation. -/
def compute {α : Type} : Except AssetSwap.Stop α → (α → Prog) → Prog
  | .ok a, next => next a
  | .error _, _ => .raise

/-- `recv(expected_type, timeout)`, lines 691-704; `Exception`s go to `handler`. -/
def recvElse (handler : Prog) (timeout : Nat) (expected : MsgKind) (next : Data → Prog) : Prog :=
  .ask (.recv timeout) fun
    | .error _ => handler
    | .ok none => handler
    | .ok (some (m : Msg)) =>
      if m.kind = .bye then .exit false
      else if m.kind ≠ expected then handler
      else next m.data

def recv (expected : MsgKind) (next : Data → Prog) : Prog := recvElse .raise 60 expected next

/-- `wait_confirm`, lines 749-767, with so many attempts left.  Every `JSONRPCError` is caught, whatever its code. -/
def waitConfirm (txid : Bytes) : Nat → Prog → Prog
  | 0, _ => .raise
  | k + 1, next => .ask (.tx txid) fun
    | .ok (c : Option Int) => if c.getD 0 > 0 then next else .ask .generate fun
      | .ok _ => waitConfirm txid k next
      | .error .rpc => waitConfirm txid k next
      | .error .other => .raise
    | .error .rpc => waitConfirm txid k next
    | .error .other => .raise

/-- `issue_asset`, lines 770-796.  `listunspent` is asked for outputs of the asset. -/
def issueAsset (next : Utxo → Prog) : Prog :=
  call .issue fun id =>
  call (.unspent 0 0 id) fun
    | [u] => call (.key u.addr) fun k => next { u with asset := id, key := k }
    | _ => .raise

/-- What the participants use. -/
structure Kit where
  E : Env
  W : World
  /-- `fee_asset` -/
  feeAsset : Bytes
  /-- what blinding draws, and what it draws in `claim_funds_back` -/
  rand : Nat → Bytes
  rand2 : Nat → Bytes

/-- `find_utxo_for_fee`, lines 826-852. -/
def feeUtxo (K : Kit) (next : Utxo → Prog) : Prog :=
  call (.unspent 1 9999999 K.feeAsset) fun l =>
  match pickFee l with
  | none => .raise
  | some u => call (.key u.addr) fun k => if u.assetCommitment.isNone then .raise else next { u with asset := K.feeAsset, key := k }

/-- `get_dst_addr`, lines 799-823.  `CCoinKey.from_secret_bytes` checks the key. -/
def newAddr (K : Kit) (next : Addr → Bytes → Prog) : Prog :=
  call .newAddr fun (x : Addr × Bytes) => if !K.E.z.secValid x.2 then .raise else next x.1 x.2

/-- So many addresses, lines 495-498 and 955-956. -/
def newAddrs (K : Kit) : Nat → (List (Addr × Bytes) → Prog) → Prog
  | 0, next => next []
  | n + 1, next => newAddr K fun a k => newAddrs K n fun l => next ((a, k) :: l)

/-- `print_asset_balances`, lines 855-859. -/
def balances : List Offer → Prog → Prog
  | [], next => next
  | f :: l, next => call (.balance f.asset) fun _ => balances l next

/-- `claim_funds_back`, lines 919-989, and lines 370-371.  All addresses are asked for before the outputs are made. -/
def giveUp (K : Kit) (a : Alice) : Prog :=
  compute (up (assetAmounts a.feeAsset a.utxos [])) fun d =>
  newAddrs K d.length fun l =>
  compute (up (claimBack K.E K.W a.feeAsset (fun n => (l.map Prod.fst).getD n a.change) K.rand2 a.utxos)) fun t =>
  compute (up (serializeTx t)) fun b =>
  call (.publish b) fun id =>
  call .generate fun _ =>
  waitConfirm id 60 (.exit true)

/-- `alice` after the swap transaction was sent from their side, lines 373-389. -/
def aliceDone (a : Alice) (f : Offer) (txid : Bytes) : Prog :=
  call .generate fun _ =>
  waitConfirm txid 60 <|
  call (.balance f.asset) fun n =>
  if n ≠ f.amount then .raise
  else
  balances (a.offers ++ [f]) <|
  call (.send ⟨.goodbye, .nothing⟩) fun _ => .finish

/-- `alice` after `tx` was sent, lines 350-371: every `Exception` leads to `claim_funds_back`. -/
def aliceLast (K : Kit) (a : Alice) (f : Offer) (tx : Tx) : Prog :=
  recvElse (giveUp K a) 5 .final fun
    | .bytes b =>
      match deserializeTx b with
      | .error _ => giveUp K a
      | .ok signed =>
        match aliceFinal tx signed with
        | none => giveUp K a
        | some s =>
          match serializeTx s with
          | .error _ => giveUp K a
          | .ok b' => .ask (.publish b') fun
            | .ok txid => aliceDone a f txid
            | .error _ => giveUp K a
    | _ => giveUp K a

/-- `alice` with Bob's partial transaction, lines 168-331. -/
def alicePartial (K : Kit) (a : Alice) (f : Offer) (b : Bytes) : Prog :=
  compute (up (deserializeTx b)) fun p =>
  compute (checkPartial K.E a f p) fun _ =>
  recv .addresses fun
    | .addresses l c =>
      compute (aliceAdd K.E K.W a p l c) fun t =>
      compute (up (serializeTx t)) fun b =>
      call (.send ⟨.semiSigned, .bytes b⟩) fun _ =>
      aliceLast K a f t
    | _ => .raise

/-- `alice` with Bob's offer, lines 142-163. -/
def aliceOffered (K : Kit) (u1 u2 uf : Utxo) (change : Addr) (f : Offer) : Prog :=
  balances [⟨u1.asset, u1.amount⟩, ⟨u2.asset, u2.amount⟩, f] <|
  newAddr K fun dst bkey =>
  let a : Alice := ⟨u1, u2, uf, K.feeAsset, dst, bkey, change, K.rand⟩
  match u1.assetCommitment, u2.assetCommitment, uf.assetCommitment with
  | some c1, some c2, some c3 =>
    call (.send ⟨.address, .address dst [c1, c2, c3]⟩) fun _ =>
    recv .partialTx fun
      | .bytes b => alicePartial K a f b
      | _ => .raise
  | _, _, _ => .raise

/-- `alice` with the transaction id Bob waits for, lines 125-140. -/
def aliceReady (K : Kit) (u1 u2 uf : Utxo) (change : Addr) (bobTxid : Bytes) : Prog :=
  call .generate fun _ =>
  waitConfirm u1.prevout.hash 60 <|
  waitConfirm u2.prevout.hash 60 <|
  waitConfirm bobTxid 60 <|
  call (.send ⟨.offer, .offers [⟨u1.asset, u1.amount⟩, ⟨u2.asset, u2.amount⟩]⟩) fun _ =>
  recv .offer fun
    | .offer f => aliceOffered K u1 u2 uf change f
    | _ => .raise

/-- `alice`, lines 93-389. -/
def alice (K : Kit) : Prog :=
  issueAsset fun u1 =>
  issueAsset fun u2 =>
  feeUtxo K fun uf =>
  newAddr K fun change _ =>
  call (.send ⟨.ready, .nothing⟩) fun _ =>
  recv .waitTxid fun
    | .bytes bobTxid => aliceReady K u1 u2 uf change bobTxid
    | _ => .raise

/-- The last check of Bob, lines 586-591. -/
def checkBalances : List Offer → Prog → Prog
  | [], next => next
  | f :: l, next => call (.balance f.asset) fun n => if n ≠ f.amount then .raise else checkBalances l next

/-- `bob` with Alice's transaction, lines 510-594.  There is a key for each offer, lines 495-498. -/
def bobSemi (K : Kit) (u : Utxo) (fs : List Offer) (keys : List Bytes) (b : Bytes) : Prog :=
  compute (up (deserializeTx b)) fun semi =>
  compute (bobFinish K.E K.W ⟨u, K.rand⟩ (fs.zip keys) semi) fun t =>
  compute (up (serializeTx t)) fun b =>
  call (.send ⟨.final, .bytes b⟩) fun _ =>
  call (.publish b) fun _ =>
  recv .goodbye fun _ =>
  balances (fs ++ [⟨u.asset, u.amount⟩]) <|
  checkBalances fs .finish

/-- `bob` with Alice's address and commitments, lines 426-503. -/
def bobTold (K : Kit) (u : Utxo) (fs : List Offer) (alice : Addr) (cs : List Bytes) : Prog :=
  balances (fs ++ [⟨u.asset, u.amount⟩]) <|
  compute (bobStart K.E ⟨u, K.rand⟩ alice cs) fun p =>
  compute (up (serializeTx p)) fun b =>
  call (.send ⟨.partialTx, .bytes b⟩) fun _ =>
  newAddrs K fs.length fun l =>
  match u.assetCommitment with
  | none => .raise
  | some c =>
    call (.send ⟨.addresses, .addresses (l.map Prod.fst) c⟩) fun _ =>
    recv .semiSigned fun
      | .bytes b => bobSemi K u fs (l.map Prod.snd) b
      | _ => .raise

/-- `bob`, lines 392-594. -/
def bob (K : Kit) : Prog :=
  issueAsset fun u =>
  recv .ready fun _ =>
  call (.send ⟨.waitTxid, .bytes u.prevout.hash⟩) fun _ =>
  recv .offer fun
    | .offers fs =>
      call (.send ⟨.offer, .offer ⟨u.asset, u.amount⟩⟩) fun _ =>
      recv .address fun
        | .address alice cs => bobTold K u fs alice cs
        | _ => .raise
    | _ => .raise

/-- What has happened: a question with its answer. -/
inductive Event
  | did (q : Query) (a : Ans q)

/-- The world: it answers, knowing what has happened so far. -/
def Environment : Type := List Event → (q : Query) → Ans q

/-- How the function of a participant ends. -/
inductive End
  | finished
  | raised
  | exited (fine : Bool)
  deriving DecidableEq

/-- A function runs. -/
def exec (w : Environment) : Prog → List Event → End × List Event
  | .finish, t => (.finished, t)
  | .raise, t => (.raised, t)
  | .exit b, t => (.exited b, t)
  | .ask q k, t => exec w (k (w t q)) (t ++ [.did q (w t q)])

/-- How the process of a participant ends. -/
inductive Over
  /-- the function has returned -/
  | done
  /-- `sys.exit(0)` -/
  | exit0
  /-- `sys.exit(-1)` -/
  | exit
  /-- an exception in the handler of exceptions -/
  | crash
  deriving DecidableEq

/-- `participant`, lines 676-724. -/
def participant (w : Environment) (p : Prog) : Over × List Event :=
  match exec w p [] with
  | (.finished, t) => (.done, t)
  | (.exited true, t) => (.exit0, t)
  | (.exited false, t) => (.exit, t)
  | (.raised, t) =>
    match w t (.send ⟨.bye, .nothing⟩) with
    | .ok a => (.exit, t ++ [.did (.send ⟨.bye, .nothing⟩) (.ok a)])
    | .error e => (.crash, t ++ [.did (.send ⟨.bye, .nothing⟩) (.error e)])

end Verif.AssetRun
