import Verif.SwapBtc
import Verif.SwapWatch
/-
The participants of examples/confidential-cross-chain-atomic-swap.py from beginning to end: what they send and ask for,
in which order, and what happens when something goes wrong (`participant`, lines 863-932).

A participant is a program that asks the world and goes on with the answer.  The world (other participant, nodes) may
answer anything, and differently each time.  Messages on the console and sleeping are left out, secret keys and new
addresses are given, and so is `connect_rpc`.  Transaction ids are byte strings.
-/
namespace Verif.SwapRun
open Verif CrossSwap SwapSpend SwapBtc

inductive Chain
  | btc
  | elt
  deriving DecidableEq

/-- Types of messages, lines 145-363 and 931. -/
inductive Kind
  | pubkeys
  | blindingKey
  | btcTxid
  | eltTxid
  | bye
  | other
  deriving DecidableEq

/-- `[msg_type, data]`, line 909. -/
structure Msg where
  kind : Kind
  data : List Bytes

/-- An exception in a call: `JSONRPCError`, or another. -/
inductive Fault
  | rpc
  | other

/-- What `getrawtransaction(txid, 1)` returns: the entries `confirmations` (not there for a transaction without
confirmations), `hex` and `vout`. -/
structure Info where
  confirmations : Option Int
  hex : Bytes
  vout : List JsonOut

/-- What a participant asks of the world. -/
inductive Query
  /-- `pipe.send`, line 909 -/
  | send (m : Msg)
  /-- `pipe.poll(60)` and `pipe.recv`, lines 892-894 -/
  | recv
  /-- `getrawtransaction(txid, 1)` -/
  | tx (c : Chain) (txid : Bytes)
  /-- the answers for one pass of `wait_spend_reveal_transaction` -/
  | look (txid : Bytes)
  /-- `sendtoaddress` of Bob, line 352: to this script -/
  | payBtc (spk : Bytes) (amount : Int)
  /-- `sendtoaddress` of Alice, line 221: to this script and blinding key -/
  | payElt (spk pub : Bytes) (amount : Int)
  /-- `sendrawtransaction` -/
  | sendBtc (t : BtcTx)
  | sendElt (t : Tx)
  /-- `ensure_rpc_connected`, lines 957-963 -/
  | ping (c : Chain)

/-- What is answered if there is no exception. -/
@[reducible] def Val : Query → Type
  | .send _ => Unit
  | .recv => Option Msg
  | .tx _ _ => Info
  | .look _ => SwapWatch.View
  | .payBtc _ _ => Bytes
  | .payElt _ _ _ => Bytes
  | .sendBtc _ => Bytes
  | .sendElt _ => Bytes
  | .ping _ => Unit

abbrev Ans (q : Query) : Type := Except Fault (Val q)

/-- A program. -/
inductive Prog
  /-- the function returns -/
  | finish
  /-- an exception that the function does not catch -/
  | raise
  /-- `die(msg, peacefully)`; also what `recv` does for `bye!`, lines 896-900 -/
  | die (peacefully : Bool)
  /-- in a loop that has not ended so far -/
  | waiting
  /-- `last_wish_func = w` -/
  | wish (w next : Prog)
  | ask (q : Query) (next : Ans q → Prog)

/-- A call whose exceptions are not caught. -/
def call (q : Query) (next : Val q → Prog) : Prog :=
  .ask q fun
    | .ok a => next a
    | .error _ => .raise

/-- A computation. -/
def compute {α : Type} : Except CrossSwap.Stop α → (α → Prog) → Prog
  | .ok a, next => next a
  | .error .die, _ => .die false
  | .error (.raise _), _ => .raise

/-- `recv(expected_type)`, lines 891-906. -/
def recv (expected : Kind) (next : List Bytes → Prog) : Prog :=
  call .recv fun
    | none => .die false
    | some (m : Msg) =>
      if m.kind = .bye then .die true
      else if m.kind ≠ expected then .die false
      else next m.data

/-- `wait_confirm`, lines 1012-1031, with so many attempts left. -/
def waitConfirm (c : Chain) (txid : Bytes) (num : Int) : Nat → Prog → Prog
  | 0, _ => .die false
  | k + 1, next => .ask (.tx c txid) fun
    | .ok (i : Info) => if i.confirmations.getD 0 ≥ num then next else waitConfirm c txid num k next
    | .error .rpc => waitConfirm c txid num k next
    | .error .other => .raise

/-- The loops of lines 518-523 and 567-572, for so many passes. -/
def waitTimeout (c : Chain) (txid : Bytes) (timeout : Int) : Nat → (Info → Prog) → Prog
  | 0, _ => .waiting
  | k + 1, next => call (.tx c txid) fun (i : Info) =>
    match i.confirmations with
    | none => .raise
    | some n => if n < timeout then waitTimeout c txid timeout k next else next i

/-- `wait_spend_reveal_transaction`, lines 966-1009, for so many passes. -/
def waitReveal (txid : Bytes) : Option Bytes → Nat → (Bytes → Prog) → Prog
  | _, 0, _ => .waiting
  | cur, k + 1, next => call (.look txid) fun (v : SwapWatch.View) =>
    match SwapWatch.pass txid cur v with
    | .found id => next id
    | .die => .die true
    | .waiting cur => waitReveal txid cur k next

/-- What the participants use. -/
structure Kit where
  E : Env
  W : SwapSpend.World
  B : Btc
  /-- `CBitcoinTransaction.deserialize`, line 202 -/
  parseBtc : Bytes → Except PyErr BtcTx
  /-- how many passes the loops without an end make -/
  passes : Nat

/-- What Alice draws, lines 137-142, and new addresses. -/
structure AliceOwn where
  blindingKey : Bytes
  btcKey : Bytes
  exitKey : Bytes
  dst : Addr
  dummy : Bytes
  rand : Nat → Bytes
  btcDst : Bytes

/-- `alice_last_wish_func`, lines 224-226: `try_reclaim_elt`, lines 554-599. -/
def aliceWish (K : Kit) (a : Alice) (txid : Bytes) : Prog :=
  call (.ping .elt) fun _ =>
  waitTimeout .elt txid elementsTimeout K.passes fun i =>
  compute (up (deserializeTx i.hex)) fun tx =>
  compute (aliceReclaim K.E K.W a txid tx) fun t =>
  call (.sendElt t) fun id =>
  waitConfirm .elt id 3 60 .finish

/-- `alice` after the deposit, lines 224-301. -/
def alicePaid (K : Kit) (a : Alice) (x : AliceBtc) (btcTxid : Bytes) (n : Nat) (txid : Bytes) : Prog :=
  .wish (aliceWish K a txid) <|
  waitConfirm .elt txid 2 60 <|
  call (.send ⟨.eltTxid, [txid]⟩) fun _ =>
  waitReveal txid none K.passes fun sr =>
  call (.tx .elt sr) fun (i : Info) =>
  waitConfirm .elt sr 2 60 <|
  compute (up (deserializeTx i.hex)) fun tx =>
  compute (aliceClaim K.E K.W K.B a x txid tx btcTxid n) fun t =>
  call (.sendBtc t) fun id =>
  waitConfirm .btc id 3 60 .finish

/-- `alice` with the transaction id of Bob's deposit, lines 178-222. -/
def aliceTold (K : Kit) (a : Alice) (x : AliceBtc) (contract btcTxid : Bytes) : Prog :=
  compute (up (aliceBtcContract K.E K.W a x)) fun _ =>
  call (.tx .btc btcTxid) fun (i : Info) =>
  match i.confirmations with
  | none => .raise
  | some c =>
    if c < 6 then .die false
    else
    compute (up (K.parseBtc i.hex)) fun tx =>
    compute (aliceChecks K.E K.W K.B a x c tx) fun n =>
    call (.payElt (p2sh K.W contract) (K.E.z.pubOf a.blindingKey) agreed) fun txid =>
    alicePaid K a x btcTxid n txid

/-- `alice` with Bob's public keys, lines 150-176. -/
def aliceKeys (K : Kit) (o : AliceOwn) (contractPub bobPub exitPub : Bytes) : Prog :=
  let a : Alice := ⟨o.exitKey, o.blindingKey, contractPub, bobPub, o.dst, o.dummy, o.rand⟩
  let x : AliceBtc := ⟨o.btcKey, exitPub, o.btcDst⟩
  compute (up (aliceContract K.E K.W a)) fun contract =>
  recv .btcTxid fun
    | [btcTxid] => aliceTold K a x contract btcTxid
    | _ => .raise

/-- `alice`, lines 124-301. -/
def alice (K : Kit) (o : AliceOwn) : Prog :=
  call (.send ⟨.pubkeys, [K.E.z.pubOf o.btcKey, K.E.z.pubOf o.exitKey]⟩) fun _ =>
  call (.send ⟨.blindingKey, [o.blindingKey]⟩) fun _ =>
  recv .pubkeys fun
    | [contractPub, bobPub, exitPub] => aliceKeys K o contractPub bobPub exitPub
    | _ => .raise

/-- What Bob draws, lines 323-328, and new addresses. -/
structure BobOwn where
  contractKey : Bytes
  spendKey : Bytes
  exitKey : Bytes
  dst : Addr
  dummy : Bytes
  rand : Nat → Bytes
  btcDst : Bytes

/-- `bob_last_wish_func`, lines 354-356: `try_reclaim_btc`, lines 502-551. -/
def bobWish (K : Kit) (b : Bob) (x : BobBtc) (txid : Bytes) : Prog :=
  call (.ping .btc) fun _ =>
  waitTimeout .btc txid bitcoinTimeout K.passes fun i =>
  compute (bobReclaim K.E K.W K.B b x txid i.vout) fun t =>
  call (.sendBtc t) fun id =>
  waitConfirm .btc id 3 60 .finish

/-- `bob` with the transaction id of Alice's deposit, lines 365-419. -/
def bobTold (K : Kit) (b : Bob) (txid : Bytes) : Prog :=
  compute (up (bobContract K.E K.W b)) fun _ =>
  call (.tx .elt txid) fun (i : Info) =>
  match i.confirmations with
  | none => .raise
  | some c =>
    if c < 2 then .die false
    else
    compute (up (deserializeTx i.hex)) fun tx =>
    compute (bobClaim K.E K.W b txid c tx) fun t =>
    call (.sendElt t) fun id =>
    waitConfirm .elt id 2 60 .finish

/-- `bob` after the deposit, lines 354-363. -/
def bobPaid (K : Kit) (b : Bob) (x : BobBtc) (txid : Bytes) : Prog :=
  .wish (bobWish K b x txid) <|
  waitConfirm .btc txid 6 60 <|
  call (.send ⟨.btcTxid, [txid]⟩) fun _ =>
  recv .eltTxid fun
    | [elt] => bobTold K b elt
    | _ => .raise

/-- `bob` with what Alice sent, lines 320-352.  `CKey.from_secret_bytes` checks the key. -/
def bobKeys (K : Kit) (o : BobOwn) (alicePub exitPub blindingKey : Bytes) : Prog :=
  if !K.E.z.secValid blindingKey then .raise
  else
  let b : Bob := ⟨o.contractKey, blindingKey, o.spendKey, exitPub, o.dst, o.dummy, o.rand⟩
  let x : BobBtc := ⟨o.exitKey, alicePub, o.btcDst⟩
  compute (up (K.W.addPubs (K.E.z.pubOf o.contractKey) (K.E.z.pubOf blindingKey))) fun _ =>
  call (.send ⟨.pubkeys, [K.E.z.pubOf o.contractKey, K.E.z.pubOf o.spendKey, K.E.z.pubOf o.exitKey]⟩) fun _ =>
  compute (up (bobBtcContract K.E K.W b x)) fun contract =>
  call (.payBtc (p2wsh K.B contract) agreed) fun txid =>
  bobPaid K b x txid

/-- `bob`, lines 304-419. -/
def bob (K : Kit) (o : BobOwn) : Prog :=
  recv .pubkeys fun
    | [alicePub, exitPub] => recv .blindingKey fun
      | [blindingKey] => bobKeys K o alicePub exitPub blindingKey
      | _ => .raise
    | _ => .raise

/-- What has happened: a question with its answer, or the last wish begins. -/
inductive Event
  | did (q : Query) (a : Ans q)
  | wished

/-- The world: it answers, knowing what has happened so far. -/
def Environment : Type := List Event → (q : Query) → Ans q

/-- How the function of a participant ends. -/
inductive End
  | finished
  | raised
  | died (peacefully : Bool)
  | waiting
  deriving DecidableEq

/-- A function runs: how it ends, `last_wish_func` then, and what has happened. -/
def exec (w : Environment) : Prog → Option Prog → List Event → End × Option Prog × List Event
  | .finish, l, t => (.finished, l, t)
  | .raise, l, t => (.raised, l, t)
  | .die p, l, t => (.died p, l, t)
  | .waiting, l, t => (.waiting, l, t)
  | .wish p k, _, t => exec w k (some p) t
  | .ask q k, l, t => exec w (k (w t q)) l (t ++ [.did q (w t q)])

/-- `do_last_wish`, lines 875-883.  A last wish itself has no last wish any more: line 882, and neither of the two
assigns `last_wish_func`. -/
def lastWish (w : Environment) : Option Prog → List Event → End × List Event
  | none, t => (.finished, t)
  | some p, t =>
    let r := exec w p none (t ++ [.wished])
    (r.1, r.2.2)

/-- How the process of a participant ends. -/
inductive Over
  /-- the function has returned -/
  | done
  /-- `sys.exit(-1)` -/
  | exit
  /-- an exception in the handler of exceptions -/
  | crash
  | waiting
  deriving DecidableEq

/-- `send('bye!')` and `sys.exit(-1)`, lines 931-932. -/
def bye (w : Environment) (t : List Event) : Over × List Event :=
  match w t (.send ⟨.bye, []⟩) with
  | .ok a => (.exit, t ++ [.did (.send ⟨.bye, []⟩) (.ok a)])
  | .error e => (.crash, t ++ [.did (.send ⟨.bye, []⟩) (.error e)])

/-- `participant`, lines 863-932.  `die` (lines 885-888) runs the last wish before it raises or exits; the handler of
exceptions runs it otherwise. -/
def participant (w : Environment) (p : Prog) : Over × List Event :=
  match exec w p none [] with
  | (.finished, _, t) => (.done, t)
  | (.waiting, _, t) => (.waiting, t)
  | (.died peacefully, l, t) =>
    match lastWish w l t with
    | (.finished, t) => if peacefully then (.exit, t) else bye w t
    | (.waiting, t) => (.waiting, t)
    | (.died true, t) => (.exit, t)
    | (_, t) => bye w t
  | (.raised, l, t) =>
    match lastWish w l t with
    | (.finished, t) => bye w t
    | (.waiting, t) => (.waiting, t)
    | (.died true, t) => (.exit, t)
    | (_, t) => (.crash, t)

end Verif.SwapRun
