import Verif.Bytes
import Verif.CrossSwap
/-
How Alice waits for Bob's transaction: `wait_spend_reveal_transaction`,
examples/confidential-cross-chain-atomic-swap.py:966-1009.

The answers of the node during one pass of the loop are given; time does not exist.  Transaction ids and
block hashes are byte strings.  Errors of `getblock` other than -5 are left out.
-/
namespace Verif.SwapWatch
open Verif

/-- A transaction as the node describes it: its id and the entries `txid` of its inputs, line 999 (a coinbase has none). -/
structure Seen where
  id : Bytes
  spends : List Bytes

/-- A block as the node describes it, lines 987 and 1002. -/
structure Block where
  txs : List Seen
  next : Option Bytes

/-- What the node answers: confirmations and block of the deposit (lines 970-982), and blocks (`none` is error -5). -/
structure View where
  confirmations : Nat
  blockhash : Option Bytes
  block : Bytes → Option Block

/-- How waiting can end, or go on with a block to look at (`current_blockhash`). -/
inductive Outcome
  | found (id : Bytes)
  | die
  | waiting (at_ : Option Bytes)
  deriving DecidableEq

/-- Looking through a block, lines 996-1000. -/
def spender (deposit : Bytes) : List Seen → Option Bytes
  | [] => none
  | t :: ts => if deposit ∈ t.spends then some t.id else spender deposit ts

/-- One pass of the loop, lines 970-1009. -/
def pass (deposit : Bytes) (cur : Option Bytes) (v : View) : Outcome :=
  if v.confirmations > CrossSwap.elementsTimeout then .die
  else match cur with
    | none => .waiting v.blockhash
    | some h =>
      match v.block h with
      | none => .waiting none
      | some b =>
        match spender deposit b.txs with
        | some id => .found id
        | none => .waiting (some (b.next.getD h))

/-- The passes for these answers. -/
def passes (deposit : Bytes) : Option Bytes → List View → Outcome
  | cur, [] => .waiting cur
  | cur, v :: vs =>
    match pass deposit cur v with
    | .waiting cur => passes deposit cur vs
    | o => o

/-- `wait_spend_reveal_transaction`, lines 966-1009. -/
def watch (deposit : Bytes) (vs : List View) : Outcome := passes deposit none vs

end Verif.SwapWatch
