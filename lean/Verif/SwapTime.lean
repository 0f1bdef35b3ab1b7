import Verif.CrossSwap
/-
The timing of examples/confidential-cross-chain-atomic-swap.py: Alice as the example has them act,
against a Bob who sends whatever they like whenever they like.

One round is one pass of `miner` (lines 423-430): the participants look at both chains, send their
transactions, then each chain gets one block with every transaction that is valid by then.  Alice's
loops poll more often than blocks arrive, so they see every round.  If both spend the same deposit
in one round, Bob's transaction is taken.
-/
namespace Verif.SwapTime
open Verif

/-- The constants of the protocol. -/
structure Params where
  /-- `bitcoin_contract_timeout` -/
  btcTimeout : Nat
  /-- `elements_contract_timeout` -/
  eltTimeout : Nat
  /-- confirmations Alice asks for before they pay (line 185) -/
  fundConf : Nat
  /-- rounds Alice waits for a message: 60 seconds (line 891), a block each two seconds (line 430) -/
  recvRounds : Nat

/-- The values in the example, lines 103, 104, 185, 891 and 430. -/
def code : Params := ⟨CrossSwap.bitcoinTimeout, CrossSwap.elementsTimeout, 6, 30⟩

inductive Who
  | alice
  | bob
  deriving DecidableEq

/-- Where Alice is. -/
inductive Phase
  /-- in `recv('btc_txid')`, line 176, for so many rounds -/
  | waitTxid (n : Nat)
  /-- in `wait_confirm(contract_txid, num_confirms=2)`, line 230 -/
  | waitElt
  /-- in `wait_spend_reveal_transaction`, line 235 -/
  | watch
  /-- in `wait_confirm(sr_txid, num_confirms=2)`, line 241 -/
  | waitReveal
  /-- Bitcoin claim sent, line 297 -/
  | claimed
  /-- refund sent by `try_reclaim_elt`, line 590 -/
  | refunded
  /-- stopped without anything left to send -/
  | dead
  deriving DecidableEq

structure State where
  /-- confirmations of Bob's Bitcoin deposit -/
  btc : Nat
  /-- confirmations of Alice's Elements deposit, once it is sent -/
  elt : Option Nat
  /-- who has spent the Bitcoin deposit -/
  btcBy : Option Who
  /-- who has spent the Elements deposit, and the confirmations of that transaction -/
  eltBy : Option (Who × Nat)
  phase : Phase
  deriving DecidableEq

/-- Bob's Bitcoin deposit has just been sent. -/
def init : State := ⟨0, none, none, none, .waitTxid 0⟩

/-- What Bob does in a round: send the message `btc_txid`, a claim of the Elements deposit, a refund
of the Bitcoin deposit. -/
structure Move where
  announce : Bool
  claim : Bool
  refund : Bool
  deriving DecidableEq

/-- What Alice sends in a round. -/
inductive Send
  | nothing
  | fund
  | refundElt
  | claimBtc
  deriving DecidableEq

/-- Alice's part of a round. -/
def alice (p : Params) (s : State) (announce : Bool) : Phase × Send :=
  match s.phase with
  | .waitTxid n =>
    if announce then
      if s.btc < p.fundConf then (.dead, .nothing)                       -- 185-186, nothing to undo yet
      else (.waitElt, .fund)                                             -- 221-222
    else if n < p.recvRounds then (.waitTxid (n + 1), .nothing)
    else (.dead, .nothing)                                               -- 892-893
  | .waitElt => if s.elt.getD 0 ≥ 2 then (.watch, .nothing) else (.waitElt, .nothing)
  | .watch =>
    if s.elt.getD 0 > p.eltTimeout then                                  -- 971-973, then 224-226
      if s.eltBy = none then (.refunded, .refundElt)
      else (.dead, .nothing)                                             -- the refund is rejected
    else if s.eltBy = none then (.watch, .nothing)
    else (.waitReveal, .nothing)                                         -- 996-1000
  | .waitReveal => if (s.eltBy.map (·.2)).getD 0 ≥ 2 then (.claimed, .claimBtc) else (.waitReveal, .nothing)
  | ph => (ph, .nothing)

/-- One round.  A refund is valid when the deposit has as many confirmations as the lock has blocks
(BIP 68). -/
def round (p : Params) (s : State) (m : Move) : State :=
  let (phase, send) := alice p s m.announce
  let elt := if send = .fund then some 0 else s.elt
  { btc := s.btc + 1
    elt := elt.map (· + 1)
    btcBy := match s.btcBy with
      | some w => some w
      | none =>
        if m.refund ∧ p.btcTimeout ≤ s.btc then some .bob
        else if send = .claimBtc then some .alice else none
    eltBy := match s.eltBy with
      | some (w, n) => some (w, n + 1)
      | none =>
        if m.claim ∧ elt ≠ none then some (.bob, 1)
        else if send = .refundElt ∧ p.eltTimeout ≤ elt.getD 0 then some (.alice, 1) else none
    phase := phase }

/-- The state after Bob's moves. -/
def run (p : Params) (ms : List Move) : State := ms.foldl (round p) init

end Verif.SwapTime
