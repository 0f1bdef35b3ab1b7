import Verif.Spec.SwapRun
import Verif.Spec.NodeSpend
/-
C99: the limits of nodes for scripts, and what a participant of the cross-chain swap may expect of their own node.
-/
namespace Verif.Spec.Interp
open Verif

/-- Operations that are not pushes. -/
def Op.counted : Op → Bool
  | .push _ => false
  | .code _ => true

/-- What nodes demand of every script that they run, of parts that are skipped as well: at most 10000 bytes, at most 520 in a push, and at
most 201 operations that are not pushes. -/
structure Within (script : Bytes) : Prop where
  size : script.length ≤ 10000
  ops : ∃ ops, parse script = some ops ∧ (∀ d, Op.push d ∈ ops → d.length ≤ 520) ∧ ops.countP Op.counted ≤ 201

/-- Spending a pay-to-script-hash output within the limits. -/
def NodeSpendsP2SH (c : Ctx) (redeem scriptSig : Bytes) : Prop := SpendsP2SH c redeem scriptSig ∧ Within scriptSig ∧ Within redeem

/-- What the conditions of the branches are taken from when a script runs: the items that OP_IF finds on the stack, outside of branches that
are skipped. -/
def conditions (c : Ctx) : List Op → List Bool → List Bytes → List Bytes
  | [], _, _ => []
  | .push d :: ops, cs, st => conditions c ops cs (if cs.all id then d :: st else st)
  | .code o :: ops, cs, st =>
    if o = 0x63 then
      if cs.all id then
        match st with
        | [] => []
        | v :: t => v :: conditions c ops (truth v :: cs) t
      else conditions c ops (false :: cs) st
    else if o = 0x67 then
      match cs with
      | [] => []
      | b :: bs => conditions c ops ((!b) :: bs) st
    else if o = 0x68 then
      match cs with
      | [] => []
      | _ :: bs => conditions c ops bs st
    else if cs.all id then
      match step c o st with
      | none => []
      | some st' => conditions c ops cs st'
    else conditions c ops cs st

/-- What nodes demand of a witness script and its stack before they pass the transaction on: at most 3600 bytes, at most 100 items, and
conditions that are nothing or 01 (the rule called MINIMALIF). -/
structure Relayed (c : Ctx) (script : Bytes) (st : List Bytes) : Prop where
  size : script.length ≤ 3600
  items : st.length ≤ 100
  minimal : ∃ ops, parse script = some ops ∧ ∀ v ∈ conditions c ops [] st, v = [] ∨ v = [1]

end Verif.Spec.Interp

namespace Verif.Spec
open Verif Interp SwapSpend SwapBtc SwapRun

/-- A witness that unlocks the hash of a script, within the limits and in a way that is passed on. -/
def NodeSpendsP2WSH (B : Btc) (c : Interp.Ctx) (program : Bytes) (witness : List Bytes) : Prop :=
  SpendsP2WSH B c program witness ∧ ∃ st redeem, witness = st ++ [redeem] ∧ Within redeem ∧ Relayed c redeem st.reverse

/-- Alice's wallet has paid the agreed amount of the asset to this script, with output `n` of `tx`, and the node shows that transaction, in
some block, whenever it is asked; the secrets that Alice draws are usable with those that open the output. -/
structure OwnElt (K : Kit) (Good Asset : Bytes → Prop) (o : AliceOwn) (w : Environment) (spk id : Bytes) (tx : Tx) (n : Nat) (out : TxOut)
    (bf abf : Bytes) : Prop where
  size : id.length = 32
  index : n < 2 ^ 30
  first : FirstTo spk tx.vout n out
  witness : n < tx.wit.vtxoutwit.length
  opens : unblind K.E o.blindingKey out.nValue out.nAsset out.nNonce out.scriptPubKey (tx.outWit n).rangeproof =
    .ok (.success K.W.asset 101000000 bf abf)
  usable : Usable K.E K.W Good Asset o.dst o.dummy o.rand bf abf
  shown : ∀ t, ∃ i : Info, w t (.tx .elt id) = .ok i ∧ i.confirmations ≠ none ∧ deserializeTx i.hex = .ok tx

/-- Bob's wallet has paid to this script, with output `n` of the transaction, which the node describes, in some block, whenever it is asked;
a transaction that takes it back can be written. -/
structure OwnBtc (K : Kit) (ob : BobOwn) (w : Environment) (spk id : Bytes) (n : Nat) : Prop where
  size : id.length = 32
  index : n < 2 ^ 32
  shown : ∀ t, ∃ i : Info, w t (.tx .btc id) = .ok i ∧ i.confirmations ≠ none ∧ FirstListed spk i.vout n
  written : ∀ t, BtcSwept ob.btcDst id n 15 t → ∃ b, K.B.serialize t = .ok b

end Verif.Spec
