import Verif.Spec.Balance
import Verif.Spec.Targets
/-
Several parties make one transaction: each in turn appends inputs and outputs and blinds what it
appended, knowing nothing of the inputs of the others but their asset commitments.
-/
namespace Verif

/-- The own part of what a party passes to blinding: descriptors of own inputs, issuance keys from
the first own input on. -/
def BlindArgs.own (A : BlindArgs) (descs : List Desc) (n : Nat) : BlindArgs :=
  { A with descs, assetKeys := A.assetKeys.drop n, tokenKeys := A.tokenKeys.drop n }

/-- One party's turn. `tx` is what the party was given, `tx2` what it passes to blinding, `tx'` what
came out. -/
structure Turn (E : Env) (A : BlindArgs) (foreign own : List Desc) (ins : List TxIn) (outs : List TxOut)
    (tx tx2 tx' : Tx) : Prop where
  vin : tx2.vin = tx.vin ++ ins
  vout : tx2.vout = tx.vout ++ outs
  descs : A.descs = foreign ++ own
  count : foreign.length = tx.vin.length
  /-- nothing is known of how the inputs of others are hidden -/
  unknown : ∀ d ∈ foreign, d.blinded = false
  /-- no keys for the issuances of others -/
  keys : ∀ i token, i < tx.vin.length → A.issuanceKey i token = none
  /-- taken alone, the own part spends what it pays, in every asset -/
  balance : AmountsBalance E (A.own own tx.vin.length) { tx2 with vin := ins, vout := outs }
  /-- blinding succeeded, there was something to blind, and all of it was -/
  done : ∃ num bfs abfs, blindTransaction E A tx2 = (.ok (.success num bfs abfs), tx')
  some : ∃ j, A.pubkeys.getD j [] ≠ []
  all : ∀ j, A.pubkeys.getD j [] ≠ [] → IsValueCommitment (tx'.vout.getD j {}).nValue
  sizes : ∀ t ∈ tx2.vin, InputSizes t
  fine : KeysFine A tx2

/-- A transaction made in turns, with the descriptors of all its inputs, of which every party knew
only its own. -/
inductive Joint (E : Env) : List Desc → Tx → Prop
  | start {tx : Tx} : tx.vin = [] → tx.vout = [] → Joint E [] tx
  | turn {A : BlindArgs} {known foreign own : List Desc} {ins : List TxIn} {outs : List TxOut} {tx tx2 tx' : Tx} :
      Joint E known tx → Turn E A foreign own ins outs tx tx2 tx' → Joint E (known ++ own) tx'

end Verif
