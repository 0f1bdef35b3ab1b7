import Verif.SwapWatch
/-
A chain of blocks and what a node that has some of it answers.
-/
namespace Verif.Spec
open Verif SwapWatch

/-- A chain: the hash and the transactions of every block. -/
abbrev Chain := List (Bytes × List Seen)

/-- The node has the first `len` blocks of the chain; the deposit is in block `d`. -/
structure Answers (chain : Chain) (d len : Nat) (v : View) : Prop where
  le : len ≤ chain.length
  deposit : v.blockhash = if d < len then (chain[d]?).map Prod.fst else none
  known : ∀ k h ts, k < len → chain[k]? = some (h, ts) →
    v.block h = some ⟨ts, if k + 1 < len then (chain[k + 1]?).map Prod.fst else none⟩
  unknown : ∀ k h ts, len ≤ k → chain[k]? = some (h, ts) → v.block h = none

/-- Transaction `p` of block `c` of the chain, which is after the deposit or in its block, spends an output of the deposit. -/
def SpendsAt (chain : Chain) (d : Nat) (deposit : Bytes) (c p : Nat) (id : Bytes) : Prop :=
  d ≤ c ∧ ∃ h ts t, chain[c]? = some (h, ts) ∧ ts[p]? = some t ∧ t.id = id ∧ deposit ∈ t.spends

/-- It is the first one. -/
def FirstSpends (chain : Chain) (d : Nat) (deposit : Bytes) (c p : Nat) (id : Bytes) : Prop :=
  SpendsAt chain d deposit c p id ∧
    ∀ c' p' id', c' < c ∨ (c' = c ∧ p' < p) → ¬ SpendsAt chain d deposit c' p' id'

end Verif.Spec
