import Verif.Sighash
import Verif.Spec.WireTx
import Verif.Spec.Collision
/-
What a segwit v0 signature hash must commit to.
-/
namespace Verif.Spec

/-- Arguments of a segwit v0 signature hash. -/
structure SigCall where
  script : Bytes
  tx : Tx
  idx : Nat
  ht : Nat
  amount : Bytes

/-- Only the signed input is covered: bit 7. -/
def AnyoneCanPay (ht : Nat) : Prop := ht / 128 % 2 = 1
/-- Low five bits 2: no outputs. -/
def OutNone (ht : Nat) : Prop := ht % 32 = 2
/-- Low five bits 3: the output with the index of the input. -/
def OutSingle (ht : Nat) : Prop := ht % 32 = 3
/-- All outputs. -/
def OutAll (ht : Nat) : Prop := ¬ OutNone ht ∧ ¬ OutSingle ht

instance (ht) : Decidable (AnyoneCanPay ht) := by unfold AnyoneCanPay; infer_instance
instance (ht) : Decidable (OutNone ht) := by unfold OutNone; infer_instance
instance (ht) : Decidable (OutSingle ht) := by unfold OutSingle; infer_instance
instance (ht) : Decidable (OutAll ht) := by unfold OutAll; infer_instance

/-- What a hash can see of the signed input. -/
def signedView (i : TxIn) : OutPoint × Nat × Issuance := (i.prevout, i.nSequence, i.assetIssuance)
/-- What a hash can see of any input, sequence number aside. -/
def spendView (i : TxIn) : OutPoint × Issuance := (i.prevout, i.assetIssuance)

/-- Confidential fields are null, explicit or committed; scripts are not oversized. -/
structure SigCall.WF (c : SigCall) : Prop where
  vout : ∀ o ∈ c.tx.vout, WFOut o
  vin : ∀ i ∈ c.tx.vin, WFIssuance i.assetIssuance
  amount : ValidField 9 8 9 c.amount
  script : c.script.length ≤ maxItem

/-- The two calls agree on everything their hash types cover. -/
structure V0Agree (c d : SigCall) : Prop where
  ht : c.ht = d.ht
  version : c.tx.nVersion = d.tx.nVersion
  locktime : c.tx.nLockTime = d.tx.nLockTime
  script : c.script = d.script
  amount : c.amount = d.amount
  signed : ∃ i j, c.tx.vin[c.idx]? = some i ∧ d.tx.vin[d.idx]? = some j ∧ i.prevout = j.prevout ∧
    i.nSequence = j.nSequence ∧ i.assetIssuance = j.assetIssuance
  prevouts : ¬ AnyoneCanPay c.ht → c.tx.vin.map (·.prevout) = d.tx.vin.map (·.prevout)
  issuances : ¬ AnyoneCanPay c.ht →
    (∀ (k : Nat) (i j : TxIn), c.tx.vin[k]? = some i → d.tx.vin[k]? = some j →
      (NoIssue i.assetIssuance ↔ NoIssue j.assetIssuance)) →
    c.tx.vin.map (·.assetIssuance) = d.tx.vin.map (·.assetIssuance)
  sequences : ¬ AnyoneCanPay c.ht → OutAll c.ht → c.tx.vin.map (·.nSequence) = d.tx.vin.map (·.nSequence)
  outputs : OutAll c.ht → c.tx.vout = d.tx.vout
  output : OutSingle c.ht → c.tx.vout[c.idx]? = d.tx.vout[d.idx]?

/-- `x` is one of the strings hashed while the call is answered. -/
def V0Hashed (h : HashFn) (c : SigCall) (x : Bytes) : Prop :=
  ∃ p, v0Parts c.tx c.idx c.ht = .ok p ∧
    (p.prevouts = some x ∨ p.issuance = some x ∨ p.sequence = some x ∨ p.outputs = some x ∨
      v0Preimage h c.script c.tx c.idx c.ht c.amount p = .ok x)

/-- A collision between a string hashed in one call and one hashed in the other. -/
def V0Collision (h : HashFn) (c d : SigCall) : Prop :=
  ∃ x y, V0Hashed h c x ∧ V0Hashed h d y ∧ DblCollAt h.fn x y

/-- A hashed string whose double hash is 32 zero bytes. -/
def V0Zero (h : HashFn) (c d : SigCall) : Prop :=
  ∃ x, (V0Hashed h c x ∨ V0Hashed h d x) ∧ h.fn (h.fn x) = List.replicate 32 0

end Verif.Spec
