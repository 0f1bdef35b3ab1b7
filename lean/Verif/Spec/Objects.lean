import Verif.Objects
/-
Sharing between objects.
-/
namespace Verif

/-- Objects an object in a heap refers to. -/
def refsAt (h : Heap) (r : Ref) : List Ref :=
  match h[r]? with
  | some c => c.body.refs
  | none => []

/-- An object, what it refers to, and so on, `k` steps deep.  The parts of a transaction are
at most two steps away: inputs, outputs and the witness, then outpoints and witnesses of
inputs and outputs. -/
def reach : Nat → Heap → Ref → List Ref
  | 0, _, r => [r]
  | k + 1, h, r => r :: (refsAt h r).flatMap (reach k h)

/-- All parts of a transaction. -/
def txParts (h : Heap) (r : Ref) : List Ref := reach 2 h r

/-- Addresses of `bytearray`s that an object holds. -/
def Body.arrays : Body → List Nat
  | .inwit _ a k _ => [a, k].filterMap fun | .array x => some x | .bytes _ => none
  | .outwit a k => [a, k].filterMap fun | .array x => some x | .bytes _ => none
  | _ => []

/-- What the constructors guarantee: immutable objects refer to immutable objects only, and
immutable input witnesses hold `bytes`. -/
structure WellMade (h : Heap) : Prop where
  closed : ∀ (r : Ref) (b : Body), h[r]? = some (ObjCell.mk false b) → ∀ x ∈ b.refs, ∃ b', h[x]? = some (ObjCell.mk false b')
  frozen : ∀ (r : Ref) s a k p, h[r]? = some (ObjCell.mk false (.inwit s a k p)) → (Body.inwit s a k p).arrays = []

/-- `bytearray`s held by the parts of a transaction. -/
def txArrays (h : Heap) (r : Ref) : List Nat :=
  (txParts h r).flatMap fun x => match h[x]? with | some c => c.body.arrays | none => []

/-- Some object holds this `bytearray`. -/
def HeldBySome (h : Heap) (a : Nat) : Prop := ∃ (r : Ref) (c : ObjCell), h[r]? = some c ∧ a ∈ c.body.arrays

/-- A program that starts with the objects in `K` and the `bytearray`s `A`, and uses nothing
but these and the objects it makes. -/
def Uses (A : Nat → Prop) : List Ref → Heap → List Act → Prop
  | _, _, [] => True
  | K, h, .set r b :: as => r ∈ K ∧ (∀ x ∈ b.refs, x ∈ K) ∧ (∀ a ∈ b.arrays, A a) ∧ Uses A K (actHeap h (.set r b)) as
  | K, h, .new c :: as => (∀ x ∈ c.body.refs, x ∈ K) ∧ (∀ a ∈ c.body.arrays, A a) ∧ Uses A (h.length :: K) (actHeap h (.new c)) as
  | K, h, .poke a b :: as => A a ∧ Uses A K (actHeap h (.poke a b)) as

/-- The program got hold of nothing but one transaction: its parts, the `bytearray`s these
hold, and new ones. -/
def UsesTx (h : Heap) (r : Ref) (as : List Act) : Prop :=
  Uses (fun a => a ∈ txArrays h r ∨ ¬ HeldBySome h a) (txParts h r) h as

/-- The output witnesses of a transaction hold `bytes`. -/
def PlainProofs (h : Heap) (r : Ref) : Prop :=
  ∀ x ∈ txParts h r, ∀ c s p, h[x]? = some (ObjCell.mk c (.outwit s p)) → (Body.outwit s p).arrays = []

/-- The same transaction, up to how a witness without content is spelled. -/
def SameTx (t t' : Tx) : Prop :=
  t' = t ∨ t.wit.isNull = true ∧ t' = { t with wit := emptyWitness t.vin.length t.vout.length }

end Verif
