import Verif.Spec.Interp
/-
What the two contracts of the cross-chain swap example are meant to allow.
-/
namespace Verif.Spec
open Verif Verif.Spec.Interp

/-- A claim by the buyer: a true condition, the two parts of a signature whose middle is fixed to
`rb` and which is good for the message 01 under the key to be revealed, and the buyer's own
signature.  Anything may lie underneath. -/
def RevealClaim (c : Ctx) (rb revealPub buyerPub : Bytes) (st : List Bytes) : Prop :=
  ∃ cond pfx sfx sig rest, st = cond :: pfx :: sfx :: sig :: rest ∧ truth cond = true ∧
    (pfx ++ rb ++ sfx).length ≤ 520 ∧ c.checkData (pfx ++ rb ++ sfx) [1] revealPub = true ∧
    c.checkSig sig buyerPub = true

/-- A claim by a buyer who only has to sign. -/
def KeyClaim (c : Ctx) (buyerPub : Bytes) (st : List Bytes) : Prop :=
  ∃ cond sig rest, st = cond :: sig :: rest ∧ truth cond = true ∧ c.checkSig sig buyerPub = true

/-- The seller takes the coins back: a false condition and a signature, in an input whose relative
lock is at least `blocks` blocks. -/
def TimedRefund (c : Ctx) (blocks : Nat) (sellerPub : Bytes) (st : List Bytes) : Prop :=
  ∃ cond sig rest, st = cond :: sig :: rest ∧ truth cond = false ∧ c.checkSig sig sellerPub = true ∧
    2 ≤ c.version ∧ c.sequence.testBit 31 = false ∧ c.sequence.testBit 22 = false ∧
    blocks ≤ c.sequence % 2 ^ 16

end Verif.Spec
