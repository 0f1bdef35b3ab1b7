import Verif.Spec.SwapRun
/-
Nobody has both.
-/
namespace Verif.Spec
open Verif SwapSpend SwapBtc SwapRun

/-- Bob's claim was accepted, and then the node said that it is confirmed. -/
def BobClaimed (t : List Event) : Prop :=
  ∃ pre c id post, t = pre ++ Event.did (.sendElt c) (.ok id) :: post ∧ Confirmed post .elt id 2

/-- Alice's claim was accepted, and then the node said that it is confirmed. -/
def AliceClaimed (t : List Event) : Prop :=
  ∃ pre c id post, t = pre ++ Event.did (.sendBtc c) (.ok id) :: post ∧ Confirmed post .btc id 3

end Verif.Spec
