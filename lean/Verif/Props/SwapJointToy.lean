import Verif.Props.SwapJoint
import Verif.Props.SwapRunToy
/-
C83 holds of something: a swap that takes place, and one in which Bob does not claim.
-/
namespace Verif.SwapRun.Toy
open Verif Spec CrossSwap SwapSpend SwapBtc SwapRun Verif.Toy SwapSpend.Toy SwapBtc.Toy

def sent (m : Msg) : Event → Bool
  | .did (.send m') (.ok _) => decide (m'.kind = m.kind) && decide (m'.data = m.data)
  | _ => false

def answeredBy (t' : List Event) : Event → Bool
  | .did .recv (.ok (some m)) => t'.any (sent m)
  | _ => true

theorem hears_of {t t' : List Event} (h : t.all (answeredBy t') = true) : Hears t t' := by
  intro m hm
  have := List.all_eq_true.1 h _ hm
  obtain ⟨e, he, hs⟩ := List.any_eq_true.1 (show t'.any (sent m) = true from this)
  cases e with
  | wished => cases hs
  | did q a =>
    cases q with
    | send m' =>
      cases a with
      | error => cases hs
      | ok u =>
        simp only [sent, Bool.and_eq_true, decide_eq_true_eq] at hs
        obtain ⟨k, d⟩ := m
        obtain ⟨k', d'⟩ := m'
        obtain ⟨rfl, rfl⟩ := hs
        exact he
    | _ => cases hs

/-- Both run to the end, with what the other sends. -/
theorem joint : Run K o ob (participant (toAlice (some 6) (some 6)) (alice K o)) (participant (toBob (some 6) (some 6)) (bob K ob)) where
  alice := ⟨_, rfl⟩
  bob := ⟨_, 3, rfl⟩
  linked := ⟨hears_of (by decide +kernel), hears_of (by decide +kernel)⟩

example : Swapped K o ob (participant (toAlice (some 6) (some 6)) (alice K o)).2 (participant (toBob (some 6) (some 6)) (bob K ob)).2 :=
  C83_done joint fit fitBob aliceDone bobDone

/-- A run in which Alice takes the asset back, and Bob the bitcoins. -/
theorem apart : Run K o ob (participant (toAlice (some 6) (some 11)) (alice K o)) (participant (toBob (some 15) (some 1)) (bob K ob)) where
  alice := ⟨_, rfl⟩
  bob := ⟨_, 3, rfl⟩
  linked := ⟨hears_of (by decide +kernel), hears_of (by decide +kernel)⟩

/-- Alice pays in it, and so Bob has paid. -/
example : ∃ id n, CoinsPaid K o ob (participant (toBob (some 15) (some 1)) (bob K ob)).2 id ∧
    Confirmed (participant (toBob (some 15) (some 1)) (bob K ob)).2 .btc id 6 ∧
    CoinsSeen K o ob (participant (toAlice (some 6) (some 11)) (alice K o)).2 id n := by
  obtain ⟨e, he, hp⟩ := any_of (p := isPaid) (by decide +kernel : (participant (toAlice (some 6) (some 11)) (alice K o)).2.any _ = true)
  obtain ⟨q, a⟩ | _ := e
  · cases q with
    | payElt s p x => exact (C83_alice_pays apart fit fitBob he).2.2
    | payBtc s x => exact absurd trivial (by
        obtain ⟨pre, post, e⟩ := List.append_of_mem he
        exact fun _ => C79_alice fit pre _ _ post e)
    | _ => cases hp
  · cases hp

end Verif.SwapRun.Toy
