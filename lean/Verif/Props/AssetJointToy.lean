import Verif.Props.AssetJoint
import Verif.Props.AssetRunToy
/-
C84 holds of something: a swap that takes place.
-/
namespace Verif.AssetRun.Toy
open Verif Spec Spec.Assets AssetSwap AssetSwap.Toy Verif.Toy

deriving instance DecidableEq for Data

def sent (m : Msg) : Event → Bool
  | .did (.send m') (.ok _) => decide (m'.kind = m.kind) && decide (m'.data = m.data)
  | _ => false

def answeredBy (t' : List Event) : Event → Bool
  | .did (.recv _) (.ok (some m)) => t'.any (sent m)
  | _ => true

theorem hears_of {t t' : List Event} (h : t.all (answeredBy t') = true) : Hears t t' := by
  intro n m hm
  have := List.all_eq_true.1 h _ hm
  obtain ⟨e, he, hs⟩ := List.any_eq_true.1 (show t'.any (sent m) = true from this)
  obtain ⟨q, a⟩ := e
  cases q with
  | send m' =>
    cases a with
    | error => cases hs
    | ok u =>
      simp only [sent, Bool.and_eq_true, decide_eq_true_eq] at hs
      obtain ⟨k, d⟩ := m
      obtain ⟨k', d'⟩ := m'
      obtain ⟨rfl, rfl⟩ := hs
      exact he
  | _ => cases hs

/-- Both run to the end, with what the other sends. -/
theorem joint : Run K KB (toAlice (some ⟨.final, .bytes (bytesOf third)⟩)) (toBob (bytesOf second)) where
  env := rfl
  world := rfl
  linked := ⟨hears_of (by decide +kernel), hears_of (by decide +kernel)⟩
  fit := fit _
  fitBob := fitBob _
  wire := wireSizes
  index t lo hi id l v h hv := by
    simp only [toAlice] at h
    split at h
    · cases h; rw [List.mem_singleton.1 hv]; decide
    · split at h
      · cases h; rw [List.mem_singleton.1 hv]; decide
      · split at h
        · cases h; rw [List.mem_singleton.1 hv]; decide
        · cases h; cases hv
  indexBob t lo hi id l v h hv := by
    simp only [toBob] at h
    split at h
    · cases h; rw [List.mem_singleton.1 hv]; decide
    · cases h; cases hv

attribute [local irreducible] participant

example : ∃ u a b, SwappedAlice K (participant (toAlice (some ⟨.final, .bytes (bytesOf third)⟩)) (alice K)).2
    (participant (toBob (bytesOf second)) (AssetRun.bob KB)).2 u a b :=
  C84_alice_done joint aliceDone

example : ∃ u a b, SwappedAlice K (participant (toAlice (some ⟨.final, .bytes (bytesOf third)⟩)) (alice K)).2
    (participant (toBob (bytesOf second)) (AssetRun.bob KB)).2 u a b ∧ SwappedBob (participant (toBob (bytesOf second)) (AssetRun.bob KB)).2 a b :=
  C84_bob_done joint bobDone

end Verif.AssetRun.Toy
