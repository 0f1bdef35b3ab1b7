import Verif.Props.AssetHonestRun
import Verif.Props.AssetHonestToy
/-
C96: somebody for whom it holds, and what goes wrong.
-/
namespace Verif.AssetPair.Toy
open Verif Spec Spec.Assets AssetSwap AssetSwap.Toy AssetRun Verif.Toy

def scene : Scene where
  E := env
  W := W
  N := verifier
  a := honestAlice
  b := honestBob
  x1 := (addr 31 2, b32 31)
  x2 := (addr 32 3, b32 32)
  changeKey := b32 22
  spent := [ownedOut 4 8 50 .p2wpkh, ownedOut 1 5 30 .p2pkh, ownedOut 2 6 40 .p2wpkh, ownedOut 3 7 30000 .p2sh]
  rest := fun k => b32 (k % 1000 + 5)

theorem scene_honest : scene.Honest Good (fun _ => True) where
  works := allWorks
  owned := honest
  change := receives 22 1
  assets := by decide +kernel
  keys := by
    have hd : (honestAlice.utxos.map Utxo.addr).Nodup := by decide +kernel
    intro u hu v hv e
    rw [List.inj_on_of_nodup_map hd hu hv e]

end Verif.AssetPair.Toy

namespace Verif.AssetPair
open Verif Spec Spec.Assets

/- These two swap. -/
example : ∃ s, HonestRun Toy.scene.aliceNode Toy.scene.bobNode Toy.scene.start s ∧ s.alice.proc = .over .done ∧ s.bob.proc = .over .done ∧
    ∃ x t, Toy.scene.Swapped s.alice.trace s.bob.trace x t :=
  C96_swaps_partial Verif.Toy.keeps Toy.scene_honest .here

/-- **C96.** Not so with nodes as they are. -/
theorem C96_statement_false : ¬ C96_statement := by
  intro h
  obtain ⟨s, hr, ha, hb, -⟩ := C96_race Verif.Toy.keeps Toy.scene_honest
  rcases h Toy.scene _ _ _ _ Verif.Toy.keeps Toy.scene_honest s hr with ⟨s', hs⟩ | ⟨-, hd⟩
  · cases hs <;> first | cases ha | cases hb
  · rw [hb] at hd
    cases hd

end Verif.AssetPair
