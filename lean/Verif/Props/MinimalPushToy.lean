import Verif.Props.MinimalPush
import Verif.Props.SwapSpendToy
/-
C104: transactions that meet the hypotheses, and a key for which the contract is not as nodes want it.
-/
namespace Verif.SwapSpend.Toy
open Verif Spec CrossSwap SwapSpend Toy

theorem signs (k d : Bytes) : W.sign k d ≠ [] := by
  show (2 :: k).take 80 ≠ []
  simp

theorem reveals (k : Bytes) : (rBytes W.r).length + 6 ≤ (W.revealSign k).length := by
  show _ ≤ ([0x30, 37, 0x02, 32] ++ beBytes 32 C66Toy.half ++ [0x02, 1, 1] : Bytes).length
  decide +kernel

example : ∃ t, bobClaim env W bob (b32 8) 2 (deposit 101000000) = .ok t ∧ Interp.MinimalPushes (t.vin.getD 0 default).scriptSig := by
  obtain ⟨t, h⟩ := claims
  exact ⟨t, h, C104_claim keySizes signs reveals h⟩

example : ∃ t, aliceReclaim env W alice (b32 8) (deposit 101000000) = .ok t ∧ Interp.MinimalPushes (t.vin.getD 0 default).scriptSig := by
  obtain ⟨t, h⟩ := reclaims
  exact ⟨t, h, C104_reclaim keySizes signs h⟩

-- a key of one byte, which nobody refuses
example : ¬ Interp.MinimalPushes (btcContract (2 :: b32 1) [5]) := by
  rw [C104_coins (by decide) (by decide)]
  rintro ⟨-, h⟩
  exact h ⟨5, rfl, .inl (by decide)⟩

example : Interp.MinimalPushes (eltContract W.r (2 :: b32 1) (2 :: b32 2) (2 :: b32 3)) :=
  (C104_asset (by decide) (by decide) (by decide)).2 ⟨not_own (by decide +kernel), not_own (by decide), not_own (by decide), not_own (by decide)⟩

end Verif.SwapSpend.Toy
