import Verif.Props.WalletKeys
import Verif.Props.CrossSwap
/-
C55: who can spend an output that pays to an address.
-/
namespace Verif
open Spec Spec.Interp

/-- What a node asks of the spender of an output for the given kind of address and hash. -/
def Spec.PaysTo (k : Kind) (h s : Bytes) : Prop :=
  match k with
  | .p2pkh => witnessProgram s = none ∧ ¬ IsP2SH s ∧
    ∀ c st, Interp.Accepts c s st ↔ ∃ pub sig t, st = pub :: sig :: t ∧ c.hash160 pub = h ∧ c.checkSig sig pub = true
  | .p2sh => witnessProgram s = none ∧ IsP2SH s ∧
    ∀ c st, Interp.Accepts c s st ↔ ∃ redeem t, st = redeem :: t ∧ c.hash160 redeem = h
  | .p2wpkh => witnessProgram s = some (0, h) ∧ h.length = 20
  | .p2wsh => witnessProgram s = some (0, h) ∧ h.length = 32
  | .p2tr => witnessProgram s = some (1, h) ∧ h.length = 32

theorem parse_p2pkh {h : Bytes} (hl : h.length = 20) :
    parse ([0x76, 0xa9, 0x14] ++ h ++ [0x88, 0xac]) = some [.code 0x76, .code 0xa9, .push h, .code 0x88, .code 0xac] := by
  match h, hl with
  | [a0,a1,a2,a3,a4,a5,a6,a7,a8,a9,b0,b1,b2,b3,b4,b5,b6,b7,b8,b9], _ => rfl

theorem parse_p2sh {h : Bytes} (hl : h.length = 20) :
    parse ([0xa9, 0x14] ++ h ++ [0x87]) = some [.code 0xa9, .push h, .code 0x87] := by
  match h, hl with
  | [a0,a1,a2,a3,a4,a5,a6,a7,a8,a9,b0,b1,b2,b3,b4,b5,b6,b7,b8,b9], _ => rfl

/-- C55: an output for an address is spent by who the address names: the holder of the key with that
hash, the revealer of the script with that hash, or the spender of that witness program. -/
theorem C55_pays (a : Addr) (ha : AddrOk a) (s : Bytes) (h : a.toScriptPubKey = .ok s) : Spec.PaysTo a.kind a.hash s := by
  obtain ⟨hl, rfl⟩ := script_of_addr ha h
  revert hl
  generalize a.hash = x
  cases a.kind with
  | p2pkh =>
    intro hl
    have hl : x.length = 20 := hl
    refine ⟨?_, ?_, fun c st => ?_⟩
    · simp [scriptOf, witnessProgram]
    · simp [scriptOf, IsP2SH]
    · unfold Interp.Accepts
      show (∃ ops v t, parse ([0x76, 0xa9, 0x14] ++ x ++ [0x88, 0xac]) = some ops ∧ _) ↔ _
      rw [parse_p2pkh hl]
      cases st with
      | nil => simp [Interp.run, Interp.step]
      | cons p st =>
        cases st with
        | nil => by_cases hx : x = c.hash160 p <;> simp [Interp.run, Interp.step, hx]
        | cons g st =>
          by_cases hx : x = c.hash160 p
          · by_cases hc : c.checkSig g p = true <;> simp [Interp.run, Interp.step, hx, hc, truth]
          · have : c.hash160 p ≠ x := fun e => hx e.symm
            simp [Interp.run, Interp.step, hx, this]
  | p2sh =>
    intro hl
    have hl : x.length = 20 := hl
    refine ⟨?_, ?_, fun c st => ?_⟩
    · simp [scriptOf, witnessProgram]
    · have : scriptOf .p2sh x = ([0xa9, 0x14] ++ x) ++ [0x87] := rfl
      exact ⟨by rw [this]; simp [hl], rfl, by rw [this, List.getLast?_concat]⟩
    · unfold Interp.Accepts
      show (∃ ops v t, parse ([0xa9, 0x14] ++ x ++ [0x87]) = some ops ∧ _) ↔ _
      rw [parse_p2sh hl]
      cases st with
      | nil => simp [Interp.run, Interp.step]
      | cons p st =>
        by_cases hx : x = c.hash160 p
        · simp [Interp.run, Interp.step, hx, truth]
        · have : c.hash160 p ≠ x := fun e => hx e.symm
          simp [Interp.run, Interp.step, hx, this, truth]
  | p2wpkh =>
    intro hl
    have hl : x.length = 20 := hl
    exact ⟨by simp [scriptOf, witnessProgram, hl], hl⟩
  | p2wsh =>
    intro hl
    have hl : x.length = 32 := hl
    exact ⟨by simp [scriptOf, witnessProgram, hl], hl⟩
  | p2tr =>
    intro hl
    have hl : x.length = 32 := hl
    exact ⟨by simp [scriptOf, witnessProgram, hl], hl⟩

/-- A confidential P2PKH address whose output is spent by the holder of key 7 with signature 9. -/
example : ∃ s, (Addr.mk .liquid .p2pkh true (List.replicate 33 3 ++ List.replicate 20 5)).toScriptPubKey = .ok s ∧
    Interp.Accepts ⟨fun s p => s == [9] && p == [7], fun _ _ _ => false, fun _ => List.replicate 20 5, 2, 0⟩ s [[7], [9]] := by
  refine ⟨_, rfl, ?_⟩
  exact ((C55_pays (Addr.mk .liquid .p2pkh true (List.replicate 33 3 ++ List.replicate 20 5))
    (by simp [AddrOk, Kind.dataLen]) _ rfl).2.2 _ _).2
    ⟨_, _, _, rfl, rfl, rfl⟩

end Verif
