import Verif.Props.SwapBoth
import Verif.Props.SwapRunToy
/-
C87 is false in full: who does not see the claim confirmed takes back too.
-/
namespace Verif.SwapRun.Toy
open Verif Spec CrossSwap SwapSpend SwapBtc SwapRun Verif.Toy SwapSpend.Toy SwapBtc.Toy

def tookElt : Event → Bool
  | .did (.sendElt _) (.ok _) => true
  | _ => false
def tookBtc : Event → Bool
  | .did (.sendBtc _) (.ok _) => true
  | _ => false

/-- The claims stay without confirmations, and the deposits get old. -/
def lateBob : Environment := fun t q => match q with
  | .tx .elt id => if id = b32 9 then .ok (⟨none, claimHex, []⟩ : Info) else node (some 6) (.tx .elt id)
  | q => toBob (some 15) (some 6) t q
def lateAlice : Environment := fun t q => match q with
  | .tx .btc id => if id = b32 22 then .ok (⟨none, [], listed⟩ : Info) else node (some 6) (.tx .btc id)
  | .tx .elt id => node (if t.any tookBtc then some 11 else some 6) (.tx .elt id)
  | q => toAlice (some 6) (some 6) t q

theorem elt_of {t : List Event} (h : t.any tookElt = true) : ∃ c id, Answered t (.sendElt c) id := by
  obtain ⟨e, he, hp⟩ := any_of h
  obtain ⟨q, a⟩ | _ := e
  · cases q with
    | sendElt c =>
      cases a with
      | ok id => exact ⟨c, id, he⟩
      | error => cases hp
    | _ => cases hp
  · cases hp

theorem btc_of {t : List Event} (h : t.any tookBtc = true) : ∃ c id, Answered t (.sendBtc c) id := by
  obtain ⟨e, he, hp⟩ := any_of h
  obtain ⟨q, a⟩ | _ := e
  · cases q with
    | sendBtc c =>
      cases a with
      | ok id => exact ⟨c, id, he⟩
      | error => cases hp
    | _ => cases hp
  · cases hp

/-- Bob has the asset and takes the bitcoins too; both transactions are accepted. -/
theorem bobBoth : (participant lateBob (bob K ob)).2.any tookElt = true ∧ (participant lateBob (bob K ob)).2.any tookBtc = true := by decide +kernel

theorem aliceBoth : (participant lateAlice (alice K o)).2.any tookElt = true ∧ (participant lateAlice (alice K o)).2.any tookBtc = true := by
  decide +kernel

/-- **C87.** The full claim is false, for both. -/
theorem C87_statement_false : ¬ C87_bob (fun t => ∃ c id, Answered t (.sendElt c) id) ∧ ¬ C87_alice (fun t => ∃ c id, Answered t (.sendBtc c) id) := by
  refine ⟨fun h => ?_, fun h => ?_⟩
  · obtain ⟨c, id, hc⟩ := btc_of bobBoth.2
    exact h K ob lateBob fitBob (elt_of bobBoth.1) c _ hc
  · obtain ⟨c, id, hc⟩ := elt_of aliceBoth.1
    exact h K o lateAlice fit (btc_of aliceBoth.2) c _ hc

example : ¬ C87_statement := fun h => C87_statement_false.1 h.1

attribute [local irreducible] participant

/-- After a transaction of Bob's, an answer with enough confirmations. -/
def bobLater : List Event → Bool
  | [] => false
  | .did (.sendElt _) (.ok (id : Bytes)) :: t =>
    (t.any fun | .did (.tx .elt id') (.ok (i : Info)) => id' = id && i.confirmations = some 6 | _ => false) || bobLater t
  | _ :: t => bobLater t
def aliceLater : List Event → Bool
  | [] => false
  | .did (.sendBtc _) (.ok (id : Bytes)) :: t =>
    (t.any fun | .did (.tx .btc id') (.ok (i : Info)) => id' = id && i.confirmations = some 6 | _ => false) || aliceLater t
  | _ :: t => aliceLater t

theorem bobLater_claimed {t : List Event} (h : bobLater t = true) : BobClaimed t := by
  have cons : ∀ {t : List Event} (e : Event), BobClaimed t → BobClaimed (e :: t) := fun e ⟨pre, c, id, post, h, hc⟩ =>
    ⟨e :: pre, c, id, post, by rw [h]; rfl, hc⟩
  induction t using bobLater.induct with
  | case1 => cases h
  | case2 t c id ih =>
    rw [bobLater, Bool.or_eq_true] at h
    rcases h with h | h
    · obtain ⟨e, he, hp⟩ := any_of h
      split at hp
      · simp only [Bool.and_eq_true, decide_eq_true_eq] at hp
        obtain ⟨rfl, hp⟩ := hp
        exact ⟨[], _, _, _, rfl, _, he, 6, hp, by decide⟩
      · cases hp
    · exact cons _ (ih h)
  | case3 e t hn ih => exact cons _ (ih (by rw [bobLater] at h; exact h; exact hn))

theorem aliceLater_claimed {t : List Event} (h : aliceLater t = true) : AliceClaimed t := by
  have cons : ∀ {t : List Event} (e : Event), AliceClaimed t → AliceClaimed (e :: t) := fun e ⟨pre, c, id, post, h, hc⟩ =>
    ⟨e :: pre, c, id, post, by rw [h]; rfl, hc⟩
  induction t using aliceLater.induct with
  | case1 => cases h
  | case2 t c id ih =>
    rw [aliceLater, Bool.or_eq_true] at h
    rcases h with h | h
    · obtain ⟨e, he, hp⟩ := any_of h
      split at hp
      · simp only [Bool.and_eq_true, decide_eq_true_eq] at hp
        obtain ⟨rfl, hp⟩ := hp
        exact ⟨[], _, _, _, rfl, _, he, 6, hp, by decide⟩
      · cases hp
    · exact cons _ (ih h)
  | case3 e t hn ih => exact cons _ (ih (by rw [aliceLater] at h; exact h; exact hn))

/-- Claims that are confirmed; `C87_bob_partial` and `C87_alice_partial` speak of these. -/
theorem bobClaimed : BobClaimed (participant (toBob (some 15) (some 6)) (bob K ob)).2 := bobLater_claimed (by decide +kernel)
theorem aliceClaimed : AliceClaimed (participant (toAlice (some 6) (some 6)) (alice K o)).2 := aliceLater_claimed (by decide +kernel)

example (c : BtcTx) (a : Ans (.sendBtc c)) : Event.did (.sendBtc c) a ∉ (participant (toBob (some 15) (some 6)) (bob K ob)).2 :=
  C87_bob_partial K ob _ fitBob bobClaimed c a
example (c : Tx) (a : Ans (.sendElt c)) : Event.did (.sendElt c) a ∉ (participant (toAlice (some 6) (some 6)) (alice K o)).2 :=
  C87_alice_partial K o _ fit aliceClaimed c a
/-- `C87_bob_order` speaks of this run. -/
example : ∃ pre c id post, (participant lateBob (bob K ob)).2 = pre ++ Event.did (.sendBtc c) (.ok id) :: post :=
  let ⟨c, id, h⟩ := btc_of bobBoth.2
  let ⟨pre, post, e⟩ := List.append_of_mem h
  ⟨pre, c, id, post, e⟩
example : ∃ pre c id post, (participant lateAlice (alice K o)).2 = pre ++ Event.did (.sendElt c) (.ok id) :: post :=
  let ⟨c, id, h⟩ := elt_of aliceBoth.1
  let ⟨pre, post, e⟩ := List.append_of_mem h
  ⟨pre, c, id, post, e⟩

end Verif.SwapRun.Toy
