import Verif.Props.SwapPair
import Verif.Props.SwapJointToy
/-
C86 holds of something: two processes that finish.
-/
namespace Verif.SwapPair.Toy
open Verif Spec CrossSwap SwapSpend SwapBtc SwapRun SwapRun.Toy

/-- One process takes a step, if it has not to wait. -/
def answer (w : Environment) (s : Side) : Option (Side × List Msg) :=
  match s.proc with
  | .over _ => none
  | .wishes p => some (⟨p, s.trace ++ [.wished], s.inbox⟩, [])
  | .asks (.send m) k => some (⟨k (.ok ()), s.trace ++ [.did (.send m) (.ok ())], s.inbox⟩, [m])
  | .asks .recv k =>
    match s.inbox with
    | [] => none
    | m :: l => some (⟨k (.ok (some m)), s.trace ++ [.did .recv (.ok (some m))], l⟩, [])
  | .asks q k => some (⟨k (w s.trace q), s.trace ++ [.did q (w s.trace q)], s.inbox⟩, [])

/-- Alice goes first. -/
def next (w w' : Environment) (s : State) : Option State :=
  match answer w s.alice with
  | some (a, out) => some ⟨a, { s.bob with inbox := s.bob.inbox ++ out }⟩
  | none =>
    match answer w' s.bob with
    | some (b, out) => some ⟨{ s.alice with inbox := s.alice.inbox ++ out }, b⟩
    | none => none

def steps (w w' : Environment) : Nat → State → State
  | 0, s => s
  | n + 1, s => match next w w' s with
    | some s' => steps w w' n s'
    | none => s

theorem answer_step {w : Environment} {s s' : Side} {out : List Msg} (h : answer w s = some (s', out)) :
    (∃ q k a l', s.proc = .asks q k ∧ Answers s.inbox q a l' out ∧ s' = ⟨k a, s.trace ++ [.did q a], l'⟩) ∨
      ∃ p, s.proc = .wishes p ∧ out = [] ∧ s' = ⟨p, s.trace ++ [.wished], s.inbox⟩ := by
  obtain ⟨p, t, l⟩ := s
  cases p with
  | over o => cases h
  | wishes p =>
    cases h
    exact .inr ⟨_, rfl, rfl, rfl⟩
  | asks q k =>
    refine .inl ?_
    cases q with
    | send m =>
      cases h
      exact ⟨_, _, _, _, rfl, .sent _ _, rfl⟩
    | recv =>
      cases l with
      | nil => cases h
      | cons m l =>
        cases h
        exact ⟨_, _, _, _, rfl, .received _ _, rfl⟩
    | _ =>
      cases h
      exact ⟨_, _, _, _, rfl, .node _ _ _ rfl, rfl⟩

theorem steps_reach {w w' : Environment} (n : Nat) {s0 s : State} (h : Reaches (fun _ _ => True) s0 s) :
    Reaches (fun _ _ => True) s0 (steps w w' n s) := by
  induction n generalizing s with
  | zero => exact h
  | succ n ih =>
    rw [steps]
    split
    · rename_i s' hs
      refine ih (.step h ?_)
      obtain ⟨⟨p, t, l⟩, ⟨p', t', l'⟩⟩ := s
      unfold next at hs
      split at hs
      · rename_i a out ha
        cases hs
        obtain ⟨q, k, r, m, h1, h2, rfl⟩ | ⟨q, h1, rfl, rfl⟩ := answer_step ha
        · cases h1
          exact .alice q k r t l m out _ h2 trivial
        · cases h1
          simpa using Step.aliceWishes (ok := fun _ _ => True) q t l ⟨p', t', l'⟩
      · split at hs
        · rename_i b out hb
          cases hs
          obtain ⟨q, k, r, m, h1, h2, rfl⟩ | ⟨q, h1, rfl, rfl⟩ := answer_step hb
          · cases h1
            exact .bob q k r t' l' m out _ h2 trivial
          · cases h1
            simpa using Step.bobWishes (ok := fun _ _ => True) q t' l' ⟨p, t, l⟩
        · cases hs
    · exact h

theorem kits : Kits K K o ob := ⟨rfl, fit, fitBob⟩

/-- What becomes of it when the deposits have six confirmations. -/
def final : State := steps (toAlice (some 6) (some 6)) (toBob (some 6) (some 6)) 100 (State.start K K o ob)

theorem final_reached : Reaches (fun _ _ => True) (State.start K K o ob) final := steps_reach 100 .here

def isOver (x : Over) : Proc → Bool
  | .over y => decide (x = y)
  | _ => false

theorem over_of {x : Over} {p : Proc} (h : isOver x p = true) : p = .over x := by
  cases p with
  | over y => rw [of_decide_eq_true h]
  | _ => cases h

theorem final_done : isOver .done final.alice.proc = true ∧ isOver .done final.bob.proc = true := by decide +kernel

attribute [local irreducible] final

example : Swapped K o ob final.alice.trace final.bob.trace :=
  C86_done kits final_reached (over_of final_done.1) (over_of final_done.2)

/-- And when the asset has more than ten confirmations before Bob claims: both leave, with what they had. -/
def late : State := steps (toAlice (some 6) (some 11)) (toBob (some 15) (some 1)) 300 (State.start K K o ob)

theorem late_reached : Reaches (fun _ _ => True) (State.start K K o ob) late := steps_reach 300 .here

theorem late_left : isOver .exit late.alice.proc = true ∧ isOver .exit late.bob.proc = true ∧
    late.alice.trace.any isPaid = true ∧ late.alice.trace.any isSent = true ∧ late.bob.trace.any isSent = true := by decide +kernel

end Verif.SwapPair.Toy
