import Verif.Props.AssetPair
import Verif.Props.AssetJointToy
/-
C85 holds of something: two processes that finish, and two that do not.
-/
namespace Verif.AssetPair.Toy
open Verif Spec Spec.Assets AssetSwap AssetSwap.Toy AssetRun AssetRun.Toy Verif.Toy

/-- One process takes a step, if it has not to wait. -/
def answer (w : Environment) (s : Side) : Option (Side × List Msg) :=
  match s.proc with
  | .over _ => none
  | .asks (.send m) k => some (⟨k (.ok ()), s.trace ++ [.did (.send m) (.ok ())], s.inbox⟩, [m])
  | .asks (.recv n) k =>
    match s.inbox with
    | [] => none
    | m :: l => some (⟨k (.ok (some m)), s.trace ++ [.did (.recv n) (.ok (some m))], l⟩, [])
  | .asks q k => some (⟨k (w s.trace q), s.trace ++ [.did q (w s.trace q)], s.inbox⟩, [])

/-- Alice goes first. -/
def next (w w' : Environment) (s : State) : Option State :=
  match answer w s.alice with
  | some (a, out) => some ⟨a, { s.bob with inbox := s.bob.inbox ++ out }⟩
  | none =>
    match answer w' s.bob with
    | some (b, out) => some ⟨{ s.alice with inbox := s.alice.inbox ++ out }, b⟩
    | none => none

def steps (w w' : Environment) : Nat → State → State
  | 0, s => s
  | n + 1, s => match next w w' s with
    | some s' => steps w w' n s'
    | none => s

theorem answer_step {w : Environment} (hw : ∀ t q, ofNode q = true → Plausible q (w t q)) {s s' : Side} {out : List Msg} (h : answer w s = some (s', out)) :
    ∃ q k a l', s.proc = .asks q k ∧ Answers s.inbox q a l' out ∧ Plausible q a ∧ s' = ⟨k a, s.trace ++ [.did q a], l'⟩ := by
  obtain ⟨p, t, l⟩ := s
  cases p with
  | over o => cases h
  | asks q k =>
    cases q with
    | send m =>
      cases h
      exact ⟨_, _, _, _, rfl, .sent _ _, trivial, rfl⟩
    | recv n =>
      cases l with
      | nil => cases h
      | cons m l =>
        cases h
        exact ⟨_, _, _, _, rfl, .received _ _ _, trivial, rfl⟩
    | _ =>
      cases h
      exact ⟨_, _, _, _, rfl, .node _ _ _ rfl, hw _ _ rfl, rfl⟩

theorem steps_reach {w w' : Environment} (hw : ∀ t q, ofNode q = true → Plausible q (w t q)) (hw' : ∀ t q, ofNode q = true → Plausible q (w' t q)) (n : Nat)
    {s0 s : State} (h : Reaches Plausible s0 s) : Reaches Plausible s0 (steps w w' n s) := by
  induction n generalizing s with
  | zero => exact h
  | succ n ih =>
    rw [steps]
    split
    · rename_i s' hs
      refine ih (.step h ?_)
      obtain ⟨⟨p, t, l⟩, ⟨p', t', l'⟩⟩ := s
      unfold next at hs
      split at hs
      · rename_i a out ha
        cases hs
        obtain ⟨q, k, r, m, h1, h2, h3, rfl⟩ := answer_step hw ha
        cases h1
        exact .alice q k r t l m out _ h2 h3
      · split at hs
        · rename_i b out hb
          cases hs
          obtain ⟨q, k, r, m, h1, h2, h3, rfl⟩ := answer_step hw' hb
          cases h1
          exact .bob q k r t' l' m out _ h2 h3
        · cases hs
    · exact h

theorem plausibleAlice (last : Option Msg) (t : List Event) (q : Query) : ofNode q = true → Plausible q (toAlice last t q) := by
  intro hq
  cases q with
  | unspent lo hi id =>
    have h1 := (fit last).utxos t lo hi id
    have h2 := joint.index t lo hi id
    rw [show toAlice _ t (.unspent lo hi id) = toAlice last t (.unspent lo hi id) by simp only [toAlice]] at h2
    generalize hx : toAlice last t (.unspent lo hi id) = x
    cases x with
    | error => trivial
    | ok l => exact fun v hv => ⟨h2 l v hx hv, fun k hk => h1 l v k hx hv hk⟩
  | key a => simp [Plausible, toAlice, b32]
  | newAddr => exact addr_ok _ _
  | recv => cases hq
  | send => cases hq
  | _ => simp [Plausible]

theorem plausibleBob (semi : Bytes) (t : List Event) (q : Query) : ofNode q = true → Plausible q (toBob semi t q) := by
  intro hq
  cases q with
  | unspent lo hi id =>
    have h1 := (fitBob semi).utxos t lo hi id
    have h2 := joint.indexBob t lo hi id
    rw [show toBob (bytesOf second) t (.unspent lo hi id) = toBob semi t (.unspent lo hi id) by simp only [toBob]] at h2
    generalize hx : toBob semi t (.unspent lo hi id) = x
    cases x with
    | error => trivial
    | ok l => exact fun v hv => ⟨h2 l v hx hv, fun k hk => h1 l v k hx hv hk⟩
  | key a => simp [Plausible, toBob, b32]
  | newAddr =>
    simp only [toBob]
    split <;> exact addr_ok _ _
  | recv => cases hq
  | send => cases hq
  | _ => simp [Plausible]

theorem kits : Kits K KB := ⟨rfl, rfl, sizes, formats, rewinds, wireSizes⟩

/-- What becomes of it when nobody waits too long. -/
def final : State := steps (toAlice none) (toBob []) 200 (State.start K KB)

theorem final_reached : Reaches Plausible (State.start K KB) final := steps_reach (plausibleAlice none) (plausibleBob []) 200 .here

def isDone : Proc → Bool
  | .over .done => true
  | _ => false

theorem done_of {p : Proc} (h : isDone p = true) : p = .over .done := by
  match p with
  | .over .done => rfl

theorem final_done : isDone final.alice.proc = true ∧ isDone final.bob.proc = true := by decide +kernel

attribute [local irreducible] final

example : ∃ u a b, SwappedAlice K final.alice.trace final.bob.trace u a b ∧ SwappedBob final.bob.trace a b ∧ final.alice.proc = .over .done :=
  C85_bob_done kits final_reached (done_of final_done.2)

example : ∃ u a b, SwappedAlice K final.alice.trace final.bob.trace u a b := C85_alice_done kits final_reached (done_of final_done.1)

end Verif.AssetPair.Toy
