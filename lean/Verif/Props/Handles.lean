import Verif.Spec.Handles
import Verif.BlindLemmas
import Verif.Props.BlindDone
/-
C64: no proof object is leaked, freed twice or used after it was freed.
-/
namespace Verif

/-- The calls on the object inside `try` keep it alive. -/
theorem proofBody_live (z : Zkp) (gens blinders : List Bytes) (ab gen proof : Bytes) (idx : Nat) (r : List HandleOp) :
    HandleState.live.run ((proofBody z gens blinders ab gen proof idx).2 ++ r) = HandleState.live.run r := by
  unfold proofBody
  split
  · rfl
  split
  · rfl
  split
  · rfl
  split
  · rfl
  split <;> rfl

/-- C64.  However `generate_surjectionproof` ends, the object was freed exactly if there was
one, and never used without being there. -/
theorem C64_handle (z : Zkp) (targets gens blinders : List Bytes) (assetblind gen asset seed : Bytes) :
    let ops := (generateSurjectionproof z targets gens blinders assetblind gen asset seed).2
    HandleState.none.run ops = some (if HandleOp.allocate true ∈ ops then .freed else .none) := by
  intro ops
  have ho : ops = (generateSurjectionproof z targets gens blinders assetblind gen asset seed).2 := rfl
  clear_value ops
  unfold generateSurjectionproof at ho
  cases hb : buildAligned targets 32 with
  | error e => rw [hb] at ho; subst ho; rfl
  | ok tags =>
    rw [hb] at ho
    dsimp only at ho
    cases hi : z.surjInit tags targets.length (min 3 targets.length) asset 100 seed with
    | none => rw [hi] at ho; subst ho; rfl
    | some p =>
      obtain ⟨p, idx⟩ := p
      rw [hi] at ho
      subst ho
      rw [if_pos (List.mem_cons_self ..)]
      show HandleState.live.run _ = _
      rw [proofBody_live]
      rfl

/-- C64, the model of blinding: what `generate_surjectionproof` returns or raises. -/
theorem C64_refines (z : Zkp) (targets gens blinders : List Bytes) (assetblind gen asset seed : Bytes) :
    (generateSurjectionproof z targets gens blinders assetblind gen asset seed).1 =
      surjectionProof z targets gens blinders assetblind gen asset seed := by
  unfold generateSurjectionproof surjectionProof
  cases buildAligned targets 32 with
  | error e => rfl
  | ok tags =>
    simp only [bind, Except.bind]
    cases z.surjInit tags targets.length (min 3 targets.length) asset 100 seed with
    | none => rfl
    | some p =>
      obtain ⟨p, idx⟩ := p
      dsimp only
      unfold proofBody
      cases buildAligned gens 64 with
      | error e => rfl
      | ok eph =>
        dsimp only
        cases blinders[idx]? with
        | none => rfl
        | some b =>
          dsimp only
          cases z.surjGenerate p eph gens.length gen idx b assetblind with
          | none => rfl
          | some q =>
            simp only [orRuntime]
            by_cases hv : z.surjVerify q eph gens.length gen = true
            · simp only [hv]
              cases z.surjSerialize q <;> rfl
            · simp only [hv]
              rfl

/-- C64: a proof is returned only after generating, verifying and serializing, in this order; and
`None` only if no object was allocated. -/
theorem C64_calls (z : Zkp) (targets gens blinders : List Bytes) (assetblind gen asset seed : Bytes) :
    let r := generateSurjectionproof z targets gens blinders assetblind gen asset seed
    (∀ p, r.1 = .ok (some p) → r.2 = [.allocate true, .generate, .verify, .size, .serialize, .destroy]) ∧
    (r.1 = .ok none → r.2 = [.allocate false]) := by
  intro r
  have hr : r = generateSurjectionproof z targets gens blinders assetblind gen asset seed := rfl
  clear_value r
  unfold generateSurjectionproof at hr
  split at hr
  · subst hr; exact ⟨fun p h => (by cases h), fun h => (by cases h)⟩
  split at hr
  · subst hr; exact ⟨fun p h => (by cases h), fun _ => rfl⟩
  · rename_i tags _ _ p idx _
    dsimp only at hr
    have hp : ∀ s, (proofBody z gens blinders assetblind gen p idx).1 = .ok s →
        (proofBody z gens blinders assetblind gen p idx).2 = [.generate, .verify, .size, .serialize] := by
      intro s
      unfold proofBody
      split
      · intro h; cases h
      split
      · intro h; cases h
      split
      · intro h; cases h
      split
      · intro h; cases h
      split
      · intro h; cases h
      · intro _; rfl
    subst hr
    dsimp only
    cases hb : (proofBody z gens blinders assetblind gen p idx).1 with
    | error e => exact ⟨fun p h => (by cases h), fun h => (by cases h)⟩
    | ok s =>
      rw [hp s hb]
      exact ⟨fun _ _ => rfl, fun h => by cases h⟩

-- a proof, no proof, and an exception after the object was allocated
example : let r := generateSurjectionproof Toy.zkp [Toy.b32 5] [Toy.b32 1 ++ Toy.b32 5] [Toy.b32 4] (Toy.b32 6) (Toy.b32 1 ++ Toy.b32 11) (Toy.b32 5) (Toy.b32 9)
    r.1 = .ok (some [1]) ∧ HandleState.none.run r.2 = some .freed := by decide +kernel
example : (generateSurjectionproof Toy.zkp [Toy.b32 5] [] [] [] [] (Toy.b32 6) []).2 = [.allocate false] := by decide +kernel
example : generateSurjectionproof Toy.zkp [Toy.b32 5] [[]] [] [] [] (Toy.b32 5) [] = (.error .assertion, [.allocate true, .destroy]) := by
  decide +kernel

end Verif
