import Verif.Spec.BlindDone
import Verif.Spec.Zkp
/-
What a surjection proof says: that the generator of the output and the generator of one of the
targets differ by a known multiple of the base point, hence belong to the same asset.
-/
namespace Verif

/-- Targets of which the asset is known: the generator is that of the asset, blinded by the
factor or not at all. -/
inductive KnownTarget (z : Zkp) : Target → Prop
  | blinded (a g r : Bytes) : z.generateBlinded a r = some g → KnownTarget z ⟨a, g, r⟩
  | plain (a g : Bytes) : z.generate a = some g → KnownTarget z ⟨a, g, List.replicate 32 0⟩

/-- A surjection proof of `asset`, blinded by `abf` to `gen`, with respect to the targets `L`: the
library selects a target among at most three, makes the proof from the factor of that target and
the factor of the output, and verifies it. -/
structure SurjectionMade (z : Zkp) (L : List Target) (asset abf gen proof : Bytes) (i : Nat) (t : Target) : Prop where
  selected : L[i]? = some t
  calls : ∃ seed h h', z.surjInit (L.map Target.asset).flatten L.length (min 3 L.length) asset 100 seed = some (h, i) ∧
    z.surjGenerate h (L.map Target.gen).flatten L.length gen i t.blinder abf = some h' ∧
    z.surjVerify h' (L.map Target.gen).flatten L.length gen = true ∧ z.surjSerialize h' = some proof

/-- Promise: initialization selects a target with the asset of the output. -/
def InitMatches (z : Zkp) : Prop :=
  ∀ (tags : List Bytes) (k : Nat) (tag : Bytes) (it : Nat) (seed h : Bytes) (i : Nat), (∀ x ∈ tags, x.length = 32) →
    z.surjInit tags.flatten tags.length k tag it seed = some (h, i) → tags[i]? = some tag

end Verif
