import Verif.Spec.Surjection
import Verif.Spec.Buffers
import Verif.Props.BlindDone
import Verif.Props.Results
/-
C63: surjection proofs are made from factors that open what is to be proved.
-/
namespace Verif

/-- What is recorded of every target, whatever the inputs. -/
def Recorded (z : Zkp) (t : Target) : Prop := t.asset.length = 32 ∧ (AllZero t.asset ∨ KnownTarget z t)

theorem push_recorded {n : Nat} {L : List Target} {a g b : Bytes} {t : Targets}
    (h : (Targets.rep n L).push a g b = .ok t) : t = Targets.rep n (L ++ [⟨a, g, b⟩]) := by
  by_cases hn : L.length < n
  · rw [push_rep hn] at h
    exact (Except.ok.inj h).symm
  · unfold Targets.push at h
    obtain ⟨gs, h1, -⟩ := exc_bind_ok.1 h
    unfold setAt at h1
    rw [if_neg (by simp [Targets.rep]; omega)] at h1
    cases h1

/-- The lists hold recorded targets. -/
def Holds (z : Zkp) (n : Nat) (t : Targets) : Prop := ∃ L, t = Targets.rep n L ∧ ∀ x ∈ L, Recorded z x

theorem Holds.push {z : Zkp} {n : Nat} {t t' : Targets} {a g b : Bytes} (h : Holds z n t) (hp : t.push a g b = .ok t')
    (hr : Recorded z ⟨a, g, b⟩) : Holds z n t' := by
  obtain ⟨L, rfl, h⟩ := h
  refine ⟨_, push_recorded hp, ?_⟩
  intro x hx
  rcases List.mem_append.1 hx with hx | hx
  · exact h x hx
  · rw [List.mem_singleton.1 hx]; exact hr

theorem pushIssued_holds {z : Zkp} {n : Nat} {t t' : Targets} {a : Bytes} (h : Holds z n t) (ha : a.length = 32)
    (hp : pushIssued z a t = .ok t') : Holds z n t' := by
  unfold pushIssued at hp
  obtain ⟨g, hg, hp⟩ := exc_bind_ok.1 hp
  exact h.push hp ⟨ha, .inr (.plain a g (orRuntime_ok.1 hg))⟩

theorem issuanceTargets_holds {E : Env} {A : BlindArgs} {i : Nat} {txin : TxIn} {n : Nat} {t t' : Targets} {tok tok' : Option Bytes}
    (h : Holds E.z n t) (ht : ∀ k, tok = some k → k.length = 32) (hp : issuanceTargets E A i txin t tok = .ok (t', tok')) :
    Holds E.z n t' ∧ ∀ k, tok' = some k → k.length = 32 := by
  unfold issuanceTargets at hp
  split at hp
  · cases hp; exact ⟨h, ht⟩
  split at hp
  · cases hp
  split at hp
  · cases hp
  obtain ⟨⟨a, tk⟩, ha, hp⟩ := exc_bind_ok.1 hp
  replace ha := raiseE_ok.1 ha
  have hl : a.length = 32 ∧ ∀ k, tk = some k → k.length = 32 := by
    unfold issuedAsset at ha
    split at ha
    · obtain ⟨e, -, ha⟩ := exc_bind_ok.1 ha
      obtain ⟨x, hx, ha⟩ := exc_bind_ok.1 ha
      obtain ⟨w, hy, ha⟩ := exc_bind_ok.1 ha
      cases ha
      exact ⟨calculateAsset_len hx, fun k hk => by cases hk; exact calculateToken_len hy⟩
    · obtain ⟨x, hx, ha⟩ := exc_bind_ok.1 ha
      cases ha
      exact ⟨calculateAsset_len hx, ht⟩
  dsimp only at hp
  obtain ⟨t1, h1, hp⟩ := exc_bind_ok.1 hp
  obtain ⟨t2, h2, hp⟩ := exc_bind_ok.1 hp
  cases hp
  replace h1 := raiseE_ok.1 h1
  replace h2 := raiseE_ok.1 h2
  have k1 : Holds E.z n t1 := by
    split at h1
    · cases h1; exact h
    · exact pushIssued_holds h hl.1 h1
  refine ⟨?_, hl.2⟩
  split at h2
  · cases h2; exact k1
  · unfold pushToken at h2
    split at h2
    · cases h2
    · split at h2
      · cases h2
      · exact pushIssued_holds k1 (hl.2 _ rfl) h2

theorem inputTargets_holds {E : Env} {A : BlindArgs} {n : Nat} : ∀ {l : List (TxIn × Desc)} {i : Nat} {t t' : Targets} {tok : Option Bytes},
    (∀ p ∈ l, DescSizes p.2) → Holds E.z n t → (∀ k, tok = some k → k.length = 32) → inputTargets E A i l t tok = .ok t' → Holds E.z n t'
  | [], _, _, _, _, _, h, _, hp => by cases hp; exact h
  | (txin, d) :: l, i, t, t', tok, hd, h, ht, hp => by
    unfold inputTargets at hp
    obtain ⟨g, hg, hp⟩ := exc_bind_ok.1 hp
    obtain ⟨t1, h1, hp⟩ := exc_bind_ok.1 hp
    obtain ⟨⟨t2, tok2⟩, h2, hp⟩ := exc_bind_ok.1 hp
    have hd0 := hd _ (List.mem_cons_self ..)
    have hr : Recorded E.z ⟨d.asset, g, d.assetBlindingFactor⟩ := by
      refine ⟨hd0.asset, ?_⟩
      cases inputGenerator_ok.1 hg with
      | own _ _ hg => exact .inr (.blinded _ _ _ hg)
      | foreign _ _ hz => exact .inl hz
    obtain ⟨k1, k2⟩ := issuanceTargets_holds (h.push (raiseE_ok.1 h1) hr) ht h2
    exact inputTargets_holds (fun p hp => hd p (List.mem_cons_of_mem _ hp)) k1 k2 hp

theorem auxTargets_holds {z : Zkp} {n : Nat} : ∀ {k : Nat} {l : List Bytes} {t t' : Targets}, Holds z n t → auxTargets z k l t = .ok t' → Holds z n t'
  | _, [], _, _, h, hp => by cases hp; exact h
  | _, ag :: l, t, t', h, hp => by
    unfold auxTargets at hp
    split at hp
    · cases hp
    · obtain ⟨t1, h1, hp⟩ := exc_bind_ok.1 hp
      refine auxTargets_holds (h.push (raiseE_ok.1 h1) ⟨show zero32.length = 32 by decide, .inl ?_⟩) hp
      show AllZero zero32
      decide

/-- Whatever the inputs, assets, generators and factors are in line, and every asset but zero is
that of its generator. -/
theorem surjTargets_recorded {E : Env} {A : BlindArgs} {tx : Tx} {T : TargetLists} (hd : ∀ d ∈ A.descs, DescSizes d)
    (h : surjTargets E A tx = .ok T) :
    ∃ L : List Target, T = ⟨L.map Target.asset, L.map Target.gen, L.map Target.blinder⟩ ∧ ∀ t ∈ L, Recorded E.z t := by
  unfold surjTargets at h
  obtain ⟨t1, h1, h⟩ := exc_bind_ok.1 h
  obtain ⟨t2, h2, h⟩ := exc_bind_ok.1 h
  have k1 := inputTargets_holds (fun p hp => hd p.2 (List.of_mem_zip hp).2)
    ⟨[], (rep_nil (numTargets A tx)).symm, fun x hx => by cases hx⟩ (fun k hk => by cases hk) h1
  obtain ⟨L, rfl, hL⟩ := auxTargets_holds k1 h2
  replace h := raiseE_ok.1 h
  rw [trim_rep] at h
  exact ⟨L, (Except.ok.inj h).symm, hL⟩

theorem surjectionProof_made {z : Zkp} {L : List Target} {assetblind gen asset seed p : Bytes}
    (h : surjectionProof z (L.map Target.asset) (L.map Target.gen) (L.map Target.blinder) assetblind gen asset seed = .ok (some p)) :
    ∃ i t, SurjectionMade z L asset assetblind gen p i t := by
  unfold surjectionProof at h
  obtain ⟨tags, ht, h⟩ := exc_bind_ok.1 h
  have := buildAligned_ok ht
  subst this
  rw [List.length_map] at h
  split at h
  · cases h
  · rename_i proof idx hi
    obtain ⟨eph, he, h⟩ := exc_bind_ok.1 h
    have := buildAligned_ok he
    subst this
    split at h
    · cases h
    · rename_i b hb
      rw [List.getElem?_map] at hb
      obtain ⟨t, ht', rfl⟩ := Option.map_eq_some_iff.1 hb
      obtain ⟨pr, hg, h⟩ := exc_bind_ok.1 h
      rw [List.length_map] at hg h
      refine ⟨idx, t, ht', seed, proof, pr, hi, orRuntime_ok.1 hg, ?_⟩
      by_cases hv : z.surjVerify pr (L.map Target.gen).flatten L.length gen = true
      · simp only [hv, Bool.not_true, Bool.false_eq_true, if_false] at h
        cases hs : z.surjSerialize pr with
        | none => rw [hs] at h; cases h
        | some q => rw [hs] at h; cases h; exact ⟨hv, rfl⟩
      · simp only [hv, Bool.not_false, if_true] at h
        cases h

/-- C63.  Every surjection proof put in place was made from the blinding factor reported for the
output and the factor of the target that was selected; targets other than unknown ones belong to
their generators. -/
theorem C63_made {E : Env} {A : BlindArgs} {tx tx' : Tx} {num bfs abfs}
    (h : blindTransaction E A tx = (.ok (.success num bfs abfs), tx')) (hd : ∀ d ∈ A.descs, DescSizes d) :
    ∃ L : List Target, (∀ t ∈ L, t.asset.length = 32 ∧ (AllZero t.asset ∨ KnownTarget E.z t)) ∧
      ∀ j, tx'.outWit j ≠ tx.outWit j → ∃ asset gen abf i t, (tx.vout.getD j {}).nAsset = 1 :: asset ∧ abfs[j]? = some abf ∧
        E.z.generateBlinded asset abf = some gen ∧ E.z.genSerialize gen = some (tx'.vout.getD j {}).nAsset ∧
        SurjectionMade E.z L asset abf gen (tx'.outWit j).surjectionproof i t := by
  obtain ⟨C, s', hR, hE, rfl, hres⟩ := blind_success h
  obtain ⟨-, -, habf, -⟩ := result_success hres
  obtain ⟨ds, hL⟩ := hE.left (by rw [hR.args]; exact hR.lengths.pubkeys) (by simp [firstState]) (by simp [firstState])
  obtain ⟨L, h2, h1⟩ := surjTargets_recorded hd hR.targets
  obtain ⟨rfl, rfl, -⟩ := hR
  refine ⟨L, h1, ?_⟩
  intro j hj
  by_cases hm : j ∈ ds.map OutData.j
  · obtain ⟨d, hd, rfl⟩ := List.mem_map.1 hm
    obtain ⟨m1, -, -, m4⟩ := hL.made d hd
    obtain ⟨t1, t2, t3, -, t5⟩ := hL.those d hd
    change d.out = tx.vout.getD d.j {} at m4
    cases hp : d.surj with
    | none => exact absurd (t2 hp) hj
    | some p =>
      obtain ⟨-, seed, hsp⟩ := m1.surj p hp
      rw [h2] at hsp
      obtain ⟨i, t, hmade⟩ := surjectionProof_made hsp
      obtain ⟨b1, b2, -⟩ := blindedAsset_ok.1 m1.blindedAsset
      refine ⟨d.asset, d.gen, d.assetblind, i, t, ?_, ?_, b1, ?_, ?_⟩
      · rw [← m4]; exact (assetToAsset_ok m1.asset).1
      · rw [habf, List.getElem?_map, t5]; rfl
      · rw [t1]; exact b2
      · rw [t3 p hp]; exact hmade
  · exact absurd (hL.others j hm).2.1 hj

theorem scalar_zeros : scalar (List.replicate 32 0) = 0 := by
  have : beVal (List.replicate 32 0) = 0 := by decide
  rw [scalar, this, Nat.cast_zero]

theorem known_point {z : Zkp} {M : Type} [AddCommGroup M] [Module Scalar M] (P : Pedersen z M) {t : Target} (h : KnownTarget z t) :
    P.genPt t.gen = P.H t.asset + scalar t.blinder • P.G := by
  cases h with
  | blinded a g r h => exact P.generateBlinded _ _ _ h
  | plain a g h => rw [scalar_zeros, zero_smul, add_zero]; exact P.generate _ _ h

/-- C63, meaning: with a library that keeps its promises, and for every asset but zero, the two
factors handed to the library open the difference between the asset commitment of the output and
the generator of the selected target, which has the asset of the output. -/
theorem C63_true {E : Env} {M : Type} [AddCommGroup M] [Module Scalar M] (P : Pedersen E.z M) (hI : InitMatches E.z)
    {A : BlindArgs} {tx tx' : Tx} {num bfs abfs} (h : blindTransaction E A tx = (.ok (.success num bfs abfs), tx'))
    (hd : ∀ d ∈ A.descs, DescSizes d) :
    ∃ L : List Target, ∀ j, tx'.outWit j ≠ tx.outWit j → ∃ asset gen abf i t, (tx.vout.getD j {}).nAsset = 1 :: asset ∧
      abfs[j]? = some abf ∧ SurjectionMade E.z L asset abf gen (tx'.outWit j).surjectionproof i t ∧ t.asset = asset ∧
      (¬ AllZero asset → P.genRead (tx'.vout.getD j {}).nAsset = P.genPt t.gen + (scalar abf - scalar t.blinder) • P.G) := by
  obtain ⟨L, hL, hj⟩ := C63_made h hd
  refine ⟨L, ?_⟩
  intro j hne
  obtain ⟨asset, gen, abf, i, t, h1, h2, h3, h4, h5⟩ := hj j hne
  obtain ⟨seed, k, k', hinit, -⟩ := h5.calls
  have hm := hI (L.map Target.asset) (min 3 L.length) asset 100 seed k i
    (by intro x hx; obtain ⟨t, ht, rfl⟩ := List.mem_map.1 hx; exact (hL t ht).1) (by rw [List.length_map]; exact hinit)
  rw [List.getElem?_map, h5.selected] at hm
  have hta : t.asset = asset := Option.some.inj hm
  refine ⟨asset, gen, abf, i, t, h1, h2, h5, hta, ?_⟩
  intro hz
  rw [P.genSerialize _ _ h4, P.generateBlinded _ _ _ h3]
  rcases (hL t (List.mem_of_getElem? h5.selected)).2 with h | h
  · rw [hta] at h; exact absurd h hz
  · rw [known_point P h, hta, sub_smul, add_assoc, add_sub_cancel]

/-! ### The toy library -/

theorem Toy.findTag_some : ∀ (tags : List Bytes) (tag : Bytes) (i : Nat), (∀ x ∈ tags, x.length = 32) →
    Toy.findTag tag tags.length tags.flatten = some i → tags[i]? = some tag
  | [], _, _, _, h => by cases h
  | x :: r, tag, i, hl, h => by
    have hx : x.length = 32 := hl x (List.mem_cons_self ..)
    rw [List.length_cons, Toy.findTag, List.flatten_cons, List.take_append_of_le_length (by omega), List.take_of_length_le (by omega),
      List.drop_append_of_le_length (by omega), List.drop_of_length_le (by omega), List.nil_append] at h
    split at h
    · rename_i e
      cases h
      rw [e]; rfl
    · obtain ⟨k, hk, rfl⟩ := Option.map_eq_some_iff.1 h
      exact Toy.findTag_some r tag k (fun y hy => hl y (List.mem_cons_of_mem _ hy)) hk

theorem Toy.initMatches : InitMatches Toy.zkp := by
  intro tags k tag it seed h i hl hi
  obtain ⟨x, hx, he⟩ := Option.map_eq_some_iff.1 hi
  cases he
  exact Toy.findTag_some tags tag _ hl hx

-- two blinded outputs, each with a proof about the asset of the input
example : let A := Toy.args fun k => Toy.b32 (k + 5)
    ∃ b a t', blindTransaction Toy.env A (Toy.tx [(5, 3), (5, 5)] ⟨zero32, Toy.b32 7, Toy.amt 1, []⟩) = (.ok (.success 3 b a), t') ∧
      (∀ d ∈ A.descs, DescSizes d) ∧
      (∀ j, j < 2 → t'.outWit j ≠ (Toy.tx [(5, 3), (5, 5)] ⟨zero32, Toy.b32 7, Toy.amt 1, []⟩).outWit j) ∧ ¬ AllZero (Toy.b32 5) := by
  intro A
  obtain ⟨b, a, t', h⟩ := success_of
    (x := blindTransaction Toy.env A (Toy.tx [(5, 3), (5, 5)] ⟨zero32, Toy.b32 7, Toy.amt 1, []⟩)) (n := 3) (by decide +kernel)
  refine ⟨b, a, t', h, ?_, ?_, by decide⟩
  · intro d hd
    simp only [A, Toy.args, List.mem_cons, List.not_mem_nil, or_false] at hd
    subst hd
    exact ⟨by decide, by decide, by decide⟩
  · rw [show t' = (blindTransaction Toy.env A (Toy.tx [(5, 3), (5, 5)] ⟨zero32, Toy.b32 7, Toy.amt 1, []⟩)).2 by rw [h]]
    decide +kernel

end Verif
