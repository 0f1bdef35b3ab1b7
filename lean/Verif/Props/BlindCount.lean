import Verif.Spec.BlindCount
import Verif.Props.BlindEnd
import Mathlib.Data.List.Nodup
/-
C103: the number that a success reports, strict or not, is the number of things finished.
-/
namespace Verif
open Spec

theorem pairs_nodup : ∀ n, ((List.range n).flatMap fun i => [(i, false), (i, true)]).Nodup := by
  intro n
  rw [List.nodup_flatMap]
  refine ⟨fun _ _ => by simp, ?_⟩
  refine (List.nodup_range (n := n)).imp fun {a b} hab => ?_
  intro x h1 h2
  simp only [List.mem_cons, List.not_mem_nil, or_false] at h1 h2
  rcases h1 with rfl | rfl <;> rcases h2 with h2 | h2 <;> exact hab (Prod.mk.inj h2).1

theorem mem_changedIssued {t t' : Tx} {x : Nat × Bool} : x ∈ changedIssued t t' ↔
    x.1 < t.vin.length ∧ (t'.vin.getD x.1 default).issued x.2 ≠ (t.vin.getD x.1 default).issued x.2 := by
  unfold changedIssued
  rw [List.mem_filter, List.mem_flatMap]
  simp only [List.mem_range, List.mem_cons, List.not_mem_nil, or_false, decide_eq_true_eq]
  refine ⟨fun ⟨⟨i, hi, hx⟩, h⟩ => ⟨?_, h⟩, fun ⟨h1, h2⟩ => ⟨⟨x.1, h1, ?_⟩, h2⟩⟩
  · rcases hx with rfl | rfl <;> exact hi
  · obtain ⟨i, b⟩ := x
    cases b <;> simp

/-- Issued amounts that changed are those that were made. -/
theorem changed_count {C : Ctx} {tx t' : Tx} {es : List IssEv} {rest} (hr : IssRun C (firstState C.A tx) es)
    (hm : es.map IssEv.at ++ rest = keyed C.A 0 tx.vin.length) (hsz : ∀ t ∈ tx.vin, InputSizes t)
    (ht : ∀ x, t'.issCell x = (issAfter (firstState C.A tx) es).tx.issCell x) :
    (changedIssued tx t').length = (es.filterMap IssEv.data).length := by
  have hk := (keyed_nodup C.A tx.vin.length 0).1
  rw [← hm] at hk
  have hn : (es.map IssEv.at).Nodup := hk.sublist (List.sublist_append_left _ _)
  have hnd := hn.sublist (filterMap_data_at es)
  rw [← List.length_map (f := fun d : IssData => (d.i, d.token)) (as := es.filterMap IssEv.data)]
  refine List.Perm.length_eq ((List.perm_ext_iff_of_nodup ((pairs_nodup _).filter _) hnd).2 fun x => ?_)
  show x ∈ changedIssued tx t' ↔ _
  rw [mem_changedIssued]
  constructor
  · rintro ⟨hx, hne⟩
    by_contra hnot
    apply hne
    have hcell : t'.issCell x = tx.issCell x := by
      rw [ht]
      by_cases hmem : x ∈ es.map IssEv.at
      · obtain ⟨e, he, rfl⟩ := List.mem_map.1 hmem
        cases e with
        | made d => exact absurd (List.mem_map.2 ⟨d, List.mem_filterMap.2 ⟨_, he, rfl⟩, rfl⟩) hnot
        | passed =>
          obtain ⟨_, -, -, -, -, g⟩ := hr.event hn _ he
          exact g
      · exact issCell_issAfter_none hr hmem
    have := (same_of_cell hcell).1
    rw [List.getD_eq_getElem?_getD, List.getD_eq_getElem?_getD]
    cases h1 : t'.vin[x.1]? <;> cases h2 : tx.vin[x.1]? <;> rw [h1, h2] at this <;> simp at this
    · simpa using this
  · intro hx
    obtain ⟨d, hd, rfl⟩ := List.mem_map.1 hx
    obtain ⟨e, he, hed⟩ := List.mem_filterMap.1 hd
    cases e with
    | passed => cases hed
    | made d' =>
      cases hed
      obtain ⟨g1, g2, g3⟩ := hr.event hn _ he
      have hi : d.i < tx.vin.length := by
        have : (d.i, d.token) ∈ keyed C.A 0 tx.vin.length := by
          rw [← hm]
          exact List.mem_append_left _ (List.mem_map.2 ⟨_, he, rfl⟩)
        exact (mem_keyed.1 this).1
      have hb := IssData.Made.blinded (tx' := t') rfl (hsz _ (by
        rw [List.getD_eq_getElem?_getD, List.getElem?_eq_getElem hi]
        exact List.getElem_mem hi)) hi g1 ((ht _).trans g3)
      refine ⟨hi, fun e => ?_⟩
      obtain ⟨v, gen, com, bf, a, p, h1, -⟩ := hb.hidden
      obtain ⟨c, h2, -⟩ := hb.committed
      dsimp only at e
      rw [e, h1] at h2
      rcases h2 with h2 | h2 <;> cases h2

/-- Outputs that have a surjection proof are those for which one was made. -/
theorem finished_count {C : Ctx} {tx : Tx} {s' : BS} {ds : List OutData} (hL : Left C (firstState C.A tx) s' ds)
    (hlen : C.A.pubkeys.length ≤ tx.vout.length) (hn : s'.tx.vout.length = tx.vout.length)
    (hb : ∀ j pk, C.A.pubkeys[j]? = some pk → pk ≠ [] → Blindable C.E.z tx j pk) :
    (finishedOutputs C.A s'.tx).length = (ds.filter (·.surj.isSome)).length := by
  rw [← List.length_map (f := OutData.j) (as := ds.filter (·.surj.isSome))]
  refine List.Perm.length_eq ((List.perm_ext_iff_of_nodup (List.nodup_range.filter _)
    (hL.nodup.sublist (List.filter_sublist.map _))).2 fun j => ?_)
  rw [List.mem_filter, List.mem_range, hn]
  simp only [decide_eq_true_eq]
  constructor
  · rintro ⟨hj, hk, hs⟩
    have hw : tx.outWit j = {} := by
      rw [List.getD_eq_getElem?_getD] at hk
      cases hx : C.A.pubkeys[j]? with
      | none => rw [hx] at hk; exact absurd rfl hk
      | some pk => rw [hx] at hk; exact (hb j pk hx hk).noWitness
    by_cases hmem : j ∈ ds.map OutData.j
    · obtain ⟨d, hd, rfl⟩ := List.mem_map.1 hmem
      refine List.mem_map.2 ⟨d, List.mem_filter.2 ⟨hd, ?_⟩, rfl⟩
      cases hsj : d.surj with
      | some p => rfl
      | none =>
        exfalso
        have := (hL.those d hd).2.1 hsj
        apply hs
        rw [this]
        show (tx.outWit d.j).surjectionproof = []
        rw [hw]
    · exfalso
      have := (hL.others j hmem).2.1
      apply hs
      rw [this]
      show (tx.outWit j).surjectionproof = []
      rw [hw]
  · intro hx
    obtain ⟨d, hd, rfl⟩ := List.mem_map.1 hx
    obtain ⟨hd, hs⟩ := List.mem_filter.1 hd
    obtain ⟨p, hp⟩ := Option.isSome_iff_exists.1 hs
    obtain ⟨m1, m2, m3, -⟩ := hL.made d hd
    refine ⟨?_, ?_, ?_⟩
    · have := (List.getElem?_eq_some_iff.1 m2).1
      omega
    · rw [List.getD_eq_getElem?_getD, m2]; exact m3
    · rw [(hL.those d hd).2.2.1 p hp]
      exact (m1.surj p hp).1

/-- C103: on success, strict or not, the number reported is the number of outputs that have got their proofs and of issued amounts that were
hidden; or one more, and then an output was left as it was because the factor to balance it is zero. -/
theorem C103_count {E : Env} {A : BlindArgs} {tx tx' : Tx} {num bfs abfs} (h : blindTransaction E A tx = (.ok (.success num bfs abfs), tx'))
    (hsz : ∀ t ∈ tx.vin, InputSizes t) :
    num = (finishedOutputs A tx').length + (changedIssued tx tx').length ∨
    num = (finishedOutputs A tx').length + (changedIssued tx tx').length + 1 ∧
      ∃ j v, A.pubkeys.getD j [] ≠ [] ∧ Untouched tx tx' j ∧ (tx.vout.getD j {}).nValue = 1 :: v ∧ ZeroBalance E A tx (beVal v) := by
  have hcnt := (C32_counts E A tx).2
  rw [h] at hcnt
  obtain ⟨C, s', hR, hE, rfl, hres⟩ := blind_success h
  obtain ⟨rfl, rfl, rfl, -⟩ := result_success hres
  obtain ⟨hRE, hRA, hRl, -, -, hRo, hRb, hRn⟩ := hR
  subst hRE hRA
  dsimp only at hcnt
  have hlenP : C.A.pubkeys.length ≤ tx.vout.length := hRl.pubkeys
  have z2 : (firstState C.A tx).done = 0 := rfl
  cases hE with
  | issuance es x rest h1 h2 h3 h4 h5 h6 h7 =>
    left
    have hL : Left C (firstState C.A tx) s' [] := by
      obtain ⟨-, -, -, -, -, -, i1, i2, i3, i4⟩ := issAfter_lists es (firstState C.A tx)
      refine ⟨by simp, by simp, ?_, by simp, by rw [h6, h7]; exact ⟨rfl, rfl⟩⟩
      intro k _
      refine ⟨by rw [h4, i3], ?_, by rw [h6], by rw [h7]⟩
      unfold Tx.outWit
      rw [h4, i4]
    rw [finished_count hL hlenP hcnt hRo, changed_count h1 h2 hsz fun x => by rw [h4], h5, (issAfter_lists es _).2.2.1, z2]
    simp
  | full es ds h1 h2 h3 h4 h5 =>
    left
    subst h5
    have hL := left_of_run (rest := []) h3 (by rw [List.append_nil]; exact h4) hlenP (by simp [firstState]) (by simp [firstState])
    rw [finished_count hL hlenP hcnt hRo, changed_count (rest := []) h1 (by rw [List.append_nil]; exact h2) hsz
      fun x => by rw [issCell_outsAfter]; rfl, (outsAfter_lists ds _).2.2.1]
    show (issAfter (firstState C.A tx) es).done + _ = _
    rw [(issAfter_lists es _).2.2.1, z2]
    omega
  | early es ds x rest amount h1 h2 h3 h4 h5 h6 h7 =>
    obtain ⟨f1, f2, f3⟩ := h7.frame
    have hL := left_of_run h3 h4 hlenP (by simp [firstState]) (by simp [firstState])
    have hL' := hL.congr f1 f2 f3
    rw [finished_count hL' hlenP hcnt hRo, changed_count (rest := []) h1 (by rw [List.append_nil]; exact h2) hsz
      fun y => by rw [f1, issCell_outsAfter]; rfl]
    have hd : (outsAfter (padOut (issAfter (firstState C.A tx) es)) ds).done =
        (ds.filter (·.surj.isSome)).length + (es.filterMap IssEv.data).length := by
      rw [(outsAfter_lists ds _).2.2.1]
      show (issAfter (firstState C.A tx) es).done + _ = _
      rw [(issAfter_lists es _).2.2.1, z2]
      omega
    cases h7 with
    | alone g1 g2 g3 => exact .inl hd
    | zero b g1 g2 g3 g4 g5 g6 =>
      right
      refine ⟨by rw [← hd], ?_⟩
      obtain ⟨pk, j⟩ := x
      have hmem : (pk, j) ∈ validKeys C.E.z 0 C.A.pubkeys := by rw [← h4]; simp
      obtain ⟨v1, v2⟩ := mem_validKeys.1 hmem
      have hsort := validKeys_sorted C.E.z C.A.pubkeys
      rw [← h4] at hsort
      simp only [List.map_append, List.map_map, List.map_cons, List.pairwise_append] at hsort
      have hnot : j ∉ ds.map OutData.j := by
        intro hm
        obtain ⟨d, hd, hdj⟩ := List.mem_map.1 hm
        have := hsort.2.2 d.j (List.mem_map.2 ⟨d, hd, rfl⟩) j (by simp)
        omega
      obtain ⟨o1, o2, -⟩ := hL.others j hnot
      have hval : (outsAfter (padOut (issAfter (firstState C.A tx) es)) ds).tx.vout.getD j {} = tx.vout.getD j {} := by
        rw [List.getD_eq_getElem?_getD, List.getD_eq_getElem?_getD, o1]; rfl
      dsimp only at h5
      rw [hval] at h5
      obtain ⟨v, hv, hvl, hve⟩ := valueToAmount_ok h5
      refine ⟨j, v, ?_, ⟨o1, o2⟩, hv, ?_⟩
      · dsimp only at v1
        rw [List.getD_eq_getElem?_getD, v1]
        exact (fullyValid_iff.1 v2).1
      have hl : ((outsAfter (padOut (issAfter (firstState C.A tx) es)) ds).amounts ++ [amount]).length
          = (C.A.descs.filter Desc.blinded).length + asked C.A tx := by
        rw [List.length_append, g4, g3, ← hRn, ← hRb, List.length_singleton]
        omega
      refine ⟨_, _, _, _, _, b, g5, isNull32_iff.1 g6, ?_, by rw [List.length_map]; exact hl, ?_⟩
      · rw [List.map_append, List.map_cons, List.map_nil, hve, List.getLast?_concat]
      · rw [List.length_map, hl, ← hRn, ← hRb, ← g1]; omega

-- not strict: an issued amount and one of two outputs are finished, the other output gets no proof; 2 is reported
example : let t := Toy.tx [(5, 3), (6, 5)] ⟨zero32, Toy.b32 7, Toy.amt 1, []⟩
    let A := { Toy.args (fun k => Toy.b32 (k + 5)) with strict := false }
    (∀ txin ∈ t.vin, InputSizes txin) ∧ asked A t = 3 ∧
    ∃ b a t', blindTransaction Toy.env A t = (.ok (.success 2 b a), t') ∧ finishedOutputs A t' = [0] ∧ changedIssued t t' = [(0, false)] := by
  intro t A
  refine ⟨?_, by decide +kernel, ?_⟩
  · intro txin ht
    simp only [t, Toy.tx, List.mem_cons, List.not_mem_nil, or_false] at ht
    subst ht
    exact ⟨by decide, by decide, by decide⟩
  obtain ⟨b, a, t', h⟩ := success_of (x := blindTransaction Toy.env A t) (n := 2) (by decide +kernel)
  have ht : t' = (blindTransaction Toy.env A t).2 := by rw [h]
  exact ⟨b, a, t', h, by rw [ht]; decide +kernel, by rw [ht]; decide +kernel⟩

end Verif
