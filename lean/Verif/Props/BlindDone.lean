import Verif.Spec.BlindDone
import Verif.Spec.Zkp
import Verif.BlindFacts
import Verif.Props.BlindTargets
import Verif.Props.Script
/-
C33, C35, C21: what a successful `blind()` leaves behind.
-/
namespace Verif

/-! ### From records to the specification -/

theorem rangeproofArgs_spec (A : BlindArgs) (bf nonce script com gen asset abf v : Bytes) (amount : Int)
    (hv : twos 8 amount = beVal v) :
    ProofOf A script asset v gen com bf abf nonce
      (rangeproofArgs A.ctExponent A.ctBits bf nonce amount script com gen asset abf) := by
  refine ⟨?_, rfl, rfl, rfl, rfl, rfl, hv, rfl, ?_, rfl⟩
  · show (if isUnspendable script = true then 0 else 1) = _
    have : isUnspendable script = true ↔ Unspendable script := by
      rw [C21_unspendable]
      unfold Unspendable
      cases script with
      | nil => simp
      | cons x r => simp
    by_cases h : Unspendable script
    · rw [if_pos h, if_pos (this.2 h)]
    · rw [if_neg h, if_neg (fun e => h (this.1 e))]
  · show (if script.length = 0 then none else some script) = _
    cases script <;> simp

theorem OutData.Made.hidden {C : Ctx} {d : OutData} (h : d.Made C) :
    ∃ v, HiddenBy C.E.z d.out (d.newOut d.out) d.blind d.assetblind d.asset v d.gen d.commit ∧ twos 8 d.amount = beVal v := by
  obtain ⟨v, hv, hl, he⟩ := valueToAmount_ok h.amount
  obtain ⟨ha, hal⟩ := assetToAsset_ok h.asset
  obtain ⟨g1, g2, -⟩ := blindedAsset_ok.1 h.blindedAsset
  obtain ⟨c1, c2, -⟩ := createValueCommitment_ok.1 h.commit
  rw [he] at c1
  exact ⟨v, ⟨ha, hal, hv, hl, g1, g2, c1, c2, h.blind_len, h.assetblind_len⟩, he⟩

theorem valid_33 {cv : Bytes} (h : confIsValid valueKind cv = true) (hl : cv.length = 33) : IsValueCommitment cv := by
  rw [← valueCommitment_iff]
  unfold confIsValid at h
  simp only [Bool.or_eq_true] at h
  rcases h with (h | h) | h
  · simp [confIsNull] at h; subst h; simp at hl
  · simp [confIsExplicit, valueKind, hl] at h
  · exact h

theorem OutData.Made.committed {C : Ctx} {d : OutData} (h : d.Made C) : IsValueCommitment d.confValue := by
  obtain ⟨-, c2, c3⟩ := createValueCommitment_ok.1 h.commit
  exact valid_33 c3 (C.E.z.commitSerialize_len _ _ c2)

/-! ### Cells at the end -/

/-- What the end of a run says about outputs. -/
structure Left (C : Ctx) (s s' : BS) (ds : List OutData) : Prop where
  nodup : (ds.map OutData.j).Nodup
  made : ∀ d ∈ ds, d.Made C ∧ C.A.pubkeys[d.j]? = some d.pk ∧ d.pk ≠ [] ∧ d.out = s.tx.vout.getD d.j {}
  others : ∀ k, k ∉ ds.map OutData.j → s'.tx.vout[k]? = s.tx.vout[k]? ∧ s'.tx.outWit k = s.tx.outWit k ∧
    s'.obf[k]? = s.obf[k]? ∧ s'.oabf[k]? = s.oabf[k]?
  those : ∀ d ∈ ds, s'.tx.vout.getD d.j {} = d.newOut d.out ∧ (d.surj = none → s'.tx.outWit d.j = s.tx.outWit d.j) ∧
    (∀ p, d.surj = some p → s'.tx.outWit d.j = { rangeproof := d.proof, surjectionproof := p }) ∧
    s'.obf[d.j]? = some (some d.blind) ∧ s'.oabf[d.j]? = some (some d.assetblind)
  lens : s'.obf.length = s.obf.length ∧ s'.oabf.length = s.oabf.length

theorem outsAfter_len : ∀ (ds : List OutData) (s : BS), (outsAfter s ds).obf.length = s.obf.length ∧
    (outsAfter s ds).oabf.length = s.oabf.length
  | [], _ => ⟨rfl, rfl⟩
  | d :: ds, s => by
    rw [outsAfter_cons, (outsAfter_len ds _).1, (outsAfter_len ds _).2]
    simp [OutData.after]

theorem left_of_run {C : Ctx} {s : BS} {es : List IssEv} {ds : List OutData} {rest : List (Bytes × Nat)}
    (hr : OutRun C (padOut (issAfter s es)) ds)
    (hm : ds.map (fun d => (d.pk, d.j)) ++ rest = validKeys C.E.z 0 C.A.pubkeys)
    (hlen : C.A.pubkeys.length ≤ s.tx.vout.length) (ho : s.obf.length = s.tx.vout.length) (ha : s.oabf.length = s.tx.vout.length) :
    Left C s (outsAfter (padOut (issAfter s es)) ds) ds := by
  obtain ⟨-, -, -, -, -, -, i1, i2, i3, i4⟩ := issAfter_lists es s
  have hj : ds.map OutData.j ++ rest.map Prod.snd = (validKeys C.E.z 0 C.A.pubkeys).map Prod.snd := by
    rw [← hm]; simp
  have hn : (ds.map OutData.j).Nodup := by
    have := validKeys_nodup C.E.z C.A.pubkeys 0
    rw [← hj] at this
    exact this.sublist (List.sublist_append_left _ _)
  have hmem : ∀ d ∈ ds, C.A.pubkeys[d.j]? = some d.pk ∧ fullyValid C.E.z d.pk = true := by
    intro d hd
    have : (d.pk, d.j) ∈ validKeys C.E.z 0 C.A.pubkeys := by
      rw [← hm]
      exact List.mem_append_left _ (List.mem_map_of_mem (f := fun d : OutData => (d.pk, d.j)) hd)
    exact mem_validKeys.1 this
  have hout : (padOut (issAfter s es)).tx.vout = s.tx.vout := i3
  have hwit : ∀ k, (padOut (issAfter s es)).tx.outWit k = s.tx.outWit k := by
    intro k
    unfold Tx.outWit
    show ((padTo (issAfter s es).tx.wit.vtxoutwit _ {})[k]?).getD {} = _
    rw [getD_padTo, i4]
  refine ⟨hn, ?_, ?_, ?_, ?_⟩
  · intro d hd
    obtain ⟨h1, h2, h3⟩ := hr.made hn d hd
    refine ⟨h1, (hmem d hd).1, (fullyValid_iff.1 h2).1, ?_⟩
    rw [h3, hout]
  · intro k hk
    have hc := cell_outsAfter_none ds (padOut (issAfter s es)) k hk
    have h1 := congrArg Cell.out hc
    have h2 := congrArg Cell.wit hc
    have h3 := congrArg Cell.bf hc
    have h4 := congrArg Cell.abf hc
    simp only [BS.cell] at h1 h2 h3 h4
    refine ⟨by rw [h1, hout], ?_, by rw [h3]; show (issAfter s es).obf[k]? = _; rw [i1],
      by rw [h4]; show (issAfter s es).oabf[k]? = _; rw [i2]⟩
    rw [← hwit k]
    unfold Tx.outWit
    rw [h2]
  · intro d hd
    have hc := cell_outsAfter ds (padOut (issAfter s es)) hn d hd
    have h1 := congrArg Cell.out hc
    have h2 := congrArg Cell.wit hc
    have h3 := congrArg Cell.bf hc
    have h4 := congrArg Cell.abf hc
    simp only [BS.cell, OutData.cell] at h1 h2 h3 h4
    have hlt : d.j < s.tx.vout.length := by
      have := (List.getElem?_eq_some_iff.1 (hmem d hd).1).1
      omega
    obtain ⟨-, -, h5⟩ := hr.made hn d hd
    rw [hout] at h1 h5
    have hw : d.j < (padOut (issAfter s es)).tx.wit.vtxoutwit.length := by
      show d.j < (padTo (issAfter s es).tx.wit.vtxoutwit (issAfter s es).tx.vout.length {}).length
      rw [i3]
      simp [padTo]
      omega
    refine ⟨?_, ?_, ?_, ?_, ?_⟩
    · rw [List.getD_eq_getElem?_getD, h1, h5, List.getD_eq_getElem?_getD, List.getElem?_eq_getElem hlt]
      rfl
    · intro hs
      rw [hs] at h2
      dsimp only at h2
      rw [← hwit]
      unfold Tx.outWit
      rw [h2]
    · intro p hs
      rw [hs] at h2
      dsimp only at h2
      unfold Tx.outWit
      rw [h2, List.getElem?_eq_getElem hw]
      rfl
    · rw [h3]
      show ((issAfter s es).obf[d.j]?).map _ = _
      rw [i1, List.getElem?_eq_getElem (by omega)]
      rfl
    · rw [h4]
      show ((issAfter s es).oabf[d.j]?).map _ = _
      rw [i2, List.getElem?_eq_getElem (by omega)]
      rfl
  · rw [(outsAfter_len ds _).1, (outsAfter_len ds _).2]
    show (issAfter s es).obf.length = _ ∧ (issAfter s es).oabf.length = _
    rw [i1, i2]
    exact ⟨rfl, rfl⟩

theorem EarlyOut.frame {C : Ctx} {s s' : BS} {amount : Int} (h : EarlyOut C s amount s') :
    s'.tx = s.tx ∧ s'.obf = s.obf ∧ s'.oabf = s.oabf := by
  cases h <;> exact ⟨rfl, rfl, rfl⟩

theorem Left.congr {C : Ctx} {s s' s'' : BS} {ds} (h : Left C s s' ds) (h1 : s''.tx = s'.tx) (h2 : s''.obf = s'.obf)
    (h3 : s''.oabf = s'.oabf) : Left C s s'' ds := by
  obtain ⟨a, b, c, d, e⟩ := h
  refine ⟨a, b, ?_, ?_, ?_⟩
  · rw [h1, h2, h3]; exact c
  · rw [h1, h2, h3]; exact d
  · rw [h2, h3]; exact e

theorem Ends.left {C : Ctx} {n s s'} (h : Ends C n s s') (hlen : C.A.pubkeys.length ≤ s.tx.vout.length)
    (ho : s.obf.length = s.tx.vout.length) (ha : s.oabf.length = s.tx.vout.length) : ∃ ds, Left C s s' ds := by
  cases h with
  | issuance es x rest h1 h2 h3 h4 h5 h6 h7 =>
    obtain ⟨-, -, -, -, -, -, i1, i2, i3, i4⟩ := issAfter_lists es s
    refine ⟨[], by simp, by simp, ?_, by simp, by rw [h6, h7]; exact ⟨rfl, rfl⟩⟩
    intro k _
    refine ⟨by rw [h4, i3], ?_, by rw [h6], by rw [h7]⟩
    unfold Tx.outWit
    rw [h4, i4]
  | early es ds x rest amount h1 h2 h3 h4 h5 h6 h7 =>
    obtain ⟨f1, f2, f3⟩ := h7.frame
    exact ⟨ds, (left_of_run h3 h4 hlen ho ha).congr f1 f2 f3⟩
  | full es ds h1 h2 h3 h4 h5 =>
    subst h5
    exact ⟨ds, left_of_run (rest := []) h3 (by rw [List.append_nil]; exact h4) hlen ho ha⟩

theorem result_success {C : Ctx} {s : BS} {num bfs abfs} (h : BlindResult.success num bfs abfs = blindingResult C s) :
    num = s.done ∧ bfs = s.obf.map (·.getD zero32) ∧ abfs = s.oabf.map (·.getD zero32) ∧
      (C.A.strict = true → s.done = C.nToBlind) := by
  unfold blindingResult at h
  by_cases hc : (C.A.strict && s.done != C.nToBlind) = true
  · rw [if_pos hc] at h; cases h
  · rw [if_neg hc] at h
    cases h
    refine ⟨rfl, rfl, rfl, fun hs => ?_⟩
    simpa [hs] using hc

/-! ### C35 -/

/-- C35.  On success, strict or not, there is one pair of factors per output: zero for an output
that is as before, otherwise the pair that hides its amount and asset. -/
theorem C35_factors {E : Env} {A : BlindArgs} {tx tx' : Tx} {num bfs abfs}
    (h : blindTransaction E A tx = (.ok (.success num bfs abfs), tx')) :
    bfs.length = tx.vout.length ∧ abfs.length = tx.vout.length ∧
    ∀ j, j < tx.vout.length →
      (Untouched tx tx' j ∧ bfs[j]? = some (List.replicate 32 0) ∧ abfs[j]? = some (List.replicate 32 0)) ∨
      (A.pubkeys.getD j [] ≠ [] ∧ IsValueCommitment (tx'.vout.getD j {}).nValue ∧
        ∃ bf abf asset v gen com, bfs[j]? = some bf ∧ abfs[j]? = some abf ∧
        HiddenBy E.z (tx.vout.getD j {}) (tx'.vout.getD j {}) bf abf asset v gen com) := by
  obtain ⟨C, s', hR, hE, rfl, hres⟩ := blind_success h
  obtain ⟨rfl, rfl, rfl, -⟩ := result_success hres
  obtain ⟨ds, hL⟩ := hE.left (by rw [hR.args]; exact hR.lengths.pubkeys) (by simp [firstState]) (by simp [firstState])
  have l1 : s'.obf.length = tx.vout.length := by rw [hL.lens.1]; simp [firstState]
  have l2 : s'.oabf.length = tx.vout.length := by rw [hL.lens.2]; simp [firstState]
  refine ⟨by simp [l1], by simp [l2], ?_⟩
  intro j hj
  by_cases hm : j ∈ ds.map OutData.j
  · right
    obtain ⟨d, hd, rfl⟩ := List.mem_map.1 hm
    obtain ⟨m1, m2, m3, m4⟩ := hL.made d hd
    obtain ⟨t1, -, -, t4, t5⟩ := hL.those d hd
    refine ⟨?_, ?_, d.blind, d.assetblind, ?_⟩
    · rw [List.getD_eq_getElem?_getD, ← hR.args, m2]; exact m3
    · rw [t1]; exact m1.committed
    · obtain ⟨v, hv, -⟩ := m1.hidden
      refine ⟨d.asset, v, d.gen, d.commit, by simp [t4], by simp [t5], ?_⟩
      rw [t1, ← hR.env]
      have e : tx.vout.getD d.j {} = d.out := m4.symm
      rw [e]
      exact hv
  · left
    obtain ⟨o1, o2, o3, o4⟩ := hL.others j hm
    have r : ∀ k, k < tx.vout.length → (List.replicate tx.vout.length (none : Option Bytes))[k]? = some none := by
      intro k hk; simp [hk]
    refine ⟨⟨o1, o2⟩, ?_, ?_⟩
    · rw [List.getElem?_map, o3]
      show ((List.replicate tx.vout.length (none : Option Bytes))[j]?).map _ = _
      rw [r j hj]
      rfl
    · rw [List.getElem?_map, o4]
      show ((List.replicate tx.vout.length (none : Option Bytes))[j]?).map _ = _
      rw [r j hj]
      rfl

/-! ### C33 -/

theorem issKeys_key (A : BlindArgs) (i : Nat) (token : Bool) : keyAt (A.issKeys token) i = A.issuanceKey i token := by
  rw [keyAt_getD]
  cases token <;> rfl

theorem filterMap_data_at (es : List IssEv) : ((es.filterMap IssEv.data).map fun d => (d.i, d.token)).Sublist (es.map IssEv.at) := by
  induction es with
  | nil => exact List.Sublist.refl _
  | cons e es ih =>
    cases e with
    | made d => exact ih.cons_cons _
    | passed => exact ih.cons _

/-- How many issuances were asked for, as pseudo-inputs. -/
theorem asked_keyed (A : BlindArgs) (f : Nat → Bool) : ∀ (l : List TxIn) (i : Nat),
    (∀ k t, l[k]? = some t → f (i + k) = !t.assetIssuance.isNull) →
    ((keyed A i l.length).filter fun x => f x.1).length = askedIssuances A.assetKeys l i + askedIssuances A.tokenKeys l i
  | [], i, _ => by simp [keyed, askedIssuances]
  | t :: l, i, h => by
    have ih := asked_keyed A f l (i + 1) (fun k t' hk => by
      have := h (k + 1) t' (by simpa using hk)
      rwa [show i + (k + 1) = i + 1 + k by omega] at this)
    have h0 : f i = !t.assetIssuance.isNull := by simpa using h 0 t rfl
    have k1 : keyAt (A.issKeys false) i = A.assetKeys.getD i none := keyAt_getD _ _
    have k2 : keyAt (A.issKeys true) i = A.tokenKeys.getD i none := keyAt_getD _ _
    rw [List.length_cons, keyed_succ, List.filter_append, List.filter_append, List.length_append, List.length_append, ih, k1, k2]
    have e : ∀ ks : List (Option Bytes), askedIssuances ks (t :: l) i =
        (if !t.assetIssuance.isNull && (ks.getD i none).isSome then 1 else 0) + askedIssuances ks l (i + 1) := by
      intro ks
      unfold askedIssuances
      rw [List.zipIdx_cons, List.filter_cons]
      dsimp only
      split <;> simp <;> omega
    rw [e, e, ← h0]
    have hf : ∀ tk : Bool, (List.filter (fun x : Nat × Bool => f x.1) [(i, tk)]).length = if f i then 1 else 0 := by
      intro tk
      rw [List.filter_cons]
      dsimp only
      split <;> rfl
    have split2 : ∀ (c : Bool) (tk : Bool), (List.filter (fun x : Nat × Bool => f x.1) (if c = true then [(i, tk)] else [])).length
        = if (f i && c) = true then 1 else 0 := by
      intro c tk
      cases c
      · simp
      · rw [if_pos rfl, hf, Bool.and_true]
    rw [split2, split2]
    omega

/-- Whether the input issues anything. -/
def issues (tx : Tx) (i : Nat) : Bool := !(tx.vin.getD i default).assetIssuance.isNull

theorem asked_issuances (A : BlindArgs) (tx : Tx) :
    ((keyed A 0 tx.vin.length).filter fun x => issues tx x.1).length
      = askedIssuances A.assetKeys tx.vin + askedIssuances A.tokenKeys tx.vin := by
  apply asked_keyed
  intro k t hk
  unfold issues
  rw [Nat.zero_add, List.getD_eq_getElem?_getD, hk]
  rfl

theorem issues_of_val {tx : Tx} {i : Nat} {token : Bool}
    (h : ¬ confIsNull ((tx.vin.getD i default).assetIssuance.val token) = true) : issues tx i = true := by
  unfold issues Issuance.isNull
  unfold Issuance.val at h
  cases token
  · simp at h; simp [h]
  · simp at h; simp [h]

/-- Blinded issuances are among those asked for. -/
theorem made_sublist {C : Ctx} {s : BS} {es : List IssEv} {n : Nat} {rest}
    (hr : IssRun C s es) (hm : es.map IssEv.at ++ rest = keyed C.A 0 n) :
    ((es.filterMap IssEv.data).map fun d => (d.i, d.token)).Sublist ((keyed C.A 0 n).filter fun x => issues s.tx x.1) := by
  have hn : (es.map IssEv.at).Nodup := by
    have := (keyed_nodup C.A n 0).1
    rw [← hm] at this
    exact this.sublist (List.sublist_append_left _ _)
  have h1 : ((es.filterMap IssEv.data).map fun d => (d.i, d.token)).Sublist (keyed C.A 0 n) := by
    rw [← hm]
    exact (filterMap_data_at es).trans (List.sublist_append_left _ _)
  have h2 : ((es.filterMap IssEv.data).map fun d => (d.i, d.token)).filter (fun x => issues s.tx x.1)
      = (es.filterMap IssEv.data).map fun d => (d.i, d.token) := by
    rw [List.filter_eq_self]
    intro x hx
    obtain ⟨d, hd, rfl⟩ := List.mem_map.1 hx
    obtain ⟨e, he, hed⟩ := List.mem_filterMap.1 hd
    cases e with
    | made d' =>
      cases hed
      have := (hr.event hn _ he).1.notNull
      exact issues_of_val this
    | passed => cases hed
  rw [← h2]
  exact h1.filter _

/-- Issuance amounts asked for and blinded. -/
theorem IssData.Made.blinded {C : Ctx} {E : Env} {tx tx' : Tx} {d : IssData} (hE : C.E = E)
    (hs : InputSizes (tx.vin.getD d.i default)) (hi : d.i < tx.vin.length)
    (hm : ({ d with txin := tx.vin.getD d.i default } : IssData).Made C)
    (hc : tx'.issCell (d.i, d.token) = d.cell (tx.issCell (d.i, d.token))) :
    IssuanceBlinded E C.A tx tx' d.i d.token d.key := by
  subst hE
  have h1 := congrArg IssCell.val hc
  have h2 := congrArg IssCell.proof hc
  simp only [Tx.issCell, IssData.cell] at h1 h2
  have e1 : ∀ t : TxIn, t.issued d.token = t.assetIssuance.val d.token := by
    intro t; cases d.token <;> rfl
  have e2 : ∀ w : TxInWitness, w.issuedProof d.token = w.proof d.token := by
    intro w; cases d.token <;> rfl
  have h1' : (tx'.vin.getD d.i default).issued d.token = d.confValue := by
    rw [List.getElem?_eq_getElem hi] at h1
    rw [List.getD_eq_getElem?_getD]
    cases hx : tx'.vin[d.i]? with
    | none => rw [hx] at h1; cases h1
    | some t =>
      rw [hx] at h1
      simp only [Option.map_some, Option.some.injEq] at h1
      rw [Option.getD_some, e1, h1]
  obtain ⟨m1, m2, m3, m4, m5, m6, m7, m8⟩ := hm
  obtain ⟨v, hv, hl, he⟩ := valueToAmount_ok m2
  obtain ⟨c1, c2, c3⟩ := createValueCommitment_ok.1 m5
  obtain ⟨g1, g2, -⟩ := blindedAsset_ok.1 m4
  obtain ⟨-, -, p1⟩ := generateRangeproof_ok.1 m7
  have hid : d.asset = pseudoId C.E (tx.vin.getD d.i default) d.token := by
    dsimp only at m3
    generalize tx.vin.getD d.i default = t at hs m3 ⊢
    have hlen := issuanceEntropy_len (E := C.E) hs
    unfold pseudoAsset at m3
    by_cases hz : AllZero t.assetIssuance.assetBlindingNonce
    · rw [if_pos (isNull32_iff.2 hz), entropy_eq hs hz] at m3
      cases ht : d.token
      · rw [ht] at m3
        simp only [bind, Except.bind, calculateAsset, hlen, ne_eq, not_true_eq_false, if_false, pure, Except.pure,
          Bool.not_false, if_true] at m3
        have m3 := Option.some.inj (Except.ok.inj m3)
        rw [← m3]
        rfl
      · rw [ht] at m3
        simp only [bind, Except.bind, calculateReissuanceToken, hlen, ne_eq, not_true_eq_false, if_false, pure, Except.pure,
          Bool.not_true, if_true] at m3
        have m3 := Option.some.inj (Except.ok.inj m3)
        rw [← m3]
        rfl
    · rw [if_neg (fun h => hz (isNull32_iff.1 h))] at m3
      have he : issuanceEntropy C.E t = t.assetIssuance.assetEntropy := by unfold issuanceEntropy; rw [if_neg hz]
      cases ht : d.token
      · rw [ht] at m3
        simp only [bind, Except.bind, calculateAsset, hs.entropy, ne_eq, not_true_eq_false, if_false, pure, Except.pure,
          Bool.not_false, if_true] at m3
        have m3 := Option.some.inj (Except.ok.inj m3)
        rw [← m3]
        simp only [pseudoId, assetId, he]
        rfl
      · rw [ht] at m3
        cases m3
  dsimp only at c1 c2 c3 g1 p1 hv he m8
  rw [he] at c1
  refine ⟨?_, v, d.gen, d.commit, d.blind, _, d.proof, ?_, hl, m8, ?_, c1, ?_, ?_, p1, ?_⟩
  · rw [h1']
    exact valid_33 c3 (C.E.z.commitSerialize_len _ _ c2)
  · rw [e1]; exact hv
  · rw [← hid]; exact g1
  · rw [h1']; exact c2
  · rw [← hid]
    exact rangeproofArgs_spec C.A d.blind d.key [] d.commit d.gen d.asset _ v d.amount he
  · rw [e2]; exact h2

/-- Outputs do not disturb issuances. -/
theorem issCell_outsAfter : ∀ (ds : List OutData) (s : BS) (x : Nat × Bool), (outsAfter s ds).tx.issCell x = s.tx.issCell x
  | [], _, _ => rfl
  | d :: ds, s, x => by
    rw [outsAfter_cons, issCell_outsAfter ds]
    unfold OutData.after OutData.newTx
    dsimp only
    cases d.surj <;> rfl

theorem validKeys_asked {z : Zkp} {A : BlindArgs} {tx : Tx}
    (h : ∀ j pk, A.pubkeys[j]? = some pk → pk ≠ [] → Blindable z tx j pk) :
    (validKeys z 0 A.pubkeys).length = askedOutputs A := by
  have : validKeys z 0 A.pubkeys = (A.pubkeys.zipIdx 0).filter fun x => decide (x.1 ≠ []) := by
    unfold validKeys
    apply List.filter_congr
    intro x hx
    rw [List.mem_zipIdx_iff_getElem?] at hx
    by_cases hne : x.1 = []
    · simp [hne, fullyValid]
    · have := (h x.2 x.1 hx hne).pubkey
      rw [(fullyValid_iff.2 ⟨hne, this⟩)]
      simp [hne]
  rw [this]
  unfold askedOutputs
  have e : ∀ (l : List Bytes) (i : Nat), ((l.zipIdx i).filter fun x => decide (x.1 ≠ [])).length
      = (l.filter fun x => decide (x ≠ [])).length := by
    intro l
    induction l with
    | nil => intro i; rfl
    | cons x l ih =>
      intro i
      rw [List.zipIdx_cons, List.filter_cons, List.filter_cons]
      dsimp only
      split
      · rw [List.length_cons, List.length_cons, ih]
      · exact ih _
  exact e _ _

theorem validKeys_sorted (z : Zkp) (pks : List Bytes) : ((validKeys z 0 pks).map Prod.snd).Pairwise (· < ·) := by
  unfold validKeys
  have : ((pks.zipIdx 0).map Prod.snd).Pairwise (· < ·) := by
    rw [List.zipIdx_map_snd]
    exact List.pairwise_lt_range'
  exact this.sublist (List.filter_sublist.map _)

theorem filter_length_eq {α} {p : α → Bool} : ∀ {l : List α}, (l.filter p).length = l.length → ∀ x ∈ l, p x = true := by
  intro l h x hx
  have := List.filter_eq_self.1 ((List.filter_sublist (p := p) (l := l)).eq_of_length h)
  exact this x hx

/-- The balancing factor computed for the last output is zero: `vs` are the amounts of the
blinded inputs, of the blinded issuances and of the blinded outputs, the last of which is `v`. -/
def ZeroBalance (E : Env) (A : BlindArgs) (tx : Tx) (v : Nat) : Prop :=
  ∃ vs rs bs n m b, E.z.blindSum vs rs bs n m = some b ∧ AllZero b ∧ vs.getLast? = some v ∧
    vs.length = (A.descs.filter Desc.blinded).length + asked A tx ∧ n = vs.length

/-- A requested output at the end. -/
inductive OutputEnd (E : Env) (A : BlindArgs) (tx tx' : Tx) (bfs abfs : List Bytes) (j : Nat) : Prop
  | blinded : Blinded E A tx tx' j (bfs.getD j []) (abfs.getD j []) → OutputEnd E A tx tx' bfs abfs j
  /-- the zero case the code documents -/
  | zero (v : Bytes) : LastAsked A j → Untouched tx tx' j → bfs[j]? = some (List.replicate 32 0) →
      abfs[j]? = some (List.replicate 32 0) → (tx.vout.getD j {}).nValue = 1 :: v → ZeroBalance E A tx (beVal v) →
      OutputEnd E A tx tx' bfs abfs j

theorem Left.blinded {C : Ctx} {E : Env} {A : BlindArgs} {tx : Tx} {s' : BS} {ds} (hE : C.E = E) (hA : C.A = A)
    (hL : Left C (firstState A tx) s' ds) {d : OutData} (hd : d ∈ ds) {p} (hp : d.surj = some p) :
    Blinded E A tx s'.tx d.j ((s'.obf.map (·.getD zero32)).getD d.j []) ((s'.oabf.map (·.getD zero32)).getD d.j []) := by
  subst hE hA
  obtain ⟨m1, m2, m3, m4⟩ := hL.made d hd
  obtain ⟨t1, -, t3, t4, t5⟩ := hL.those d hd
  have w := t3 p hp
  change d.out = tx.vout.getD d.j {} at m4
  have b1 : (s'.obf.map (·.getD zero32)).getD d.j [] = d.blind := by
    rw [List.getD_eq_getElem?_getD, List.getElem?_map, t4]; rfl
  have b2 : (s'.oabf.map (·.getD zero32)).getD d.j [] = d.assetblind := by
    rw [List.getD_eq_getElem?_getD, List.getElem?_map, t5]; rfl
  rw [b1, b2]
  have hn : (d.newOut d.out).nValue = d.confValue := rfl
  refine ⟨?_, ?_, ?_⟩
  · rw [t1]; exact m1.committed
  · obtain ⟨v, hv, he⟩ := m1.hidden
    obtain ⟨n1, n2, n3, n4, x, n5, n6⟩ := outputNonce_ok.1 m1.nonce
    obtain ⟨-, -, p1⟩ := generateRangeproof_ok.1 m1.proof
    rw [← m4, t1]
    refine ⟨d.asset, v, d.gen, d.commit, d.seed, x, _, d.proof, hv, n2, n3, by rw [← n3]; exact n4, ?_, ?_, p1, by rw [w]⟩
    · rw [List.getD_eq_getElem?_getD, m2]; exact n5
    · rw [← n6]
      exact rangeproofArgs_spec C.A d.blind d.nonce d.out.scriptPubKey d.commit d.gen d.asset d.assetblind v d.amount he
  · rw [w]
    exact (m1.surj p hp).1

/-- C33.  Strict success: the number reported is the number asked for, every requested issuance
amount is hidden with its proof, and so is every requested output with both proofs, unless it
is the last one and its balancing factor came out as zero. -/
theorem C33_strict {E : Env} {A : BlindArgs} {tx tx' : Tx} {num bfs abfs}
    (h : blindTransaction E A tx = (.ok (.success num bfs abfs), tx')) (hst : A.strict = true)
    (hsz : ∀ txin ∈ tx.vin, InputSizes txin) :
    num = asked A tx ∧
    (∀ i token key, i < tx.vin.length → (tx.vin.getD i default).assetIssuance.isNull = false →
      A.issuanceKey i token = some key → IssuanceBlinded E A tx tx' i token key) ∧
    (∀ j, A.pubkeys.getD j [] ≠ [] → OutputEnd E A tx tx' bfs abfs j) := by
  obtain ⟨C, s', hR, hE, rfl, hres⟩ := blind_success h
  obtain ⟨rfl, rfl, rfl, hdone⟩ := result_success hres
  obtain ⟨hRE, hRA, hRl, -, -, hRo, hRb, hRn⟩ := hR
  subst hRE hRA
  have hdone := hdone hst
  have hvk := validKeys_asked hRo
  have hask := asked_issuances C.A tx
  have hin : ∀ j, C.A.pubkeys.getD j [] ≠ [] → (C.A.pubkeys.getD j [], j) ∈ validKeys C.E.z 0 C.A.pubkeys := by
    intro j hj
    rw [mem_validKeys]
    have : C.A.pubkeys[j]? = some (C.A.pubkeys.getD j []) := by
      rw [List.getD_eq_getElem?_getD] at hj ⊢
      cases hx : C.A.pubkeys[j]? with
      | none => rw [hx] at hj; exact absurd rfl hj
      | some y => rfl
    exact ⟨this, fullyValid_iff.2 ⟨hj, (hRo j _ this hj).pubkey⟩⟩
  -- issuances, once all of them are known to have been made
  have hiss : ∀ (es : List IssEv) (t' : Tx), IssRun C (firstState C.A tx) es → es.map IssEv.at = keyed C.A 0 tx.vin.length →
      (∀ x, t'.issCell x = (issAfter (firstState C.A tx) es).tx.issCell x) →
      (es.filterMap IssEv.data).length = askedIssuances C.A.assetKeys tx.vin + askedIssuances C.A.tokenKeys tx.vin →
      ∀ i token key, i < tx.vin.length → (tx.vin.getD i default).assetIssuance.isNull = false →
        C.A.issuanceKey i token = some key → IssuanceBlinded C.E C.A tx t' i token key := by
    intro es t' hr hm ht hlen i token key hi hnn hk
    have hsub := made_sublist (rest := []) hr (by rw [List.append_nil]; exact hm)
    have heq := hsub.eq_of_length (by rw [List.length_map, hlen]; exact hask.symm)
    have hmem : (i, token) ∈ (keyed C.A 0 tx.vin.length).filter fun x => issues tx x.1 := by
      rw [List.mem_filter, mem_keyed]
      refine ⟨⟨hi, ?_⟩, ?_⟩
      · rw [issKeys_key, hk]; rfl
      · dsimp only; unfold issues; rw [hnn]; rfl
    have hmem2 : (i, token) ∈ (es.filterMap IssEv.data).map fun d => (d.i, d.token) := by
      rw [heq]; exact hmem
    obtain ⟨d, hd, hdx⟩ := List.mem_map.1 hmem2
    cases hdx
    obtain ⟨e, he, hed⟩ := List.mem_filterMap.1 hd
    cases e with
    | passed => cases hed
    | made d' =>
      cases hed
      have hn : (es.map IssEv.at).Nodup := by rw [hm]; exact (keyed_nodup C.A _ 0).1
      obtain ⟨g1, g2, g3⟩ := hr.event hn _ he
      rw [issKeys_key, hk] at g2
      cases g2
      refine IssData.Made.blinded rfl (hsz _ ?_) hi g1 ((ht _).trans g3)
      rw [List.getD_eq_getElem?_getD, List.getElem?_eq_getElem hi]
      exact List.getElem_mem hi
  have hlenP : C.A.pubkeys.length ≤ (firstState C.A tx).tx.vout.length := hRl.pubkeys
  refine ⟨by rw [hdone, hRn], ?_⟩
  cases hE with
  | issuance es x rest h1 h2 h3 h4 h5 h6 h7 =>
    exfalso
    obtain ⟨a1, -, a3, -⟩ := issAfter_lists es (firstState C.A tx)
    have : (es.filterMap IssEv.data).length ≤ es.length := List.length_filterMap_le _ _
    have z1 : (firstState C.A tx).attempts = 0 := rfl
    have z2 : (firstState C.A tx).done = 0 := rfl
    omega
  | full es ds h1 h2 h3 h4 h5 =>
    subst h5
    obtain ⟨a1, -, a3, -⟩ := issAfter_lists es (firstState C.A tx)
    obtain ⟨b1, -, b3, -⟩ := outsAfter_lists ds (padOut (issAfter (firstState C.A tx) es))
    have hm := (made_sublist (rest := []) h1 (by rw [List.append_nil]; exact h2)).length_le
    rw [List.length_map] at hm
    change _ ≤ (List.filter (fun x : Nat × Bool => issues tx x.1) _).length at hm
    have z2 : (firstState C.A tx).done = 0 := rfl
    have p2 : (padOut (issAfter (firstState C.A tx) es)).done = (issAfter (firstState C.A tx) es).done := rfl
    have hds : ds.length = askedOutputs C.A := by rw [← hvk, ← h4]; simp
    have hf : (ds.filter (·.surj.isSome)).length ≤ ds.length := List.length_filter_le _ _
    have htot : asked C.A tx = askedOutputs C.A + askedIssuances C.A.assetKeys tx.vin + askedIssuances C.A.tokenKeys tx.vin := rfl
    refine ⟨hiss es _ h1 h2 (fun x => ?_) (by omega), ?_⟩
    · rw [issCell_outsAfter]; rfl
    · intro j hj
      have hmem := hin j hj
      rw [← h4] at hmem
      obtain ⟨d, hd, hdj⟩ := List.mem_map.1 hmem
      have hj' : d.j = j := (Prod.mk.inj hdj).2
      have hs := filter_length_eq (p := fun d : OutData => d.surj.isSome) (by omega) d hd
      obtain ⟨p, hp⟩ := Option.isSome_iff_exists.1 hs
      subst hj'
      exact .blinded ((left_of_run (rest := []) h3 (by rw [List.append_nil]; exact h4) hlenP (by simp [firstState])
        (by simp [firstState])).blinded rfl rfl hd hp)
  | early es ds x rest amount h1 h2 h3 h4 h5 h6 h7 =>
    obtain ⟨a1, a2, a3, a4, a5, a6, -⟩ := issAfter_lists es (firstState C.A tx)
    obtain ⟨b1, b2, b3, b4, b5, b6⟩ := outsAfter_lists ds (padOut (issAfter (firstState C.A tx) es))
    have hm := (made_sublist (rest := []) h1 (by rw [List.append_nil]; exact h2)).length_le
    rw [List.length_map] at hm
    change _ ≤ (List.filter (fun x : Nat × Bool => issues tx x.1) _).length at hm
    have z1 : (firstState C.A tx).attempts = 0 := rfl
    have z2 : (firstState C.A tx).done = 0 := rfl
    have p1 : (padOut (issAfter (firstState C.A tx) es)).attempts = (issAfter (firstState C.A tx) es).attempts := rfl
    have p2 : (padOut (issAfter (firstState C.A tx) es)).done = (issAfter (firstState C.A tx) es).done := rfl
    have hds : ds.length + 1 + rest.length = askedOutputs C.A := by
      rw [← hvk, ← h4]; simp; omega
    have hf : (ds.filter (·.surj.isSome)).length ≤ ds.length := List.length_filter_le _ _
    have hfe : (es.filterMap IssEv.data).length ≤ es.length := List.length_filterMap_le _ _
    have htot : asked C.A tx = askedOutputs C.A + askedIssuances C.A.assetKeys tx.vin + askedIssuances C.A.tokenKeys tx.vin := rfl
    have hL := left_of_run h3 h4 hlenP (by simp [firstState]) (by simp [firstState])
    cases h7 with
    | alone g1 g2 g3 =>
      exfalso
      have : (preBalance C (outsAfter (padOut (issAfter (firstState C.A tx) es)) ds) amount).done
        = (outsAfter (padOut (issAfter (firstState C.A tx) es)) ds).done := rfl
      omega
    | zero b g1 g2 g3 g4 g5 g6 =>
      change (outsAfter (padOut (issAfter (firstState C.A tx) es)) ds).done + 1 = _ at hdone
      have hrest : rest = [] := List.length_eq_zero_iff.1 (by omega)
      subst hrest
      refine ⟨hiss es _ h1 h2 (fun y => ?_) (by omega), ?_⟩
      · show (outsAfter (padOut (issAfter (firstState C.A tx) es)) ds).tx.issCell y = _
        rw [issCell_outsAfter]; rfl
      · intro j hj
        have hmem := hin j hj
        rw [← h4] at hmem
        rcases List.mem_append.1 hmem with hmem | hmem
        · obtain ⟨d, hd, hdj⟩ := List.mem_map.1 hmem
          have hj' : d.j = j := (Prod.mk.inj hdj).2
          have hs := filter_length_eq (p := fun d : OutData => d.surj.isSome) (by omega) d hd
          obtain ⟨p, hp⟩ := Option.isSome_iff_exists.1 hs
          subst hj'
          exact .blinded (hL.blinded rfl rfl hd hp)
        · rw [List.mem_singleton] at hmem
          subst hmem
          have hsort := validKeys_sorted C.E.z C.A.pubkeys
          rw [← h4] at hsort
          simp only [List.map_append, List.map_map, List.map_cons, List.map_nil, List.pairwise_append] at hsort
          have hnot : j ∉ ds.map OutData.j := by
            intro hm
            obtain ⟨d, hd, hdj⟩ := List.mem_map.1 hm
            have := hsort.2.2 d.j (List.mem_map.2 ⟨d, hd, rfl⟩) j (by simp)
            omega
          obtain ⟨o1, o2, o3, o4⟩ := hL.others j hnot
          have hjl : j < tx.vout.length := by
            have h1 := mem_validKeys.1 (hin j hj)
            have h2 := (List.getElem?_eq_some_iff.1 h1.1).1
            have h3 : C.A.pubkeys.length ≤ tx.vout.length := hlenP
            dsimp only at h2
            omega
          have r : (List.replicate tx.vout.length (none : Option Bytes))[j]? = some none := by simp [hjl]
          have hval : (outsAfter (padOut (issAfter (firstState C.A tx) es)) ds).tx.vout.getD j {} = tx.vout.getD j {} := by
            rw [List.getD_eq_getElem?_getD, List.getD_eq_getElem?_getD, o1]; rfl
          dsimp only at h5
          rw [hval] at h5
          obtain ⟨v, hv, hvl, hve⟩ := valueToAmount_ok h5
          refine .zero v ⟨hj, ?_⟩ ⟨o1, o2⟩ ?_ ?_ hv ?_
          · intro k hk
            refine Classical.byContradiction fun hne => ?_
            have hmk := hin k hne
            rw [← h4] at hmk
            rcases List.mem_append.1 hmk with hmk | hmk
            · obtain ⟨d, hd, hdj⟩ := List.mem_map.1 hmk
              have hdk : d.j = k := (Prod.mk.inj hdj).2
              have := hsort.2.2 d.j (List.mem_map.2 ⟨d, hd, rfl⟩) j (by simp)
              omega
            · rw [List.mem_singleton] at hmk
              have := (Prod.mk.inj hmk).2
              omega
          · rw [List.getElem?_map]
            show ((outsAfter (padOut (issAfter (firstState C.A tx) es)) ds).obf[j]?).map _ = _
            rw [o3]
            show ((List.replicate tx.vout.length (none : Option Bytes))[j]?).map _ = _
            rw [r]; rfl
          · rw [List.getElem?_map]
            show ((outsAfter (padOut (issAfter (firstState C.A tx) es)) ds).oabf[j]?).map _ = _
            rw [o4]
            show ((List.replicate tx.vout.length (none : Option Bytes))[j]?).map _ = _
            rw [r]; rfl
          · have hl : ((outsAfter (padOut (issAfter (firstState C.A tx) es)) ds).amounts ++ [amount]).length
                = (C.A.descs.filter Desc.blinded).length + asked C.A tx := by
              rw [List.length_append, g4, g3, ← hRn, ← hRb, List.length_singleton]
              omega
            refine ⟨_, _, _, _, _, b, g5, isNull32_iff.1 g6, ?_, by rw [List.length_map]; exact hl, ?_⟩
            · rw [List.map_append, List.map_cons, List.map_nil, hve, List.getLast?_concat]
            · rw [List.length_map, hl, ← hRn, ← hRb, ← g1]; omega

/-- C33, formats: if the library writes commitments and proofs as such, requested outputs carry
an asset commitment and a rangeproof. -/
theorem C33_formats {E : Env} {A : BlindArgs} {tx tx' : Tx} {j : Nat} {bf abf : Bytes} (hF : Formats E.z)
    (h : Blinded E A tx tx' j bf abf) :
    IsAssetCommitment (tx'.vout.getD j {}).nAsset ∧ (tx'.outWit j).rangeproof ≠ [] := by
  obtain ⟨-, ⟨asset, v, gen, com, seed, x, a, p, hh, -, -, -, -, -, hs, hp⟩, -⟩ := h
  refine ⟨?_, by rw [hp]; exact hF.proof _ _ hs⟩
  have hl := E.z.genSerialize_len _ _ hh.nAsset
  have := hF.genPrefix _ _ hh.nAsset
  revert hl this
  cases (tx'.vout.getD j {}).nAsset with
  | nil => intro hl; simp at hl
  | cons y t =>
    intro hl hy
    refine ⟨t, ?_, by simpa using hl⟩
    simpa using hy

/-- C21.  The rangeproof of a blinded output is made for a minimum of 0 exactly if the script is
unspendable, and of 1 otherwise. -/
theorem C21_min_value {E : Env} {A : BlindArgs} {tx tx' : Tx} {j : Nat} {bf abf : Bytes}
    (h : Blinded E A tx tx' j bf abf) :
    ∃ a, E.z.rangeSign a = some (tx'.outWit j).rangeproof ∧
      (a.minValue = 0 ↔ Unspendable (tx.vout.getD j {}).scriptPubKey) ∧
      (a.minValue = 1 ↔ ¬ Unspendable (tx.vout.getD j {}).scriptPubKey) := by
  obtain ⟨-, ⟨asset, v, gen, com, seed, x, a, p, -, -, -, -, -, ha, hs, hp⟩, -⟩ := h
  refine ⟨a, by rw [hp]; exact hs, ?_⟩
  rw [ha.minValue]
  by_cases hu : Unspendable (tx.vout.getD j {}).scriptPubKey <;> simp

theorem buildAligned_ok {data : List Bytes} {len : Nat} {b : Bytes} (h : buildAligned data len = .ok b) : b = data.flatten := by
  unfold buildAligned at h
  split at h
  · cases h
  · split at h
    · cases h
    · split at h
      · cases h
      · split at h
        · cases h
        · cases h; rfl

theorem surjectionProof_ok {z : Zkp} {targets gens blinders assetblind gen asset seed p}
    (h : surjectionProof z targets gens blinders assetblind gen asset seed = .ok (some p)) :
    ∃ handle, z.surjVerify handle gens.flatten gens.length gen = true ∧ z.surjSerialize handle = some p := by
  unfold surjectionProof at h
  replace h := exc_bind_ok.1 h
  obtain ⟨tags, -, h⟩ := h
  split at h
  · cases h
  · rename_i proof idx _
    replace h := exc_bind_ok.1 h
    obtain ⟨eph, he, h⟩ := h
    have := buildAligned_ok he
    subst this
    split at h
    · cases h
    · replace h := exc_bind_ok.1 h
      obtain ⟨pr, -, h⟩ := h
      by_cases hv : z.surjVerify pr gens.flatten gens.length gen = true
      · simp only [hv, Bool.not_true, Bool.false_eq_true, if_false] at h
        cases hs : z.surjSerialize pr with
        | none => rw [hs] at h; cases h
        | some q => rw [hs] at h; cases h; exact ⟨pr, hv, hs⟩
      · simp only [hv, Bool.not_false, if_true] at h
        cases h

/-- C40, use: every surjection proof put in place was verified by the library against exactly
the described targets and the new asset commitment. -/
theorem C40_verified_partial {E : Env} {A : BlindArgs} {tx tx' : Tx} {num bfs abfs}
    (h : blindTransaction E A tx = (.ok (.success num bfs abfs), tx'))
    (hs : ∀ txin ∈ tx.vin, InputSizes txin) (hr : ∀ txin ∈ tx.vin, NoReissuedTokens txin) :
    ∃ L, IsTargets E A tx L ∧ ∀ j, tx'.outWit j ≠ tx.outWit j → ∃ handle gen,
      (∃ asset abf, E.z.generateBlinded asset abf = some gen) ∧
      E.z.genSerialize gen = some (tx'.vout.getD j {}).nAsset ∧
      E.z.surjVerify handle (L.map Target.gen).flatten L.length gen = true ∧
      E.z.surjSerialize handle = some (tx'.outWit j).surjectionproof := by
  obtain ⟨C, s', hR, hE, rfl, hres⟩ := blind_success h
  obtain ⟨ds, hL⟩ := hE.left (by rw [hR.args]; exact hR.lengths.pubkeys) (by simp [firstState]) (by simp [firstState])
  obtain ⟨L, h1, h2⟩ := (C40_targets_partial E A tx hs hr C.T).1 hR.targets
  obtain ⟨rfl, rfl, -⟩ := hR
  refine ⟨L, h1, ?_⟩
  intro j hj
  by_cases hm : j ∈ ds.map OutData.j
  · obtain ⟨d, hd, rfl⟩ := List.mem_map.1 hm
    obtain ⟨m1, -, -, -⟩ := hL.made d hd
    obtain ⟨t1, t2, t3, -, -⟩ := hL.those d hd
    cases hp : d.surj with
    | none => exact absurd (t2 hp) hj
    | some p =>
      obtain ⟨-, seed, hsp⟩ := m1.surj p hp
      rw [h2] at hsp
      obtain ⟨handle, v1, v2⟩ := surjectionProof_ok hsp
      rw [List.length_map] at v1
      refine ⟨handle, d.gen, ⟨_, _, (blindedAsset_ok.1 m1.blindedAsset).1⟩, ?_, v1, ?_⟩
      · rw [t1]; exact (blindedAsset_ok.1 m1.blindedAsset).2.1
      · rw [t3 p hp]; exact v2
  · exact absurd (hL.others j hm).2.1 hj

/-! ### Concrete runs -/

theorem success_of {x : Except PyErr BlindResult × Tx} {n : Nat}
    (h : (match x.1 with | .ok (.success m _ _) => m == n | _ => false) = true) :
    ∃ b a t, x = (.ok (.success n b a), t) := by
  obtain ⟨r, t⟩ := x
  dsimp only at h
  split at h
  · rename_i _ m b a
    have : m = n := by simpa using h
    subst this
    exact ⟨b, a, t, rfl⟩
  · cases h

/-- Two outputs and an issued amount. -/
def Toy.args (rand : Nat → Bytes) : BlindArgs :=
  { descs := [⟨Toy.b32 5, 8, Toy.b32 3, Toy.b32 4⟩], pubkeys := [Toy.pub 3, Toy.pub 4], assetKeys := [some (Toy.b32 8)], rand }

-- strict success with an issuance and two outputs blinded
example : let t := Toy.tx [(5, 3), (5, 5)] ⟨zero32, Toy.b32 7, Toy.amt 1, []⟩
    (Toy.args fun k => Toy.b32 (k + 5)).strict = true ∧ (∀ txin ∈ t.vin, InputSizes txin) ∧ asked (Toy.args fun k => Toy.b32 (k + 5)) t = 3 ∧
    ∃ b a t', blindTransaction Toy.env (Toy.args fun k => Toy.b32 (k + 5)) t = (.ok (.success 3 b a), t') ∧
      OutputEnd Toy.env (Toy.args fun k => Toy.b32 (k + 5)) t t' b a 1 := by
  intro t
  have hs : ∀ txin ∈ t.vin, InputSizes txin := by
    intro txin ht
    simp only [t, Toy.tx, List.mem_cons, List.not_mem_nil, or_false] at ht
    subst ht
    exact ⟨by decide, by decide, by decide⟩
  refine ⟨rfl, hs, by decide +kernel, ?_⟩
  obtain ⟨b, a, t', h⟩ := success_of (x := blindTransaction Toy.env (Toy.args fun k => Toy.b32 (k + 5)) t) (n := 3) (by decide +kernel)
  exact ⟨b, a, t', h, (C33_strict h rfl hs).2.2 1 (by decide)⟩

-- the zero case: counted as blinded, left as it is
example : let t := Toy.tx [(5, 3), (5, 5)]
    let A : BlindArgs := { Toy.args (fun k => Toy.b32 (if k = 0 then 2 else if k = 1 then 1 else 6)) with assetKeys := [] }
    ∃ b a t', blindTransaction Toy.env A t = (.ok (.success 2 b a), t') ∧ t'.vout[1]? = t.vout[1]? ∧ t'.vout[0]? ≠ t.vout[0]? := by
  intro t A
  obtain ⟨b, a, t', h⟩ := success_of (x := blindTransaction Toy.env A t) (n := 2) (by decide +kernel)
  refine ⟨b, a, t', h, ?_, ?_⟩
  · rw [show t' = (blindTransaction Toy.env A t).2 by rw [h]]; decide +kernel
  · rw [show t' = (blindTransaction Toy.env A t).2 by rw [h]]; decide +kernel

end Verif
