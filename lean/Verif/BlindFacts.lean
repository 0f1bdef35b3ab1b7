import Verif.BlindLoop
import Verif.Props.BlindFrame
/-
What a run of steps leaves behind, output by output and issuance by issuance.
-/
namespace Verif

theorem valueToAmount_ok {c : Bytes} {a : Int} (h : valueToAmount c = .ok a) :
    ∃ v, c = 1 :: v ∧ v.length = 8 ∧ twos 8 a = beVal v := by
  unfold valueToAmount at h
  by_cases he : confIsExplicit valueKind c = true
  · rw [if_pos he] at h
    obtain ⟨v, rfl, hl⟩ := explicitValue_iff.1 he
    cases h
    refine ⟨v, rfl, hl, ?_⟩
    apply twos_untwos
    have := beVal_lt v
    rw [hl] at this
    exact this
  · rw [if_neg he] at h
    cases h

theorem assetToAsset_ok {c a : Bytes} (h : assetToAsset c = .ok a) : c = 1 :: a ∧ a.length = 32 := by
  unfold assetToAsset at h
  by_cases he : confIsExplicit assetKind c = true
  · rw [if_pos he] at h
    obtain ⟨v, rfl, hl⟩ := explicitAsset_iff.1 he
    unfold assetNew at h
    simp only [List.drop_succ_cons, List.drop_zero, hl, if_true] at h
    cases h
    exact ⟨rfl, hl⟩
  · rw [if_neg he] at h
    cases h

/-! ### Outputs -/

theorem outsAfter_lists : ∀ (ds : List OutData) (s : BS),
    (outsAfter s ds).attempts = s.attempts + ds.length ∧ (outsAfter s ds).issAttempts = s.issAttempts ∧
    (outsAfter s ds).done = s.done + (ds.filter (·.surj.isSome)).length ∧
    (outsAfter s ds).blinds = s.blinds ++ ds.map OutData.blind ∧
    (outsAfter s ds).assetblinds = s.assetblinds ++ ds.map OutData.assetblind ∧
    (outsAfter s ds).amounts = s.amounts ++ ds.map OutData.amount
  | [], s => by simp
  | d :: ds, s => by
    obtain ⟨h1, h2, h3, h4, h5, h6⟩ := outsAfter_lists ds (d.after s)
    simp only [outsAfter_cons]
    rw [h1, h2, h3, h4, h5, h6]
    simp only [OutData.after, List.length_cons, List.map_cons, List.append_assoc, List.singleton_append, and_true, true_and,
      List.filter_cons]
    refine ⟨by omega, ?_⟩
    cases d.surj <;> simp
    omega

/-- Everything that belongs to output `k`. -/
structure Cell where
  out : Option TxOut
  wit : Option TxOutWitness
  bf : Option (Option Bytes)
  abf : Option (Option Bytes)

def BS.cell (s : BS) (k : Nat) : Cell := ⟨s.tx.vout[k]?, s.tx.wit.vtxoutwit[k]?, s.obf[k]?, s.oabf[k]?⟩

/-- The change of the cell of the output that is blinded. -/
def OutData.cell (d : OutData) (c : Cell) : Cell :=
  { out := c.out.map d.newOut
    wit := match d.surj with
      | none => c.wit
      | some p => c.wit.map fun _ => { rangeproof := d.proof, surjectionproof := p }
    bf := c.bf.map fun _ => some d.blind
    abf := c.abf.map fun _ => some d.assetblind }

theorem getElem?_set_self {α} (l : List α) (i : Nat) (a : α) : (l.set i a)[i]? = l[i]?.map fun _ => a := by
  rw [List.getElem?_set]
  simp only [if_true]
  by_cases h : i < l.length
  · simp [h]
  · simp [h]

theorem cell_after_self (d : OutData) (s : BS) : (d.after s).cell d.j = d.cell (s.cell d.j) := by
  unfold BS.cell OutData.cell OutData.after OutData.newTx
  simp only [getElem?_set_self]
  cases d.surj with
  | none => simp [setOut]
  | some p => simp [setOut, setOutWit]

theorem cell_after_ne (d : OutData) (s : BS) {k : Nat} (h : d.j ≠ k) : (d.after s).cell k = s.cell k := by
  unfold BS.cell OutData.after OutData.newTx
  simp only [List.getElem?_set_ne h]
  cases d.surj with
  | none => simp only [setOut, getElem?_modify_ne _ _ h]
  | some p => simp only [setOut, setOutWit, getElem?_modify_ne _ _ h]

theorem cell_outsAfter_none : ∀ (ds : List OutData) (s : BS) (k : Nat), k ∉ ds.map OutData.j →
    (outsAfter s ds).cell k = s.cell k
  | [], _, _, _ => rfl
  | d :: ds, s, k, h => by
    simp only [List.map_cons, List.mem_cons, not_or] at h
    rw [outsAfter_cons, cell_outsAfter_none ds _ k h.2, cell_after_ne d s (Ne.symm h.1)]

theorem cell_outsAfter : ∀ (ds : List OutData) (s : BS), (ds.map OutData.j).Nodup → ∀ d ∈ ds,
    (outsAfter s ds).cell d.j = d.cell (s.cell d.j)
  | [], _, _, _, h => by cases h
  | e :: ds, s, hn, d, hd => by
    simp only [List.map_cons, List.nodup_cons] at hn
    rw [outsAfter_cons]
    rcases List.mem_cons.1 hd with rfl | hd
    · rw [cell_outsAfter_none ds _ d.j hn.1, cell_after_self]
    · rw [cell_outsAfter ds _ hn.2 d hd, cell_after_ne]
      intro h
      exact hn.1 (h ▸ List.mem_map_of_mem hd)

/-- In a run over different outputs every record is about the outputs as they were at first. -/
theorem OutRun.made {C : Ctx} : ∀ {ds : List OutData} {s : BS}, OutRun C s ds → (ds.map OutData.j).Nodup → ∀ d ∈ ds,
    d.Made C ∧ fullyValid C.E.z d.pk = true ∧ d.out = s.tx.vout.getD d.j {}
  | [], _, _, _, _, h => by cases h
  | e :: ds, s, hr, hn, d, hd => by
    simp only [List.map_cons, List.nodup_cons] at hn
    cases hr with
    | cons h1 h2 h3 h4 h5 =>
      rcases List.mem_cons.1 hd with rfl | hd
      · exact ⟨h1, h3, h4⟩
      · obtain ⟨g1, g2, g3⟩ := OutRun.made h5 hn.2 d hd
        refine ⟨g1, g2, ?_⟩
        have hne : e.j ≠ d.j := fun h => hn.1 (h ▸ List.mem_map_of_mem hd)
        have := congrArg Cell.out (cell_after_ne e s hne)
        simp only [BS.cell] at this
        rw [g3, List.getD_eq_getElem?_getD, List.getD_eq_getElem?_getD, this]

theorem mem_validKeys {z : Zkp} {pks : List Bytes} {x : Bytes × Nat} :
    x ∈ validKeys z 0 pks ↔ pks[x.2]? = some x.1 ∧ fullyValid z x.1 = true := by
  unfold validKeys
  rw [List.mem_filter, List.mem_zipIdx_iff_getElem?]

theorem validKeys_nodup (z : Zkp) : ∀ (pks : List Bytes) (j : Nat), ((validKeys z j pks).map Prod.snd).Nodup := by
  intro pks j
  unfold validKeys
  have : ((pks.zipIdx j).map Prod.snd).Nodup := by
    rw [List.zipIdx_map_snd]
    exact List.nodup_range'
  exact this.sublist (List.filter_sublist.map _)

/-! ### Issuances -/

/-- The records of what was blinded. -/
def IssEv.data : IssEv → Option IssData
  | .made d => some d
  | .passed .. => none

def IssEv.amounts : IssEv → List Int
  | .made d => [d.amount]
  | .passed _ _ _ as => as

theorem issAfter_lists : ∀ (es : List IssEv) (s : BS),
    (issAfter s es).attempts = s.attempts + es.length ∧ (issAfter s es).issAttempts = s.issAttempts + es.length ∧
    (issAfter s es).done = s.done + (es.filterMap IssEv.data).length ∧
    (issAfter s es).blinds = s.blinds ++ (es.filterMap IssEv.data).map IssData.blind ∧
    (issAfter s es).assetblinds = s.assetblinds ++ (es.filterMap IssEv.data).map (fun _ => zero32) ∧
    (issAfter s es).amounts = s.amounts ++ es.flatMap IssEv.amounts ∧
    (issAfter s es).obf = s.obf ∧ (issAfter s es).oabf = s.oabf ∧ (issAfter s es).tx.vout = s.tx.vout ∧
    (issAfter s es).tx.wit.vtxoutwit = s.tx.wit.vtxoutwit
  | [], s => by simp
  | e :: es, s => by
    obtain ⟨h1, h2, h3, h4, h5, h6, h7, h8, h9, h10⟩ := issAfter_lists es (e.after s)
    simp only [issAfter_cons]
    rw [h1, h2, h3, h4, h5, h6, h7, h8, h9, h10]
    cases e with
    | made d =>
      simp [IssEv.after, IssData.after, IssEv.data, IssEv.amounts, IssData.newTx, setInWit, setIssuance]
      omega
    | passed =>
      have hd : ∀ i t k as, List.filterMap IssEv.data (IssEv.passed i t k as :: es) = es.filterMap IssEv.data := fun _ _ _ _ => rfl
      simp [IssEv.after, hd, IssEv.amounts]
      omega

/-- Everything that belongs to one issued amount. -/
structure IssCell where
  fixed : Option (OutPoint × Bytes × Nat × Bool × Bytes × Bytes)
  val : Option Bytes
  proof : Bytes

def Tx.issCell (t : Tx) (x : Nat × Bool) : IssCell :=
  ⟨t.vin[x.1]?.map TxIn.fixed, t.vin[x.1]?.map (fun y => y.assetIssuance.val x.2), (t.inWit x.1).proof x.2⟩

def IssData.cell (d : IssData) (c : IssCell) : IssCell := ⟨c.fixed, c.val.map fun _ => d.confValue, d.proof⟩

theorem inWit_newTx (d : IssData) (tx : Tx) (k : Nat) : (d.newTx tx).inWit k =
    if d.i = k then (tx.inWit k).setProof d.token d.proof else tx.inWit k := by
  unfold IssData.newTx Tx.inWit setInWit setIssuance
  dsimp only
  rw [List.getElem?_modify]
  have hp := getD_padTo tx.wit.vtxinwit (d.i + 1) {} k
  by_cases h : d.i = k
  · rw [if_pos h]
    have hl : k < (padTo tx.wit.vtxinwit (d.i + 1) {}).length := by
      simp [padTo]; omega
    rw [List.getElem?_eq_getElem hl] at hp ⊢
    simp only [h, if_true, Option.map_eq_map, Option.map_some, Option.getD_some] at hp ⊢
    simp only [← h] at hp ⊢
    rw [hp]
  · rw [if_neg h]
    simp only [h, if_false]
    rw [← hp]
    cases (padTo tx.wit.vtxinwit (d.i + 1) {})[k]? <;> rfl

theorem vin_newTx (d : IssData) (tx : Tx) (k : Nat) : (d.newTx tx).vin[k]? =
    if d.i = k then tx.vin[k]?.map fun t => { t with assetIssuance := d.txin.assetIssuance.setVal d.token d.confValue }
    else tx.vin[k]? := by
  unfold IssData.newTx setInWit setIssuance
  dsimp only
  rw [List.getElem?_modify]
  by_cases h : d.i = k
  · simp [h]
  · simp [h]

theorem issCell_self (d : IssData) (tx : Tx) (h : d.txin = tx.vin.getD d.i default) :
    (d.newTx tx).issCell (d.i, d.token) = d.cell (tx.issCell (d.i, d.token)) := by
  unfold Tx.issCell IssData.cell
  dsimp only
  rw [vin_newTx, inWit_newTx, if_pos rfl, if_pos rfl]
  rw [List.getD_eq_getElem?_getD] at h
  cases hx : tx.vin[d.i]? with
  | none => cases d.token <;> simp [TxInWitness.proof, TxInWitness.setProof]
  | some t =>
    rw [hx] at h
    simp only [Option.getD_some] at h
    rw [h]
    cases d.token <;> simp [TxInWitness.proof, TxInWitness.setProof, TxIn.fixed, Issuance.setVal, Issuance.val]

theorem issCell_ne (d : IssData) (tx : Tx) (h : d.txin = tx.vin.getD d.i default) {x : Nat × Bool} (hx : (d.i, d.token) ≠ x) :
    (d.newTx tx).issCell x = tx.issCell x := by
  unfold Tx.issCell
  rw [vin_newTx, inWit_newTx]
  by_cases hi : d.i = x.1
  · rw [if_pos hi, if_pos hi]
    obtain ⟨i, tk⟩ := x
    dsimp only at hi ⊢
    subst hi
    rw [List.getD_eq_getElem?_getD] at h
    have ht : d.token ≠ tk := fun e => hx (by rw [e])
    cases hv : tx.vin[d.i]? with
    | none => revert ht; cases d.token <;> cases tk <;> simp [TxInWitness.proof, TxInWitness.setProof]
    | some t =>
      rw [hv] at h
      simp only [Option.getD_some] at h
      rw [h]
      revert ht
      cases d.token <;> cases tk <;>
        simp [TxInWitness.proof, TxInWitness.setProof, TxIn.fixed, Issuance.setVal, Issuance.val]
  · rw [if_neg hi, if_neg hi]

theorem issCell_after_ne {C : Ctx} {e : IssEv} {es : List IssEv} {s : BS} (hr : IssRun C s (e :: es)) {x : Nat × Bool}
    (hx : e.at ≠ x) : (e.after s).tx.issCell x = s.tx.issCell x := by
  cases hr with
  | made h1 h2 h3 h4 h5 h6 => exact issCell_ne _ _ h4 hx
  | passed => rfl

theorem IssRun.tail {C : Ctx} {e : IssEv} {es : List IssEv} {s : BS} (hr : IssRun C s (e :: es)) : IssRun C (e.after s) es := by
  cases hr <;> assumption

theorem issCell_issAfter_none {C : Ctx} : ∀ {es : List IssEv} {s : BS}, IssRun C s es → ∀ {x : Nat × Bool},
    x ∉ es.map IssEv.at → (issAfter s es).tx.issCell x = s.tx.issCell x
  | [], _, _, _, _ => rfl
  | e :: es, s, hr, x, h => by
    simp only [List.map_cons, List.mem_cons, not_or] at h
    rw [issAfter_cons, issCell_issAfter_none hr.tail h.2, issCell_after_ne hr (Ne.symm h.1)]

/-- The input in a cell decides about the issuance. -/
theorem pseudoAsset_fixed {E : Env} {t t' : TxIn} (h : t'.fixed = t.fixed) (token : Bool) :
    pseudoAsset E t' token = pseudoAsset E t token := by
  simp only [TxIn.fixed, Prod.mk.injEq] at h
  obtain ⟨h1, -, -, -, h5, h6⟩ := h
  unfold pseudoAsset
  rw [h1, h5, h6]

theorem made_at_start {C : Ctx} {d : IssData} {t t' : TxIn} (h : d.Made C) (ht : d.txin = t') (hf : t'.fixed = t.fixed)
    (hv : t'.assetIssuance.val d.token = t.assetIssuance.val d.token) : ({ d with txin := t } : IssData).Made C := by
  obtain ⟨h1, h2, h3, h4, h5, h6, h7, h8⟩ := h
  subst ht
  refine ⟨?_, ?_, ?_, h4, h5, h6, h7, h8⟩
  · rw [hv] at h1; exact h1
  · rw [hv] at h2; exact h2
  · rw [pseudoAsset_fixed hf] at h3; exact h3

theorem issCell_get {s s' : Tx} {x : Nat × Bool} (h : s'.issCell x = s.issCell x) :
    (s'.vin.getD x.1 default).fixed = (s.vin.getD x.1 default).fixed ∧
    (s'.vin.getD x.1 default).assetIssuance.val x.2 = (s.vin.getD x.1 default).assetIssuance.val x.2 := by
  have h1 := congrArg IssCell.fixed h
  have h2 := congrArg IssCell.val h
  simp only [Tx.issCell] at h1 h2
  rw [List.getD_eq_getElem?_getD, List.getD_eq_getElem?_getD]
  revert h1 h2
  cases s'.vin[x.1]? <;> cases s.vin[x.1]? <;> simp
  exact fun a b => ⟨a, b⟩

/-- In a run over different issuances every event is about the inputs as they were at first. -/
theorem IssRun.event {C : Ctx} : ∀ {es : List IssEv} {s : BS}, IssRun C s es → (es.map IssEv.at).Nodup → ∀ e ∈ es,
    match e with
    | .made d => ({ d with txin := s.tx.vin.getD d.i default } : IssData).Made C ∧
        keyAt (C.A.issKeys d.token) d.i = some d.key ∧
        (issAfter s es).tx.issCell (d.i, d.token) = d.cell (s.tx.issCell (d.i, d.token))
    | .passed i token key as => ∃ t : TxIn, PassedOver C t token as ∧ t.fixed = (s.tx.vin.getD i default).fixed ∧
        t.assetIssuance.val token = (s.tx.vin.getD i default).assetIssuance.val token ∧
        keyAt (C.A.issKeys token) i = some key ∧ (issAfter s es).tx.issCell (i, token) = s.tx.issCell (i, token)
  | [], _, _, _, _, h => by cases h
  | f :: es, s, hr, hn, e, he => by
    simp only [List.map_cons, List.nodup_cons] at hn
    rcases List.mem_cons.1 he with rfl | he
    · have hl := issCell_issAfter_none hr.tail hn.1
      cases hr with
      | made h1 h2 h3 h4 h5 h6 =>
        refine ⟨?_, h3, ?_⟩
        · exact made_at_start h1 h4 rfl rfl
        · rw [issAfter_cons]
          exact hl.trans (issCell_self _ _ h4)
      | passed h1 h2 h3 =>
        refine ⟨_, h1, rfl, rfl, h2, ?_⟩
        rw [issAfter_cons]
        exact hl
    · have hne : f.at ≠ e.at := fun h => hn.1 (h ▸ List.mem_map_of_mem he)
      have hc := issCell_after_ne hr hne
      have ih := IssRun.event hr.tail hn.2 e he
      obtain ⟨hf, hv⟩ := issCell_get hc
      cases e with
      | made d =>
        obtain ⟨g1, g2, g3⟩ := ih
        refine ⟨?_, g2, ?_⟩
        · exact made_at_start (d := { d with txin := (f.after s).tx.vin.getD d.i default }) g1 rfl hf hv
        · rw [issAfter_cons, g3]
          exact congrArg d.cell hc
      | passed i token key as =>
        obtain ⟨t, g1, g2, g3, g4, g5⟩ := ih
        refine ⟨t, g1, g2.trans hf, g3.trans hv, g4, ?_⟩
        rw [issAfter_cons, g5]
        exact hc

theorem mem_keyed {A : BlindArgs} {n : Nat} {x : Nat × Bool} :
    x ∈ keyed A 0 n ↔ x.1 < n ∧ (keyAt (A.issKeys x.2) x.1).isSome = true := by
  unfold keyed
  rw [List.mem_filter]
  simp only [List.mem_flatMap, List.mem_range'_1, List.mem_cons, List.not_mem_nil, or_false]
  constructor
  · rintro ⟨⟨i, hi, h⟩, hk⟩
    refine ⟨?_, hk⟩
    rcases h with rfl | rfl <;> (dsimp only; omega)
  · rintro ⟨hx, hk⟩
    refine ⟨⟨x.1, by omega, ?_⟩, hk⟩
    obtain ⟨i, t⟩ := x
    cases t <;> simp

theorem keyed_nodup (A : BlindArgs) : ∀ n i, (keyed A i n).Nodup ∧ ∀ x ∈ keyed A i n, i ≤ x.1
  | 0, i => by simp [keyed]
  | n + 1, i => by
    obtain ⟨h1, h2⟩ := keyed_nodup A n (i + 1)
    rw [keyed_succ]
    constructor
    · have ha : (i, false) ∉ keyed A (i + 1) n := fun h => by have := h2 _ h; simp at this
      have hb : (i, true) ∉ keyed A (i + 1) n := fun h => by have := h2 _ h; simp at this
      split <;> split <;> simp [h1, ha, hb]
    · intro x hx
      simp only [List.mem_append] at hx
      rcases hx with hx | hx | hx
      · split at hx
        · rw [List.mem_singleton] at hx; subst hx; exact Nat.le_refl _
        · cases hx
      · split at hx
        · rw [List.mem_singleton] at hx; subst hx; exact Nat.le_refl _
        · cases hx
      · have := h2 x hx; omega

end Verif
