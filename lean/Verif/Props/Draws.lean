import Verif.Spec.Draws
import Verif.Props.BlindDone
/-
C52: every result of `_rand_func` has one purpose.
-/
namespace Verif

theorem issAfter_rnd : ∀ (es : List IssEv) (s : BS), (issAfter s es).rnd = s.rnd + (es.filterMap IssEv.data).length
  | [], s => by simp
  | .made d :: es, s => by
    rw [issAfter_cons, issAfter_rnd es]
    have e : List.filterMap IssEv.data (.made d :: es) = d :: es.filterMap IssEv.data := rfl
    rw [e, List.length_cons]
    show s.rnd + 1 + _ = _
    omega
  | .passed i t k as :: es, s => by
    rw [issAfter_cons, issAfter_rnd es]
    rfl

theorem IssRun.draws {C : Ctx} : ∀ {es : List IssEv} {s : BS}, IssRun C s es → ∀ d, IssEv.made d ∈ es →
    ∃ k, (es.filterMap IssEv.data)[k]? = some d ∧ d.blind = C.A.rand (s.rnd + k)
  | [], _, _, _, h => by cases h
  | .made e :: es, s, hr, d, hd => by
    have ee : List.filterMap IssEv.data (.made e :: es) = e :: es.filterMap IssEv.data := rfl
    rw [ee]
    cases hr with
    | made h1 h2 h3 h4 h5 h6 =>
      rcases List.mem_cons.1 hd with hd | hd
      · cases hd
        exact ⟨0, rfl, h5⟩
      · obtain ⟨k, hk, hb⟩ := IssRun.draws h6 d hd
        refine ⟨k + 1, by simpa using hk, ?_⟩
        rw [hb]
        show C.A.rand (s.rnd + 1 + k) = _
        congr 1
        omega
  | .passed i t key as :: es, s, hr, d, hd => by
    cases hr with
    | passed h1 h2 h3 =>
      rcases List.mem_cons.1 hd with hd | hd
      · cases hd
      · exact IssRun.draws h3 d hd

theorem OutRun.draws {C : Ctx} : ∀ {ds : List OutData} {s : BS}, OutRun C s ds → ∀ n d, ds[n]? = some d →
    ∃ t : BS, d.Chose C t ∧ t.rnd = s.rnd + 4 * n ∧ t.attempts = s.attempts + n
  | [], _, _, _, _, h => by cases h
  | e :: ds, s, hr, n, d, hd => by
    cases hr with
    | cons h1 h2 h3 h4 h5 =>
      cases n with
      | zero => cases hd; exact ⟨s, h2, rfl, rfl⟩
      | succ n =>
        obtain ⟨t, ht, hr, ha⟩ := OutRun.draws h5 n d (by simpa using hd)
        refine ⟨t, ht, ?_, ?_⟩
        · rw [hr]; show s.rnd + 4 + 4 * n = _; omega
        · rw [ha]; show s.attempts + 1 + n = _; omega

/-- What the four draws for an output are for. -/
def outUses (j : Nat) : List Use := [.value j, .asset j, .ephemeral j, .surjection j]

/-- What the draws of a run are for. -/
def runUses (es : List IssEv) (ds : List OutData) : List Use :=
  (es.filterMap IssEv.data).map (fun d => .issuance d.i d.token) ++ ds.flatMap fun d => outUses d.j

theorem flatMap_at {ds : List OutData} : ∀ {n : Nat} {d : OutData}, ds[n]? = some d → ∀ i, i < 4 →
    (ds.flatMap fun d => outUses d.j)[4 * n + i]? = (outUses d.j)[i]? := by
  induction ds with
  | nil => intro n d h; cases h
  | cons e ds ih =>
    intro n d h i hi
    rw [List.flatMap_cons]
    cases n with
    | zero =>
      cases h
      rw [List.getElem?_append_left (by simp [outUses]; omega)]
      simp
    | succ n =>
      rw [List.getElem?_append_right (by simp [outUses]; omega)]
      have := ih (n := n) (d := d) (by simpa using h) i hi
      rw [← this]
      congr 1
      simp [outUses]
      omega

theorem mem_outUses {j : Nat} {u : Use} : u ∈ outUses j ↔ u = .value j ∨ u = .asset j ∨ u = .ephemeral j ∨ u = .surjection j := by
  simp [outUses]

theorem runUses_nodup {es : List IssEv} {ds : List OutData} (h1 : (es.map IssEv.at).Nodup) (h2 : (ds.map OutData.j).Nodup) :
    (runUses es ds).Nodup := by
  unfold runUses
  rw [List.nodup_append]
  refine ⟨?_, ?_, ?_⟩
  · have := (h1.sublist (filterMap_data_at es))
    have e : (es.filterMap IssEv.data).map (fun d => Use.issuance d.i d.token)
        = ((es.filterMap IssEv.data).map fun d => (d.i, d.token)).map fun x => Use.issuance x.1 x.2 := by
      rw [List.map_map]; rfl
    rw [e]
    rw [List.Nodup, List.pairwise_map]
    refine List.Pairwise.imp ?_ this
    intro a b hab e
    apply hab
    cases a; cases b; cases e; rfl
  · induction ds with
    | nil => simp
    | cons d ds ih =>
      simp only [List.map_cons, List.nodup_cons] at h2
      rw [List.flatMap_cons, List.nodup_append]
      refine ⟨by simp [outUses], ih h2.2, ?_⟩
      intro a ha b hb e
      subst e
      obtain ⟨d', hd', hb⟩ := List.mem_flatMap.1 hb
      have : d.j = d'.j := by
        rw [mem_outUses] at ha hb
        rcases ha with rfl | rfl | rfl | rfl <;> rcases hb with hb | hb | hb | hb <;> first | (cases hb; done) | (injection hb)
      exact h2.1 (this ▸ List.mem_map_of_mem hd')
  · intro a ha b hb e
    subst e
    obtain ⟨d, -, rfl⟩ := List.mem_map.1 ha
    obtain ⟨d', -, hb⟩ := List.mem_flatMap.1 hb
    rw [mem_outUses] at hb
    rcases hb with hb | hb | hb | hb <;> cases hb

theorem runUses_length (es : List IssEv) (ds : List OutData) :
    (runUses es ds).length = (es.filterMap IssEv.data).length + 4 * ds.length := by
  unfold runUses
  rw [List.length_append, List.length_map]
  congr 1
  induction ds with
  | nil => rfl
  | cons d ds ih => rw [List.flatMap_cons, List.length_append, ih]; simp [outUses]; omega

theorem keyed_length (A : BlindArgs) (i n : Nat) : (keyed A i n).length ≤ 2 * n := by
  unfold keyed
  refine Nat.le_trans (List.length_filter_le _ _) ?_
  induction n generalizing i with
  | zero => simp
  | succ n ih => rw [List.range'_succ, List.flatMap_cons]; have := ih (i + 1); simp at this ⊢; omega

theorem validKeys_length (z : Zkp) (pks : List Bytes) : (validKeys z 0 pks).length ≤ pks.length := by
  unfold validKeys
  refine Nat.le_trans (List.length_filter_le _ _) ?_
  simp

/-- The records of a run that ended with a result. -/
theorem Ends.runs {C : Ctx} {n s s'} (h : Ends C n s s') (hlen : C.A.pubkeys.length ≤ s.tx.vout.length)
    (ho : s.obf.length = s.tx.vout.length) (ha : s.oabf.length = s.tx.vout.length) :
    ∃ es ds rest, IssRun C s es ∧ OutRun C (padOut (issAfter s es)) ds ∧ Left C s s' ds ∧
      es.map IssEv.at ++ rest = keyed C.A 0 n ∧ ds.length ≤ (validKeys C.E.z 0 C.A.pubkeys).length ∧ ∀ x, s'.tx.issCell x = (issAfter s es).tx.issCell x := by
  cases h with
  | issuance es x rest h1 h2 h3 h4 h5 h6 h7 =>
    obtain ⟨-, -, -, -, -, -, i1, i2, i3, i4⟩ := issAfter_lists es s
    refine ⟨es, [], x :: rest, h1, .nil _, ⟨by simp, by simp, ?_, by simp, by rw [h6, h7]; exact ⟨rfl, rfl⟩⟩, h2,
      Nat.zero_le _, fun x => by rw [h4]⟩
    intro k _
    refine ⟨by rw [h4, i3], ?_, by rw [h6], by rw [h7]⟩
    unfold Tx.outWit
    rw [h4, i4]
  | early es ds x rest amount h1 h2 h3 h4 h5 h6 h7 =>
    obtain ⟨f1, f2, f3⟩ := h7.frame
    refine ⟨es, ds, [], h1, h3, (left_of_run h3 h4 hlen ho ha).congr f1 f2 f3, by rw [List.append_nil]; exact h2,
      by rw [← h4]; simp, fun x => ?_⟩
    rw [f1, issCell_outsAfter]
    rfl
  | full es ds h1 h2 h3 h4 h5 =>
    subst h5
    refine ⟨es, ds, [], h1, h3, left_of_run (rest := []) h3 (by rw [List.append_nil]; exact h4) hlen ho ha,
      by rw [List.append_nil]; exact h2, by rw [← h4]; simp, fun x => ?_⟩
    rw [issCell_outsAfter]
    rfl

theorem surjectionProof_init {z : Zkp} {ts gs bs : List Bytes} {ab gen asset seed p : Bytes}
    (h : surjectionProof z ts gs bs ab gen asset seed = .ok (some p)) :
    ∃ tags n m handle idx, z.surjInit tags n m asset 100 seed = some (handle, idx) := by
  unfold surjectionProof at h
  obtain ⟨tags, -, h⟩ := exc_bind_ok.1 h
  cases hi : z.surjInit tags ts.length (min 3 ts.length) asset 100 seed with
  | none => rw [hi] at h; cases h
  | some x => exact ⟨tags, _, _, x.1, x.2, hi⟩

theorem issued_issCell {t t' : Tx} {i : Nat} {token : Bool} (h : t'.issCell (i, token) = t.issCell (i, token)) :
    (t'.vin.getD i default).issued token = (t.vin.getD i default).issued token := by
  have e1 : ∀ t : TxIn, t.issued token = t.assetIssuance.val token := by
    intro t; cases token <;> rfl
  rw [e1, e1]
  exact (issCell_get h).2

/-- C52.  When blinding succeeds, strictly or not, every result of the random function served
one purpose: the asset factor, the ephemeral key, the seed of the surjection proof and, except
for the one balancing output, the value factor of every output that changed, and the factor of
every issuance that changed, each come from a draw of their own. -/
theorem C52_drawn_once {E : Env} {A : BlindArgs} {tx tx' : Tx} {num bfs abfs}
    (h : blindTransaction E A tx = (.ok (.success num bfs abfs), tx')) :
    ∃ uses, DrawnOnce E A tx tx' bfs abfs uses := by
  obtain ⟨C, s', hR, hE, rfl, hres⟩ := blind_success h
  obtain ⟨rfl, rfl, rfl, -⟩ := result_success hres
  obtain ⟨es, ds, rest, hi, ho, hL, hk, hvl, hc⟩ :=
    hE.runs (by rw [hR.args]; exact hR.lengths.pubkeys) (by simp [firstState]) (by simp [firstState])
  obtain ⟨rfl, rfl, hlen, -⟩ := hR
  have hn : (es.map IssEv.at).Nodup := by
    have := (keyed_nodup C.A tx.vin.length 0).1
    rw [← hk] at this
    exact this.sublist (List.sublist_append_left _ _)
  have r0 : (padOut (issAfter (firstState C.A tx) es)).rnd = (es.filterMap IssEv.data).length := by
    show (issAfter (firstState C.A tx) es).rnd = _
    rw [issAfter_rnd]
    simp [firstState]
  /- where an output that changed is in the run -/
  have find : ∀ j, ¬ Untouched tx s'.tx j → ∃ (n : Nat) (d : OutData), ds[n]? = some d ∧ d.j = j := by
    intro j hj
    by_cases hm : j ∈ ds.map OutData.j
    · obtain ⟨d, hd, rfl⟩ := List.mem_map.1 hm
      obtain ⟨n, hn⟩ := List.mem_iff_getElem?.1 hd
      exact ⟨n, d, hn, rfl⟩
    · obtain ⟨o1, o2, -⟩ := hL.others j hm
      exact absurd ⟨o1, o2⟩ hj
  have use : ∀ {n : Nat} {d : OutData}, ds[n]? = some d → ∀ i, i < 4 →
      (runUses es ds)[(es.filterMap IssEv.data).length + 4 * n + i]? = (outUses d.j)[i]? := by
    intro n d hd i hi
    unfold runUses
    rw [List.getElem?_append_right (by simp; omega), ← flatMap_at hd i hi]
    congr 1
    simp
    omega
  refine ⟨runUses es ds, runUses_nodup hn hL.nodup, ?_, ?_, ?_, ?_, ?_, ?_⟩
  · have h1 := keyed_length C.A 0 tx.vin.length
    have h2 := validKeys_length C.E.z C.A.pubkeys
    have h3 := hlen.pubkeys
    rw [← hk] at h1
    have h4 := (filterMap_data_at es).length_le
    rw [runUses_length]
    simp only [List.length_append, List.length_map] at h1 h4
    omega
  · intro j hj
    obtain ⟨n, d, hd, rfl⟩ := find j hj
    obtain ⟨t, ht, hr, -⟩ := ho.draws n d hd
    obtain ⟨-, -, -, -, t5⟩ := hL.those d (List.mem_of_getElem? hd)
    refine ⟨_, use hd 1 (by omega), ?_⟩
    rw [List.getElem?_map, t5, ht.assetblind, hr, r0]
    rfl
  · intro j hj
    obtain ⟨n, d, hd, rfl⟩ := find j hj
    obtain ⟨t, ht, hr, -⟩ := ho.draws n d hd
    have hdm := List.mem_of_getElem? hd
    obtain ⟨t1, -⟩ := hL.those d hdm
    obtain ⟨n1, n2, n3, -⟩ := outputNonce_ok.1 (hL.made d hdm).1.nonce
    have e : d.seed = C.A.rand ((es.filterMap IssEv.data).length + 4 * n + 2) := by rw [ht.seed, hr, r0]
    refine ⟨_, use hd 2 (by omega), by rw [← e]; exact n2, ?_⟩
    rw [t1, ← e, ← n3]
    rfl
  · by_cases hl : ∃ (n : Nat) (d : OutData), ds[n]? = some d ∧ (padOut (issAfter (firstState C.A tx) es)).attempts + n + 1 = C.nToBlind
    · obtain ⟨n0, d0, hd0, hn0⟩ := hl
      refine ⟨d0.j, ?_⟩
      intro j hj
      obtain ⟨n, d, hd, rfl⟩ := find j hj
      obtain ⟨t, ht, hr, hat⟩ := ho.draws n d hd
      obtain ⟨-, -, -, t4, -⟩ := hL.those d (List.mem_of_getElem? hd)
      refine ⟨_, use hd 0 (by omega), ?_⟩
      have hb := ht.blind
      rw [hr, r0] at hb
      rw [List.getElem?_map, t4]
      show some d.blind = _ ∨ _ ∧ ∃ vs rs bs n m b, _ ∧ some d.blind = some b
      generalize d.blind = bl at hb
      cases hb with
      | random => left; rfl
      | balancing b g1 g2 g3 g4 g5 g6 =>
        right
        have : n = n0 := by rw [hat] at g1; omega
        subst this
        rw [hd] at hd0
        cases hd0
        exact ⟨rfl, _, _, _, _, _, _, g5, rfl⟩
    · refine ⟨0, ?_⟩
      intro j hj
      obtain ⟨n, d, hd, rfl⟩ := find j hj
      obtain ⟨t, ht, hr, hat⟩ := ho.draws n d hd
      obtain ⟨-, -, -, t4, -⟩ := hL.those d (List.mem_of_getElem? hd)
      refine ⟨_, use hd 0 (by omega), ?_⟩
      have hb := ht.blind
      rw [hr, r0] at hb
      rw [List.getElem?_map, t4]
      left
      show some d.blind = _
      generalize d.blind = bl at hb
      cases hb with
      | random => rfl
      | balancing b g1 g2 g3 g4 g5 g6 => exact absurd ⟨n, d, hd, by rw [hat] at g1; omega⟩ hl
  · intro j hj
    obtain ⟨n, d, hd, rfl⟩ := find j (fun hu => hj hu.2)
    obtain ⟨t, ht, hr, -⟩ := ho.draws n d hd
    obtain ⟨-, t2, -⟩ := hL.those d (List.mem_of_getElem? hd)
    cases hs : d.surj with
    | none => exact absurd (t2 hs) hj
    | some p =>
      have := ht.surj p hs
      rw [hr, r0] at this
      obtain ⟨tags, n', m, handle, idx, hi⟩ := surjectionProof_init this
      exact ⟨_, tags, n', m, d.asset, handle, idx, use hd 3 (by omega), hi⟩
  · intro i token hne
    have hmem : (i, token) ∈ es.map IssEv.at := by
      apply Decidable.byContradiction
      intro hm
      exact hne (issued_issCell ((hc _).trans (issCell_issAfter_none hi hm)))
    obtain ⟨e, he, hat⟩ := List.mem_map.1 hmem
    have hev := hi.event hn e he
    cases e with
    | passed i' t' key as =>
      cases hat
      obtain ⟨-, -, -, -, -, hcell⟩ := hev
      exact absurd (issued_issCell ((hc _).trans hcell)) hne
    | made d =>
      cases hat
      obtain ⟨hm, -, hcell⟩ := hev
      obtain ⟨k, hk, hb⟩ := hi.draws d he
      rw [show (firstState C.A tx).rnd + k = k by simp [firstState]] at hb
      obtain ⟨v, hv, hl, hev⟩ := valueToAmount_ok hm.amount
      obtain ⟨c1, c2, -⟩ := createValueCommitment_ok.1 hm.commit
      dsimp only at c1 c2 hv hev
      rw [hev, hb] at c1
      have e1 : ∀ t : TxIn, t.issued d.token = t.assetIssuance.val d.token := by
        intro t; cases d.token <;> rfl
      have hval := congrArg IssCell.val ((hc _).trans hcell)
      simp only [Tx.issCell, IssData.cell] at hval
      refine ⟨k, v, d.gen, d.commit, ?_, by rw [e1]; exact hv, c1, ?_⟩
      · unfold runUses
        have hlt : k < (es.filterMap IssEv.data).length := (List.getElem?_eq_some_iff.1 hk).1
        rw [List.getElem?_append_left (by simpa using hlt), List.getElem?_map, hk]
        rfl
      · rw [c2]
        congr 1
        rw [e1, List.getD_eq_getElem?_getD]
        have hx : (tx.vin[d.i]?).isSome = true := by
          cases hx : tx.vin[d.i]? with
          | some t => rfl
          | none =>
            exfalso
            have e2 : (tx.vin.getD d.i default) = default := by rw [List.getD_eq_getElem?_getD, hx]; rfl
            change (tx.vin.getD d.i default).assetIssuance.val d.token = 1 :: v at hv
            rw [e2] at hv
            revert hv
            cases d.token <;> (intro hv; cases hv)
        obtain ⟨t, hx⟩ := Option.isSome_iff_exists.1 hx
        change (s'.tx.vin[d.i]?).map _ = (tx.vin[d.i]?.map _).map _ at hval
        rw [hx] at hval
        cases hx' : s'.tx.vin[d.i]? with
        | none => rw [hx'] at hval; cases hval
        | some t' =>
          rw [hx'] at hval
          exact (Option.some.inj hval).symm

theorem DrawnOnce.lt {E : Env} {A : BlindArgs} {tx tx' : Tx} {bfs abfs uses} (h : DrawnOnce E A tx tx' bfs abfs uses) {k u}
    (hk : uses[k]? = some u) : k < 2 * tx.vin.length + 4 * tx.vout.length :=
  Nat.lt_of_lt_of_le (List.getElem?_eq_some_iff.1 hk).1 h.count

/-- C52, consequence: if the random function does not repeat itself within the draws there can
be, no two outputs share an asset factor, no two outputs but the balancing one share a value
factor, and no asset factor is the value factor of any output but the balancing one. -/
theorem C52_distinct {E : Env} {A : BlindArgs} {tx tx' : Tx} {num bfs abfs}
    (h : blindTransaction E A tx = (.ok (.success num bfs abfs), tx'))
    (hr : ∀ k l, k < 2 * tx.vin.length + 4 * tx.vout.length → l < 2 * tx.vin.length + 4 * tx.vout.length →
      A.rand k = A.rand l → k = l) :
    (∀ i j, ¬ Untouched tx tx' i → ¬ Untouched tx tx' j → abfs[i]? = abfs[j]? → i = j) ∧
    ∃ last, ∀ i j, ¬ Untouched tx tx' i → ¬ Untouched tx tx' j → i ≠ last →
      (j ≠ last → bfs[i]? = bfs[j]? → i = j) ∧ bfs[i]? ≠ abfs[j]? := by
  obtain ⟨uses, hu⟩ := C52_drawn_once h
  have key : ∀ {k l u v}, uses[k]? = some u → uses[l]? = some v → A.rand k = A.rand l → u = v := by
    intro k l u v h1 h2 e
    have := hr k l (hu.lt h1) (hu.lt h2) e
    subst this
    rw [h1] at h2
    exact Option.some.inj h2
  constructor
  · intro i j hi hj e
    obtain ⟨k, k1, k2⟩ := hu.asset i hi
    obtain ⟨l, l1, l2⟩ := hu.asset j hj
    rw [k2, l2] at e
    have := key k1 l1 (Option.some.inj e)
    injection this
  · obtain ⟨last, hv⟩ := hu.value
    refine ⟨last, ?_⟩
    intro i j hi hj hil
    obtain ⟨k, k1, k2⟩ := hv i hi
    have k2 : bfs[i]? = some (A.rand k) := by
      rcases k2 with k2 | ⟨e, -⟩
      · exact k2
      · exact absurd e hil
    constructor
    · intro hjl e
      obtain ⟨l, l1, l2⟩ := hv j hj
      have l2 : bfs[j]? = some (A.rand l) := by
        rcases l2 with l2 | ⟨e, -⟩
        · exact l2
        · exact absurd e hjl
      rw [k2, l2] at e
      have := key k1 l1 (Option.some.inj e)
      injection this
    · intro e
      obtain ⟨l, l1, l2⟩ := hu.asset j hj
      rw [k2, l2] at e
      have := key k1 l1 (Option.some.inj e)
      cases this

-- an issuance and two outputs blinded with draws that do not repeat
example : let t := Toy.tx [(5, 3), (5, 5)] ⟨zero32, Toy.b32 7, Toy.amt 1, []⟩
    let A := Toy.args fun k => Toy.b32 (k + 5)
    (∀ k l, k < 2 * t.vin.length + 4 * t.vout.length → l < 2 * t.vin.length + 4 * t.vout.length → A.rand k = A.rand l → k = l) ∧
    ∃ b a t', blindTransaction Toy.env A t = (.ok (.success 3 b a), t') ∧ ¬ Untouched t t' 0 ∧ ¬ Untouched t t' 1 ∧
      (t'.vin.getD 0 default).issued false ≠ (t.vin.getD 0 default).issued false := by
  intro t A
  refine ⟨?_, ?_⟩
  · have : ∀ k < 10, ∀ l < 10, Toy.b32 (k + 5) = Toy.b32 (l + 5) → k = l := by decide +kernel
    exact fun k l hk hl e => this k hk l hl e
  · obtain ⟨b, a, t', h⟩ := success_of (x := blindTransaction Toy.env A t) (n := 3) (by decide +kernel)
    have ht : t' = (blindTransaction Toy.env A t).2 := by rw [h]
    refine ⟨b, a, t', h, ?_, ?_, ?_⟩
    · rintro ⟨h1, -⟩
      rw [ht] at h1
      exact absurd h1 (by decide +kernel)
    · rintro ⟨h1, -⟩
      rw [ht] at h1
      exact absurd h1 (by decide +kernel)
    · rw [ht]
      decide +kernel

end Verif
