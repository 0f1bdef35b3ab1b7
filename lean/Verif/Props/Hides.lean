import Verif.Spec.Hides
import Verif.Props.Balance
import Verif.Props.Draws
import Verif.Props.BlindGoes
import Verif.Props.BlindFrame
/-
C100: what blinding hides cannot be told from the commitments.
-/
namespace Verif

variable {M : Type} [AddCommGroup M] [Module Scalar M]

theorem validKeys_outputs {z : Zkp} {A : BlindArgs} {tx : Tx}
    (h : ∀ j pk, A.pubkeys[j]? = some pk → pk ≠ [] → Blindable z tx j pk) :
    (validKeys z 0 A.pubkeys).map Prod.snd = outputsAsked A := by
  unfold validKeys outputsAsked
  congr 1
  apply List.filter_congr
  intro x hx
  rw [List.mem_zipIdx_iff_getElem?] at hx
  by_cases hne : x.1 = []
  · simp [hne, fullyValid]
  · rw [fullyValid_iff.2 ⟨hne, (h _ _ hx hne).pubkey⟩]
    simp [hne]

theorem outsAfter_vin : ∀ (ds : List OutData) (s : BS), (outsAfter s ds).tx.vin = s.tx.vin
  | [], _ => rfl
  | d :: ds, s => by
    rw [outsAfter_cons, outsAfter_vin ds]
    unfold OutData.after OutData.newTx
    dsimp only
    cases d.surj <;> rfl

/-- What the draws of a call are used for that hid every output it was asked to hide. -/
theorem drawn {E : Env} {A : BlindArgs} {tx tx' : Tx} {num bfs abfs} (P : Pedersen E.z M)
    (h : blindTransaction E A tx = (.ok (.success num bfs abfs), tx')) (hsz : ∀ t ∈ tx.vin, InputSizes t)
    (hk : KeysFine A tx) (hone : ∃ j, A.pubkeys.getD j [] ≠ [])
    (hall : ∀ j, A.pubkeys.getD j [] ≠ [] → IsValueCommitment (tx'.vout.getD j {}).nValue) :
    (∀ k j, (outputsAsked A)[k]? = some j → ∃ bf asset v gen com,
      HiddenBy E.z (tx.vout.getD j {}) (tx'.vout.getD j {}) bf (A.rand (drawOf A tx k + 1)) asset v gen com ∧
      (tx'.vout.getD j {}).nNonce = E.z.pubOf (A.rand (drawOf A tx k + 2)) ∧
      (k + 1 < (outputsAsked A).length → bf = A.rand (drawOf A tx k))) ∧
    ∀ k i token, (issuancesAsked A tx)[k]? = some (i, token) → ∃ v gen com, (tx.vin.getD i default).issued token = 1 :: v ∧
      E.z.generateBlinded (pseudoId E (tx.vin.getD i default) token) zero32 = some gen ∧
      E.z.commit (A.rand k) (beVal v) gen = some com ∧
      E.z.commitSerialize com = some ((tx'.vin.getD i default).issued token) := by
  obtain ⟨C, es, ds, hR, h1, h2, h3, h4, rfl, h5, -⟩ := full_run P h hk hone hall
  obtain ⟨rfl, rfl, hl, -, -, hRo, -, hRn⟩ := hR
  have hL := left_of_run (rest := []) h3 (by rw [List.append_nil]; exact h4) hl.pubkeys (by simp [firstState]) (by simp [firstState])
  have hj : ds.map OutData.j = outputsAsked C.A := by
    rw [← validKeys_outputs hRo, ← h4, List.map_map]; rfl
  have hie : (issuancesAsked C.A tx).length = es.length := by rw [issuancesAsked_keyed, ← h2, List.length_map]
  have r0 : (padOut (issAfter (firstState C.A tx) es)).rnd = (issuancesAsked C.A tx).length := by
    show (issAfter (firstState C.A tx) es).rnd = _
    rw [issAfter_rnd, h5, hie]
    simp [firstState]
  have p1 : (padOut (issAfter (firstState C.A tx) es)).attempts = es.length := by
    show (issAfter (firstState C.A tx) es).attempts = _
    rw [(issAfter_lists es (firstState C.A tx)).1]; simp [firstState]
  have hN : C.nToBlind = es.length + ds.length := by
    have e1 : es.length = askedIssuances C.A.assetKeys tx.vin + askedIssuances C.A.tokenKeys tx.vin := by
      rw [← keyed_count hk, ← h2, List.length_map]
    have e2 : ds.length = askedOutputs C.A := by rw [← validKeys_asked hRo, ← h4]; simp
    have e3 : asked C.A tx = askedOutputs C.A + askedIssuances C.A.assetKeys tx.vin + askedIssuances C.A.tokenKeys tx.vin := rfl
    rw [hRn, e3]; omega
  have hdl : (outputsAsked C.A).length = ds.length := by rw [← hj, List.length_map]
  refine ⟨?_, ?_⟩
  · intro k j hkj
    rw [← hj, List.getElem?_map, Option.map_eq_some_iff] at hkj
    obtain ⟨d, hd, rfl⟩ := hkj
    have hdm := List.mem_of_getElem? hd
    obtain ⟨t, ht, hr, hat⟩ := h3.draws k d hd
    obtain ⟨hm, -, -, ho⟩ := hL.made d hdm
    obtain ⟨t1, -⟩ := hL.those d hdm
    obtain ⟨v, hv, -⟩ := hm.hidden
    obtain ⟨n1, n2, n3, -⟩ := outputNonce_ok.1 hm.nonce
    have ho' : d.out = tx.vout.getD d.j {} := ho
    rw [r0] at hr
    refine ⟨d.blind, d.asset, v, d.gen, d.commit, ?_, ?_, ?_⟩
    · rw [t1, ← ho']
      have : C.A.rand (drawOf C.A tx k + 1) = d.assetblind := by rw [ht.assetblind, hr]; rfl
      rw [this]
      exact hv
    · rw [t1]
      have : C.A.rand (drawOf C.A tx k + 2) = d.seed := by rw [ht.seed, hr]; rfl
      rw [this, ← n3]
      rfl
    · intro hlt
      have hb := ht.blind
      rw [hr] at hb
      generalize d.blind = bl at hb
      cases hb with
      | random => rfl
      | balancing b g1 g2 g3 g4 g5 g6 => rw [hat, p1, hN] at g1; omega
  · intro k i token hki
    have hn : (es.map IssEv.at).Nodup := by rw [h2]; exact (keyed_nodup C.A tx.vin.length 0).1
    rw [issuancesAsked_keyed, ← h2] at hki
    have hes := all_made h5
    have hki' := hki
    rw [hes, List.map_map, List.getElem?_map, Option.map_eq_some_iff] at hki'
    obtain ⟨d, hd, hdi⟩ := hki'
    cases hdi
    have hmem : IssEv.made d ∈ es := by rw [hes]; exact List.mem_map_of_mem (List.mem_of_getElem? hd)
    obtain ⟨hm, -, hcell⟩ := h1.event hn _ hmem
    obtain ⟨k', hk', hb⟩ := h1.draws d hmem
    rw [show (firstState C.A tx).rnd + k' = k' by simp [firstState]] at hb
    have hkk : k' = k := by
      have e : (es.map IssEv.at)[k']? = some (d.i, d.token) := by
        rw [hes, List.map_map, List.getElem?_map, hk']; rfl
      exact (List.getElem?_inj (List.getElem?_eq_some_iff.1 e).1 hn).1 (e.trans hki.symm)
    subst hkk
    obtain ⟨v, hv, -, hev⟩ := valueToAmount_ok hm.amount
    obtain ⟨g1, -⟩ := blindedAsset_ok.1 hm.blindedAsset
    obtain ⟨c1, c2, -⟩ := createValueCommitment_ok.1 hm.commit
    have hlt : d.i < tx.vin.length := by
      have : (d.i, d.token) ∈ keyed C.A 0 tx.vin.length := by rw [← h2]; exact List.mem_of_getElem? hki
      exact (mem_keyed.1 this).1
    have hx : tx.vin[d.i]? = some (tx.vin.getD d.i default) := by
      rw [List.getD_eq_getElem?_getD, List.getElem?_eq_getElem hlt]; rfl
    have ha := pseudoId_eq (hsz _ (List.mem_of_getElem? hx)) hm.asset
    dsimp only at c1 c2 g1 hv hev ha
    rw [hev, hb] at c1
    have e1 : ∀ t : TxIn, t.issued d.token = t.assetIssuance.val d.token := by
      intro t; cases d.token <;> rfl
    have hval := congrArg IssCell.val hcell
    simp only [Tx.issCell, IssData.cell] at hval
    have hvin : (outsAfter (padOut (issAfter (firstState C.A tx) es)) ds).tx.vin = (issAfter (firstState C.A tx) es).tx.vin := by
      rw [outsAfter_vin]; rfl
    refine ⟨v, d.gen, d.commit, by rw [e1]; exact hv, by rw [← ha]; exact g1, c1, ?_⟩
    rw [c2, e1, hvin]
    congr 1
    change ((issAfter (firstState C.A tx) es).tx.vin[d.i]?).map _ = (tx.vin[d.i]?.map _).map _ at hval
    rw [hx] at hval
    rw [List.getD_eq_getElem?_getD]
    cases hx' : (issAfter (firstState C.A tx) es).tx.vin[d.i]? with
    | none => rw [hx'] at hval; cases hval
    | some t' =>
      rw [hx'] at hval
      exact (Option.some.inj hval).symm

/-- Sums of lists that differ in one place. -/
theorem sum_eq_at {α : Type} (g : α → M) : ∀ {l m : List α} (j : Nat), l.length = m.length → (∀ i, i ≠ j → l[i]? = m[i]?) →
    (l.map g).sum = (m.map g).sum → l[j]?.map g = m[j]?.map g
  | [], [], _, _, _, _ => rfl
  | [], _ :: _, _, h, _, _ => by cases h
  | _ :: _, [], _, h, _, _ => by cases h
  | x :: l, y :: m, 0, h, he, hs => by
    have : l = m := List.ext_getElem? fun i => by simpa using he (i + 1) (by omega)
    subst this
    simpa using hs
  | x :: l, y :: m, j + 1, h, he, hs => by
    have : x = y := by simpa using he 0 (by omega)
    subst this
    have := sum_eq_at g (l := l) (m := m) j (by simpa using h) (fun i hi => by simpa using he (i + 1) (by omega)) (by simpa using hs)
    simpa using this

theorem txIn_ext {a b : TxIn} (h1 : a.fixed = b.fixed) (h2 : ∀ token, a.issued token = b.issued token) : a = b := by
  have h3 := h2 false
  have h4 := h2 true
  obtain ⟨_, _, _, ⟨_, _, _, _⟩, _⟩ := a
  obtain ⟨_, _, _, ⟨_, _, _, _⟩, _⟩ := b
  simp only [TxIn.fixed, TxIn.issued, Prod.mk.injEq] at h1 h3 h4
  obtain ⟨rfl, rfl, rfl, rfl, rfl, rfl⟩ := h1
  subst h3 h4
  rfl

theorem pseudoId_fixed {E : Env} {a b : TxIn} (h : a.fixed = b.fixed) (token : Bool) : pseudoId E a token = pseudoId E b token := by
  obtain ⟨_, _, _, ⟨_, _, _, _⟩, _⟩ := a
  obtain ⟨_, _, _, ⟨_, _, _, _⟩, _⟩ := b
  simp only [TxIn.fixed, Prod.mk.injEq] at h
  obtain ⟨rfl, rfl, rfl, rfl, rfl, rfl⟩ := h
  cases token <;> rfl

theorem issued_kept {A : BlindArgs} {t t' : Tx} (h : OnlyAsked A t t') {i : Nat} {token : Bool} (hk : A.issuanceKey i token = none) :
    (t'.vin.getD i default).issued token = (t.vin.getD i default).issued token := by
  have hl : t'.vin.length = t.vin.length := by simpa using congrArg List.length h.inputs
  have key : ∀ {l : List (Option Bytes)}, l.getD i none = none → ∀ k, l[i]? ≠ some (some k) := by
    intro l hl k e
    rw [List.getD_eq_getElem?_getD, e] at hl
    cases hl
  by_cases hi : i < t.vin.length
  · have e := List.getElem?_eq_getElem hi
    have e' := List.getElem?_eq_getElem (hl ▸ hi : i < t'.vin.length)
    rw [List.getD_eq_getElem?_getD, List.getD_eq_getElem?_getD, e, e']
    cases token
    · have := h.amount i (key hk)
      rw [e, e'] at this
      exact Option.some.inj this
    · have := h.tokens i (key hk)
      rw [e, e'] at this
      exact Option.some.inj this
  · rw [List.getD_eq_getElem?_getD, List.getD_eq_getElem?_getD, List.getElem?_eq_none (by omega), List.getElem?_eq_none (by omega)]

/-- C100.  Of two requests that look the same from outside, both blinded with draws that hide in the same points and both balanced, the
inputs and outputs that come out are the same byte for byte. -/
theorem C100_same {E : Env} {A B : BlindArgs} {t t' u u' : Tx} {num num2 bfs abfs bfs2 abfs2} (P : Pedersen E.z M) (hP : P.Canonical)
    (h1 : blindTransaction E A t = (.ok (.success num bfs abfs), t')) (h2 : blindTransaction E B u = (.ok (.success num2 bfs2 abfs2), u'))
    (hs1 : ∀ i ∈ t.vin, InputSizes i) (hs2 : ∀ i ∈ u.vin, InputSizes i) (hk1 : KeysFine A t) (hk2 : KeysFine B u)
    (hb1 : AmountsBalance E A t) (hb2 : AmountsBalance E B u) (hone : ∃ j, A.pubkeys.getD j [] ≠ [])
    (ha1 : ∀ j, A.pubkeys.getD j [] ≠ [] → IsValueCommitment (t'.vout.getD j {}).nValue)
    (ha2 : ∀ j, A.pubkeys.getD j [] ≠ [] → IsValueCommitment (u'.vout.getD j {}).nValue)
    (hl : LooksLike P A B t u) (hd : SameDraws P E A B t u) : u'.vin = t'.vin ∧ u'.vout = t'.vout := by
  have o1 : OnlyAsked A t t' := by have := C32_only_asked E A t; rwa [h1] at this
  have o2 : OnlyAsked B u u' := by have := C32_only_asked E B u; rwa [h2] at this
  have l1 := C32_counts E A t
  have l2 := C32_counts E B u
  rw [h1] at l1
  rw [h2] at l2
  dsimp only at l1 l2
  have li : u.vin.length = t.vin.length := by simpa using congrArg List.length hl.inputs
  have lo : u.vout.length = t.vout.length := by simpa using congrArg List.length hl.scripts
  have hone2 : ∃ j, B.pubkeys.getD j [] ≠ [] := by rw [hl.pubkeys]; exact hone
  have hall2 : ∀ j, B.pubkeys.getD j [] ≠ [] → IsValueCommitment (u'.vout.getD j {}).nValue := by rw [hl.pubkeys]; exact ha2
  obtain ⟨d1, i1⟩ := drawn P h1 hs1 hk1 hone ha1
  obtain ⟨d2, i2⟩ := drawn P h2 hs2 hk2 hone2 hall2
  have eo : outputsAsked B = outputsAsked A := by unfold outputsAsked; rw [hl.pubkeys]
  have ei : issuancesAsked B u = issuancesAsked A t := by
    unfold issuancesAsked
    rw [li]
    apply List.filter_congr
    intro x _
    exact hl.keys x.1 x.2
  have ed : ∀ k, drawOf B u k = drawOf A t k := by intro k; unfold drawOf; rw [ei]
  rw [eo] at d2
  rw [ei] at i2
  simp only [ed] at d2
  have hfix : ∀ i, (u.vin.getD i default).fixed = (t.vin.getD i default).fixed := by
    intro i
    have := congrArg (fun l => l[i]?) hl.inputs
    simp only [List.getElem?_map] at this
    rw [List.getD_eq_getElem?_getD, List.getD_eq_getElem?_getD]
    cases e1 : u.vin[i]? <;> cases e2 : t.vin[i]? <;> rw [e1, e2] at this
    · cases this
    · cases this
    · exact Option.some.inj this
  /- inputs -/
  have hvin : u'.vin = t'.vin := by
    have hf : u'.vin.map TxIn.fixed = t'.vin.map TxIn.fixed := by rw [o1.inputs, o2.inputs, hl.inputs]
    have hv : ∀ i token, i < t.vin.length → (u'.vin.getD i default).issued token = (t'.vin.getD i default).issued token := by
      intro i token hi
      cases hkey : A.issuanceKey i token with
      | none =>
        have hkey2 : B.issuanceKey i token = none := by
          have := hl.keys i token
          rw [hkey] at this
          simpa using this
        rw [issued_kept o1 hkey, issued_kept o2 hkey2, hl.issued i token hkey]
      | some key =>
        have hm : (i, token) ∈ issuancesAsked A t := by
          rw [issuancesAsked_keyed]
          exact mem_keyed.2 ⟨hi, by rw [issKeys_key, hkey]; rfl⟩
        obtain ⟨k, hk⟩ := List.mem_iff_getElem?.1 hm
        obtain ⟨v, gen, com, a1, a2, a3, a4⟩ := i1 k i token hk
        obtain ⟨v', gen', com', b1, b2, b3, b4⟩ := i2 k i token hk
        refine hP.commitment _ _ _ _ _ _ _ _ _ _ b3 b4 a3 a4 ?_
        have key := hd.issued k i token hk
        rw [a1, b1] at key
        rw [P.commit _ _ _ _ b3, P.commit _ _ _ _ a3, P.generateBlinded _ _ _ b2, P.generateBlinded _ _ _ a2, scalar_zero32, zero_smul,
          add_zero, add_zero, pseudoId_fixed (hfix i)]
        exact key
    apply List.ext_getElem (by omega)
    intro i g1 g2
    apply txIn_ext
    · have := congrArg (fun l => l[i]?) hf
      simp only [List.getElem?_map, List.getElem?_eq_getElem g1, List.getElem?_eq_getElem g2] at this
      exact Option.some.inj this
    · intro token
      have := hv i token (by omega)
      simpa [List.getD_eq_getElem?_getD, List.getElem?_eq_getElem g1, List.getElem?_eq_getElem g2] using this
  refine ⟨hvin, ?_⟩
  /- outputs -/
  have hscript : u'.vout.map TxOut.scriptPubKey = t'.vout.map TxOut.scriptPubKey := by rw [o1.scripts, o2.scripts, hl.scripts]
  have hget : ∀ j : Nat, j < t.vout.length → u'.vout[j]? = some (u'.vout.getD j {}) ∧ t'.vout[j]? = some (t'.vout.getD j {}) := by
    intro j hj
    rw [List.getD_eq_getElem?_getD, List.getD_eq_getElem?_getD, List.getElem?_eq_getElem (by omega), List.getElem?_eq_getElem (by omega)]
    exact ⟨rfl, rfl⟩
  have hrest : ∀ k j : Nat, (outputsAsked A)[k]? = some j → (u'.vout.getD j {}).nValue = (t'.vout.getD j {}).nValue → u'.vout[j]? = t'.vout[j]? := by
    intro k j hkj hv
    obtain ⟨bf, asset, v, gen, com, a1, a2, -⟩ := d1 k j hkj
    obtain ⟨bf', asset', v', gen', com', b1, b2, -⟩ := d2 k j hkj
    by_cases hj : j < t.vout.length
    · obtain ⟨e1, e2⟩ := hget j hj
      rw [e1, e2]
      congr 1
      have hsc : (u'.vout.getD j {}).scriptPubKey = (t'.vout.getD j {}).scriptPubKey := by
        have := congrArg (fun l => l[j]?) hscript
        simp only [List.getElem?_map, e1, e2] at this
        exact Option.some.inj this
      have has : (u'.vout.getD j {}).nAsset = (t'.vout.getD j {}).nAsset := by
        refine hP.generator _ _ _ _ _ _ _ _ b1.generator b1.nAsset a1.generator a1.nAsset ?_
        have key := hd.asset k j hkj
        unfold Pedersen.hiddenAsset at key
        rw [a1.explicitAsset, b1.explicitAsset] at key
        rw [P.generateBlinded _ _ _ b1.generator, P.generateBlinded _ _ _ a1.generator]
        exact key
      have hno : (u'.vout.getD j {}).nNonce = (t'.vout.getD j {}).nNonce := by rw [a2, b2, hd.ephemeral k j hkj]
      generalize u'.vout.getD j {} = x at hv hsc has hno
      generalize t'.vout.getD j {} = y at hv hsc has hno
      cases x; cases y
      cases hv; cases hsc; cases has; cases hno
      rfl
    · rw [List.getElem?_eq_none (by omega), List.getElem?_eq_none (by omega)]
  have hval : ∀ k j : Nat, (outputsAsked A)[k]? = some j → k + 1 < (outputsAsked A).length → u'.vout[j]? = t'.vout[j]? := by
    intro k j hkj hlt
    refine hrest k j hkj ?_
    obtain ⟨bf, asset, v, gen, com, a1, -, a3⟩ := d1 k j hkj
    obtain ⟨bf', asset', v', gen', com', b1, -, b3⟩ := d2 k j hkj
    refine hP.commitment _ _ _ _ _ _ _ _ _ _ b1.commitment b1.nValue a1.commitment a1.nValue ?_
    have key := hd.value k j hkj hlt
    unfold Pedersen.hiddenValue Pedersen.hiddenAsset at key
    rw [a1.explicitAsset, b1.explicitAsset, a1.explicitValue, b1.explicitValue] at key
    rw [P.commit _ _ _ _ b1.commitment, P.commit _ _ _ _ a1.commitment, P.generateBlinded _ _ _ b1.generator,
      P.generateBlinded _ _ _ a1.generator, a3 hlt, b3 hlt]
    exact key
  have hplain : ∀ j : Nat, A.pubkeys.getD j [] = [] → u'.vout[j]? = t'.vout[j]? := by
    intro j hj
    rw [o1.outputs j hj, o2.outputs j (by rw [hl.pubkeys]; exact hj), hl.outputs j hj]
  obtain ⟨j0, hj0⟩ := hone
  have hne : (outputsAsked A).length ≠ 0 := by
    intro e
    have := mem_outputsAsked hj0
    rw [List.length_eq_zero_iff.1 e] at this
    cases this
  have hlast : ∃ j, (outputsAsked A)[(outputsAsked A).length - 1]? = some j := ⟨_, List.getElem?_eq_getElem (by omega)⟩
  obtain ⟨jl, hjl⟩ := hlast
  have hoth : ∀ j : Nat, j ≠ jl → u'.vout[j]? = t'.vout[j]? := by
    intro j hj
    by_cases hp : A.pubkeys.getD j [] = []
    · exact hplain j hp
    · obtain ⟨k, hk⟩ := List.mem_iff_getElem?.1 (mem_outputsAsked hp)
      refine hval k j hk ?_
      have := (List.getElem?_eq_some_iff.1 hk).1
      by_contra hc
      have : k = (outputsAsked A).length - 1 := by omega
      subst this
      rw [hjl] at hk
      exact hj (Option.some.inj hk).symm
  have bal1 := C34_balanced_partial P h1 hs1 hb1 hk1 ⟨j0, hj0⟩ ha1
  have bal2 := C34_balanced_partial P h2 hs2 hb2 hk2 hone2 hall2
  unfold Balanced at bal1 bal2
  rw [hvin, hl.spent, bal1] at bal2
  have hpt := sum_eq_at P.outPt jl (l := u'.vout) (m := t'.vout) (by omega) hoth bal2.symm
  apply List.ext_getElem?
  intro j
  by_cases hj : j = jl
  · subst hj
    refine hrest _ _ hjl ?_
    have hjA : A.pubkeys.getD j [] ≠ [] := by
      obtain ⟨x, hx, he⟩ := List.mem_map.1 (List.mem_of_getElem? hjl)
      obtain ⟨hx1, hx2⟩ := List.mem_filter.1 hx
      rw [List.mem_zipIdx_iff_getElem?] at hx1
      rw [← he, List.getD_eq_getElem?_getD, hx1]
      simpa using hx2
    have hjt : j < t.vout.length := by
      by_contra hc
      have := ha1 j hjA
      rw [List.getD_eq_getElem?_getD, List.getElem?_eq_none (by omega)] at this
      obtain ⟨b, hb, -⟩ := this
      rcases hb with hb | hb <;> cases hb
    obtain ⟨e1, e2⟩ := hget j hjt
    rw [e1, e2] at hpt
    have hpt := Option.some.inj hpt
    rw [outPt_commitment P (ha1 j hjA), outPt_commitment P (ha2 j hjA)] at hpt
    obtain ⟨bf, asset, v, gen, com, a1, -⟩ := d1 _ j hjl
    obtain ⟨bf', asset', v', gen', com', b1, -⟩ := d2 _ j hjl
    refine hP.commitment _ _ _ _ _ _ _ _ _ _ b1.commitment b1.nValue a1.commitment a1.nValue ?_
    rw [← P.commitSerialize _ _ b1.nValue, ← P.commitSerialize _ _ a1.nValue]
    exact hpt
  · exact hoth j hj

/-- C100 from beginning to end: with a library that works, two requests that make sense, look the same from outside and balance are both
blinded, and if their draws hide in the same points the inputs and outputs that come out are the same. -/
theorem C100_goes {E : Env} {Good Asset : Bytes → Prop} {A B : BlindArgs} {t u : Tx} (P : Pedersen E.z M) (hP : P.Canonical) (hf : Formats E.z)
    (hw : Works E.z Good Asset (A.ctExponent.getD 0) (A.ctBits.getD 52)) (hw2 : Works E.z Good Asset (B.ctExponent.getD 0) (B.ctBits.getD 52))
    (hS : Sensible E Good Asset A t) (hS2 : Sensible E Good Asset B u) (hk1 : KeysFine A t) (hk2 : KeysFine B u)
    (hb1 : AmountsBalance E A t) (hb2 : AmountsBalance E B u) (hl : LooksLike P A B t u) (hd : SameDraws P E A B t u) :
    ∃ bfs abfs t' bfs2 abfs2 u', blindTransaction E A t = (.ok (.success (asked A t) bfs abfs), t') ∧
      blindTransaction E B u = (.ok (.success (asked B u) bfs2 abfs2), u') ∧
      (∀ j, A.pubkeys.getD j [] ≠ [] → IsValueCommitment (t'.vout.getD j {}).nValue) ∧ u'.vin = t'.vin ∧ u'.vout = t'.vout := by
  obtain ⟨bfs, abfs, t', h1, ha1⟩ := C73_goes hw hf hS
  obtain ⟨bfs2, abfs2, u', h2, ha2⟩ := C73_goes hw2 hf hS2
  rw [hl.pubkeys] at ha2
  have hone : ∃ j, A.pubkeys.getD j [] ≠ [] := by
    obtain ⟨j, hj⟩ := List.exists_mem_of_ne_nil _ hS.output
    obtain ⟨x, hx, he⟩ := List.mem_map.1 hj
    obtain ⟨hx1, hx2⟩ := List.mem_filter.1 hx
    rw [List.mem_zipIdx_iff_getElem?] at hx1
    refine ⟨x.2, ?_⟩
    rw [List.getD_eq_getElem?_getD, hx1]
    simpa using hx2
  exact ⟨bfs, abfs, t', bfs2, abfs2, u', h1, h2, ha1,
    C100_same P hP h1 h2 hS.sizes hS2.sizes hk1 hk2 hb1 hb2 hone ha1 ha2 hl hd⟩

/-! ### The draws -/

/-- Draws for other amounts and assets: `c` is what changes for issuances, `x` and `a` are amounts and logarithms of assets of the
outputs, `y` and `b` the other ones. -/
def remask (n : Nat) (c x y a b r : Nat → Scalar) (k : Nat) : Scalar :=
  if k < n then r k + c k
  else if (k - n) % 4 = 0 then r k + (x ((k - n) / 4) - y ((k - n) / 4)) * (a ((k - n) / 4) + r (k + 1))
  else if (k - n) % 4 = 1 then r k + (a ((k - n) / 4) - b ((k - n) / 4))
  else r k

theorem remask_back (n : Nat) (c x y a b r : Nat → Scalar) : remask n (fun k => - c k) y x b a (remask n c x y a b r) = r := by
  funext k
  by_cases h : k < n
  · simp only [remask, if_pos h]; ring
  · by_cases h0 : (k - n) % 4 = 0
    · have h1 : ¬ k + 1 < n := by omega
      have h2 : (k + 1 - n) % 4 = 1 := by omega
      have h3 : (k + 1 - n) / 4 = (k - n) / 4 := by omega
      have e : remask n c x y a b r (k + 1) = r (k + 1) + (a ((k - n) / 4) - b ((k - n) / 4)) := by
        simp only [remask, if_neg h1, h2, h3]
        simp
      have e0 : remask n c x y a b r k = r k + (x ((k - n) / 4) - y ((k - n) / 4)) * (a ((k - n) / 4) + r (k + 1)) := by
        simp only [remask, if_neg h, h0, if_true]
      have e1 : remask n (fun k => - c k) y x b a (remask n c x y a b r) k
          = remask n c x y a b r k + (y ((k - n) / 4) - x ((k - n) / 4)) * (b ((k - n) / 4) + remask n c x y a b r (k + 1)) := by
        conv_lhs => rw [remask, if_neg h, if_pos h0]
      rw [e1, e, e0]
      ring
    · by_cases h1 : (k - n) % 4 = 1
      · simp only [remask, if_neg h, h1, if_true, one_ne_zero, if_false]
        ring
      · simp only [remask, if_neg h, if_neg h0, if_neg h1]

instance : NeZero secpN := ⟨by decide⟩

theorem scalar_surj (s : Scalar) : scalar (beBytes 32 s.val) = s := by
  unfold scalar
  rw [beVal_beBytes_of_lt]
  · exact ZMod.natCast_zmod_val s
  · exact lt_trans (ZMod.val_lt s) (by unfold secpN; norm_num)

/-- C100, draws.  If every asset has its generator among the multiples of the base point, the draws that hide one request correspond to
those that hide another one in the same points, one to one, as scalars; ephemeral keys and seeds stay. -/
theorem C100_draws {E : Env} (P : Pedersen E.z M) (hG : ∀ a, ∃ s : Scalar, P.H a = s • P.G) (A B : BlindArgs) (t u : Tx) :
    ∃ φ : (Nat → Scalar) ≃ (Nat → Scalar),
      (∀ r k, φ r (drawOf A t k + 2) = r (drawOf A t k + 2) ∧ φ r (drawOf A t k + 3) = r (drawOf A t k + 3)) ∧
      (∀ x : Nat → Bytes, ∃ y : Nat → Bytes, (∀ k, scalar (y k) = φ (fun k => scalar (x k)) k) ∧
        (∀ k, y (drawOf A t k + 2) = x (drawOf A t k + 2)) ∧ ∀ k, y k = x k ∨ (y k).length = 32) ∧
      ∀ x y : Nat → Bytes, (∀ k, scalar (y k) = φ (fun k => scalar (x k)) k) → (∀ k, y (drawOf A t k + 2) = x (drawOf A t k + 2)) →
        SameDraws P E { A with rand := x } { B with rand := y } t u := by
  choose dl hdl using hG
  let n := (issuancesAsked A t).length
  let at_ : Nat → Nat × Bool := fun k => (issuancesAsked A t).getD k (0, false)
  let out : Nat → Nat := fun k => (outputsAsked A).getD k 0
  let am : Tx → Nat → Scalar := fun t k => (plainAmount ((t.vin.getD (at_ k).1 default).issued (at_ k).2) : Scalar)
  let c : Nat → Scalar := fun k => (am t k - am u k) * dl (pseudoId E (t.vin.getD (at_ k).1 default) (at_ k).2)
  let va : Tx → Nat → Scalar := fun t k => (plainAmount (t.vout.getD (out k) {}).nValue : Scalar)
  let as : Tx → Nat → Scalar := fun t k => dl ((t.vout.getD (out k) {}).nAsset.drop 1)
  let φ : (Nat → Scalar) ≃ (Nat → Scalar) :=
    { toFun := remask n c (va t) (va u) (as t) (as u)
      invFun := remask n (fun k => - c k) (va u) (va t) (as u) (as t)
      left_inv := remask_back n c _ _ _ _
      right_inv := fun r => by
        have := remask_back n (fun k => - c k) (va u) (va t) (as u) (as t) r
        simpa only [neg_neg] using this }
  have hφ : ∀ r k, φ r k = remask n c (va t) (va u) (as t) (as u) r k := fun _ _ => rfl
  have p0 : ∀ r k, φ r (drawOf A t k) = r (drawOf A t k) + (va t k - va u k) * (as t k + r (drawOf A t k + 1)) := by
    intro r k
    have e1 : ¬ drawOf A t k < n := by show ¬ n + 4 * k < n; omega
    have e2 : (drawOf A t k - n) % 4 = 0 := by show (n + 4 * k - n) % 4 = 0; omega
    have e3 : (drawOf A t k - n) / 4 = k := by show (n + 4 * k - n) / 4 = k; omega
    rw [hφ, remask, if_neg e1, if_pos e2, e3]
  have p1 : ∀ r k, φ r (drawOf A t k + 1) = r (drawOf A t k + 1) + (as t k - as u k) := by
    intro r k
    have e1 : ¬ drawOf A t k + 1 < n := by show ¬ n + 4 * k + 1 < n; omega
    have e2 : (drawOf A t k + 1 - n) % 4 = 1 := by show (n + 4 * k + 1 - n) % 4 = 1; omega
    have e3 : (drawOf A t k + 1 - n) / 4 = k := by show (n + 4 * k + 1 - n) / 4 = k; omega
    rw [hφ, remask, if_neg e1, if_neg (by omega), if_pos e2, e3]
  have p2 : ∀ r k, φ r (drawOf A t k + 2) = r (drawOf A t k + 2) := by
    intro r k
    have e1 : ¬ drawOf A t k + 2 < n := by show ¬ n + 4 * k + 2 < n; omega
    have e2 : (drawOf A t k + 2 - n) % 4 = 2 := by show (n + 4 * k + 2 - n) % 4 = 2; omega
    rw [hφ, remask, if_neg e1, if_neg (by omega), if_neg (by omega)]
  have p3 : ∀ r k, φ r (drawOf A t k + 3) = r (drawOf A t k + 3) := by
    intro r k
    have e1 : ¬ drawOf A t k + 3 < n := by show ¬ n + 4 * k + 3 < n; omega
    have e2 : (drawOf A t k + 3 - n) % 4 = 3 := by show (n + 4 * k + 3 - n) % 4 = 3; omega
    rw [hφ, remask, if_neg e1, if_neg (by omega), if_neg (by omega)]
  refine ⟨φ, fun r k => ⟨p2 r k, p3 r k⟩, ?_, ?_⟩
  · intro x
    refine ⟨fun k => if φ (fun k => scalar (x k)) k = scalar (x k) then x k else beBytes 32 (φ (fun k => scalar (x k)) k).val, ?_, ?_, ?_⟩
    · intro k
      dsimp only
      split
      · rename_i h; exact h.symm
      · exact scalar_surj _
    · intro k
      dsimp only
      rw [if_pos (p2 _ k)]
    · intro k
      dsimp only
      split
      · exact .inl rfl
      · exact .inr (by simp)
  · intro x y hy he
    refine ⟨?_, ?_, ?_, fun k _ _ => he k⟩
    · intro k i token hk
      have hk : (issuancesAsked A t)[k]? = some (i, token) := hk
      have hlt : k < n := (List.getElem?_eq_some_iff.1 hk).1
      have ha : at_ k = (i, token) := by show (issuancesAsked A t).getD k _ = _; rw [List.getD_eq_getElem?_getD, hk]; rfl
      have e : scalar (y k) = scalar (x k) + c k := by rw [hy, hφ, remask, if_pos hlt]
      have hc : c k = ((plainAmount ((t.vin.getD i default).issued token) : Scalar) - (plainAmount ((u.vin.getD i default).issued token) : Scalar))
          * dl (pseudoId E (t.vin.getD i default) token) := by
        show (am t k - am u k) * _ = _
        simp only [am, ha]
      show _ • _ + scalar (y k) • P.G = _ • _ + scalar (x k) • P.G
      rw [hdl, e, hc]
      module
    · intro k j hk
      have hk : (outputsAsked A)[k]? = some j := hk
      have ho : out k = j := by show (outputsAsked A).getD k _ = _; rw [List.getD_eq_getElem?_getD, hk]; rfl
      show P.hiddenAsset (u.vout.getD j {}) (y (drawOf A t k + 1)) = P.hiddenAsset (t.vout.getD j {}) (x (drawOf A t k + 1))
      unfold Pedersen.hiddenAsset
      rw [hy, p1, hdl, hdl]
      simp only [as, ho]
      module
    · intro k j hk _
      have hk : (outputsAsked A)[k]? = some j := hk
      have ho : out k = j := by show (outputsAsked A).getD k _ = _; rw [List.getD_eq_getElem?_getD, hk]; rfl
      show P.hiddenValue (u.vout.getD j {}) (y (drawOf A t k + 1)) (y (drawOf A t k))
        = P.hiddenValue (t.vout.getD j {}) (x (drawOf A t k + 1)) (x (drawOf A t k))
      unfold Pedersen.hiddenValue Pedersen.hiddenAsset
      rw [hy, hy, p1, p0, hdl, hdl]
      simp only [as, va, ho]
      module

end Verif
