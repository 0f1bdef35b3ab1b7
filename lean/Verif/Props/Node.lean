import Verif.Spec.Node
import Verif.Props.BalanceExact
import Verif.Props.TokenId
import Verif.Props.Balance
/-
C92: blinded transactions pass the amount check of the network.
-/
namespace Verif

variable {M : Type} [AddCommGroup M] [Module Scalar M]

/-! ### Fields -/

theorem valueSort_explicit {v : Bytes} (h : v.length = 8) : valueSort (1 :: v) = .explicit v := by
  simp [valueSort, fieldSort, h]

theorem assetSort_explicit {a : Bytes} (h : a.length = 32) : assetSort (1 :: a) = .explicit a := by
  simp [assetSort, fieldSort, h]

theorem valueSort_commitment {c : Bytes} (h : IsValueCommitment c) : valueSort c = .commitment := by
  obtain ⟨b, rfl | rfl, hl⟩ := h <;> simp [valueSort, fieldSort, hl]

theorem assetSort_commitment {c : Bytes} (h : IsAssetCommitment c) : assetSort c = .commitment := by
  obtain ⟨b, rfl | rfl, hl⟩ := h <;> simp [assetSort, fieldSort, hl]

theorem commitment_written {z : Zkp} (hF : Formats z) {c s : Bytes} (h : z.commitSerialize c = some s) : IsValueCommitment s := by
  have hl := z.commitSerialize_len _ _ h
  have hp := hF.comPrefix _ _ h
  cases s with
  | nil => simp at hl
  | cons x b =>
    simp only [List.head?_cons, Option.some.injEq, List.length_cons] at hp hl
    rcases hp with rfl | rfl
    · exact ⟨b, .inl rfl, by omega⟩
    · exact ⟨b, .inr rfl, by omega⟩

theorem generator_written {z : Zkp} (hF : Formats z) {g s : Bytes} (h : z.genSerialize g = some s) : IsAssetCommitment s := by
  have hl := z.genSerialize_len _ _ h
  have hp := hF.genPrefix _ _ h
  cases s with
  | nil => simp at hl
  | cons x b =>
    simp only [List.head?_cons, Option.some.injEq, List.length_cons] at hp hl
    rcases hp with rfl | rfl
    · exact ⟨b, .inl rfl, by omega⟩
    · exact ⟨b, .inr rfl, by omega⟩

theorem Unspendable.node {s : Bytes} (h : Unspendable s) : nodeUnspendable s = true := by
  rcases h with rfl | h
  · rfl
  · simp [nodeUnspendable, h]

/-- A commitment the library made. -/
def MadeCom (z : Zkp) (c : Bytes) : Prop := ∃ b v g, z.commit b v g = some c

section
variable {z : Zkp} {N : Verifier} {P : Pedersen z M}

/-! ### Inputs -/

theorem spent_com (hN : N.Keeps P) (hF : Formats z) {o : TxOut} {d : Desc} (h : SpentAs z o d) :
    ∃ g c, z.generateBlinded d.asset d.assetBlindingFactor = some g ∧ assetGen z o.nAsset = some g ∧
      spentCom z g o.nValue = some c ∧ MadeCom z c ∧ P.comPt c = P.spentPt d := by
  obtain ⟨g, hg, ha, hv⟩ := h.opened
  have h1 : assetGen z o.nAsset = some g := by
    rcases ha with ⟨a, e, hl, hga⟩ | hs
    · rw [e]
      simp only [assetGen, assetSort_explicit hl]
      exact hga
    · simp only [assetGen, assetSort_commitment (generator_written hF hs)]
      exact hN.genBack _ _ _ _ hg hs
  have hpt := P.generateBlinded _ _ _ hg
  rcases hv with ⟨v, e, hl, hb, ham, hpos, hmax⟩ | ⟨c, hc, hs⟩
  · obtain ⟨c, hc⟩ := hN.commits _ _ _ _ hg hpos hmax
    refine ⟨g, c, hg, h1, ?_, ⟨_, _, _, hc⟩, ?_⟩
    · rw [e]
      simp only [spentCom, valueSort_explicit hl]
      rw [if_pos ⟨hpos, hmax⟩, hc]
    · rw [P.commit _ _ _ _ hc, hpt]
      unfold Pedersen.spentPt
      rw [ham, hb, Int.toNat_natCast]
  · refine ⟨g, c, hg, h1, ?_, ⟨_, _, _, hc⟩, ?_⟩
    · simp only [spentCom, valueSort_commitment (commitment_written hF hs)]
      exact hN.comBack _ _ _ _ _ hc hs
    · rw [P.commit _ _ _ _ hc, hpt]
      rfl

/-- A rangeproof that was made passes. -/
theorem range_passes (hN : N.Keeps P) (hF : Formats z) {A : BlindArgs} {script asset v gen com bf abf nonce : Bytes} {a : RangeproofArgs}
    {p cs gs : Bytes} (ha : ProofOf A script asset v gen com bf abf nonce a) (hp : z.rangeSign a = some p)
    (hasset : asset.length = 32) (habf : abf.length = 32) (hbf : bf.length = 32) (hv : v.length = 8)
    (hg : z.generateBlinded asset abf = some gen) (hc : z.commit bf (beVal v) gen = some com)
    (hcs : z.commitSerialize com = some cs) (hgs : z.genSerialize gen = some gs) :
    rangeCheck z N cs gs p script = true := by
  obtain ⟨m, hm, hpos⟩ := hN.range a p hp (by rw [ha.message_eq, List.length_append, hasset, habf]) (by rw [ha.blind_eq, hbf])
    (by rw [ha.value_eq]; have := beVal_lt v; rw [hv] at this; exact this)
    (by rw [ha.blind_eq, ha.value_eq, ha.gen_eq, ha.commit_eq]; exact hc)
  rw [ha.commit_eq, ha.extra_eq, ha.gen_eq] at hm
  have hne := hF.proof _ _ hp
  unfold rangeCheck
  rw [hN.comBack _ _ _ _ _ hc hcs, hN.genBack _ _ _ _ hg hgs]
  dsimp only
  rw [hm]
  cases p with
  | nil => exact absurd rfl hne
  | cons x p =>
    simp only [List.isEmpty_cons, Bool.not_false, Bool.true_and]
    by_cases hu : Unspendable script
    · rw [hu.node, Bool.or_true]
    · have : 0 < m := hpos (by rw [ha.minValue, if_neg hu]; decide)
      have : (m != 0) = true := by simpa using Nat.ne_of_gt this
      rw [this, Bool.true_or]

/-- What became of an issued amount `v`: nothing was issued, it stayed, or it was hidden. -/
inductive IssuedEnd (z : Zkp) (A : BlindArgs) (id v v' p : Bytes) : Prop
  | none : v = [] → v' = [] → IssuedEnd z A id v v' p
  | plain (b : Bytes) : v = 1 :: b → b.length = 8 → 0 < beVal b → beVal b ≤ maxMoney → v' = v → p = [] → IssuedEnd z A id v v' p
  | hidden (b gen com bf key : Bytes) (a : RangeproofArgs) : v = 1 :: b → b.length = 8 → bf.length = 32 →
      z.generateBlinded id zero32 = some gen → z.commit bf (beVal b) gen = some com → z.commitSerialize com = some v' →
      ProofOf A [] id b gen com bf zero32 key a → z.rangeSign a = some p → IssuedEnd z A id v v' p

theorem issued_com (hN : N.Keeps P) (hF : Formats z) {A : BlindArgs} {id v v' p : Bytes} (hid : id.length = 32)
    (h : IssuedEnd z A id v v' p) :
    ∃ l, issuedList z N id v' (some p) = some l ∧ (∀ x ∈ l, MadeCom z x.2) ∧
      ((l.map Prod.snd).map P.comPt).sum = P.issuedPt id v' ∧
      ∀ L, IssuedTarget z id v L → L.map Target.gen = l.map Prod.fst := by
  cases h with
  | none h1 h2 =>
    subst h1 h2
    refine ⟨[], rfl, by simp, by simp [Pedersen.issuedPt], ?_⟩
    intro L hL
    cases hL with
    | none => rfl
    | some g h => exact absurd rfl h
  | plain b h1 h2 h3 h4 h5 h6 =>
    subst h1 h5 h6
    obtain ⟨g, s, hg, -⟩ := hN.generates id hid
    obtain ⟨c, hc⟩ := hN.commits id zero32 g (beVal b) (by rw [hN.plain, hg]) h3 h4
    refine ⟨[(g, c)], ?_, ?_, ?_, ?_⟩
    · unfold issuedList issuedCom
      rw [if_neg (by simp), hg]
      dsimp only
      rw [valueSort_explicit h2]
      dsimp only
      rw [if_pos ⟨h3, h4, rfl⟩, hc]
      rfl
    · intro x hx
      rw [List.mem_singleton] at hx
      subst hx
      exact ⟨_, _, _, hc⟩
    · simp only [List.map_cons, List.map_nil, List.sum_cons, List.sum_nil, add_zero]
      rw [P.commit _ _ _ _ hc, P.generate _ _ hg, scalar_zero32]
      simp only [Pedersen.issuedPt]
      module
    · intro L hL
      cases hL with
      | none h => cases h
      | some g' _ h => rw [hg] at h; cases h; rfl
  | hidden b gen com bf key a h1 h2 h3 h4 h5 h6 h7 h8 =>
    subst h1
    have hg : z.generate id = some gen := by rw [← hN.plain, h4]
    obtain ⟨g', s, hg', hs⟩ := hN.generates id hid
    rw [hg] at hg'
    cases hg'
    have hcm := commitment_written hF h6
    have hr := range_passes hN hF h7 h8 hid (by simp [zero32]) h3 h2 h4 h5 h6 hs
    have hne : v' ≠ [] := by rintro rfl; exact not_commitment_nil hcm
    refine ⟨[(gen, com)], ?_, ?_, ?_, ?_⟩
    · unfold issuedList issuedCom
      rw [if_neg hne, hg]
      dsimp only
      rw [valueSort_commitment hcm]
      dsimp only
      rw [hs]
      dsimp only
      rw [if_pos hr, hN.comBack _ _ _ _ _ h5 h6]
      rfl
    · intro x hx
      rw [List.mem_singleton] at hx
      subst hx
      exact ⟨_, _, _, h5⟩
    · simp only [List.map_cons, List.map_nil, List.sum_cons, List.sum_nil, add_zero]
      rw [issuedPt_commitment P hcm, P.commitSerialize _ _ h6]
    · intro L hL
      cases hL with
      | none h => cases h
      | some g' _ h => rw [hg] at h; cases h; rfl

end

/-! ### Targets, input by input -/

theorem targetsFrom_flat {E : Env} {A : BlindArgs} : ∀ {l : List (TxIn × Desc)} {k : Nat} {L : List Target}, TargetsFrom E A k l L →
    ∃ f : Nat → List Target, (∀ i x, l[i]? = some x → InputTargets E A (k + i) x.1 x.2 (f i)) ∧
      L = (List.range l.length).flatMap f
  | [], k, L, h => by cases h; exact ⟨fun _ => [], by simp, rfl⟩
  | _ :: _, k, L, h => by
    cases h with
    | cons h1 h2 =>
      rename_i l0 L0
      obtain ⟨f, hf, hL⟩ := targetsFrom_flat h2
      refine ⟨fun i => match i with | 0 => l0 | i + 1 => f i, ?_, ?_⟩
      · intro i x hx
        cases i with
        | zero => cases hx; exact h1
        | succ i =>
          have := hf i x hx
          rw [show k + 1 + i = k + (i + 1) by omega] at this
          exact this
      · rw [List.length_cons, List.range_succ_eq_map, List.flatMap_cons, List.flatMap_map, hL]

omit [Module Scalar M] in
theorem sum_flatMap (f : Nat → List Bytes) (g : Bytes → M) : ∀ l : List Nat,
    ((l.flatMap f).map g).sum = (l.map fun i => ((f i).map g).sum).sum
  | [] => by simp
  | i :: l => by
    rw [List.flatMap_cons, List.map_append, List.sum_append, sum_flatMap f g l, List.map_cons, List.sum_cons]

/-! ### One input -/

theorem fill_inWit (t : Tx) {i : Nat} (h : i < t.vin.length) : (Spec.fillWitness t).wit.vtxinwit[i]? = some (t.inWit i) := by
  unfold Spec.fillWitness Tx.inWit
  dsimp only
  by_cases hi : i < t.wit.vtxinwit.length
  · rw [List.getElem?_append_left hi, List.getElem?_eq_getElem hi]; rfl
  · rw [List.getElem?_append_right (by omega), List.getElem?_eq_none (l := t.wit.vtxinwit) (by omega), List.getElem?_replicate,
      if_pos (by omega)]; rfl

theorem fill_outWit (t : Tx) {j : Nat} (h : j < t.vout.length) : (Spec.fillWitness t).wit.vtxoutwit[j]? = some (t.outWit j) := by
  unfold Spec.fillWitness Tx.outWit
  dsimp only
  by_cases hi : j < t.wit.vtxoutwit.length
  · rw [List.getElem?_append_left hi, List.getElem?_eq_getElem hi]; rfl
  · rw [List.getElem?_append_right (by omega), List.getElem?_eq_none (l := t.wit.vtxoutwit) (by omega), List.getElem?_replicate,
      if_pos (by omega)]; rfl

/-- The id an issued amount was blinded for. -/
def codedId (E : Env) (A : BlindArgs) (i : Nat) (t : TxIn) (token : Bool) : Bytes :=
  match token with
  | false => assetId E t
  | true => tokenId E (A.tokenKeys.getD i none).isSome t

theorem getD_mem {α} {l : List α} {i : Nat} (d : α) (h : i < l.length) : l.getD i d ∈ l := by
  rw [List.getD_eq_getElem?_getD, List.getElem?_eq_getElem h]; exact List.getElem_mem h

theorem Ready.noReissued {E : Env} {A : BlindArgs} {spent : List TxOut} {tx : Tx} (hr : Ready E A spent tx) :
    ∀ t ∈ tx.vin, NoReissuedTokens t := by
  intro t ht hn
  obtain ⟨i, hi, rfl⟩ := List.getElem_of_mem ht
  by_contra hk
  have e : tx.vin.getD i default = tx.vin[i] := by rw [List.getD_eq_getElem?_getD, List.getElem?_eq_getElem hi]; rfl
  have := (hr.tokens i hi (by rw [e]; exact hk)).1
  rw [e] at this
  exact hn this

theorem no_key {keys : List (Option Bytes)} {i : Nat} (h : keys.getD i none = none) : ∀ k, keys[i]? ≠ some (some k) := by
  intro k hk
  rw [List.getD_eq_getElem?_getD, hk] at h
  cases h

theorem issued_end {E : Env} {A : BlindArgs} {spent : List TxOut} {tx tx' : Tx} {num bfs abfs}
    (h : blindTransaction E A tx = (.ok (.success num bfs abfs), tx')) (hst : A.strict = true)
    (hsz : ∀ t ∈ tx.vin, InputSizes t) (hr : Ready E A spent tx) (i : Nat) (token : Bool) (hi : i < tx.vin.length) :
    IssuedEnd E.z A (codedId E A i (tx.vin.getD i default) token) ((tx.vin.getD i default).issued token)
      ((tx'.vin.getD i default).issued token) ((tx'.inWit i).issuedProof token) := by
  by_cases hn : (tx.vin.getD i default).issued token = []
  · refine .none hn ?_
    obtain ⟨bf, -, hb⟩ := C35_issuances h hsz i token
    cases hb with
    | same e => rw [e, hn]
    | hidden v gen com bf e => rw [hn] at e; cases e
  obtain ⟨⟨b, hb, hl⟩, hmax, hplain⟩ := hr.issued i token hi hn
  have hfr := C32_only_asked E A tx
  rw [h] at hfr
  dsimp only at hfr
  have hl' : tx'.vin.length = tx.vin.length := by
    have := (C32_counts E A tx).1
    rw [h] at this
    exact this
  have hx : tx.vin[i]? = some (tx.vin.getD i default) := by
    rw [List.getD_eq_getElem?_getD, List.getElem?_eq_getElem hi]; rfl
  have hx' : tx'.vin[i]? = some (tx'.vin.getD i default) := by
    rw [List.getD_eq_getElem?_getD, List.getElem?_eq_getElem (by omega)]; rfl
  cases hk : A.issuanceKey i token with
  | none =>
    obtain ⟨hpos, hproof⟩ := hplain hk
    rw [hb] at hpos hmax
    refine .plain b hb hl hpos hmax ?_ ?_
    · cases token with
      | false =>
        have := hfr.amount i (no_key hk)
        rw [hx, hx'] at this
        exact Option.some.inj this
      | true =>
        have := hfr.tokens i (no_key hk)
        rw [hx, hx'] at this
        exact Option.some.inj this
    · cases token with
      | false => exact (hfr.amountProof i (no_key hk)).trans hproof
      | true => exact (hfr.tokensProof i (no_key hk)).trans hproof
  | some key =>
    have hnull : (tx.vin.getD i default).assetIssuance.isNull = false := by
      have hc : ∀ {c : Bytes}, c ≠ [] → confIsNull c = false := by
        intro c hc
        cases c with
        | nil => exact absurd rfl hc
        | cons => rfl
      cases token
      · rw [Issuance.isNull, hc (c := (tx.vin.getD i default).assetIssuance.nAmount) hn, Bool.false_and]
      · rw [Issuance.isNull, hc (c := (tx.vin.getD i default).assetIssuance.nInflationKeys) hn, Bool.and_false]
    have := (C33_strict h hst hsz).2.1 i token key hi hnull hk
    obtain ⟨v, gen, com, bf, a, p, h1, h2, h3, h4, h5, h6, h7, h8, h9⟩ := this.hidden
    have hid : codedId E A i (tx.vin.getD i default) token = pseudoId E (tx.vin.getD i default) token := by
      cases token with
      | false => rfl
      | true =>
        simp only [BlindArgs.issuanceKey] at hk
        simp only [codedId, pseudoId, hk, Option.isSome_some]
    rw [hid]
    exact .hidden v gen com bf key a h1 h2 h3 h4 h5 h6 h7 (by rw [h9]; exact h8)

theorem assetId_fixed {E : Env} {t t' : TxIn} (h : t'.fixed = t.fixed) : assetId E t' = assetId E t := by
  simp only [TxIn.fixed, Prod.mk.injEq] at h
  obtain ⟨h1, -, -, -, h2, h3⟩ := h
  simp only [assetId, issuanceEntropy, h1, h2, h3]

theorem input_coms {E : Env} {A : BlindArgs} {spent : List TxOut} {tx tx' : Tx} {num bfs abfs} {N : Verifier} {P : Pedersen E.z M}
    (hN : N.Keeps P) (hF : Formats E.z)
    (h : blindTransaction E A tx = (.ok (.success num bfs abfs), tx')) (hst : A.strict = true)
    (hsz : ∀ t ∈ tx.vin, InputSizes t) (hr : Ready E A spent tx) (i : Nat) (hi : i < tx.vin.length) {o : TxOut} {d : Desc}
    (hs : SpentAs E.z o d) (hown : ¬ AllZero d.asset) :
    ∃ l, inputComs E N o (tx'.vin.getD i default) (some (tx'.inWit i)) = some l ∧ (∀ x ∈ l, MadeCom E.z x.2) ∧
      ((l.map Prod.snd).map P.comPt).sum
        = P.spentPt d + P.issuancePt E (tx'.vin.getD i default).confidential (tx'.vin.getD i default) ∧
      ∀ L, InputTargets E A i (tx.vin.getD i default) d L → L.map Target.gen = l.map Prod.fst := by
  obtain ⟨g, c, hg, h1, h2, h3, h4⟩ := spent_com (P := P) hN hF hs
  have hfix := fixed_after h i
  have ha := issued_end h hst hsz hr i false hi
  have ht := issued_end h hst hsz hr i true hi
  obtain ⟨l1, a1, a2, a3, a4⟩ := issued_com (P := P) hN hF (by simp only [codedId]; exact E.m.len _) ha
  have hid : (tx'.vin.getD i default).issued true ≠ [] →
      tokenId E (tx'.vin.getD i default).confidential (tx'.vin.getD i default)
        = codedId E A i (tx.vin.getD i default) true := by
    intro hne
    have hne0 : (tx.vin.getD i default).assetIssuance.nInflationKeys ≠ [] := by
      intro e
      cases ht with
      | none _ e' => exact hne e'
      | plain b e' => rw [show (tx.vin.getD i default).issued true = [] from e] at e'; cases e'
      | hidden b _ _ _ _ _ e' => rw [show (tx.vin.getD i default).issued true = [] from e] at e'; cases e'
    have := C53_credited h hst hsz hr.noReissued i hi hne0
    rw [(hr.tokens i hi hne0).2] at this
    exact this
  obtain ⟨l2, b1, b2, b3, b4⟩ := issued_com (P := P) hN hF (by simp only [codedId]; exact E.m.len _) ht
  have b1' : issuedList E.z N (tokenId E (tx'.vin.getD i default).confidential (tx'.vin.getD i default))
      ((tx'.vin.getD i default).issued true) (some ((tx'.inWit i).issuedProof true)) = some l2 := by
    by_cases hne : (tx'.vin.getD i default).issued true = []
    · rw [hne] at b1 ⊢; exact b1
    · rw [hid hne]; exact b1
  have b3' : P.issuedPt (tokenId E (tx'.vin.getD i default).confidential (tx'.vin.getD i default)) ((tx'.vin.getD i default).issued true)
      = P.issuedPt (codedId E A i (tx.vin.getD i default) true) ((tx'.vin.getD i default).issued true) := by
    by_cases hne : (tx'.vin.getD i default).issued true = []
    · rw [hne]; rfl
    · rw [hid hne]
  have hz : ¬ ((tx'.vin.getD i default).assetIssuance.nInflationKeys ≠ [] ∧
      ¬ AllZero (tx'.vin.getD i default).assetIssuance.assetBlindingNonce) := by
    rintro ⟨hne, hnz⟩
    have hne0 : (tx.vin.getD i default).assetIssuance.nInflationKeys ≠ [] := by
      intro e
      cases ht with
      | none _ e' => exact hne e'
      | plain b e' => rw [show (tx.vin.getD i default).issued true = [] from e] at e'; cases e'
      | hidden b _ _ _ _ _ e' => rw [show (tx.vin.getD i default).issued true = [] from e] at e'; cases e'
    have := (hr.tokens i hi hne0).1
    simp only [TxIn.fixed, Prod.mk.injEq] at hfix
    rw [hfix.2.2.2.2.1] at hnz
    exact hnz this
  refine ⟨(g, c) :: (l1 ++ l2), ?_, ?_, ?_, ?_⟩
  · unfold inputComs
    rw [h1]
    dsimp only
    rw [h2]
    dsimp only
    rw [assetId_fixed hfix]
    change (match issuedList E.z N _ _ (some ((tx'.inWit i).issuedProof false)) with | none => none | some l1 => _) = _
    simp only [codedId, TxIn.issued] at a1 b1'
    rw [a1]
    dsimp only
    rw [if_neg hz]
    change (match issuedList E.z N _ _ (some ((tx'.inWit i).issuedProof true)) with | none => none | some l1 => _) = _
    rw [b1']
  · intro x hx
    rcases List.mem_cons.1 hx with rfl | hx
    · exact h3
    · rcases List.mem_append.1 hx with hx | hx
      · exact a2 x hx
      · exact b2 x hx
  · simp only [List.map_cons, List.map_append, List.sum_cons, List.sum_append]
    rw [h4, a3, b3, ← b3']
    unfold Pedersen.issuancePt
    rw [assetId_fixed hfix]
    rfl
  · rintro L ⟨⟨t, L1, L2, rfl, ht1, ht2, ht3⟩, -, -, -⟩
    rw [List.map_cons, List.map_append, List.map_cons, List.map_append, a4 L1 ht2, b4 L2 ht3]
    congr 1
    cases ht1 with
    | own g' _ hg' => rw [hg] at hg'; cases hg'; rfl
    | foreign _ _ hz => exact absurd hz hown

/-! ### One output -/

theorem plain_output {z : Zkp} {N : Verifier} {P : Pedersen z M} (hN : N.Keeps P) {o : TxOut} (hv : IsExplicitValue o.nValue)
    (ha : IsExplicitAsset o.nAsset) (hmax : amountOf o.nValue ≤ maxMoney) (hpos : 0 < amountOf o.nValue ∨ Unspendable o.scriptPubKey)
    (hn : nonceSort o.nNonce ≠ .invalid) :
    (∃ l, outputCom z o = some l ∧ (∀ c ∈ l, MadeCom z c) ∧ (l.map P.comPt).sum = P.outPt o) ∧
    outputRange z N o (some {}) = true ∧ ∀ gens, outputSurjection z N gens o (some {}) = true := by
  obtain ⟨v, hv, hvl⟩ := hv
  obtain ⟨a, ha, hal⟩ := ha
  obtain ⟨g, s, hg, -⟩ := hN.generates a hal
  rw [hv] at hmax hpos
  change beVal v ≤ maxMoney at hmax
  change 0 < beVal v ∨ _ at hpos
  refine ⟨?_, ?_, ?_⟩
  · have hout : P.outPt o = (beVal v : Scalar) • P.H a := by
      unfold Pedersen.outPt
      rw [hv, ha]
      rfl
    by_cases h0 : beVal v = 0
    · refine ⟨[], ?_, by simp, by rw [hout, h0]; simp⟩
      have hu : Unspendable o.scriptPubKey := by rcases hpos with h | h; omega; exact h
      unfold outputCom
      rw [if_neg hn, ha]
      simp only [assetGen, assetSort_explicit hal]
      rw [hg]
      dsimp only
      rw [hv, valueSort_explicit hvl]
      dsimp only
      rw [if_neg (by omega), if_pos h0, if_pos hu.node]
    · obtain ⟨c, hc⟩ := hN.commits a zero32 g (beVal v) (by rw [hN.plain, hg]) (by omega) hmax
      refine ⟨[c], ?_, ?_, ?_⟩
      · unfold outputCom
        rw [if_neg hn, ha]
        simp only [assetGen, assetSort_explicit hal]
        rw [hg]
        dsimp only
        rw [hv, valueSort_explicit hvl]
        dsimp only
        rw [if_neg (by omega), if_neg h0, hc]
        rfl
      · intro x hx
        rw [List.mem_singleton] at hx
        subst hx
        exact ⟨_, _, _, hc⟩
      · simp only [List.map_cons, List.map_nil, List.sum_cons, List.sum_nil, add_zero]
        rw [hout, P.commit _ _ _ _ hc, P.generate _ _ hg, scalar_zero32]
        module
  · unfold outputRange
    rw [hv, valueSort_explicit hvl]
    rfl
  · intro gens
    unfold outputSurjection
    rw [ha, assetSort_explicit hal]
    rfl

theorem hidden_output {E : Env} {A : BlindArgs} {tx tx' : Tx} {j : Nat} {bf abf : Bytes} {N : Verifier} {P : Pedersen E.z M}
    (hN : N.Keeps P) (hF : Formats E.z) (hW : WireSizes E.z) (hbits : A.ctBits.getD 52 ≤ 52)
    (hmax : amountOf (tx.vout.getD j {}).nValue ≤ maxMoney)
    (hscr : (tx'.vout.getD j {}).scriptPubKey = (tx.vout.getD j {}).scriptPubKey) (h : Blinded E A tx tx' j bf abf) :
    (∃ l, outputCom E.z (tx'.vout.getD j {}) = some l ∧ (∀ c ∈ l, MadeCom E.z c) ∧
      (l.map P.comPt).sum = P.outPt (tx'.vout.getD j {})) ∧
    outputRange E.z N (tx'.vout.getD j {}) (some (tx'.outWit j)) = true ∧
    ∀ gens handle gen, (∃ asset abf, E.z.generateBlinded asset abf = some gen) →
      E.z.genSerialize gen = some (tx'.vout.getD j {}).nAsset → E.z.surjVerify handle gens.flatten gens.length gen = true →
      E.z.surjSerialize handle = some (tx'.outWit j).surjectionproof →
      outputSurjection E.z N gens (tx'.vout.getD j {}) (some (tx'.outWit j)) = true := by
  obtain ⟨hcom, ⟨asset, v, gen, com, seed, x, a, p, hb, h1, h2, h3, h4, h5, h6, h7⟩, -⟩ := h
  have hass := generator_written hF hb.nAsset
  have hback := hN.genBack _ _ _ _ hb.generator hb.nAsset
  have hnonce : nonceSort (tx'.vout.getD j {}).nNonce ≠ .invalid := by
    rw [h2]
    have hp := hW.pubPrefix _ h1
    generalize E.z.pubOf seed = k at h3 hp
    cases k with
    | nil => simp at h3
    | cons y k =>
      simp only [List.head?_cons, Option.some.injEq, List.length_cons] at hp h3
      rcases hp with rfl | rfl <;> simp [nonceSort, fieldSort, show k.length = 32 by omega]
  refine ⟨⟨[com], ?_, ?_, ?_⟩, ?_, ?_⟩
  · unfold outputCom
    rw [if_neg hnonce]
    simp only [assetGen, assetSort_commitment hass]
    rw [hback]
    dsimp only
    rw [valueSort_commitment hcom]
    dsimp only
    rw [hN.comBack _ _ _ _ _ hb.commitment hb.nValue]
    rfl
  · intro y hy
    rw [List.mem_singleton] at hy
    subst hy
    exact ⟨_, _, _, hb.commitment⟩
  · simp only [List.map_cons, List.map_nil, List.sum_cons, List.sum_nil, add_zero]
    rw [outPt_commitment P hcom, P.commitSerialize _ _ hb.nValue]
  · have hr := range_passes hN hF h5 h6 hb.asset_len hb.abf_len hb.bf_len hb.value_len hb.generator hb.commitment hb.nValue hb.nAsset
    have hsm := hN.small _ _ h6 (by rw [h5.bits_eq]; exact hbits) (by
      rw [h5.value_eq]
      rw [hb.explicitValue] at hmax
      exact hmax)
    unfold outputRange
    rw [valueSort_commitment hcom, assetSort_commitment hass]
    dsimp only
    rw [h7, hscr, hr, decide_eq_true hsm]
    rfl
  · rintro gens handle gen' ⟨asset', abf', hg'⟩ hs' hv' hser
    have : gen' = gen := by
      have := hN.genBack _ _ _ _ hg' hs'
      rw [hback] at this
      exact (Option.some.inj this).symm
    subst this
    obtain ⟨h', hp', hver⟩ := hN.surjection _ _ hser
    unfold outputSurjection
    rw [assetSort_commitment hass]
    dsimp only
    rw [hback]
    dsimp only
    rw [hp']
    exact hver _ _ _ hv'

theorem script_after {A : BlindArgs} {t t' : Tx} (h : OnlyAsked A t t') (j : Nat) :
    (t'.vout.getD j {}).scriptPubKey = (t.vout.getD j {}).scriptPubKey := by
  have := congrArg (·[j]?) h.scripts
  simp only [List.getElem?_map] at this
  rw [List.getD_eq_getElem?_getD, List.getD_eq_getElem?_getD]
  cases h1 : t'.vout[j]? <;> cases h2 : t.vout[j]? <;> rw [h1, h2] at this <;> simp_all

/-! ### The whole transaction -/

/-- The check as a whole, from what it finds input by input and output by output. -/
theorem verify_iff {E : Env} {N : Verifier} {P : Pedersen E.z M} (hN : N.Keeps P) {spent : List TxOut} {ds : List Desc} {t : Tx}
    (hsl : spent.length = t.vin.length) (hdl : ds.length = t.vin.length) {lin : Nat → List (Bytes × Bytes)} {lout : Nat → List Bytes}
    (i1 : ∀ i, i < t.vin.length → inputComs E N (spent.getD i {}) (t.vin.getD i default) (some (t.inWit i)) = some (lin i))
    (i2 : ∀ i, i < t.vin.length → ∀ x ∈ lin i, MadeCom E.z x.2)
    (i3 : ∀ i, i < t.vin.length → (((lin i).map Prod.snd).map P.comPt).sum = P.spentPt (ds.getD i ⟨[], 0, [], []⟩)
        + P.issuancePt E (t.vin.getD i default).confidential (t.vin.getD i default))
    (o1 : ∀ j, j < t.vout.length → outputCom E.z (t.vout.getD j {}) = some (lout j))
    (o2 : ∀ j, j < t.vout.length → (∀ c ∈ lout j, MadeCom E.z c) ∧ ((lout j).map P.comPt).sum = P.outPt (t.vout.getD j {}))
    (hr : ∀ j, j < t.vout.length → outputRange E.z N (t.vout.getD j {}) (some (t.outWit j)) = true)
    (hs : ∀ j, j < t.vout.length → outputSurjection E.z N (((List.range t.vin.length).flatMap lin).map Prod.fst) (t.vout.getD j {})
      (some (t.outWit j)) = true) :
    verifyAmounts E N spent (Spec.fillWitness t) = true ↔ Balanced P E ds t := by
  have hv : (Spec.fillWitness t).vin = t.vin := rfl
  have ho : (Spec.fillWitness t).vout = t.vout := rfl
  have eleft : ((List.range t.vin.length).flatMap fun i => (inputComs E N (spent.getD i {}) (t.vin.getD i default)
      (Spec.fillWitness t).wit.vtxinwit[i]?).getD []) = (List.range t.vin.length).flatMap lin := by
    refine List.flatMap_congr fun i hi => ?_
    rw [List.mem_range] at hi
    rw [fill_inWit _ hi, i1 i hi]
    rfl
  have eright : ((List.range t.vout.length).flatMap fun j => (outputCom E.z (t.vout.getD j {})).getD [])
      = (List.range t.vout.length).flatMap lout := by
    refine List.flatMap_congr fun j hj => ?_
    rw [List.mem_range] at hj
    rw [o1 j hj]
    rfl
  have hmade : ∀ c ∈ ((List.range t.vin.length).flatMap lin).map Prod.snd ++ (List.range t.vout.length).flatMap lout,
      ∃ b v g, E.z.commit b v g = some c := by
    intro c hc
    rcases List.mem_append.1 hc with hc | hc
    · obtain ⟨x, hx, rfl⟩ := List.mem_map.1 hc
      obtain ⟨i, hi, hx⟩ := List.mem_flatMap.1 hx
      exact i2 i (List.mem_range.1 hi) x hx
    · obtain ⟨j, hj, hx⟩ := List.mem_flatMap.1 hc
      exact (o2 j (List.mem_range.1 hj)).1 c hx
  have hleft : ((((List.range t.vin.length).flatMap lin).map Prod.snd).map P.comPt).sum
      = (ds.map P.spentPt).sum + (t.vin.map fun i => P.issuancePt E i.confidential i).sum := by
    rw [List.map_flatMap, sum_flatMap]
    conv_rhs => rw [list_range ds ⟨[], 0, [], []⟩, hdl, list_range t.vin default]
    rw [List.map_map, List.map_map, List.length_map, List.length_range, ← List.sum_map_add]
    refine congrArg List.sum (List.map_congr_left fun i hi => ?_)
    exact i3 i (List.mem_range.1 hi)
  have hright : (((List.range t.vout.length).flatMap lout).map P.comPt).sum = (t.vout.map P.outPt).sum := by
    rw [sum_flatMap]
    conv_rhs => rw [list_range t.vout {}]
    rw [List.map_map]
    refine congrArg List.sum (List.map_congr_left fun j hj => ?_)
    exact (o2 j (List.mem_range.1 hj)).2
  have ht := hN.tally _ _ hmade
  rw [hleft, hright] at ht
  unfold Balanced
  rw [← ht]
  unfold verifyAmounts
  simp only [hv, ho, eleft, eright]
  have c1 : (spent.length == t.vin.length) = true := by rw [hsl]; simp
  have c2 : ((List.range t.vin.length).all fun i => (inputComs E N (spent.getD i {}) (t.vin.getD i default)
      (Spec.fillWitness t).wit.vtxinwit[i]?).isSome) = true := by
    rw [List.all_eq_true]
    intro i hi
    rw [List.mem_range] at hi
    rw [fill_inWit _ hi, i1 i hi]
    rfl
  have c3 : ((List.range t.vout.length).all fun j => (outputCom E.z (t.vout.getD j {})).isSome) = true := by
    rw [List.all_eq_true]
    intro j hj
    rw [List.mem_range] at hj
    rw [o1 j hj]
    rfl
  have c4 : ((List.range t.vout.length).all fun j => outputRange E.z N (t.vout.getD j {})
      (Spec.fillWitness t).wit.vtxoutwit[j]?) = true := by
    rw [List.all_eq_true]
    intro j hj
    rw [List.mem_range] at hj
    rw [fill_outWit _ hj]
    exact hr j hj
  have c5 : ((List.range t.vout.length).all fun j => outputSurjection E.z N (((List.range t.vin.length).flatMap lin).map Prod.fst)
      (t.vout.getD j {}) (Spec.fillWitness t).wit.vtxoutwit[j]?) = true := by
    rw [List.all_eq_true]
    intro j hj
    rw [List.mem_range] at hj
    rw [fill_outWit _ hj]
    exact hs j hj
  rw [c1, c2, c3, c4, c5]
  simp

/-- C92.  A transaction that was ready and is strictly blinded, every output asked for being
hidden now or fine as it was: the network accepts its amounts if and only if it balances. -/
theorem C92_exact {E : Env} {A : BlindArgs} {spent : List TxOut} {tx tx' : Tx} {num bfs abfs} {N : Verifier} {P : Pedersen E.z M}
    (hN : N.Keeps P) (hF : Formats E.z) (hW : WireSizes E.z)
    (h : blindTransaction E A tx = (.ok (.success num bfs abfs), tx')) (hst : A.strict = true)
    (hsz : ∀ t ∈ tx.vin, InputSizes t) (hr : Ready E A spent tx)
    (hall : ∀ j, A.pubkeys.getD j [] ≠ [] → IsValueCommitment (tx'.vout.getD j {}).nValue ∨ PlainFine tx j) :
    verifyAmounts E N spent (Spec.fillWitness tx') = true ↔ Balanced P E A.descs tx' := by
  obtain ⟨C, s', hR, -⟩ := blind_success h
  have hlen := hR.lengths
  have hRo := hR.outputs
  obtain ⟨L, ⟨L1, L2, hL1, hL2, rfl⟩, hver⟩ := C40_verified_partial h hsz hr.noReissued
  have hdrop : A.auxGens.drop tx.vin.length = [] := List.drop_eq_nil_of_le hr.aux
  rw [hdrop] at hL2
  cases hL2
  rw [List.append_nil] at hver
  have hsl : spent.length = tx.vin.length := hr.spent.length_eq.trans hlen.descs
  have hfr := C32_only_asked E A tx
  rw [h] at hfr
  dsimp only at hfr
  have hli : tx'.vin.length = tx.vin.length := by
    have := (C32_counts E A tx).1
    rw [h] at this
    exact this
  have hlo : tx'.vout.length = tx.vout.length := by
    have := (C32_counts E A tx).2
    rw [h] at this
    exact this
  -- inputs
  have hdd : ∀ i, i < tx.vin.length → A.descs[i]? = some (A.descs.getD i ⟨[], 0, [], []⟩) := by
    intro i hi
    rw [List.getD_eq_getElem?_getD, List.getElem?_eq_getElem (by rw [hlen.descs]; exact hi)]; rfl
  have hin : ∀ i, i < tx.vin.length → ∃ l, inputComs E N (spent.getD i {}) (tx'.vin.getD i default) (some (tx'.inWit i)) = some l ∧
      (∀ x ∈ l, MadeCom E.z x.2) ∧
      ((l.map Prod.snd).map P.comPt).sum = P.spentPt (A.descs.getD i ⟨[], 0, [], []⟩)
        + P.issuancePt E (tx'.vin.getD i default).confidential (tx'.vin.getD i default) ∧
      ∀ L, InputTargets E A i (tx.vin.getD i default) (A.descs.getD i ⟨[], 0, [], []⟩) L → L.map Target.gen = l.map Prod.fst := by
    intro i hi
    refine input_coms hN hF h hst hsz hr i hi ?_ (hr.own _ (getD_mem _ (by rw [hlen.descs]; exact hi)))
    have h1 : i < spent.length := by omega
    have h2 : i < A.descs.length := by rw [hlen.descs]; exact hi
    have := (List.forall₂_iff_get.1 hr.spent).2 i h1 h2
    rw [List.getD_eq_getElem?_getD, List.getElem?_eq_getElem h1, List.getD_eq_getElem?_getD, List.getElem?_eq_getElem h2]
    exact this
  choose! lin i1 i2 i3 i4 using hin
  -- outputs
  have hscr : ∀ j, (tx'.vout.getD j {}).scriptPubKey = (tx.vout.getD j {}).scriptPubKey := by
    exact script_after hfr
  have hout : ∀ j, j < tx.vout.length → (∃ l, outputCom E.z (tx'.vout.getD j {}) = some l ∧ (∀ c ∈ l, MadeCom E.z c) ∧
      (l.map P.comPt).sum = P.outPt (tx'.vout.getD j {})) ∧
      outputRange E.z N (tx'.vout.getD j {}) (some (tx'.outWit j)) = true ∧
      outputSurjection E.z N (L1.map Target.gen) (tx'.vout.getD j {}) (some (tx'.outWit j)) = true := by
    intro j hj
    obtain ⟨o1, o2, o3, o4⟩ := hr.outputs j hj
    have same : Untouched tx tx' j → PlainFine tx j → (∃ l, outputCom E.z (tx'.vout.getD j {}) = some l ∧ (∀ c ∈ l, MadeCom E.z c) ∧
        (l.map P.comPt).sum = P.outPt (tx'.vout.getD j {})) ∧
        outputRange E.z N (tx'.vout.getD j {}) (some (tx'.outWit j)) = true ∧
        outputSurjection E.z N (L1.map Target.gen) (tx'.vout.getD j {}) (some (tx'.outWit j)) = true := by
      rintro ⟨u1, u2⟩ ⟨p1, p2, p3⟩
      have e : tx'.vout.getD j {} = tx.vout.getD j {} := by
        rw [List.getD_eq_getElem?_getD, List.getD_eq_getElem?_getD, u1]
      have e2 : tx'.outWit j = {} := u2.trans p3
      rw [e, e2]
      obtain ⟨q1, q2, q3⟩ := plain_output (P := P) hN o1 o2 o3 p1 p2
      exact ⟨q1, q2, q3 _⟩
    by_cases hk : A.pubkeys.getD j [] = []
    · exact same ⟨hfr.outputs j hk, hfr.outputWitness j hk⟩ (o4 hk)
    · have hb : Blinded E A tx tx' j (bfs.getD j []) (abfs.getD j []) ∨ Untouched tx tx' j ∧ PlainFine tx j := by
        cases (C33_strict h hst hsz).2.2 j hk with
        | blinded hb => exact .inl hb
        | zero v _ hu _ _ hv =>
          refine .inr ⟨hu, (hall j hk).resolve_left fun hc => ?_⟩
          rw [List.getD_eq_getElem?_getD, hu.1, ← List.getD_eq_getElem?_getD, hv] at hc
          obtain ⟨b, hb | hb, -⟩ := hc <;> exact absurd (List.cons.inj hb).1 (by decide)
      rcases hb with hb | ⟨hu, hp⟩
      swap
      · exact same hu hp
      obtain ⟨q1, q2, q3⟩ := hidden_output (P := P) hN hF hW hr.bits o3 (hscr j) hb
      refine ⟨q1, q2, ?_⟩
      have hpk : A.pubkeys[j]? = some (A.pubkeys.getD j []) := by
        rw [List.getD_eq_getElem?_getD] at hk ⊢
        cases hx : A.pubkeys[j]? with
        | none => rw [hx] at hk; exact absurd rfl hk
        | some y => rfl
      have hw0 : tx.outWit j = {} := (hRo j _ hpk hk).noWitness
      have hne : tx'.outWit j ≠ tx.outWit j := by
        rw [hw0]
        intro e
        exact hb.surjection (by rw [e])
      obtain ⟨handle, gen, g1, g2, g3, g4⟩ := hver j hne
      refine q3 _ handle gen g1 g2 ?_ g4
      rw [List.length_map]
      exact g3
  choose! lout o1 o2 using fun j hj => (hout j hj).1
  -- the generators are the targets
  obtain ⟨f, hf, hflat⟩ := targetsFrom_flat hL1
  have hzip : (tx.vin.zip A.descs).length = tx.vin.length := by rw [List.length_zip, hlen.descs, Nat.min_self]
  rw [hzip] at hflat
  have hgens : L1.map Target.gen = ((List.range tx.vin.length).flatMap lin).map Prod.fst := by
    rw [hflat, List.map_flatMap, List.map_flatMap]
    refine List.flatMap_congr fun i hi => ?_
    rw [List.mem_range] at hi
    refine i4 i hi _ ?_
    have := hf i (tx.vin.getD i default, A.descs.getD i ⟨[], 0, [], []⟩) (by
      rw [List.getElem?_zip_eq_some]
      exact ⟨by rw [List.getD_eq_getElem?_getD, List.getElem?_eq_getElem hi]; rfl, hdd i hi⟩)
    rw [Nat.zero_add] at this
    exact this
  -- the node
  refine verify_iff hN (lin := lin) (lout := lout) (by rw [hsl, hli]) (by rw [hlen.descs, hli]) ?_ ?_ ?_ ?_ ?_ ?_ ?_
  · exact fun i hi => i1 i (by omega)
  · exact fun i hi => i2 i (by omega)
  · exact fun i hi => i3 i (by omega)
  · exact fun j hj => o1 j (by omega)
  · exact fun j hj => o2 j (by omega)
  · exact fun j hj => (hout j (by omega)).2.1
  · intro j hj
    rw [hli, ← hgens]
    exact (hout j (by omega)).2.2

/-- C92.  If as much of every asset goes in as comes out, and keys are given only where something
is issued, the network accepts what strict blinding made of a ready transaction, provided every
output asked for is hidden.  Missing: stray keys and the zero case, for which the claim fails. -/
theorem C92_accepted_partial {E : Env} {A : BlindArgs} {spent : List TxOut} {tx tx' : Tx} {num bfs abfs} {N : Verifier}
    {P : Pedersen E.z M} (hN : N.Keeps P) (hF : Formats E.z) (hW : WireSizes E.z)
    (h : blindTransaction E A tx = (.ok (.success num bfs abfs), tx')) (hst : A.strict = true)
    (hsz : ∀ t ∈ tx.vin, InputSizes t) (hr : Ready E A spent tx) (hb : AmountsBalance E A tx) (hk : KeysFine A tx)
    (hone : ∃ j, A.pubkeys.getD j [] ≠ [])
    (hall : ∀ j, A.pubkeys.getD j [] ≠ [] → IsValueCommitment (tx'.vout.getD j {}).nValue) :
    verifyAmounts E N spent (Spec.fillWitness tx') = true :=
  (C92_exact hN hF hW h hst hsz hr fun j hj => .inl (hall j hj)).2 (C34_balanced_partial P h hsz hb hk hone hall)

end Verif
