import Verif.BlindGoes
import Verif.Props.Surjection
/-
C73: blinding goes through when it should.
-/
namespace Verif

/-! ### Issuances -/

/-- The state after the issuances `dn`. -/
structure IssInv (A : BlindArgs) (tx : Tx) (s : BS) (dn : List (Nat × Bool)) : Prop where
  attempts : s.attempts = dn.length
  issAttempts : s.issAttempts = dn.length
  rnd : s.rnd = dn.length
  done : s.done = dn.length
  blinds : s.blinds = (A.descs.filter Desc.blinded).map Desc.blindingFactor ++ (List.range dn.length).map A.rand
  assetblinds : s.assetblinds = (A.descs.filter Desc.blinded).map Desc.assetBlindingFactor
    ++ List.replicate dn.length (List.replicate 32 0)
  amounts : s.amounts.map (twos 8) = (A.descs.filter Desc.blinded).map (fun d => d.amount.toNat)
    ++ dn.map (fun x => plainAmount ((tx.vin.getD x.1 default).issued x.2))
  vout : s.tx.vout = tx.vout
  cells : ∀ x, x ∉ dn → s.tx.issCell x = tx.issCell x

theorem issued_plain (t : TxIn) (token : Bool) : t.assetIssuance.val token = t.issued token := by cases token <;> rfl

section
variable {E : Env} {Good Asset : Bytes → Prop} {A : BlindArgs} {tx : Tx} {C : Ctx}

theorem IssInv.step (hS : Sensible E Good Asset A tx) (hE : C.E = E) (hA : C.A = A)
    (hw : Works E.z Good Asset (A.ctExponent.getD 0) (A.ctBits.getD 52)) (hf : Formats E.z)
    {s : BS} {dn : List (Nat × Bool)} (hI : IssInv A tx s dn) {i : Nat} {token : Bool} (hi : i < tx.vin.length)
    (hn : dn.length + 1 < C.nToBlind ∨ keyAt (A.issKeys token) i = none) (hx : (i, token) ∉ dn) :
    ∃ s', issuanceStep C i token s = (.ok (), s') ∧
      IssInv A tx s' (dn ++ if (keyAt (A.issKeys token) i).isSome then [(i, token)] else []) := by
  subst hE hA
  unfold issuanceStep
  change ∃ s', (match keyAt (C.A.issKeys token) i with | none => pure () | some key => issuancePseudo C i token key : BM Unit) s = _ ∧ _
  cases hk : keyAt (C.A.issKeys token) i with
  | none =>
    refine ⟨s, BM.pure_ok.2 ⟨rfl, rfl⟩, ?_⟩
    simpa using hI
  | some key =>
    rw [hk] at hn
    have hn := hn.resolve_right (by simp)
    have hg : tx.vin[i]? = some tx.vin[i] := List.getElem?_eq_getElem hi
    have hD : tx.vin.getD i default = tx.vin[i] := by rw [List.getD_eq_getElem?_getD, hg]; rfl
    rw [issKeys_key] at hk
    obtain ⟨k1, ⟨v, k2, k3, k4⟩, k5⟩ := hS.issuances i _ token key hg hk
    obtain ⟨c1, c2⟩ := issCell_get (hI.cells _ hx)
    dsimp only at c1 c2
    rw [hD] at c1 c2
    have hs0 := hS.sizes _ (List.getElem_mem hi)
    have c1' := c1
    simp only [TxIn.fixed, Prod.mk.injEq] at c1'
    obtain ⟨q1, -, -, -, q5, q6⟩ := c1'
    have hs : InputSizes (s.tx.vin.getD i default) := ⟨by rw [q1]; exact hs0.hash, by rw [q1]; exact hs0.index, by rw [q6]; exact hs0.entropy⟩
    obtain ⟨d, m, rfl, rfl, rfl, m4, m5, m6⟩ := iss_exists hw hf i (key := key) (blind := C.A.rand s.rnd) hs (fun h => by rw [q5]; exact k5 h)
      k1 (by rw [c2, issued_plain]; exact k2) k3 k4 (hS.random _).1
    refine ⟨_, issuancePseudo_run m (by rw [hI.attempts]; omega) m4 m6, ?_⟩
    have htw : twos 8 (untwos 8 (beVal v)) = beVal v := by
      apply twos_untwos
      have := beVal_lt v
      rw [k3] at this
      exact this
    simp only [Option.isSome_some, if_true]
    constructor
    · simp [IssData.after, hI.attempts]
    · simp [IssData.after, hI.issAttempts]
    · simp [IssData.after, hI.rnd]
    · simp [IssData.after, hI.done]
    · simp [IssData.after, hI.blinds, m6, hI.rnd, List.range_succ]
    · simp [IssData.after, hI.assetblinds, zero32, List.replicate_succ']
    · simp only [IssData.after, List.map_append, hI.amounts, m5, htw, List.map_cons, List.map_nil, List.append_assoc, hD, k2,
        plainAmount, List.drop_succ_cons, List.drop_zero]
    · simp [IssData.after, IssData.newTx, setInWit, setIssuance, hI.vout]
    · intro x hxm
      rw [List.mem_append, not_or, List.mem_singleton] at hxm
      exact (issCell_ne d s.tx m4 (Ne.symm hxm.2)).trans (hI.cells x hxm.1)

theorem IssInv.loop (hS : Sensible E Good Asset A tx) (hE : C.E = E) (hA : C.A = A)
    (hw : Works E.z Good Asset (A.ctExponent.getD 0) (A.ctBits.getD 52)) (hf : Formats E.z)
    (hN : (keyed A 0 tx.vin.length).length < C.nToBlind) :
    ∀ (n i : Nat) {s : BS} {dn : List (Nat × Bool)}, IssInv A tx s dn → i + n = tx.vin.length →
      dn ++ keyed A i n = keyed A 0 tx.vin.length →
      ∃ s', issuanceLoop C i n s = (.ok (), s') ∧ IssInv A tx s' (keyed A 0 tx.vin.length)
  | 0, i, s, dn, hI, _, hk => by
    refine ⟨s, BM.pure_ok.2 ⟨rfl, rfl⟩, ?_⟩
    rw [← hk]
    simpa [keyed] using hI
  | n + 1, i, s, dn, hI, hi, hk => by
    have hlt := hN
    have hnd := (keyed_nodup A tx.vin.length 0).1
    rw [keyed_succ] at hk
    rw [← hk] at hlt hnd
    have a1 : keyAt (A.issKeys false) i = none ∨ (keyAt (A.issKeys false) i).isSome = true := by
      cases keyAt (A.issKeys false) i <;> simp
    have a2 : keyAt (A.issKeys true) i = none ∨ (keyAt (A.issKeys true) i).isSome = true := by
      cases keyAt (A.issKeys true) i <;> simp
    have b1 : ∀ token, (keyAt (A.issKeys token) i).isSome = false → issuanceStep C i token = pure () := by
      intro token h
      unfold issuanceStep
      change (match keyAt (C.A.issKeys token) i with | none => pure () | some key => issuancePseudo C i token key : BM Unit) = _
      rw [hA]
      cases hh : keyAt (A.issKeys token) i with
      | none => rfl
      | some k => rw [hh] at h; cases h
    have s1 : ∃ s1, issuanceStep C i false s = (.ok (), s1) ∧
        IssInv A tx s1 (dn ++ if (keyAt (A.issKeys false) i).isSome then [(i, false)] else []) := by
      rcases a1 with h | h
      · refine ⟨s, ?_, ?_⟩
        · rw [b1 false (by rw [h]; rfl)]; exact BM.pure_ok.2 ⟨rfl, rfl⟩
        · rw [h]; simpa using hI
      · refine hI.step hS hE hA hw hf (by omega) (.inl ?_) ?_
        · rw [if_pos h] at hlt
          simp only [List.length_append, List.length_singleton] at hlt
          omega
        · rw [if_pos h] at hnd
          intro hm
          have := (List.nodup_append.1 hnd).2.2 _ hm (i, false) (by simp)
          exact this rfl
    obtain ⟨t1, e1, I1⟩ := s1
    have s2 : ∃ s2, issuanceStep C i true t1 = (.ok (), s2) ∧
        IssInv A tx s2 ((dn ++ if (keyAt (A.issKeys false) i).isSome then [(i, false)] else []) ++
          if (keyAt (A.issKeys true) i).isSome then [(i, true)] else []) := by
      rcases a2 with h | h
      · refine ⟨t1, ?_, ?_⟩
        · rw [b1 true (by rw [h]; rfl)]; exact BM.pure_ok.2 ⟨rfl, rfl⟩
        · rw [h]; simpa using I1
      · refine I1.step hS hE hA hw hf (by omega) (.inl ?_) ?_
        · rw [if_pos h] at hlt
          simp only [List.length_append, List.length_singleton] at hlt ⊢
          omega
        · rw [if_pos h, ← List.append_assoc] at hnd
          intro hm
          have := (List.nodup_append.1 hnd).2.2 _ hm (i, true) (by simp)
          exact this rfl
    obtain ⟨t2, e2, I2⟩ := s2
    obtain ⟨t3, e3, I3⟩ := IssInv.loop hS hE hA hw hf hN n (i + 1) I2 (by omega) (by rw [← hk]; simp)
    refine ⟨t3, ?_, I3⟩
    rw [issuanceLoop]
    exact BM.bind_ok.2 ⟨(), t1, e1, BM.bind_ok.2 ⟨(), t2, e2, e3⟩⟩

/-! ### Outputs -/

/-- The state after the outputs `dn`, when `m` issuances came before. -/
structure OutInv (A : BlindArgs) (tx : Tx) (m : Nat) (s : BS) (dn : List Nat) : Prop where
  attempts : s.attempts = m + dn.length
  issAttempts : s.issAttempts = m
  rnd : s.rnd = m + 4 * dn.length
  done : s.done = m + dn.length
  lens : s.blinds.length = s.amounts.length
  blinds : dn.length < (outputsAsked A).length → s.blinds ++ (List.range' dn.length ((outputsAsked A).length - dn.length)).map
    (fun k => A.rand (m + 4 * k)) = sumFactors A tx
  assetblinds : s.assetblinds ++ (List.range' dn.length ((outputsAsked A).length - dn.length)).map
    (fun k => A.rand (m + 4 * k + 1)) = sumAssetFactors A tx
  amounts : s.amounts.map (twos 8) ++ ((outputsAsked A).drop dn.length).map (fun j => plainAmount (tx.vout.getD j {}).nValue)
    = sumAmounts A tx
  vout : ∀ j, j ∉ dn → s.tx.vout[j]? = tx.vout[j]?
  hidden : ∀ j ∈ dn, IsValueCommitment (s.tx.vout.getD j {}).nValue

theorem OutInv.step (hS : Sensible E Good Asset A tx) (hE : C.E = E) (hA : C.A = A)
    (hw : Works E.z Good Asset (A.ctExponent.getD 0) (A.ctBits.getD 52)) (hf : Formats E.z)
    {L : List Target} (hT : C.T = ⟨L.map Target.asset, L.map Target.gen, L.map Target.blinder⟩) (hL : IsCodedTargets E A tx L)
    (hsel : ∀ k j, (outputsAsked A)[k]? = some j →
      ∃ a h i, (tx.vout.getD j {}).nAsset = 1 :: a ∧ Asset a ∧ ¬ AllZero a ∧
        E.z.surjInit (L.map Target.asset).flatten L.length (min 3 L.length) a 100
          (A.rand ((issuancesAsked A tx).length + 4 * k + 3)) = some (h, i))
    (hN : C.nToBlind = (issuancesAsked A tx).length + (outputsAsked A).length)
    (hB : C.nBlindsIn = (A.descs.filter Desc.blinded).length)
    {s : BS} {dn : List Nat} (hI : OutInv A tx (issuancesAsked A tx).length s dn) {j : Nat} {pk : Bytes}
    (hpk : A.pubkeys[j]? = some pk) (hne : pk ≠ []) (hj : (outputsAsked A)[dn.length]? = some j) (hjn : j ∉ dn) :
    ∃ s', outputBlind C j pk s = (.ok (), s') ∧ OutInv A tx (issuancesAsked A tx).length s' (dn ++ [j]) := by
  subst hE hA
  obtain ⟨a, h, i, s1, s2, s3, s4⟩ := hsel _ _ hj
  obtain ⟨hbl, o2, o3⟩ := hS.outputs j pk hpk hne
  obtain ⟨v, hv, hvl⟩ := hbl.value
  obtain ⟨a', ha', hal⟩ := hbl.asset
  rw [s1] at ha'
  cases ha'
  have hpa : plainAmount (tx.vout.getD j {}).nValue = beVal v := by rw [hv]; rfl
  rw [hpa] at o2 o3
  have hout : s.tx.vout.getD j {} = tx.vout.getD j {} := by
    rw [List.getD_eq_getElem?_getD, List.getD_eq_getElem?_getD, hI.vout j hjn]
  have htw : twos 8 (untwos 8 (beVal v)) = beVal v := by
    apply twos_untwos
    have := beVal_lt v
    rw [hvl] at this
    exact this
  have hlt : dn.length < (outputsAsked C.A).length := (List.getElem?_eq_some_iff.1 hj).1
  have hjD : (outputsAsked C.A).drop dn.length = j :: (outputsAsked C.A).drop (dn.length + 1) := by
    rw [List.drop_eq_getElem_cons hlt]
    rw [(List.getElem?_eq_some_iff.1 hj).2]
  -- the blinding factor
  have hch : ∃ b, Good b ∧ Chosen C (s.attempts + 1) s.issAttempts (s.amounts ++ [untwos 8 (beVal v)])
      (s.assetblinds ++ [C.A.rand (s.rnd + 1)]) s.blinds (C.A.rand s.rnd) b ∧
      (dn.length + 1 < (outputsAsked C.A).length → b = C.A.rand s.rnd) := by
    by_cases hlast : dn.length + 1 = (outputsAsked C.A).length
    · obtain ⟨b, hb, hg⟩ := hS.balance
      have e1 : (outputsAsked C.A).length - dn.length = 1 := by omega
      have i1 := hI.blinds hlt
      have i2 := hI.assetblinds
      have i3 := hI.amounts
      rw [e1] at i1 i2
      rw [hjD, List.drop_eq_nil_of_le (by omega)] at i3
      simp only [List.range'_one, List.map_cons, List.map_nil] at i1 i2 i3
      rw [← hI.rnd] at i1 i2
      rw [hpa, ← htw] at i3
      have e3 : (s.amounts ++ [untwos 8 (beVal v)]).map (twos 8) = sumAmounts C.A tx := by simpa using i3
      have hlen : (sumAmounts C.A tx).length = (C.A.descs.filter Desc.blinded).length
          + (issuancesAsked C.A tx).length + (outputsAsked C.A).length := by
        simp [sumAmounts]; omega
      have e4 : s.amounts.length + 1 = (sumAmounts C.A tx).length := by rw [← e3]; simp
      refine ⟨b, hg, .balancing b ?_ ?_ ?_ ?_ ?_ ?_, fun h => by omega⟩
      · rw [hI.attempts, hN]; omega
      · rintro ⟨z1, z2⟩
        rw [hI.attempts] at z1
        obtain ⟨d, hd, hdb⟩ := hS.notAlone (by omega)
        rw [hB] at z2
        have := List.eq_nil_of_length_eq_zero z2
        have hm : d ∈ C.A.descs.filter Desc.blinded := List.mem_filter.2 ⟨hd, hdb⟩
        rw [this] at hm
        cases hm
      · rw [hI.lens, hI.attempts, hB]; omega
      · simp [hI.lens]
      · rw [e3, i1, i2, hI.attempts, hI.issAttempts, hB]
        have w1 : (issuancesAsked C.A tx).length + dn.length + 1 + (C.A.descs.filter Desc.blinded).length = (sumAmounts C.A tx).length := by
          omega
        have w2 : (issuancesAsked C.A tx).length + (C.A.descs.filter Desc.blinded).length
            = (sumAmounts C.A tx).length - (outputsAsked C.A).length := by omega
        rw [w1, w2]
        exact hb
      · exact fun e => (hw.secret _ hg).2 (isNull32_iff.1 e)
    · exact ⟨_, (hS.random _).1, .random (by rw [hI.attempts, hN]; omega), fun _ => rfl⟩
  obtain ⟨b, hb, hc, hbr⟩ := hch
  have hrnd : C.A.rand (s.rnd + 3) = C.A.rand ((issuancesAsked C.A tx).length + 4 * dn.length + 3) := by rw [hI.rnd]
  rw [← hrnd] at s4
  obtain ⟨d, p, m, rfl, rfl, m3, m4, m5, m6, m7, m8, m9⟩ := out_exists hw hf hT
    (fun t ht => coded_target hL (fun d hd => (hS.descs d hd).1) hS.lengths.descs ht) j hv hvl o2 o3 s1 hal s2 s3 hb
    (hS.random (s.rnd + 1)).1 (hS.random (s.rnd + 2)).1 (hS.random _).2 hbl.pubkey s4
  refine ⟨d.after s, outputBlind_run m ⟨?_, m6, m7, ?_⟩ (m3.trans hout.symm) m8 (hw.secret _ (hS.random _).1).1, ?_⟩
  · rw [m4, m5, m6]; exact hc
  · intro q hq
    rw [m8] at hq
    cases hq
    exact m9
  · have hr' : ∀ f : Nat → Bytes, (List.range' dn.length ((outputsAsked C.A).length - dn.length)).map f
        = f dn.length :: (List.range' (dn.length + 1) ((outputsAsked C.A).length - (dn.length + 1))).map f := by
      intro f
      rw [show (outputsAsked C.A).length - dn.length = ((outputsAsked C.A).length - (dn.length + 1)) + 1 by omega,
        List.range'_succ, List.map_cons]
    constructor
    · simp [OutData.after, hI.attempts]; omega
    · simp [OutData.after, hI.issAttempts]
    · simp [OutData.after, hI.rnd]; omega
    · simp [OutData.after, hI.done, m8]; omega
    · simp [OutData.after, hI.lens]
    · intro hl
      rw [List.length_append, List.length_singleton] at hl
      have := hI.blinds hlt
      rw [hr'] at this
      simp only [OutData.after, m5, List.length_append, List.length_singleton]
      rw [hbr hl, hI.rnd]
      simpa using this
    · have := hI.assetblinds
      rw [hr'] at this
      simp only [OutData.after, m6, List.length_append, List.length_singleton]
      rw [hI.rnd]
      simpa using this
    · have := hI.amounts
      rw [hjD, List.map_cons, hpa] at this
      simp only [OutData.after, m4, List.length_append, List.length_singleton, List.map_append, List.map_cons, List.map_nil, htw]
      simpa using this
    · intro k hk
      rw [List.mem_append, not_or, List.mem_singleton] at hk
      have := congrArg Cell.out (cell_after_ne d s (Ne.symm hk.2))
      simp only [BS.cell] at this
      rw [this]
      exact hI.vout k hk.1
    · intro k hk
      by_cases hkj : k = d.j
      · subst hkj
        have := congrArg Cell.out (cell_after_self d s)
        simp only [BS.cell] at this
        rw [List.getD_eq_getElem?_getD, this]
        have hx : s.tx.vout[d.j]? = some (tx.vout.getD d.j {}) := by
          rw [hI.vout _ hjn]
          cases ho : tx.vout[d.j]? with
          | none => rw [List.getD_eq_getElem?_getD, ho] at hv; cases hv
          | some o => rw [List.getD_eq_getElem?_getD, ho]; rfl
        simp only [OutData.cell, BS.cell, hx]
        exact m.committed
      · have := congrArg Cell.out (cell_after_ne d s (Ne.symm hkj))
        simp only [BS.cell] at this
        rw [List.getD_eq_getElem?_getD, this, ← List.getD_eq_getElem?_getD]
        rw [List.mem_append, List.mem_singleton] at hk
        exact hI.hidden k (hk.resolve_right hkj)

theorem outputsAsked_split {pks : List Bytes} {j : Nat} {pk : Bytes} (hne : pk ≠ []) :
    (((pk :: pks).zipIdx j).filter fun x => x.1 ≠ []).map Prod.snd
      = j :: ((pks.zipIdx (j + 1)).filter fun x => x.1 ≠ []).map Prod.snd := by
  rw [List.zipIdx_cons, List.filter_cons, if_pos (by simpa using hne)]
  rfl

theorem OutInv.loop (hS : Sensible E Good Asset A tx) (hE : C.E = E) (hA : C.A = A)
    (hw : Works E.z Good Asset (A.ctExponent.getD 0) (A.ctBits.getD 52)) (hf : Formats E.z)
    {L : List Target} (hT : C.T = ⟨L.map Target.asset, L.map Target.gen, L.map Target.blinder⟩) (hL : IsCodedTargets E A tx L)
    (hsel : ∀ k j, (outputsAsked A)[k]? = some j →
      ∃ a h i, (tx.vout.getD j {}).nAsset = 1 :: a ∧ Asset a ∧ ¬ AllZero a ∧
        E.z.surjInit (L.map Target.asset).flatten L.length (min 3 L.length) a 100
          (A.rand ((issuancesAsked A tx).length + 4 * k + 3)) = some (h, i))
    (hN : C.nToBlind = (issuancesAsked A tx).length + (outputsAsked A).length)
    (hB : C.nBlindsIn = (A.descs.filter Desc.blinded).length) :
    ∀ (pks : List Bytes) (j : Nat) {s : BS} {dn : List Nat}, OutInv A tx (issuancesAsked A tx).length s dn →
      (∀ k pk, pks[k]? = some pk → A.pubkeys[j + k]? = some pk) → (∀ k ∈ dn, k < j) →
      dn ++ ((pks.zipIdx j).filter fun x => x.1 ≠ []).map Prod.snd = outputsAsked A →
      ∃ s', outputLoop C j pks s = (.ok (), s') ∧ OutInv A tx (issuancesAsked A tx).length s' (outputsAsked A)
  | [], j, s, dn, hI, _, _, hd => by
    refine ⟨s, BM.pure_ok.2 ⟨rfl, rfl⟩, ?_⟩
    rw [← hd]
    simpa using hI
  | pk :: pks, j, s, dn, hI, hp, hlt, hd => by
    have hp0 := hp 0 pk rfl
    have hps : ∀ k q, pks[k]? = some q → A.pubkeys[j + 1 + k]? = some q := by
      intro k q hq
      rw [show j + 1 + k = j + (k + 1) by omega]
      exact hp (k + 1) q (by simpa using hq)
    rw [outputLoop]
    unfold outputStep
    by_cases hne : pk = []
    · subst hne
      have hv : ¬ fullyValid C.E.z [] = true := by simp [fullyValid]
      rw [if_neg hv]
      obtain ⟨s', e, I⟩ := OutInv.loop hS hE hA hw hf hT hL hsel hN hB pks (j + 1) hI hps (fun k hk => by have := hlt k hk; omega) (by
        rw [← hd, List.zipIdx_cons, List.filter_cons, if_neg (by simp)])
      exact ⟨s', BM.bind_ok.2 ⟨(), s, BM.pure_ok.2 ⟨rfl, rfl⟩, e⟩, I⟩
    · rw [outputsAsked_split hne] at hd
      have hv : fullyValid C.E.z pk = true := by
        rw [fullyValid_iff, hE]
        exact ⟨hne, (hS.outputs j pk (by simpa using hp0) hne).1.pubkey⟩
      rw [if_pos hv]
      obtain ⟨s1, e1, I1⟩ := hI.step hS hE hA hw hf hT hL hsel hN hB (j := j) (pk := pk) (by simpa using hp0) hne
        (by rw [← hd]; simp) (fun hm => by have := hlt j hm; omega)
      obtain ⟨s2, e2, I2⟩ := OutInv.loop hS hE hA hw hf hT hL hsel hN hB pks (j + 1) I1 hps (fun k hk => by
        rcases List.mem_append.1 hk with hk | hk
        · have := hlt k hk; omega
        · rw [List.mem_singleton] at hk; omega) (by rw [← hd]; simp)
      exact ⟨s2, BM.bind_ok.2 ⟨(), s1, e1, e2⟩, I2⟩

theorem mem_outputsAsked {A : BlindArgs} {j : Nat} (h : A.pubkeys.getD j [] ≠ []) : j ∈ outputsAsked A := by
  rw [List.getD_eq_getElem?_getD] at h
  cases hx : A.pubkeys[j]? with
  | none => rw [hx] at h; exact absurd rfl h
  | some pk =>
    rw [hx] at h
    exact List.mem_map.2 ⟨(pk, j), List.mem_filter.2 ⟨List.mem_zipIdx_iff_getElem?.2 hx, by simpa using h⟩, rfl⟩

theorem issuancesAsked_keyed (A : BlindArgs) (tx : Tx) : issuancesAsked A tx = keyed A 0 tx.vin.length := by
  unfold issuancesAsked keyed
  rw [List.range_eq_range']
  simp only [issKeys_key]

theorem askedOutputs_len (A : BlindArgs) : askedOutputs A = (outputsAsked A).length := by
  unfold askedOutputs outputsAsked
  rw [List.length_map]
  have h : ∀ (l : List Bytes) (j : Nat), (l.filter (· ≠ [])).length = ((l.zipIdx j).filter fun x => x.1 ≠ []).length := by
    intro l
    induction l with
    | nil => intro j; rfl
    | cons x l ih =>
      intro j
      rw [List.zipIdx_cons, List.filter_cons, List.filter_cons]
      by_cases hx : x = []
      · rw [if_neg (by simpa using hx), if_neg (by simpa using hx)]
        exact ih _
      · rw [if_pos (by simpa using hx), if_pos (by simpa using hx), List.length_cons, List.length_cons, ih (j + 1)]
  exact h _ 0

theorem keyed_len (A : BlindArgs) : ∀ (l : List TxIn) (i : Nat),
    (∀ k txin token, l[k]? = some txin → (A.issuanceKey (i + k) token).isSome = true → txin.assetIssuance.isNull = false) →
    (keyed A i l.length).length = askedIssuances A.assetKeys l i + askedIssuances A.tokenKeys l i
  | [], i, _ => by simp [keyed, askedIssuances]
  | t :: l, i, h => by
    have ih := keyed_len A l (i + 1) (fun k txin token hk hs => h (k + 1) txin token (by simpa using hk) (by
      rwa [show i + (k + 1) = i + 1 + k by omega]))
    have h0 := h 0 t false rfl
    have h1 := h 0 t true rfl
    have k0 : keyAt (A.issKeys false) i = A.assetKeys.getD i none := issKeys_key A i false
    have k1 : keyAt (A.issKeys true) i = A.tokenKeys.getD i none := issKeys_key A i true
    rw [List.length_cons, keyed_succ, k0, k1]
    unfold askedIssuances at ih ⊢
    rw [List.zipIdx_cons, List.filter_cons, List.filter_cons]
    simp only [BlindArgs.issuanceKey, Nat.add_zero] at h0 h1
    rw [List.length_append, List.length_append, ih]
    have hx : ∀ K : List (Option Bytes), ((K.getD i none).isSome = true → t.assetIssuance.isNull = false) → ∀ token : Bool,
        (if (K.getD i none).isSome = true then [(i, token)] else []).length
          = (if (!t.assetIssuance.isNull && (K.getD i none).isSome) = true then 1 else 0) := by
      intro K hK token
      by_cases h : (K.getD i none).isSome = true
      · rw [if_pos h, if_pos (by rw [hK h, h]; rfl)]; rfl
      · rw [if_neg h, if_neg (fun e => h (Bool.and_eq_true _ _ ▸ e).2)]; rfl
    have hy : ∀ (c : Prop) [Decidable c] (x : TxIn × Nat) (r : List (TxIn × Nat)),
        (if c then x :: r else r).length = (if c then 1 else 0) + r.length := by
      intro c _ x r
      split <;> simp [Nat.add_comm]
    rw [hy, hy]
    dsimp only
    have e0 := hx A.assetKeys h0 false
    have e1 := hx A.tokenKeys h1 true
    omega

theorem Sensible.asked (hS : Sensible E Good Asset A tx) :
    asked A tx = (issuancesAsked A tx).length + (outputsAsked A).length := by
  rw [Verif.asked, askedOutputs_len, issuancesAsked_keyed, keyed_len]
  · omega
  · intro k txin token hk hs
    rw [Nat.zero_add] at hs
    obtain ⟨key, hkey⟩ := Option.isSome_iff_exists.1 hs
    obtain ⟨-, ⟨v, hv, -⟩, -⟩ := hS.issuances k txin token key hk hkey
    cases token <;> simp [TxIn.issued] at hv <;> simp [Issuance.isNull, confIsNull, hv]

/-- C73.  With a library that works and a request that makes sense, `blind()` succeeds and blinds
everything it was asked to, whether strict or not; every output asked for is hidden. -/
theorem C73_goes (hw : Works E.z Good Asset (A.ctExponent.getD 0) (A.ctBits.getD 52)) (hf : Formats E.z)
    (hS : Sensible E Good Asset A tx) :
    ∃ bfs abfs tx', blindTransaction E A tx = (.ok (.success (asked A tx) bfs abfs), tx') ∧
      ∀ j, A.pubkeys.getD j [] ≠ [] → IsValueCommitment (tx'.vout.getD j {}).nValue := by
  obtain ⟨L, hL, hsel⟩ := hS.assets
  have hT := (C40_targets E A tx hS.sizes _).2 ⟨L, hL, rfl⟩
  have hc := checks_ok.2 ⟨hS.lengths, hT, hS.inputs, fun j pk h1 h2 => (hS.outputs j pk h1 h2).1, rfl⟩
  unfold blindTransaction
  rw [hc]
  dsimp only
  have hN := hS.asked
  have hpos : 0 < (outputsAsked A).length := List.length_pos_iff.2 hS.output
  generalize hC : (⟨E, A, _, _, _⟩ : Ctx) = C
  have c1 : C.E = E := by rw [← hC]
  have c2 : C.A = A := by rw [← hC]
  have c3 : C.T = ⟨L.map Target.asset, L.map Target.gen, L.map Target.blinder⟩ := by rw [← hC]
  have c4 : C.nToBlind = (issuancesAsked A tx).length + (outputsAsked A).length := by rw [← hN, ← hC]
  have c5 : C.nBlindsIn = (A.descs.filter Desc.blinded).length := by rw [← hC]
  have hamt : ((A.descs.filter Desc.blinded).map Desc.amount).map (twos 8)
      = (A.descs.filter Desc.blinded).map fun d => d.amount.toNat := by
    rw [List.map_map]
    apply List.map_congr_left
    intro d hd
    obtain ⟨hd1, hd2⟩ := List.mem_filter.1 hd
    obtain ⟨i, hi⟩ := List.getElem?_of_mem hd1
    have hi' := (List.getElem?_eq_some_iff.1 hi).1
    have h0 := (hS.inputs i _ d (List.getElem?_eq_getElem (by rw [← hS.lengths.descs]; exact hi')) hi).amount hd2
    have h1 := (hS.descs d hd1).2
    unfold maxMoney at h1
    show (d.amount % ((256 ^ 8 : Nat) : Int)).toNat = _
    rw [Int.emod_eq_of_lt h0 (by norm_num at h1 ⊢; omega)]
  generalize hs0 : startState tx _ = s0
  have I0 : IssInv A tx s0 [] := by
    rw [← hs0]
    constructor
    · rfl
    · rfl
    · rfl
    · rfl
    · simp [startState]
    · simp [startState]
    · simpa [startState] using hamt
    · rfl
    · intro x _; rfl
  obtain ⟨s1, e1, I1⟩ := IssInv.loop hS c1 c2 hw hf (by rw [c4, issuancesAsked_keyed]; omega) tx.vin.length 0 I0 (by omega) rfl
  rw [← issuancesAsked_keyed] at I1
  have I2 : OutInv A tx (issuancesAsked A tx).length (padOut s1) [] := by
    constructor
    · simp [padOut, I1.attempts]
    · simp [padOut, I1.issAttempts]
    · simp [padOut, I1.rnd]
    · simp [padOut, I1.done]
    · have := congrArg List.length I1.amounts
      simp at this
      simp [padOut, I1.blinds, this]
    · intro _
      simp [padOut, I1.blinds, sumFactors, List.range_eq_range']
    · simp [padOut, I1.assetblinds, sumAssetFactors, List.range_eq_range']
    · simp [padOut, I1.amounts, sumAmounts]
    · intro j _
      simp [padOut, I1.vout]
    · intro j hj
      cases hj
  obtain ⟨s2, e2, I3⟩ := OutInv.loop hS c1 c2 hw hf c3 hL hsel c4 c5 A.pubkeys 0 I2 (fun k pk h => by simpa using h)
    (fun k hk => by cases hk) rfl
  have hrun : blindBody C tx.vin.length s0 = (.error (.ret (blindingResult C s2)), s2) := by
    unfold blindBody
    refine BM.bind_error.2 (.inr ⟨(), s1, e1, ?_⟩)
    refine BM.bind_error.2 (.inr ⟨(), padOut s1, BM.modifyTx_ok.2 rfl, ?_⟩)
    rw [c2]
    refine BM.bind_error.2 (.inr ⟨(), s2, e2, ?_⟩)
    exact BM.finish_error.2 ⟨rfl, rfl⟩
  rw [hrun]
  have hd : s2.done = C.nToBlind := by rw [I3.done, c4]
  refine ⟨s2.obf.map (·.getD zero32), s2.oabf.map (·.getD zero32), s2.tx, Prod.ext ?_ rfl, fun j hj => I3.hidden j (mem_outputsAsked hj)⟩
  simp only [endOf, blindingResult, hd, bne_self_eq_false, Bool.and_false, Bool.false_eq_true, if_false]
  rw [c4, hN]

end

namespace Toy

/-- Usable secrets of the toy library. -/
def Good (b : Bytes) : Prop := b.length = 32 ∧ ¬ AllZero b

theorem works (exp bits : Int) : Works zkp Good (fun _ => True) exp bits where
  secret _ h := h
  generator a r ha hr := by
    refine ⟨_, 10 :: (encGen ((num a + num r) % secpN)).drop 32, rfl, ?_⟩
    simp only [zkp]
    rw [genSer, if_pos (by simp [encGen])]
  commitment a r g b v _ _ _ _ := by
    refine ⟨_, 8 :: (encCom ((v * decPt g + num b) % secpN)).drop 32, rfl, ?_⟩
    simp [zkp, encCom]
  key k hk := ⟨by simpa [zkp] using hk.1, by simp [zkp, hk.1]⟩
  agree k pk _ _ := ⟨_, rfl⟩
  range a _ _ _ _ _ hb _ hm _ := by
    refine ⟨proofOf a, ?_⟩
    simp only [zkp]
    rw [if_pos (by simp [proofOf, hb.1, hm])]
  surjection L asset r gen seed h i hl hi _ _ _ := by
    have := initMatches (L.map Target.asset) (min 3 L.length) asset 100 seed h i (by
      intro x hx
      obtain ⟨t, ht, rfl⟩ := List.mem_map.1 hx
      exact (hl t ht).1) (by simpa using hi)
    rw [List.getElem?_map] at this
    obtain ⟨t, ht, rfl⟩ := Option.map_eq_some_iff.1 this
    have hh : h = [1] := by
      simp only [zkp, Option.map_eq_some_iff, Prod.mk.injEq] at hi
      obtain ⟨_, -, e, -⟩ := hi
      exact e.symm
    subst hh
    exact ⟨t, ht, rfl, fun _ _ => ⟨[1], [1], rfl, rfl, rfl, by decide⟩⟩

def goesArgs : BlindArgs := args fun k => b32 (k % 1000 + 5)
def goesTx : Tx := tx [(5, 3), (5, 5)] ⟨zero32, b32 7, amt 1, []⟩

end Toy

/-- A blinded input, an issued amount and two outputs to be blinded. -/
theorem goesSensible : Sensible Toy.env Toy.Good (fun _ => True) Toy.goesArgs Toy.goesTx := by
  have hs : ∀ txin ∈ Toy.goesTx.vin, InputSizes txin := by
    intro txin ht
    simp only [Toy.goesTx, Toy.tx, List.mem_cons, List.not_mem_nil, or_false] at ht
    subst ht
    exact ⟨by decide, by decide, by decide⟩
  constructor
  · exact ⟨by decide, by decide, by decide, by decide, by decide⟩
  · exact hs
  · intro d hd
    simp only [Toy.goesArgs, Toy.args, List.mem_cons, List.not_mem_nil, or_false] at hd
    subst hd
    exact ⟨⟨by decide, by decide, by decide⟩, by decide⟩
  · rintro (_ | i) txin d h1 h2
    · cases h1; cases h2
      exact ⟨by decide, fun _ _ _ => ⟨⟨_, rfl, by decide⟩, by decide⟩, fun k _ h => by cases h⟩
    · cases h1
  · rintro (_ | i) txin token key h1 h2
    · cases h1
      cases token
      · cases h2
        exact ⟨by decide, ⟨beBytes 8 1, rfl, by decide, by decide⟩, by decide⟩
      · cases h2
    · cases h1
  · rintro (_ | _ | j) pk h1 h2
    · cases h1
      exact ⟨⟨by decide, ⟨_, rfl, by decide⟩, ⟨_, rfl, by decide⟩, by decide, by decide⟩, by decide, by decide⟩
    · cases h1
      exact ⟨⟨by decide, ⟨_, rfl, by decide⟩, ⟨_, rfl, by decide⟩, by decide, by decide⟩, by decide, by decide⟩
    · cases h1
  · obtain ⟨T, hT, h5⟩ : ∃ T, surjTargets Toy.env Toy.goesArgs Toy.goesTx = .ok T ∧ T.targets.head? = some (Toy.b32 5) := by
      refine ⟨(match surjTargets Toy.env Toy.goesArgs Toy.goesTx with | .ok T => T | _ => ⟨[], [], []⟩), ?_, ?_⟩ <;> decide +kernel
    obtain ⟨L, hL, rfl⟩ := (C40_targets Toy.env Toy.goesArgs Toy.goesTx hs T).1 hT
    refine ⟨L, hL, ?_⟩
    obtain ⟨t, L', rfl⟩ : ∃ t L', L = t :: L' := by
      cases L with
      | nil => cases h5
      | cons t L' => exact ⟨t, L', rfl⟩
    have ht : t.asset = Toy.b32 5 := by simpa using h5
    have hi : ∀ seed, Toy.env.z.surjInit ((t :: L').map Target.asset).flatten (t :: L').length (min 3 (t :: L').length)
        (Toy.b32 5) 100 seed = some ([1], 0) := by
      intro seed
      show (Toy.findTag _ (L'.length + 1) _).map _ = _
      rw [Toy.findTag, if_pos]
      · rfl
      · rw [List.map_cons, List.flatten_cons, ht, List.take_left' (by decide)]
    rintro (_ | _ | k) j h
    · cases h
      exact ⟨Toy.b32 5, [1], 0, by decide, trivial, by decide, hi _⟩
    · cases h
      exact ⟨Toy.b32 5, [1], 0, by decide, trivial, by decide, hi _⟩
    · cases h
  · intro k
    have hv : beVal (Toy.b32 (k % 1000 + 5)) = k % 1000 + 5 := by
      unfold Toy.b32
      exact beVal_beBytes_of_lt (by have := Nat.mod_lt k (show 0 < 1000 by omega); norm_num; omega)
    show Toy.Good (Toy.b32 (k % 1000 + 5)) ∧ ∀ d ∈ Toy.goesArgs.descs, d.assetBlindingFactor ≠ Toy.b32 (k % 1000 + 5)
    refine ⟨⟨by simp [Toy.b32], fun h0 => ?_⟩, ?_⟩
    · have : Toy.b32 (k % 1000 + 5) = List.replicate 32 0 := List.eq_replicate_iff.2 ⟨by simp [Toy.b32], h0⟩
      rw [this] at hv
      have h : beVal (List.replicate 32 0) = 0 := by decide
      omega
    · intro d hd e
      simp only [Toy.goesArgs, Toy.args, List.mem_cons, List.not_mem_nil, or_false] at hd
      subst hd
      have e : Toy.b32 4 = Toy.b32 (k % 1000 + 5) := e
      rw [← e] at hv
      have h : beVal (Toy.b32 4) = 4 := by decide
      omega
  · decide
  · decide
  · exact ⟨_, rfl, by decide +kernel, by decide +kernel⟩

example : ∃ bfs abfs tx', blindTransaction Toy.env Toy.goesArgs Toy.goesTx = (.ok (.success 3 bfs abfs), tx') ∧
    ∀ j, Toy.goesArgs.pubkeys.getD j [] ≠ [] → IsValueCommitment (tx'.vout.getD j {}).nValue :=
  C73_goes (Toy.works _ _) Toy.formats goesSensible

end Verif
