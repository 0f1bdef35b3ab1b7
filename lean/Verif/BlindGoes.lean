import Verif.BlindFacts
import Verif.Spec.BlindGoes
import Verif.Props.BlindDone
import Verif.Props.TargetsCoded
import Verif.Props.Balance
import Verif.Props.Buffers
/-
Steps of blinding that go through.
-/
namespace Verif

/-! ### One output -/

theorem commitOutput_run {C : Ctx} {j pk script amount asset blind assetblind} {s : BS} {ca gen cv com nonce eph proof p : Bytes}
    (h1 : blindedAsset C.E.z asset assetblind = .ok (ca, gen))
    (h2 : createValueCommitment C.E.z blind gen amount = .ok (cv, com))
    (h3 : outputNonce C.E pk (C.A.rand s.rnd) = .ok (nonce, eph))
    (h4 : generateRangeproof C.E.z C.A.ctExponent C.A.ctBits blind nonce amount script com gen asset assetblind = .ok proof)
    (h5 : surjectionProof C.E.z C.T.targets C.T.gens C.T.blinders assetblind gen asset (C.A.rand (s.rnd + 1)) = .ok (some p))
    (h6 : p ≠ []) : commitOutput C j pk script amount asset blind assetblind s = (.ok (), { s with
        tx := setOutWit j (fun _ => { rangeproof := proof, surjectionproof := p })
              (setOut j (fun o => { o with nAsset := ca, nValue := cv, nNonce := eph }) s.tx)
        done := s.done + 1
        rnd := s.rnd + 2
        obf := s.obf.set j (some blind)
        oabf := s.oabf.set j (some assetblind) }) := by
  have hl : eph.length = 33 := (outputNonce_ok.1 h3).2.2.2.1
  unfold commitOutput
  refine BM.bind_ok.2 ⟨(), _, BM.modify_ok.2 rfl, ?_⟩
  refine BM.bind_ok.2 ⟨(ca, gen), _, BM.lift_ok.2 ⟨h1, rfl⟩, ?_⟩
  refine BM.bind_ok.2 ⟨(), _, BM.modifyTx_ok.2 rfl, ?_⟩
  refine BM.bind_ok.2 ⟨(cv, com), _, BM.lift_ok.2 ⟨h2, rfl⟩, ?_⟩
  refine BM.bind_ok.2 ⟨(), _, BM.modifyTx_ok.2 rfl, ?_⟩
  refine BM.bind_ok.2 ⟨_, _, BM.rand_ok.2 ⟨rfl, rfl⟩, ?_⟩
  refine BM.bind_ok.2 ⟨(nonce, eph), _, BM.lift_ok.2 ⟨h3, rfl⟩, ?_⟩
  refine BM.bind_ok.2 ⟨eph, _, BM.lift_ok.2 ⟨?_, rfl⟩, ?_⟩
  · simp [confNew, hl, committedSize]
  refine BM.bind_ok.2 ⟨(), _, BM.modifyTx_ok.2 rfl, ?_⟩
  refine BM.bind_ok.2 ⟨proof, _, BM.lift_ok.2 ⟨h4, rfl⟩, ?_⟩
  refine BM.bind_ok.2 ⟨_, _, BM.rand_ok.2 ⟨rfl, rfl⟩, ?_⟩
  refine BM.bind_ok.2 ⟨some p, _, BM.lift_ok.2 ⟨h5, rfl⟩, ?_⟩
  dsimp only
  rw [if_neg (by simpa using h6)]
  refine BM.bind_ok.2 ⟨(), _, BM.modifyTx_ok.2 rfl, ?_⟩
  refine BM.modify_ok.2 ?_
  simp only [setOut, setOutWit, List.modify_modify_eq]
  rfl

theorem balanceIfLast_run {C : Ctx} {s : BS} {amount : Int} {b : Bytes}
    (h : Chosen C (s.attempts + 1) s.issAttempts (s.amounts ++ [amount]) (s.assetblinds ++ [C.A.rand (s.rnd + 1)]) s.blinds
      (C.A.rand s.rnd) b) :
    balanceIfLast C (preBalance C s amount) = (.ok (), { preBalance C s amount with blinds := s.blinds ++ [b] }) := by
  unfold balanceIfLast
  refine BM.bind_ok.2 ⟨_, _, BM.get_ok.2 ⟨rfl, rfl⟩, ?_⟩
  cases h with
  | random h =>
    rw [if_neg (show ¬ (preBalance C s amount).attempts = C.nToBlind from h)]
    exact BM.pure_ok.2 ⟨rfl, rfl⟩
  | balancing _ h1 h2 h3 h4 h5 h6 =>
    rw [if_pos (show (preBalance C s amount).attempts = C.nToBlind from h1)]
    unfold balance
    refine BM.bind_ok.2 ⟨_, _, BM.get_ok.2 ⟨rfl, rfl⟩, ?_⟩
    rw [if_neg (show ¬ ((preBalance C s amount).attempts = 1 ∧ C.nBlindsIn = 0) from h2)]
    rw [if_neg (show ¬ (preBalance C s amount).blinds.length ≠ (preBalance C s amount).attempts + C.nBlindsIn from
      not_not.2 (by simp [preBalance]; omega))]
    rw [if_neg (show ¬ (preBalance C s amount).amounts.length ≠ (preBalance C s amount).blinds.length from
      not_not.2 (by simp [preBalance] at h4 ⊢; omega))]
    refine BM.bind_ok.2 ⟨b, _, BM.lift_ok.2 ⟨orRuntime_ok.2 h5, rfl⟩, ?_⟩
    refine BM.bind_ok.2 ⟨(), _, BM.modify_ok.2 rfl, ?_⟩
    rw [if_neg h6]
    refine BM.pure_ok.2 ⟨rfl, ?_⟩
    simp [preBalance]

theorem outputBlind_run {C : Ctx} {s : BS} {d : OutData} {p : Bytes} (hm : d.Made C) (hc : d.Chose C s)
    (ho : d.out = s.tx.vout.getD d.j {}) (hs : d.surj = some p) (hl : (C.A.rand s.rnd).length = 32) :
    outputBlind C d.j d.pk s = (.ok (), d.after s) := by
  obtain ⟨c1, c2, c3, c4⟩ := hc
  have hl2 := hm.assetblind_len
  unfold outputBlind
  refine BM.bind_ok.2 ⟨(), _, BM.modify_ok.2 rfl, ?_⟩
  refine BM.bind_ok.2 ⟨_, _, BM.get_ok.2 ⟨rfl, rfl⟩, ?_⟩
  dsimp only
  rw [← ho]
  refine BM.bind_ok.2 ⟨_, _, BM.lift_ok.2 ⟨hm.amount, rfl⟩, ?_⟩
  refine BM.bind_ok.2 ⟨_, _, BM.lift_ok.2 ⟨hm.asset, rfl⟩, ?_⟩
  refine BM.bind_ok.2 ⟨(), _, BM.modify_ok.2 rfl, ?_⟩
  refine BM.bind_ok.2 ⟨_, _, BM.rand_ok.2 ⟨rfl, rfl⟩, ?_⟩
  refine BM.bind_ok.2 ⟨_, _, BM.lift_ok.2 ⟨uint256New_ok.2 ⟨hl, rfl⟩, rfl⟩, ?_⟩
  refine BM.bind_ok.2 ⟨(), _, BM.modify_ok.2 rfl, ?_⟩
  refine BM.bind_ok.2 ⟨_, _, BM.rand_ok.2 ⟨rfl, rfl⟩, ?_⟩
  refine BM.bind_ok.2 ⟨_, _, BM.lift_ok.2 ⟨uint256New_ok.2 ⟨by rw [c2] at hl2; exact hl2, rfl⟩, rfl⟩, ?_⟩
  refine BM.bind_ok.2 ⟨(), _, BM.modify_ok.2 rfl, ?_⟩
  rw [c2] at c1
  refine BM.bind_ok.2 ⟨(), _, balanceIfLast_run c1, ?_⟩
  refine BM.bind_ok.2 ⟨_, _, BM.get_ok.2 ⟨rfl, rfl⟩, ?_⟩
  simp only [preBalance, List.getLastD_concat]
  rw [← c2]
  have h3 := hm.nonce
  rw [c3] at h3
  refine (commitOutput_run hm.blindedAsset hm.commit h3 hm.proof (c4 p hs) (hm.surj p hs).1).trans ?_
  simp only [OutData.after, OutData.newTx, hs, c2]
  rfl

/-! ### One issuance -/

theorem issuancePseudo_run {C : Ctx} {s : BS} {d : IssData} (hm : d.Made C) (hn : s.attempts + 1 ≠ C.nToBlind)
    (ht : d.txin = s.tx.vin.getD d.i default) (hb : d.blind = C.A.rand s.rnd) :
    issuancePseudo C d.i d.token d.key s = (.ok (), d.after s) := by
  obtain ⟨m1, m2, m3, m4, m5, m6, m7, m8⟩ := hm
  unfold issuancePseudo
  refine BM.bind_ok.2 ⟨(), _, BM.modify_ok.2 rfl, ?_⟩
  refine BM.bind_ok.2 ⟨_, _, BM.get_ok.2 ⟨rfl, rfl⟩, ?_⟩
  dsimp only
  rw [← ht]
  change (if confIsNull (d.txin.assetIssuance.val d.token) = true then _ else _ : BM Unit) _ = _
  rw [if_neg m1]
  refine BM.bind_ok.2 ⟨d.amount, _, BM.lift_ok.2 ⟨m2, rfl⟩, ?_⟩
  refine BM.bind_ok.2 ⟨(), _, BM.modify_ok.2 rfl, ?_⟩
  refine BM.bind_ok.2 ⟨_, _, BM.lift_ok.2 ⟨m3, rfl⟩, ?_⟩
  dsimp only
  refine BM.bind_ok.2 ⟨_, _, BM.rand_ok.2 ⟨rfl, rfl⟩, ?_⟩
  dsimp only
  rw [← hb]
  refine BM.bind_ok.2 ⟨_, _, BM.lift_ok.2 ⟨uint256New_ok.2 ⟨m8, rfl⟩, rfl⟩, ?_⟩
  refine BM.bind_ok.2 ⟨(), _, BM.modify_ok.2 rfl, ?_⟩
  refine BM.bind_ok.2 ⟨_, _, BM.get_ok.2 ⟨rfl, rfl⟩, ?_⟩
  dsimp only
  rw [if_neg hn]
  unfold blindPseudo
  refine BM.bind_ok.2 ⟨(), _, BM.modifyTx_ok.2 rfl, ?_⟩
  refine BM.bind_ok.2 ⟨(d.confAsset, d.gen), _, BM.lift_ok.2 ⟨m4, rfl⟩, ?_⟩
  refine BM.bind_ok.2 ⟨(d.confValue, d.commit), _, BM.lift_ok.2 ⟨m5, rfl⟩, ?_⟩
  refine BM.bind_ok.2 ⟨_, _, BM.get_ok.2 ⟨rfl, rfl⟩, ?_⟩
  refine BM.bind_ok.2 ⟨(), _, BM.modifyTx_ok.2 rfl, ?_⟩
  refine BM.bind_ok.2 ⟨_, _, BM.lift_ok.2 ⟨uint256New_ok.2 ⟨m6, rfl⟩, rfl⟩, ?_⟩
  refine BM.bind_ok.2 ⟨_, _, BM.lift_ok.2 ⟨m7, rfl⟩, ?_⟩
  refine BM.bind_ok.2 ⟨(), _, BM.modifyTx_ok.2 rfl, ?_⟩
  refine BM.modify_ok.2 ?_
  simp only [← ht]
  rfl

/-! ### Records of what works -/

theorem blindedAsset_goes {z : Zkp} (hf : Formats z) {a r g s : Bytes} (h1 : z.generateBlinded a r = some g)
    (h2 : z.genSerialize g = some s) : blindedAsset z a r = .ok (s, g) := by
  refine blindedAsset_ok.2 ⟨h1, h2, ?_⟩
  have hl := z.genSerialize_len _ _ h2
  have hp := hf.genPrefix _ _ h2
  have : confIsCommitment assetKind s = true := by
    rw [assetCommitment_iff]
    cases s with
    | nil => simp at hl
    | cons x t =>
      refine ⟨t, ?_, by simpa using hl⟩
      rcases hp with hp | hp <;> (cases hp; simp)
  simp [confIsValid, this]

theorem createValueCommitment_goes {z : Zkp} (hf : Formats z) {b g c s : Bytes} {amount : Int}
    (h1 : z.commit b (twos 8 amount) g = some c) (h2 : z.commitSerialize c = some s) :
    createValueCommitment z b g amount = .ok (s, c) := by
  refine createValueCommitment_ok.2 ⟨h1, h2, ?_⟩
  have hl := z.commitSerialize_len _ _ h2
  have hp := hf.comPrefix _ _ h2
  have : confIsCommitment valueKind s = true := by
    rw [valueCommitment_iff]
    cases s with
    | nil => simp at hl
    | cons x t =>
      refine ⟨t, ?_, by simpa using hl⟩
      rcases hp with hp | hp <;> (cases hp; simp)
  simp [confIsValid, this]

theorem flatten_len {l : List Bytes} {n : Nat} (h : ∀ x ∈ l, x.length = n) : l.flatten.length = n * l.length := by
  induction l with
  | nil => simp
  | cons x l ih =>
    rw [List.flatten_cons, List.length_append, h x (List.mem_cons_self ..), ih fun y hy => h y (List.mem_cons_of_mem _ hy)]
    rw [List.length_cons, Nat.mul_add, Nat.mul_one, Nat.add_comm]

theorem buildAligned_goes {l : List Bytes} {n : Nat} (h : ∀ x ∈ l, x.length = n) (hn : n = 32 ∨ n = 64) :
    buildAligned l n = .ok l.flatten := by
  unfold buildAligned
  rw [flatten_len h]
  rcases hn with rfl | rfl <;> simp

theorem surjectionProof_goes {z : Zkp} {L : List Target} {assetblind gen asset seed h h' p : Bytes} {i : Nat} {t : Target}
    (hs : ∀ t ∈ L, t.asset.length = 32 ∧ t.gen.length = 64)
    (h1 : z.surjInit (L.map Target.asset).flatten L.length (min 3 L.length) asset 100 seed = some (h, i)) (h2 : L[i]? = some t)
    (h3 : z.surjGenerate h (L.map Target.gen).flatten L.length gen i t.blinder assetblind = some h')
    (h4 : z.surjVerify h' (L.map Target.gen).flatten L.length gen = true) (h5 : z.surjSerialize h' = some p) :
    surjectionProof z (L.map Target.asset) (L.map Target.gen) (L.map Target.blinder) assetblind gen asset seed = .ok (some p) := by
  unfold surjectionProof
  refine exc_bind_ok.2 ⟨_, buildAligned_goes (fun x hx => ?_) (.inl rfl), ?_⟩
  · obtain ⟨t, ht, rfl⟩ := List.mem_map.1 hx
    exact (hs t ht).1
  simp only [List.length_map, h1]
  refine exc_bind_ok.2 ⟨_, buildAligned_goes (fun x hx => ?_) (.inr rfl), ?_⟩
  · obtain ⟨t, ht, rfl⟩ := List.mem_map.1 hx
    exact (hs t ht).2
  simp only [List.getElem?_map, h2, Option.map_some]
  refine exc_bind_ok.2 ⟨_, orRuntime_ok.2 h3, ?_⟩
  simp [h4, h5]
  rfl

/-- What is known of every target. -/
theorem coded_target {E : Env} {A : BlindArgs} {tx : Tx} {L : List Target} (h : IsCodedTargets E A tx L)
    (hd : ∀ d ∈ A.descs, DescSizes d) (hl : A.descs.length = tx.vin.length) {t : Target} (ht : t ∈ L) :
    t.asset.length = 32 ∧ t.gen.length = 64 ∧ (AllZero t.asset ∨ KnownTarget E.z t) ∧
      (t.blinder = List.replicate 32 0 ∨ ∃ d ∈ A.descs, t.blinder = d.assetBlindingFactor) := by
  obtain ⟨Ls, L2, h1, h2, h3, rfl⟩ := h
  rcases List.mem_append.1 ht with ht | ht
  · obtain ⟨l, hl1, ht⟩ := List.mem_flatten.1 ht
    obtain ⟨i, hi⟩ := List.getElem?_of_mem hl1
    have hi' : i < Ls.length := (List.getElem?_eq_some_iff.1 hi).1
    rw [h1, List.length_zip] at hi'
    have g1 : tx.vin[i]? = some tx.vin[i] := List.getElem?_eq_getElem (by omega)
    have g2 : A.descs[i]? = some A.descs[i] := List.getElem?_eq_getElem (by omega)
    have hmem : A.descs[i] ∈ A.descs := List.getElem_mem _
    obtain ⟨⟨t0, l1, l2, rfl, k1, k2, k3⟩, -, -⟩ := h2 i _ _ l g1 g2 hi
    have issued : ∀ {id amount : Bytes} {l : List Target}, id.length = 32 → IssuedTarget E.z id amount l → t ∈ l →
        t.asset.length = 32 ∧ t.gen.length = 64 ∧ (AllZero t.asset ∨ KnownTarget E.z t) ∧
          (t.blinder = List.replicate 32 0 ∨ ∃ d ∈ A.descs, t.blinder = d.assetBlindingFactor) := by
      intro id amount l hid h ht
      cases h with
      | none => cases ht
      | some g _ hg =>
        rw [List.mem_singleton] at ht
        subst ht
        exact ⟨hid, E.z.generate_len _ _ hg, .inr (.plain _ _ hg), .inl rfl⟩
    rcases List.mem_cons.1 ht with rfl | ht
    · have hs := hd _ hmem
      cases k1 with
      | own g _ hg => exact ⟨hs.asset, E.z.generateBlinded_len _ _ _ hg, .inr (.blinded _ _ _ hg), .inr ⟨_, hmem, rfl⟩⟩
      | foreign ag g hz _ hg => exact ⟨hs.asset, E.z.genParse_len _ _ hg, .inl hz, .inr ⟨_, hmem, rfl⟩⟩
    · rcases List.mem_append.1 ht with ht | ht
      · exact issued (E.m.len _) k2 ht
      · rcases k3 with ⟨-, rfl⟩ | ⟨id, ⟨_, _, _, _, _, rfl, _⟩, -, k4⟩
        · cases ht
        · exact issued (E.m.len _) k4 ht
  · generalize A.auxGens.drop tx.vin.length = ags at h3
    clear h1 h2 hl ‹t ∈ _ ++ _›
    induction h3 with
    | nil => cases ht
    | cons hg _ ih =>
      rcases List.mem_cons.1 ht with rfl | ht
      · exact ⟨by simp, E.z.genParse_len _ _ hg, .inl (by intro x hx; exact (List.mem_replicate.1 hx).2), .inl rfl⟩
      · exact ih ht

theorem out_exists {C : Ctx} {Good Asset : Bytes → Prop} {L : List Target}
    (hw : Works C.E.z Good Asset (C.A.ctExponent.getD 0) (C.A.ctBits.getD 52)) (hf : Formats C.E.z)
    (hT : C.T = ⟨L.map Target.asset, L.map Target.gen, L.map Target.blinder⟩)
    (hL : ∀ t ∈ L, t.asset.length = 32 ∧ t.gen.length = 64 ∧ (AllZero t.asset ∨ KnownTarget C.E.z t) ∧
      (t.blinder = List.replicate 32 0 ∨ ∃ d ∈ C.A.descs, t.blinder = d.assetBlindingFactor))
    (j : Nat) {pk : Bytes} {out : TxOut} {v a blind assetblind seed sseed h : Bytes} {i : Nat}
    (hv : out.nValue = 1 :: v) (hvl : v.length = 8) (hvm : beVal v ≤ maxMoney)
    (hmin : ¬ Unspendable out.scriptPubKey → 1 ≤ beVal v) (ha : out.nAsset = 1 :: a) (hal : a.length = 32)
    (hA : Asset a) (hz : ¬ AllZero a) (hb : Good blind) (hab : Good assetblind) (hse : Good seed)
    (hfresh : ∀ d ∈ C.A.descs, d.assetBlindingFactor ≠ assetblind) (hpk : C.E.z.pubValid pk = true)
    (hi : C.E.z.surjInit (L.map Target.asset).flatten L.length (min 3 L.length) a 100 sseed = some (h, i)) :
    ∃ (d : OutData) (p : Bytes), d.Made C ∧ d.j = j ∧ d.pk = pk ∧ d.out = out ∧ d.amount = untwos 8 (beVal v) ∧ d.blind = blind ∧
      d.assetblind = assetblind ∧ d.seed = seed ∧ d.surj = some p ∧
      surjectionProof C.E.z C.T.targets C.T.gens C.T.blinders d.assetblind d.gen d.asset sseed = .ok (some p) := by
  have ht : twos 8 (untwos 8 (beVal v)) = beVal v := by
    apply twos_untwos
    have := beVal_lt v
    rw [hvl] at this
    exact this
  obtain ⟨g, gs, hg, hgs⟩ := hw.generator a assetblind hal (.inl ⟨hA, hab⟩)
  obtain ⟨c, cs, hc, hcs⟩ := hw.commitment a assetblind g blind (beVal v) hg (.inl ⟨hA, hab⟩) hb hvm
  obtain ⟨k1, k2⟩ := hw.key seed hse
  obtain ⟨x, hx⟩ := hw.agree seed pk hse hpk
  rw [← ht] at hc
  have hun : isUnspendable out.scriptPubKey = true ↔ Unspendable out.scriptPubKey := by
    rw [C21_unspendable]
    unfold Unspendable
    cases out.scriptPubKey <;> simp
  obtain ⟨p, hp⟩ := hw.range (rangeproofArgs C.A.ctExponent C.A.ctBits blind (C.E.h.fn x) (untwos 8 (beVal v)) out.scriptPubKey c g a
    assetblind) rfl rfl (by show (if isUnspendable out.scriptPubKey then 0 else 1) ≤ 1; split <;> omega)
    (by
      show (if isUnspendable out.scriptPubKey then 0 else 1) ≤ twos 8 _
      rw [ht]
      split
      · omega
      · rename_i hu
        exact hmin fun h => hu (hun.2 h)) (by show twos 8 _ ≤ _; rw [ht]; exact hvm) hb (C.E.h.len _)
    (by show (a ++ assetblind).length = 64; simp [hal, (hw.secret _ hab).1]) hc
  obtain ⟨t, ht1, ht2, ht3⟩ := hw.surjection L a assetblind g sseed h i (fun t ht => ⟨(hL t ht).1, (hL t ht).2.1⟩) hi hA hab hg
  have hmem := List.mem_of_getElem? ht1
  obtain ⟨-, -, hk, hbl⟩ := hL t hmem
  obtain ⟨h', sp, s1, s2, s3, s4⟩ := ht3 (hk.resolve_left fun e => hz (ht2 ▸ e)) (by
    rcases hbl with e | ⟨d, hd, e⟩
    · intro e'
      apply (hw.secret _ hab).2
      rw [← e', e]
      intro x hx
      exact (List.mem_replicate.1 hx).2
    · rw [e]; exact hfresh d hd)
  have hsp : surjectionProof C.E.z C.T.targets C.T.gens C.T.blinders assetblind g a sseed = .ok (some sp) := by
    rw [hT]
    exact surjectionProof_goes (fun t ht => ⟨(hL t ht).1, (hL t ht).2.1⟩) hi ht1 s1 s2 s3
  refine ⟨⟨j, pk, out, untwos 8 (beVal v), a, blind, assetblind, gs, g, cs, c, seed, C.E.h.fn x, C.E.z.pubOf seed, p, some sp⟩, sp,
    ⟨?_, ?_, blindedAsset_goes hf hg hgs, createValueCommitment_goes hf hc hcs, ?_, ?_, ?_, (hw.secret _ hb).1, (hw.secret _ hab).1⟩,
    rfl, rfl, rfl, rfl, rfl, rfl, rfl, rfl, hsp⟩
  · dsimp only
    rw [valueToAmount, if_pos (explicitValue_iff.2 ⟨v, hv, hvl⟩), hv]
    rfl
  · dsimp only
    rw [assetToAsset, if_pos (explicitAsset_iff.2 ⟨a, ha, hal⟩), ha, assetNew]
    simp [hal]
  · exact outputNonce_ok.2 ⟨(hw.secret _ hse).1, k1, rfl, k2, x, hx, rfl⟩
  · exact generateRangeproof_ok.2 ⟨C.E.z.commit_len _ _ _ _ hc, C.E.z.generateBlinded_len _ _ _ hg, hp⟩
  · intro q hq
    cases hq
    exact ⟨s4, _, hsp⟩

theorem pseudoAsset_goes {E : Env} {txin : TxIn} {token : Bool} (hs : InputSizes txin)
    (ht : token = true → AllZero txin.assetIssuance.assetBlindingNonce) :
    ∃ a, pseudoAsset E txin token = .ok (some a) ∧ a.length = 32 := by
  have : ∃ a, pseudoAsset E txin token = .ok (some a) := by
    unfold pseudoAsset
    by_cases hz : AllZero txin.assetIssuance.assetBlindingNonce
    · rw [if_pos (isNull32_iff.2 hz), entropy_eq hs hz]
      have hlen := issuanceEntropy_len (E := E) hs
      cases token <;>
        simp [calculateAsset, calculateReissuanceToken, bind, Except.bind, hlen, pure, Except.pure]
    · rw [if_neg (fun h => hz (isNull32_iff.1 h))]
      cases token
      · simp [calculateAsset, hs.entropy, bind, Except.bind, pure, Except.pure]
      · exact absurd (ht rfl) hz
  obtain ⟨a, h⟩ := this
  exact ⟨a, h, pseudoAsset_len h⟩

theorem iss_exists {C : Ctx} {Good Asset : Bytes → Prop}
    (hw : Works C.E.z Good Asset (C.A.ctExponent.getD 0) (C.A.ctBits.getD 52)) (hf : Formats C.E.z)
    (i : Nat) {token : Bool} {key v blind : Bytes} {txin : TxIn} (hs : InputSizes txin)
    (ht : token = true → AllZero txin.assetIssuance.assetBlindingNonce) (hk : key.length = 32)
    (hv : txin.assetIssuance.val token = 1 :: v) (hvl : v.length = 8) (hvm : beVal v ≤ maxMoney) (hb : Good blind) :
    ∃ d : IssData, d.Made C ∧ d.i = i ∧ d.token = token ∧ d.key = key ∧ d.txin = txin ∧ d.amount = untwos 8 (beVal v) ∧ d.blind = blind := by
  have htw : twos 8 (untwos 8 (beVal v)) = beVal v := by
    apply twos_untwos
    have := beVal_lt v
    rw [hvl] at this
    exact this
  obtain ⟨a, ha, hal⟩ := pseudoAsset_goes (E := C.E) hs ht
  obtain ⟨g, gs, hg, hgs⟩ := hw.generator a zero32 hal (.inr rfl)
  obtain ⟨c, cs, hc, hcs⟩ := hw.commitment a zero32 g blind (beVal v) hg (.inr rfl) hb hvm
  rw [← htw] at hc
  obtain ⟨p, hp⟩ := hw.range (rangeproofArgs C.A.ctExponent C.A.ctBits blind key (untwos 8 (beVal v)) [] c g a zero32) rfl rfl
    (by show (if isUnspendable [] then 0 else 1) ≤ 1; decide) (by show (if isUnspendable [] then 0 else 1) ≤ _; exact Nat.zero_le _)
    (by show twos 8 _ ≤ _; rw [htw]; exact hvm) hb hk (by show (a ++ zero32).length = 64; simp [hal, zero32]) hc
  refine ⟨⟨i, token, key, txin, untwos 8 (beVal v), a, blind, gs, g, cs, c, p⟩, ⟨?_, ?_, ha, blindedAsset_goes hf hg hgs,
    createValueCommitment_goes hf hc hcs, hk, ?_, (hw.secret _ hb).1⟩, rfl, rfl, rfl, rfl, rfl, rfl⟩
  · dsimp only
    rw [hv]
    simp [confIsNull]
  · dsimp only
    rw [valueToAmount, if_pos (explicitValue_iff.2 ⟨v, hv, hvl⟩), hv]
    rfl
  · exact generateRangeproof_ok.2 ⟨C.E.z.commit_len _ _ _ _ hc, C.E.z.generateBlinded_len _ _ _ hg, hp⟩

end Verif
