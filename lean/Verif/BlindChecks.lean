import Verif.Spec.Blind
import Verif.BlindLemmas
/-
What the checks before blinding establish.
-/
namespace Verif

theorem explicitValue_iff {c : Bytes} : confIsExplicit valueKind c = true ↔ IsExplicitValue c := by
  unfold confIsExplicit IsExplicitValue valueKind
  cases c with
  | nil => simp
  | cons x t => simp; constructor <;> (rintro ⟨h1, h2⟩; simp_all)

theorem explicitAsset_iff {c : Bytes} : confIsExplicit assetKind c = true ↔ IsExplicitAsset c := by
  unfold confIsExplicit IsExplicitAsset assetKind
  cases c with
  | nil => simp
  | cons x t => simp; constructor <;> (rintro ⟨h1, h2⟩; simp_all)

theorem valueCommitment_iff {c : Bytes} : confIsCommitment valueKind c = true ↔ IsValueCommitment c := by
  unfold confIsCommitment IsValueCommitment valueKind committedSize
  cases c with
  | nil => simp
  | cons x t =>
    simp
    constructor
    · rintro ⟨h1, h2⟩; exact ⟨t, by rcases h2 with rfl | rfl <;> simp, h1⟩
    · rintro ⟨b, ⟨rfl, rfl⟩ | ⟨rfl, rfl⟩, h⟩ <;> simp [h]

theorem assetCommitment_iff {c : Bytes} : confIsCommitment assetKind c = true ↔ IsAssetCommitment c := by
  unfold confIsCommitment IsAssetCommitment assetKind committedSize
  cases c with
  | nil => simp
  | cons x t =>
    simp
    constructor
    · rintro ⟨h1, h2⟩; exact ⟨t, by rcases h2 with rfl | rfl <;> simp, h1⟩
    · rintro ⟨b, ⟨rfl, rfl⟩ | ⟨rfl, rfl⟩, h⟩ <;> simp [h]

theorem fullyValid_iff {z : Zkp} {pk : Bytes} : fullyValid z pk = true ↔ pk ≠ [] ∧ z.pubValid pk = true := by
  simp [fullyValid]

theorem keyAt_getD (ks : List (Option Bytes)) (i : Nat) : keyAt ks i = ks.getD i none := by
  unfold keyAt
  rw [List.getD_eq_getElem?_getD]
  cases ks[i]? <;> rfl

theorem keyAt_eq_some {ks : List (Option Bytes)} {i k} : keyAt ks i = some k ↔ ks[i]? = some (some k) := by
  unfold keyAt
  cases ks[i]? with
  | none => simp
  | some o => cases o <;> simp

theorem outWit_null {t : Tx} {j : Nat} :
    (t.wit.vtxoutwit[j]?).any (fun w => !w.isNull) = false ↔ t.outWit j = {} := by
  unfold Tx.outWit
  cases t.wit.vtxoutwit[j]? with
  | none => simp
  | some w =>
    obtain ⟨a, b⟩ := w
    simp [TxOutWitness.isNull]

theorem blindable_iff {z : Zkp} {tx : Tx} {j : Nat} {pk : Bytes} (hpk : pk ≠ []) :
    Blindable z tx j pk ↔ fullyValid z pk = true ∧ confIsExplicit valueKind (tx.vout.getD j {}).nValue = true ∧
      confIsExplicit assetKind (tx.vout.getD j {}).nAsset = true ∧
      (tx.wit.vtxoutwit[j]?).any (fun w => !w.isNull) = false ∧ (tx.vout.getD j {}).isFee = false := by
  rw [fullyValid_iff, explicitValue_iff, explicitAsset_iff, outWit_null]
  constructor
  · rintro ⟨h1, h2, h3, h4, h5⟩
    refine ⟨⟨hpk, h1⟩, h2, h3, h4, ?_⟩
    simp only [TxOut.isFee, Bool.and_eq_false_iff]
    left; left
    simpa using h5
  · rintro ⟨⟨_, h1⟩, h2, h3, h4, h5⟩
    refine ⟨h1, h2, h3, h4, ?_⟩
    intro hs
    have e1 := explicitValue_iff.2 h2
    have e2 := explicitAsset_iff.2 h3
    simp only [TxOut.isFee, hs, e1, e2] at h5
    simp at h5

theorem countOutput_ok {z : Zkp} {tx : Tx} {j : Nat} {pk : Bytes} {c c' : Counts} :
    countOutput z j pk (tx.vout.getD j {}) tx.wit.vtxoutwit[j]? c = .ok c' ↔
      (pk = [] ∧ c' = c) ∨ (pk ≠ [] ∧ Blindable z tx j pk ∧ c' = { c with nToBlind := c.nToBlind + 1 }) := by
  unfold countOutput
  by_cases hpk : pk = []
  · simp [hpk, eq_comm]
  · have hl : ¬ pk.length = 0 := by simpa using hpk
    rw [if_neg hl, blindable_iff hpk]
    generalize tx.vout.getD j {} = out
    generalize Option.any _ _ = w
    generalize fullyValid z pk = f
    generalize confIsExplicit valueKind out.nValue = v
    generalize confIsExplicit assetKind out.nAsset = a
    generalize out.isFee = e
    cases f <;> cases v <;> cases a <;> cases w <;> cases e <;> simp [hpk]
    exact eq_comm

theorem countOutputs_ok {z : Zkp} {tx : Tx} : ∀ {pks : List Bytes} {j : Nat} {c c' : Counts},
    countOutputs z tx j pks c = .ok c' ↔
      (∀ k pk, pks[k]? = some pk → pk ≠ [] → Blindable z tx (j + k) pk) ∧
      c' = { c with nToBlind := c.nToBlind + (pks.filter (· ≠ [])).length }
  | [], j, c, c' => by simp [countOutputs]; exact eq_comm
  | pk :: rest, j, c, c' => by
    unfold countOutputs
    rw [exc_bind_ok]
    constructor
    · rintro ⟨c1, h1, h2⟩
      obtain ⟨h3, h4⟩ := countOutputs_ok.1 h2
      rcases countOutput_ok.1 h1 with ⟨rfl, rfl⟩ | ⟨hpk, hb, rfl⟩
      · refine ⟨?_, by simpa using h4⟩
        intro k q hq hne
        cases k with
        | zero => simp at hq; exact absurd hq hne
        | succ k => have := h3 k q (by simpa using hq) hne; rwa [show j + (k + 1) = j + 1 + k by omega]
      · refine ⟨?_, ?_⟩
        · intro k q hq hne
          cases k with
          | zero => simp at hq; subst hq; exact hb
          | succ k => have := h3 k q (by simpa using hq) hne; rwa [show j + (k + 1) = j + 1 + k by omega]
        · rw [h4]
          simp [hpk]
          omega
    · rintro ⟨h1, h2⟩
      by_cases hpk : pk = []
      · subst hpk
        refine ⟨c, countOutput_ok.2 (.inl ⟨rfl, rfl⟩), countOutputs_ok.2 ⟨?_, by simpa using h2⟩⟩
        intro k q hq hne
        have := h1 (k + 1) q (by simpa using hq) hne
        rwa [show j + (k + 1) = j + 1 + k by omega] at this
      · refine ⟨_, countOutput_ok.2 (.inr ⟨hpk, h1 0 pk rfl hpk, rfl⟩), countOutputs_ok.2 ⟨?_, ?_⟩⟩
        · intro k q hq hne
          have := h1 (k + 1) q (by simpa using hq) hne
          rwa [show j + (k + 1) = j + 1 + k by omega] at this
        · rw [h2]
          simp [hpk]
          omega

theorem blinded_iff {d : Desc} : (!isNull32 d.blindingFactor || !isNull32 d.assetBlindingFactor) = d.blinded := by
  simp only [isNull32, Desc.blinded]
  have h : (fun x : UInt8 => decide (x ≠ 0)) = fun x => !(x == 0) := by
    funext x; by_cases hx : x = 0 <;> simp [hx]
  simp only [h, List.not_all_eq_any_not]

/-- The state of the counters after one input. -/
def addInput (A : BlindArgs) (i : Nat) (txin : TxIn) (d : Desc) (c : Counts) : Counts :=
  { blinds := c.blinds ++ if d.blinded then [d.blindingFactor] else []
    assetblinds := c.assetblinds ++ if d.blinded then [d.assetBlindingFactor] else []
    amounts := c.amounts ++ if d.blinded then [d.amount] else []
    nBlindsIn := c.nBlindsIn + if d.blinded then 1 else 0
    nToBlind := c.nToBlind
      + (if !txin.assetIssuance.isNull && (A.assetKeys.getD i none).isSome then 1 else 0)
      + (if !txin.assetIssuance.isNull && (A.tokenKeys.getD i none).isSome then 1 else 0) }

theorem countBlinded_ok {i : Nat} {d : Desc} {c c' : Counts} : countBlinded i d c = .ok c' ↔
    (d.blinded = true → 0 ≤ d.amount) ∧ c' =
      { blinds := c.blinds ++ if d.blinded then [d.blindingFactor] else []
        assetblinds := c.assetblinds ++ if d.blinded then [d.assetBlindingFactor] else []
        amounts := c.amounts ++ if d.blinded then [d.amount] else []
        nBlindsIn := c.nBlindsIn + if d.blinded then 1 else 0
        nToBlind := c.nToBlind } := by
  unfold countBlinded
  rw [blinded_iff]
  by_cases hb : d.blinded = true
  · by_cases ha : d.amount < 0
    · simp [hb, ha]; omega
    · have : 0 ≤ d.amount := by omega
      simp [hb, ha, this]; exact eq_comm
  · simp [hb]; exact eq_comm

theorem countIssuance_ok {i : Nat} {token : Bool} {key : Option Bytes} {value proof : Bytes} {c c' : Counts} :
    countIssuance i token key value proof c = .ok c' ↔
      (key.isSome = true → IsExplicitValue value ∧ proof = []) ∧
      c' = { c with nToBlind := c.nToBlind + if key.isSome then 1 else 0 } := by
  unfold countIssuance
  rw [← explicitValue_iff]
  by_cases hk : key.isSome = true
  · by_cases he : confIsExplicit valueKind value = true
    · by_cases hp : proof = []
      · simp [hk, he, hp]; exact eq_comm
      · simp [hk, he, hp]
    · simp [hk, he]
  · simp [hk]; exact eq_comm

theorem getD_isSome {ks : List (Option Bytes)} {i : Nat} : (ks.getD i none).isSome = true ↔ ∃ k, ks[i]? = some (some k) := by
  rw [List.getD_eq_getElem?_getD]
  cases ks[i]? with
  | none => simp
  | some o => cases o <;> simp

theorem countInput_ok {A : BlindArgs} {wit : List TxInWitness} {i : Nat} {txin : TxIn} {d : Desc} {rest} {c c' : Counts} :
    countInputs A wit i ((txin, d) :: rest) c = .ok c' ↔
      InputFine A wit i txin d ∧ countInputs A wit (i + 1) rest (addInput A i txin d c) = .ok c' := by
  rw [countInputs, exc_bind_ok]
  by_cases hn : txin.assetIssuance.isNull = true
  · simp only [hn, if_true, exc_bind_ok, countBlinded_ok]
    constructor
    · rintro ⟨c1, ⟨h1, rfl⟩, c2, h2, h3⟩
      cases h2
      refine ⟨⟨h1, fun k h => by simp [hn] at h, fun k h => by simp [hn] at h⟩, ?_⟩
      simpa [addInput, hn] using h3
    · rintro ⟨⟨h1, -, -⟩, h3⟩
      refine ⟨_, ⟨h1, rfl⟩, _, rfl, ?_⟩
      simpa [addInput, hn] using h3
  · have hn' : txin.assetIssuance.isNull = false := by simpa using hn
    simp only [hn', Bool.false_eq_true, if_false, exc_bind_ok, countBlinded_ok, countIssuance_ok, keyAt_getD]
    constructor
    · rintro ⟨c1, ⟨h1, rfl⟩, c2, ⟨h4, rfl⟩, c3, ⟨h5, rfl⟩, h3⟩
      refine ⟨⟨h1, fun k _ hk => h4 (getD_isSome.2 ⟨k, hk⟩), fun k _ hk => h5 (getD_isSome.2 ⟨k, hk⟩)⟩, ?_⟩
      simpa [addInput, hn'] using h3
    · rintro ⟨⟨h1, h4, h5⟩, h3⟩
      refine ⟨_, ⟨h1, rfl⟩, _, ⟨?_, rfl⟩, _, ⟨?_, rfl⟩, ?_⟩
      · intro h; obtain ⟨k, hk⟩ := getD_isSome.1 h; exact h4 k hn' hk
      · intro h; obtain ⟨k, hk⟩ := getD_isSome.1 h; exact h5 k hn' hk
      · simpa [addInput, hn'] using h3

theorem countInputs_ok {A : BlindArgs} {wit : List TxInWitness} : ∀ {l : List (TxIn × Desc)} {i : Nat} {c c' : Counts},
    countInputs A wit i l c = .ok c' ↔
      (∀ k x, l[k]? = some x → InputFine A wit (i + k) x.1 x.2) ∧
      c' = { blinds := c.blinds ++ ((l.map Prod.snd).filter Desc.blinded).map Desc.blindingFactor
             assetblinds := c.assetblinds ++ ((l.map Prod.snd).filter Desc.blinded).map Desc.assetBlindingFactor
             amounts := c.amounts ++ ((l.map Prod.snd).filter Desc.blinded).map Desc.amount
             nBlindsIn := c.nBlindsIn + ((l.map Prod.snd).filter Desc.blinded).length
             nToBlind := c.nToBlind + askedIssuances A.assetKeys (l.map Prod.fst) i
               + askedIssuances A.tokenKeys (l.map Prod.fst) i }
  | [], i, c, c' => by simp [countInputs, askedIssuances]; exact eq_comm
  | (txin, d) :: rest, i, c, c' => by
    rw [countInput_ok, countInputs_ok]
    constructor
    · rintro ⟨h1, h2, h3⟩
      refine ⟨?_, ?_⟩
      · intro k x hx
        cases k with
        | zero => simp at hx; subst hx; exact h1
        | succ k => have := h2 k x (by simpa using hx); rwa [show i + (k + 1) = i + 1 + k by omega]
      · rw [h3]
        by_cases hb : d.blinded = true <;> by_cases e1 : (!txin.assetIssuance.isNull && (A.assetKeys.getD i none).isSome) = true <;>
          by_cases e2 : (!txin.assetIssuance.isNull && (A.tokenKeys.getD i none).isSome) = true <;>
          simp only [addInput, hb, e1, e2, if_true, if_false, List.map_cons, List.filter_cons, askedIssuances,
            List.zipIdx_cons, List.append_assoc, List.singleton_append, List.length_cons, List.append_nil,
            Bool.false_eq_true, Nat.add_zero, List.nil_append] <;>
          congr 1 <;> omega
    · rintro ⟨h1, h2⟩
      refine ⟨h1 0 _ rfl, ?_, ?_⟩
      · intro k x hx
        have := h1 (k + 1) x (by simpa using hx)
        rwa [show i + (k + 1) = i + 1 + k by omega] at this
      · rw [h2]
        by_cases hb : d.blinded = true <;> by_cases e1 : (!txin.assetIssuance.isNull && (A.assetKeys.getD i none).isSome) = true <;>
          by_cases e2 : (!txin.assetIssuance.isNull && (A.tokenKeys.getD i none).isSome) = true <;>
          simp only [addInput, hb, e1, e2, if_true, if_false, List.map_cons, List.filter_cons, askedIssuances,
            List.zipIdx_cons, List.append_assoc, List.singleton_append, List.length_cons, List.append_nil,
            Bool.false_eq_true, Nat.add_zero, List.nil_append] <;>
          congr 1 <;> omega

theorem checkArgs_ok {A : BlindArgs} {tx : Tx} {u : Unit} : checkArgs A tx = .ok u ↔ LengthsFine A tx := by
  have key : checkArgs A tx = .ok u ↔ (A.pubkeys.length ≤ tx.vout.length ∧ A.assetKeys.length ≤ tx.vin.length ∧
      A.tokenKeys.length ≤ tx.vin.length ∧ tx.vin.length = A.descs.length ∧
      (A.auxGens = [] ∨ tx.vin.length ≤ A.auxGens.length ∧ A.auxGens.any (·.length != 33) = false)) := by
    unfold checkArgs
    simp only [Bool.not_eq_true', decide_eq_false_iff_not, ge_iff_le, ne_eq]
    by_cases h1 : A.pubkeys.length ≤ tx.vout.length
    · by_cases h2 : A.assetKeys.length ≤ tx.vin.length
      · by_cases h3 : A.tokenKeys.length ≤ tx.vin.length
        · by_cases h4 : tx.vin.length = A.descs.length
          · rw [h4] at h2 h3 ⊢
            by_cases h5 : A.auxGens = []
            · simp [h1, h2, h3, h5]
            · by_cases h6 : A.descs.length ≤ A.auxGens.length
              · cases h7 : A.auxGens.any (·.length != 33) <;> simp [h1, h2, h3, h5, h6]
              · simp [h1, h2, h3, h5, h6]
          · simp [h1, h2, h3, h4]
        · simp [h1, h2, h3]
      · simp [h1, h2]
    · simp [h1]
  rw [key]
  constructor
  · rintro ⟨h1, h2, h3, h4, h5⟩
    refine ⟨h1, h2, h3, h4.symm, fun hne => ?_⟩
    rcases h5 with h5 | ⟨h5, h6⟩
    · exact absurd h5 hne
    · refine ⟨h5, fun g hg => ?_⟩
      simpa using List.any_eq_false.1 h6 g hg
  · rintro ⟨h1, h2, h3, h4, h5⟩
    refine ⟨h1, h2, h3, h4.symm, ?_⟩
    by_cases hne : A.auxGens = []
    · exact .inl hne
    · refine .inr ⟨(h5 hne).1, List.any_eq_false.2 fun g hg => ?_⟩
      simp [(h5 hne).2 g hg]

theorem zip_get {α β} {l : List α} {m : List β} {k : Nat} {x : α × β} : (l.zip m)[k]? = some x ↔
    l[k]? = some x.1 ∧ m[k]? = some x.2 := by
  rw [List.getElem?_zip_eq_some]

/-- What has been established when blinding starts. -/
theorem checks_ok {E : Env} {A : BlindArgs} {tx : Tx} {T : TargetLists} {c : Counts} :
    checks E A tx = .ok (T, c) ↔
      LengthsFine A tx ∧ surjTargets E A tx = .ok T ∧
      (∀ i txin d, tx.vin[i]? = some txin → A.descs[i]? = some d → InputFine A tx.wit.vtxinwit i txin d) ∧
      (∀ j pk, A.pubkeys[j]? = some pk → pk ≠ [] → Blindable E.z tx j pk) ∧
      c = { blinds := (A.descs.filter Desc.blinded).map Desc.blindingFactor
            assetblinds := (A.descs.filter Desc.blinded).map Desc.assetBlindingFactor
            amounts := (A.descs.filter Desc.blinded).map Desc.amount
            nBlindsIn := (A.descs.filter Desc.blinded).length
            nToBlind := asked A tx } := by
  unfold checks
  simp only [exc_bind_ok, raiseE_ok, countInputs_ok, countOutputs_ok, checkArgs_ok, pure, Except.pure]
  constructor
  · rintro ⟨_, h1, T', h2, c1, ⟨h3, rfl⟩, c2, ⟨h4, rfl⟩, h5⟩
    cases h5
    have hl := h1.descs
    refine ⟨h1, h2, ?_, ?_, ?_⟩
    · intro i txin d ht hd
      have := h3 i (txin, d) (zip_get.2 ⟨ht, hd⟩)
      simpa using this
    · intro j pk hj hne
      have := h4 j pk hj hne
      simpa using this
    · rw [List.map_snd_zip (by omega), List.map_fst_zip (by omega)]
      simp only [List.nil_append, Nat.zero_add]
      congr 1
      simp [asked, askedOutputs]
      omega
  · rintro ⟨h1, h2, h3, h4, rfl⟩
    have hl := h1.descs
    refine ⟨(), h1, T, h2, _, ⟨?_, rfl⟩, _, ⟨?_, rfl⟩, ?_⟩
    · intro k x hx
      rw [zip_get] at hx
      simpa using h3 k x.1 x.2 hx.1 hx.2
    · intro k pk hk hne
      simpa using h4 k pk hk hne
    · rw [List.map_snd_zip (by omega), List.map_fst_zip (by omega)]
      simp only [List.nil_append, Nat.zero_add, Except.ok.injEq, Prod.mk.injEq, true_and]
      congr 1
      simp [asked, askedOutputs]
      omega

end Verif
