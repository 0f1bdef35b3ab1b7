import Verif.Spec.Unblind
import Verif.BlindLemmas
import Verif.BlindChecks
import Verif.ZkpToy
/-
C37: unblinding succeeds exactly when the output opens.
-/
namespace Verif

theorem unblindFinish_ok {z : Zkp} {o r blind : Bytes} {amount : Nat} {at_ ab a : Bytes} {n : Nat} {bf abf : Bytes} :
    unblindFinish z o r blind amount at_ ab = .ok (.success a n bf abf) ↔
      (∃ s, z.genSerialize o = some s ∧ z.genSerialize r = some s) ∧ blind.length = 32 ∧ at_.length = 32 ∧ ab.length = 32 ∧
      a = at_ ∧ n = amount ∧ bf = blind ∧ abf = ab := by
  unfold unblindFinish
  simp only [exc_bind_ok, orRuntime_ok]
  constructor
  · rintro ⟨s, hs, d, hd, h⟩
    by_cases hsd : s = d
    · subst hsd
      rw [if_neg (by simp)] at h
      simp only [exc_bind_ok, uint256New_ok] at h
      obtain ⟨b, ⟨hb, rfl⟩, a', ha, c, ⟨hc, rfl⟩, h⟩ := h
      unfold assetNew at ha
      split at ha
      · rename_i hl
        cases ha
        cases h
        exact ⟨⟨s, hs, hd⟩, hb, hl, hc, rfl, rfl, rfl, rfl⟩
      · cases ha
    · rw [if_pos hsd] at h
      cases h
  · rintro ⟨⟨s, hs, hd⟩, h1, h2, h3, rfl, rfl, rfl, rfl⟩
    refine ⟨s, hs, s, hd, ?_⟩
    rw [if_neg (by simp)]
    simp only [exc_bind_ok, uint256New_ok]
    exact ⟨_, ⟨h1, rfl⟩, a, by simp [assetNew, h2], _, ⟨h3, rfl⟩, rfl⟩

theorem observedGen_ok {z : Zkp} {ca g : Bytes} : observedGen z ca = .ok (some g) ↔ Shown z ca g := by
  unfold observedGen
  by_cases h1 : IsAssetCommitment ca
  · rw [if_pos (assetCommitment_iff.2 h1)]
    constructor
    · intro h; exact .commitment g h1 (by simpa using h)
    · intro h
      cases h with
      | commitment _ _ h => rw [h]
      | explicit a _ h => obtain ⟨b, hb | hb, _⟩ := h1 <;> (rw [hb] at h; cases h)
      | nothing h => exact absurd h1 h
  · rw [if_neg (fun h => h1 (assetCommitment_iff.1 h))]
    by_cases h2 : IsExplicitAsset ca
    · rw [if_pos (explicitAsset_iff.2 h2)]
      obtain ⟨b, rfl, hb⟩ := h2
      have he : confIsExplicit assetKind (1 :: b) = true := explicitAsset_iff.2 ⟨b, rfl, hb⟩
      simp only [assetToAsset, he, if_true, List.drop_succ_cons, List.drop_zero, assetNew, hb]
      constructor
      · intro h
        have h : z.generate b = some g := by
          simpa [bind, Except.bind, pure, Except.pure] using h
        exact .explicit b g rfl hb h
      · intro h
        cases h with
        | commitment _ h => exact absurd h h1
        | explicit a _ h hl hg => cases h; simp [bind, Except.bind, pure, Except.pure, hg]
        | nothing _ h => exact absurd ⟨b, rfl, hb⟩ h
    · rw [if_neg (fun h => h2 (explicitAsset_iff.1 h))]
      constructor
      · intro h; cases h; exact .nothing h1 h2
      · intro h
        cases h with
        | commitment _ h => exact absurd h h1
        | explicit a _ h hl => exact absurd ⟨a, h, hl⟩ h2
        | nothing => rfl

theorem unblindNonce_ok {E : Env} {key cn script n s : Bytes} :
    unblindNonce E key cn script = .ok (some (n, s)) ↔
      (cn ≠ [] ∧ E.z.pubValid cn = true ∧ ∃ x, E.z.ecdh key cn = some x ∧ n = E.h.fn x ∧ s = script) ∨
      (cn = [] ∧ n = key ∧ s = []) := by
  unfold unblindNonce
  by_cases hc : cn = []
  · subst hc
    simp only [List.length_nil, Nat.lt_irrefl, gt_iff_lt, if_false, ne_eq, not_true_eq_false, false_and, true_and, false_or]
    constructor
    · intro h; cases h; exact ⟨rfl, rfl⟩
    · rintro ⟨rfl, rfl⟩; rfl
  · have hl : cn.length > 0 := List.length_pos_iff.2 hc
    rw [if_pos hl]
    by_cases hv : fullyValid E.z cn = true
    · simp only [hv, Bool.not_true, Bool.false_eq_true, if_false, exc_bind_ok, orRuntime_ok]
      have := (fullyValid_iff.1 hv).2
      constructor
      · rintro ⟨x, hx, h⟩
        cases h
        exact .inl ⟨hc, this, x, hx, rfl, rfl⟩
      · rintro (⟨_, _, x, hx, rfl, rfl⟩ | ⟨h, _⟩)
        · exact ⟨x, hx, rfl⟩
        · exact absurd h hc
    · simp only [hv, Bool.not_false, if_true]
      constructor
      · intro h; cases h
      · rintro (⟨_, h, _⟩ | ⟨h, _⟩)
        · exact absurd (fullyValid_iff.2 ⟨hc, h⟩) hv
        · exact absurd h hc

/-- C37.  Unblinding succeeds exactly when the output opens, and then reports exactly what
it opens to; whatever the library does. -/
theorem C37_success_iff (E : Env) (key cv ca cn script proof asset : Bytes) (amount : Nat) (bf abf : Bytes) :
    unblind E key cv ca cn script proof = .ok (.success asset amount bf abf) ↔
      Opens E key cv ca cn script proof asset amount bf abf := by
  unfold unblind
  by_cases hp : proof = []
  · subst hp
    rw [if_pos List.length_nil]
    exact ⟨fun h => (by cases h), fun h => absurd rfl h.hasProof⟩
  rw [if_neg (fun h => hp (List.length_eq_zero_iff.1 h))]
  constructor
  · intro h
    obtain ⟨x, hx, h⟩ := exc_bind_ok.1 h
    cases x with
    | none => cases h
    | some x =>
      obtain ⟨nonce, scr⟩ := x
      replace h : unblindWith E.z nonce scr cv ca proof = .ok (.success asset amount bf abf) := h
      unfold unblindWith at h
      by_cases hv : IsValueCommitment cv
      · rw [valueCommitment_iff.2 hv] at h
        simp only [Bool.not_true, Bool.false_eq_true, if_false] at h
        obtain ⟨og, hog, h⟩ := exc_bind_ok.1 h
        cases og with
        | none => cases h
        | some g =>
          replace h : unblindRewind E.z nonce scr cv proof g = .ok (.success asset amount bf abf) := h
          unfold unblindRewind at h
          cases hc : E.z.commitParse cv with
          | none => rw [hc] at h; cases h
          | some c =>
            rw [hc] at h
            dsimp only at h
            cases hr : E.z.rangeRewind nonce c proof (if scr.length = 0 then none else some scr) g with
            | none => rw [hr] at h; cases h
            | some r =>
              obtain ⟨blind, am, msg, sz⟩ := r
              rw [hr] at h
              replace h : unblindCheck E.z g blind am msg sz = .ok (.success asset amount bf abf) := h
              unfold unblindCheck at h
              by_cases hm : moneyRange am = true
              · rw [hm] at h
                simp only [Bool.not_true, Bool.false_eq_true, if_false] at h
                by_cases hs : sz = 64
                · subst hs
                  rw [if_neg (by simp)] at h
                  cases hg : E.z.generateBlinded (msg.take 32) ((msg.drop 32).take 32) with
                  | none => rw [hg] at h; cases h
                  | some g' =>
                    rw [hg] at h
                    dsimp only at h
                    obtain ⟨⟨s, hs1, hs2⟩, _, l1, l2, rfl, rfl, rfl, rfl⟩ := unblindFinish_ok.1 h
                    refine ⟨hp, hv, by simpa [moneyRange] using hm, ?_⟩
                    have hmsg : msg.take 64 = msg.take 32 ++ (msg.drop 32).take 32 := by
                      rw [show (64 : Nat) = 32 + 32 from rfl, List.take_add]
                    rcases unblindNonce_ok.1 hx with ⟨h1, h2, x, h3, rfl, rfl⟩ | ⟨h1, rfl, rfl⟩
                    · refine ⟨E.h.fn x, _, g, c, msg, .shared x h1 h2 h3, observedGen_ok.1 hog, hc, ?_, hmsg, l1, l2,
                        g', s, hg, hs1, hs2⟩
                      rw [← hr]; simp only [List.length_eq_zero_iff]
                    · exact ⟨nonce, none, g, c, msg, .direct h1, observedGen_ok.1 hog, hc, hr, hmsg, l1, l2,
                        g', s, hg, hs1, hs2⟩
                · rw [if_pos hs] at h; cases h
              · simp only [hm, Bool.not_false, if_true] at h; cases h
      · have : confIsCommitment valueKind cv = false := by
          cases hh : confIsCommitment valueKind cv
          · rfl
          · exact absurd (valueCommitment_iff.1 hh) hv
        rw [this] at h
        cases h
  · rintro ⟨-, hv, hm, nonce, extra, g, c, msg, hn, hg, hc, hr, hmsg, la, lb, g', s, hg', hs1, hs2⟩
    have hf : unblindFinish E.z g g' bf amount asset abf = .ok (.success asset amount bf abf) :=
      unblindFinish_ok.2 ⟨⟨s, hs1, hs2⟩, (E.z.rangeRewind_len _ _ _ _ _ _ hr).1, la, lb, rfl, rfl, rfl, rfl⟩
    have h1 : msg.take 32 = asset := by
      have := congrArg (List.take 32) hmsg
      rwa [List.take_take, List.take_append_of_le_length (by omega), List.take_of_length_le (l := asset) (by omega)] at this
    have h2 : (msg.drop 32).take 32 = abf := by
      have := congrArg (List.drop 32) hmsg
      rwa [List.drop_take, List.drop_append_of_le_length (by omega), List.drop_of_length_le (l := asset) (by omega), List.nil_append] at this
    have hck : unblindCheck E.z g bf amount msg 64 = .ok (.success asset amount bf abf) := by
      unfold unblindCheck
      have : moneyRange amount = true := by simpa [moneyRange] using hm
      simp only [this, Bool.not_true, Bool.false_eq_true, if_false, ne_eq, not_true_eq_false, h1, h2, hg']
      exact hf
    have hw : ∀ scr, extra = (if scr.length = 0 then none else some scr) →
        unblindWith E.z nonce scr cv ca proof = .ok (.success asset amount bf abf) := by
      intro scr he
      unfold unblindWith
      rw [valueCommitment_iff.2 hv]
      simp only [Bool.not_true, Bool.false_eq_true, if_false]
      refine exc_bind_ok.2 ⟨some g, observedGen_ok.2 hg, ?_⟩
      show unblindRewind E.z nonce scr cv proof g = _
      unfold unblindRewind
      rw [hc]
      dsimp only
      rw [← he, hr]
      exact hck
    cases hn with
    | shared x h1 h2 h3 =>
      refine exc_bind_ok.2 ⟨some (E.h.fn x, script), unblindNonce_ok.2 (.inl ⟨h1, h2, x, h3, rfl, rfl⟩), ?_⟩
      exact hw script (by simp only [List.length_eq_zero_iff])
    | direct h1 =>
      refine exc_bind_ok.2 ⟨some (key, []), unblindNonce_ok.2 (.inr ⟨h1, rfl, rfl⟩), ?_⟩
      exact hw [] rfl

/-- C37, blinded asset: the reported asset and asset factor regenerate exactly the asset
commitment of the output. -/
theorem C37_asset_commitment (E : Env) (F : Formats E.z) (key cv ca cn script proof asset : Bytes) (amount : Nat)
    (bf abf : Bytes) (h : unblind E key cv ca cn script proof = .ok (.success asset amount bf abf))
    (hca : IsAssetCommitment ca) :
    ∃ g, E.z.generateBlinded asset abf = some g ∧ E.z.genSerialize g = some ca := by
  obtain ⟨-, -, -, nonce, extra, g, c, msg, -, hg, -, -, -, -, -, g', s, hg', hs1, hs2⟩ := (C37_success_iff ..).1 h
  cases hg with
  | commitment _ _ hp =>
    have := F.genCanonical _ _ hp
    rw [hs1] at this
    cases this
    exact ⟨g', hg', hs2⟩
  | explicit a _ he => obtain ⟨b, hb | hb, _⟩ := hca <;> (rw [hb] at he; cases he)
  | nothing hn => exact absurd hca hn

/-- C37, explicit asset: the reported asset and factor give the generator of that asset. -/
theorem C37_asset_explicit (E : Env) (key cv a cn script proof asset : Bytes) (amount : Nat)
    (bf abf : Bytes) (h : unblind E key cv (1 :: a) cn script proof = .ok (.success asset amount bf abf))
    (hl : a.length = 32) :
    ∃ g g' s, E.z.generate a = some g ∧ E.z.generateBlinded asset abf = some g' ∧
      E.z.genSerialize g = some s ∧ E.z.genSerialize g' = some s := by
  obtain ⟨-, -, -, nonce, extra, g, c, msg, -, hg, -, -, -, -, -, g', s, hg', hs1, hs2⟩ := (C37_success_iff ..).1 h
  cases hg with
  | commitment _ hc => obtain ⟨b, hb | hb, _⟩ := hc <;> cases hb
  | explicit a _ he _ hgen => cases he; exact ⟨g, g', s, hgen, hg', hs1, hs2⟩
  | nothing _ hn => exact absurd ⟨a, rfl, hl⟩ hn

/-- C37: an output without any asset never opens. -/
theorem C37_no_asset (E : Env) (F : Formats E.z) (key cv ca cn script proof asset : Bytes) (amount : Nat)
    (bf abf : Bytes) (h1 : ¬ IsAssetCommitment ca) (h2 : ¬ IsExplicitAsset ca) :
    unblind E key cv ca cn script proof ≠ .ok (.success asset amount bf abf) := by
  intro h
  obtain ⟨-, -, -, nonce, extra, g, c, msg, -, hg, -, -, -, -, -, g', s, hg', hs1, hs2⟩ := (C37_success_iff ..).1 h
  cases hg with
  | commitment _ hc => exact h1 hc
  | explicit a _ he hl => exact h2 ⟨a, he, hl⟩
  | nothing => exact F.zeroGen _ _ _ _ hg' hs2 hs1

/-- C37: unblinding never raises anything but the library's own failures. -/
theorem C37_raises (E : Env) (key cv ca cn script proof : Bytes) (e : PyErr)
    (h : unblind E key cv ca cn script proof = .error e) : e = .runtimeError := by
  have hr : ∀ {α} (x : Option α) (e : PyErr), orRuntime x = .error e → e = .runtimeError := by
    intro α x e h; cases x <;> simp_all [orRuntime]
  unfold unblind at h
  split at h
  · cases h
  rcases exc_bind_error.1 h with h | ⟨x, hx, h⟩
  · unfold unblindNonce at h
    split at h
    · split at h
      · cases h
      · rcases exc_bind_error.1 h with h | ⟨_, _, h⟩
        · exact hr _ _ h
        · cases h
    · cases h
  cases x with
  | none => cases h
  | some x =>
    obtain ⟨nonce, scr⟩ := x
    replace h : unblindWith E.z nonce scr cv ca proof = .error e := h
    unfold unblindWith at h
    split at h
    · cases h
    rcases exc_bind_error.1 h with h | ⟨og, hog, h⟩
    · unfold observedGen at h
      split at h
      · cases h
      · split at h
        · rename_i he
          obtain ⟨b, rfl, hb⟩ := explicitAsset_iff.1 he
          rcases exc_bind_error.1 h with h | ⟨_, _, h⟩
          · simp [assetToAsset, he, assetNew, hb] at h
          · cases h
        · cases h
    cases og with
    | none => cases h
    | some g =>
      replace h : unblindRewind E.z nonce scr cv proof g = .error e := h
      unfold unblindRewind at h
      split at h
      · cases h
      · split at h
        · cases h
        · rename_i hrw
          have hl := E.z.rangeRewind_len _ _ _ _ _ _ hrw
          unfold unblindCheck at h
          split at h
          · cases h
          · split at h
            · cases h
            · split at h
              · cases h
              · unfold unblindFinish at h
                rcases exc_bind_error.1 h with h | ⟨s, hs, h⟩
                · exact hr _ _ h
                rcases exc_bind_error.1 h with h | ⟨d, hd, h⟩
                · exact hr _ _ h
                split at h
                · cases h
                · simp only at hl
                  have e1 : ∀ b : Bytes, b.length = 32 → uint256New b = .ok b := fun b hb => uint256New_ok.2 ⟨hb, rfl⟩
                  rw [e1 _ hl.1, e1 _ (by simp; omega)] at h
                  have e2 : ∀ b : Bytes, b.length = 32 → assetNew b = .ok b := fun b hb => by simp [assetNew, hb]
                  rw [e2 _ (by simp; omega)] at h
                  cases h

-- What blinding makes opens: the toy run of two outputs, the first one unblinded with its key.
example :
    let A : BlindArgs := { descs := [⟨Toy.b32 5, 7, Toy.b32 3, Toy.b32 4⟩], pubkeys := [Toy.pub 3, Toy.pub 4]
                           rand := fun k => Toy.b32 (k + 5) }
    let t := (blindTransaction Toy.env A (Toy.tx [(5, 3), (5, 4)])).2
    let o := t.vout.getD 0 {}
    unblind Toy.env (Toy.b32 3) o.nValue o.nAsset o.nNonce o.scriptPubKey (t.outWit 0).rangeproof
      = .ok (.success (Toy.b32 5) 3 (Toy.b32 5) (Toy.b32 6)) := by
  decide +kernel

end Verif
