import Verif.TxWriteLemmas
import Verif.Spec.Conf
/-
C01-C04: confidential fields.
-/
namespace Verif
open Spec

section helpers

theorem ConfClass.good {k : ConfKind} {sz : Nat} {a b : UInt8} (h : ConfClass k sz a b) :
    k.Good ∧ k.explicitSize = sz ∧ k.prefixA = a ∧ k.prefixB = b ∧ 1 < sz := by
  cases h
  · exact ⟨valueKind_good, rfl, rfl, rfl, by decide⟩
  · exact ⟨assetKind_good, rfl, rfl, rfl, by decide⟩
  · exact ⟨nonceKind_good, rfl, rfl, rfl, by decide⟩

theorem ConfClass.reads {k : ConfKind} {sz : Nat} {a b : UInt8} (h : ConfClass k sz a b) :
    Reads (readConf k) (FieldEnc sz a b) := by
  cases h
  · exact Reads.value
  · exact Reads.asset
  · exact Reads.nonce

theorem isValid_iff {k : ConfKind} {sz : Nat} {a b : UInt8} (h : ConfClass k sz a b) {c : Bytes} :
    confIsValid k c = true ↔ ValidField sz a b c := by
  cases h <;>
  simp [confIsValid, confIsNull, confIsExplicit, confIsCommitment, ValidField, committedSize,
    valueKind, assetKind, nonceKind, or_assoc]

end helpers

/-- C01: a valid field followed by anything reads back to itself, leaving the rest. -/
theorem C01_confidential_roundtrip {k : ConfKind} {sz : Nat} {a b : UInt8} (hk : ConfClass k sz a b)
    (c rest : Bytes) (hv : confIsValid k c = true) :
    readConf k (serConf c ++ rest) = .ok (c, rest) := by
  have h := (isValid_iff hk).1 hv
  exact (ConfClass.reads hk).run ((fieldEnc_iff (by have := (ConfClass.good hk).2.2.2.2; omega)).2 ⟨h, rfl⟩) rest

-- a commitment, an explicit amount and a null value are all valid
example : confIsValid valueKind (8 :: List.replicate 32 7) = true ∧
    confIsValid valueKind [1, 0, 0, 0, 0, 0, 0, 1, 2] = true ∧ confIsValid nonceKind [] = true := by decide

/-- C02: whatever is read is valid, in the grammar, and re-serializes to the bytes consumed. -/
theorem C02_confidential_canonical {k : ConfKind} {sz : Nat} {a b : UInt8} (hk : ConfClass k sz a b)
    (s c rest : Bytes) :
    readConf k s = .ok (c, rest) ↔ confIsValid k c = true ∧ s = serConf c ++ rest := by
  have hpos : 0 < sz := by have := (ConfClass.good hk).2.2.2.2; omega
  rw [isValid_iff hk, ConfClass.reads hk s c rest]
  constructor
  · rintro ⟨w, rfl, h⟩
    obtain ⟨h1, rfl⟩ := (fieldEnc_iff hpos).1 h
    exact ⟨h1, rfl⟩
  · rintro ⟨h1, rfl⟩
    exact ⟨_, rfl, (fieldEnc_iff hpos).2 ⟨h1, rfl⟩⟩

/-- C02: the marker decides: the outcome on every byte stream. -/
theorem C02_confidential_markers {k : ConfKind} {sz : Nat} {a b : UInt8} (hk : ConfClass k sz a b) :
    readConf k [] = .error .truncation ∧
    ∀ (v : UInt8) (t : Bytes),
      (v ≠ 0 → v ≠ 1 → v ≠ a → v ≠ b → readConf k (v :: t) = .error .witnessSerialization) ∧
      (v = 0 → readConf k (v :: t) = .ok ([], t)) ∧
      (v = 1 → t.length < sz - 1 → readConf k (v :: t) = .error .truncation) ∧
      (v = 1 → sz - 1 ≤ t.length → readConf k (v :: t) = .ok (v :: t.take (sz - 1), t.drop (sz - 1))) ∧
      (v = a ∨ v = b → t.length < 32 → readConf k (v :: t) = .error .truncation) ∧
      (v = a ∨ v = b → 32 ≤ t.length → readConf k (v :: t) = .ok (v :: t.take 32, t.drop 32)) := by
  refine ⟨readConf_nil k, fun v t => ?_⟩
  obtain ⟨hg, rfl, rfl, rfl, hsz⟩ := ConfClass.good hk
  have hab : k.prefixA ≠ 0 ∧ k.prefixA ≠ 1 ∧ k.prefixB ≠ 0 ∧ k.prefixB ≠ 1 := by cases hk <;> decide
  obtain ⟨n, hn⟩ : ∃ n, k.explicitSize = n + 1 := ⟨k.explicitSize - 1, by omega⟩
  obtain ⟨ha0, ha1, hb0, hb1⟩ := hab
  have hcomm : v = k.prefixA ∨ v = k.prefixB → confSize k v = some 33 := by
    intro h
    have h0 : v ≠ 0 := by rcases h with rfl | rfl <;> assumption
    have h1 : v ≠ 1 := by rcases h with rfl | rfl <;> assumption
    unfold confSize; rw [if_neg h0, if_neg h1, if_pos h]
  rw [readConf_cons hg, hn, Nat.add_sub_cancel]
  refine ⟨?_, ?_, ?_, ?_, ?_, ?_⟩
  · intro h0 h1 h2 h3
    have : confSize k v = none := by
      unfold confSize; rw [if_neg h0, if_neg h1, if_neg (by simp [h2, h3])]
    rw [this]
  · rintro rfl; rfl
  · rintro rfl hlt
    have : confSize k 1 = some (n + 1) := by unfold confSize; simp [hn]
    rw [this]; simp only [if_pos hlt]
  · rintro rfl hlt
    have : confSize k 1 = some (n + 1) := by unfold confSize; simp [hn]
    rw [this]; simp only [if_neg (Nat.not_lt.2 hlt)]
  · intro h hlt; rw [hcomm h]; simp only [if_pos hlt]
  · intro h hlt; rw [hcomm h]; simp only [if_neg (Nat.not_lt.2 hlt)]

-- 2 announces a nonce commitment but is no marker of a value
example : readConf valueKind [2, 0, 0] = .error .witnessSerialization ∧
    readConf nonceKind [2, 0, 0] = .error .truncation ∧
    readConf valueKind [1, 0, 0, 0, 0, 0, 0, 0, 5, 99] = .ok ([1, 0, 0, 0, 0, 0, 0, 0, 5], [99]) := by decide

/-- C03: the three predicates are exclusive and cover validity, whatever the content. -/
theorem C03_exclusive {k : ConfKind} {sz : Nat} {a b : UInt8} (hk : ConfClass k sz a b) (c : Bytes) :
    (confIsNull c = true ↔ c = []) ∧
    (confIsExplicit k c = true ↔ c.length = sz ∧ c.head? = some 1) ∧
    (confIsCommitment k c = true ↔ c.length = 33 ∧ (c.head? = some a ∨ c.head? = some b)) ∧
    ¬ (confIsNull c = true ∧ confIsExplicit k c = true) ∧
    ¬ (confIsNull c = true ∧ confIsCommitment k c = true) ∧
    ¬ (confIsExplicit k c = true ∧ confIsCommitment k c = true) ∧
    (confIsValid k c = true ↔
      confIsNull c = true ∨ confIsExplicit k c = true ∨ confIsCommitment k c = true) := by
  have e1 : confIsNull c = true ↔ c = [] := by simp [confIsNull]
  have e2 : confIsExplicit k c = true ↔ c.length = sz ∧ c.head? = some 1 := by
    cases hk <;> simp [confIsExplicit, valueKind, assetKind, nonceKind]
  have e3 : confIsCommitment k c = true ↔ c.length = 33 ∧ (c.head? = some a ∨ c.head? = some b) := by
    cases hk <;> simp [confIsCommitment, committedSize, valueKind, assetKind, nonceKind]
  have hpos := (ConfClass.good hk).2.2.2.2
  refine ⟨e1, e2, e3, ?_, ?_, ?_, ?_⟩
  · rw [e1, e2]; rintro ⟨rfl, h, _⟩; simp at h; omega
  · rw [e1, e3]; rintro ⟨rfl, h, _⟩; simp at h
  · rw [e2, e3]; rintro ⟨⟨_, h1⟩, _, h2⟩
    rw [h1] at h2
    cases hk <;> revert h2 <;> decide
  · simp [confIsValid, or_assoc]

/-- C03: the constructor looks at the length only, and accepts three of them. -/
theorem C03_constructor {k : ConfKind} {sz : Nat} {a b : UInt8} (hk : ConfClass k sz a b) (c : Bytes) :
    (confNew k c = .ok c ↔ c.length = 0 ∨ c.length = sz ∨ c.length = 33) ∧
    (∀ c', confNew k c = .ok c' → c' = c) ∧
    (¬ (c.length = 0 ∨ c.length = sz ∨ c.length = 33) → confNew k c = .error .valueError) ∧
    (confIsValid k c = true → confNew k c = .ok c) := by
  obtain ⟨_, rfl, _⟩ := ConfClass.good hk
  unfold confNew committedSize
  refine ⟨?_, ?_, ?_, ?_⟩
  · split <;> simp_all
  · intro c' h; split at h <;> simp_all
  · intro h; rw [if_neg h]
  · intro h
    rw [if_pos]
    rw [isValid_iff hk] at h
    rcases h with rfl | ⟨h, _⟩ | ⟨h, _⟩
    · exact Or.inl rfl
    · exact Or.inr (Or.inl h)
    · exact Or.inr (Or.inr h)

/-- C03: objects exist that are constructible and not valid, so `is_valid` has to be asked. -/
theorem C03_invalid_constructible : ∃ c, confNew valueKind c = .ok c ∧ confIsValid valueKind c = false :=
  ⟨List.replicate 33 0, by decide⟩

section helpers

theorem explicitAmount_iff {v : Int} {c : Bytes} :
    ExplicitAmount v c ↔ ∃ b, b.length = 8 ∧ c = 1 :: b ∧ v = untwos 8 (beVal b) := by
  unfold ExplicitAmount
  constructor
  · rintro ⟨b, rfl, h⟩
    rw [sintEnc_iff] at h
    exact ⟨b, by simpa using h.1, rfl, h.2⟩
  · rintro ⟨b, h, rfl, rfl⟩
    exact ⟨b, rfl, sintEnc_iff.2 ⟨by simpa using h, rfl⟩⟩

end helpers

/-- C04: constructing from an amount gives its 64-bit big-endian two's complement form,
and fails outside the 64-bit range. -/
theorem C04_value_from_amount (v : Int) :
    (∀ c, valueFromAmount v = .ok c ↔ ExplicitAmount v c) ∧
    ((-9223372036854775808 ≤ v ∧ v < 9223372036854775808) ↔ ∃ c, valueFromAmount v = .ok c) ∧
    (¬ (-9223372036854775808 ≤ v ∧ v < 9223372036854775808) → valueFromAmount v = .error .structError) := by
  have hr : inRangeS 8 v ↔ -9223372036854775808 ≤ v ∧ v < 9223372036854775808 := by
    unfold inRangeS
    constructor
    · rintro ⟨h1, h2⟩; simp at h1 h2; omega
    · rintro ⟨h1, h2⟩; simp; omega
  have hok : inRangeS 8 v → valueFromAmount v = .ok (1 :: beBytes 8 (twos 8 v)) := by
    intro h
    unfold valueFromAmount
    rw [packSBE_ok.2 ⟨h, rfl⟩]
    unfold confNew
    simp [valueKind, bind, Except.bind]
  have hno : ¬ inRangeS 8 v → valueFromAmount v = .error .structError := by
    intro h; unfold valueFromAmount packSBE; rw [if_neg h]; rfl
  refine ⟨fun c => ?_, ?_, ?_⟩
  · rw [explicitAmount_iff]
    constructor
    · intro h
      by_cases hi : inRangeS 8 v
      · rw [hok hi] at h
        cases h
        exact ⟨_, by simp, rfl, by rw [beVal_beBytes_of_lt (twos_lt _ _), untwos_twos hi]⟩
      · rw [hno hi] at h; cases h
    · rintro ⟨b, hb, rfl, rfl⟩
      have hlt := beVal_lt b
      rw [hb] at hlt
      rw [hok (untwos_inRange hlt), twos_untwos hlt, beBytes_beVal hb]
  · rw [← hr]
    constructor
    · exact fun h => ⟨_, hok h⟩
    · rintro ⟨c, hc⟩
      apply Classical.byContradiction
      intro h
      rw [hno h] at hc; cases hc
  · rw [← hr]; exact hno

/-- C04: `to_amount` returns exactly the amount represented, TypeError if not explicit. -/
theorem C04_value_to_amount (c : Bytes) :
    (∀ v, valueToAmount c = .ok v ↔ ExplicitAmount v c) ∧
    (confIsExplicit valueKind c = false → valueToAmount c = .error .typeError) := by
  constructor
  · intro v
    rw [explicitAmount_iff]
    unfold valueToAmount
    have h2 := (C03_exclusive ConfClass.value c).2.1
    constructor
    · intro h
      split at h
      · rename_i he
        obtain ⟨h3, h4⟩ := h2.1 he
        cases c with
        | nil => simp at h3
        | cons x t =>
          simp at h3 h4
          subst h4
          cases h
          exact ⟨t, by omega, rfl, rfl⟩
      · cases h
    · rintro ⟨b, hb, rfl, rfl⟩
      rw [if_pos (h2.2 ⟨by simp [hb], rfl⟩)]
      rfl
  · intro h; unfold valueToAmount; simp [h]

/-- C04: amounts round-trip, and different amounts are different on the wire. -/
theorem C04_amount_recovered :
    (∀ v c, valueFromAmount v = .ok c → valueToAmount c = .ok v ∧ confIsValid valueKind c = true) ∧
    (∀ v v' c c', valueFromAmount v = .ok c → valueFromAmount v' = .ok c' → serConf c = serConf c' → v = v') := by
  have h1 : ∀ v c, valueFromAmount v = .ok c → valueToAmount c = .ok v := fun v c h =>
    ((C04_value_to_amount c).1 v).2 (((C04_value_from_amount v).1 c).1 h)
  have hser : ∀ v c, valueFromAmount v = .ok c → serConf c = c := by
    intro v c h
    obtain ⟨b, rfl, _⟩ := ((C04_value_from_amount v).1 c).1 h
    rfl
  refine ⟨fun v c h => ⟨h1 v c h, ?_⟩, ?_⟩
  · obtain ⟨b, hb, rfl, _⟩ := explicitAmount_iff.1 (((C04_value_from_amount v).1 c).1 h)
    rw [isValid_iff ConfClass.value]
    exact Or.inr (Or.inl ⟨by simp [hb], rfl⟩)
  · intro v v' c c' h h' he
    rw [hser v c h, hser v' c' h'] at he
    subst he
    have := (h1 v c h).symm.trans (h1 v' c h')
    cases this; rfl

example : valueFromAmount 258 = .ok [1, 0, 0, 0, 0, 0, 0, 1, 2] ∧
    valueToAmount [1, 255, 255, 255, 255, 255, 255, 255, 254] = .ok (-2) ∧
    valueFromAmount 9223372036854775808 = .error .structError := by decide

/-- C04: asset ids are recovered exactly, TypeError if not explicit. -/
theorem C04_asset_recovered :
    (∀ a : Bytes, a.length = 32 →
      assetFromAsset a = .ok (1 :: a) ∧ assetToAsset (1 :: a) = .ok a ∧ confIsValid assetKind (1 :: a) = true) ∧
    (∀ c a, assetToAsset c = .ok a ↔ c = 1 :: a ∧ a.length = 32) ∧
    (∀ c, confIsExplicit assetKind c = false → assetToAsset c = .error .typeError) := by
  have key : ∀ c a, assetToAsset c = .ok a ↔ c = 1 :: a ∧ a.length = 32 := by
    intro c a
    have h2 := (C03_exclusive ConfClass.asset c).2.1
    unfold assetToAsset assetNew
    constructor
    · intro h
      split at h
      · rename_i he
        obtain ⟨h3, h4⟩ := h2.1 he
        cases c with
        | nil => simp at h3
        | cons x t =>
          simp at h3 h4
          subst h4
          simp [h3] at h
          subst h
          exact ⟨rfl, h3⟩
      · cases h
    · rintro ⟨rfl, h⟩
      rw [if_pos (h2.2 ⟨by simp [h], rfl⟩)]
      simp [h]
  refine ⟨fun a h => ⟨?_, (key _ _).2 ⟨rfl, h⟩, ?_⟩, key, ?_⟩
  · unfold assetFromAsset confNew; simp [assetKind, h]
  · rw [isValid_iff ConfClass.asset]; exact Or.inr (Or.inl ⟨by simp [h], rfl⟩)
  · intro c h; unfold assetToAsset; simp [h]

example : (List.replicate 32 (3 : UInt8)).length = 32 := by decide

end Verif
