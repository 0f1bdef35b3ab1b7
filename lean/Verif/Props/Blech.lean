import Verif.BlechAddr
import Verif.GF1024
/-
C22-C27: blech32 addresses.
-/
namespace Verif
open Spec

/-! ### C27: convertbits -/

/-- Input values the English claim calls in range. -/
def valuesOk (k : Nat) (l : List Int) : Prop := ∀ v ∈ l, 0 ≤ v ∧ v < 2 ^ k

theorem valuesOk_iff (k : Nat) (l : List Int) : valuesOk k l ↔ InRange k l := by
  have h2 : ((2 : Int) ^ k) = ((2 ^ k : Nat) : Int) := by simp
  constructor
  · intro h v hv
    have := h v hv
    rw [h2] at this
    exact ⟨this.1, by omega⟩
  · intro h v hv
    have := h v hv
    rw [h2]
    exact ⟨this.1, by omega⟩

/-- C27: regrouping without padding succeeds exactly when every value is in range and the bits
left over are fewer than one input group (and one output group) and all zero; the output is then
the rest of the bit string, regrouped. -/
theorem C27_nopad_iff (f t : Nat) (ht : 0 < t) (data : List Int) (ret : List Nat) :
    convertbits data f t false = some ret ↔
      valuesOk f data ∧ (∀ r ∈ ret, r < 2 ^ t)
      ∧ ∃ z, z < t ∧ z < f
        ∧ bitString f (data.map Int.toNat) = bitString t ret ++ List.replicate z false := by
  rw [valuesOk_iff]; exact convertbits_nopad_iff f t ht data ret

/-- C27: with padding it succeeds exactly when every value is in range, and the output is the bit
string completed with fewer zero bits than one output group. -/
theorem C27_pad_iff (f t : Nat) (ht : 0 < t) (data : List Int) (ret : List Nat) :
    convertbits data f t true = some ret ↔
      valuesOk f data ∧ (∀ r ∈ ret, r < 2 ^ t)
      ∧ ∃ z, z < t ∧ bitString t ret = bitString f (data.map Int.toNat) ++ List.replicate z false := by
  rw [valuesOk_iff]; exact convertbits_pad_iff f t ht data ret

/-- C27: a value out of range is refused, and with padding nothing else is. -/
theorem C27_refused (f t : Nat) (ht : 0 < t) (data : List Int) :
    (convertbits data f t true = none ↔ ¬ valuesOk f data)
    ∧ (¬ valuesOk f data → convertbits data f t false = none) := by
  constructor
  · constructor
    · intro h hv
      obtain ⟨r, hr⟩ := convert_pad_some f t data ((valuesOk_iff f data).1 hv)
      rw [h] at hr; cases hr
    · intro h
      cases hc : convertbits data f t true with
      | none => rfl
      | some r => exact absurd ((C27_pad_iff f t ht data r).1 hc).1 h
  · intro h
    cases hc : convertbits data f t false with
    | none => rfl
    | some r => exact absurd ((C27_nopad_iff f t ht data r).1 hc).1 h

/-- C27: bytes to 5-bit groups and back is the identity. -/
theorem C27_roundtrip (b : Bytes) : ∃ l, convertbits (b.map fun x => (x.toNat : Int)) 8 5 true = some l
    ∧ convertbits (l.map fun (n : Nat) => (n : Int)) 5 8 false = some (b.map UInt8.toNat) :=
  ⟨progSyms b, convert_prog b, (convert_back _ b).2 ⟨(progSyms_spec b).1, rfl⟩⟩

example : convertbits [255, 1] 8 5 true = some [31, 28, 0, 16] ∧ convertbits [31, 28, 0, 16] 5 8 false = some [255, 1]
    ∧ convertbits [31, 28, 0, 17] 5 8 false = none ∧ convertbits [31, 28, 0, 16, 0, 0] 5 8 false = none
    ∧ convertbits [-1] 8 5 true = none ∧ convertbits [256] 8 5 true = none := by
  simp [convertbits, convertLoop, drain]

/-! ### C22: round trip -/

/-- C22: what `encode` gives is read back as the version and program it was made from. -/
theorem C22_roundtrip (hrp : PyStr) (v : Nat) (prog : Bytes) (s : PyStr)
    (h : blechEncode hrp v prog = .ok (some s)) : blechDecode hrp s = some (v, prog) := by
  rw [blechEncode_iff] at h
  obtain ⟨rfl, h1, h2, h3⟩ := h
  have hv : v < 32 := by have := h2.1; omega
  obtain ⟨t1, t2, t3⟩ := (text_ok_iff hrp v hv prog).2 ⟨h1, h3⟩
  exact (blechDecode_iff hrp _ v prog).2 ⟨t1, t2, h2, t3⟩

/-- C22: `encode` gives a string exactly for a proper human readable part, a supported version
and length, and a text of at most 1000 characters; the text then has the length stated here. -/
theorem C22_encode_iff (hrp : PyStr) (v : Nat) (prog : Bytes) :
    (∃ s, blechEncode hrp v prog = .ok (some s)) ↔
      HrpOk hrp ∧ ProgOk v prog.length ∧ hrp.length + 1 + 1 + (8 * prog.length + 4) / 5 + 12 ≤ 1000 := by
  constructor
  · rintro ⟨s, h⟩
    rw [blechEncode_iff] at h
    exact ⟨h.2.1, h.2.2.1, by have := h.2.2.2; omega⟩
  · rintro ⟨h1, h2, h3⟩
    exact ⟨_, (blechEncode_iff hrp v prog _).2 ⟨rfl, h1, h2, by omega⟩⟩

/-- C22: otherwise the caller gets `None`, or `IndexError` for a version of 32 or more. -/
theorem C22_encode_total (hrp : PyStr) (v : Nat) (prog : Bytes) :
    (v < 32 → ∃ r, blechEncode hrp v prog = .ok r)
    ∧ (32 ≤ v → blechEncode hrp v prog = .error .indexError) := by
  rw [blechEncode_eq]
  constructor
  · intro h; rw [if_pos h]; exact ⟨_, rfl⟩
  · intro h; rw [if_neg (by omega)]

/-- The prefixes of the two chains, wallet.py:315 and 417 (`blech32_hrp`). -/
def hrpEl : PyStr := [101, 108]
def hrpLq : PyStr := [108, 113]

example : HrpOk hrpEl ∧ HrpOk hrpLq := by unfold HrpOk; decide

/-- Every payload a confidential segwit address can have is encodable under both prefixes. -/
example (prog : Bytes) (h : prog.length = 53 ∨ prog.length = 65) :
    ∃ s, blechEncode hrpEl 0 prog = .ok (some s) :=
  (C22_encode_iff _ _ _).2 ⟨by unfold HrpOk; decide, ⟨by omega, by omega, by omega, by omega⟩,
    by show 2 + 1 + 1 + _ + 12 ≤ 1000; omega⟩

/-! ### C23: canonical -/

/-- C23: an accepted string is, lower-cased, what `encode` gives from what was decoded. -/
theorem C23_canonical (hrp s : PyStr) (v : Nat) (prog : Bytes)
    (h : blechDecode hrp s = some (v, prog)) : blechEncode hrp v prog = .ok (some (lower s)) := by
  rw [blechDecode_iff] at h
  obtain ⟨⟨h1, h2, h3⟩, hne, hp, hs⟩ := h
  have hv : v < 32 := by have := hp.1; omega
  rw [blechEncode_iff]
  have hlow : lower (blechText hrp v prog) = blechText hrp v prog := by rw [← hs, lower_lower]
  have htext : TextOk (blechText hrp v prog) := by
    rw [← hs]
    refine ⟨?_, Or.inl (lower_lower s), by rw [length_lower]; exact h3⟩
    intro c hc
    rw [lower, List.mem_map] at hc
    obtain ⟨d, hd, rfl⟩ := hc
    have := h1 d hd
    rw [lowerChar]
    split <;> omega
  obtain ⟨a, b⟩ := (text_ok_iff hrp v hv prog).1 ⟨htext, hne, hlow⟩
  exact ⟨hs, a, hp, b⟩

theorem lowerChar_same (a b : Nat) : lowerChar a = lowerChar b ↔ sameLetter a b := by
  simp only [lowerChar, sameLetter]
  split <;> split <;> omega

/-- C23: two accepted strings with the same decoding differ only in the case of letters. -/
theorem C23_unique (hrp s s' : PyStr) (v : Nat) (prog : Bytes)
    (h : blechDecode hrp s = some (v, prog)) (h' : blechDecode hrp s' = some (v, prog)) :
    s.length = s'.length ∧ ∀ i (hi : i < s.length) (hi' : i < s'.length), sameLetter s[i] s'[i] := by
  rw [blechDecode_iff] at h h'
  have he : lower s = lower s' := by rw [h.2.2.2, h'.2.2.2]
  refine ⟨by rw [← length_lower, he, length_lower], fun i hi hi' => ?_⟩
  rw [← lowerChar_same]
  have a : (lower s)[i]'(by rw [length_lower]; exact hi) = lowerChar s[i] := by simp [lower]
  have b : (lower s')[i]'(by rw [length_lower]; exact hi') = lowerChar s'[i] := by simp [lower]
  rw [← a, ← b]
  simp only [he]

/-! ### C25: prefixes -/

/-- C25: no string is accepted under two human readable parts. -/
theorem C25_hrp_unique (h h' s : PyStr) (r r' : Nat × Bytes)
    (a : blechDecode h s = some r) (b : blechDecode h' s = some r') : h = h' := by
  obtain ⟨v, p⟩ := r
  obtain ⟨v', p'⟩ := r'
  rw [blechDecode_iff] at a b
  obtain ⟨_, _, hp, hs⟩ := a
  obtain ⟨_, _, hp', hs'⟩ := b
  rw [hs, blechText, blechText] at hs'
  exact (text_inj (textSyms_lt h v (by have := hp.1; omega) p) (textSyms_lt h' v' (by have := hp'.1; omega) p') hs').1

/-- C25: a Liquid confidential segwit address is not an Elements one and conversely. -/
theorem C25_chains (s : PyStr) : blechDecode hrpEl s = none ∨ blechDecode hrpLq s = none := by
  cases a : blechDecode hrpEl s with
  | none => exact Or.inl rfl
  | some r =>
    cases b : blechDecode hrpLq s with
    | none => exact Or.inr rfl
    | some r' => exact absurd (C25_hrp_unique _ _ s r r' a b) (by decide)

/-! ### C26: strictness -/

theorem mixed_of_both {s : PyStr} (h : MixedCase s) : lower s ≠ s ∧ upper s ≠ s := by
  obtain ⟨⟨c, hc, h1⟩, d, hd, h2⟩ := h
  constructor
  · intro he
    exact (lower_eq_self s).1 he c hc h1
  · intro he
    rw [upper] at he
    conv at he => rhs; rw [← List.map_id s]
    rw [List.map_inj_left] at he
    have := he d hd
    simp only [upperChar, id] at this
    rw [if_pos h2] at this
    omega

/-- C26: bounds on what is decoded, and what the string must look like. -/
theorem C26_strict (hrp s : PyStr) (v : Nat) (prog : Bytes) (h : blechDecode hrp s = some (v, prog)) :
    v ≤ 16 ∧ 2 ≤ prog.length ∧ prog.length ≤ 73 ∧ (v = 0 → prog.length = 53 ∨ prog.length = 65)
    ∧ s.length ≤ 1000 ∧ (∀ c ∈ s, 33 ≤ c ∧ c ≤ 126) ∧ ¬ MixedCase s
    ∧ ∃ d : List Nat, d.length = s.length - hrp.length - 1 ∧ (∀ x ∈ d, x < 32)
      ∧ lower s = hrp ++ 49 :: d.map (fun x => CHARSET.getD x 0)
      ∧ polymod (hrpExpand hrp ++ d) = if v = 0 then 1 else 0x455972a3350f7a1 := by
  have h0 := h
  rw [blechDecode_iff] at h
  obtain ⟨⟨h1, h2, h3⟩, hne, ⟨p1, p2, p3, p4⟩, hs⟩ := h
  refine ⟨p1, p2, p3, p4, h3, h1, ?_, _, ?_, textSyms_lt hrp v (by omega) prog, hs, ?_⟩
  · intro hm
    obtain ⟨a, b⟩ := mixed_of_both hm
    rcases h2 with h2 | h2
    · exact a h2
    · exact b h2
  · have := congrArg List.length hs
    rw [length_lower] at this
    rw [this, blechText]
    simp only [List.length_append, List.length_cons, List.length_map]
    omega
  · have := ((checksum_iff (encOf v) hrp (v :: progSyms prog) _).2 rfl).2.2
    rw [this, encConst, encOf]
    by_cases hv : v = 0
    · rw [if_pos hv, if_pos hv]; rfl
    · rw [if_neg hv, if_neg hv]; rfl

/-- C26: mixed case and characters outside 33..126 are refused, under any prefix. -/
theorem C26_refused (hrp s : PyStr) (h : MixedCase s ∨ ∃ c ∈ s, c < 33 ∨ 126 < c) : blechDecode hrp s = none := by
  cases hd : blechDecode hrp s with
  | none => rfl
  | some r =>
    obtain ⟨v, p⟩ := r
    obtain ⟨_, _, _, _, _, h1, h2, _⟩ := C26_strict hrp s v p hd
    rcases h with h | ⟨c, hc, h⟩
    · exact absurd h h2
    · have := h1 c hc
      omega

/-! ### C24: error detection -/

theorem length_filter_eq_of {α β} (p : α → Bool) (q : β → Bool) (l : List α) (f : α → β)
    (h : ∀ a ∈ l, q (f a) = p a) : ((l.map f).filter q).length = (l.filter p).length := by
  rw [List.filter_map, List.length_map]
  congr 1
  apply List.filter_congr
  intro a ha
  exact h a ha

theorem zip_diag (l : List Nat) : l.zip l = l.map fun a => (a, a) := by
  induction l with
  | nil => rfl
  | cons c l ih => simp [List.zip_cons_cons, ih]

theorem xor_eq_zero {a b : Nat} : a ^^^ b = 0 ↔ a = b := by
  constructor
  · intro h
    have : a ^^^ b ^^^ b = 0 ^^^ b := by rw [h]
    rwa [Nat.xor_assoc, Nat.xor_self, Nat.xor_zero, Nat.zero_xor] at this
  · rintro rfl; exact Nat.xor_self a

theorem zipWith_zip (x y : List Nat) : List.zipWith (· ^^^ ·) x y = (x.zip y).map fun p => p.1 ^^^ p.2 := by
  induction x generalizing y with
  | nil => rfl
  | cons a x ih => cases y with
    | nil => rfl
    | cons b y => simp [List.zip_cons_cons, ih]

/-- C24, in terms of any two strings `blech32_decode` accepts with one human readable part and
one checksum variant. -/
theorem C24_raw (s t hrp : PyStr) (e : Encoding) (d d' : List Nat)
    (hs : blech32Decode s = some (e, hrp, d)) (ht : blech32Decode t = some (e, hrp, d'))
    (hlen : s.length = t.length) (hne : lower s ≠ lower t) : 7 ≤ distance s t := by
  rw [blech32Decode_iff] at hs ht
  obtain ⟨⟨_, _, hl⟩, _, hd, hs⟩ := hs
  obtain ⟨_, _, hd', ht⟩ := ht
  obtain ⟨c1, c2, c3⟩ := (checksum_iff e hrp d _).2 rfl
  obtain ⟨c1', c2', c3'⟩ := (checksum_iff e hrp d' _).2 rfl
  have ha : ∀ v ∈ d ++ createChecksum e hrp d, v < 32 := by
    intro v hv
    rcases List.mem_append.1 hv with hv | hv
    · exact hd v hv
    · exact c2 v hv
  have hb : ∀ v ∈ d' ++ createChecksum e hrp d', v < 32 := by
    intro v hv
    rcases List.mem_append.1 hv with hv | hv
    · exact hd' v hv
    · exact c2' v hv
  generalize d ++ createChecksum e hrp d = x at *
  generalize d' ++ createChecksum e hrp d' = y at *
  have hlx : x.length = y.length := by
    have a1 := congrArg List.length hs
    have a2 := congrArg List.length ht
    simp only [length_lower, List.length_append, List.length_cons, List.length_map] at a1 a2
    omega
  have hx1000 : x.length ≤ 1023 := by
    have a1 := congrArg List.length hs
    simp only [length_lower, List.length_append, List.length_cons, List.length_map] at a1
    omega
  -- the difference word
  have hw : ∀ v ∈ List.zipWith (· ^^^ ·) x y, v < 32 := by
    intro v hv
    obtain ⟨i, hi, rfl⟩ := List.getElem_of_mem hv
    rw [List.getElem_zipWith]
    rw [List.length_zipWith] at hi
    exact Nat.xor_lt_two_pow (n := 5) (ha _ (List.getElem_mem _)) (hb _ (List.getElem_mem _))
  have hrun : run 0 (List.zipWith (· ^^^ ·) x y) = 0 := by
    have := run_zip x y (polymod (hrpExpand hrp)) (polymod (hrpExpand hrp)) hlx
    rw [Nat.xor_self, ← polymod_append, ← polymod_append, c3, c3', Nat.xor_self] at this
    exact this
  -- its weight is the distance
  have hweight : ((List.zipWith (· ^^^ ·) x y).filter (· ≠ 0)).length = distance s t := by
    have h1 : distance s t = (((lower s).zip (lower t)).filter fun p => decide (p.1 ≠ p.2)).length := by
      rw [distance, lower, lower, List.zip_map]
      symm
      apply length_filter_eq_of
      rintro ⟨a, b⟩ _
      simp only [Prod.map, ne_eq, lowerChar_same]
    have h2 : (((hrp ++ 49 :: x.map symChar).zip (hrp ++ 49 :: y.map symChar)).filter
        fun p => decide (p.1 ≠ p.2)).length
        = (((x.map symChar).zip (y.map symChar)).filter fun p => decide (p.1 ≠ p.2)).length := by
      rw [List.zip_append rfl, List.filter_append, List.length_append]
      have h0 : ∀ l : List Nat, ((l.zip l).filter fun p => decide (p.1 ≠ p.2)) = [] := by
        intro l
        rw [List.filter_eq_nil_iff]
        rintro ⟨a, b⟩ hm
        have : a = b := by
          rw [zip_diag, List.mem_map] at hm
          obtain ⟨c, _, hc⟩ := hm
          rw [Prod.mk.injEq] at hc
          rw [← hc.1, ← hc.2]
        simp [this]
      rw [h0]
      simp [List.zip_cons_cons]
    have h3 : (((x.map symChar).zip (y.map symChar)).filter fun p => decide (p.1 ≠ p.2)).length
        = ((x.zip y).filter fun p => decide (p.1 ≠ p.2)).length := by
      rw [List.zip_map]
      apply length_filter_eq_of
      rintro ⟨a, b⟩ hm
      have h1 := ha a (List.of_mem_zip hm).1
      have h2 := hb b (List.of_mem_zip hm).2
      have hinj : symChar a = symChar b ↔ a = b := by
        constructor
        · intro h
          rw [← idxOf_symChar a h1, ← idxOf_symChar b h2, h]
        · intro h; rw [h]
      simp only [Prod.map, ne_eq, hinj]
    have h4 : ((List.zipWith (· ^^^ ·) x y).filter (· ≠ 0)).length
        = ((x.zip y).filter fun p => decide (p.1 ≠ p.2)).length := by
      rw [zipWith_zip]
      apply length_filter_eq_of
      rintro ⟨a, b⟩ _
      have : a ^^^ b = 0 ↔ a = b := xor_eq_zero
      simp [this]
    rw [h1, hs, ht, h2, h3, h4]
  by_contra hlt
  have hz := code_distance _ hw (by rw [List.length_zipWith]; omega) (by rw [hweight]; omega) hrun
  apply hne
  have hxy : x = y := by
    apply List.ext_getElem hlx
    intro i h1 h2
    have := hz ((List.zipWith (· ^^^ ·) x y)[i]'(by rw [List.length_zipWith]; omega)) (List.getElem_mem _)
    rw [List.getElem_zipWith, xor_eq_zero] at this
    exact this
  rw [hs, ht, hxy]

/-- C24: two addresses of one length, accepted under one human readable part and with the same
checksum variant, that differ at all in more than letter case, differ in at least seven characters. -/
theorem C24_distance (hrp s t : PyStr) (v v' : Nat) (p p' : Bytes)
    (hs : blechDecode hrp s = some (v, p)) (ht : blechDecode hrp t = some (v', p'))
    (hvar : v = 0 ↔ v' = 0) (hlen : s.length = t.length) (hne : distance s t ≠ 0) : 7 ≤ distance s t := by
  rw [blechDecode_iff] at hs ht
  have henc : encOf v = encOf v' := by
    rw [encOf, encOf]
    by_cases h : v = 0
    · rw [if_pos h, if_pos (hvar.1 h)]
    · rw [if_neg h, if_neg (fun h' => h (hvar.2 h'))]
  have lt1 : ∀ (w : Nat) (q : Bytes), w ≤ 16 → ∀ x ∈ w :: progSyms q, x < 32 := by
    intro w q hw x hx
    rcases List.mem_cons.1 hx with rfl | hx
    · omega
    · exact (progSyms_spec q).1 x hx
  have a := (blech32Decode_iff s (encOf v) hrp (v :: progSyms p)).2
    ⟨hs.1, hs.2.1, lt1 v p hs.2.2.1.1, by rw [hs.2.2.2, blechText]⟩
  have b := (blech32Decode_iff t (encOf v) hrp (v' :: progSyms p')).2
    ⟨ht.1, ht.2.1, lt1 v' p' ht.2.2.1.1, by rw [ht.2.2.2, blechText, henc]⟩
  apply C24_raw s t hrp (encOf v) _ _ a b hlen
  intro he
  apply hne
  rw [distance, List.length_eq_zero_iff, List.filter_eq_nil_iff]
  rintro ⟨c, c'⟩ hm
  obtain ⟨i, hi, hi2⟩ := List.getElem_of_mem hm
  rw [List.getElem_zip, Prod.mk.injEq] at hi2
  rw [List.length_zip] at hi
  have h1 : (lower s)[i]'(by rw [length_lower]; omega) = (lower t)[i]'(by rw [length_lower]; omega) := by
    simp only [he]
  have a1 : (lower s)[i]'(by rw [length_lower]; omega) = lowerChar (s[i]'(by omega)) := by simp [lower]
  have a2 : (lower t)[i]'(by rw [length_lower]; omega) = lowerChar (t[i]'(by omega)) := by simp [lower]
  rw [a1, a2, hi2.1, hi2.2, lowerChar_same] at h1
  simpa using h1

/-- C24: an accepted address in which one to six characters are replaced (by others than the same
letter in the other case) is refused, unless the version symbol moves it to the other variant. -/
theorem C24_detects (hrp s t : PyStr) (v : Nat) (p : Bytes) (hs : blechDecode hrp s = some (v, p))
    (hlen : s.length = t.length) (h1 : 1 ≤ distance s t) (h6 : distance s t ≤ 6) :
    blechDecode hrp t = none ∨ ∃ v' p', blechDecode hrp t = some (v', p') ∧ ¬ (v = 0 ↔ v' = 0) := by
  cases ht : blechDecode hrp t with
  | none => exact Or.inl rfl
  | some r =>
    obtain ⟨v', p'⟩ := r
    refine Or.inr ⟨v', p', rfl, fun hvar => ?_⟩
    have := C24_distance hrp s t v v' p p' hs ht hvar hlen (by omega)
    omega

/-- Distinct payloads do give strings to which the distance theorem applies. -/
example : ∃ s t p p', blechDecode hrpLq s = some (0, p) ∧ blechDecode hrpLq t = some (0, p') ∧ p ≠ p'
    ∧ s.length = t.length := by
  have ok : ∀ p : Bytes, p.length = 53 → ∃ s, blechEncode hrpLq 0 p = .ok (some s) ∧ s.length = 2 + 14 + 85 := by
    intro p hp
    obtain ⟨s, hs⟩ := (C22_encode_iff hrpLq 0 p).2 ⟨by unfold HrpOk; decide,
      ⟨by omega, by omega, by omega, by omega⟩, by rw [hp]; decide⟩
    refine ⟨s, hs, ?_⟩
    rw [blechEncode_iff] at hs
    rw [hs.1, blechText_length, hp]; rfl
  obtain ⟨s, hs, ls⟩ := ok (List.replicate 53 0) (by simp)
  obtain ⟨t, ht, lt⟩ := ok (List.replicate 53 1) (by simp)
  exact ⟨s, t, _, _, C22_roundtrip _ _ _ _ hs, C22_roundtrip _ _ _ _ ht, by decide, by rw [ls, lt]⟩

end Verif
