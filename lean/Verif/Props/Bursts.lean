import Verif.Props.BechErrors
import Verif.Spec.Bursts
/-
C110: errors next to each other in an address are noticed.
-/
namespace Verif.Bursts
open Spec Verif.Bech

section register
variable {step : Nat → Nat → Nat} {T : Nat → Nat} {g : List Nat} {w : Nat}

/-- Zeros do not bring a register to zero. -/
theorem zeros (D : Divides step T g w) (hlt : ∀ c, T c < 2 ^ (5 * w + 5)) (hlow : ∀ c < 32, T (c * 2 ^ (5 * w)) % 32 = 0 → c = 0)
    (n c : Nat) (hc : c < 2 ^ (5 * w + 5)) (h : (List.replicate n 0).foldl step c = 0) : c = 0 := by
  induction n generalizing c with
  | zero => exact h
  | succ n ih =>
    rw [List.replicate_succ, List.foldl_cons] at h
    have hs : step c 0 = T c := by rw [D.split, Nat.xor_zero]
    rw [hs] at h
    have h0 := ih _ (hlt c) h
    have hm : c % 2 ^ (5 * w) < 2 ^ (5 * w) := Nat.mod_lt _ (Nat.two_pow_pos _)
    have hd : c / 2 ^ (5 * w) < 32 := by
      rw [Nat.pow_add] at hc
      exact Nat.div_lt_of_lt_mul hc
    have hx : c = (c / 2 ^ (5 * w) * 2 ^ (5 * w)) ^^^ (c % 2 ^ (5 * w)) := by
      conv => lhs; rw [← Nat.div_add_mod c (2 ^ (5 * w))]
      apply Nat.eq_of_testBit_eq
      intro i
      rw [Nat.testBit_two_pow_mul_add _ hm, Nat.testBit_xor, Nat.testBit_mul_two_pow]
      by_cases hi : i < 5 * w
      · rw [if_pos hi]; simp [show ¬ 5 * w ≤ i by omega]
      · rw [if_neg hi, Nat.testBit_lt_two_pow (lt_of_lt_of_le hm (Nat.pow_le_pow_right (by decide) (by omega)))]
        simp [show 5 * w ≤ i by omega]
    rw [hx, D.linear, D.low _ hm, xor_eq_zero] at h0
    have hz := hlow _ hd (by rw [h0]; omega)
    rw [hz, Nat.zero_mul, show T 0 = 0 by simpa using D.low 0 (Nat.two_pow_pos _)] at h0
    rw [hx, hz]
    have : c % 2 ^ (5 * w) = 0 := by omega
    rw [this]; simp

/-- A few symbols are just stored. -/
theorem stored (D : Divides step T g w) (m : List Nat) (hm : ∀ x ∈ m, x < 32) (hl : m.length ≤ w + 1) : m.foldl step 0 = num 5 m := by
  induction m using List.reverseRecOn with
  | nil => rfl
  | append_singleton l x ih =>
    rw [List.length_append, List.length_singleton] at hl
    have hx := hm x (by simp)
    have hl32 : ∀ y ∈ l, y < 32 := fun y hy => hm y (by simp [hy])
    have hn : num 5 l < 2 ^ (5 * w) :=
      lt_of_lt_of_le (num_lt 5 l hl32) (Nat.pow_le_pow_right (by decide) (by omega))
    rw [List.foldl_append, ih hl32 (by omega), List.foldl_cons, List.foldl_nil, D.split, D.low _ hn,
      xor_digit _ _ hx, num_append]; rfl

theorem all_zero {l : List Nat} (h : ∀ x ∈ l, x = 0) : l = List.replicate l.length 0 := List.eq_replicate_iff.2 ⟨rfl, h⟩

/-- A word that is zero but for as many symbols in a row as the register holds, and leaves it at
zero, is zero. -/
theorem burst (D : Divides step T g w) (hlt : ∀ c, T c < 2 ^ (5 * w + 5)) (hlow : ∀ c < 32, T (c * 2 ^ (5 * w)) % 32 = 0 → c = 0)
    (d : List Nat) (hd : ∀ x ∈ d, x < 32) (k : Nat) (hout : ∀ i, i < d.length → (i < k ∨ k + (w + 1) ≤ i) → d.getD i 0 = 0)
    (h : d.foldl step 0 = 0) : ∀ x ∈ d, x = 0 := by
  have hsplit : d = d.take k ++ ((d.drop k).take (w + 1) ++ (d.drop k).drop (w + 1)) := by
    rw [List.take_append_drop, List.take_append_drop]
  have h1 : ∀ x ∈ d.take k, x = 0 := by
    intro x hx
    obtain ⟨i, hi, rfl⟩ := List.getElem_of_mem hx
    rw [List.length_take] at hi
    have := hout i (by omega) (.inl (by omega))
    rw [List.getElem_take]
    simpa [List.getD_eq_getElem?_getD, List.getElem?_eq_getElem (show i < d.length by omega)] using this
  have h2 : ∀ x ∈ (d.drop k).drop (w + 1), x = 0 := by
    intro x hx
    obtain ⟨i, hi, rfl⟩ := List.getElem_of_mem hx
    rw [List.length_drop, List.length_drop] at hi
    have := hout (k + (w + 1 + i)) (by omega) (.inr (by omega))
    rw [List.getElem_drop, List.getElem_drop]
    simpa [List.getD_eq_getElem?_getD, List.getElem?_eq_getElem (show k + (w + 1 + i) < d.length by omega)] using this
  have hm32 : ∀ x ∈ (d.drop k).take (w + 1), x < 32 := fun x hx => hd x (List.mem_of_mem_drop (List.mem_of_mem_take hx))
  have hml : ((d.drop k).take (w + 1)).length ≤ w + 1 := by rw [List.length_take]; omega
  have z0 : ∀ n, (List.replicate n 0).foldl step 0 = 0 := by
    intro n
    have hs : step 0 0 = 0 := by rw [D.split, Nat.xor_zero]; simpa using D.low 0 (Nat.two_pow_pos _)
    induction n with
    | zero => rfl
    | succ n ih => rw [List.replicate_succ, List.foldl_cons, hs, ih]
  rw [hsplit, List.foldl_append, List.foldl_append, all_zero h1, z0, all_zero h2, stored D _ hm32 hml] at h
  have hn := zeros D hlt hlow _ _ (lt_of_lt_of_le (num_lt 5 _ hm32) (Nat.pow_le_pow_right (by decide) (by omega))) h
  have hm : (d.drop k).take (w + 1) = List.replicate ((d.drop k).take (w + 1)).length 0 := by
    apply num_inj 5 _ _ hm32
    · intro x hx; rw [(List.mem_replicate.1 hx).2]; decide
    · simp
    · rw [hn]
      have := num_zeros ((d.drop k).take (w + 1))
      rw [List.map_const'] at this
      exact this.symm
  intro x hx
  rw [hsplit, List.mem_append, List.mem_append] at hx
  rcases hx with hx | hx | hx
  · exact h1 x hx
  · rw [hm] at hx; exact (List.mem_replicate.1 hx).2
  · exact h2 x hx

end register

/-- The register of blech32. -/
theorem blechDivides : Divides Verif.polymodStep Verif.stepT genPoly 11 where
  len := rfl
  coeffs := by decide
  split := Verif.polymodStep_eq
  linear := Verif.stepT_xor
  low := Verif.stepT_small
  high := by decide +kernel

/-- Where texts agree the symbols agree. -/
theorem window {hrp s t x y : List Nat} {n a : Nat} (hs : lower s = hrp ++ 49 :: x.map symChar) (ht : lower t = hrp ++ 49 :: y.map symChar)
    (hx : ∀ v ∈ x, v < 32) (hy : ∀ v ∈ y, v < 32) (hl : x.length = y.length)
    (h : ∀ i, i < s.length → (i < a ∨ a + n ≤ i) → sameLetter (s.getD i 0) (t.getD i 0)) (i : Nat)
    (hi : i < (List.zipWith (fun p q => p ^^^ q) x y).length) (ho : i < a - (hrp.length + 1) ∨ a - (hrp.length + 1) + n ≤ i) :
    (List.zipWith (fun p q => p ^^^ q) x y).getD i 0 = 0 := by
  rw [List.length_zipWith] at hi
  have hlen : ∀ {u z : List Nat}, lower u = hrp ++ 49 :: z.map symChar → u.length = hrp.length + 1 + z.length := by
    intro u z hu
    have := congrArg List.length hu
    simp only [length_lower, List.length_append, List.length_cons, List.length_map] at this
    omega
  have get : ∀ {u z : List Nat}, lower u = hrp ++ 49 :: z.map symChar → ∀ hz : i < z.length,
      lowerChar (u.getD (hrp.length + 1 + i) 0) = symChar (z[i]) := by
    intro u z hu hz
    have hu1 := hlen hu
    have e := congrArg (fun l : List Nat => l[hrp.length + 1 + i]?) hu
    simp only [lower, List.getElem?_map] at e
    rw [List.getElem?_append_right (by omega), show hrp.length + 1 + i - hrp.length = i + 1 by omega, List.getElem?_cons_succ,
      List.getElem?_map, List.getElem?_eq_getElem hz, List.getElem?_eq_getElem (show hrp.length + 1 + i < u.length by omega)] at e
    rw [List.getD_eq_getElem?_getD, List.getElem?_eq_getElem (show hrp.length + 1 + i < u.length by omega)]
    simpa using e
  have hsl := hlen hs
  have hsame := h (hrp.length + 1 + i) (by omega) (by omega)
  rw [← lowerChar_same, get hs (by omega), get ht (by omega)] at hsame
  have hxy : x[i]'(by omega) = y[i]'(by omega) := by
    rw [← idxOf_symChar _ (hx _ (List.getElem_mem (by omega))), ← idxOf_symChar _ (hy _ (List.getElem_mem (by omega))), hsame]
  rw [List.getD_eq_getElem?_getD, List.getElem?_eq_getElem (by rw [List.length_zipWith]; omega), List.getElem_zipWith, hxy, Nat.xor_self]
  rfl

/-- Texts that are the same in lower case differ nowhere. -/
theorem distance_zero {s t : List Nat} (he : lower s = lower t) : distance s t = 0 := by
  rw [distance, List.length_eq_zero_iff, List.filter_eq_nil_iff]
  rintro ⟨c, c'⟩ hm
  obtain ⟨i, hi, hi2⟩ := List.getElem_of_mem hm
  rw [List.getElem_zip, Prod.mk.injEq] at hi2
  rw [List.length_zip] at hi
  have h1 : (lower s)[i]'(by rw [length_lower]; omega) = (lower t)[i]'(by rw [length_lower]; omega) := by
    simp only [he]
  have a1 : (lower s)[i]'(by rw [length_lower]; omega) = lowerChar (s[i]'(by omega)) := by simp [lower]
  have a2 : (lower t)[i]'(by rw [length_lower]; omega) = lowerChar (t[i]'(by omega)) := by simp [lower]
  rw [a1, a2, hi2.1, hi2.2, lowerChar_same] at h1
  simpa using h1

theorem same_word {x y : List Nat} (hlx : x.length = y.length) (hz : ∀ v ∈ List.zipWith (fun p q => p ^^^ q) x y, v = 0) : x = y := by
  apply List.ext_getElem hlx
  intro i h1 h2
  have := hz ((List.zipWith (fun p q => p ^^^ q) x y)[i]'(by rw [List.length_zipWith]; omega)) (List.getElem_mem _)
  rw [List.getElem_zipWith, xor_eq_zero] at this
  exact this

theorem zip_lt {x y : List Nat} (hx : ∀ v ∈ x, v < 32) (hy : ∀ v ∈ y, v < 32) : ∀ v ∈ List.zipWith (fun p q => p ^^^ q) x y, v < 32 := by
  intro v hv
  obtain ⟨i, hi, rfl⟩ := List.getElem_of_mem hv
  rw [List.getElem_zipWith]
  exact Nat.xor_lt_two_pow (n := 5) (hx _ (List.getElem_mem _)) (hy _ (List.getElem_mem _))

theorem enc_same {v v' : Nat} (hvar : v = 0 ↔ v' = 0) : encOf v = encOf v' := by
  rw [encOf, encOf]
  by_cases h : v = 0
  · rw [if_pos h, if_pos (hvar.1 h)]
  · rw [if_neg h, if_neg (fun h' => h (hvar.2 h'))]

/-- C110: two confidential segwit addresses, read under one human readable part and with the same
checksum variant, that differ only within twelve characters in a row are one address. -/
theorem C110_blech (hrp s t : PyStr) (r r' : Nat × Bytes) (hs : blechDecode hrp s = some r) (ht : blechDecode hrp t = some r')
    (hvar : r.1 = 0 ↔ r'.1 = 0) (h : Within 12 s t) : distance s t = 0 ∧ r = r' := by
  obtain ⟨v, p⟩ := r
  obtain ⟨v', p'⟩ := r'
  obtain ⟨hlen, a, ha⟩ := h
  have ht0 := ht
  have hs0 := hs
  rw [blechDecode_iff] at hs ht
  obtain ⟨s1, s2, s3, s4⟩ := hs
  obtain ⟨t1, t2, t3, t4⟩ := ht
  have hv : v < 32 := by have := s3.1; omega
  have hv' : v' < 32 := by have := t3.1; omega
  have c3 := ((Verif.checksum_iff (encOf v) hrp (v :: progSyms p) _).2 rfl).2.2
  have c3' := ((Verif.checksum_iff (encOf v') hrp (v' :: progSyms p') _).2 rfl).2.2
  have hx := Verif.textSyms_lt hrp v hv p
  have hy := Verif.textSyms_lt hrp v' hv' p'
  have e1 := s4
  have e2 := t4
  rw [blechText] at e1 e2
  rw [← enc_same hvar] at c3' hy e2
  generalize (v :: progSyms p) ++ Verif.createChecksum (encOf v) hrp (v :: progSyms p) = x at *
  generalize (v' :: progSyms p') ++ Verif.createChecksum (encOf v) hrp (v' :: progSyms p') = y at *
  have hlx : x.length = y.length := by
    have a1 := congrArg List.length e1
    have a2 := congrArg List.length e2
    simp only [length_lower, List.length_append, List.length_cons, List.length_map] at a1 a2
    omega
  have hrun : (List.zipWith (fun p q => p ^^^ q) x y).foldl Verif.polymodStep 0 = 0 := by
    have := Verif.run_zip x y (Verif.polymod (hrpExpand hrp)) (Verif.polymod (hrpExpand hrp)) hlx
    rw [Nat.xor_self, ← Verif.polymod_append, ← Verif.polymod_append, c3, c3', Nat.xor_self] at this
    exact this
  have hz := burst blechDivides Verif.stepT_lt (by decide +kernel) _ (zip_lt hx hy) (a - (hrp.length + 1))
    (fun i hi ho => window (n := 12) e1 e2 hx hy hlx ha i hi ho) hrun
  have he : lower s = lower t := by rw [e1, e2, same_word hlx hz]
  refine ⟨distance_zero he, ?_⟩
  have : blechDecode hrp s = some (v', p') := (blechDecode_iff ..).2 ⟨s1, s2, t3, by rw [he, t4]⟩
  rw [hs0] at this
  exact Option.some.inj this

/-- C110: the same without blinding key, and within six characters. -/
theorem C110_bech (hrp s t : PyStr) (r r' : Nat × Bytes) (hs : bechDecode hrp s = some r) (ht : bechDecode hrp t = some r')
    (hvar : r.1 = 0 ↔ r'.1 = 0) (h : Within 6 s t) : distance s t = 0 ∧ r = r' := by
  obtain ⟨v, p⟩ := r
  obtain ⟨v', p'⟩ := r'
  obtain ⟨hlen, a, ha⟩ := h
  have ht0 := ht
  have hs0 := hs
  rw [bechDecode_iff] at hs ht
  obtain ⟨s1, s2, s3, s4⟩ := hs
  obtain ⟨t1, t2, t3, t4⟩ := ht
  have hv : v < 32 := by have := s3.1; omega
  have hv' : v' < 32 := by have := t3.1; omega
  have c3 := ((Bech.checksum_iff (encOf v) hrp (v :: progSyms p) _).2 rfl).2.2
  have c3' := ((Bech.checksum_iff (encOf v') hrp (v' :: progSyms p') _).2 rfl).2.2
  have hx := Bech.textSyms_lt hrp v hv p
  have hy := Bech.textSyms_lt hrp v' hv' p'
  have e1 := s4
  have e2 := t4
  rw [bechText] at e1 e2
  rw [← enc_same hvar] at c3' hy e2
  generalize (v :: progSyms p) ++ Bech.createChecksum (encOf v) hrp (v :: progSyms p) = x at *
  generalize (v' :: progSyms p') ++ Bech.createChecksum (encOf v) hrp (v' :: progSyms p') = y at *
  have hlx : x.length = y.length := by
    have a1 := congrArg List.length e1
    have a2 := congrArg List.length e2
    simp only [length_lower, List.length_append, List.length_cons, List.length_map] at a1 a2
    omega
  have hrun : (List.zipWith (fun p q => p ^^^ q) x y).foldl Bech.polymodStep 0 = 0 := by
    have := Bech.run_zip x y (Bech.polymod (hrpExpand hrp)) (Bech.polymod (hrpExpand hrp)) hlx
    rw [Nat.xor_self, ← Bech.polymod_append, ← Bech.polymod_append, c3, c3', Nat.xor_self] at this
    exact this
  have hz := burst Bech.divides Bech.stepT_lt (by decide +kernel) _ (zip_lt hx hy) (a - (hrp.length + 1))
    (fun i hi ho => window (n := 6) e1 e2 hx hy hlx ha i hi ho) hrun
  have he : lower s = lower t := by rw [e1, e2, same_word hlx hz]
  refine ⟨distance_zero he, ?_⟩
  have : bechDecode hrp s = some (v', p') := (bechDecode_iff ..).2 ⟨s1, s2, t3, by rw [he, t4]⟩
  rw [hs0] at this
  exact Option.some.inj this

/-- C110: characters changed within twelve in a row are noticed, unless the version letter moves the
text to the other variant. -/
theorem C110_blech_detects (hrp s t : PyStr) (r : Nat × Bytes) (hs : blechDecode hrp s = some r) (h : Within 12 s t)
    (h1 : 1 ≤ distance s t) : blechDecode hrp t = none ∨ ∃ r', blechDecode hrp t = some r' ∧ ¬ (r.1 = 0 ↔ r'.1 = 0) := by
  cases ht : blechDecode hrp t with
  | none => exact .inl rfl
  | some r' =>
    refine .inr ⟨r', rfl, fun hvar => ?_⟩
    have := (C110_blech hrp s t r r' hs ht hvar h).1
    omega

/-- C110: the same without blinding key, and within six characters. -/
theorem C110_bech_detects (hrp s t : PyStr) (r : Nat × Bytes) (hs : bechDecode hrp s = some r) (h : Within 6 s t)
    (h1 : 1 ≤ distance s t) : bechDecode hrp t = none ∨ ∃ r', bechDecode hrp t = some r' ∧ ¬ (r.1 = 0 ↔ r'.1 = 0) := by
  cases ht : bechDecode hrp t with
  | none => exact .inl rfl
  | some r' =>
    refine .inr ⟨r', rfl, fun hvar => ?_⟩
    have := (C110_bech hrp s t r r' hs ht hvar h).1
    omega

/-- Six letters of an address of BIP 173 are changed. -/
example : bechDecode (str "bc") (str "bc1qw508d6qejxtdg4y5r3zarvary0c5xw7kv8f3t4") = some (0, vector0) ∧
    Within 6 (str "bc1qw508d6qejxtdg4y5r3zarvary0c5xw7kv8f3t4") (str "bc1qw508d6qejxtdg4y5r3zzzzzzz0c5xw7kv8f3t4") ∧
    distance (str "bc1qw508d6qejxtdg4y5r3zarvary0c5xw7kv8f3t4") (str "bc1qw508d6qejxtdg4y5r3zzzzzzz0c5xw7kv8f3t4") = 6 ∧
    bechDecode (str "bc") (str "bc1qw508d6qejxtdg4y5r3zzzzzzz0c5xw7kv8f3t4") = none :=
  ⟨by decide +kernel, ⟨by decide +kernel, 23, by decide +kernel⟩, by decide +kernel, by decide +kernel⟩

/-- Seven in a row may go unnoticed: the addresses of two hashes that differ in the last bit. -/
example : ∃ s t p, bechDecode (str "bc") s = some (0, vector0) ∧ bechDecode (str "bc") t = some (0, p) ∧ Within 7 s t ∧ vector0 ≠ p := by
  refine ⟨str "bc1qw508d6qejxtdg4y5r3zarvary0c5xw7kv8f3t4", (match bechEncode (str "bc") 0 (vector0.dropLast ++ [0xd7]) with | .ok (some t) => t | _ => []),
    vector0.dropLast ++ [0xd7], by decide +kernel, by decide +kernel, ⟨by decide +kernel, 35, by decide +kernel⟩, by decide +kernel⟩

end Verif.Bursts
