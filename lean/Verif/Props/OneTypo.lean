import Verif.Props.Bursts
/-
C111: one to three wrong letters in a confidential segwit address are noticed whatever they are.  If
the difference of the two checksum constants were the remainder of a word with three symbols or less,
its values at α, …, α^6 would determine the places of the symbols, and one of them is farther from the
end than a text is long.
-/
namespace Verif.OneTypo
open Spec

section field
variable {K : Type*} [Field K]

/-- Positions with a symbol. -/
def places (w : List Nat) : Finset ℕ := (Finset.range w.length).filter fun i => w.getD i 0 ≠ 0

theorem card_places (w : List Nat) : (places w).card = (w.filter (· ≠ 0)).length := by
  have hmap : w = (List.range w.length).map fun i => w.getD i 0 := by
    apply List.ext_getElem
    · simp
    · intro i h1 h2
      simp [List.getElem?_eq_getElem h1]
  conv => rhs; rw [hmap]
  rw [List.filter_map, List.length_map]
  rfl

theorem sum_places (w : List Nat) (φ : Nat → K) (h0 : φ 0 = 0) (x : ℕ → K) :
    ∑ i ∈ Finset.range w.length, φ (w.getD i 0) * x i = ∑ i ∈ places w, φ (w.getD i 0) * x i := by
  symm
  apply Finset.sum_subset (Finset.filter_subset _ _)
  intro s hs1 hs2
  have : w.getD s 0 = 0 := by
    by_contra hne
    exact hs2 (Finset.mem_filter.2 ⟨hs1, hne⟩)
  rw [this, h0, zero_mul]

theorem one_term (S : Finset ℕ) (h : S.card ≤ 1) (c x : ℕ → K) : ∃ a X, ∀ j : ℕ, ∑ s ∈ S, c s * x s ^ j = a * X ^ j := by
  rcases Nat.lt_or_eq_of_le h with h | h
  · have : S = ∅ := Finset.card_eq_zero.1 (by omega)
    exact ⟨0, 0, fun j => by rw [this]; simp⟩
  · obtain ⟨s, rfl⟩ := Finset.card_eq_one.1 h
    exact ⟨c s, x s, fun j => by simp⟩

theorem three_terms (S : Finset ℕ) (h : S.card ≤ 3) (c x : ℕ → K) :
    ∃ a b d X Y Z, (∀ j : ℕ, ∑ s ∈ S, c s * x s ^ j = a * X ^ j + b * Y ^ j + d * Z ^ j) ∧
      ∀ R ∈ [X, Y, Z], R = 0 ∨ ∃ s ∈ S, R = x s := by
  have hc : S.card = 0 ∨ S.card = 1 ∨ S.card = 2 ∨ S.card = 3 := by omega
  rcases hc with h | h | h | h
  · have : S = ∅ := Finset.card_eq_zero.1 h
    exact ⟨0, 0, 0, 0, 0, 0, fun j => by rw [this]; simp, by simp⟩
  · obtain ⟨s, rfl⟩ := Finset.card_eq_one.1 h
    exact ⟨c s, 0, 0, x s, 0, 0, fun j => by simp, by simp⟩
  · obtain ⟨s, t, hne, rfl⟩ := Finset.card_eq_two.1 h
    exact ⟨c s, c t, 0, x s, x t, 0, fun j => by rw [Finset.sum_pair hne]; simp, by simp⟩
  · obtain ⟨s, t, u, h1, h2, h3, rfl⟩ := Finset.card_eq_three.1 h
    refine ⟨c s, c t, c u, x s, x t, x u, fun j => ?_, by simp⟩
    rw [Finset.sum_insert (by simp [h1, h2]), Finset.sum_pair h3, add_assoc]

end field

/-- The values of the difference of the constants of blech32 and blech32m, and multipliers that take
them to powers of one number. -/
theorem blech_values : (∀ j ∈ [1, 2, 3, 4, 5, 6], evalM j (Verif.encConst .bech32 ^^^ Verif.encConst .bech32m) = [0, 195, 111, 354, 815, 131, 41].getD j 0) ∧
    (mulM 671 195 ^^^ mulM 551 111 ^^^ mulM 780 354 = 1 ∧ mulM 671 111 ^^^ mulM 551 354 ^^^ mulM 780 815 = 600 ∧
      mulM 671 354 ^^^ mulM 551 815 ^^^ mulM 780 131 = mulM 600 600 ∧
      mulM 671 815 ^^^ mulM 551 131 ^^^ mulM 780 41 = mulM 600 (mulM 600 600)) ∧ mulM (powM 9) 600 = 1 := by
  decide +kernel

/-- The only word of three symbols that could be the difference needs a symbol before the last 1014. -/
theorem blech_coset (w : List Nat) (hw : ∀ v ∈ w, v < 32) (hn : w.length ≤ 1000) (h3 : (w.filter (· ≠ 0)).length ≤ 3) :
    Verif.run 0 w ≠ Verif.encConst .bech32 ^^^ Verif.encConst .bech32m := by
  intro h
  obtain ⟨K, _, _, α, hα⟩ := exists_alpha
  have hphi0 : ev α (phiM 0) = 0 := by
    have : phiM 0 = 0 := by decide +kernel
    rw [this, ev_zero]
  obtain ⟨a, b, d, X, Y, Z, e, hR⟩ := three_terms (places w) (by rw [card_places]; exact h3) (fun i => ev α (phiM (w.getD i 0)))
    (fun i => α ^ (w.length - 1 - i))
  have val : ∀ j ∈ [1, 2, 3, 4, 5, 6], ev α ([0, 195, 111, 354, 815, 131, 41].getD j 0) = a * X ^ j + b * Y ^ j + d * Z ^ j := by
    intro j hj
    have e0 := Verif.eval_run α hα j hj w hw 0 (by omega)
    have hz : evalM j 0 = 0 := by
      rw [evalM_symbol j hj 0 (by omega)]; decide +kernel
    rw [h, blech_values.1 j hj, hz, ev_zero, foldl_sum, zero_mul, zero_add] at e0
    rw [e0, ← e j, ← sum_places w (fun v => ev α (phiM v)) hphi0 (fun i => (α ^ (w.length - 1 - i)) ^ j)]
    apply Finset.sum_congr rfl
    intro i _
    rw [← pow_mul, ← pow_mul, Nat.mul_comm]
  have h1 : ev α 195 = a * X ^ 1 + b * Y ^ 1 + d * Z ^ 1 := val 1 (by simp)
  have h2 : ev α 111 = a * X ^ 2 + b * Y ^ 2 + d * Z ^ 2 := val 2 (by simp)
  have h3 : ev α 354 = a * X ^ 3 + b * Y ^ 3 + d * Z ^ 3 := val 3 (by simp)
  have h4 : ev α 815 = a * X ^ 4 + b * Y ^ 4 + d * Z ^ 4 := val 4 (by simp)
  have h5 : ev α 131 = a * X ^ 5 + b * Y ^ 5 + d * Z ^ 5 := val 5 (by simp)
  have h6 : ev α 41 = a * X ^ 6 + b * Y ^ 6 + d * Z ^ 6 := val 6 (by simp)
  obtain ⟨-, ⟨m0, m1, m2, m3⟩, m4⟩ := blech_values
  have k0 := congrArg (ev α) m0
  have k1 := congrArg (ev α) m1
  have k2 := congrArg (ev α) m2
  have k3 := congrArg (ev α) m3
  have k4 := congrArg (ev α) m4
  simp only [ev_mulM α hα, ev_xor, ev_one, ev_powM α hα] at k0 k1 k2 k3 k4
  have key : (ev α 600 - X) * (ev α 600 - Y) * (ev α 600 - Z) = 0 := by
    have r1 : ev α 815 = (X + Y + Z) * ev α 354 - (X * Y + X * Z + Y * Z) * ev α 111 + X * Y * Z * ev α 195 := by
      rw [h1, h2, h3, h4]; ring
    have r2 : ev α 131 = (X + Y + Z) * ev α 815 - (X * Y + X * Z + Y * Z) * ev α 354 + X * Y * Z * ev α 111 := by
      rw [h2, h3, h4, h5]; ring
    have r3 : ev α 41 = (X + Y + Z) * ev α 131 - (X * Y + X * Z + Y * Z) * ev α 815 + X * Y * Z * ev α 354 := by
      rw [h3, h4, h5, h6]; ring
    linear_combination (ev α 671) * r1 + (ev α 551) * r2 + (ev α 780) * r3 - k3 + (X + Y + Z) * k2
      - (X * Y + X * Z + Y * Z) * k1 + X * Y * Z * k0
  have hα0 := alpha_ne_zero α hα
  have hρ : ev α 600 = α ^ 1014 := by
    have : α ^ 9 * α ^ 1014 = 1 := by
      have := pow_orderOf_eq_one α
      rw [order_alpha α hα] at this
      rw [← pow_add]
      exact this
    exact mul_left_cancel₀ (pow_ne_zero 9 hα0) (k4.trans this.symm)
  have out : ∀ R ∈ [X, Y, Z], ev α 600 - R ≠ 0 := by
    intro R hm h0
    have hR' : α ^ 1014 = R := by rw [← hρ]; exact sub_eq_zero.1 h0
    rcases hR R hm with h | ⟨s, -, h⟩
    · exact pow_ne_zero 1014 hα0 (hR'.trans h)
    · have := pow_injOn_Iio_orderOf (x := α) (show 1014 ∈ Set.Iio (orderOf α) by rw [order_alpha α hα, Set.mem_Iio]; omega)
        (show w.length - 1 - s ∈ Set.Iio (orderOf α) by rw [order_alpha α hα, Set.mem_Iio]; omega) (hR'.trans h)
      omega
  exact mul_ne_zero (mul_ne_zero (out X (by simp)) (out Y (by simp))) (out Z (by simp)) key

/-- The same for bech32 and bech32m at the three roots. -/
theorem bech_values : (∀ i < 3, Bech.evalX (Bech.root i) (Bech.encConst .bech32 ^^^ Bech.encConst .bech32m) = [198, 512, 681].getD i 0) ∧
    mulM (mulM 198 681 ^^^ mulM 512 512) 947 = 1 := by
  decide +kernel

theorem bech_coset (w : List Nat) (hw : ∀ v ∈ w, v < 32) (h1 : (w.filter (· ≠ 0)).length ≤ 1) :
    Bech.run 0 w ≠ Bech.encConst .bech32 ^^^ Bech.encConst .bech32m := by
  intro h
  obtain ⟨K, _, _, α, hα⟩ := exists_alpha
  have hphi0 : ev α (phiM 0) = 0 := by
    have : phiM 0 = 0 := by decide +kernel
    rw [this, ev_zero]
  obtain ⟨a, X, e⟩ := one_term (places w) (by rw [card_places]; exact h1)
    (fun i => ev α (phiM (w.getD i 0)) * ev α 941 ^ (w.length - 1 - i)) (fun i => (α ^ 79) ^ (w.length - 1 - i))
  have val : ∀ j < 3, ev α ([198, 512, 681].getD j 0) = a * X ^ j := by
    intro j hj
    have e0 := Bech.eval_run α hα j hj w hw 0 (by omega)
    have hz : Bech.evalX (Bech.root j) 0 = 0 := by
      rw [Bech.evalX_symbol j hj 0 (by omega)]; decide +kernel
    rw [h, bech_values.1 j hj, hz, ev_zero, foldl_sum, zero_mul, zero_add] at e0
    rw [e0, ← e j, sum_places w (fun v => ev α (phiM v)) hphi0]
    apply Finset.sum_congr rfl
    intro i _
    rw [Bech.ev_root α hα _ hj, mul_pow, ← pow_mul (α ^ 79) j, ← pow_mul (α ^ 79) _ j, Nat.mul_comm j, mul_assoc]
  have v0 : ev α 198 = a * X ^ 0 := val 0 (by omega)
  have v1 : ev α 512 = a * X ^ 1 := val 1 (by omega)
  have v2 : ev α 681 = a * X ^ 2 := val 2 (by omega)
  have hd := congrArg (ev α) bech_values.2
  simp only [ev_mulM α hα, ev_xor, ev_one] at hd
  have hz : ev α 198 * ev α 681 + ev α 512 * ev α 512 = 0 := by
    rw [← CharTwo.sub_eq_add, v0, v1, v2]; ring
  rw [hz, zero_mul] at hd
  exact zero_ne_one hd

/-- The number of letters that differ is the number of symbols of the difference. -/
theorem weight {hrp s t x y : List Nat} (hs : lower s = hrp ++ 49 :: x.map symChar) (ht : lower t = hrp ++ 49 :: y.map symChar)
    (ha : ∀ v ∈ x, v < 32) (hb : ∀ v ∈ y, v < 32) :
    ((List.zipWith (· ^^^ ·) x y).filter (· ≠ 0)).length = distance s t := by
  have h1 : distance s t = (((lower s).zip (lower t)).filter fun p => decide (p.1 ≠ p.2)).length := by
    rw [distance, lower, lower, List.zip_map]
    symm
    apply length_filter_eq_of
    rintro ⟨a, b⟩ _
    simp only [Prod.map, ne_eq, lowerChar_same]
  have h2 : (((hrp ++ 49 :: x.map symChar).zip (hrp ++ 49 :: y.map symChar)).filter
      fun p => decide (p.1 ≠ p.2)).length
      = (((x.map symChar).zip (y.map symChar)).filter fun p => decide (p.1 ≠ p.2)).length := by
    rw [List.zip_append rfl, List.filter_append, List.length_append]
    have h0 : ∀ l : List Nat, ((l.zip l).filter fun p => decide (p.1 ≠ p.2)) = [] := by
      intro l
      rw [List.filter_eq_nil_iff]
      rintro ⟨a, b⟩ hm
      have : a = b := by
        rw [zip_diag, List.mem_map] at hm
        obtain ⟨c, _, hc⟩ := hm
        rw [Prod.mk.injEq] at hc
        rw [← hc.1, ← hc.2]
      simp [this]
    rw [h0]
    simp [List.zip_cons_cons]
  have h3 : (((x.map symChar).zip (y.map symChar)).filter fun p => decide (p.1 ≠ p.2)).length
      = ((x.zip y).filter fun p => decide (p.1 ≠ p.2)).length := by
    rw [List.zip_map]
    apply length_filter_eq_of
    rintro ⟨a, b⟩ hm
    have h1 := ha a (List.of_mem_zip hm).1
    have h2 := hb b (List.of_mem_zip hm).2
    have hinj : symChar a = symChar b ↔ a = b := by
      constructor
      · intro h
        rw [← idxOf_symChar a h1, ← idxOf_symChar b h2, h]
      · intro h; rw [h]
    simp only [Prod.map, ne_eq, hinj]
  have h4 : ((List.zipWith (· ^^^ ·) x y).filter (· ≠ 0)).length
      = ((x.zip y).filter fun p => decide (p.1 ≠ p.2)).length := by
    rw [zipWith_zip]
    apply length_filter_eq_of
    rintro ⟨a, b⟩ _
    have : a ^^^ b = 0 ↔ a = b := xor_eq_zero
    simp [this]
  rw [h1, hs, ht, h2, h3, h4]

/-- C111: confidential segwit addresses of one length under one human readable part, of whatever
versions, that differ in more than letter case differ in four characters or more. -/
theorem C111_blech (hrp s t : PyStr) (r r' : Nat × Bytes) (hs : blechDecode hrp s = some r) (ht : blechDecode hrp t = some r')
    (hlen : s.length = t.length) (hne : distance s t ≠ 0) : 4 ≤ distance s t := by
  obtain ⟨v, p⟩ := r
  obtain ⟨v', p'⟩ := r'
  by_cases hvar : v = 0 ↔ v' = 0
  · have := C24_distance hrp s t v v' p p' hs ht hvar hlen hne
    omega
  · rw [blechDecode_iff] at hs ht
    obtain ⟨s1, s2, s3, s4⟩ := hs
    obtain ⟨t1, t2, t3, t4⟩ := ht
    have hv : v < 32 := by have := s3.1; omega
    have hv' : v' < 32 := by have := t3.1; omega
    have c3 := ((Verif.checksum_iff (encOf v) hrp (v :: progSyms p) _).2 rfl).2.2
    have c3' := ((Verif.checksum_iff (encOf v') hrp (v' :: progSyms p') _).2 rfl).2.2
    have hx := Verif.textSyms_lt hrp v hv p
    have hy := Verif.textSyms_lt hrp v' hv' p'
    rw [blechText] at s4 t4
    generalize (v :: progSyms p) ++ Verif.createChecksum (encOf v) hrp (v :: progSyms p) = x at *
    generalize (v' :: progSyms p') ++ Verif.createChecksum (encOf v') hrp (v' :: progSyms p') = y at *
    have hlx : x.length = y.length := by
      have a1 := congrArg List.length s4
      have a2 := congrArg List.length t4
      simp only [length_lower, List.length_append, List.length_cons, List.length_map] at a1 a2
      omega
    have hrun : Verif.run 0 (List.zipWith (· ^^^ ·) x y) = Verif.encConst (encOf v) ^^^ Verif.encConst (encOf v') := by
      have := Verif.run_zip x y (Verif.polymod (hrpExpand hrp)) (Verif.polymod (hrpExpand hrp)) hlx
      rw [Nat.xor_self, ← Verif.polymod_append, ← Verif.polymod_append, c3, c3'] at this
      exact this
    have hδ : Verif.encConst (encOf v) ^^^ Verif.encConst (encOf v') = Verif.encConst .bech32 ^^^ Verif.encConst .bech32m := by
      unfold encOf
      by_cases h : v = 0
      · rw [if_pos h, if_neg (fun h' => hvar ⟨fun _ => h', fun _ => h⟩)]
      · rw [if_neg h, if_pos (by by_contra h'; exact hvar ⟨fun k => absurd k h, fun k => absurd k h'⟩), Nat.xor_comm]
    have hx1000 : (List.zipWith (· ^^^ ·) x y).length ≤ 1000 := by
      have a1 := congrArg List.length s4
      have a2 := s1.2.2
      simp only [length_lower, List.length_append, List.length_cons, List.length_map] at a1
      rw [List.length_zipWith]
      omega
    by_contra hlt
    exact blech_coset _ (Bursts.zip_lt hx hy) hx1000 (by have := weight s4 t4 hx hy; omega) (hrun.trans hδ)

/-- C111: without blinding key in two or more. -/
theorem C111_bech (hrp s t : PyStr) (r r' : Nat × Bytes) (hs : Bech.bechDecode hrp s = some r) (ht : Bech.bechDecode hrp t = some r')
    (hlen : s.length = t.length) (hne : distance s t ≠ 0) : 2 ≤ distance s t := by
  obtain ⟨v, p⟩ := r
  obtain ⟨v', p'⟩ := r'
  by_cases hvar : v = 0 ↔ v' = 0
  · have := Bech.C109_distance hrp s t v v' p p' hs ht hvar hlen hne
    omega
  · rw [Bech.bechDecode_iff] at hs ht
    obtain ⟨s1, s2, s3, s4⟩ := hs
    obtain ⟨t1, t2, t3, t4⟩ := ht
    have hv : v < 32 := by have := s3.1; omega
    have hv' : v' < 32 := by have := t3.1; omega
    have c3 := ((Bech.checksum_iff (encOf v) hrp (v :: progSyms p) _).2 rfl).2.2
    have c3' := ((Bech.checksum_iff (encOf v') hrp (v' :: progSyms p') _).2 rfl).2.2
    have hx := Bech.textSyms_lt hrp v hv p
    have hy := Bech.textSyms_lt hrp v' hv' p'
    rw [Bech.bechText] at s4 t4
    generalize (v :: progSyms p) ++ Bech.createChecksum (encOf v) hrp (v :: progSyms p) = x at *
    generalize (v' :: progSyms p') ++ Bech.createChecksum (encOf v') hrp (v' :: progSyms p') = y at *
    have hlx : x.length = y.length := by
      have a1 := congrArg List.length s4
      have a2 := congrArg List.length t4
      simp only [length_lower, List.length_append, List.length_cons, List.length_map] at a1 a2
      omega
    have hrun : Bech.run 0 (List.zipWith (· ^^^ ·) x y) = Bech.encConst (encOf v) ^^^ Bech.encConst (encOf v') := by
      have := Bech.run_zip x y (Bech.polymod (hrpExpand hrp)) (Bech.polymod (hrpExpand hrp)) hlx
      rw [Nat.xor_self, ← Bech.polymod_append, ← Bech.polymod_append, c3, c3'] at this
      exact this
    have hδ : Bech.encConst (encOf v) ^^^ Bech.encConst (encOf v') = Bech.encConst .bech32 ^^^ Bech.encConst .bech32m := by
      unfold encOf
      by_cases h : v = 0
      · rw [if_pos h, if_neg (fun h' => hvar ⟨fun _ => h', fun _ => h⟩)]
      · rw [if_neg h, if_pos (by by_contra h'; exact hvar ⟨fun k => absurd k h, fun k => absurd k h'⟩), Nat.xor_comm]
    by_contra hlt
    exact bech_coset _ (Bursts.zip_lt hx hy) (by have := weight s4 t4 hx hy; omega) (hrun.trans hδ)

/-- C111: an address with one to three other letters is refused. -/
theorem C111_blech_refused (hrp s t : PyStr) (r : Nat × Bytes) (hs : blechDecode hrp s = some r) (hlen : s.length = t.length)
    (h1 : 1 ≤ distance s t) (h3 : distance s t ≤ 3) : blechDecode hrp t = none := by
  cases ht : blechDecode hrp t with
  | none => rfl
  | some r' =>
    have := C111_blech hrp s t r r' hs ht hlen (by omega)
    omega

/-- C111: an address without blinding key with one other letter is refused. -/
theorem C111_bech_refused (hrp s t : PyStr) (r : Nat × Bytes) (hs : Bech.bechDecode hrp s = some r) (hlen : s.length = t.length)
    (h1 : distance s t = 1) : Bech.bechDecode hrp t = none := by
  cases ht : Bech.bechDecode hrp t with
  | none => rfl
  | some r' =>
    have := C111_bech hrp s t r r' hs ht hlen (by omega)
    omega

/-- The version letter of an address of BIP 173 is changed from 0 to 1, and that and two more of a
confidential address. -/
example : Bech.bechDecode (Bech.str "bc") (Bech.str "bc1pw508d6qejxtdg4y5r3zarvary0c5xw7kv8f3t4") = none :=
  C111_bech_refused (Bech.str "bc") (Bech.str "bc1qw508d6qejxtdg4y5r3zarvary0c5xw7kv8f3t4") _ (0, Bech.vector0)
    (by decide +kernel) (by decide +kernel) (by decide +kernel)

example : blechDecode hrpLq
    (Bech.str "lq1pqgqsyqcyq5rqwzqfpg9scrgwpugpzysnzs23v9ccrydpk8qarc0jqgfzyvjz2f389q5j52ev95hz7vp3xgengmxpzp2h8y8hh") = none :=
  C111_blech_refused hrpLq
    (Bech.str "lq1qqgqsyqcyq5rqwzqfpg9scrgwpugpzysnzs23v9ccrydpk8qarc0jqgfzyvjz2f389q5j52ev95hz7vp3xgengmxpzp2h8y8ek") _
    (0, 2 :: (List.range' 1 52).map UInt8.ofNat) (by decide +kernel) (by decide +kernel) (by decide +kernel) (by decide +kernel)

end Verif.OneTypo
