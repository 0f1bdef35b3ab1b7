import Verif.Props.Blech
import Verif.Props.BechText
/-
C109: three wrong letters in a segwit address without blinding key are noticed.  As for C24, with the
three roots α^1015, α^1094 and α^1173 of the generator of BIP 173.
-/
set_option linter.unusedSectionVars false
namespace Verif.Bech
open Spec

/-- The three roots. -/
def root (i : Nat) : Nat := [941, 640, 742].getD i 0

def powX (x : Nat) : Nat → Nat
  | 0 => 1
  | k + 1 => mulM x (powX x k)

/-- Evaluation of a register content. -/
def evalX (x c : Nat) : Nat := bitSum (fun b => mulM (gam (b % 5)) (powX x (b / 5))) 30 c

theorem evalX_stepT_basis : ∀ i < 3, ∀ b < 30,
    evalX (root i) (stepT (2 ^ b)) = mulM (root i) (evalX (root i) (2 ^ b)) := by decide +kernel

theorem evalX_symbol : ∀ i < 3, ∀ v < 32, evalX (root i) v = phiM v := by decide +kernel

theorem root_powers : powM 79 = 198 ∧ mulM 941 198 = 640 ∧ mulM 640 198 = 742 := by decide +kernel

theorem root_inv : mulM 941 256 = 1 := by decide +kernel

section field
variable {K : Type*} [Field K] [CharP K 2] (α : K) (hα : ev α 1821 = 0)
include hα

theorem ev_root (i : Nat) (hi : i < 3) : ev α (root i) = ev α 941 * (α ^ 79) ^ i := by
  obtain ⟨h1, h2, h3⟩ := root_powers
  have e : ev α 198 = α ^ 79 := by rw [← h1, ev_powM α hα]
  have e2 : ev α 640 = ev α 941 * α ^ 79 := by rw [← h2, ev_mulM α hα, e]
  have e3 : ev α 742 = ev α 941 * (α ^ 79) ^ 2 := by rw [← h3, ev_mulM α hα, e, e2]; ring
  match i, hi with
  | 0, _ => show ev α 941 = _; simp
  | 1, _ => show ev α 640 = _; rw [e2, pow_one]
  | 2, _ => exact e3

theorem eval_stepT (i : Nat) (hi : i < 3) (c : Nat) (hc : c < 2 ^ 30) :
    ev α (evalX (root i) (stepT c)) = ev α (root i) * ev α (evalX (root i) c) := by
  refine bits_induction (P := fun c => ev α (evalX (root i) (stepT c)) = ev α (root i) * ev α (evalX (root i) c)) 30 ?_ ?_ ?_ c hc
  · have h1 : stepT 0 = 0 := by decide +kernel
    have h2 : evalX (root i) 0 = 0 := by
      rw [evalX_symbol i hi 0 (by omega)]; decide +kernel
    simp only [h1, h2, ev_zero, mul_zero]
  · intro a b ha hb
    simp only [stepT_xor, evalX, bitSum_xor, ev_xor] at *
    rw [ha, hb]; ring
  · intro b hb
    show ev α (evalX (root i) (stepT (2 ^ b))) = _
    rw [evalX_stepT_basis i hi b hb, ev_mulM α hα]

theorem eval_run (i : Nat) (hi : i < 3) (w : List Nat) (hw : ∀ v ∈ w, v < 32) (c : Nat) (hc : c < 2 ^ 30) :
    ev α (evalX (root i) (run c w))
      = w.foldl (fun a v => a * ev α (root i) + ev α (phiM v)) (ev α (evalX (root i) c)) := by
  induction w generalizing c with
  | nil => rfl
  | cons v w ih =>
    have hv : v < 32 := hw v (by simp)
    have hlt : polymodStep c v < 2 ^ 30 := by
      rw [polymodStep_eq]
      exact Nat.xor_lt_two_pow (stepT_lt c) (by omega)
    show ev α (evalX (root i) (run (polymodStep c v) w)) = _
    rw [ih (fun x hx => hw x (by simp [hx])) _ hlt, List.foldl_cons]
    congr 1
    rw [polymodStep_eq, evalX, bitSum_xor, ev_xor]
    have e1 := eval_stepT α hα i hi c hc
    have e2 := evalX_symbol i hi v hv
    rw [evalX] at e1 e2
    rw [e1, e2]
    simp only [evalX]
    ring

end field

/-- A word of at most 1023 symbols, at most three of them not zero, that leaves the zero register at
zero is zero. -/
theorem code_distance (w : List Nat) (hw : ∀ v ∈ w, v < 32) (hn : w.length ≤ 1023)
    (h3 : (w.filter (· ≠ 0)).length ≤ 3) (h : run 0 w = 0) : ∀ v ∈ w, v = 0 := by
  obtain ⟨K, _, _, α, hα⟩ := exists_alpha
  have hord : orderOf (α ^ 79) = 1023 := by
    rw [Nat.Coprime.orderOf_pow (by rw [order_alpha α hα]; decide), order_alpha α hα]
  have hA : ev α 941 ≠ 0 := by
    intro h0
    have := congrArg (ev α) root_inv
    rw [ev_mulM α hα, h0, zero_mul, ev_one] at this
    exact zero_ne_one this
  have hsum : ∀ j < 3,
      ∑ i ∈ Finset.range w.length, ev α (phiM (w.getD i 0)) * (ev α (root j)) ^ (w.length - 1 - i) = 0 := by
    intro j hj
    have e := eval_run α hα j hj w hw 0 (by omega)
    have hz : evalX (root j) 0 = 0 := by
      rw [evalX_symbol j hj 0 (by omega)]; decide +kernel
    rw [h, hz, ev_zero, foldl_sum, zero_mul, zero_add] at e
    exact e.symm
  let S : Finset ℕ := (Finset.range w.length).filter fun i => w.getD i 0 ≠ 0
  have hcard : S.card ≤ 3 := by
    have : S.card = (w.filter (· ≠ 0)).length := by
      have hmap : w = (List.range w.length).map fun i => w.getD i 0 := by
        apply List.ext_getElem
        · simp
        · intro i h1 h2
          simp [List.getElem?_eq_getElem h1]
      conv => rhs; rw [hmap]
      rw [List.filter_map, List.length_map]
      rfl
    omega
  have hphi0 : ev α (phiM 0) = 0 := by
    have : phiM 0 = 0 := by decide +kernel
    rw [this, ev_zero]
  let e := S.equivFin
  let f : Fin S.card → K := fun k => (α ^ 79) ^ (w.length - 1 - (e.symm k : ℕ))
  let g : Fin S.card → K := fun k => ev α (phiM (w.getD (e.symm k : ℕ) 0)) * ev α 941 ^ (w.length - 1 - (e.symm k : ℕ))
  have hf : Function.Injective f := by
    intro a b hab
    have ha := (e.symm a).2
    have hb := (e.symm b).2
    simp only [S, Finset.mem_filter, Finset.mem_range] at ha hb
    have := pow_injOn_Iio_orderOf (x := α ^ 79)
      (show w.length - 1 - (e.symm a : ℕ) ∈ Set.Iio (orderOf (α ^ 79)) by rw [hord, Set.mem_Iio]; omega)
      (show w.length - 1 - (e.symm b : ℕ) ∈ Set.Iio (orderOf (α ^ 79)) by rw [hord, Set.mem_Iio]; omega) hab
    apply e.symm.injective
    apply Subtype.ext
    omega
  have hg : g = 0 := by
    apply Matrix.eq_zero_of_forall_pow_sum_mul_pow_eq_zero hf
    intro i
    have hj : (i : ℕ) < 3 := by have := i.2; omega
    have hs := hsum _ hj
    have hS : ∑ s ∈ S, ev α (phiM (w.getD s 0)) * (ev α (root i)) ^ (w.length - 1 - s) = 0 := by
      rw [← hs]
      apply Finset.sum_subset (Finset.filter_subset _ _)
      intro s hs1 hs2
      have : w.getD s 0 = 0 := by
        by_contra hne
        exact hs2 (Finset.mem_filter.2 ⟨hs1, hne⟩)
      rw [this, hphi0, zero_mul]
    rw [← hS, ← Finset.sum_coe_sort S, ← Equiv.sum_comp e.symm]
    apply Finset.sum_congr rfl
    intro k _
    simp only [g, f]
    rw [ev_root α hα _ hj, mul_pow, ← pow_mul (α ^ 79) (i : ℕ), ← pow_mul (α ^ 79) _ (i : ℕ),
      Nat.mul_comm (i : ℕ), mul_assoc]
  intro v hv
  by_contra hne
  obtain ⟨i, hi, rfl⟩ := List.getElem_of_mem hv
  have hmem : i ∈ S := by
    simp only [S, Finset.mem_filter, Finset.mem_range]
    exact ⟨hi, by rw [List.getD_eq_getElem?_getD, List.getElem?_eq_getElem hi]; exact hne⟩
  have hz := congrFun hg (e ⟨i, hmem⟩)
  simp only [g, Equiv.symm_apply_apply, Pi.zero_apply, mul_eq_zero,
    List.getD_eq_getElem?_getD, List.getElem?_eq_getElem hi, Option.getD_some] at hz
  rcases hz with hz | hz
  · exact phi_ne_zero α hα _ (hw _ (List.getElem_mem _)) hne hz
  · exact pow_ne_zero _ hA hz

/-- In terms of any two strings `bech32_decode` accepts with one human readable part and
one checksum variant. -/
theorem distance_raw (s t hrp : PyStr) (e : Encoding) (d d' : List Nat)
    (hs : bech32Decode s = some (e, hrp, d)) (ht : bech32Decode t = some (e, hrp, d'))
    (hlen : s.length = t.length) (hne : lower s ≠ lower t) : 4 ≤ distance s t := by
  rw [bech32Decode_iff] at hs ht
  obtain ⟨⟨_, _, hl⟩, _, hd, hs⟩ := hs
  obtain ⟨_, _, hd', ht⟩ := ht
  obtain ⟨c1, c2, c3⟩ := (checksum_iff e hrp d _).2 rfl
  obtain ⟨c1', c2', c3'⟩ := (checksum_iff e hrp d' _).2 rfl
  have ha : ∀ v ∈ d ++ createChecksum e hrp d, v < 32 := by
    intro v hv
    rcases List.mem_append.1 hv with hv | hv
    · exact hd v hv
    · exact c2 v hv
  have hb : ∀ v ∈ d' ++ createChecksum e hrp d', v < 32 := by
    intro v hv
    rcases List.mem_append.1 hv with hv | hv
    · exact hd' v hv
    · exact c2' v hv
  generalize d ++ createChecksum e hrp d = x at *
  generalize d' ++ createChecksum e hrp d' = y at *
  have hlx : x.length = y.length := by
    have a1 := congrArg List.length hs
    have a2 := congrArg List.length ht
    simp only [length_lower, List.length_append, List.length_cons, List.length_map] at a1 a2
    omega
  have hx1000 : x.length ≤ 1023 := by
    have a1 := congrArg List.length hs
    simp only [length_lower, List.length_append, List.length_cons, List.length_map] at a1
    omega
  -- the difference word
  have hw : ∀ v ∈ List.zipWith (· ^^^ ·) x y, v < 32 := by
    intro v hv
    obtain ⟨i, hi, rfl⟩ := List.getElem_of_mem hv
    rw [List.getElem_zipWith]
    rw [List.length_zipWith] at hi
    exact Nat.xor_lt_two_pow (n := 5) (ha _ (List.getElem_mem _)) (hb _ (List.getElem_mem _))
  have hrun : run 0 (List.zipWith (· ^^^ ·) x y) = 0 := by
    have := run_zip x y (polymod (hrpExpand hrp)) (polymod (hrpExpand hrp)) hlx
    rw [Nat.xor_self, ← polymod_append, ← polymod_append, c3, c3', Nat.xor_self] at this
    exact this
  -- its weight is the distance
  have hweight : ((List.zipWith (· ^^^ ·) x y).filter (· ≠ 0)).length = distance s t := by
    have h1 : distance s t = (((lower s).zip (lower t)).filter fun p => decide (p.1 ≠ p.2)).length := by
      rw [distance, lower, lower, List.zip_map]
      symm
      apply length_filter_eq_of
      rintro ⟨a, b⟩ _
      simp only [Prod.map, ne_eq, lowerChar_same]
    have h2 : (((hrp ++ 49 :: x.map symChar).zip (hrp ++ 49 :: y.map symChar)).filter
        fun p => decide (p.1 ≠ p.2)).length
        = (((x.map symChar).zip (y.map symChar)).filter fun p => decide (p.1 ≠ p.2)).length := by
      rw [List.zip_append rfl, List.filter_append, List.length_append]
      have h0 : ∀ l : List Nat, ((l.zip l).filter fun p => decide (p.1 ≠ p.2)) = [] := by
        intro l
        rw [List.filter_eq_nil_iff]
        rintro ⟨a, b⟩ hm
        have : a = b := by
          rw [zip_diag, List.mem_map] at hm
          obtain ⟨c, _, hc⟩ := hm
          rw [Prod.mk.injEq] at hc
          rw [← hc.1, ← hc.2]
        simp [this]
      rw [h0]
      simp [List.zip_cons_cons]
    have h3 : (((x.map symChar).zip (y.map symChar)).filter fun p => decide (p.1 ≠ p.2)).length
        = ((x.zip y).filter fun p => decide (p.1 ≠ p.2)).length := by
      rw [List.zip_map]
      apply length_filter_eq_of
      rintro ⟨a, b⟩ hm
      have h1 := ha a (List.of_mem_zip hm).1
      have h2 := hb b (List.of_mem_zip hm).2
      have hinj : symChar a = symChar b ↔ a = b := by
        constructor
        · intro h
          rw [← idxOf_symChar a h1, ← idxOf_symChar b h2, h]
        · intro h; rw [h]
      simp only [Prod.map, ne_eq, hinj]
    have h4 : ((List.zipWith (· ^^^ ·) x y).filter (· ≠ 0)).length
        = ((x.zip y).filter fun p => decide (p.1 ≠ p.2)).length := by
      rw [zipWith_zip]
      apply length_filter_eq_of
      rintro ⟨a, b⟩ _
      have : a ^^^ b = 0 ↔ a = b := xor_eq_zero
      simp [this]
    rw [h1, hs, ht, h2, h3, h4]
  by_contra hlt
  have hz := code_distance _ hw (by rw [List.length_zipWith]; omega) (by rw [hweight]; omega) hrun
  apply hne
  have hxy : x = y := by
    apply List.ext_getElem hlx
    intro i h1 h2
    have := hz ((List.zipWith (· ^^^ ·) x y)[i]'(by rw [List.length_zipWith]; omega)) (List.getElem_mem _)
    rw [List.getElem_zipWith, xor_eq_zero] at this
    exact this
  rw [hs, ht, hxy]

/-- C109: two addresses of one length, accepted under one human readable part and with the same
checksum variant, that differ at all in more than letter case, differ in at least four characters. -/
theorem C109_distance (hrp s t : PyStr) (v v' : Nat) (p p' : Bytes)
    (hs : bechDecode hrp s = some (v, p)) (ht : bechDecode hrp t = some (v', p'))
    (hvar : v = 0 ↔ v' = 0) (hlen : s.length = t.length) (hne : distance s t ≠ 0) : 4 ≤ distance s t := by
  rw [bechDecode_iff] at hs ht
  have henc : encOf v = encOf v' := by
    rw [encOf, encOf]
    by_cases h : v = 0
    · rw [if_pos h, if_pos (hvar.1 h)]
    · rw [if_neg h, if_neg (fun h' => h (hvar.2 h'))]
  have lt1 : ∀ (w : Nat) (q : Bytes), w ≤ 16 → ∀ x ∈ w :: progSyms q, x < 32 := by
    intro w q hw x hx
    rcases List.mem_cons.1 hx with rfl | hx
    · omega
    · exact (progSyms_spec q).1 x hx
  have a := (bech32Decode_iff s (encOf v) hrp (v :: progSyms p)).2
    ⟨hs.1, hs.2.1, lt1 v p hs.2.2.1.1, by rw [hs.2.2.2, bechText]⟩
  have b := (bech32Decode_iff t (encOf v) hrp (v' :: progSyms p')).2
    ⟨ht.1, ht.2.1, lt1 v' p' ht.2.2.1.1, by rw [ht.2.2.2, bechText, henc]⟩
  apply distance_raw s t hrp (encOf v) _ _ a b hlen
  intro he
  apply hne
  rw [distance, List.length_eq_zero_iff, List.filter_eq_nil_iff]
  rintro ⟨c, c'⟩ hm
  obtain ⟨i, hi, hi2⟩ := List.getElem_of_mem hm
  rw [List.getElem_zip, Prod.mk.injEq] at hi2
  rw [List.length_zip] at hi
  have h1 : (lower s)[i]'(by rw [length_lower]; omega) = (lower t)[i]'(by rw [length_lower]; omega) := by
    simp only [he]
  have a1 : (lower s)[i]'(by rw [length_lower]; omega) = lowerChar (s[i]'(by omega)) := by simp [lower]
  have a2 : (lower t)[i]'(by rw [length_lower]; omega) = lowerChar (t[i]'(by omega)) := by simp [lower]
  rw [a1, a2, hi2.1, hi2.2, lowerChar_same] at h1
  simpa using h1

/-- C109: an accepted address in which one to three characters are replaced (by others than the same
letter in the other case) is refused, unless the version symbol moves it to the other variant. -/
theorem C109_detects (hrp s t : PyStr) (v : Nat) (p : Bytes) (hs : bechDecode hrp s = some (v, p))
    (hlen : s.length = t.length) (h1 : 1 ≤ distance s t) (h3 : distance s t ≤ 3) :
    bechDecode hrp t = none ∨ ∃ v' p', bechDecode hrp t = some (v', p') ∧ ¬ (v = 0 ↔ v' = 0) := by
  cases ht : bechDecode hrp t with
  | none => exact Or.inl rfl
  | some r =>
    obtain ⟨v', p'⟩ := r
    refine Or.inr ⟨v', p', rfl, fun hvar => ?_⟩
    have := C109_distance hrp s t v v' p p' hs ht hvar hlen (by omega)
    omega

/-- The address of BIP 173 with one and with two letters changed is refused. -/
example : bechDecode (str "bc") (str "bc1qw508d6qejxtdg4y5r3zarvary0c5xw7kv8f3t4") = some (0, vector0) ∧
    bechDecode (str "bc") (str "bc1qw508d6qejxtdg4y5r3zarvary0c5xw7kv8f3t5") = none ∧
    bechDecode (str "bc") (str "bc1qw508d6qejxtdg4y5r3zarvarp0c5xw7kv8f3q4") = none ∧
    distance (str "bc1qw508d6qejxtdg4y5r3zarvary0c5xw7kv8f3t4") (str "bc1qw508d6qejxtdg4y5r3zarvarp0c5xw7kv8f3q4") = 2 := by
  decide +kernel

end Verif.Bech
