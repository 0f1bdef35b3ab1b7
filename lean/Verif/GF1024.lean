import Verif.BlechLemmas
import Mathlib.Algebra.CharP.Two
import Mathlib.Algebra.Field.ZMod
import Mathlib.Algebra.CharP.Algebra
import Mathlib.FieldTheory.IsAlgClosed.AlgebraicClosure
import Mathlib.LinearAlgebra.Vandermonde
/-
The blech32 register seen through a field of characteristic two.  `α` is a root of
x^10+x^9+x^8+x^4+x^3+x^2+1; binary polynomials in `α` are written as numbers.
-/
set_option linter.unusedSectionVars false

namespace Verif

/-! ### Binary polynomials as numbers -/

/-- Carry-less product. -/
def clmul (a : Nat) : Nat → Nat
  | b => if h : b = 0 then 0 else (if b % 2 = 1 then a else 0) ^^^ (2 * clmul a (b / 2))
termination_by b => b

/-- Remainder modulo the polynomial 1821, for numbers below `2^20`. -/
def redM (x : Nat) : Nat :=
  [9, 8, 7, 6, 5, 4, 3, 2, 1, 0].foldl (fun x i => if x.testBit (i + 10) then x ^^^ (1821 <<< i) else x) x

def mulM (a b : Nat) : Nat := redM (clmul a b)

/-- `α^k`. -/
def powM : Nat → Nat
  | 0 => 1
  | k + 1 => redM (2 * powM k)

/-- The images of the basis of the 5-bit symbols. -/
def gam (i : Nat) : Nat := [1, 7, 21, 107, 273].getD i 0

/-- XOR of a table over the set bits below `n`. -/
def bitSum (tab : Nat → Nat) : Nat → Nat → Nat
  | 0, _ => 0
  | n + 1, c => bitSum tab n c ^^^ (if c.testBit n then tab n else 0)

def phiM (v : Nat) : Nat := bitSum gam 5 v

/-- Evaluation of a register content at `α^j`. -/
def evalM (j c : Nat) : Nat := bitSum (fun b => mulM (gam (b % 5)) (powM (j * (b / 5)))) 60 c

theorem bitSum_xor (tab : Nat → Nat) (n a b : Nat) :
    bitSum tab n (a ^^^ b) = bitSum tab n a ^^^ bitSum tab n b := by
  induction n with
  | zero => simp [bitSum]
  | succ n ih =>
    simp only [bitSum, ih, Nat.testBit_xor]
    cases a.testBit n <;> cases b.testBit n <;> simp
    · ac_rfl
    · ac_rfl
    · have : tab n ^^^ tab n = 0 := Nat.xor_self _
      calc _ = bitSum tab n a ^^^ bitSum tab n b ^^^ (tab n ^^^ tab n) := by rw [this, Nat.xor_zero]
        _ = _ := by ac_rfl

/-- An additive property holds of every number if it holds of the powers of two. -/
theorem bits_induction {P : Nat → Prop} (n : Nat) (h0 : P 0) (hx : ∀ a b, P a → P b → P (a ^^^ b))
    (hb : ∀ b < n, P (2 ^ b)) (c : Nat) (hc : c < 2 ^ n) : P c := by
  induction n generalizing c with
  | zero =>
    have : c = 0 := by simpa using hc
    rw [this]; exact h0
  | succ n ih =>
    have ih' := ih (fun b hb' => hb b (by omega))
    by_cases h : c < 2 ^ n
    · exact ih' c h
    · have hlt : c - 2 ^ n < 2 ^ n := by rw [Nat.pow_succ] at hc; omega
      have he : c = 2 ^ n ^^^ (c - 2 ^ n) := by
        have h1 : c = 2 ^ n * 1 + (c - 2 ^ n) := by omega
        apply Nat.eq_of_testBit_eq
        intro j
        rw [Nat.testBit_xor]
        conv => lhs; rw [h1, Nat.testBit_two_pow_mul_add _ hlt]
        rw [Nat.testBit_two_pow]
        by_cases hj : j < n
        · simp [hj, show n ≠ j by omega]
        · have hz : (c - 2 ^ n).testBit j = false := Nat.testBit_lt_two_pow
            (Nat.lt_of_lt_of_le hlt (Nat.pow_le_pow_right (by omega) (by omega)))
          rw [if_neg hj, hz, Bool.xor_false]
          by_cases hjn : n = j
          · simp [hjn]
          · have h1 : (1 : Nat) < 2 ^ (j - n) := Nat.one_lt_two_pow (by omega)
            rw [Nat.testBit_lt_two_pow h1]
            simp [hjn]
      rw [he]
      exact hx _ _ (hb n (by omega)) (ih' _ hlt)

/-! ### Finite facts about the tables -/

theorem evalM_stepT_basis : ∀ j ∈ [1, 2, 3, 4, 5, 6], ∀ b < 60,
    evalM j (stepT (2 ^ b)) = mulM (powM j) (evalM j (2 ^ b)) := by decide +kernel

theorem evalM_symbol : ∀ j ∈ [1, 2, 3, 4, 5, 6], ∀ v < 32, evalM j v = phiM v := by decide +kernel

theorem phiM_inv : ∀ v < 32, v ≠ 0 → ∃ s ∈ [1, 260, 378, 108, 107, 126, 366, 20, 109, 21, 106, 18, 367, 381,
    361, 259, 278, 272, 258, 7, 379, 273, 279, 6, 261, 121, 360, 127, 19, 380, 120],
    mulM (phiM v) s = 1 := by decide +kernel

/-- Products of powers of `α`: squares, then the exponents 33, 93 and 341, then inverses. -/
theorem powers : (mulM 2 2 = 4 ∧ mulM 4 4 = 16 ∧ mulM 16 16 = 256 ∧ mulM 256 256 = 124 ∧ mulM 124 124 = 3
      ∧ mulM 3 3 = 5 ∧ mulM 5 5 = 17 ∧ mulM 17 17 = 257)
    ∧ mulM 3 2 = 6
    ∧ (mulM 5 124 = 396 ∧ mulM 396 256 = 632 ∧ mulM 632 16 = 796 ∧ mulM 796 2 = 293)
    ∧ (mulM 257 5 = 536 ∧ mulM 536 124 = 1012 ∧ mulM 1012 16 = 181 ∧ mulM 181 2 = 362)
    ∧ (mulM (362 ^^^ 1) 362 = 1 ∧ mulM (293 ^^^ 1) 263 = 1 ∧ mulM (6 ^^^ 1) 260 = 1)
    ∧ mulM (mulM 362 362) 362 = 1 := by decide +kernel

/-! ### In a field -/

section field
variable {K : Type*} [Field K] [CharP K 2] (α : K)

/-- The value at `α` of the binary polynomial `n`. -/
def ev : Nat → K
  | n => if h : n = 0 then 0 else (if n % 2 = 1 then 1 else 0) + α * ev (n / 2)
termination_by n => n

theorem ev_zero : ev α 0 = 0 := by rw [ev]; simp

theorem ev_rec (n : Nat) : ev α n = (if n % 2 = 1 then 1 else 0) + α * ev α (n / 2) := by
  by_cases h : n = 0
  · subst h; simp [ev_zero]
  · rw [ev]; simp [h]

theorem ev_one : ev α 1 = 1 := by rw [ev_rec]; simp [ev_zero]

theorem ev_double (n : Nat) : ev α (2 * n) = α * ev α n := by
  rw [ev_rec]
  simp

theorem xor_mod_two (a b : Nat) : (a ^^^ b) % 2 = 1 ↔ ¬ (a % 2 = 1 ↔ b % 2 = 1) := by
  have h := Nat.testBit_xor (x := a) (y := b) (i := 0)
  simp only [Nat.testBit_zero] at h
  by_cases h1 : a % 2 = 1 <;> by_cases h2 : b % 2 = 1 <;> simp [h1, h2] at h ⊢ <;> omega

theorem ev_xor (a b : Nat) : ev α (a ^^^ b) = ev α a + ev α b := by
  induction a using Nat.strongRecOn generalizing b with
  | ind a ih =>
    by_cases ha : a = 0
    · subst ha; simp [ev_zero]
    · rw [ev_rec α (a ^^^ b), ev_rec α a, ev_rec α b, Nat.xor_div_two, ih (a / 2) (by omega)]
      have h2 : (1 : K) + 1 = 0 := CharTwo.add_self_eq_zero 1
      by_cases h1 : a % 2 = 1 <;> by_cases h3 : b % 2 = 1
      · rw [if_neg (by rw [xor_mod_two]; simp [h1, h3]), if_pos h1, if_pos h3]
        linear_combination -h2
      · rw [if_pos (by rw [xor_mod_two]; simp [h1, h3]), if_pos h1, if_neg h3]; ring
      · rw [if_pos (by rw [xor_mod_two]; simp [h1, h3]), if_neg h1, if_pos h3]; ring
      · rw [if_neg (by rw [xor_mod_two]; simp [h1, h3]), if_neg h1, if_neg h3]; ring

theorem ev_shl (a k : Nat) : ev α (a <<< k) = α ^ k * ev α a := by
  induction k with
  | zero => simp
  | succ k ih =>
    rw [show a <<< (k + 1) = 2 * (a <<< k) by rw [Nat.shiftLeft_succ], ev_double, ih]
    ring

theorem ev_clmul (a b : Nat) : ev α (clmul a b) = ev α a * ev α b := by
  induction b using Nat.strongRecOn with
  | ind b ih =>
    by_cases hb : b = 0
    · subst hb; rw [clmul]; simp [ev_zero]
    · rw [clmul, dif_neg hb, ev_xor, ev_double, ih (b / 2) (by omega), ev_rec α b]
      split
      · ring
      · rw [ev_zero]; ring

variable (hα : ev α 1821 = 0)
include hα

theorem ev_redM (x : Nat) : ev α (redM x) = ev α x := by
  rw [redM]
  generalize [9, 8, 7, 6, 5, 4, 3, 2, 1, 0] = l
  induction l generalizing x with
  | nil => rfl
  | cons i l ih =>
    rw [List.foldl_cons, ih]
    split
    · rw [ev_xor, ev_shl, hα, mul_zero, add_zero]
    · rfl

theorem ev_mulM (a b : Nat) : ev α (mulM a b) = ev α a * ev α b := by
  rw [mulM, ev_redM α hα, ev_clmul]

theorem ev_powM (k : Nat) : ev α (powM k) = α ^ k := by
  induction k with
  | zero => rw [powM, ev_one, pow_zero]
  | succ k ih => rw [powM, ev_redM α hα, ev_double, ih]; ring

/-- `α` has order 1023. -/
theorem order_alpha : orderOf α = 1023 := by
  obtain ⟨⟨q1, q2, q3, q4, q5, q6, q7, q8⟩, a1, ⟨b1, b2, b3, b4⟩, ⟨c1, c2, c3, c4⟩, ⟨i1, i2, i3⟩, hall⟩ := powers
  have step : ∀ {x y z a b : Nat}, mulM x y = z → ev α x = α ^ a → ev α y = α ^ b → ev α z = α ^ (a + b) := by
    intro x y z a b h hx hy
    rw [← h, ev_mulM α hα, hx, hy, pow_add]
  have e1 : ev α 2 = α ^ 1 := by
    rw [show (2 : Nat) = 2 * 1 from rfl, ev_double, ev_one]; ring
  have e2 := step q1 e1 e1
  have e4 := step q2 e2 e2
  have e8 := step q3 e4 e4
  have e16 := step q4 e8 e8
  have e32 := step q5 e16 e16
  have e64 := step q6 e32 e32
  have e128 := step q7 e64 e64
  have e256 := step q8 e128 e128
  have e33 : ev α 6 = α ^ 33 := step a1 e32 e1
  have e93 : ev α 293 = α ^ 93 := step b4 (step b3 (step b2 (step b1 e64 e16) e8) e4) e1
  have e341 : ev α 362 = α ^ 341 := step c4 (step c3 (step c2 (step c1 e256 e64) e16) e4) e1
  have hpow : α ^ 1023 = 1 := by
    have h := congrArg (ev α) hall
    rw [ev_mulM α hα, ev_mulM α hα, e341, ev_one] at h
    rw [← h]; ring
  have ne : ∀ k x s, ev α x = α ^ k → mulM (x ^^^ 1) s = 1 → α ^ k ≠ 1 := by
    intro k x s hx h he
    have := congrArg (ev α) h
    rw [ev_mulM α hα, ev_xor, hx, ev_one, he, CharTwo.add_self_eq_zero, zero_mul] at this
    exact zero_ne_one this
  have hdvd : orderOf α ∣ 1023 := orderOf_dvd_of_pow_eq_one hpow
  have hmem : orderOf α ∈ [1, 3, 11, 31, 33, 93, 341, 1023] := by
    have hle := Nat.le_of_dvd (by omega) hdvd
    have : ∀ d ≤ 1023, d ∣ 1023 → d ∈ [1, 3, 11, 31, 33, 93, 341, 1023] := by decide +kernel
    exact this _ hle hdvd
  have big : ∀ k, α ^ k ≠ 1 → ¬ orderOf α ∣ k := fun k hk hd => hk (orderOf_dvd_iff_pow_eq_one.1 hd)
  have b1 := big 341 (ne 341 362 362 e341 i1)
  have b2 := big 93 (ne 93 293 263 e93 i2)
  have b3 := big 33 (ne 33 6 260 e33 i3)
  simp only [List.mem_cons, List.not_mem_nil, or_false] at hmem
  rcases hmem with h | h | h | h | h | h | h | h <;> rw [h] at b1 b2 b3 <;>
    first | exact h | exact absurd (by decide) b1 | exact absurd (by decide) b2 | exact absurd (by decide) b3

theorem alpha_ne_zero : α ≠ 0 := by
  rintro rfl
  have := order_alpha (0 : K) hα
  simp at this

theorem phi_ne_zero (v : Nat) (hv : v < 32) (h0 : v ≠ 0) : ev α (phiM v) ≠ 0 := by
  obtain ⟨s, _, hs⟩ := phiM_inv v hv h0
  intro h
  have := congrArg (ev α) hs
  rw [ev_mulM α hα, h, zero_mul, ev_one] at this
  exact zero_ne_one this

/-- Shifting the register multiplies its value at `α^j` by `α^j`. -/
theorem eval_stepT (j : Nat) (hj : j ∈ [1, 2, 3, 4, 5, 6]) (c : Nat) (hc : c < 2 ^ 60) :
    ev α (evalM j (stepT c)) = α ^ j * ev α (evalM j c) := by
  refine bits_induction (P := fun c => ev α (evalM j (stepT c)) = α ^ j * ev α (evalM j c)) 60 ?_ ?_ ?_ c hc
  · have h1 : stepT 0 = 0 := by decide +kernel
    have h2 : evalM j 0 = 0 := by
      have := evalM_symbol j hj 0 (by omega)
      rw [this]; decide +kernel
    simp only [h1, h2, ev_zero, mul_zero]
  · intro a b ha hb
    simp only [stepT_xor, evalM, bitSum_xor, ev_xor] at *
    rw [ha, hb]; ring
  · intro b hb
    show ev α (evalM j (stepT (2 ^ b))) = _
    rw [evalM_stepT_basis j hj b hb, ev_mulM α hα, ev_powM α hα]

theorem eval_run (j : Nat) (hj : j ∈ [1, 2, 3, 4, 5, 6]) (w : List Nat) (hw : ∀ v ∈ w, v < 32)
    (c : Nat) (hc : c < 2 ^ 60) :
    ev α (evalM j (run c w)) = w.foldl (fun a v => a * α ^ j + ev α (phiM v)) (ev α (evalM j c)) := by
  induction w generalizing c with
  | nil => rfl
  | cons v w ih =>
    have hv : v < 32 := hw v (by simp)
    have hlt : polymodStep c v < 2 ^ 60 := by
      rw [polymodStep_eq]
      exact Nat.xor_lt_two_pow (stepT_lt c) (by omega)
    show ev α (evalM j (run (polymodStep c v) w)) = _
    rw [ih (fun x hx => hw x (by simp [hx])) _ hlt, List.foldl_cons]
    congr 1
    rw [polymodStep_eq, evalM, bitSum_xor, ev_xor]
    have e1 := eval_stepT α hα j hj c hc
    have e2 := evalM_symbol j hj v hv
    rw [evalM] at e1 e2
    rw [e1, e2]
    simp only [evalM]
    ring

end field

theorem foldl_sum {K : Type*} [Field K] (x : K) (φ : Nat → K) (w : List Nat) (a : K) :
    w.foldl (fun a v => a * x + φ v) a
      = a * x ^ w.length + ∑ i ∈ Finset.range w.length, φ (w.getD i 0) * x ^ (w.length - 1 - i) := by
  induction w generalizing a with
  | nil => simp
  | cons v w ih =>
    rw [List.foldl_cons, ih, List.length_cons, Finset.sum_range_succ']
    have hs : ∑ i ∈ Finset.range w.length, φ ((v :: w).getD (i + 1) 0) * x ^ (w.length + 1 - 1 - (i + 1))
        = ∑ i ∈ Finset.range w.length, φ (w.getD i 0) * x ^ (w.length - 1 - i) := by
      apply Finset.sum_congr rfl
      intro i _
      rw [List.getD_cons_succ]
      congr 2
      omega
    rw [hs, List.getD_cons_zero]
    simp only [Nat.add_sub_cancel, Nat.sub_zero]
    ring

/-- There is such a field. -/
theorem exists_alpha : ∃ (K : Type) (_ : Field K) (_ : CharP K 2) (α : K), ev α 1821 = 0 := by
  refine ⟨AlgebraicClosure (ZMod 2), inferInstance, charP_of_injective_algebraMap
    (algebraMap (ZMod 2) (AlgebraicClosure (ZMod 2))).injective 2, ?_⟩
  let p : Polynomial (AlgebraicClosure (ZMod 2)) :=
    .X ^ 10 + .X ^ 9 + .X ^ 8 + .X ^ 4 + .X ^ 3 + .X ^ 2 + 1
  have hd : p.degree = 10 := by
    have : p.natDegree = 10 := by
      show Polynomial.natDegree (Polynomial.X ^ 10 + Polynomial.X ^ 9 + Polynomial.X ^ 8 + Polynomial.X ^ 4
        + Polynomial.X ^ 3 + Polynomial.X ^ 2 + 1) = 10
      compute_degree!
    rw [Polynomial.degree_eq_natDegree, this]
    · rfl
    · intro h0; rw [h0] at this; simp at this
  obtain ⟨x, hx⟩ := IsAlgClosed.exists_root p (by rw [hd]; decide)
  refine ⟨x, ?_⟩
  have hx' : x ^ 10 + x ^ 9 + x ^ 8 + x ^ 4 + x ^ 3 + x ^ 2 + 1 = 0 := by
    simpa [p, Polynomial.IsRoot] using hx
  simp only [ev_rec x 1821, ev_rec x 910, ev_rec x 455, ev_rec x 227, ev_rec x 113, ev_rec x 56, ev_rec x 28,
    ev_rec x 14, ev_rec x 7, ev_rec x 3, ev_one, Nat.reduceDiv, Nat.reduceMod, if_true, if_false, ev_zero]
  norm_num
  linear_combination hx'

/-- A word of at most 1023 symbols, at most six of them not zero, that leaves the zero register
at zero is zero: the code has distance at least seven. -/
theorem code_distance (w : List Nat) (hw : ∀ v ∈ w, v < 32) (hn : w.length ≤ 1023)
    (h6 : (w.filter (· ≠ 0)).length ≤ 6) (h : run 0 w = 0) : ∀ v ∈ w, v = 0 := by
  obtain ⟨K, _, _, α, hα⟩ := exists_alpha
  have hα0 := alpha_ne_zero α hα
  have hord := order_alpha α hα
  -- the word vanishes at α, …, α^6
  have hsum : ∀ j ∈ [1, 2, 3, 4, 5, 6],
      ∑ i ∈ Finset.range w.length, ev α (phiM (w.getD i 0)) * (α ^ j) ^ (w.length - 1 - i) = 0 := by
    intro j hj
    have e := eval_run α hα j hj w hw 0 (by omega)
    have hz : evalM j 0 = 0 := by
      have := evalM_symbol j hj 0 (by omega)
      rw [this]; decide +kernel
    rw [h, hz, ev_zero, foldl_sum, zero_mul, zero_add] at e
    exact e.symm
  let S : Finset ℕ := (Finset.range w.length).filter fun i => w.getD i 0 ≠ 0
  have hcard : S.card ≤ 6 := by
    have : S.card = (w.filter (· ≠ 0)).length := by
      have hmap : w = (List.range w.length).map fun i => w.getD i 0 := by
        apply List.ext_getElem
        · simp
        · intro i h1 h2
          simp [List.getElem?_eq_getElem h1]
      conv => rhs; rw [hmap]
      rw [List.filter_map, List.length_map]
      rfl
    omega
  have hphi0 : ev α (phiM 0) = 0 := by
    have : phiM 0 = 0 := by decide +kernel
    rw [this, ev_zero]
  let e := S.equivFin
  let f : Fin S.card → K := fun k => α ^ (w.length - 1 - (e.symm k : ℕ))
  let g : Fin S.card → K := fun k => ev α (phiM (w.getD (e.symm k : ℕ) 0)) * f k
  have hf : Function.Injective f := by
    intro a b hab
    have ha := (e.symm a).2
    have hb := (e.symm b).2
    simp only [S, Finset.mem_filter, Finset.mem_range] at ha hb
    have := pow_injOn_Iio_orderOf (x := α)
      (show w.length - 1 - (e.symm a : ℕ) ∈ Set.Iio (orderOf α) by rw [hord, Set.mem_Iio]; omega)
      (show w.length - 1 - (e.symm b : ℕ) ∈ Set.Iio (orderOf α) by rw [hord, Set.mem_Iio]; omega) hab
    apply e.symm.injective
    apply Subtype.ext
    omega
  have hg : g = 0 := by
    apply Matrix.eq_zero_of_forall_pow_sum_mul_pow_eq_zero hf
    intro i
    have hj : (i : ℕ) + 1 ∈ [1, 2, 3, 4, 5, 6] := by
      have := i.2
      have : (i : ℕ) < 6 := by omega
      interval_cases (i : ℕ) <;> simp
    have hs := hsum _ hj
    have hS : ∑ s ∈ S, ev α (phiM (w.getD s 0)) * (α ^ ((i : ℕ) + 1)) ^ (w.length - 1 - s) = 0 := by
      rw [← hs]
      apply Finset.sum_subset (Finset.filter_subset _ _)
      intro s hs1 hs2
      have : w.getD s 0 = 0 := by
        by_contra hne
        exact hs2 (Finset.mem_filter.2 ⟨hs1, hne⟩)
      rw [this, hphi0, zero_mul]
    rw [← hS, ← Finset.sum_coe_sort S, ← Equiv.sum_comp e.symm]
    apply Finset.sum_congr rfl
    intro k _
    simp only [g, f]
    ring
  intro v hv
  by_contra hne
  obtain ⟨i, hi, rfl⟩ := List.getElem_of_mem hv
  have hmem : i ∈ S := by
    simp only [S, Finset.mem_filter, Finset.mem_range]
    exact ⟨hi, by rw [List.getD_eq_getElem?_getD, List.getElem?_eq_getElem hi]; exact hne⟩
  have hz := congrFun hg (e ⟨i, hmem⟩)
  simp only [g, f, Equiv.symm_apply_apply, Pi.zero_apply, mul_eq_zero,
    List.getD_eq_getElem?_getD, List.getElem?_eq_getElem hi, Option.getD_some] at hz
  rcases hz with hz | hz
  · exact phi_ne_zero α hα _ (hw _ hv) hne hz
  · exact pow_ne_zero _ hα0 hz

end Verif
