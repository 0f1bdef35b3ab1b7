import Verif.ConvertLemmas
/-
The checksum of `liquid_addr.py` is affine over XOR; strings split at the last '1'.
-/
namespace Verif
open Spec

/-! ### The checksum register -/

def gterm (i c : Nat) : Nat := if (c >>> 55 >>> i) &&& 1 ≠ 0 then generator.getD i 0 else 0

def stepT (c : Nat) : Nat :=
  ((c &&& 0x7fffffffffffff) <<< 5) ^^^ gterm 0 c ^^^ gterm 1 c ^^^ gterm 2 c ^^^ gterm 3 c ^^^ gterm 4 c

theorem polymodStep_eq (c v : Nat) : polymodStep c v = stepT c ^^^ v := by
  have : polymodStep c v = (((c &&& 0x7fffffffffffff) <<< 5) ^^^ v) ^^^ gterm 0 c ^^^ gterm 1 c ^^^ gterm 2 c
      ^^^ gterm 3 c ^^^ gterm 4 c := rfl
  rw [this, stepT]
  ac_rfl

theorem gterm_xor (i a b : Nat) : gterm i (a ^^^ b) = gterm i a ^^^ gterm i b := by
  simp only [gterm, Nat.shiftRight_xor_distrib, Nat.and_xor_distrib_right]
  have h : ∀ x : Nat, x &&& 1 = 0 ∨ x &&& 1 = 1 := by
    intro x; rw [Nat.and_one_is_mod]; omega
  rcases h (a >>> 55 >>> i) with h1 | h1 <;> rcases h (b >>> 55 >>> i) with h2 | h2 <;> rw [h1, h2] <;> simp

theorem stepT_xor (a b : Nat) : stepT (a ^^^ b) = stepT a ^^^ stepT b := by
  simp only [stepT, gterm_xor, Nat.and_xor_distrib_right, Nat.shiftLeft_xor_distrib]
  ac_rfl

theorem stepT_lt (c : Nat) : stepT c < 2 ^ 60 := by
  have hg : ∀ i < 5, gterm i c < 2 ^ 60 := by
    intro i hi
    simp only [gterm]
    split
    · exact (by decide +kernel : ∀ i < 5, generator.getD i 0 < 2 ^ 60) i hi
    · decide
  have h0 : (c &&& 0x7fffffffffffff) <<< 5 < 2 ^ 60 := by
    have : c &&& 0x7fffffffffffff ≤ 0x7fffffffffffff := Nat.and_le_right
    rw [Nat.shiftLeft_eq]; omega
  exact Nat.xor_lt_two_pow (Nat.xor_lt_two_pow (Nat.xor_lt_two_pow (Nat.xor_lt_two_pow
    (Nat.xor_lt_two_pow h0 (hg 0 (by omega))) (hg 1 (by omega))) (hg 2 (by omega))) (hg 3 (by omega)))
    (hg 4 (by omega))

theorem stepT_small (c : Nat) (h : c < 2 ^ 55) : stepT c = c * 32 := by
  have h0 : c >>> 55 = 0 := by
    rw [Nat.shiftRight_eq_div_pow]; exact Nat.div_eq_of_lt h
  have hg : ∀ i, gterm i c = 0 := by
    intro i; simp [gterm, h0]
  have hm : c &&& 0x7fffffffffffff = c := by
    have := Nat.and_two_pow_sub_one_eq_mod c 55
    rw [show (2 ^ 55 - 1 : Nat) = 0x7fffffffffffff from rfl] at this
    rw [this, Nat.mod_eq_of_lt h]
  simp [stepT, hg, hm, Nat.shiftLeft_eq]

def run (c : Nat) (vs : List Nat) : Nat := vs.foldl polymodStep c

theorem run_append (c : Nat) (a b : List Nat) : run c (a ++ b) = run (run c a) b := by
  simp [run, List.foldl_append]

theorem polymod_append (a b : List Nat) : polymod (a ++ b) = run (polymod a) b := run_append 1 a b

/-- The register is affine in its start and in its inputs. -/
theorem run_zip (u v : List Nat) (a b : Nat) (h : u.length = v.length) :
    run (a ^^^ b) (List.zipWith (· ^^^ ·) u v) = run a u ^^^ run b v := by
  induction u generalizing v a b with
  | nil => cases v with
    | nil => rfl
    | cons _ _ => simp at h
  | cons x u ih =>
    cases v with
    | nil => simp at h
    | cons y v =>
      have hs : polymodStep (a ^^^ b) (x ^^^ y) = polymodStep a x ^^^ polymodStep b y := by
        simp only [polymodStep_eq, stepT_xor]; ac_rfl
      show run (polymodStep (a ^^^ b) (x ^^^ y)) _ = _
      rw [hs]
      exact ih v _ _ (by simpa using h)

theorem run_split (c : Nat) (cs : List Nat) :
    run c cs = run c (List.replicate cs.length 0) ^^^ run 0 cs := by
  have h := run_zip (List.replicate cs.length 0) cs c 0 (by simp)
  rw [Nat.xor_zero] at h
  rw [← h]
  congr 1
  clear h
  induction cs with
  | nil => rfl
  | cons a l ih => simp [List.replicate_succ, ← ih]

theorem xor_digit (n v : Nat) (hv : v < 32) : (n * 32) ^^^ v = n * 32 + v := by
  apply Nat.eq_of_testBit_eq
  intro j
  rw [Nat.testBit_xor, show n * 32 = 2 ^ 5 * n by omega, Nat.testBit_two_pow_mul_add _ hv,
    Nat.testBit_two_pow_mul]
  by_cases hj : j < 5
  · simp [hj, show ¬ 5 ≤ j by omega]
  · have : v.testBit j = false := Nat.testBit_lt_two_pow (Nat.lt_of_lt_of_le hv
      (Nat.pow_le_pow_right (n := 2) (i := 5) (by omega) (by omega)))
    simp [hj, this, show 5 ≤ j by omega]

/-- Twelve symbols from a zero register are just stored. -/
theorem run_zero (cs : List Nat) (hl : cs.length ≤ 12) (hv : ∀ v ∈ cs, v < 32) : run 0 cs = num 5 cs := by
  induction cs using List.reverseRecOn with
  | nil => rfl
  | append_singleton l a ih =>
    rw [List.length_append, List.length_singleton] at hl
    have hv' : ∀ v ∈ l, v < 32 := fun v hm => hv v (by simp [hm])
    have hlt : num 5 l < 2 ^ 55 := Nat.lt_of_lt_of_le (num_lt 5 l hv')
      (Nat.pow_le_pow_right (by omega) (by omega))
    rw [run_append, ih (by omega) hv', num_append]
    show polymodStep (num 5 l) a = _
    rw [polymodStep_eq, stepT_small _ hlt, xor_digit _ _ (hv a (by simp))]
    rfl

theorem run_zeros_lt (c n : Nat) (hn : 0 < n) : run c (List.replicate n 0) < 2 ^ 60 := by
  obtain ⟨k, rfl⟩ : ∃ k, n = k + 1 := ⟨n - 1, by omega⟩
  rw [List.replicate_succ', run_append]
  show polymodStep _ 0 < _
  rw [polymodStep_eq, Nat.xor_zero]
  exact stepT_lt _

/-- The twelve base 32 digits of a number. -/
def digits12 (p : Nat) : List Nat := (List.range 12).map fun i => (p >>> (5 * (11 - i))) &&& 31

theorem digits12_length (p : Nat) : (digits12 p).length = 12 := by simp [digits12]

theorem digits12_lt (p : Nat) : ∀ v ∈ digits12 p, v < 32 := by
  intro v hv
  simp only [digits12, List.mem_map] at hv
  obtain ⟨i, _, rfl⟩ := hv
  have : ∀ x : Nat, x &&& 31 ≤ 31 := fun _ => Nat.and_le_right
  have := this (p >>> (5 * (11 - i)))
  omega

theorem num_digs (n p : Nat) :
    num 5 ((List.range n).map fun i => (p >>> (5 * (n - 1 - i))) &&& 31) = p % 2 ^ (5 * n) := by
  induction n generalizing p with
  | zero => simp [num, Nat.mod_one]
  | succ n ih =>
    rw [List.range_succ, List.map_append, List.map_singleton, num_append]
    have hc : (List.range n).map (fun i => (p >>> (5 * (n + 1 - 1 - i))) &&& 31)
        = (List.range n).map (fun i => ((p >>> 5) >>> (5 * (n - 1 - i))) &&& 31) := by
      apply List.map_congr_left
      intro i hi
      rw [List.mem_range] at hi
      rw [← Nat.shiftRight_add]
      congr 2
      omega
    rw [hc, ih, show 5 * (n + 1 - 1 - n) = 0 by omega, Nat.shiftRight_zero,
      show p &&& 31 = p % 2 ^ 5 from Nat.and_two_pow_sub_one_eq_mod p 5, Nat.shiftRight_eq_div_pow,
      show 5 * (n + 1) = 5 + 5 * n by omega, Nat.pow_add, Nat.mod_mul]
    ring

theorem num_digits12 (p : Nat) (hp : p < 2 ^ 60) : num 5 (digits12 p) = p := by
  rw [digits12, num_digs 12 p, Nat.mod_eq_of_lt hp]

theorem num_inj (k : Nat) (l m : List Nat) (hl : ∀ v ∈ l, v < 2 ^ k) (hm : ∀ v ∈ m, v < 2 ^ k)
    (hlen : l.length = m.length) (h : num k l = num k m) : l = m := by
  apply bitString_inj k l m hl hm hlen
  rw [bitString_num k l hl, bitString_num k m hm, hlen, h]

def encConst (e : Encoding) : Nat := if e = .bech32m then BECH32M_CONST else BECH32_CONST

theorem encConst_lt (e : Encoding) : encConst e < 2 ^ 60 := by cases e <;> decide +kernel

theorem encConst_inj {e f : Encoding} (h : encConst e = encConst f) : e = f := by
  cases e <;> cases f <;> first | rfl | exact absurd h (by decide +kernel)

theorem createChecksum_eq (e : Encoding) (hrp : PyStr) (data : List Nat) :
    createChecksum e hrp data
      = digits12 (polymod ((hrpExpand hrp ++ data) ++ List.replicate 12 0) ^^^ encConst e) := rfl

/-- The twelve symbols that make the register end at the constant are the created checksum,
and no others. -/
theorem checksum_iff (e : Encoding) (hrp : PyStr) (data cs : List Nat) :
    (cs.length = 12 ∧ (∀ v ∈ cs, v < 32) ∧ polymod (hrpExpand hrp ++ (data ++ cs)) = encConst e)
      ↔ cs = createChecksum e hrp data := by
  have hz : polymod ((hrpExpand hrp ++ data) ++ List.replicate 12 0) < 2 ^ 60 := by
    rw [polymod_append]; exact run_zeros_lt _ 12 (by omega)
  have hp := Nat.xor_lt_two_pow hz (encConst_lt e)
  have key : ∀ cs : List Nat, cs.length = 12 → (∀ v ∈ cs, v < 32) →
      polymod (hrpExpand hrp ++ (data ++ cs))
        = polymod ((hrpExpand hrp ++ data) ++ List.replicate 12 0) ^^^ num 5 cs := by
    intro cs hl hv
    rw [← List.append_assoc, polymod_append _ cs, run_split, hl, run_zero cs (by omega) hv,
      polymod_append _ (List.replicate 12 0)]
  rw [createChecksum_eq]
  constructor
  · rintro ⟨hl, hv, h⟩
    rw [key cs hl hv] at h
    apply num_inj 5 _ _ hv (digits12_lt _) (by rw [hl, digits12_length])
    rw [num_digits12 _ hp, ← h, ← Nat.xor_assoc, Nat.xor_self, Nat.zero_xor]
  · rintro rfl
    refine ⟨digits12_length _, digits12_lt _, ?_⟩
    rw [key _ (digits12_length _) (digits12_lt _), num_digits12 _ hp, ← Nat.xor_assoc, Nat.xor_self,
      Nat.zero_xor]

theorem verifyChecksum_iff (hrp : PyStr) (data : List Nat) (e : Encoding) :
    verifyChecksum hrp data = some e ↔ polymod (hrpExpand hrp ++ data) = encConst e := by
  rw [verifyChecksum]
  have h1 : encConst .bech32 = BECH32_CONST := rfl
  have h2 : encConst .bech32m = BECH32M_CONST := rfl
  have h3 : BECH32_CONST ≠ BECH32M_CONST := by decide +kernel
  by_cases ha : polymod (hrpExpand hrp ++ data) = BECH32_CONST
  · rw [if_pos ha, ha]
    cases e
    · simp [h1]
    · simp only [Option.some.injEq, h2]
      exact ⟨(fun h => nomatch h), fun h => absurd h h3⟩
  · rw [if_neg ha]
    by_cases hb : polymod (hrpExpand hrp ++ data) = BECH32M_CONST
    · rw [if_pos hb, hb]
      cases e
      · simp only [Option.some.injEq, h1]
        exact ⟨(fun h => nomatch h), fun h => absurd h.symm h3⟩
      · simp [h2]
    · rw [if_neg hb]
      cases e
      · simpa [h1] using ha
      · simpa [h2] using hb

/-! ### Characters -/

def symChar (d : Nat) : Nat := CHARSET.getD d 0

theorem charset_length : CHARSET.length = 32 := by decide +kernel

theorem idxOf_symChar : ∀ d < 32, CHARSET.idxOf (symChar d) = d := by decide +kernel

theorem symChar_mem : ∀ d < 32, symChar d ∈ CHARSET := by decide +kernel

theorem charset_facts : ∀ c ∈ CHARSET, symChar (CHARSET.idxOf c) = c ∧ CHARSET.idxOf c < 32 ∧ c ≠ 49
    ∧ lowerChar c = c ∧ 33 ≤ c ∧ c ≤ 126 := by decide +kernel

theorem charsetAt_eq (d : Nat) : charsetAt d = if d < 32 then .ok (symChar d) else .error .indexError := by
  rw [charsetAt]
  by_cases h : d < 32
  · rw [if_pos h, List.getElem?_eq_getElem (by rw [charset_length]; exact h)]
    simp only [symChar, List.getD_eq_getElem?_getD]
    rw [List.getElem?_eq_getElem (by rw [charset_length]; exact h)]
    rfl
  · rw [if_neg h, List.getElem?_eq_none (by rw [charset_length]; omega)]

theorem mapM_charsetAt (l : List Nat) (h : ∀ v ∈ l, v < 32) :
    l.mapM charsetAt = .ok (l.map symChar) := by
  induction l with
  | nil => rfl
  | cons a l ih =>
    rw [List.mapM_cons, charsetAt_eq, if_pos (h a (by simp)), ih fun v hv => h v (by simp [hv])]
    rfl

theorem mapM_charsetAt_err (a : Nat) (l : List Nat) (h : 32 ≤ a) :
    (a :: l).mapM charsetAt = .error .indexError := by
  rw [List.mapM_cons, charsetAt_eq, if_neg (by omega)]
  rfl

/-! ### The last '1' -/

theorem rfind_none {c : Nat} {s : PyStr} (h : c ∉ s) : rfind c s = -1 := by
  rw [rfind]
  have : s.reverse.findIdx? (· == c) = none := by
    rw [List.findIdx?_eq_none_iff]
    intro x hx
    rw [List.mem_reverse] at hx
    simp only [beq_eq_false_iff_ne, ne_eq]
    rintro rfl; exact h hx
  rw [this]

theorem rfind_split {c : Nat} {a b : PyStr} (h : c ∉ b) : rfind c (a ++ c :: b) = a.length := by
  rw [rfind]
  have : (a ++ c :: b).reverse.findIdx? (· == c) = some b.length := by
    have hb : b.reverse.findIdx? (· == c) = none := by
      rw [List.findIdx?_eq_none_iff]
      intro x hx
      rw [List.mem_reverse] at hx
      simp only [beq_eq_false_iff_ne, ne_eq]
      rintro rfl; exact h hx
    rw [List.reverse_append, List.reverse_cons, List.append_assoc, List.findIdx?_append, hb]
    simp [List.findIdx?_cons]
  rw [this]
  simp only [List.length_append, List.length_cons]
  omega

theorem split_last {c : Nat} {s : PyStr} (h : c ∈ s) : ∃ a b, s = a ++ c :: b ∧ c ∉ b := by
  induction s with
  | nil => simp at h
  | cons x s ih =>
    by_cases hs : c ∈ s
    · obtain ⟨a, b, rfl, hb⟩ := ih hs
      exact ⟨x :: a, b, rfl, hb⟩
    · rcases List.mem_cons.1 h with rfl | h'
      · exact ⟨[], s, rfl, hs⟩
      · exact absurd h' hs

/-! ### Strings -/

/-- Printable, not mixed case, at most a thousand characters. -/
def TextOk (s : PyStr) : Prop :=
  (∀ c ∈ s, 33 ≤ c ∧ c ≤ 126) ∧ (lower s = s ∨ upper s = s) ∧ s.length ≤ 1000

theorem length_lower (s : PyStr) : (lower s).length = s.length := by simp [lower]

/-- `blech32_decode` accepts exactly the strings of this shape. -/
theorem blech32Decode_iff (s : PyStr) (e : Encoding) (hrp : PyStr) (data : List Nat) :
    blech32Decode s = some (e, hrp, data) ↔
      TextOk s ∧ hrp ≠ [] ∧ (∀ v ∈ data, v < 32)
      ∧ lower s = hrp ++ 49 :: (data ++ createChecksum e hrp data).map symChar := by
  rw [blech32Decode]
  by_cases h1 : s.any (fun x => decide (x < 33) || decide (x > 126)) || (lower s != s && upper s != s)
  · rw [if_pos h1]
    constructor
    · intro h; cases h
    · rintro ⟨⟨hp, hc, _⟩, _⟩
      exfalso
      rw [Bool.or_eq_true, Bool.and_eq_true, List.any_eq_true] at h1
      rcases h1 with ⟨x, hx, hx2⟩ | ⟨ha, hb⟩
      · have := hp x hx
        simp only [Bool.or_eq_true, decide_eq_true_eq] at hx2
        omega
      · rw [bne_iff_ne] at ha hb
        rcases hc with hc | hc
        · exact ha hc
        · exact hb hc
  · rw [if_neg h1]
    have hp : ∀ c ∈ s, 33 ≤ c ∧ c ≤ 126 := by
      intro c hc
      rw [Bool.or_eq_true, List.any_eq_true] at h1
      by_contra hn
      apply h1; left
      refine ⟨c, hc, ?_⟩
      simp only [Bool.or_eq_true, decide_eq_true_eq]
      omega
    have hcase : lower s = s ∨ upper s = s := by
      by_contra hn
      rw [not_or] at hn
      apply h1
      simp [hn.1, hn.2]
    dsimp only
    have hshape : ∀ (h : PyStr) (t : List Nat), (∀ v ∈ t, v < 32) → 49 ∉ t.map symChar := by
      intro _ t ht hm
      rw [List.mem_map] at hm
      obtain ⟨d, hd, hd2⟩ := hm
      exact (charset_facts _ (symChar_mem d (ht d hd))).2.2.1 hd2
    constructor
    · intro h
      by_cases h2 : rfind 49 (lower s) < 1 ∨ rfind 49 (lower s) + 13 > (lower s).length ∨ (lower s).length > 1000
      · rw [if_pos h2] at h; cases h
      · rw [if_neg h2] at h
        by_cases hm : 49 ∈ lower s
        · obtain ⟨a, b, hab, hb⟩ := split_last hm
          rw [hab] at h h2
          rw [rfind_split hb] at h h2
          rw [Int.toNat_natCast] at h
          rw [List.length_append, List.length_cons] at h2
          have hdrop : (a ++ 49 :: b).drop (a.length + 1) = b := by
            rw [show a ++ 49 :: b = (a ++ [49]) ++ b by simp]
            exact List.drop_left' (by simp)
          have htake : (a ++ 49 :: b).take a.length = a := List.take_left' rfl
          rw [hdrop, htake] at h
          by_cases h3 : (!b.all (CHARSET.contains ·)) = true
          · rw [if_pos h3] at h; cases h
          · rw [if_neg h3] at h
            have hbm : ∀ c ∈ b, c ∈ CHARSET := by
              rw [Bool.not_eq_true, Bool.not_eq_false', List.all_eq_true] at h3
              intro c hc
              have := h3 c hc
              simpa using this
            cases hv : verifyChecksum a (b.map (CHARSET.idxOf ·)) with
            | none => rw [hv] at h; cases h
            | some e' =>
              rw [hv] at h
              simp only [Option.some.injEq, Prod.mk.injEq] at h
              obtain ⟨rfl, rfl, hdata⟩ := h
              rw [verifyChecksum_iff] at hv
              have hall : ∀ v ∈ b.map (CHARSET.idxOf ·), v < 32 := by
                intro v hv
                rw [List.mem_map] at hv
                obtain ⟨c, hc, rfl⟩ := hv
                exact (charset_facts c (hbm c hc)).2.1
              have hsplit : b.map (CHARSET.idxOf ·) = data ++ (b.map (CHARSET.idxOf ·)).drop ((b.map (CHARSET.idxOf ·)).length - 12) := by
                rw [← hdata]; exact (List.take_append_drop _ _).symm
              have hcs := (checksum_iff e' a data ((b.map (CHARSET.idxOf ·)).drop ((b.map (CHARSET.idxOf ·)).length - 12))).1
                ⟨by rw [List.length_drop, List.length_map]; omega,
                 fun v hv => hall v (List.mem_of_mem_drop hv), by rw [← hsplit]; exact hv⟩
              rw [hcs] at hsplit
              refine ⟨⟨hp, hcase, ?_⟩, ?_, ?_, ?_⟩
              · rw [← length_lower, hab, List.length_append, List.length_cons]; omega
              · rintro rfl; simp at h2
              · intro v hv
                exact hall v (by rw [hsplit]; simp [hv])
              · rw [hab, ← hsplit, List.map_map]
                congr 2
                have : ∀ l : List Nat, (∀ c ∈ l, c ∈ CHARSET) → l.map (symChar ∘ (CHARSET.idxOf ·)) = l := by
                  intro l hl
                  calc _ = l.map id := List.map_congr_left fun c hc => (charset_facts c (hl c hc)).1
                    _ = l := List.map_id l
                exact (this b hbm).symm
        · rw [rfind_none hm] at h2
          exact absurd (Or.inl (by omega)) h2
    · rintro ⟨⟨_, _, hlen⟩, hne, hd, hs⟩
      obtain ⟨c1, c2, c3⟩ := (checksum_iff e hrp data _).2 rfl
      have hall : ∀ v ∈ data ++ createChecksum e hrp data, v < 32 := by
        intro v hv
        rw [List.mem_append] at hv
        rcases hv with hv | hv
        · exact hd v hv
        · exact c2 v hv
      have hb := hshape hrp _ hall
      have hpos : 0 < hrp.length := List.length_pos_iff.2 hne
      rw [if_neg, hs, rfind_split hb, Int.toNat_natCast]
      · have hdrop : ∀ b : PyStr, (hrp ++ 49 :: b).drop (hrp.length + 1) = b := by
          intro b
          rw [show hrp ++ 49 :: b = (hrp ++ [49]) ++ b by simp]
          exact List.drop_left' (by simp)
        have htake : ∀ b : PyStr, (hrp ++ 49 :: b).take hrp.length = hrp := fun b => List.take_left' rfl
        rw [hdrop, htake]
        rw [if_neg]
        · have hmap : ((data ++ createChecksum e hrp data).map symChar).map (CHARSET.idxOf ·)
              = data ++ createChecksum e hrp data := by
            rw [List.map_map]
            calc _ = (data ++ createChecksum e hrp data).map id :=
                  List.map_congr_left fun d hd => idxOf_symChar d (hall d hd)
              _ = _ := List.map_id _
          rw [hmap, (verifyChecksum_iff hrp _ e).2 c3]
          simp only [List.length_append, c1]
          rw [show data.length + 12 - 12 = data.length by omega, List.take_left' rfl]
        · rw [Bool.not_eq_true, Bool.not_eq_false', List.all_eq_true]
          intro c hc
          rw [List.mem_map] at hc
          obtain ⟨d, hd, rfl⟩ := hc
          have := symChar_mem d (hall d hd)
          simpa using this
      · have hl2 : (lower s).length ≤ 1000 := by rw [length_lower]; exact hlen
        rw [hs] at hl2 ⊢
        rw [rfind_split hb]
        simp only [List.length_append, List.length_cons, List.length_map, c1] at hl2 ⊢
        omega

end Verif
