import Verif.Props.Bech32
import Verif.Props.BlechText
import Verif.Spec.BechText
/-
C108: the text of a segwit address without blinding key, letter by letter.
-/
namespace Verif.Bech
open Spec Spec.BechText
open Verif.BlechText (num_cons letters expand_eq)

/-- Adding digit by digit. -/
theorem num_zip (a b : List Nat) (h : a.length = b.length) (ha : ∀ x ∈ a, x < 32) (hb : ∀ x ∈ b, x < 32) :
    num 5 (List.zipWith (fun x y => x ^^^ y) a b) = num 5 a ^^^ num 5 b := by
  induction a using List.reverseRecOn generalizing b with
  | nil => cases b with
    | nil => rfl
    | cons => cases h
  | append_singleton l x ih =>
    obtain ⟨m, y, rfl⟩ : ∃ m y, b = m ++ [y] := by
      cases b using List.reverseRecOn with
      | nil => simp at h
      | append_singleton m y => exact ⟨m, y, rfl⟩
    have hl : l.length = m.length := by simpa using h
    have hx : x < 32 := ha x (by simp)
    have hy : y < 32 := hb y (by simp)
    have hxy : x ^^^ y < 32 := Nat.xor_lt_two_pow (n := 5) hx hy
    rw [List.zipWith_append hl, List.zipWith_cons_cons, List.zipWith_nil_right, num_append, num_append, num_append,
      ih m hl (fun z hz => ha z (by simp [hz])) (fun z hz => hb z (by simp [hz]))]
    rw [show (2 : Nat) ^ 5 = 32 from rfl, ← xor_digit _ _ hxy, ← xor_digit _ _ hx, ← xor_digit _ _ hy]
    have := Nat.shiftLeft_xor_distrib (a := num 5 l) (b := num 5 m) (i := 5)
    simp only [Nat.shiftLeft_eq, show (2 : Nat) ^ 5 = 32 from rfl] at this
    rw [this]
    ac_rfl

theorem times_lt : ∀ a < 32, ∀ b < 32, times a b < 32 := by decide +kernel

/-- What has to be known about a register of `w + 1` digits for it to hold the remainder. -/
structure Divides (step : Nat → Nat → Nat) (T : Nat → Nat) (g : List Nat) (w : Nat) : Prop where
  len : g.length = w + 1
  coeffs : ∀ x ∈ g, x < 32
  split : ∀ c v, step c v = T c ^^^ v
  linear : ∀ a b, T (a ^^^ b) = T a ^^^ T b
  low : ∀ c < 2 ^ (5 * w), T c = c * 32
  high : ∀ c < 32, T (c * 2 ^ (5 * w)) = num 5 (g.map (times c))

theorem Divides.step_eq {step T g w} (D : Divides step T g w) (c : List Nat) (hc : c.length = w + 1) (hv : ∀ x ∈ c, x < 32) (v : Nat) (h : v < 32) :
    step (num 5 c) v = num 5 (divStep g c v) ∧ (divStep g c v).length = w + 1 ∧ ∀ x ∈ divStep g c v, x < 32 := by
  obtain ⟨c0, r, rfl⟩ : ∃ c0 r, c = c0 :: r := by
    cases c with
    | nil => cases hc
    | cons a l => exact ⟨a, l, rfl⟩
  have hr : r.length = w := by simpa using hc
  have h0 : c0 < 32 := hv c0 (by simp)
  have hrv : ∀ x ∈ r, x < 32 := fun x hx => hv x (by simp [hx])
  have hlt : num 5 r < 2 ^ (5 * w) := by rw [← hr]; exact num_lt 5 r hrv
  have hl : (r ++ [v]).length = (g.map (times c0)).length := by simp [hr, D.len]
  have h1 : ∀ x ∈ r ++ [v], x < 32 := by
    intro x hx
    rcases List.mem_append.1 hx with hx | hx
    · exact hrv x hx
    · rw [List.mem_singleton.1 hx]; exact h
  have h2 : ∀ x ∈ g.map (times c0), x < 32 := by
    intro x hx
    obtain ⟨y, hy, rfl⟩ := List.mem_map.1 hx
    exact times_lt c0 h0 y (D.coeffs y hy)
  have hxor : num 5 (c0 :: r) = (c0 * 2 ^ (5 * w)) ^^^ num 5 r := by
    rw [num_cons, hr, Nat.mul_comm, Nat.two_pow_add_eq_or_of_lt hlt]
    rw [Nat.mul_comm]
    apply Nat.eq_of_testBit_eq
    intro i
    rw [Nat.testBit_or, Nat.testBit_xor, Nat.testBit_mul_two_pow]
    by_cases hi : 5 * w ≤ i
    · rw [Nat.testBit_lt_two_pow (lt_of_lt_of_le hlt (Nat.pow_le_pow_right (by decide) hi))]
      simp
    · simp [hi]
  refine ⟨?_, ?_, ?_⟩
  · rw [D.split, hxor, D.linear, D.low _ hlt, D.high _ h0]
    show _ = num 5 (List.zipWith _ (r ++ [v]) (g.map (times c0)))
    rw [num_zip _ _ hl h1 h2, num_append, show (2 : Nat) ^ 5 = 32 from rfl, ← xor_digit _ _ h]
    ac_rfl
  · show (List.zipWith _ (r ++ [v]) (g.map (times c0))).length = _
    rw [List.length_zipWith, ← hl]
    simp [hr]
  · intro x hx
    show x < 32
    obtain ⟨i, hi, rfl⟩ := List.getElem_of_mem hx
    simp only [divStep, List.tail_cons, List.headD_cons, List.getElem_zipWith]
    exact Nat.xor_lt_two_pow (n := 5) (h1 _ (List.getElem_mem _)) (h2 _ (List.getElem_mem _))

theorem num_zeros (g : List Nat) : num 5 (g.map fun _ => 0) = 0 := by
  induction g using List.reverseRecOn with
  | nil => rfl
  | append_singleton l x ih => rw [List.map_append, List.map_singleton, num_append, ih]; rfl

theorem Divides.divide_eq {step T g w} (D : Divides step T g w) (p : List Nat) (hp : ∀ x ∈ p, x < 32) :
    p.foldl step 0 = num 5 (divide g p) ∧ (divide g p).length = w + 1 ∧ ∀ x ∈ divide g p, x < 32 := by
  induction p using List.reverseRecOn with
  | nil =>
    refine ⟨?_, by simp [divide, D.len], by simp [divide]⟩
    exact (num_zeros g).symm
  | append_singleton l x ih =>
    obtain ⟨h1, h2, h3⟩ := ih fun y hy => hp y (by simp [hy])
    have := D.step_eq _ h2 h3 x (hp x (by simp))
    rw [divide, List.foldl_append, List.foldl_append] at *
    simp only [List.foldl_cons, List.foldl_nil]
    rw [h1]
    exact this

/-- The register of the code. -/
theorem divides : Divides polymodStep stepT Spec.BechText.generator 5 where
  len := rfl
  coeffs := by decide
  split := polymodStep_eq
  linear := stepT_xor
  low := stepT_small
  high := by decide +kernel

theorem good_iff {vs : List Nat} (hv : ∀ v ∈ vs, v < 32) (v : Nat) :
    divide Spec.BechText.generator (1 :: vs) = goal v ↔ polymod vs = encConst (encOf v) := by
  have h1 : ∀ x ∈ 1 :: vs, x < 32 := by
    intro x hx
    rcases List.mem_cons.1 hx with rfl | hx
    · decide
    · exact hv x hx
  obtain ⟨h2, h3, h4⟩ := divides.divide_eq (1 :: vs) h1
  have hs : polymodStep 0 1 = 1 := by decide +kernel
  have h5 : polymod vs = num 5 (divide Spec.BechText.generator (1 :: vs)) := by
    rw [← h2, List.foldl_cons, hs]; rfl
  have hg : num 5 (goal v) = encConst (encOf v) ∧ (goal v).length = 6 ∧ ∀ x ∈ goal v, x < 32 := by
    unfold goal encOf
    by_cases h : v = 0
    · rw [if_pos h, if_pos h]; decide +kernel
    · rw [if_neg h, if_neg h]; decide +kernel
  rw [h5, ← hg.1]
  exact ⟨fun h => by rw [h], fun h => num_inj 5 _ _ h4 hg.2.2 (by rw [h3, hg.2.1]) h⟩

theorem isText_iff {hrp : PyStr} (h : ∀ c ∈ hrp, c ≤ 126) {v : Nat} (hv : v < 32) (prog : Bytes) (s : PyStr) :
    BechText.IsText hrp v prog s ↔ s = bechText hrp v prog := by
  have hx : ∀ d : List Nat, (∀ x ∈ d, x < 32) → ∀ x ∈ hrpExpand hrp ++ d, x < 32 := by
    intro d hd x hx
    rcases List.mem_append.1 hx with hx | hx
    · exact BlechPrefix.expand_lt h x hx
    · exact hd x hx
  have hmap : ∀ d : List Nat, (∀ x ∈ d, x < 32) → d.map letter = d.map symChar := fun d hd =>
    List.map_congr_left fun x hx => letters x (hd x hx)
  constructor
  · rintro ⟨d, cs, rfl, hlt, ⟨z, hz, hb⟩, hl, hr⟩
    rw [← expand_eq] at hr
    have hr := (good_iff (hx _ hlt) v).1 hr
    obtain ⟨p1, z', hz', hb'⟩ := progSyms_spec prog
    have hd : d = progSyms prog := by
      have hdlt : ∀ x ∈ d, x < 2 ^ 5 := fun x hx => hlt x (by simp [hx])
      have l1 := congrArg List.length hb
      have l2 := congrArg List.length hb'
      simp only [length_bitString, List.length_append, List.length_replicate] at l1 l2
      have hzz : z = z' := by omega
      subst hzz
      exact bitString_inj 5 _ _ hdlt p1 (by omega) (by rw [hb, hb'])
    subst hd
    have hcs := (checksum_iff (encOf v) hrp (v :: progSyms prog) cs).1
      ⟨hl, fun x hx => hlt x (List.mem_append_right _ hx), hr⟩
    rw [hmap _ hlt, hcs]
    rfl
  · rintro rfl
    have hlt := textSyms_lt hrp v hv prog
    refine ⟨progSyms prog, createChecksum (encOf v) hrp (v :: progSyms prog), ?_, hlt, (progSyms_spec prog).2,
      createChecksum_length _ _ _, ?_⟩
    · rw [hmap _ hlt]; rfl
    · rw [← expand_eq]
      exact (good_iff (hx _ hlt) v).2 ((checksum_iff (encOf v) hrp (v :: progSyms prog) _).2 rfl).2.2

/-- C108: the address of a version and a program is the human readable part, `1`, and the letters of
version, program and checksum. -/
theorem C108_printed (hrp : PyStr) (v : Nat) (prog : Bytes) (s : PyStr) :
    bechEncode hrp v prog = .ok (some s) ↔
      HrpOk hrp ∧ ProgOk v prog.length ∧ s.length ≤ 90 ∧ BechText.IsText hrp v prog s := by
  rw [bechEncode_iff]
  constructor
  · rintro ⟨rfl, h1, h2, h3⟩
    refine ⟨h1, h2, ?_, (isText_iff (fun c hc => (h1.2 c hc).2.1) (by have := h2.1; omega) prog _).2 rfl⟩
    rw [bechText_length]; exact h3
  · rintro ⟨h1, h2, h3, h4⟩
    have := (isText_iff (fun c hc => (h1.2 c hc).2.1) (by have := h2.1; omega) prog s).1 h4
    subst this
    rw [bechText_length] at h3
    exact ⟨rfl, h1, h2, h3⟩

/-- C108: what is read is such a text in one letter case, and every such text is read. -/
theorem C108_read (hrp s : PyStr) (v : Nat) (prog : Bytes) :
    bechDecode hrp s = some (v, prog) ↔
      HrpOk hrp ∧ ProgOk v prog.length ∧ s.length ≤ 90 ∧ (∀ c ∈ s, 33 ≤ c ∧ c ≤ 126) ∧ ¬ MixedCase s ∧
      ∃ t, BechText.IsText hrp v prog t ∧ List.Forall₂ sameLetter s t := by
  constructor
  · intro h
    obtain ⟨⟨g1, g2, g3⟩, g4, g5, g6⟩ := (bechDecode_iff ..).1 h
    have hv : v < 32 := by have := g5.1; omega
    have hl : (lower s).length = s.length := by simp [lower]
    have ht : bechDecode hrp (bechText hrp v prog) = some (v, prog) := by
      rw [bechDecode_iff, ← g6]
      refine ⟨⟨?_, .inl (lower_lower s), by omega⟩, g4, g5, lower_lower s⟩
      intro c hc
      obtain ⟨d, hd, rfl⟩ := List.mem_map.1 hc
      have := g1 d hd
      unfold lowerChar
      split <;> omega
    obtain ⟨k1, -, -, k4⟩ := (bechDecode_iff ..).1 ht
    have hh := ((text_ok_iff hrp v hv prog).1 ⟨k1, g4, k4⟩).1
    refine ⟨hh, g5, g3, g1, not_mixed.2 g2, _, (isText_iff (fun c hc => (hh.2 c hc).2.1) hv prog _).2 rfl, ?_⟩
    rw [← g6]
    unfold lower
    rw [List.forall₂_map_right_iff, List.forall₂_same]
    intro c _
    rw [← lowerChar_same]
    unfold lowerChar
    split <;> (try split) <;> omega
  · rintro ⟨h1, h2, h3, h4, h5, t, h6, h7⟩
    have ht := (isText_iff (fun c hc => (h1.2 c hc).2.1) (by have := h2.1; omega) prog t).1 h6
    have hl : lower s = lower t := by
      clear h3 h4 h5 h6 ht
      induction h7 with
      | nil => rfl
      | cons hab _ ih =>
        show lowerChar _ :: lower _ = lowerChar _ :: lower _
        rw [(lowerChar_same ..).2 hab, ih]
    refine (bechDecode_iff hrp s v prog).2 ⟨⟨h4, not_mixed.1 h5, h3⟩, h1.1, h2, ?_⟩
    rw [hl, ht]
    refine ((text_ok_iff hrp v (by have := h2.1; omega) prog).2 ⟨h1, ?_⟩).2.2
    have : s.length = t.length := h7.length_eq
    rw [ht, bechText_length] at this
    omega

/-- The addresses of BIP 173 and BIP 350 are such texts; in capitals the first is read too. -/
example :
    BechText.IsText (str "bc") 0 vector0 (str "bc1qw508d6qejxtdg4y5r3zarvary0c5xw7kv8f3t4") ∧
    BechText.IsText (str "bc") 1 vector1 (str "bc1p0xlxvlhemja6c4dqv22uapctqupfhlxm9h8z3k2e72q4k9hcz7vqzk5jj0") ∧
    bechDecode (str "bc") (str "BC1QW508D6QEJXTDG4Y5R3ZARVARY0C5XW7KV8F3T4") = some (0, vector0) := by
  refine ⟨((C108_printed ..).1 ?_).2.2.2, ((C108_printed ..).1 ?_).2.2.2, ?_⟩ <;> decide +kernel

end Verif.Bech
