import Verif.Spec.BlechText
import Verif.Props.BlechPrefix
/-
C22, C23: the text of an address, letter by letter.
-/
namespace Verif
open Spec BlechPrefix

namespace BlechText

theorem digits12_xor (a b : Nat) : digits12 (a ^^^ b) = List.zipWith (· ^^^ ·) (digits12 a) (digits12 b) := by
  unfold digits12
  rw [List.zipWith_map_left, List.zipWith_map_right, List.zipWith_self]
  apply List.map_congr_left
  intro i _
  rw [Nat.shiftRight_xor_distrib, Nat.and_xor_distrib_right]

theorem digits_comb : ∀ t < 32, digits12 (comb t) = genPoly.map (times t) := by decide +kernel

theorem num_cons (a : Nat) (l : List Nat) : num 5 (a :: l) = a * 2 ^ (5 * l.length) + num 5 l := by
  induction l using List.reverseRecOn with
  | nil => simp [num]
  | append_singleton l x ih =>
    rw [← List.cons_append, num_append, ih, num_append, List.length_append, List.length_singleton, Nat.mul_add, Nat.mul_one,
      Nat.pow_add]
    ring

theorem digits_split {c : Nat} (h : c < 2 ^ 60) : digits12 c = c / 2 ^ 55 :: (digits12 c).tail ∧ num 5 (digits12 c).tail = c % 2 ^ 55 := by
  have hl := digits12_length c
  have hv := digits12_lt c
  have hn := num_digits12 c h
  revert hl hv hn
  cases digits12 c with
  | nil => intro hl; simp at hl
  | cons a l =>
    intro hl hv hn
    have hl : l.length = 11 := by simpa using hl
    rw [num_cons, hl] at hn
    have h2 : num 5 l < 2 ^ 55 := by
      have := num_lt 5 l (fun v hm => hv v (by simp [hm]))
      rwa [hl] at this
    have h1 : c / 2 ^ 55 = a := by omega
    exact ⟨by rw [h1]; rfl, by show num 5 l = _; omega⟩

theorem step_digits {c v : Nat} (h : c < 2 ^ 60) (hv : v < 32) : remStep (digits12 c) v = digits12 (polymodStep c v) := by
  obtain ⟨h1, h2⟩ := digits_split h
  have ht : c / 2 ^ 55 < 32 := Nat.div_lt_of_lt_mul (by omega)
  have hs : polymodStep c v = (c % 2 ^ 55 * 32 + v) ^^^ comb (c / 2 ^ 55) := by
    rw [polymodStep_eq, stepT_comb h, Nat.xor_assoc, Nat.xor_comm _ v, ← Nat.xor_assoc, xor_digit _ _ hv]
  have hlt : c % 2 ^ 55 * 32 + v < 2 ^ 60 := by omega
  have hd : (digits12 c).tail ++ [v] = digits12 (c % 2 ^ 55 * 32 + v) := by
    apply num_inj 5
    · intro x hx
      rcases List.mem_append.1 hx with hx | hx
      · exact digits12_lt c x (List.mem_of_mem_tail hx)
      · simp at hx; subst hx; exact hv
    · exact digits12_lt _
    · simp [digits12_length]
    · rw [num_append, h2, num_digits12 _ hlt]; rfl
  have hh : (digits12 c).headD 0 = c / 2 ^ 55 := by rw [h1]; rfl
  rw [remStep, hd, hh, ← digits_comb _ ht, ← digits12_xor, hs]

theorem run_digits {vs : List Nat} (hv : ∀ v ∈ vs, v < 32) {c : Nat} (h : c < 2 ^ 60) :
    vs.foldl remStep (digits12 c) = digits12 (run c vs) := by
  induction vs generalizing c with
  | nil => rfl
  | cons v vs ih =>
    have hv0 := hv v (by simp)
    have lt : polymodStep c v < 2 ^ 60 := by
      rw [polymodStep_eq]
      exact Nat.xor_lt_two_pow (stepT_lt c) (Nat.lt_of_lt_of_le hv0 (by decide))
    rw [List.foldl_cons, step_digits h hv0, ih (fun w hw => hv w (by simp [hw])) lt]
    rfl

theorem remainder_eq {vs : List Nat} (hv : ∀ v ∈ vs, v < 32) : remainder vs = digits12 (polymod vs) :=
  run_digits hv (c := 1) (by decide)

theorem run_lt {vs : List Nat} (hv : ∀ v ∈ vs, v < 32) {c : Nat} (h : c < 2 ^ 60) : run c vs < 2 ^ 60 := by
  induction vs generalizing c with
  | nil => exact h
  | cons v vs ih =>
    refine ih (fun w hw => hv w (by simp [hw])) ?_
    rw [polymodStep_eq]
    exact Nat.xor_lt_two_pow (stepT_lt c) (Nat.lt_of_lt_of_le (hv v (by simp)) (by decide))

theorem good_iff {vs : List Nat} (hv : ∀ v ∈ vs, v < 32) (v : Nat) :
    remainder vs = goodRemainder v ↔ polymod vs = encConst (encOf v) := by
  have hg : goodRemainder v = digits12 (encConst (encOf v)) := by
    unfold goodRemainder encOf
    by_cases h : v = 0
    · rw [if_pos h, if_pos h]; decide +kernel
    · rw [if_neg h, if_neg h]; decide +kernel
  rw [remainder_eq hv, hg]
  constructor
  · intro h
    have := congrArg (num 5) h
    rwa [num_digits12 _ (show polymod vs < 2 ^ 60 from run_lt hv (c := 1) (by decide)), num_digits12 _ (encConst_lt _)] at this
  · intro h; rw [h]

theorem letters : ∀ v < 32, letter v = symChar v := by decide +kernel

theorem expand_eq (hrp : PyStr) : hrpExpand hrp = hrp.map (· / 32) ++ 0 :: hrp.map (· % 32) := by
  have e1 : ∀ c : Nat, c >>> 5 = c / 32 := fun c => Nat.shiftRight_eq_div_pow c 5
  have e2 : ∀ c : Nat, c &&& 31 = c % 32 := fun c => Nat.and_two_pow_sub_one_eq_mod c 5
  simp only [hrpExpand, e1, e2, List.append_assoc, List.singleton_append]

theorem isText_iff {hrp : PyStr} (h : ∀ c ∈ hrp, c ≤ 126) {v : Nat} (hv : v < 32) (prog : Bytes) (s : PyStr) :
    IsText hrp v prog s ↔ s = blechText hrp v prog := by
  have hx : ∀ d : List Nat, (∀ x ∈ d, x < 32) → ∀ x ∈ hrpExpand hrp ++ d, x < 32 := by
    intro d hd x hx
    rcases List.mem_append.1 hx with hx | hx
    · exact expand_lt h x hx
    · exact hd x hx
  have hmap : ∀ d : List Nat, (∀ x ∈ d, x < 32) → d.map letter = d.map symChar := fun d hd =>
    List.map_congr_left fun x hx => letters x (hd x hx)
  constructor
  · rintro ⟨d, cs, rfl, hlt, ⟨z, hz, hb⟩, hl, hr⟩
    rw [← expand_eq] at hr
    have hr := (good_iff (hx _ hlt) v).1 hr
    obtain ⟨p1, z', hz', hb'⟩ := progSyms_spec prog
    have hd : d = progSyms prog := by
      have hdlt : ∀ x ∈ d, x < 2 ^ 5 := fun x hx => hlt x (by simp [hx])
      have l1 := congrArg List.length hb
      have l2 := congrArg List.length hb'
      simp only [length_bitString, List.length_append, List.length_replicate] at l1 l2
      have hzz : z = z' := by omega
      subst hzz
      exact bitString_inj 5 _ _ hdlt p1 (by omega) (by rw [hb, hb'])
    subst hd
    have hcs := (checksum_iff (encOf v) hrp (v :: progSyms prog) cs).1
      ⟨hl, fun x hx => hlt x (List.mem_append_right _ hx), hr⟩
    rw [hmap _ hlt, hcs]
    rfl
  · rintro rfl
    have hlt := textSyms_lt hrp v hv prog
    refine ⟨progSyms prog, createChecksum (encOf v) hrp (v :: progSyms prog), ?_, hlt, (progSyms_spec prog).2,
      createChecksum_length _ _ _, ?_⟩
    · rw [hmap _ hlt]; rfl
    · rw [← expand_eq]
      exact (good_iff (hx _ hlt) v).2 ((checksum_iff (encOf v) hrp (v :: progSyms prog) _).2 rfl).2.2

end BlechText
open BlechText

/-- C22, the text: the address of a version and a program is the human readable part, `1`, and the
letters of version, program and checksum. -/
theorem C22_text (hrp : PyStr) (v : Nat) (prog : Bytes) (s : PyStr) :
    blechEncode hrp v prog = .ok (some s) ↔
      HrpOk hrp ∧ ProgOk v prog.length ∧ s.length ≤ 1000 ∧ IsText hrp v prog s := by
  rw [blechEncode_iff]
  constructor
  · rintro ⟨rfl, h1, h2, h3⟩
    refine ⟨h1, h2, ?_, (isText_iff (fun c hc => (h1.2 c hc).2.1) (by have := h2.1; omega) prog _).2 rfl⟩
    rw [blechText_length]; exact h3
  · rintro ⟨h1, h2, h3, h4⟩
    have := (isText_iff (fun c hc => (h1.2 c hc).2.1) (by have := h2.1; omega) prog s).1 h4
    subst this
    rw [blechText_length] at h3
    exact ⟨rfl, h1, h2, h3⟩

theorem not_mixed {s : PyStr} : ¬ MixedCase s ↔ lower s = s ∨ upper s = s := by
  constructor
  · intro h
    by_cases h1 : ∃ c ∈ s, 65 ≤ c ∧ c ≤ 90
    · right
      have h2 : ∀ c ∈ s, ¬ (97 ≤ c ∧ c ≤ 122) := fun c hc h3 => h ⟨h1, c, hc, h3⟩
      unfold upper
      have : s.map upperChar = s.map id := List.map_congr_left fun c hc => if_neg (h2 c hc)
      rw [this, List.map_id]
    · exact .inl ((lower_eq_self s).2 fun c hc h3 => h1 ⟨c, hc, h3⟩)
  · intro h hm
    obtain ⟨a, b⟩ := mixed_of_both hm
    rcases h with h | h
    · exact a h
    · exact b h

/-- C23, the text: what is read is such a text in one letter case, and every such text is read. -/
theorem C23_text (hrp s : PyStr) (v : Nat) (prog : Bytes) :
    blechDecode hrp s = some (v, prog) ↔
      HrpOk hrp ∧ ProgOk v prog.length ∧ s.length ≤ 1000 ∧ (∀ c ∈ s, 33 ≤ c ∧ c ≤ 126) ∧ ¬ MixedCase s ∧
      ∃ t, IsText hrp v prog t ∧ List.Forall₂ sameLetter s t := by
  constructor
  · intro h
    have he := C23_canonical hrp s v prog h
    obtain ⟨h1, h2, h3, h4⟩ := (C22_text ..).1 he
    obtain ⟨-, -, -, -, g1, g2, g3, -⟩ := C26_strict hrp s v prog h
    refine ⟨h1, h2, g1, g2, g3, _, h4, ?_⟩
    unfold lower
    rw [List.forall₂_map_right_iff, List.forall₂_same]
    intro c _
    rw [← lowerChar_same]
    unfold lowerChar
    split <;> (try split) <;> omega
  · rintro ⟨h1, h2, h3, h4, h5, t, h6, h7⟩
    have ht := (isText_iff (fun c hc => (h1.2 c hc).2.1) (by have := h2.1; omega) prog t).1 h6
    have hl : lower s = lower t := by
      clear h3 h4 h5 h6 ht
      induction h7 with
      | nil => rfl
      | cons hab _ ih =>
        show lowerChar _ :: lower _ = lowerChar _ :: lower _
        rw [(lowerChar_same ..).2 hab, ih]
    refine (blechDecode_iff hrp s v prog).2 ⟨⟨h4, not_mixed.1 h5, h3⟩, h1.1, h2, ?_⟩
    rw [hl, ht]
    refine ((text_ok_iff hrp v (by have := h2.1; omega) prog).2 ⟨h1, ?_⟩).2.2
    have : s.length = t.length := h7.length_eq
    rw [ht, blechText_length] at this
    omega

/-- A blinding pubkey and key hash under `lq`, for version 0 and, twelve bytes longer, version 1, and
the same in capitals. -/
example :
    IsText hrpLq 0 (2 :: (List.range' 1 52).map UInt8.ofNat)
      ("lq1qqgqsyqcyq5rqwzqfpg9scrgwpugpzysnzs23v9ccrydpk8qarc0jqgfzyvjz2f389q5j52ev95hz7vp3xgengmxpzp2h8y8ek".toList.map
        Char.toNat) ∧
    IsText hrpLq 1 (2 :: (List.range' 1 64).map UInt8.ofNat)
      ("lq1pqgqsyqcyq5rqwzqfpg9scrgwpugpzysnzs23v9ccrydpk8qarc0jqgfzyvjz2f389q5j52ev95hz7vp3xgengdfkxuurjw3m8s7nu06qzp7dvmv3kmj0".toList.map
        Char.toNat) ∧
    blechDecode hrpLq
      ("LQ1QQGQSYQCYQ5RQWZQFPG9SCRGWPUGPZYSNZS23V9CCRYDPK8QARC0JQGFZYVJZ2F389Q5J52EV95HZ7VP3XGENGMXPZP2H8Y8EK".toList.map
        Char.toNat) = some (0, 2 :: (List.range' 1 52).map UInt8.ofNat) := by
  refine ⟨((C22_text ..).1 ?_).2.2.2, ((C22_text ..).1 ?_).2.2.2, ?_⟩ <;> decide +kernel

end Verif
