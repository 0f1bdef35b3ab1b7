import Verif.Props.Blech
/-
C69: the checksum of a blech32 address covers its human readable part. The part after the separator
is valid under one human readable part of at most five characters and under no other.
-/
namespace Verif
open Spec

namespace BlechPrefix

/-! ### One step of the register loses nothing -/

/-- The combination of generators chosen by the five bits shifted out. -/
def comb (t : Nat) : Nat :=
  (List.range 5).foldl (fun a i => a ^^^ if (t >>> i) &&& 1 ≠ 0 then generator.getD i 0 else 0) 0

theorem comb_low : ∀ t < 32, comb t % 32 = 0 → t = 0 := by decide +kernel

theorem stepT_comb {c : Nat} (h : c < 2 ^ 60) : stepT c = (c % 2 ^ 55 * 32) ^^^ comb (c / 2 ^ 55) := by
  have ht : c / 2 ^ 55 < 32 := Nat.div_lt_of_lt_mul (by omega)
  have hm : c &&& 0x7fffffffffffff = c % 2 ^ 55 := Nat.and_two_pow_sub_one_eq_mod c 55
  have e : comb (c / 2 ^ 55) = gterm 0 c ^^^ gterm 1 c ^^^ gterm 2 c ^^^ gterm 3 c ^^^ gterm 4 c := by
    simp only [gterm, Nat.shiftRight_eq_div_pow c 55]
    simp [comb, List.range_succ]
  rw [e, stepT, hm, Nat.shiftLeft_eq]
  simp only [← Nat.xor_assoc]

theorem xor_mod32 (a b : Nat) : (a * 32 ^^^ b) % 32 = b % 32 := by
  have := @Nat.xor_mod_two_pow (a * 32) b 5
  rw [show (2 ^ 5 : Nat) = 32 from rfl] at this
  rw [this, Nat.mul_mod_left, Nat.zero_xor]

theorem stepT_ker {c : Nat} (h : c < 2 ^ 60) (h0 : stepT c = 0) : c = 0 := by
  rw [stepT_comb h] at h0
  have ht : c / 2 ^ 55 < 32 := Nat.div_lt_of_lt_mul (by omega)
  have h1 : comb (c / 2 ^ 55) % 32 = 0 := by
    rw [← xor_mod32 (c % 2 ^ 55), h0]
  have h2 := comb_low _ ht h1
  rw [h2, show comb 0 = 0 from rfl, Nat.xor_zero] at h0
  omega

theorem step_inj {a b v : Nat} (ha : a < 2 ^ 60) (hb : b < 2 ^ 60)
    (h : polymodStep a v = polymodStep b v) : a = b := by
  rw [polymodStep_eq, polymodStep_eq] at h
  have h1 : stepT a = stepT b := by
    have := congrArg (· ^^^ v) h
    simpa [Nat.xor_assoc] using this
  have h2 : stepT (a ^^^ b) = 0 := by rw [stepT_xor, h1, Nat.xor_self]
  exact xor_eq_zero.1 (stepT_ker (Nat.xor_lt_two_pow ha hb) h2)

theorem run_inj {vs : List Nat} (hv : ∀ v ∈ vs, v < 32) {a b : Nat} (ha : a < 2 ^ 60) (hb : b < 2 ^ 60)
    (h : run a vs = run b vs) : a = b := by
  induction vs generalizing a b with
  | nil => exact h
  | cons v vs ih =>
    have lt : ∀ c, polymodStep c v < 2 ^ 60 := fun c => by
      rw [polymodStep_eq]
      exact Nat.xor_lt_two_pow (stepT_lt c) (Nat.lt_of_lt_of_le (hv v (by simp)) (by decide))
    exact step_inj ha hb (ih (fun w hw => hv w (by simp [hw])) (lt a) (lt b) h)

/-! ### A short human readable part is just stored -/

theorem expand_lt {h : PyStr} (hp : ∀ c ∈ h, c ≤ 126) : ∀ v ∈ hrpExpand h, v < 32 := by
  intro v hv
  simp only [hrpExpand, List.mem_append, List.mem_map, List.mem_singleton] at hv
  rcases hv with (⟨c, hc, rfl⟩ | rfl) | ⟨c, hc, rfl⟩
  · have := hp c hc
    rw [Nat.shiftRight_eq_div_pow]; omega
  · decide
  · exact Nat.lt_of_le_of_lt Nat.and_le_right (by decide)

theorem expand_length (h : PyStr) : (hrpExpand h).length = 2 * h.length + 1 := by
  simp [hrpExpand]; omega

theorem expand_inj {h k : PyStr} (hl : h.length = k.length) (he : hrpExpand h = hrpExpand k) : h = k := by
  rw [hrpExpand, hrpExpand, List.append_assoc, List.append_assoc] at he
  obtain ⟨e1, e2⟩ := List.append_inj he (by simp [hl])
  have e3 := (List.append_inj e2 rfl).2
  apply List.ext_getElem hl
  intro i hi hk
  have a1 : h[i] >>> 5 = k[i] >>> 5 := by
    have := congrArg (fun l : List Nat => l[i]?) e1
    simpa [List.getElem?_eq_getElem hi, List.getElem?_eq_getElem hk] using this
  have a2 : h[i] &&& 31 = k[i] &&& 31 := by
    have := congrArg (fun l : List Nat => l[i]?) e3
    simpa [List.getElem?_eq_getElem hi, List.getElem?_eq_getElem hk] using this
  rw [Nat.shiftRight_eq_div_pow, Nat.shiftRight_eq_div_pow] at a1
  have m : ∀ x : Nat, x &&& 31 = x % 32 := fun x => Nat.and_two_pow_sub_one_eq_mod x 5
  rw [m, m] at a2
  omega

theorem polymod_short {h : PyStr} (hp : ∀ c ∈ h, c ≤ 126) (hl : h.length ≤ 5) :
    polymod (hrpExpand h) = num 5 (1 :: hrpExpand h) := by
  rw [← run_zero (1 :: hrpExpand h) (by rw [List.length_cons, expand_length]; omega)
    (by
      intro v hv
      rcases List.mem_cons.1 hv with rfl | hv
      · decide
      · exact expand_lt hp v hv)]
  have : polymodStep 0 1 = 1 := by decide +kernel
  show run 1 _ = run (polymodStep 0 1) _
  rw [this]

theorem num_lead (l : List Nat) (hv : ∀ v ∈ l, v < 32) :
    2 ^ (5 * l.length) ≤ num 5 (1 :: l) ∧ num 5 (1 :: l) < 2 * 2 ^ (5 * l.length) := by
  induction l using List.reverseRecOn with
  | nil => decide
  | append_singleton l a ih =>
    have ih := ih fun v hm => hv v (by simp [hm])
    have ha := hv a (by simp)
    rw [← List.cons_append, num_append, List.length_append, List.length_singleton, Nat.mul_add,
      Nat.pow_add]
    omega

theorem short_inj {h k : PyStr} (hp : ∀ c ∈ h, c ≤ 126) (kp : ∀ c ∈ k, c ≤ 126) (hl : h.length ≤ 5)
    (kl : k.length ≤ 5) (he : polymod (hrpExpand h) = polymod (hrpExpand k)) : h = k := by
  rw [polymod_short hp hl, polymod_short kp kl] at he
  have b1 := num_lead _ (expand_lt hp)
  have b2 := num_lead _ (expand_lt kp)
  have hlen : (hrpExpand h).length = (hrpExpand k).length := by
    rcases Nat.lt_trichotomy (hrpExpand h).length (hrpExpand k).length with lt | eq | lt
    · have := Nat.pow_le_pow_right (n := 2) (by omega)
        (show 5 * (hrpExpand h).length + 1 ≤ 5 * (hrpExpand k).length by omega)
      rw [Nat.pow_succ] at this
      omega
    · exact eq
    · have := Nat.pow_le_pow_right (n := 2) (by omega)
        (show 5 * (hrpExpand k).length + 1 ≤ 5 * (hrpExpand h).length by omega)
      rw [Nat.pow_succ] at this
      omega
  have le1 : ∀ {l : List Nat}, (∀ v ∈ l, v < 32) → ∀ v ∈ 1 :: l, v < 2 ^ 5 := by
    intro l hl v hv
    rcases List.mem_cons.1 hv with rfl | hv
    · decide
    · exact hl v hv
  have e := num_inj 5 _ _ (le1 (expand_lt hp)) (le1 (expand_lt kp)) (by simp [hlen]) he
  exact expand_inj (by rw [expand_length, expand_length] at hlen; omega) (List.cons.inj e).2

end BlechPrefix
open BlechPrefix

/-- Two strings that are the same from the separator on, except for letter case, and have the
human readable parts `h` and `h'`. -/
def SameAfterPrefix (h h' s s' : PyStr) : Prop :=
  ∃ tail, lower s = h ++ 49 :: tail ∧ lower s' = h' ++ 49 :: tail

/-- C69: if a string is an address under a human readable part of at most five characters, and
putting another such part before the same separator and data gives an address under that part, then
the two parts are the same. -/
theorem C69_prefix (h h' s s' : PyStr) (r r' : Nat × Bytes) (hl : h.length ≤ 5) (hl' : h'.length ≤ 5)
    (a : blechDecode h s = some r) (b : blechDecode h' s' = some r') (t : SameAfterPrefix h h' s s') :
    h = h' := by
  obtain ⟨v, p⟩ := r
  obtain ⟨v', p'⟩ := r'
  obtain ⟨tail, ts, ts'⟩ := t
  rw [blechDecode_iff] at a b
  obtain ⟨ok, _, hp, hs⟩ := a
  obtain ⟨ok', _, hp', hs'⟩ := b
  have pr : ∀ {s : PyStr}, TextOk s → ∀ c ∈ lower s, c ≤ 126 := by
    intro s ok c hc
    rw [lower, List.mem_map] at hc
    obtain ⟨x, hx, rfl⟩ := hc
    have := (ok.1 x hx).2
    unfold lowerChar
    split <;> omega
  have pr1 : ∀ c ∈ h, c ≤ 126 := fun c hc => pr ok c (by rw [ts]; simp [hc])
  have pr2 : ∀ c ∈ h', c ≤ 126 := fun c hc => pr ok' c (by rw [ts']; simp [hc])
  rw [hs, blechText] at ts
  rw [hs', blechText] at ts'
  have e1 := List.append_cancel_left ts
  have e2 := List.append_cancel_left ts'
  have d := (text_inj (h := []) (h' := []) (textSyms_lt h v (by have := hp.1; omega) p)
    (textSyms_lt h' v' (by have := hp'.1; omega) p') (by rw [List.nil_append, List.nil_append, e1, e2])).2
  obtain ⟨d1, d2⟩ := List.append_inj' d (by rw [createChecksum_length, createChecksum_length])
  obtain ⟨rfl, d1⟩ := List.cons.inj d1
  rw [← d1] at d2
  have c1 := ((checksum_iff (encOf v) h (v :: progSyms p) _).2 rfl)
  have c2 := ((checksum_iff (encOf v) h' (v :: progSyms p) _).2 d2)
  have c := c1.2.2.trans c2.2.2.symm
  rw [polymod_append, polymod_append] at c
  have lt : ∀ {k : PyStr}, (∀ c ∈ k, c ≤ 126) → k.length ≤ 5 → polymod (hrpExpand k) < 2 ^ 60 := by
    intro k kp kl
    rw [polymod_short kp kl]
    have := num_lead _ (expand_lt kp)
    have l : 5 * (hrpExpand k).length + 1 ≤ 60 := by rw [expand_length]; omega
    have := Nat.pow_le_pow_right (n := 2) (by omega) l
    rw [Nat.pow_succ] at this
    omega
  apply short_inj pr1 pr2 hl hl'
  exact run_inj (textSyms_lt h v (by have := hp.1; omega) p) (lt pr1 hl) (lt pr2 hl') c

/-- C69: an Elements address with its prefix rewritten for Liquid, or for any other prefix of at most
five characters, is not an address; and conversely. -/
theorem C69_rewritten (h h' s s' : PyStr) (r : Nat × Bytes) (hl : h.length ≤ 5) (hl' : h'.length ≤ 5)
    (ne : h ≠ h') (a : blechDecode h s = some r) (t : SameAfterPrefix h h' s s') :
    blechDecode h' s' = none := by
  cases b : blechDecode h' s' with
  | none => rfl
  | some r' => exact absurd (C69_prefix h h' s s' r r' hl hl' a b t) ne

/-- Every Elements address is refused by Liquid after such a rewriting, whatever its payload. -/
example (p : Bytes) (hp : p.length = 53 ∨ p.length = 65) : ∃ tail,
    blechDecode hrpEl (hrpEl ++ 49 :: tail) = some (0, p) ∧ blechDecode hrpLq (hrpLq ++ 49 :: tail) = none := by
  obtain ⟨s, hs⟩ := (C22_encode_iff hrpEl 0 p).2 ⟨by unfold HrpOk; decide,
    ⟨by omega, by omega, by omega, by omega⟩, by show 2 + 1 + 1 + _ + 12 ≤ 1000; omega⟩
  have hd := C22_roundtrip _ _ _ _ hs
  rw [blechEncode_iff] at hs
  have hd' : blechDecode hrpEl (hrpEl ++ 49 :: ((0 :: progSyms p) ++ createChecksum (encOf 0) hrpEl
      (0 :: progSyms p)).map symChar) = some (0, p) := by rw [hs.1] at hd; exact hd
  refine ⟨_, hd', C69_rewritten hrpEl hrpLq _ _ (0, p) (by decide) (by decide) (by decide) hd' ?_⟩
  have hlow := ((blechDecode_iff _ _ _ _).1 hd').2.2.2
  refine ⟨_, hlow, ?_⟩
  rw [blechText, lower, List.map_append, List.map_cons] at hlow
  have := (List.append_inj hlow (by simp)).2
  rw [lower, List.map_append, List.map_cons, this]
  rfl

end Verif
