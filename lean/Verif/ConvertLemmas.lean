import Verif.Blech32
import Verif.Spec.Bits
import Mathlib.Tactic.Ring
import Mathlib.Data.List.Induction
/-
`convertbits` as regrouping of one bit string.
-/
namespace Verif
open Spec

/-- The number whose base `2^k` digits are `l`. -/
def num (k : Nat) (l : List Nat) : Nat := l.foldl (fun a v => a * 2 ^ k + v) 0

theorem num_append (k : Nat) (l : List Nat) (v : Nat) : num k (l ++ [v]) = num k l * 2 ^ k + v := by
  simp [num]

theorem length_bitsBE (k v : Nat) : (bitsBE k v).length = k := by
  induction k with
  | zero => rfl
  | succ k ih => simp [bitsBE, ih]

theorem length_bitString (k : Nat) (l : List Nat) : (bitString k l).length = k * l.length := by
  induction l with
  | nil => rfl
  | cons a l ih =>
    simp only [bitString, List.flatMap_cons, List.length_append, length_bitsBE, List.length_cons] at *
    rw [ih]; ring

theorem bitsBE_add (a b x y : Nat) (hy : y < 2 ^ b) :
    bitsBE (a + b) (x * 2 ^ b + y) = bitsBE a x ++ bitsBE b y := by
  induction a with
  | zero =>
    simp only [Nat.zero_add, bitsBE, List.nil_append]
    have : ∀ k ≤ b, bitsBE k (x * 2 ^ b + y) = bitsBE k y := by
      intro k hk
      induction k with
      | zero => rfl
      | succ k ih =>
        simp only [bitsBE]
        rw [ih (by omega), show x * 2 ^ b + y = 2 ^ b * x + y by ring, Nat.testBit_two_pow_mul_add _ hy,
          if_pos (by omega)]
    exact this b (Nat.le_refl _)
  | succ a ih =>
    rw [show a + 1 + b = (a + b) + 1 by omega]
    simp only [bitsBE, List.cons_append]
    rw [ih, show x * 2 ^ b + y = 2 ^ b * x + y by ring, Nat.testBit_two_pow_mul_add _ hy, if_neg (by omega)]
    simp

theorem bitString_num (k : Nat) (l : List Nat) (h : ∀ v ∈ l, v < 2 ^ k) :
    bitString k l = bitsBE (k * l.length) (num k l) := by
  induction l using List.reverseRecOn with
  | nil => rfl
  | append_singleton l a ih =>
    rw [num_append, List.length_append, List.length_singleton, Nat.mul_add, Nat.mul_one,
      bitsBE_add _ _ _ _ (h a (by simp)), ← ih fun v hv => h v (by simp [hv])]
    simp [bitString]

theorem num_lt (k : Nat) (l : List Nat) (h : ∀ v ∈ l, v < 2 ^ k) : num k l < 2 ^ (k * l.length) := by
  induction l using List.reverseRecOn with
  | nil => simp [num]
  | append_singleton l a ih =>
    rw [num_append, List.length_append, List.length_singleton, Nat.mul_add, Nat.mul_one, Nat.pow_add]
    have h1 := ih fun v hv => h v (by simp [hv])
    have h2 := h a (by simp)
    calc num k l * 2 ^ k + a < num k l * 2 ^ k + 2 ^ k := by omega
      _ = (num k l + 1) * 2 ^ k := by ring
      _ ≤ _ := Nat.mul_le_mul_right _ h1

theorem bitsBE_inj (k a b : Nat) (ha : a < 2 ^ k) (hb : b < 2 ^ k) (h : bitsBE k a = bitsBE k b) : a = b := by
  have key : ∀ k, bitsBE k a = bitsBE k b → ∀ i < k, a.testBit i = b.testBit i := by
    intro k
    induction k with
    | zero => intro _ i hi; omega
    | succ k ih =>
      intro h i hi
      simp only [bitsBE, List.cons.injEq] at h
      by_cases hik : i = k
      · rw [hik]; exact h.1
      · exact ih h.2 i (by omega)
  apply Nat.eq_of_testBit_eq
  intro i
  by_cases hi : i < k
  · exact key k h i hi
  · have hp : 2 ^ k ≤ 2 ^ i := Nat.pow_le_pow_right (by omega) (by omega)
    rw [Nat.testBit_lt_two_pow (by omega), Nat.testBit_lt_two_pow (by omega)]

theorem bitString_inj (k : Nat) (l m : List Nat) (hl : ∀ v ∈ l, v < 2 ^ k) (hm : ∀ v ∈ m, v < 2 ^ k)
    (hlen : l.length = m.length) (h : bitString k l = bitString k m) : l = m := by
  induction l generalizing m with
  | nil => cases m with
    | nil => rfl
    | cons _ _ => simp at hlen
  | cons a l ih =>
    cases m with
    | nil => simp at hlen
    | cons b m =>
      simp only [bitString, List.flatMap_cons] at h
      obtain ⟨h1, h2⟩ := List.append_inj h (by rw [length_bitsBE, length_bitsBE])
      rw [bitsBE_inj k a b (hl a (by simp)) (hm b (by simp)) h1,
        ih m (fun v hv => hl v (by simp [hv])) (fun v hv => hm v (by simp [hv])) (by simpa using hlen) h2]

theorem bitsBE_zero (k : Nat) : bitsBE k 0 = List.replicate k false := by
  induction k with
  | zero => rfl
  | succ k ih => simp [bitsBE, ih, List.replicate_succ]

theorem mask_eq (n k : Nat) : n &&& ((1 <<< k) - 1) = n % 2 ^ k := by
  rw [Nat.shiftLeft_eq, Nat.one_mul, Nat.and_two_pow_sub_one_eq_mod]

theorem drain_spec (t acc : Nat) (ht : 0 < t) (bits : Nat) (ret : List Nat) (hr : ∀ r ∈ ret, r < 2 ^ t) :
    (drain t acc bits ret).1 < t
    ∧ (∀ r ∈ (drain t acc bits ret).2, r < 2 ^ t)
    ∧ t * (drain t acc bits ret).2.length + (drain t acc bits ret).1 = t * ret.length + bits
    ∧ num t (drain t acc bits ret).2 * 2 ^ (drain t acc bits ret).1 + acc % 2 ^ (drain t acc bits ret).1
        = num t ret * 2 ^ bits + acc % 2 ^ bits := by
  induction bits using Nat.strongRecOn generalizing ret with
  | ind bits ih =>
    rw [drain]
    by_cases h : 0 < t ∧ t ≤ bits
    · rw [dif_pos h]
      have hd : ((acc >>> (bits - t)) &&& ((1 <<< t) - 1)) < 2 ^ t := by
        rw [mask_eq]; exact Nat.mod_lt _ (Nat.two_pow_pos t)
      obtain ⟨h1, h2, h3, h4⟩ := ih (bits - t) (by omega)
        (ret ++ [(acc >>> (bits - t)) &&& ((1 <<< t) - 1)]) (by
          intro r hrm
          rw [List.mem_append, List.mem_singleton] at hrm
          rcases hrm with hrm | hrm
          · exact hr r hrm
          · rw [hrm]; exact hd)
      refine ⟨h1, h2, ?_, ?_⟩
      · rw [h3, List.length_append, List.length_singleton, Nat.mul_add]; omega
      · rw [h4, num_append, mask_eq, Nat.shiftRight_eq_div_pow]
        obtain ⟨c, rfl⟩ : ∃ c, bits = c + t := ⟨bits - t, by omega⟩
        rw [Nat.add_sub_cancel, Nat.pow_add, Nat.mod_mul]
        ring
    · rw [dif_neg h]
      exact ⟨by omega, hr, rfl, rfl⟩

/-- Values the code accepts. -/
def InRange (f : Nat) (data : List Int) : Prop := ∀ v ∈ data, 0 ≤ v ∧ v.toNat < 2 ^ f

theorem convertLoop_none (f t : Nat) (data : List Int) (acc bits : Nat) (ret : List Nat) :
    convertLoop f t data acc bits ret = none ↔ ¬ InRange f data := by
  induction data generalizing acc bits ret with
  | nil => simp [convertLoop, InRange]
  | cons v data ih =>
    rw [convertLoop]
    have hsh : v.toNat >>> f ≠ 0 ↔ ¬ v.toNat < 2 ^ f := by
      rw [Nat.shiftRight_eq_div_pow, ne_eq, Nat.div_eq_zero_iff]
      have := Nat.two_pow_pos f
      omega
    by_cases h : v < 0 ∨ v.toNat >>> f ≠ 0
    · rw [if_pos h]
      rw [hsh] at h
      simp only [InRange, List.forall_mem_cons, true_iff, not_and]
      intro h1; omega
    · rw [if_neg h]
      dsimp only
      rw [ih]
      rw [hsh] at h
      simp only [InRange, List.forall_mem_cons]
      constructor
      · rintro h1 ⟨_, h2⟩; exact h1 h2
      · rintro h1 h2; exact h1 ⟨by omega, h2⟩

theorem convertLoop_spec (f t : Nat) (ht : 0 < t) (data : List Int) (acc bits : Nat) (ret : List Nat)
    (acc' bits' : Nat) (ret' : List Nat) (hb : bits < t) (hr : ∀ r ∈ ret, r < 2 ^ t)
    (h : convertLoop f t data acc bits ret = some (acc', bits', ret')) :
    bits' < t ∧ (∀ r ∈ ret', r < 2 ^ t)
    ∧ t * ret'.length + bits' = t * ret.length + bits + f * data.length
    ∧ num t ret' * 2 ^ bits' + acc' % 2 ^ bits'
        = (data.map Int.toNat).foldl (fun a v => a * 2 ^ f + v) (num t ret * 2 ^ bits + acc % 2 ^ bits) := by
  induction data generalizing acc bits ret with
  | nil =>
    simp only [convertLoop, Option.some.injEq, Prod.mk.injEq] at h
    obtain ⟨rfl, rfl, rfl⟩ := h
    exact ⟨hb, hr, by simp, rfl⟩
  | cons v data ih =>
    rw [convertLoop] at h
    by_cases hc : v < 0 ∨ v.toNat >>> f ≠ 0
    · rw [if_pos hc] at h; cases h
    · rw [if_neg hc] at h
      have hv : v.toNat < 2 ^ f := by
        have : v.toNat >>> f = 0 := by
          by_contra hh; exact hc (Or.inr hh)
        rw [Nat.shiftRight_eq_div_pow, Nat.div_eq_zero_iff] at this
        have := Nat.two_pow_pos f
        omega
      dsimp only at h
      generalize hacc : ((acc <<< f) ||| v.toNat) &&& ((1 <<< (f + t - 1)) - 1) = acc1 at h
      obtain ⟨d1, d2, d3, d4⟩ := drain_spec t acc1 ht (bits + f) ret hr
      obtain ⟨i1, i2, i3, i4⟩ := ih acc1 _ _ d1 d2 h
      refine ⟨i1, i2, ?_, ?_⟩
      · rw [i3, d3, List.length_cons, Nat.mul_add]; omega
      · rw [i4, d4]
        simp only [List.map_cons, List.foldl_cons]
        congr 1
        have ha : acc1 % 2 ^ (bits + f) = (acc % 2 ^ bits) * 2 ^ f + v.toNat := by
          rw [← hacc, mask_eq, Nat.mod_mod_of_dvd _ (Nat.pow_dvd_pow 2 (by omega)),
            ← Nat.shiftLeft_add_eq_or_of_lt hv, Nat.shiftLeft_eq, Nat.add_comm bits f, Nat.pow_add,
            Nat.mod_mul]
          rw [show (acc * 2 ^ f + v.toNat) % 2 ^ f = v.toNat by
              rw [Nat.mul_comm, Nat.mul_add_mod]; exact Nat.mod_eq_of_lt hv,
            show (acc * 2 ^ f + v.toNat) / 2 ^ f = acc by
              rw [Nat.mul_comm, Nat.mul_add_div (Nat.two_pow_pos f), Nat.div_eq_of_lt hv, Nat.add_zero]]
          ring
        rw [ha, Nat.pow_add]
        ring

/-- The state of the loop at its end: `bits'` pending bits whose value is `acc' % 2^bits'`. -/
theorem convertLoop_bits (f t : Nat) (ht : 0 < t) (data : List Int) (acc' bits' : Nat) (ret' : List Nat)
    (hin : InRange f data) (h : convertLoop f t data 0 0 [] = some (acc', bits', ret')) :
    bits' < t ∧ (∀ r ∈ ret', r < 2 ^ t)
    ∧ bitString f (data.map Int.toNat) = bitString t ret' ++ bitsBE bits' (acc' % 2 ^ bits') := by
  obtain ⟨h1, h2, h3, h4⟩ := convertLoop_spec f t ht data 0 0 [] acc' bits' ret' ht (by simp) h
  refine ⟨h1, h2, ?_⟩
  rw [bitString_num f _ (by
      intro v hv
      rw [List.mem_map] at hv
      obtain ⟨w, hw, rfl⟩ := hv
      exact (hin w hw).2),
    bitString_num t _ h2, ← bitsBE_add _ _ _ _ (Nat.mod_lt _ (Nat.two_pow_pos _)), h4, h3]
  simp [num]

theorem shl_mask (t b acc : Nat) (hb : b < t) :
    (acc <<< (t - b)) &&& ((1 <<< t) - 1) = (acc % 2 ^ b) * 2 ^ (t - b) := by
  rw [mask_eq, Nat.shiftLeft_eq]
  obtain ⟨c, rfl⟩ : ∃ c, t = b + c := ⟨t - b, by omega⟩
  rw [Nat.add_sub_cancel_left, Nat.pow_add, Nat.mul_mod_mul_right]

theorem bitString_append (k : Nat) (l m : List Nat) :
    bitString k (l ++ m) = bitString k l ++ bitString k m := by
  simp [bitString]

theorem inRange_toNat {f : Nat} {data : List Int} (h : InRange f data) :
    ∀ v ∈ data.map Int.toNat, v < 2 ^ f := by
  intro v hv
  rw [List.mem_map] at hv
  obtain ⟨w, hw, rfl⟩ := hv
  exact (h w hw).2

/-- Without padding: what is accepted is exactly what regroups into whole output groups
followed by fewer than `f` (and fewer than `t`) zero bits. -/
theorem convertbits_nopad_iff (f t : Nat) (ht : 0 < t) (data : List Int) (ret : List Nat) :
    convertbits data f t false = some ret ↔
      InRange f data ∧ (∀ r ∈ ret, r < 2 ^ t)
      ∧ ∃ z, z < t ∧ z < f
        ∧ bitString f (data.map Int.toNat) = bitString t ret ++ List.replicate z false := by
  rw [convertbits]
  cases hc : convertLoop f t data 0 0 [] with
  | none =>
    rw [convertLoop_none] at hc
    simp [hc]
  | some p =>
    obtain ⟨acc, bits, r⟩ := p
    have hin : InRange f data := by
      by_contra hn
      rw [← convertLoop_none f t data 0 0 []] at hn
      rw [hn] at hc; cases hc
    obtain ⟨h1, h2, h3⟩ := convertLoop_bits f t ht data acc bits r hin hc
    have hm : acc % 2 ^ bits < 2 ^ bits := Nat.mod_lt _ (Nat.two_pow_pos _)
    have hx : ((acc <<< (t - bits)) &&& ((1 <<< t) - 1) ≠ 0) ↔ acc % 2 ^ bits ≠ 0 := by
      rw [shl_mask t bits acc h1, ne_eq, Nat.mul_eq_zero]
      have := Nat.two_pow_pos (t - bits)
      omega
    dsimp only
    rw [if_neg (by simp)]
    simp only [hx]
    constructor
    · intro h
      by_cases hb : bits ≥ f ∨ acc % 2 ^ bits ≠ 0
      · rw [if_pos hb] at h; cases h
      · rw [if_neg hb, Option.some.injEq] at h
        subst h
        refine ⟨hin, h2, bits, h1, by omega, ?_⟩
        rw [h3, show acc % 2 ^ bits = 0 by omega, bitsBE_zero]
    · rintro ⟨_, hr, z, hz1, hz2, hz⟩
      rw [h3] at hz
      have hl := congrArg List.length hz
      simp only [List.length_append, length_bitString, length_bitsBE, List.length_replicate] at hl
      have hzb : bits = z := by
        have a := congrArg (· % t) hl
        simp only [Nat.mul_add_mod] at a
        rwa [Nat.mod_eq_of_lt h1, Nat.mod_eq_of_lt hz1] at a
      subst hzb
      have hlen : r.length = ret.length := Nat.eq_of_mul_eq_mul_left ht (by omega)
      obtain ⟨e1, e2⟩ := List.append_inj hz (by rw [length_bitString, length_bitString, hlen])
      have h0 : acc % 2 ^ bits = 0 := by
        rw [← bitsBE_zero] at e2
        exact bitsBE_inj bits _ _ hm (Nat.two_pow_pos _) e2
      rw [if_neg (by omega), bitString_inj t r ret h2 hr hlen e1]

/-- With padding: accepted exactly when every value is in range, and the output is the input's
bit string completed with fewer than `t` zero bits. -/
theorem convertbits_pad_iff (f t : Nat) (ht : 0 < t) (data : List Int) (ret : List Nat) :
    convertbits data f t true = some ret ↔
      InRange f data ∧ (∀ r ∈ ret, r < 2 ^ t)
      ∧ ∃ z, z < t ∧ bitString t ret = bitString f (data.map Int.toNat) ++ List.replicate z false := by
  rw [convertbits]
  cases hc : convertLoop f t data 0 0 [] with
  | none =>
    rw [convertLoop_none] at hc
    simp [hc]
  | some p =>
    obtain ⟨acc, bits, r⟩ := p
    have hin : InRange f data := by
      by_contra hn
      rw [← convertLoop_none f t data 0 0 []] at hn
      rw [hn] at hc; cases hc
    obtain ⟨h1, h2, h3⟩ := convertLoop_bits f t ht data acc bits r hin hc
    have hm : acc % 2 ^ bits < 2 ^ bits := Nat.mod_lt _ (Nat.two_pow_pos _)
    dsimp only
    rw [if_pos rfl, shl_mask t bits acc h1]
    -- what the code returns satisfies the specification
    have key : ∃ z, z < t ∧
        (∀ x ∈ (if bits ≠ 0 then r ++ [(acc % 2 ^ bits) * 2 ^ (t - bits)] else r), x < 2 ^ t) ∧
        bitString t (if bits ≠ 0 then r ++ [(acc % 2 ^ bits) * 2 ^ (t - bits)] else r)
          = bitString f (data.map Int.toNat) ++ List.replicate z false := by
      by_cases hb : bits ≠ 0
      · rw [if_pos hb]
        have hlt : acc % 2 ^ bits * 2 ^ (t - bits) < 2 ^ t := by
          calc _ < 2 ^ bits * 2 ^ (t - bits) := Nat.mul_lt_mul_of_pos_right hm (Nat.two_pow_pos _)
            _ = 2 ^ t := by rw [← Nat.pow_add]; congr 1; omega
        refine ⟨t - bits, by omega, ?_, ?_⟩
        · intro x hx
          rw [List.mem_append, List.mem_singleton] at hx
          rcases hx with hx | rfl
          · exact h2 x hx
          · exact hlt
        · rw [bitString_append, h3, List.append_assoc]
          congr 1
          have := bitsBE_add bits (t - bits) (acc % 2 ^ bits) 0 (Nat.two_pow_pos _)
          rw [Nat.add_zero, bitsBE_zero, show bits + (t - bits) = t by omega] at this
          simp [bitString, this]
      · rw [if_neg hb]
        have hb0 : bits = 0 := by omega
        subst hb0
        refine ⟨0, ht, h2, ?_⟩
        rw [h3]; simp [bitsBE]
    obtain ⟨z, hz, hk, hbits⟩ := key
    constructor
    · intro h
      rw [Option.some.injEq] at h
      rw [h] at hk hbits
      exact ⟨hin, hk, z, hz, hbits⟩
    · rintro ⟨_, hr, z', hz', hbits'⟩
      rw [Option.some.injEq]
      have l1 := congrArg List.length hbits
      have l2 := congrArg List.length hbits'
      generalize (if bits ≠ 0 then r ++ [(acc % 2 ^ bits) * 2 ^ (t - bits)] else r) = q at hk hbits l1 ⊢
      simp only [List.length_append, length_bitString, List.length_replicate] at l1 l2
      generalize f * (data.map Int.toNat).length = n at l1 l2
      -- both lengths are the least multiple of `t` not below `n`
      have hlen : q.length = ret.length := by
        rcases Nat.lt_trichotomy q.length ret.length with hlt | he | hgt
        · exfalso
          have := Nat.mul_le_mul_left t hlt
          rw [Nat.mul_succ] at this
          omega
        · exact he
        · exfalso
          have := Nat.mul_le_mul_left t hgt
          rw [Nat.mul_succ] at this
          omega
      rw [hlen] at l1
      have : z = z' := by omega
      subst this
      exact bitString_inj t q ret hk hr hlen (by rw [hbits, hbits'])

end Verif
