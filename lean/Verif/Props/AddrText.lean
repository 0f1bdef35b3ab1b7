import Mathlib.Data.Nat.Digits.Lemmas
import Verif.AddrText
import Verif.Props.Wallet
import Verif.Props.WalletKeys
/-
C88: text of addresses.
-/
namespace Verif.AddrText
open Verif Spec

theorem and_then {ε α β} {x : Except ε α} {f : α → Except ε β} {b} : x >>= f = .ok b ↔ ∃ a, x = .ok a ∧ f a = .ok b := by
  cases x with
  | error e => exact ⟨fun h => (by cases h), fun ⟨_, h, _⟩ => (by cases h)⟩
  | ok a => exact ⟨fun h => ⟨a, rfl, h⟩, fun ⟨_, h, h'⟩ => (by cases h; exact h')⟩

/-! ### Numbers -/

theorem divLoop_digits {base : Nat} (hb : 1 < base) (n : Nat) : divLoop base n = Nat.digits base n := by
  induction n using Nat.strongRecOn with
  | ind n ih =>
    rw [divLoop]
    split
    · rename_i h
      rw [Nat.digits_def' hb h.1, ih _ (Nat.div_lt_self h.1 hb)]
    · rename_i h
      have : n = 0 := by omega
      rw [this, Nat.digits_zero]

theorem value_append {base : Nat} (d : List Nat) (x : Nat) : value base (d ++ [x]) = base * value base d + x := by
  simp [value]

theorem value_eq {base : Nat} (d : List Nat) : value base d = Nat.ofDigits base d.reverse := by
  induction d using List.reverseRecOn with
  | nil => simp [value]
  | append_singleton d x ih => simp [value_append, ih, Nat.ofDigits_cons, Nat.add_comm]

theorem value_cons {base : Nat} (x : Nat) (d : List Nat) : value base (x :: d) = x * base ^ d.length + value base d := by
  simp [value_eq, Nat.ofDigits_append, Nat.mul_comm, Nat.add_comm]

theorem value_lt {base : Nat} {d : List Nat} (hd : ∀ x ∈ d, x < base) : value base d < base ^ d.length := by
  induction d with
  | nil => simp [value]
  | cons x d ih =>
    rw [value_cons, List.length_cons, Nat.pow_succ]
    have h1 := ih fun y hy => hd y (List.mem_cons_of_mem _ hy)
    have h2 : x + 1 ≤ base := hd x List.mem_cons_self
    calc x * base ^ d.length + value base d < x * base ^ d.length + base ^ d.length := by omega
      _ = base ^ d.length * (x + 1) := by ring
      _ ≤ base ^ d.length * base := Nat.mul_le_mul_left _ h2

theorem value_ge {base : Nat} {x : Nat} {d : List Nat} (hx : x ≠ 0) : base ^ d.length ≤ value base (x :: d) := by
  rw [value_cons]
  have : 1 * base ^ d.length ≤ x * base ^ d.length := Nat.mul_le_mul_right _ (by omega)
  omega

theorem beVal_eq (b : Bytes) : beVal b = value 256 (b.map UInt8.toNat) := by
  have : ∀ l : Bytes, leVal l = Nat.ofDigits 256 (l.map UInt8.toNat) := by
    intro l
    induction l with
    | nil => rfl
    | cons x l ih => simp [leVal, ih, Nat.ofDigits_cons]
  rw [beVal, this, value_eq, List.map_reverse]

theorem zeros_cons (x : Nat) (d : List Nat) : zeros (x :: d) = if x = 0 then zeros d + 1 else 0 := by
  by_cases h : x = 0 <;> simp [zeros, h]

theorem padOf_zeros (d : List Nat) : padOf 0 d = zeros d := by
  induction d with
  | nil => rfl
  | cons x d ih => rw [padOf, zeros_cons, ih]

/-- Digits are their zeros at the beginning and their number. -/
theorem canonical {base : Nat} (hb : 1 < base) {d : List Nat} (hd : ∀ x ∈ d, x < base) :
    d = List.replicate (zeros d) 0 ++ (Nat.digits base (value base d)).reverse := by
  induction d with
  | nil => simp [value, zeros]
  | cons x d ih =>
    rw [zeros_cons]
    split
    · rename_i h
      subst h
      have : value base (0 :: d) = value base d := by simp [value_cons]
      rw [this, List.replicate_succ, List.cons_append, ← ih fun y hy => hd y (List.mem_cons_of_mem _ hy)]
    · rename_i h
      rw [value_eq, Nat.digits_ofDigits base hb]
      · simp
      · intro y hy
        exact hd y (List.mem_reverse.1 hy)
      · intro _
        simpa using h

theorem digits_unique {base : Nat} (hb : 1 < base) {d d' : List Nat} (hd : ∀ x ∈ d, x < base) (hd' : ∀ x ∈ d', x < base)
    (hv : value base d = value base d') (hz : zeros d = zeros d') : d = d' := by
  rw [canonical hb hd, canonical hb hd', hv, hz]

theorem zeros_replicate (k : Nat) {l : List Nat} : zeros (List.replicate k 0 ++ l) = k + zeros l := by
  induction k with
  | zero => simp
  | succ k ih => rw [List.replicate_succ, List.cons_append, zeros_cons, if_pos rfl, ih]; omega

theorem value_replicate {base : Nat} (k : Nat) {l : List Nat} : value base (List.replicate k 0 ++ l) = value base l := by
  induction k with
  | zero => simp
  | succ k ih => rw [List.replicate_succ, List.cons_append, value_cons, ih]; simp

/-- And each number of zeros and number has digits. -/
theorem made {base : Nat} (hb : 1 < base) (k n : Nat) : let d := List.replicate k 0 ++ (Nat.digits base n).reverse
    (∀ x ∈ d, x < base) ∧ value base d = n ∧ zeros d = k := by
  refine ⟨?_, ?_, ?_⟩
  · intro x hx
    rcases List.mem_append.1 hx with h | h
    · rw [List.eq_of_mem_replicate h]
      omega
    · exact Nat.digits_lt_base hb (List.mem_reverse.1 h)
  · rw [value_replicate, value_eq, List.reverse_reverse, Nat.ofDigits_digits]
  · rw [zeros_replicate]
    cases h : (Nat.digits base n).reverse with
    | nil => simp [zeros]
    | cons x l =>
      have hn : Nat.digits base n ≠ [] := by intro e; rw [e] at h; cases h
      have hx : x ≠ 0 := by
        have hl : (Nat.digits base n).getLast hn = x := by
          have e : Nat.digits base n = l.reverse ++ [x] := by rw [← List.reverse_reverse (Nat.digits base n), h]; simp
          simp [e]
        rw [← hl]
        exact Nat.getLast_digit_ne_zero base (Nat.digits_ne_nil_iff_ne_zero.1 hn)
      rw [zeros_cons, if_neg hx]
      rfl

theorem bytes_lt (b : Bytes) : ∀ x ∈ b.map UInt8.toNat, x < 256 := by
  intro x hx
  obtain ⟨y, _, rfl⟩ := List.mem_map.1 hx
  exact y.toNat_lt

theorem toNat_map_inj {b b' : Bytes} (h : b.map UInt8.toNat = b'.map UInt8.toNat) : b = b' :=
  List.map_injective_iff.2 (fun _ _ => UInt8.toNat_inj.1) h

/-! ### Base58 -/

theorem letter58_inj {x y : Nat} (hx : x < 58) (hy : y < 58) (h : letter58 x = letter58 y) : x = y := by
  have : ∀ x : Fin 58, ∀ y : Fin 58, letter58 x = letter58 y → x = y := by decide +kernel
  exact congrArg Fin.val (this ⟨x, hx⟩ ⟨y, hy⟩ h)

theorem letter58_get {x : Nat} (hx : x < 58) : B58_DIGITS.getD x 0 = letter58 x := by
  have : ∀ x : Fin 58, B58_DIGITS.getD x 0 = letter58 x := by decide +kernel
  exact this ⟨x, hx⟩

theorem mem_digits {c : Nat} : c ∈ B58_DIGITS ↔ ∃ x, x < 58 ∧ letter58 x = c := by
  constructor
  · have : ∀ c ∈ B58_DIGITS, ∃ x : Fin 58, letter58 x = c := by decide +kernel
    intro h
    obtain ⟨x, hx⟩ := this c h
    exact ⟨x, x.2, hx⟩
  · rintro ⟨x, hx, rfl⟩
    have : ∀ x : Fin 58, letter58 x ∈ B58_DIGITS := by decide +kernel
    exact this ⟨x, hx⟩

theorem idx_letter {x : Nat} (hx : x < 58) : B58_DIGITS.idxOf (letter58 x) = x := by
  have : ∀ x : Fin 58, B58_DIGITS.idxOf (letter58 x) = x := by decide +kernel
  exact this ⟨x, hx⟩

theorem letters_inj {d d' : List Nat} (hd : ∀ x ∈ d, x < 58) (hd' : ∀ x ∈ d', x < 58) (h : d.map letter58 = d'.map letter58) : d = d' := by
  induction d generalizing d' with
  | nil => cases d' with
    | nil => rfl
    | cons => cases h
  | cons x d ih => cases d' with
    | nil => cases h
    | cons y d' =>
      simp only [List.map_cons, List.cons.injEq] at h
      rw [letter58_inj (hd x List.mem_cons_self) (hd' y List.mem_cons_self) h.1,
        ih (fun z hz => hd z (List.mem_cons_of_mem _ hz)) (fun z hz => hd' z (List.mem_cons_of_mem _ hz)) h.2]

/-- A text stands for one byte string. -/
theorem base58_bytes {s : PyStr} {b b' : Bytes} (h : Base58 s b) (h' : Base58 s b') : b = b' := by
  obtain ⟨d, rfl, h1, h2, h3⟩ := h
  obtain ⟨d', e, h1', h2', h3'⟩ := h'
  obtain rfl := letters_inj h1 h1' e
  exact toNat_map_inj (digits_unique (by decide) (bytes_lt b) (bytes_lt b') (h2.symm.trans h2') (h3.symm.trans h3'))

/-- A byte string has one text. -/
theorem base58_text {s s' : PyStr} {b : Bytes} (h : Base58 s b) (h' : Base58 s' b) : s = s' := by
  obtain ⟨d, rfl, h1, h2, h3⟩ := h
  obtain ⟨d', rfl, h1', h2', h3'⟩ := h'
  rw [digits_unique (by decide) h1 h1' (h2.trans h2'.symm) (h3.trans h3'.symm)]

theorem encode_base58 (b : Bytes) : Base58 (b58Encode b) b := by
  obtain ⟨h1, h2, h3⟩ := made (base := 58) (by decide) (zeros (b.map UInt8.toNat)) (value 256 (b.map UInt8.toNat))
  refine ⟨_, ?_, h1, h2, h3⟩
  rw [b58Encode]
  rw [divLoop_digits (by decide), padOf_zeros, beVal_eq, List.map_append, List.map_replicate, List.map_reverse, letter58_get (by decide)]
  congr 2
  refine List.map_congr_left fun x hx => ?_
  exact letter58_get (Nat.digits_lt_base (by decide) hx)

/-- **C88.** `encode` writes what stands for the bytes, and nothing else does. -/
theorem C88_encode (b : Bytes) (s : PyStr) : b58Encode b = s ↔ Base58 s b :=
  ⟨fun h => h ▸ encode_base58 b, fun h => base58_text (encode_base58 b) h⟩

theorem number_ok {s : PyStr} {n m : Nat} : b58Number s n = .ok m ↔ ∃ d, s = d.map letter58 ∧ (∀ x ∈ d, x < 58) ∧ m = n * 58 ^ d.length + value 58 d := by
  induction s generalizing n with
  | nil =>
    rw [b58Number]
    constructor
    · intro h
      cases h
      exact ⟨[], rfl, by simp, by simp [value]⟩
    · rintro ⟨d, h, -, rfl⟩
      obtain rfl := List.map_eq_nil_iff.1 h.symm
      simp [value]
  | cons c s ih =>
    rw [b58Number]
    split
    · rename_i hc
      obtain ⟨x, hx, rfl⟩ := mem_digits.1 hc
      rw [ih, idx_letter hx]
      constructor
      · rintro ⟨d, rfl, hd, rfl⟩
        refine ⟨x :: d, rfl, List.forall_mem_cons.2 ⟨hx, hd⟩, ?_⟩
        rw [value_cons, List.length_cons, Nat.pow_succ]
        ring
      · rintro ⟨d, h, hd, rfl⟩
        cases d with
        | nil => cases h
        | cons y d =>
          simp only [List.map_cons, List.cons.injEq] at h
          obtain ⟨hy, hd'⟩ := List.forall_mem_cons.1 hd
          obtain rfl := letter58_inj hx hy h.1
          refine ⟨d, h.2, hd', ?_⟩
          rw [value_cons, List.length_cons, Nat.pow_succ]
          ring
    · rename_i hc
      constructor
      · intro h
        cases h
      · rintro ⟨d, h, hd, -⟩
        cases d with
        | nil => cases h
        | cons y d =>
          simp only [List.map_cons, List.cons.injEq] at h
          exact absurd (mem_digits.2 ⟨y, hd y List.mem_cons_self, h.1.symm⟩) hc

theorem pad_letters {d : List Nat} (hd : ∀ x ∈ d, x < 58) : padOf (B58_DIGITS.getD 0 0) (d.map letter58) = zeros d := by
  rw [letter58_get (by decide)]
  induction d with
  | nil => rfl
  | cons x d ih =>
    obtain ⟨hx, hd⟩ := List.forall_mem_cons.1 hd
    rw [List.map_cons, padOf, zeros_cons, ih hd]
    by_cases h : x = 0
    · simp [h]
    · rw [if_neg h, if_neg]
      intro e
      exact h (letter58_inj hx (by decide) e)

theorem value_zero {base : Nat} {d : List Nat} (hb : 0 < base) (h : value base d = 0) : d = List.replicate d.length 0 := by
  induction d with
  | nil => rfl
  | cons x d ih =>
    rw [value_cons] at h
    have h1 : x * base ^ d.length = 0 := by omega
    have h2 : value base d = 0 := by omega
    have hx : x = 0 := (Nat.mul_eq_zero.1 h1).resolve_right (by have := Nat.pow_pos (n := d.length) hb; omega)
    rw [hx, List.length_cons, List.replicate_succ, ← ih h2]

theorem zeros_dropLast {base : Nat} {d : List Nat} (h : value base d ≠ 0) : zeros d.dropLast = zeros d := by
  induction d with
  | nil => rfl
  | cons x d ih =>
    cases d with
    | nil =>
      have : x ≠ 0 := by
        intro e
        subst e
        simp [value] at h
      simp [zeros, this]
    | cons y d =>
      rw [List.dropLast_cons_cons, zeros_cons, zeros_cons x]
      by_cases hx : x = 0
      · rw [if_pos hx, if_pos hx, ih]
        subst hx
        rw [value_cons] at h
        simpa using h
      · rw [if_neg hx, if_neg hx]

theorem unhex_map {n : Nat} (hn : n ≠ 0) : (unhex n).map UInt8.toNat = (Nat.digits 256 n).reverse := by
  rw [unhex, if_neg hn, divLoop_digits (by decide), List.map_reverse, List.map_map]
  congr 1
  conv => rhs; rw [← List.map_id (Nat.digits 256 n)]
  refine List.map_congr_left fun x hx => ?_
  have : x < 256 := Nat.digits_lt_base (by decide) hx
  simp [Nat.mod_eq_of_lt this]

/-- **C88.** `decode` reads exactly the texts of base58, as what they stand for. -/
theorem C88_decode (s : PyStr) (b : Bytes) : b58Decode s = .ok b ↔ Base58 s b := by
  have key : ∀ {s b}, b58Decode s = .ok b → Base58 s b := by
    intro s b h
    rw [b58Decode] at h
    split at h
    · rename_i hs
      subst hs
      cases h
      exact ⟨[], rfl, by simp, rfl, rfl⟩
    · rename_i hs
      obtain ⟨n, h1, h2⟩ := and_then.1 h
      obtain ⟨d, rfl, hd, rfl⟩ := number_ok.1 h1
      have hn : d ≠ [] := fun e => hs (by rw [e]; rfl)
      simp only [Nat.zero_mul, Nat.zero_add] at h2 h1
      rw [← List.map_dropLast, pad_letters fun x hx => hd x (List.mem_of_mem_dropLast hx)] at h2
      cases h2
      refine ⟨d, rfl, hd, ?_, ?_⟩
      · rw [List.map_append, List.map_replicate]
        change _ = value 256 (List.replicate _ 0 ++ _)
        rw [value_replicate]
        by_cases h0 : value 58 d = 0
        · rw [h0]
          simp [unhex, value]
        · rw [unhex_map h0, value_eq (base := 256), List.reverse_reverse, Nat.ofDigits_digits]
      · rw [List.map_append, List.map_replicate]
        change _ = zeros (List.replicate _ 0 ++ _)
        rw [zeros_replicate]
        by_cases h0 : value 58 d = 0
        · have e := value_zero (by decide) h0
          have : ∀ k, zeros (List.replicate k 0) = k := fun k => by simp [zeros]
          rw [h0, e, List.dropLast_replicate, this, this]
          have : 0 < d.length := List.length_pos_iff.2 hn
          simp [unhex, zeros]
          omega
        · rw [unhex_map h0, zeros_dropLast h0]
          have := (made (base := 256) (by decide) 0 (value 58 d)).2.2
          simp only [List.replicate_zero, List.nil_append] at this
          omega
  refine ⟨key, fun h => ?_⟩
  have hex : ∃ b', b58Decode s = .ok b' := by
    obtain ⟨d, rfl, hd, -⟩ := h
    rw [b58Decode]
    split
    · exact ⟨_, rfl⟩
    · rw [number_ok.2 ⟨d, rfl, hd, rfl⟩]
      exact ⟨_, rfl⟩
  obtain ⟨b', hb⟩ := hex
  rw [hb, base58_bytes (key hb) h]

/-! ### Addresses -/

variable {H : Bytes → Bytes} {S : SegwitCodec}

/-- The class of an address. -/
def clsOf (a : Addr) : Chain × Kind × Bool := (a.chain, a.kind, a.conf)

theorem base58_kind {k : Kind} : k.segwit = false ↔ k = .p2pkh ∨ k = .p2sh := by cases k <;> simp [Kind.segwit]

/-- **C88.** A base58 address class reads exactly its own addresses. -/
theorem C88_base58 (hH : ∀ x, (H x).length = 32) (l : List (Chain × Kind × Bool)) (hl : ∀ x ∈ l, IsBase58 x) (s : PyStr) (a : Addr) :
    b58New H l s = .ok a ↔ clsOf a ∈ l ∧ AddrOk a ∧ Base58Check H (base58Prefix a.chain a.kind a.conf) a.payload s := by
  have hH4 : ∀ x, ((H x).take 4).length = 4 := fun x => by rw [List.length_take, hH]; rfl
  rw [b58New, and_then]
  constructor
  · rintro ⟨k, h1, h⟩
    split at h
    · cases h
    · rename_i hk
      simp only at h
      split at h
      · cases h
      · rename_i hc
        obtain ⟨m, ok, e⟩ := base58Match_sound l _ a h
        refine ⟨m, ok, ?_⟩
        rw [Base58Check, ← e, ← not_not.1 hc, List.take_append_drop]
        exact (C88_decode s k).1 h1
  · rintro ⟨m, ok, h⟩
    refine ⟨_, (C88_decode s _).2 h, ?_⟩
    have hlen : ∀ x : Bytes, (x ++ (H x).take 4).length - 4 = x.length := fun x => by rw [List.length_append, hH4]; omega
    rw [if_neg (by rw [List.length_append, hH4]; omega), hlen, List.take_left' rfl, List.drop_left' rfl]
    simp only
    rw [if_neg (by simp)]
    exact C29_base58_complete l hl a ok m

theorem str_check (a : Addr) : Base58Check H (base58Prefix a.chain a.kind a.conf) a.payload (Addr.b58Str H a) := encode_base58 _

/-- How long base58 text is, if the first byte is not zero. -/
theorem text_length {s : PyStr} {x : UInt8} {b : Bytes} (hx : x ≠ 0) (h : Base58 s (x :: b)) :
    58 ^ (s.length - 1) < 256 ^ (b.length + 1) ∧ 256 ^ b.length < 58 ^ s.length := by
  obtain ⟨d, rfl, h1, h2, h3⟩ := h
  have hx' : x.toNat ≠ 0 := fun e => hx (UInt8.toNat_inj.1 e)
  rw [List.map_cons, zeros_cons, if_neg hx'] at h3
  have h4 := value_lt (bytes_lt (x :: b))
  have h5 := value_ge (base := 256) (d := b.map UInt8.toNat) hx'
  have h6 := value_lt h1
  rw [List.map_cons] at h2 h4
  rw [List.length_map] at h5
  rw [List.length_cons, List.length_map] at h4
  rw [List.length_map]
  refine ⟨?_, by omega⟩
  cases d with
  | nil =>
    simp only [value, List.foldl_nil] at h2
    have : 0 < 256 ^ b.length := Nat.pow_pos (by decide)
    unfold value at h5
    omega
  | cons y d =>
    have hy : y ≠ 0 := by
      intro e
      rw [zeros_cons, if_pos e] at h3
      omega
    have := value_ge (base := 58) (d := d) hy
    rw [List.length_cons, Nat.add_sub_cancel]
    omega

theorem base58_length (hH : ∀ x, (H x).length = 32) {a : Addr} (ha : AddrOk a) (hk : a.kind.segwit = false) {s : PyStr}
    (h : Base58Check H (base58Prefix a.chain a.kind a.conf) a.payload s) : s.length ≤ 35 ∨ 64 ≤ s.length ∧ s.length ≤ 81 := by
  have hH4 : ∀ x, ((H x).take 4).length = 4 := fun x => by rw [List.length_take, hH]; rfl
  obtain ⟨x, b, e, hx, hl⟩ : ∃ x b, base58Prefix a.chain a.kind a.conf ++ a.payload ++ (H (base58Prefix a.chain a.kind a.conf ++ a.payload)).take 4 = x :: b ∧
      x ≠ 0 ∧ b.length = if a.conf then 58 else 24 := by
    obtain ⟨c, k, f, p⟩ := a
    simp only [AddrOk] at ha
    rcases base58_kind.1 hk with rfl | rfl <;> cases c <;> cases f <;>
      exact ⟨_, _, rfl, by decide, by simp [hH4, ha, Kind.dataLen]⟩
  rw [Base58Check, e] at h
  obtain ⟨h1, h2⟩ := text_length hx h
  rw [hl] at h1 h2
  have up : ∀ {n m k : Nat}, 58 ^ (n - 1) < 256 ^ m → 256 ^ m ≤ 58 ^ k → n ≤ k := fun {n m k} u v => by
    have := (Nat.pow_lt_pow_iff_right (a := 58) (by decide)).1 (lt_of_lt_of_le u v)
    omega
  cases hc : a.conf with
  | false =>
    rw [hc] at h1
    exact .inl (up h1 (by norm_num))
  | true =>
    rw [hc] at h1 h2
    refine .inr ⟨?_, up h1 (by norm_num)⟩
    by_contra hlt
    have : 58 ^ s.length ≤ 58 ^ 63 := Nat.pow_le_pow_right (by decide) (by omega)
    have : (58 : Nat) ^ 63 ≤ 256 ^ 58 := by norm_num
    simp only [if_true] at h2
    omega

theorem bechNew_sound (hS : S.Standard lower) {c : Chain} {k : Kind} {s : PyStr} {a : Addr} (h : bechNew S c k s = .ok a) :
    clsOf a = (c, k, false) ∧ AddrOk a ∧ S.encode c.bechHrp k.witver.toNat a.payload = lower s := by
  rw [bechNew] at h
  split at h
  · cases h
  · rename_i v p hd
    split at h
    · rename_i hc
      rw [addrFromBytes_iff] at h
      obtain ⟨rfl, ok⟩ := h
      refine ⟨rfl, ok, ?_⟩
      rw [← hc.1]
      exact hS.writes _ _ _ _ hd
    · cases h

theorem bechHrp_small (c : Chain) : SmallHrp c.bechHrp := by
  unfold SmallHrp
  cases c <;> decide

theorem usual {c : Chain} {k : Kind} {p : Bytes} (hk : k.segwit = true) (ha : AddrOk ⟨c, k, false, p⟩) : UsualProg k.witver.toNat p := by
  simp only [AddrOk] at ha
  refine ⟨by cases k <;> decide, ?_⟩
  rw [ha]
  cases k <;> simp_all [Kind.segwit, Kind.dataLen, Kind.witver]

theorem lower_length (s : PyStr) : (lower s).length = s.length := by simp [lower]

/-- Whatever a class reads is an address of the class, and in lower case the text of that address; base58 text is not changed. -/
theorem addrNew_sound (hH : ∀ x, (H x).length = 32) (hS : S.Standard lower) {x : Chain × Kind × Bool} {s : PyStr} {a : Addr} (h : addrNew H S x s = .ok a) :
    clsOf a = x ∧ AddrOk a ∧ addrStr H S a = .ok (if a.kind.segwit then lower s else s) := by
  obtain ⟨c, k, f⟩ := x
  rw [addrNew] at h
  split at h
  · rename_i hk
    split at h
    · rename_i hf
      obtain ⟨rfl, h2, h3, h4, h5⟩ := C30_canonical c [k] s a h
      obtain rfl := List.mem_singleton.1 h2
      exact ⟨by rw [clsOf, h4, hf], h3, by rw [addrStr, if_pos hk, if_pos h4, if_pos hk, h5]⟩
    · rename_i hf
      obtain ⟨h1, h2, h3⟩ := bechNew_sound hS h
      obtain ⟨c', k', f', p⟩ := a
      simp only [clsOf, Prod.mk.injEq] at h1
      obtain ⟨rfl, rfl, rfl⟩ := h1
      refine ⟨?_, h2, ?_⟩
      · simp only [Bool.not_eq_true] at hf
        rw [hf]
        rfl
      · rw [addrStr, if_pos hk, if_neg (by simp), if_pos hk, h3]
  · rename_i hk
    have hk' : k.segwit = false := by simpa using hk
    obtain ⟨m, ok, h1⟩ := (C88_base58 hH _ (by simpa [IsBase58] using base58_kind.1 hk') s a).1 h
    have m' := List.mem_singleton.1 m
    refine ⟨m', ok, ?_⟩
    simp only [clsOf, Prod.mk.injEq] at m'
    obtain ⟨-, rfl, -⟩ := m'
    rw [addrStr, if_neg hk, if_neg hk, base58_text (str_check a) h1]

/-- **C88.** What any of the classes reads, in whatever order they are tried, is an address whose text, in lower case if not base58, was read. -/
theorem C88_prints (hH : ∀ x, (H x).length = 32) (hS : S.Standard lower) (l : List (Chain × Kind × Bool)) (s : PyStr) (a : Addr)
    (h : addrParse H S l s = .ok a) : clsOf a ∈ l ∧ AddrOk a ∧ addrStr H S a = .ok (if a.kind.segwit then lower s else s) := by
  induction l with
  | nil => cases h
  | cons x l ih =>
    rw [addrParse] at h
    split at h
    · rename_i a' hx
      cases h
      obtain ⟨h1, h2⟩ := addrNew_sound hH hS hx
      exact ⟨List.mem_cons.2 (.inl h1), h2⟩
    all_goals first
      | cases h
      | (obtain ⟨h1, h2⟩ := ih h; exact ⟨List.mem_cons_of_mem _ h1, h2⟩)

/-- The text of an address, as far as it tells the class apart. -/
theorem text_looks (hH : ∀ x, (H x).length = 32) (hS : S.Standard lower) {a : Addr} (ha : AddrOk a) {s : PyStr} (h : addrStr H S a = .ok s) :
    if a.kind.segwit then ((if a.conf then a.chain.blechHrp else a.chain.bechHrp) ++ ['1'.toNat] <+: s ∧
      s.length = if a.conf then 16 + (8 * (a.kind.dataLen + 33) + 4) / 5 else a.chain.bechHrp.length + 8 + (8 * a.kind.dataLen + 4) / 5)
    else s.length ≤ 35 ∨ 64 ≤ s.length ∧ s.length ≤ 81 := by
  obtain ⟨c, k, f, p⟩ := a
  rw [addrStr] at h
  simp only at h ⊢
  by_cases hk : k.segwit = true
  · rw [if_pos hk] at h ⊢
    cases f with
    | true =>
      rw [if_pos rfl] at h
      rw [if_pos rfl, if_pos rfl]
      obtain ⟨s', h1, h2⟩ := C30_roundtrip ⟨c, k, true, p⟩ ha rfl hk
      rw [h1] at h
      cases h
      have h3 := h2 [k] (List.mem_singleton_self _)
      rw [blechNew] at h3
      split at h3
      · cases h3
      · rename_i v d hd
        obtain ⟨-, -, -, hp, -, -⟩ := blechMatch_sound _ _ _ _ _ h3
        simp only at hp
        subst hp
        rw [blechDecode_iff] at hd
        have hlow : lower s = s := by
          obtain ⟨-, -, -, -, h5⟩ := C30_canonical c [k] s _ (h2 [k] (List.mem_singleton_self _))
          exact Except.ok.inj (h5.symm.trans h1)
        simp only [AddrOk, if_true] at ha
        rw [← hlow, hd.2.2.2, blechText_length, ha]
        refine ⟨⟨((v :: progSyms p) ++ createChecksum (encOf v) c.blechHrp (v :: progSyms p)).map symChar, by simp [blechText]⟩, ?_⟩
        cases c <;> rfl
    | false =>
      rw [if_neg (by simp)] at h
      rw [if_neg (by simp), if_neg (by simp)]
      cases h
      obtain ⟨d, h1, h2⟩ := hS.looks c.bechHrp k.witver.toNat p (bechHrp_small c) (usual hk ha)
      simp only [AddrOk] at ha
      rw [h1]
      refine ⟨⟨d, by simp⟩, ?_⟩
      rw [List.length_append, List.length_cons, h2, ha]
      simp
      omega
  · rw [if_neg hk] at h ⊢
    cases h
    exact base58_length hH ha (by simpa using hk) (str_check _)

theorem addrStr_ok {a : Addr} (ha : AddrOk a) : ∃ s, addrStr H S a = .ok s := by
  rw [addrStr]
  split
  · rename_i hk
    split
    · rename_i hc
      obtain ⟨s, h, -⟩ := C30_roundtrip a ha hc hk
      exact ⟨s, h⟩
    · exact ⟨_, rfl⟩
  · exact ⟨_, rfl⟩

/-- The class of an address reads its text. -/
theorem addrNew_str (hH : ∀ x, (H x).length = 32) (hS : S.Standard lower) {a : Addr} (ha : AddrOk a) {s : PyStr} (h : addrStr H S a = .ok s) :
    addrNew H S (clsOf a) s = .ok a := by
  obtain ⟨c, k, f, p⟩ := a
  rw [addrStr] at h
  simp only at h
  change (if k.segwit = true then if f = true then blechNew c [k] s else bechNew S c k s else b58New H [(c, k, f)] s) = _
  split at h
  · rename_i hk
    rw [if_pos hk]
    split at h
    · rename_i hc
      subst hc
      rw [if_pos rfl]
      obtain ⟨s', h1, h2⟩ := C30_roundtrip _ ha rfl hk
      rw [h1] at h
      cases h
      exact h2 [k] (List.mem_singleton_self _)
    · rename_i hc
      simp only [Bool.not_eq_true] at hc
      subst hc
      cases h
      rw [if_neg (by simp), bechNew, hS.reads _ _ _ (bechHrp_small c) (usual hk ha)]
      simp only [AddrOk] at ha
      simp only
      rw [if_pos ⟨by cases k <;> first | rfl | (revert hk; decide), by simpa using ha⟩, addrFromBytes_iff]
      exact ⟨rfl, by simpa [AddrOk] using ha⟩
  · rename_i hk
    rw [if_neg hk]
    cases h
    refine (C88_base58 hH _ ?_ _ _).2 ⟨List.mem_singleton_self _, ha, str_check ⟨c, k, f, p⟩⟩
    simpa [IsBase58] using base58_kind.1 (by simpa using hk)

/-- **C88.** Different addresses have different texts. -/
theorem C88_apart (hH : ∀ x, (H x).length = 32) (hS : S.Standard lower) (a a' : Addr) (ha : AddrOk a) (ha' : AddrOk a') (s : PyStr)
    (h : addrStr H S a = .ok s) (h' : addrStr H S a' = .ok s) : a = a' := by
  have l1 := text_looks hH hS ha h
  have l2 := text_looks hH hS ha' h'
  have n1 := addrNew_str hH hS ha h
  have n2 := addrNew_str hH hS ha' h'
  obtain ⟨c, k, f, p⟩ := a
  obtain ⟨c', k', f', p'⟩ := a'
  simp only [clsOf] at l1 l2 n1 n2
  have hlen : ∀ (c : Chain) (k : Kind) (f : Bool), k.segwit = true →
      ¬ ((if f then 16 + (8 * (k.dataLen + 33) + 4) / 5 else c.bechHrp.length + 8 + (8 * k.dataLen + 4) / 5) ≤ 35 ∨
        64 ≤ (if f then 16 + (8 * (k.dataLen + 33) + 4) / 5 else c.bechHrp.length + 8 + (8 * k.dataLen + 4) / 5) ∧
        (if f then 16 + (8 * (k.dataLen + 33) + 4) / 5 else c.bechHrp.length + 8 + (8 * k.dataLen + 4) / 5) ≤ 81) := by
    intro c k f hk
    cases c <;> cases f <;> cases k <;> (revert hk; decide)
  cases hk : k.segwit with
  | true =>
    rw [if_pos hk] at l1
    cases hk' : k'.segwit with
    | true =>
      rw [if_pos hk'] at l2
      have hp : (c, f) = (c', f') := by
        have e1 := l1.1.take 2
        have e2 := l2.1.take 2
        have e : ∀ (c : Chain) (f : Bool), (((if f then c.blechHrp else c.bechHrp) ++ ['1'.toNat]).take 2).length = 2 := by
          intro c f
          cases c <;> cases f <;> decide
        have h3 : ((if f then c.blechHrp else c.bechHrp) ++ ['1'.toNat]).take 2 = ((if f' then c'.blechHrp else c'.bechHrp) ++ ['1'.toNat]).take 2 :=
          List.prefix_of_prefix_length_le e1 e2 (by rw [e, e]) |>.eq_of_length (by rw [e, e])
        revert h3
        cases c <;> cases f <;> cases c' <;> cases f' <;> decide
      simp only [Prod.mk.injEq] at hp
      obtain ⟨rfl, rfl⟩ := hp
      rw [addrNew, if_pos hk] at n1
      rw [addrNew, if_pos hk'] at n2
      cases f with
      | true => exact C30_unique c c [k] [k'] (by simpa using hk) s _ _ n1 n2
      | false =>
        rw [if_neg (by simp), bechNew] at n1 n2
        split at n1
        · cases n1
        · rename_i v q hd
          rw [hd] at n2
          simp only at n2
          split at n1
          · split at n2
            · rename_i h1 h2
              rw [addrFromBytes_iff] at n1 n2
              have e1 := n1.1
              have e2 := n2.1
              simp only [Addr.mk.injEq] at e1 e2
              obtain ⟨-, -, -, rfl⟩ := e1
              obtain ⟨-, -, -, rfl⟩ := e2
              have : k = k' := by
                have hv := h1.1.symm.trans h2.1
                have hl := h1.2.symm.trans h2.2
                revert hv hl hk hk'
                cases k <;> cases k' <;> decide
              rw [this]
            · cases n2
          · cases n1
    | false =>
      rw [if_neg (by simp [hk'])] at l2
      rw [l1.2] at l2
      exact absurd l2 (hlen c k f hk)
  | false =>
    rw [if_neg (by simp [hk])] at l1
    cases hk' : k'.segwit with
    | true =>
      rw [if_pos hk'] at l2
      rw [l2.2] at l1
      exact absurd l1 (hlen c' k' f' hk')
    | false =>
      rw [addrNew, if_neg (by simp [hk])] at n1
      rw [addrNew, if_neg (by simp [hk'])] at n2
      have b1 : ∀ x ∈ [(c, k, f)], IsBase58 x := by simpa [IsBase58] using base58_kind.1 hk
      have b2 : ∀ x ∈ [(c', k', f')], IsBase58 x := by simpa [IsBase58] using base58_kind.1 hk'
      have m1 := (C88_base58 hH _ b1 s _).1 n1
      have m2 := (C88_base58 hH _ b2 s _).1 n2
      have e := base58_bytes m1.2.2 m2.2.2
      have hH4 : ∀ x, ((H x).take 4).length = 4 := fun x => by rw [List.length_take, hH]; rfl
      obtain ⟨e, -⟩ := List.append_inj' e (by rw [hH4, hH4])
      refine C29_base58_unambiguous _ _ b1 b2 _ _ _ (C29_base58_complete _ b1 _ m1.2.1 m1.1) ?_
      rw [e]
      exact C29_base58_complete _ b2 _ m2.2.1 m2.1

/-- **C88.** No text is read as different addresses: whatever classes, of whatever chain, and in whatever order are tried. -/
theorem C88_one (hH : ∀ x, (H x).length = 32) (hS : S.Standard lower) (l l' : List (Chain × Kind × Bool)) (s : PyStr) (a a' : Addr)
    (h : addrParse H S l s = .ok a) (h' : addrParse H S l' s = .ok a') : a = a' := by
  obtain ⟨-, ok, t⟩ := C88_prints hH hS l s a h
  obtain ⟨-, ok', t'⟩ := C88_prints hH hS l' s a' h'
  have hs : a.kind.segwit = a'.kind.segwit := by
    have l1 := text_looks hH hS ok t
    have l2 := text_looks hH hS ok' t'
    have len : ∀ b : Bool, (if b = true then lower s else s).length = s.length := by intro b; cases b <;> simp [lower_length]
    rw [len] at l1 l2
    have hlen : ∀ (c : Chain) (k : Kind) (f : Bool), k.segwit = true →
        ¬ ((if f then 16 + (8 * (k.dataLen + 33) + 4) / 5 else c.bechHrp.length + 8 + (8 * k.dataLen + 4) / 5) ≤ 35 ∨
          64 ≤ (if f then 16 + (8 * (k.dataLen + 33) + 4) / 5 else c.bechHrp.length + 8 + (8 * k.dataLen + 4) / 5) ∧
          (if f then 16 + (8 * (k.dataLen + 33) + 4) / 5 else c.bechHrp.length + 8 + (8 * k.dataLen + 4) / 5) ≤ 81) := by
      intro c k f hk
      cases c <;> cases f <;> cases k <;> (revert hk; decide)
    cases hk : a.kind.segwit <;> cases hk' : a'.kind.segwit
    · rfl
    · rw [if_neg (by simp [hk])] at l1
      rw [if_pos hk'] at l2
      rw [l2.2] at l1
      exact absurd l1 (hlen _ _ _ hk')
    · rw [if_neg (by simp [hk'])] at l2
      rw [if_pos hk] at l1
      rw [l1.2] at l2
      exact absurd l2 (hlen _ _ _ hk)
    · rfl
  rw [hs] at t
  exact C88_apart hH hS a a' ok ok' _ t t'

/-- What the text of an address makes the classes do that do not read it. -/
theorem addrNew_error (hH : ∀ x, (H x).length = 32) {a : Addr} (ha : AddrOk a) {s : PyStr} (h : addrStr H S a = .ok s)
    (hb : a.kind.segwit = true → a.conf = false → ∀ d, ¬ Base58 s (d ++ (H d).take 4)) {x : Chain × Kind × Bool} {e : PyErr}
    (he : addrNew H S x s = .error e) : e = .address ∨ e = .blech32 ∨ e = .blech32Unexpected := by
  obtain ⟨c, k, f⟩ := x
  rw [addrNew] at he
  split at he
  · rename_i hk
    split at he
    · rw [blechNew] at he
      split at he
      · cases he
        simp
      · rw [blechMatch] at he
        split at he
        · rename_i hc
          rw [addrFromBytes, if_neg (by simp [hc.1, classLen])] at he
          cases he
        · cases he
          simp
    · rw [bechNew] at he
      split at he
      · cases he
        simp
      · split at he
        · rename_i hc
          rw [addrFromBytes, if_neg (by simp [hc.2, classLen])] at he
          cases he
        · cases he
          simp
  · rename_i hk
    have hk' : k.segwit = false := by simpa using hk
    rw [b58New] at he
    cases hd : b58Decode s with
    | error e' =>
      have : ∀ (s : PyStr) n e, b58Number s n = .error e → e = .address := by
        intro s
        induction s with
        | nil => intro n e h; cases h
        | cons c s ih =>
          intro n e h
          rw [b58Number] at h
          split at h
          · exact ih _ _ h
          · cases h
            rfl
      rw [hd] at he
      cases he
      rw [b58Decode] at hd
      split at hd
      · cases hd
      · cases hn : b58Number s 0 with
        | error e' =>
          rw [hn] at hd
          cases hd
          exact .inl (this _ _ _ hn)
        | ok n =>
          rw [hn] at hd
          cases hd
    | ok b =>
      rw [hd] at he
      change (if b.length < 4 then _ else _) = _ at he
      split at he
      · cases he
        simp
      · simp only at he
        split at he
        · cases he
          simp
        · rename_i hc
          have hB := (C88_decode s b).1 hd
          have eb : b = b.take (b.length - 4) ++ (H (b.take (b.length - 4))).take 4 := by rw [← not_not.1 hc, List.take_append_drop]
          rw [eb] at hB
          rw [base58Match] at he
          split at he
          · rename_i hp
            exfalso
            cases hs : a.kind.segwit with
            | true =>
              cases hf : a.conf with
              | true =>
                rw [addrStr, if_pos hs, if_pos hf] at h
                obtain ⟨s', h1, h2⟩ := C30_roundtrip a ha hf hs
                rw [h1] at h
                cases h
                have h3 := h2 [a.kind] (List.mem_singleton_self _)
                have h4 := C30_canonical _ _ _ _ h3
                have hlow : lower s = s := Except.ok.inj (h4.2.2.2.2.symm.trans h1)
                have hl : 108 ∈ s := by
                  rw [← hlow]
                  rw [blechNew] at h3
                  split at h3
                  · cases h3
                  · rename_i hd'
                    exact C29_blech32_has_l a.chain s _ hd'
                obtain ⟨d, rfl, hd1, -⟩ := hB
                obtain ⟨y, hy, e108⟩ := List.mem_map.1 hl
                have : ∀ x : Fin 58, letter58 x ≠ 108 := by decide +kernel
                exact this ⟨y, hd1 y hy⟩ e108
              | false => exact hb hs hf _ hB
            | false =>
              rw [addrStr, if_neg (by simp [hs])] at h
              cases h
              have e1 := base58_bytes hB (str_check (H := H) a)
              have hH4 : ∀ x, ((H x).take 4).length = 4 := fun x => by rw [List.length_take, hH]; rfl
              obtain ⟨e1, -⟩ := List.append_inj' e1 (by rw [hH4, hH4])
              have hc := C29_base58_complete [(c, k, f), clsOf a]
                (by simpa [IsBase58, clsOf] using ⟨base58_kind.1 hk', base58_kind.1 hs⟩) a ha (by simp [clsOf])
              rw [← e1, base58Match, if_pos hp, he] at hc
              cases hc
          · rw [base58Match] at he
            cases he
            simp

/-- **C88.** The text of every address is read as that address, by all classes that include its own, in whatever order they are tried.
A bech32 text might be base58 as well, if the hash has it so; this has to be excluded. -/
theorem C88_reads (hH : ∀ x, (H x).length = 32) (hS : S.Standard lower) (a : Addr) (ha : AddrOk a) : ∃ s, addrStr H S a = .ok s ∧
    ((a.kind.segwit = true → a.conf = false → ∀ d, ¬ Base58 s (d ++ (H d).take 4)) → ∀ l, clsOf a ∈ l → addrParse H S l s = .ok a) := by
  obtain ⟨s, hs⟩ := addrStr_ok (H := H) (S := S) ha
  refine ⟨s, hs, fun hb l hm => ?_⟩
  have own := addrNew_str hH hS ha hs
  induction l with
  | nil => cases hm
  | cons x l ih =>
    cases hx : addrNew H S x s with
    | ok a' =>
      have e := C88_one hH hS [x] [clsOf a] s a' a (by rw [addrParse, hx]) (by rw [addrParse, own])
      rw [addrParse, hx, e]
    | error e =>
      have hm' : clsOf a ∈ l := by
        rcases List.mem_cons.1 hm with h | h
        · rw [← h, own] at hx
          cases hx
        · exact h
      rw [addrParse, hx]
      rcases addrNew_error hH ha hs hb hx with rfl | rfl | rfl <;> exact ih hm'

/-- **C88.** No text is read as of two classes, and only as one thing, keys and extended keys included; but for the secret keys of the two chains. -/
theorem C88_classes (hH : ∀ x, (H x).length = 32) (x y : B58Class) (hx : x.Real) (hy : y.Real) (d d' : Bytes) (s : PyStr)
    (h : Base58Check H x.pre d s) (h' : Base58Check H y.pre d' s) : d = d' ∧ (x = y ∨ ∃ c c', x = .key c ∧ y = .key c') := by
  have hH4 : ∀ x, ((H x).take 4).length = 4 := fun x => by rw [List.length_take, hH]; rfl
  obtain ⟨e, -⟩ := List.append_inj' (base58_bytes h h') (by rw [hH4, hH4])
  have hc := C56_unambiguous_partial x y hx hy _ ⟨d, rfl⟩ ⟨d', e.symm⟩
  refine ⟨?_, hc⟩
  rcases hc with rfl | ⟨c, c', rfl, rfl⟩
  · exact List.append_cancel_left e
  · cases c <;> cases c' <;> exact List.append_cancel_left e

end Verif.AddrText
