/-
Byte strings, fixed-width integers and `struct.pack`/`struct.unpack`.

Python's `bytes` is modelled as `List UInt8`.  The formats that occur in the code
are `<i`, `<I`, `<H`, `<Q`, `<q`, `>q` and `B`.
-/
namespace Verif

/-- Python `bytes`. -/
abbrev Bytes := List UInt8

/-- The exception classes the modelled code can raise.  Only the class is kept:
no modelled code inspects a message. -/
inductive PyErr where
  /-- `bitcointx.core.serialize.SerializationError` -/
  | serialization
  /-- `SerializationTruncationError` -/
  | truncation
  /-- `DeserializationExtraDataError` -/
  | extraData
  /-- `WitnessSerializationError`, core/__init__.py:209 -/
  | witnessSerialization
  /-- `TxInSerializationError`, core/__init__.py:213 -/
  | txInSerialization
  | valueError
  | typeError
  | assertion
  /-- `struct.error` -/
  | structError
  | indexError
  | runtimeError
  /-- `UnboundLocalError` -/
  | unboundLocal
  /-- `CScriptInvalidError` and its subclasses (python-bitcointx script.py) -/
  | scriptInvalid
  /-- `Blech32Error`, blech32.py:25 -/
  | blech32
  /-- `UnexpectedBlech32LenghOrVersion`, blech32.py:33 -/
  | blech32Unexpected
  /-- any other error raised by the address machinery of python-bitcointx -/
  | address
  | attributeError
  | zeroDivision
  | stopIteration
  | nameError
  | notImplemented
  deriving DecidableEq, Repr

/-- The value of a little-endian byte string. -/
def leVal : Bytes → Nat
  | [] => 0
  | b :: bs => b.toNat + 256 * leVal bs

/-- `n` as `k` little-endian bytes (reduced modulo `256^k`). -/
def leBytes : Nat → Nat → Bytes
  | 0, _ => []
  | k + 1, n => UInt8.ofNat (n % 256) :: leBytes k (n / 256)

/-- The value of a big-endian byte string. -/
def beVal (b : Bytes) : Nat := leVal b.reverse

/-- `n` as `k` big-endian bytes. -/
def beBytes (k n : Nat) : Bytes := (leBytes k n).reverse

/-- `struct.pack` of an unsigned little-endian integer of `k` bytes (`<H`, `<I`,
`<Q`, `B`): out-of-range arguments raise `struct.error`. -/
def packU (k : Nat) (n : Nat) : Except PyErr Bytes :=
  if n < 256 ^ k then .ok (leBytes k n) else .error .structError

/-- Two's complement of a signed integer in `k` bytes. -/
def twos (k : Nat) (v : Int) : Nat := (v % (256 ^ k : Nat)).toNat

/-- The signed integer represented by an unsigned one in `k` bytes. -/
def untwos (k : Nat) (n : Nat) : Int :=
  if 2 * n < 256 ^ k then (n : Int) else (n : Int) - (256 ^ k : Nat)

/-- Range of a signed integer of `k` bytes. -/
def inRangeS (k : Nat) (v : Int) : Prop :=
  - (256 ^ k : Nat) ≤ 2 * v ∧ 2 * v < (256 ^ k : Nat)

instance (k v) : Decidable (inRangeS k v) := by unfold inRangeS; infer_instance

/-- `struct.pack` of a signed little-endian integer (`<i`, `<q`). -/
def packS (k : Nat) (v : Int) : Except PyErr Bytes :=
  if inRangeS k v then .ok (leBytes k (twos k v)) else .error .structError

/-- `struct.pack` of a signed big-endian integer (`>q`). -/
def packSBE (k : Nat) (v : Int) : Except PyErr Bytes :=
  if inRangeS k v then .ok (beBytes k (twos k v)) else .error .structError

deriving instance DecidableEq for Except

/-! ### Lemmas -/

@[simp] theorem leBytes_length (k n : Nat) : (leBytes k n).length = k := by
  induction k generalizing n with
  | zero => rfl
  | succ k ih => simp [leBytes, ih]

@[simp] theorem beBytes_length (k n : Nat) : (beBytes k n).length = k := by
  simp [beBytes]

theorem leVal_lt (b : Bytes) : leVal b < 256 ^ b.length := by
  induction b with
  | nil => simp [leVal]
  | cons x xs ih =>
    have hx : x.toNat < 256 := x.toNat_lt
    simp only [leVal, List.length_cons, Nat.pow_succ]
    omega

theorem leVal_leBytes (k n : Nat) : leVal (leBytes k n) = n % 256 ^ k := by
  induction k generalizing n with
  | zero => simp [leBytes, leVal, Nat.mod_one]
  | succ k ih =>
    simp only [leBytes, leVal, ih]
    have h : (256 : Nat) ^ (k + 1) = 256 * 256 ^ k := by rw [Nat.pow_succ, Nat.mul_comm]
    rw [UInt8.toNat_ofNat', h, Nat.mod_mul]
    simp

theorem leVal_leBytes_of_lt {k n : Nat} (h : n < 256 ^ k) : leVal (leBytes k n) = n := by
  rw [leVal_leBytes, Nat.mod_eq_of_lt h]

theorem leBytes_leVal (b : Bytes) : leBytes b.length (leVal b) = b := by
  induction b with
  | nil => rfl
  | cons x xs ih =>
    have hx : x.toNat < 256 := x.toNat_lt
    have h1 : (x.toNat + 256 * leVal xs) % 256 = x.toNat := by omega
    have h2 : (x.toNat + 256 * leVal xs) / 256 = leVal xs := by omega
    simp only [List.length_cons, leBytes, leVal, h1, h2, ih, UInt8.ofNat_toNat]

theorem leBytes_leVal' {b : Bytes} {k : Nat} (h : b.length = k) : leBytes k (leVal b) = b := by
  subst h; exact leBytes_leVal b

theorem leBytes_inj {k m n : Nat} (hm : m < 256 ^ k) (hn : n < 256 ^ k)
    (h : leBytes k m = leBytes k n) : m = n := by
  rw [← leVal_leBytes_of_lt hm, h, leVal_leBytes_of_lt hn]

theorem leVal_inj {a b : Bytes} (hl : a.length = b.length) (h : leVal a = leVal b) : a = b := by
  rw [← leBytes_leVal a, ← leBytes_leVal b, hl, h]

theorem twos_lt (k : Nat) (v : Int) : twos k v < 256 ^ k := by
  unfold twos
  have hp : (0 : Int) < (256 ^ k : Nat) := by exact_mod_cast Nat.pow_pos (by decide)
  generalize (256 ^ k : Nat) = N at *
  have h1 : 0 ≤ v % (N : Int) := Int.emod_nonneg v (by omega)
  have h2 := Int.emod_lt_of_pos v hp
  omega

theorem untwos_twos {k : Nat} {v : Int} (h : inRangeS k v) : untwos k (twos k v) = v := by
  unfold untwos twos
  obtain ⟨h1, h2⟩ := h
  have hp : (0 : Int) < (256 ^ k : Nat) := by exact_mod_cast Nat.pow_pos (by decide)
  generalize hN : (256 ^ k : Nat) = N at *
  rcases Int.lt_or_le v 0 with hv | hv
  · have : v % (N : Int) = v + N := by
      rw [← Int.add_emod_right]; exact Int.emod_eq_of_lt (by omega) (by omega)
    rw [this]; split <;> omega
  · have : v % (N : Int) = v := Int.emod_eq_of_lt (by omega) (by omega)
    rw [this]; split <;> omega

theorem twos_untwos {k n : Nat} (h : n < 256 ^ k) : twos k (untwos k n) = n := by
  unfold untwos twos
  generalize (256 ^ k : Nat) = N at *
  split
  · rw [Int.emod_eq_of_lt (by omega) (by omega)]; omega
  · rw [← Int.add_emod_right]
    rw [Int.emod_eq_of_lt (by omega) (by omega)]; omega

theorem untwos_inRange {k n : Nat} (h : n < 256 ^ k) : inRangeS k (untwos k n) := by
  unfold untwos inRangeS
  generalize (256 ^ k : Nat) = N at *
  split <;> omega

theorem beVal_beBytes_of_lt {k n : Nat} (h : n < 256 ^ k) : beVal (beBytes k n) = n := by
  simp [beVal, beBytes, leVal_leBytes_of_lt h]

theorem beBytes_beVal {b : Bytes} {k : Nat} (h : b.length = k) : beBytes k (beVal b) = b := by
  have : (leBytes k (leVal b.reverse)) = b.reverse := leBytes_leVal' (by simpa using h)
  simp [beVal, beBytes, this]

theorem beVal_lt (b : Bytes) : beVal b < 256 ^ b.length := by
  have := leVal_lt b.reverse
  simpa [beVal] using this

theorem packU_ok {k n : Nat} {b : Bytes} : packU k n = .ok b ↔ n < 256 ^ k ∧ b = leBytes k n := by
  unfold packU; split
  · simp_all [eq_comm]
  · simp_all only [reduceCtorEq, false_iff, not_and]; intro h; contradiction

theorem packS_ok {k : Nat} {v : Int} {b : Bytes} :
    packS k v = .ok b ↔ inRangeS k v ∧ b = leBytes k (twos k v) := by
  unfold packS; split <;> simp_all [eq_comm]

theorem packSBE_ok {k : Nat} {v : Int} {b : Bytes} :
    packSBE k v = .ok b ↔ inRangeS k v ∧ b = beBytes k (twos k v) := by
  unfold packSBE; split <;> simp_all [eq_comm]

end Verif
