import Verif.Serialize
import Verif.Spec.Wire
/-
Readers against the wire grammar.
-/
namespace Verif
open Spec

variable {α β : Type}

theorem P.bind_ok {p : P α} {f : α → P β} {s r : Bytes} {b : β} :
    (p >>= f) s = .ok (b, r) ↔ ∃ a s', p s = .ok (a, s') ∧ f a s' = .ok (b, r) := by
  show (StateT.bind p f) s = _ ↔ _
  unfold StateT.bind
  cases h : p s with
  | error e => simp [bind, Except.bind]
  | ok v =>
    obtain ⟨a, s'⟩ := v
    simp only [bind, Except.bind, Except.ok.injEq, Prod.mk.injEq]
    constructor
    · intro h; exact ⟨a, s', ⟨rfl, rfl⟩, h⟩
    · rintro ⟨_, _, ⟨rfl, rfl⟩, h⟩; exact h

theorem P.bind_of_ok {p : P α} {f : α → P β} {s s' : Bytes} {a : α} (h : p s = .ok (a, s')) :
    (p >>= f) s = f a s' := by
  show (StateT.bind p f) s = _
  unfold StateT.bind
  simp [h, bind, Except.bind]

theorem P.bind_of_error {p : P α} {f : α → P β} {s : Bytes} {e : PyErr} (h : p s = .error e) :
    (p >>= f) s = .error e := by
  show (StateT.bind p f) s = _
  unfold StateT.bind
  simp [h, bind, Except.bind]

theorem P.pure_ok {a b : α} {s r : Bytes} : (pure a : P α) s = .ok (b, r) ↔ b = a ∧ r = s := by
  show StateT.pure a s = _ ↔ _
  simp [StateT.pure, pure, Except.pure, eq_comm]

/-- `p` reads exactly the encodings described by `E`. -/
def Reads (p : P α) (E : α → Bytes → Prop) : Prop :=
  ∀ s a r, p s = .ok (a, r) ↔ ∃ b, s = b ++ r ∧ E a b

/-- On a proper prefix of an encoding, `p` raises the truncation error. -/
def Truncs (p : P α) (E : α → Bytes → Prop) : Prop :=
  ∀ a b, E a b → ∀ b1 b2, b = b1 ++ b2 → b2 ≠ [] → p b1 = .error .truncation

theorem Reads.run {p : P α} {E : α → Bytes → Prop} (h : Reads p E) {a : α} {b : Bytes}
    (hE : E a b) (r : Bytes) : p (b ++ r) = .ok (a, r) :=
  (h _ _ _).2 ⟨b, rfl, hE⟩

theorem Reads.unique {p : P α} {E : α → Bytes → Prop} (h : Reads p E) {a a' : α} {b b' r r' : Bytes}
    (h1 : E a b) (h2 : E a' b') (he : b ++ r = b' ++ r') : a = a' ∧ b = b' ∧ r = r' := by
  have e1 := h.run h1 r
  have e2 := h.run h2 r'
  rw [he, e2] at e1
  simp only [Except.ok.injEq, Prod.mk.injEq] at e1
  obtain ⟨e3, e4⟩ := e1
  subst e4
  exact ⟨e3.symm, List.append_cancel_right he, rfl⟩

theorem Reads.congr {p : P α} {E F : α → Bytes → Prop} (h : Reads p E)
    (hEF : ∀ a b, E a b ↔ F a b) : Reads p F := by
  intro s a r
  rw [h s a r]
  exact ⟨fun ⟨b, h1, h2⟩ => ⟨b, h1, (hEF _ _).1 h2⟩, fun ⟨b, h1, h2⟩ => ⟨b, h1, (hEF _ _).2 h2⟩⟩

theorem Truncs.congr {p : P α} {E F : α → Bytes → Prop} (h : Truncs p E)
    (hEF : ∀ a b, E a b ↔ F a b) : Truncs p F :=
  fun a b hF => h a b ((hEF _ _).2 hF)

/-- Grammar of a sequenced read. -/
def BindEnc (E : α → Bytes → Prop) (F : α → β → Bytes → Prop) (y : β) (w : Bytes) : Prop :=
  ∃ a w1 w2, w = w1 ++ w2 ∧ E a w1 ∧ F a y w2

theorem Reads.bind {p : P α} {f : α → P β} {E : α → Bytes → Prop} {F : α → β → Bytes → Prop}
    (hp : Reads p E) (hf : ∀ a b, E a b → Reads (f a) (F a)) : Reads (p >>= f) (BindEnc E F) := by
  intro s y r
  rw [P.bind_ok]
  constructor
  · rintro ⟨a, s', h1, h2⟩
    obtain ⟨w1, rfl, hE⟩ := (hp _ _ _).1 h1
    obtain ⟨w2, rfl, hF⟩ := (hf a w1 hE _ _ _).1 h2
    exact ⟨w1 ++ w2, by simp, a, w1, w2, rfl, hE, hF⟩
  · rintro ⟨b, rfl, a, w1, w2, rfl, hE, hF⟩
    refine ⟨a, w2 ++ r, ?_, (hf a w1 hE).run hF r⟩
    rw [List.append_assoc]; exact hp.run hE _

theorem Truncs.bind {p : P α} {f : α → P β} {E : α → Bytes → Prop} {F : α → β → Bytes → Prop}
    (hr : Reads p E) (hp : Truncs p E) (hf : ∀ a b, E a b → Truncs (f a) (F a)) :
    Truncs (p >>= f) (BindEnc E F) := by
  rintro y w ⟨a, w1, w2, rfl, hE, hF⟩ b1 b2 he hb2
  rcases List.append_eq_append_iff.1 he with ⟨c, rfl, rfl⟩ | ⟨c, rfl, rfl⟩
  · -- b1 = w1 ++ c
    rw [P.bind_of_ok (hr.run hE c)]
    exact hf a w1 hE y _ hF c b2 rfl hb2
  · cases c with
    | nil =>
      have h0 := hr.run hE []
      simp only [List.append_nil] at h0 hE
      rw [P.bind_of_ok h0]
      exact hf a b1 hE y _ hF [] _ rfl (by simpa using hb2)
    | cons x c =>
      exact P.bind_of_error (hp a _ hE b1 (x :: c) rfl (by simp))

theorem Reads.pure (a : α) : Reads (pure a : P α) (fun x b => x = a ∧ b = []) := by
  intro s y r
  rw [P.pure_ok]
  constructor
  · rintro ⟨rfl, rfl⟩; exact ⟨[], rfl, rfl, rfl⟩
  · rintro ⟨b, rfl, rfl, rfl⟩; exact ⟨rfl, rfl⟩

theorem Truncs.pure (p : P α) (Q : α → Prop) : Truncs p (fun x b => Q x ∧ b = []) := by
  rintro x b ⟨_, rfl⟩ b1 b2 he hb2
  simp at he; exact absurd he.2 hb2

theorem Reads.raise (e : PyErr) : Reads (P.raise e : P α) (fun _ _ => False) := by
  intro s a r; simp [P.raise]

theorem Truncs.raise (p : P α) : Truncs p (fun _ _ => False) := by
  intro a b h; exact h.elim

theorem serRead_ok {n : Nat} {s b r : Bytes} :
    serRead n s = .ok (b, r) ↔ n ≤ MAX_SIZE ∧ s = b ++ r ∧ b.length = n := by
  unfold serRead
  split
  · rename_i h; simp; intro h1; omega
  · split
    · rename_i h1 h2
      simp; rintro _ rfl rfl; simp at h2
      omega
    · rename_i h1 h2
      simp only [Except.ok.injEq, Prod.mk.injEq]
      constructor
      · rintro ⟨rfl, rfl⟩; exact ⟨by omega, by simp, by simp; omega⟩
      · rintro ⟨_, rfl, rfl⟩; simp

theorem Reads.serRead (n : Nat) (h : n ≤ MAX_SIZE) : Reads (serRead n) (fun a b => a = b ∧ b.length = n) := by
  intro s a r
  rw [serRead_ok]
  constructor
  · rintro ⟨_, rfl, hl⟩; exact ⟨a, rfl, rfl, hl⟩
  · rintro ⟨b, rfl, rfl, hl⟩; exact ⟨h, rfl, hl⟩

theorem Reads.serRead' (n : Nat) :
    Reads (Verif.serRead n) (fun a b => a = b ∧ b.length = n ∧ n ≤ MAX_SIZE) := by
  intro s a r
  rw [serRead_ok]
  constructor
  · rintro ⟨h, rfl, hl⟩; exact ⟨a, rfl, rfl, hl, h⟩
  · rintro ⟨b, rfl, rfl, hl, h⟩; exact ⟨h, rfl, hl⟩

theorem Truncs.serRead' (n : Nat) :
    Truncs (Verif.serRead n) (fun a b => a = b ∧ b.length = n ∧ n ≤ MAX_SIZE) := by
  rintro a b ⟨rfl, hl, hM⟩ b1 b2 rfl hb2
  unfold Verif.serRead
  have : b2.length ≠ 0 := by simpa using hb2
  simp only [List.length_append] at hl
  rw [if_neg (by omega), if_pos (by omega)]

theorem Reads.readU {k : Nat} (hk : k ≤ 8) : Reads (readU k) (UIntEnc k) := by
  refine ((Reads.serRead' k).bind (F := fun a x b => x = leVal a ∧ b = [])
    (fun a b _ => Reads.pure _)).congr ?_
  intro n w
  unfold UIntEnc BindEnc
  constructor
  · rintro ⟨a, w1, w2, rfl, ⟨rfl, hl, _⟩, rfl, rfl⟩; simp [hl]
  · rintro ⟨hl, rfl⟩
    exact ⟨w, w, [], by simp, ⟨rfl, hl, by unfold MAX_SIZE; omega⟩, rfl, rfl⟩

theorem Truncs.readU {k : Nat} (hk : k ≤ 8) : Truncs (readU k) (UIntEnc k) := by
  refine (Truncs.bind (Reads.serRead' k) (Truncs.serRead' k) (F := fun a x b => x = leVal a ∧ b = [])
    (fun a b _ => Truncs.pure _ _)).congr ?_
  intro n w
  unfold UIntEnc BindEnc
  constructor
  · rintro ⟨a, w1, w2, rfl, ⟨rfl, hl, _⟩, rfl, rfl⟩; simp [hl]
  · rintro ⟨hl, rfl⟩
    exact ⟨w, w, [], by simp, ⟨rfl, hl, by unfold MAX_SIZE; omega⟩, rfl, rfl⟩

theorem sintEnc_iff {k : Nat} {v : Int} {b : Bytes} :
    SIntEnc k v b ↔ b.length = k ∧ v = untwos k (leVal b) := by
  unfold SIntEnc untwos
  generalize (256 ^ k : Nat) = N
  constructor
  · rintro ⟨h, ⟨h1, h2⟩ | ⟨h1, h2⟩⟩
    · exact ⟨h, by rw [if_pos h1]; exact h2⟩
    · exact ⟨h, by rw [if_neg (by omega)]; exact h2⟩
  · rintro ⟨h, h2⟩
    refine ⟨h, ?_⟩
    split at h2
    · left; exact ⟨by omega, h2⟩
    · right; exact ⟨by omega, h2⟩

theorem Reads.readS {k : Nat} (hk : k ≤ 8) : Reads (readS k) (SIntEnc k) := by
  refine ((Reads.serRead' k).bind (F := fun a x b => x = untwos k (leVal a) ∧ b = [])
    (fun a b _ => Reads.pure _)).congr ?_
  intro n w
  rw [sintEnc_iff]
  unfold BindEnc
  constructor
  · rintro ⟨a, w1, w2, rfl, ⟨rfl, hl, _⟩, rfl, rfl⟩; simp [hl]
  · rintro ⟨hl, rfl⟩
    exact ⟨w, w, [], by simp, ⟨rfl, hl, by unfold MAX_SIZE; omega⟩, rfl, rfl⟩

theorem Truncs.readS {k : Nat} (hk : k ≤ 8) : Truncs (readS k) (SIntEnc k) := by
  refine (Truncs.bind (Reads.serRead' k) (Truncs.serRead' k)
    (F := fun a x b => x = untwos k (leVal a) ∧ b = [])
    (fun a b _ => Truncs.pure _ _)).congr ?_
  intro n w
  rw [sintEnc_iff]
  unfold BindEnc
  constructor
  · rintro ⟨a, w1, w2, rfl, ⟨rfl, hl, _⟩, rfl, rfl⟩; simp [hl]
  · rintro ⟨hl, rfl⟩
    exact ⟨w, w, [], by simp, ⟨rfl, hl, by unfold MAX_SIZE; omega⟩, rfl, rfl⟩

/-- Grammar of what follows the first byte of a compact size. -/
def VarTail (r : Nat) (n : Nat) (b : Bytes) : Prop :=
  if r < 0xfd then n = r ∧ b = []
  else if r = 0xfd then UIntEnc 2 n b
  else if r = 0xfe then UIntEnc 4 n b
  else UIntEnc 8 n b

theorem uint_one {n : Nat} {b : Bytes} : UIntEnc 1 n b ↔ ∃ x : UInt8, b = [x] ∧ x.toNat = n := by
  unfold UIntEnc
  constructor
  · rintro ⟨h1, h2⟩
    match b, h1 with
    | [x], _ => exact ⟨x, rfl, by simpa [leVal] using h2⟩
  · rintro ⟨x, rfl, rfl⟩; simp [leVal]

theorem u8_eq_of_toNat {x : UInt8} {n : Nat} (h : x.toNat = n) : x = UInt8.ofNat n := by
  rw [← h, UInt8.ofNat_toNat]

theorem varIntEnc_iff {n : Nat} {w : Bytes} : BindEnc (UIntEnc 1) VarTail n w ↔ VarIntEnc n w := by
  unfold BindEnc
  constructor
  · rintro ⟨r, w1, w2, rfl, h1, h2⟩
    obtain ⟨x, rfl, rfl⟩ := uint_one.1 h1
    unfold VarTail at h2
    split at h2
    · obtain ⟨rfl, rfl⟩ := h2; exact .one rfl (by omega)
    · split at h2
      · rename_i h3; have := u8_eq_of_toNat h3; subst this; exact .two h2
      · split at h2
        · rename_i h3; have := u8_eq_of_toNat h3; subst this; exact .four h2
        · have hx := x.toNat_lt
          have h3 : x.toNat = 255 := by omega
          have := u8_eq_of_toNat h3; subst this; exact .eight h2
  · intro h
    cases h with
    | one h1 h2 => rename_i x; exact ⟨n, [x], [], rfl, uint_one.2 ⟨x, rfl, h1⟩, by simp [VarTail, h2]⟩
    | two h => exact ⟨0xfd, [0xfd], _, rfl, uint_one.2 ⟨_, rfl, rfl⟩, by simpa [VarTail] using h⟩
    | four h => exact ⟨0xfe, [0xfe], _, rfl, uint_one.2 ⟨_, rfl, rfl⟩, by simpa [VarTail] using h⟩
    | eight h => exact ⟨0xff, [0xff], _, rfl, uint_one.2 ⟨_, rfl, rfl⟩, by simpa [VarTail] using h⟩

theorem Reads.readVarInt : Reads readVarInt VarIntEnc := by
  refine ((Reads.readU (by decide)).bind (F := VarTail) ?_).congr (fun _ _ => varIntEnc_iff)
  intro r _ _
  unfold VarTail
  split
  · exact Reads.pure _
  · split
    · exact Reads.readU (by decide)
    · split
      · exact Reads.readU (by decide)
      · exact Reads.readU (by decide)

theorem Truncs.readVarInt : Truncs readVarInt VarIntEnc := by
  refine (Truncs.bind (Reads.readU (by decide)) (Truncs.readU (by decide)) (F := VarTail) ?_).congr
    (fun _ _ => varIntEnc_iff)
  intro r _ _
  unfold VarTail
  split
  · exact Truncs.pure _ _
  · split
    · exact Truncs.readU (by decide)
    · split
      · exact Truncs.readU (by decide)
      · exact Truncs.readU (by decide)

theorem bytesEnc_iff {a w : Bytes} :
    BindEnc VarIntEnc (fun n a b => a = b ∧ b.length = n ∧ n ≤ MAX_SIZE) a w ↔ BytesEnc VarIntEnc a w := by
  unfold BindEnc BytesEnc maxItem MAX_SIZE
  constructor
  · rintro ⟨n, w1, w2, rfl, h1, rfl, rfl, h3⟩; exact ⟨w1, h1, h3, rfl⟩
  · rintro ⟨l, h1, h2, rfl⟩; exact ⟨a.length, l, a, rfl, h1, rfl, rfl, h2⟩

theorem Reads.readVarBytes : Reads readVarBytes (BytesEnc VarIntEnc) :=
  (Reads.readVarInt.bind (fun n _ _ => Reads.serRead' n)).congr (fun _ _ => bytesEnc_iff)

theorem Truncs.readVarBytes : Truncs readVarBytes (BytesEnc VarIntEnc) :=
  (Truncs.bind Reads.readVarInt Truncs.readVarInt (fun n _ _ => Truncs.serRead' n)).congr
    (fun _ _ => bytesEnc_iff)

theorem seqEnc_cons {E : α → Bytes → Prop} {n : Nat} {l : List α} {w : Bytes} :
    BindEnc E (fun x => BindEnc (fun xs b => xs.length = n ∧ SeqEnc E xs b)
      (fun xs y b => y = x :: xs ∧ b = [])) l w ↔ l.length = n + 1 ∧ SeqEnc E l w := by
  unfold BindEnc
  constructor
  · rintro ⟨x, w1, w2, rfl, hx, xs, w3, w4, rfl, ⟨rfl, hs⟩, rfl, rfl⟩
    rw [List.append_nil]
    exact ⟨rfl, .cons hx hs⟩
  · rintro ⟨hl, hs⟩
    cases hs with
    | nil => simp at hl
    | cons hx hs =>
      exact ⟨_, _, _, rfl, hx, _, _, [], by rw [List.append_nil], ⟨by simpa using hl, hs⟩, rfl, rfl⟩

theorem Reads.readN {p : P α} {E : α → Bytes → Prop} (hp : Reads p E) (n : Nat) :
    Reads (readN p n) (fun xs b => xs.length = n ∧ SeqEnc E xs b) := by
  induction n with
  | zero =>
    refine (Reads.pure []).congr ?_
    intro xs b
    constructor
    · rintro ⟨rfl, rfl⟩; exact ⟨rfl, .nil⟩
    · rintro ⟨hl, hs⟩
      cases hs with
      | nil => exact ⟨rfl, rfl⟩
      | cons => simp at hl
  | succ n ih =>
    exact (hp.bind (fun x _ _ => ih.bind (fun xs _ _ => Reads.pure (x :: xs)))).congr
      (fun _ _ => seqEnc_cons)

theorem Truncs.readN {p : P α} {E : α → Bytes → Prop} (hr : Reads p E) (hp : Truncs p E) (n : Nat) :
    Truncs (Verif.readN p n) (fun xs b => xs.length = n ∧ SeqEnc E xs b) := by
  induction n with
  | zero =>
    refine (Truncs.pure (Verif.readN p 0) (fun xs => xs = [])).congr ?_
    intro xs b
    constructor
    · rintro ⟨rfl, rfl⟩; exact ⟨rfl, .nil⟩
    · rintro ⟨hl, hs⟩
      cases hs with
      | nil => exact ⟨rfl, rfl⟩
      | cons => simp at hl
  | succ n ih =>
    exact (Truncs.bind hr hp (fun x _ _ => Truncs.bind (Reads.readN hr n) ih
      (fun xs _ _ => Truncs.pure _ _))).congr (fun _ _ => seqEnc_cons)

theorem vecEnc_iff {E : α → Bytes → Prop} {xs : List α} {w : Bytes} :
    BindEnc VarIntEnc (fun n xs b => xs.length = n ∧ SeqEnc E xs b) xs w ↔ VecEnc VarIntEnc E xs w := by
  unfold BindEnc VecEnc
  constructor
  · rintro ⟨n, w1, w2, rfl, h1, rfl, h2⟩; exact ⟨w1, w2, h1, h2, rfl⟩
  · rintro ⟨l, r, h1, h2, rfl⟩; exact ⟨_, l, r, rfl, h1, rfl, h2⟩

theorem Reads.readVec {p : P α} {E : α → Bytes → Prop} (hp : Reads p E) :
    Reads (readVec p) (VecEnc VarIntEnc E) :=
  (Reads.readVarInt.bind (fun n _ _ => hp.readN n)).congr (fun _ _ => vecEnc_iff)

theorem Truncs.readVec {p : P α} {E : α → Bytes → Prop} (hr : Reads p E) (hp : Truncs p E) :
    Truncs (Verif.readVec p) (VecEnc VarIntEnc E) :=
  (Truncs.bind Reads.readVarInt Truncs.readVarInt (fun n _ _ => hp.readN hr n)).congr
    (fun _ _ => vecEnc_iff)

/-! ### Writers -/

theorem Except.bind_ok {ε : Type} {x : Except ε α} {f : α → Except ε β} {b : β} :
    (x >>= f) = .ok b ↔ ∃ a, x = .ok a ∧ f a = .ok b := by
  cases x <;> simp [bind, Except.bind]

theorem Except.pure_ok {ε : Type} {a b : α} : (pure a : Except ε α) = .ok b ↔ b = a := by
  simp [pure, Except.pure, eq_comm]

theorem uintEnc_leBytes {k n : Nat} (h : n < 256 ^ k) : UIntEnc k n (leBytes k n) :=
  ⟨leBytes_length _ _, leVal_leBytes_of_lt h⟩

theorem uintEnc_iff {k n : Nat} {b : Bytes} : UIntEnc k n b ↔ n < 256 ^ k ∧ b = leBytes k n := by
  constructor
  · rintro ⟨hl, rfl⟩
    refine ⟨?_, (leBytes_leVal' hl).symm⟩
    have := leVal_lt b; rwa [hl] at this
  · rintro ⟨h, rfl⟩; exact uintEnc_leBytes h

theorem sintEnc_iff' {k : Nat} {v : Int} {b : Bytes} :
    SIntEnc k v b ↔ inRangeS k v ∧ b = leBytes k (twos k v) := by
  rw [sintEnc_iff]
  constructor
  · rintro ⟨hl, rfl⟩
    have := leVal_lt b; rw [hl] at this
    exact ⟨untwos_inRange this, by rw [twos_untwos this, leBytes_leVal' hl]⟩
  · rintro ⟨h, rfl⟩
    exact ⟨leBytes_length _ _, by rw [leVal_leBytes_of_lt (twos_lt _ _), untwos_twos h]⟩

theorem packU_iff {k n : Nat} {b : Bytes} : packU k n = .ok b ↔ UIntEnc k n b := by
  rw [packU_ok, uintEnc_iff]

theorem packS_iff {k : Nat} {v : Int} {b : Bytes} : packS k v = .ok b ↔ SIntEnc k v b := by
  rw [packS_ok, sintEnc_iff']

/-- The compact size writer produces exactly the shortest encodings. -/
theorem serVarInt_ok {n : Nat} {b : Bytes} : serVarInt n = .ok b ↔ VarIntMin n b := by
  unfold serVarInt VarIntMin varIntSize
  by_cases h1 : n < 0xfd
  · rw [if_pos h1, if_pos h1]
    simp only [Except.ok.injEq]
    constructor
    · rintro rfl
      exact ⟨.one (by simp; omega) h1, rfl⟩
    · rintro ⟨he, hl⟩
      cases he with
      | one hx _ => rw [u8_eq_of_toNat hx]
      | two h => have := h.1; simp [this] at hl
      | four h => have := h.1; simp [this] at hl
      | eight h => have := h.1; simp [this] at hl
  · rw [if_neg h1, if_neg h1]
    by_cases h2 : n ≤ 0xffff
    · rw [if_pos h2, if_pos (by omega)]
      simp only [Except.ok.injEq]
      constructor
      · rintro rfl; exact ⟨.two (uintEnc_leBytes (by omega)), by simp⟩
      · rintro ⟨he, hl⟩
        cases he with
        | one => simp at hl
        | two h => rw [(uintEnc_iff.1 h).2]
        | four h => have := h.1; simp [this] at hl
        | eight h => have := h.1; simp [this] at hl
    · rw [if_neg h2, if_neg (show ¬ n < 65536 by omega)]
      by_cases h3 : n ≤ 0xffffffff
      · rw [if_pos h3, if_pos (by omega)]
        simp only [Except.ok.injEq]
        constructor
        · rintro rfl; exact ⟨.four (uintEnc_leBytes (by omega)), by simp⟩
        · rintro ⟨he, hl⟩
          cases he with
          | one => simp at hl
          | two h => have := h.1; simp [this] at hl
          | four h => rw [(uintEnc_iff.1 h).2]
          | eight h => have := h.1; simp [this] at hl
      · rw [if_neg h3, if_neg (show ¬ n < 4294967296 by omega)]
        constructor
        · intro h
          cases hp : packU 8 n with
          | error e => simp [hp, Except.map] at h
          | ok c =>
            simp only [hp, Except.map, Except.ok.injEq] at h
            subst h
            have hc := packU_iff.1 hp
            exact ⟨.eight hc, by simp [hc.1]⟩
        · rintro ⟨he, hl⟩
          cases he with
          | one => simp at hl
          | two h => have := h.1; simp [this] at hl
          | four h => have := h.1; simp [this] at hl
          | eight h => rw [packU_iff.2 h]; rfl

theorem serVarBytes_ok {s b : Bytes} :
    serVarBytes s = .ok b ↔ ∃ l, VarIntMin s.length l ∧ b = l ++ s := by
  unfold serVarBytes
  rw [Except.bind_ok]
  simp only [serVarInt_ok, Except.pure_ok]

theorem serN_ok {f : α → Except PyErr Bytes} {E : α → Bytes → Prop}
    (hf : ∀ x b, f x = .ok b ↔ E x b) {xs : List α} {b : Bytes} :
    serN f xs = .ok b ↔ SeqEnc E xs b := by
  induction xs generalizing b with
  | nil =>
    simp only [serN, Except.ok.injEq]
    constructor
    · rintro rfl; exact .nil
    · intro h; cases h; rfl
  | cons x xs ih =>
    simp only [serN, Except.bind_ok, Except.pure_ok, hf, ih]
    constructor
    · rintro ⟨a, ha, c, hc, rfl⟩; exact .cons ha hc
    · intro h
      cases h with
      | cons h1 h2 => exact ⟨_, h1, _, h2, rfl⟩

theorem serVec_ok {f : α → Except PyErr Bytes} {E : α → Bytes → Prop}
    (hf : ∀ x b, f x = .ok b ↔ E x b) {xs : List α} {b : Bytes} :
    serVec f xs = .ok b ↔ VecEnc VarIntMin E xs b := by
  unfold serVec VecEnc
  simp only [Except.bind_ok, Except.pure_ok, serVarInt_ok, serN_ok hf]
  constructor
  · rintro ⟨a, ha, c, hc, rfl⟩; exact ⟨a, c, ha, hc, rfl⟩
  · rintro ⟨a, c, ha, hc, rfl⟩; exact ⟨a, ha, c, hc, rfl⟩

theorem VecEnc.mono {L L' : Nat → Bytes → Prop} {E E' : α → Bytes → Prop} {xs : List α} {b : Bytes}
    (hL : ∀ n b, L n b → L' n b) (hE : ∀ x, x ∈ xs → ∀ b, E x b → E' x b)
    (h : VecEnc L E xs b) : VecEnc L' E' xs b := by
  obtain ⟨l, r, h1, h2, rfl⟩ := h
  refine ⟨l, r, hL _ _ h1, ?_, rfl⟩
  clear h1
  induction h2 with
  | nil => exact .nil
  | cons hx _ ih =>
    exact .cons (hE _ (by simp) _ hx) (ih (fun x hx b hb => hE x (by simp [hx]) b hb))

theorem SeqEnc.mono {E E' : α → Bytes → Prop} {xs : List α} {b : Bytes}
    (hE : ∀ x, x ∈ xs → ∀ b, E x b → E' x b)
    (h : SeqEnc E xs b) : SeqEnc E' xs b := by
  induction h with
  | nil => exact .nil
  | cons hx _ ih =>
    exact .cons (hE _ (by simp) _ hx) (ih (fun x hx b hb => hE x (by simp [hx]) b hb))

theorem VarIntMin.enc {n : Nat} {b : Bytes} (h : VarIntMin n b) : VarIntEnc n b := h.1

end Verif
