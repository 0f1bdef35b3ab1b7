import Verif.Tx
import Verif.SerializeLemmas
import Verif.Spec.WireTx
/-
Readers and writers of transactions against the wire grammar.
-/
namespace Verif
open Spec

/-! ### Confidential fields -/

/-- The class attributes are sane: sizes small and positive, prefixes distinct from 0 and 1. -/
structure ConfKind.Good (k : ConfKind) : Prop where
  pos : 0 < k.explicitSize
  le : k.explicitSize ≤ 33
  a0 : k.prefixA ≠ 0
  a1 : k.prefixA ≠ 1
  b0 : k.prefixB ≠ 0
  b1 : k.prefixB ≠ 1

theorem assetKind_good : assetKind.Good := by constructor <;> decide
theorem valueKind_good : valueKind.Good := by constructor <;> decide
theorem nonceKind_good : nonceKind.Good := by constructor <;> decide

theorem serRead_cons_one (v : UInt8) (t : Bytes) : serRead 1 (v :: t) = .ok ([v], t) := by
  rw [serRead_ok]; exact ⟨by decide, rfl, rfl⟩

theorem serRead_nil_one : serRead 1 [] = .error .truncation := rfl

theorem readConf_nil (k : ConfKind) : readConf k [] = .error .truncation :=
  P.bind_of_error serRead_nil_one

/-- Size asked for after the first byte, `none` if the byte is not a known marker. -/
def confSize (k : ConfKind) (v : UInt8) : Option Nat :=
  if v = 0 then some 0
  else if v = 1 then some k.explicitSize
  else if v = k.prefixA ∨ v = k.prefixB then some 33
  else none

theorem readConf_cons {k : ConfKind} (hk : k.Good) (v : UInt8) (t : Bytes) :
    readConf k (v :: t) =
      match confSize k v with
      | none => .error .witnessSerialization
      | some 0 => .ok ([], t)
      | some (n + 1) => if t.length < n then .error .truncation else .ok (v :: t.take n, t.drop n) := by
  have hpos := hk.pos
  have hle := hk.le
  have key : ∀ n, (n + 1 = k.explicitSize ∨ n + 1 = committedSize) → confReadSize k v = pure (n + 1) →
      readConf k (v :: t)
      = if t.length < n then .error .truncation else .ok (v :: t.take n, t.drop n) := by
    intro n hn hsz
    rw [readConf, P.bind_of_ok (serRead_cons_one v t)]
    simp only [List.headD_cons, hsz]
    rw [P.bind_of_ok (P.pure_ok.2 ⟨rfl, rfl⟩)]
    have hn33 : n ≤ 32 := by unfold committedSize at hn; omega
    rw [confReadRest, if_pos (by omega), Nat.add_sub_cancel]
    by_cases hlt : t.length < n
    · rw [if_pos hlt]
      apply P.bind_of_error
      apply P.bind_of_error
      unfold serRead
      rw [if_neg (by unfold MAX_SIZE; omega), if_pos hlt]
    · rw [if_neg hlt]
      have h1 : serRead n t = .ok (t.take n, t.drop n) := by
        rw [serRead_ok]; exact ⟨by unfold MAX_SIZE; omega, by simp, by simp; omega⟩
      have h2 : (do let rest ← serRead n; Pure.pure (v :: rest) : P Bytes) t
          = .ok (v :: t.take n, t.drop n) := by
        rw [P.bind_of_ok h1]; exact P.pure_ok.2 ⟨rfl, rfl⟩
      rw [P.bind_of_ok h2]
      have hlen : (v :: t.take n).length = n + 1 := by simp; omega
      unfold confNew
      rw [hlen, if_pos (Or.inr hn)]
      rfl
  unfold confSize
  by_cases h0 : v = 0
  · simp only [if_pos h0]
    rw [readConf, P.bind_of_ok (serRead_cons_one v t)]
    have hsz : confReadSize k v = pure 0 := by rw [confReadSize, if_pos h0]
    simp only [List.headD_cons, hsz]
    rfl
  · by_cases h1 : v = 1
    · simp only [if_neg h0, if_pos h1]
      obtain ⟨n, hn⟩ : ∃ n, k.explicitSize = n + 1 := ⟨k.explicitSize - 1, by omega⟩
      rw [key n (Or.inl hn.symm) (by rw [confReadSize, if_neg h0, if_pos h1, hn]), hn]
    · by_cases hab : v = k.prefixA ∨ v = k.prefixB
      · simp only [if_neg h0, if_neg h1, if_pos hab]
        exact key 32 (Or.inr rfl) (by rw [confReadSize, if_neg h0, if_neg h1, if_pos hab]; rfl)
      · simp only [if_neg h0, if_neg h1, if_neg hab]
        rw [readConf, P.bind_of_ok (serRead_cons_one v t)]
        have hsz : confReadSize k v = P.raise .witnessSerialization := by
          rw [confReadSize, if_neg h0, if_neg h1, if_neg hab]
        simp only [List.headD_cons, hsz]
        rfl

theorem fieldEnc_cons {k : ConfKind} (hk : k.Good) {c w : Bytes} :
    FieldEnc k.explicitSize k.prefixA k.prefixB c w ↔
      ∃ v t n, w = v :: t ∧ confSize k v = some n ∧ t.length = n - 1 ∧
        c = if n = 0 then [] else v :: t := by
  have hpos := hk.pos
  unfold FieldEnc confSize
  constructor
  · rintro (⟨rfl, rfl⟩ | ⟨rfl, hl, hh⟩ | ⟨rfl, hl, hh⟩)
    · exact ⟨0, [], 0, rfl, by simp, rfl, rfl⟩
    · cases w with
      | nil => simp at hh
      | cons v t =>
        simp only [List.head?_cons, Option.some.injEq] at hh
        subst hh
        refine ⟨1, t, k.explicitSize, rfl, by simp, by simp at hl; omega, by rw [if_neg (by omega)]⟩
    · cases w with
      | nil => simp at hh
      | cons v t =>
        simp only [List.head?_cons, Option.some.injEq] at hh
        refine ⟨v, t, 33, rfl, ?_, by simp at hl; omega, by rw [if_neg (by omega)]⟩
        have h0 : v ≠ 0 := by rcases hh with h | h <;> first | exact h ▸ hk.a0 | exact h ▸ hk.b0
        have h1 : v ≠ 1 := by rcases hh with h | h <;> first | exact h ▸ hk.a1 | exact h ▸ hk.b1
        rw [if_neg h0, if_neg h1, if_pos hh]
  · rintro ⟨v, t, n, rfl, hs, hl, rfl⟩
    split at hs
    · rename_i h; subst h
      simp only [Option.some.injEq] at hs; subst hs
      left; simp at hl; simp [hl]
    · split at hs
      · rename_i h; subst h
        simp only [Option.some.injEq] at hs; subst hs
        right; left; rw [if_neg (by omega)]
        exact ⟨rfl, by simp; omega, rfl⟩
      · split at hs
        · rename_i h
          simp only [Option.some.injEq] at hs; subst hs
          right; right; rw [if_neg (by omega)]
          exact ⟨rfl, by simp; omega, by simpa using h⟩
        · simp at hs

theorem Reads.readConf {k : ConfKind} (hk : k.Good) :
    Reads (readConf k) (FieldEnc k.explicitSize k.prefixA k.prefixB) := by
  intro s a r
  simp only [fieldEnc_cons hk]
  cases s with
  | nil =>
    rw [readConf_nil]
    simp
  | cons v t =>
    rw [readConf_cons hk]
    cases hs : confSize k v with
    | none =>
      simp only [reduceCtorEq, false_iff]
      rintro ⟨b, he, v', t', n, rfl, hs', _⟩
      simp only [List.cons_append, List.cons.injEq] at he
      rw [← he.1, hs] at hs'; simp at hs'
    | some m =>
      cases m with
      | zero =>
        simp only [Except.ok.injEq, Prod.mk.injEq]
        constructor
        · rintro ⟨rfl, rfl⟩; exact ⟨[v], rfl, v, [], 0, rfl, hs, rfl, rfl⟩
        · rintro ⟨b, he, v', t', n, rfl, hs', hl, rfl⟩
          simp only [List.cons_append, List.cons.injEq] at he
          rw [← he.1, hs] at hs'
          simp only [Option.some.injEq] at hs'; subst hs'
          simp at hl
          simp [he.2, hl]
      | succ m =>
        simp only []
        constructor
        · split
          · simp
          · rename_i hlt
            simp only [Except.ok.injEq, Prod.mk.injEq]
            rintro ⟨rfl, rfl⟩
            exact ⟨v :: t.take m, by simp, v, t.take m, m + 1, rfl, hs, by simp; omega, by simp⟩
        · rintro ⟨b, he, v', t', n, rfl, hs', hl, rfl⟩
          simp only [List.cons_append, List.cons.injEq] at he
          obtain ⟨rfl, rfl⟩ := he
          rw [hs] at hs'
          simp only [Option.some.injEq] at hs'; subst hs'
          simp only [Nat.add_sub_cancel] at hl
          subst hl
          simp

theorem Truncs.readConf {k : ConfKind} (hk : k.Good) :
    Truncs (Verif.readConf k) (FieldEnc k.explicitSize k.prefixA k.prefixB) := by
  intro a b hE b1 b2 he hb2
  obtain ⟨v, t, n, rfl, hs, hl, rfl⟩ := (fieldEnc_cons hk).1 hE
  cases b1 with
  | nil => exact readConf_nil k
  | cons v' t' =>
    simp only [List.cons_append, List.cons.injEq] at he
    obtain ⟨rfl, rfl⟩ := he
    rw [readConf_cons hk, hs]
    have : b2.length ≠ 0 := by simpa using hb2
    simp only [List.length_append] at hl
    cases n with
    | zero => simp at hl; exact absurd hl.2 hb2
    | succ n => simp only []; rw [if_pos (by omega)]

theorem Reads.value : Reads (Verif.readConf valueKind) ValueEnc := Reads.readConf valueKind_good
theorem Reads.asset : Reads (Verif.readConf assetKind) AssetEnc := Reads.readConf assetKind_good
theorem Reads.nonce : Reads (Verif.readConf nonceKind) NonceEnc := Reads.readConf nonceKind_good
theorem Truncs.value : Truncs (Verif.readConf valueKind) ValueEnc := Truncs.readConf valueKind_good
theorem Truncs.asset : Truncs (Verif.readConf assetKind) AssetEnc := Truncs.readConf assetKind_good
theorem Truncs.nonce : Truncs (Verif.readConf nonceKind) NonceEnc := Truncs.readConf nonceKind_good

/-! ### Combining: a reader with its grammar and truncation behaviour -/

/-- `p` accepts exactly `E` and signals truncation on proper prefixes. -/
structure Codec {α : Type} (p : P α) (E : α → Bytes → Prop) : Prop where
  reads : Reads p E
  truncs : Truncs p E

theorem Codec.bind {α β : Type} {p : P α} {f : α → P β} {E : α → Bytes → Prop}
    {F : α → β → Bytes → Prop} (hp : Codec p E) (hf : ∀ a b, E a b → Codec (f a) (F a)) :
    Codec (p >>= f) (BindEnc E F) :=
  ⟨hp.reads.bind (fun a b h => (hf a b h).reads),
   Truncs.bind hp.reads hp.truncs (fun a b h => (hf a b h).truncs)⟩

theorem Codec.pure {α : Type} (a : α) : Codec (pure a : P α) (fun x b => x = a ∧ b = []) :=
  ⟨Reads.pure a, Truncs.pure _ _⟩

theorem Codec.congr {α : Type} {p : P α} {E F : α → Bytes → Prop} (h : Codec p E)
    (hEF : ∀ a b, E a b ↔ F a b) : Codec p F := ⟨h.reads.congr hEF, h.truncs.congr hEF⟩

theorem Codec.u {k : Nat} (h : k ≤ 8) : Codec (readU k) (UIntEnc k) := ⟨.readU h, .readU h⟩
theorem Codec.s {k : Nat} (h : k ≤ 8) : Codec (readS k) (SIntEnc k) := ⟨.readS h, .readS h⟩
theorem Codec.varBytes : Codec readVarBytes (BytesEnc VarIntEnc) := ⟨.readVarBytes, .readVarBytes⟩
theorem Codec.value : Codec (readConf valueKind) ValueEnc := ⟨.value, .value⟩
theorem Codec.asset : Codec (readConf assetKind) AssetEnc := ⟨.asset, .asset⟩
theorem Codec.nonce : Codec (readConf nonceKind) NonceEnc := ⟨.nonce, .nonce⟩
theorem Codec.raw32 : Codec (serRead 32) (RawEnc 32) := by
  refine Codec.congr ⟨Reads.serRead' 32, Truncs.serRead' 32⟩ ?_
  intro a b
  unfold RawEnc
  constructor
  · rintro ⟨rfl, h, _⟩; exact ⟨rfl, h⟩
  · rintro ⟨rfl, h⟩; exact ⟨rfl, h, by decide⟩
theorem Codec.readVec {α : Type} {p : P α} {E : α → Bytes → Prop} (h : Codec p E) :
    Codec (readVec p) (VecEnc VarIntEnc E) := ⟨h.reads.readVec, h.truncs.readVec h.reads⟩
theorem Codec.readN {α : Type} {p : P α} {E : α → Bytes → Prop} (h : Codec p E) (n : Nat) :
    Codec (readN p n) (fun xs b => xs.length = n ∧ SeqEnc E xs b) :=
  ⟨h.reads.readN n, h.truncs.readN h.reads n⟩

theorem Codec.readIssuance : Codec readIssuance IssuanceEnc := by
  refine (Codec.raw32.bind fun n _ _ => Codec.raw32.bind fun e _ _ => Codec.value.bind fun a _ _ =>
    Codec.value.bind fun k _ _ => Codec.pure (Issuance.mk n e a k)).congr ?_
  intro i w
  unfold BindEnc IssuanceEnc
  constructor
  · rintro ⟨n, w1, _, rfl, h1, e, w2, _, rfl, h2, a, w3, _, rfl, h3, k, w4, _, rfl, h4, rfl, rfl⟩
    exact ⟨w1, w2, w3, w4, h1, h2, h3, h4, by simp⟩
  · rintro ⟨n, e, a, k, h1, h2, h3, h4, rfl⟩
    exact ⟨_, n, e ++ (a ++ k), by simp, h1, _, e, a ++ k, rfl, h2, _, a, k, rfl, h3, _, k, [], by simp, h4, rfl, rfl⟩

/-! ### Bits of the outpoint index -/

theorem land_mask (n : Nat) : n &&& OUTPOINT_INDEX_MASK = n % 1073741824 := by
  have := Nat.and_two_pow_sub_one_eq_mod n 30
  simpa [OUTPOINT_INDEX_MASK] using this

theorem land_bit (n k : Nat) : ((n &&& (1 <<< k)) != 0) = decide (n / 2 ^ k % 2 = 1) := by
  rw [Nat.one_shiftLeft, ← Nat.testBit_eq_decide_div_mod_eq]
  cases h : n.testBit k
  · have : n &&& 2 ^ k = 0 := by
      apply Nat.eq_of_testBit_eq
      intro i
      rw [Nat.testBit_and, Nat.testBit_two_pow, Nat.zero_testBit]
      by_cases hi : k = i
      · subst hi; simp [h]
      · simp [hi]
    simp [this]
  · have : (n &&& 2 ^ k).testBit k = true := by simp [Nat.testBit_and, h]
    have h0 : n &&& 2 ^ k ≠ 0 := by intro h0; rw [h0] at this; simp at this
    simp [h0]

theorem land_issuance (n : Nat) : ((n &&& OUTPOINT_ISSUANCE_FLAG) != 0) = decide (n / 2147483648 % 2 = 1) :=
  land_bit n 31

theorem land_pegin (n : Nat) : ((n &&& OUTPOINT_PEGIN_FLAG) != 0) = decide (n / 1073741824 % 2 = 1) :=
  land_bit n 30

theorem lor_issuance {n : Nat} (h : n < 1073741824) : n ||| OUTPOINT_ISSUANCE_FLAG = n + 2147483648 := by
  have := Nat.two_pow_add_eq_or_of_lt (i := 31) (b := n) (by omega) 1
  rw [Nat.or_comm]
  simp only [Nat.mul_one] at this
  show 2 ^ 31 ||| n = _
  rw [← this]; omega

theorem lor_pegin {n : Nat} (h : n < 1073741824) : n ||| OUTPOINT_PEGIN_FLAG = n + 1073741824 := by
  have := Nat.two_pow_add_eq_or_of_lt (i := 30) (b := n) (by omega) 1
  rw [Nat.or_comm]
  simp only [Nat.mul_one] at this
  show 2 ^ 30 ||| n = _
  rw [← this]; omega

theorem lor_both {n : Nat} (h : n < 1073741824) :
    (n + 2147483648) ||| OUTPOINT_PEGIN_FLAG = n + 2147483648 + 1073741824 := by
  have h1 := lor_issuance h
  have h2 : OUTPOINT_ISSUANCE_FLAG ||| OUTPOINT_PEGIN_FLAG = 3 * 2 ^ 30 := by decide
  have h3 := Nat.two_pow_add_eq_or_of_lt (i := 30) (b := n) (by omega) 3
  rw [← h1, Nat.or_assoc, h2, Nat.or_comm, Nat.mul_comm 3, ← h3]; omega

theorem shift_zero {n : Nat} : (n >>> 30) <<< 30 = 0 ↔ n < 1073741824 := by
  rw [Nat.shiftRight_eq_div_pow, Nat.shiftLeft_eq]
  omega

/-! ### Inputs -/

theorem Codec.readOutPoint : Codec readOutPoint (fun o w => ∃ h x, RawEnc 32 o.hash h ∧ UIntEnc 4 o.n x ∧ w = h ++ x) := by
  refine (Codec.raw32.bind fun h _ _ => (Codec.u (by decide)).bind fun n _ _ =>
    Codec.pure (OutPoint.mk h n)).congr ?_
  intro i w
  unfold BindEnc
  constructor
  · rintro ⟨h, w1, _, rfl, h1, n, w2, _, rfl, h2, rfl, rfl⟩
    exact ⟨w1, w2, h1, h2, by simp⟩
  · rintro ⟨h, x, h1, h2, rfl⟩
    exact ⟨_, h, x, rfl, h1, _, x, [], by simp, h2, rfl, rfl⟩

theorem IndexEnc.inv {strict : Bool} {i : TxIn} {m : Nat} {w : Bytes} (h : IndexEnc strict i m w) :
    (m = 4294967295 ∧ i.prevout.n = 4294967295 ∧ i.isPegin = false ∧ i.assetIssuance = {} ∧ w = []) ∨
    (m = i.prevout.n + (if i.isPegin then 1073741824 else 0) ∧ i.prevout.n < 1073741824 ∧
      i.assetIssuance = {} ∧ w = []) ∨
    (m = i.prevout.n + 2147483648 + (if i.isPegin then 1073741824 else 0) ∧ i.prevout.n < 1073741824 ∧
      IssuanceEnc i.assetIssuance w ∧ (strict = true → ¬ NoIssue i.assetIssuance) ∧
      ¬ (i.prevout.n = 1073741823 ∧ i.isPegin = true)) := by
  cases h with
  | coinbase h1 h2 h3 => exact Or.inl ⟨rfl, h1, h2, h3, rfl⟩
  | plain h1 h2 => exact Or.inr (Or.inl ⟨rfl, h1, h2, rfl⟩)
  | issue h1 h2 h3 h4 => exact Or.inr (Or.inr ⟨rfl, h1, h2, h3, h4⟩)

/-- What the reader does after outpoint, script and sequence. -/
def InTail (base : OutPoint) (s : Bytes) (q : Nat) (i : TxIn) (w : Bytes) : Prop :=
  i.prevout.hash = base.hash ∧ i.scriptSig = s ∧ i.nSequence = q ∧ IndexEnc false i base.n w

theorem Codec.readTxIn : Codec readTxIn (TxInEnc false) := by
  refine (Codec.readOutPoint.bind fun base _ _ => Codec.varBytes.bind fun s _ _ =>
    (Codec.u (by decide)).bind (F := fun q => InTail base s q) fun q _ _ => ?_).congr ?_
  · -- the tail
    rename_i w hbase w1 hs w2 hq
    have hn : base.n < 4294967296 := by
      obtain ⟨_, x, _, hx, _⟩ := hbase
      exact (uintEnc_iff.1 hx).1
    by_cases hc : base.n = 0xffffffff
    · simp only [if_pos hc]
      refine (Codec.pure _).congr ?_
      intro i w
      unfold InTail
      constructor
      · rintro ⟨rfl, rfl⟩
        refine ⟨rfl, rfl, rfl, ?_⟩
        rw [hc]; exact .coinbase hc rfl rfl
      · rintro ⟨h1, h2, h3, h4⟩
        rw [hc] at h4
        rcases IndexEnc.inv h4 with ⟨_, h5, h6, h7, rfl⟩ | ⟨hN, h5, h6, rfl⟩ | ⟨hN, h5, h6, h7, h8⟩
        · obtain ⟨⟨hash, n⟩, sc, sq, iss, pg⟩ := i
          obtain ⟨bh, bn⟩ := base
          simp_all
        · exfalso; split at hN <;> omega
        · exfalso
          split at hN
          · rename_i hp; exact h8 ⟨by omega, hp⟩
          · omega
    · simp only [if_neg hc, land_issuance, land_pegin, land_mask]
      by_cases hi : base.n / 2147483648 % 2 = 1
      · simp only [hi, decide_true, if_true]
        refine (Codec.readIssuance.bind fun iss _ _ => Codec.pure _).congr ?_
        intro i w
        unfold InTail BindEnc
        constructor
        · rintro ⟨iss, w1, _, rfl, hiss, rfl, rfl⟩
          refine ⟨rfl, rfl, rfl, ?_⟩
          rw [List.append_nil]
          by_cases hp : base.n / 1073741824 % 2 = 1
          · have e : base.n = base.n % 1073741824 + 2147483648 + 1073741824 := by omega
            have := IndexEnc.issue (strict := false) (i := ⟨⟨base.hash, base.n % 1073741824⟩, s, q, iss,
              decide (base.n / 1073741824 % 2 = 1)⟩) (w := w1) (Nat.mod_lt _ (by decide)) hiss
              (by simp) (by simp [hp]; omega)
            simp only [hp, decide_true, if_true] at this ⊢
            rw [← e] at this; exact this
          · have e : base.n = base.n % 1073741824 + 2147483648 + 0 := by omega
            have := IndexEnc.issue (strict := false) (i := ⟨⟨base.hash, base.n % 1073741824⟩, s, q, iss,
              decide (base.n / 1073741824 % 2 = 1)⟩) (w := w1) (Nat.mod_lt _ (by decide)) hiss
              (by simp) (by simp [hp])
            simp only [hp, decide_false, Bool.false_eq_true, if_false] at this ⊢
            rw [← e] at this; exact this
        · rintro ⟨h1, h2, h3, h4⟩
          rcases IndexEnc.inv h4 with ⟨hN, h5, h6, h7, rfl⟩ | ⟨hN, h5, h6, rfl⟩ | ⟨hN, h5, h6, h7, h8⟩
          · exact absurd hN hc
          · exfalso; split at hN <;> omega
          · refine ⟨i.assetIssuance, w, [], by simp, h6, ?_, rfl⟩
            obtain ⟨⟨hash, n⟩, sc, sq, iss, pg⟩ := i
            simp only at *
            subst h1 h2 h3
            cases pg
            · simp only [Bool.false_eq_true, if_false] at hN
              have e1 : base.n % 1073741824 = n := by omega
              have e2 : ¬ base.n / 1073741824 % 2 = 1 := by omega
              simp only [e1, e2, decide_true, decide_false]
            · simp only [if_true] at hN
              have e1 : base.n % 1073741824 = n := by omega
              have e2 : base.n / 1073741824 % 2 = 1 := by omega
              simp only [e1, e2, decide_true, decide_false]
      · simp only [hi, decide_false, Bool.false_eq_true, if_false]
        refine ((Codec.pure ({} : Issuance)).bind fun iss _ _ => Codec.pure _).congr ?_
        intro i w
        unfold InTail BindEnc
        constructor
        · rintro ⟨iss, w1, _, rfl, ⟨rfl, rfl⟩, rfl, rfl⟩
          refine ⟨rfl, rfl, rfl, ?_⟩
          have := IndexEnc.plain (strict := false) (i := ⟨⟨base.hash, base.n % 1073741824⟩, s, q, {},
              decide (base.n / 1073741824 % 2 = 1)⟩) (Nat.mod_lt _ (by decide)) rfl
          by_cases hp : base.n / 1073741824 % 2 = 1
          · have e : base.n = base.n % 1073741824 + 1073741824 := by omega
            simp only [hp, decide_true, if_true] at this ⊢
            rw [← e] at this; exact this
          · have e : base.n = base.n % 1073741824 + 0 := by omega
            simp only [hp, decide_false, Bool.false_eq_true, if_false] at this ⊢
            rw [← e] at this; exact this
        · rintro ⟨h1, h2, h3, h4⟩
          rcases IndexEnc.inv h4 with ⟨hN, h5, h6, h7, rfl⟩ | ⟨hN, h5, h6, rfl⟩ | ⟨hN, h5, h6, h7, h8⟩
          · exact absurd hN hc
          rotate_left
          · exfalso; split at hN <;> omega
          · refine ⟨{}, [], [], by simp, ⟨rfl, rfl⟩, ?_, rfl⟩
            obtain ⟨⟨hash, n⟩, sc, sq, iss, pg⟩ := i
            simp only at *
            subst h1 h2 h3 h6
            cases pg
            · simp only [Bool.false_eq_true, if_false] at hN
              have e1 : base.n % 1073741824 = n := by omega
              have e2 : ¬ base.n / 1073741824 % 2 = 1 := by omega
              simp only [e1, e2, decide_true, decide_false]
            · simp only [if_true] at hN
              have e1 : base.n % 1073741824 = n := by omega
              have e2 : base.n / 1073741824 % 2 = 1 := by omega
              simp only [e1, e2, decide_true, decide_false]
  · intro i w
    unfold BindEnc TxInEnc InTail
    constructor
    · rintro ⟨⟨bh, bn⟩, w1, _, rfl, ⟨h, x, h1, h2, rfl⟩, s, w2, _, rfl, h3, q, w3, w4, rfl, h4, h5, h6, h7, h8⟩
      simp only at h1 h2 h5 h8
      subst h5 h6 h7
      exact ⟨bn, h, x, w2, w3, w4, h8, h1, h2, h3, h4, by simp⟩
    · rintro ⟨n, h, x, s, q, t, h1, h2, h3, h4, h5, rfl⟩
      exact ⟨⟨i.prevout.hash, n⟩, h ++ x, _, by simp, ⟨h, x, h2, h3, rfl⟩, _, s, _, rfl, h4, _, q, t, rfl, h5,
        rfl, rfl, rfl, h1⟩

/-! ### Outputs and witnesses -/

theorem Codec.readTxOut : Codec readTxOut (TxOutEnc false) := by
  refine (Codec.asset.bind fun a _ _ => Codec.value.bind fun v _ _ => Codec.nonce.bind fun n _ _ =>
    Codec.varBytes.bind fun s _ _ => Codec.pure (TxOut.mk v s a n)).congr ?_
  intro i w
  unfold BindEnc TxOutEnc
  constructor
  · rintro ⟨n, w1, _, rfl, h1, e, w2, _, rfl, h2, a, w3, _, rfl, h3, k, w4, _, rfl, h4, rfl, rfl⟩
    exact ⟨w1, w2, w3, w4, h1, h2, h3, h4, by simp⟩
  · rintro ⟨n, e, a, k, h1, h2, h3, h4, rfl⟩
    exact ⟨_, n, e ++ (a ++ k), by simp, h1, _, e, a ++ k, rfl, h2, _, a, k, rfl, h3, _, k, [], by simp, h4, rfl, rfl⟩

theorem Codec.readStack : Codec readStack (StackEnc false) := Codec.readVec Codec.varBytes

theorem Codec.readTxInWitness : Codec readTxInWitness (TxInWitnessEnc false) := by
  refine (Codec.varBytes.bind fun a _ _ => Codec.varBytes.bind fun k _ _ => Codec.readStack.bind fun s _ _ =>
    Codec.readStack.bind fun p _ _ => Codec.pure (TxInWitness.mk s a k p)).congr ?_
  intro i w
  unfold BindEnc TxInWitnessEnc
  constructor
  · rintro ⟨n, w1, _, rfl, h1, e, w2, _, rfl, h2, a, w3, _, rfl, h3, k, w4, _, rfl, h4, rfl, rfl⟩
    exact ⟨w1, w2, w3, w4, h1, h2, h3, h4, by simp⟩
  · rintro ⟨n, e, a, k, h1, h2, h3, h4, rfl⟩
    exact ⟨_, n, e ++ (a ++ k), by simp, h1, _, e, a ++ k, rfl, h2, _, a, k, rfl, h3, _, k, [], by simp, h4, rfl, rfl⟩

theorem Codec.readTxOutWitness : Codec readTxOutWitness (TxOutWitnessEnc false) := by
  refine (Codec.varBytes.bind fun s _ _ => Codec.varBytes.bind fun r _ _ =>
    Codec.pure (TxOutWitness.mk s r)).congr ?_
  intro i w
  unfold BindEnc TxOutWitnessEnc
  constructor
  · rintro ⟨s, w1, _, rfl, h1, r, w2, _, rfl, h2, rfl, rfl⟩
    exact ⟨w1, w2, h1, h2, by simp⟩
  · rintro ⟨s, r, h1, h2, rfl⟩
    exact ⟨_, s, r, rfl, h1, _, r, [], by simp, h2, rfl, rfl⟩

theorem TxInWitness.isNull_iff {w : TxInWitness} : w.isNull = true ↔ w = {} := by
  obtain ⟨s, a, k, p⟩ := w
  simp only [TxInWitness.isNull, Bool.and_eq_true, beq_iff_eq, List.length_eq_zero_iff, TxInWitness.mk.injEq]
  constructor
  · rintro ⟨⟨⟨h1, h2⟩, h3⟩, h4⟩; exact ⟨h3, h1, h2, h4⟩
  · rintro ⟨h1, h2, h3, h4⟩; exact ⟨⟨⟨h2, h3⟩, h1⟩, h4⟩

theorem TxOutWitness.isNull_iff {w : TxOutWitness} : w.isNull = true ↔ w = {} := by
  obtain ⟨s, r⟩ := w
  simp only [TxOutWitness.isNull, Bool.and_eq_true, beq_iff_eq, List.length_eq_zero_iff, TxOutWitness.mk.injEq]

theorem TxWitness.isNull_iff {w : TxWitness} : w.isNull = true ↔ NoWitness w := by
  simp only [TxWitness.isNull, Bool.and_eq_true, List.all_eq_true, TxInWitness.isNull_iff,
    TxOutWitness.isNull_iff, NoWitness]

theorem noWitness_iff {w : TxWitness} {m n : Nat} (h1 : w.vtxinwit.length = m) (h2 : w.vtxoutwit.length = n) :
    NoWitness w ↔ w = emptyWitness m n := by
  obtain ⟨i, o⟩ := w
  simp only at h1 h2
  unfold NoWitness emptyWitness
  simp only [TxWitness.mk.injEq, List.eq_replicate_iff]
  constructor
  · rintro ⟨h3, h4⟩; exact ⟨⟨h1, h3⟩, ⟨h2, h4⟩⟩
  · rintro ⟨⟨_, h3⟩, _, h4⟩; exact ⟨h3, h4⟩

/-! ### Transactions -/

/-- Raising after everything has been read when a condition fails. -/
theorem Codec.guard {α β : Type} {p : P α} {E : α → Bytes → Prop} (h : Codec p E) (c : α → Bool) (e : PyErr)
    (f : α → β) :
    Codec (p >>= fun a => if c a then P.raise e else Pure.pure (f a))
      (fun y w => ∃ a, E a w ∧ c a = false ∧ y = f a) := by
  constructor
  · intro s y r
    rw [P.bind_ok]
    constructor
    · rintro ⟨a, s', h1, h2⟩
      obtain ⟨b, rfl, hE⟩ := (h.reads _ _ _).1 h1
      cases hc : c a
      · rw [hc] at h2
        simp only [Bool.false_eq_true, if_false, P.pure_ok] at h2
        exact ⟨b, by rw [h2.2], a, hE, hc, h2.1⟩
      · rw [hc] at h2; simp [P.raise] at h2
    · rintro ⟨b, rfl, a, hE, hc, rfl⟩
      refine ⟨a, r, h.reads.run hE r, ?_⟩
      rw [hc]; simp only [Bool.false_eq_true, if_false, P.pure_ok, and_self]
  · rintro y w ⟨a, hE, _, _⟩ b1 b2 he hb2
    exact P.bind_of_error (h.truncs a w hE b1 b2 he hb2)

theorem Codec.readTxWitness (m n : Nat) : Codec (readTxWitness m n)
    (fun w b => w.vtxinwit.length = m ∧ w.vtxoutwit.length = n ∧
      ∃ i o, SeqEnc (TxInWitnessEnc false) w.vtxinwit i ∧ SeqEnc (TxOutWitnessEnc false) w.vtxoutwit o ∧ b = i ++ o) := by
  refine ((Codec.readTxInWitness.readN m).bind fun s _ _ => (Codec.readTxOutWitness.readN n).bind fun r _ _ =>
    Codec.pure (TxWitness.mk s r)).congr ?_
  intro i w
  unfold BindEnc
  constructor
  · rintro ⟨s, w1, _, rfl, h1, r, w2, _, rfl, h2, rfl, rfl⟩
    exact ⟨h1.1, h2.1, w1, w2, h1.2, h2.2, by simp⟩
  · rintro ⟨hm, hn, s, r, h1, h2, rfl⟩
    exact ⟨_, s, _, rfl, ⟨hm, h1⟩, _, r, [], by simp, ⟨hn, h2⟩, rfl, rfl⟩

/-- The transaction reader accepts exactly the (non-strict) wire grammar. -/
theorem Codec.readTx : Codec readTx (TxEnc false) := by
  refine ((Codec.s (by decide)).bind fun v _ _ => (Codec.u (by decide)).bind
    (F := fun flag tx w => tx.nVersion = v ∧
      (flag = 1 ∧ (∃ b x, BodyEnc false tx b ∧ WitnessEnc false tx x ∧
          tx.wit.vtxinwit.length = tx.vin.length ∧ tx.wit.vtxoutwit.length = tx.vout.length ∧
          ¬ NoWitness tx.wit ∧ w = b ++ x) ∨
       flag ≠ 1 ∧ BodyEnc false tx w ∧ tx.wit.vtxinwit.length = tx.vin.length ∧
          tx.wit.vtxoutwit.length = tx.vout.length ∧ NoWitness tx.wit))
    fun flag _ _ => ?_).congr ?_
  · by_cases hf : flag = 1
    · simp only [if_pos hf]
      refine (Codec.readTxIn.readVec.bind fun vin _ _ => Codec.readTxOut.readVec.bind fun vout _ _ =>
        (Codec.u (by decide)).bind fun l _ _ =>
        (Codec.readTxWitness vin.length vout.length).guard TxWitness.isNull _ _).congr ?_
      intro tx w
      unfold BindEnc
      constructor
      · rintro ⟨vin, w1, _, rfl, h1, vout, w2, _, rfl, h2, l, w3, w4, rfl, h3, wit, ⟨h4, h5, i, o, h6, h7, rfl⟩, h8, rfl⟩
        refine ⟨rfl, Or.inl ⟨hf, w1 ++ w2 ++ w3, i ++ o, ⟨w1, w2, w3, h1, h2, h3, rfl⟩, ⟨i, o, h6, h7, rfl⟩, h4, h5, ?_,
          by simp⟩⟩
        intro hn; rw [TxWitness.isNull_iff.2 hn] at h8; simp at h8
      · rintro ⟨rfl, ⟨_, b, x, ⟨w1, w2, w3, h1, h2, h3, rfl⟩, ⟨i, o, h6, h7, rfl⟩, h4, h5, h8, rfl⟩ | ⟨h, _⟩⟩
        · refine ⟨tx.vin, w1, w2 ++ (w3 ++ (i ++ o)), by simp, h1, tx.vout, w2, w3 ++ (i ++ o), rfl, h2, tx.nLockTime, w3, i ++ o, rfl, h3, tx.wit,
            ⟨h4, h5, i, o, h6, h7, rfl⟩, ?_, rfl⟩
          cases hn : tx.wit.isNull
          · rfl
          · exact absurd (TxWitness.isNull_iff.1 hn) h8
        · exact absurd hf h
    · simp only [if_neg hf]
      refine (Codec.readTxIn.readVec.bind fun vin _ _ => Codec.readTxOut.readVec.bind fun vout _ _ =>
        (Codec.u (by decide)).bind fun l _ _ => Codec.pure _).congr ?_
      intro tx w
      unfold BindEnc
      constructor
      · rintro ⟨vin, w1, _, rfl, h1, vout, w2, _, rfl, h2, l, w3, w4, rfl, h3, rfl, rfl⟩
        refine ⟨rfl, Or.inr ⟨hf, ⟨w1, w2, w3, h1, h2, h3, by simp⟩, ?_, ?_, ?_⟩⟩
        · simp [emptyWitness]
        · simp [emptyWitness]
        · exact (noWitness_iff (by simp [emptyWitness]) (by simp [emptyWitness])).2 rfl
      · rintro ⟨rfl, ⟨h, _⟩ | ⟨_, ⟨w1, w2, w3, h1, h2, h3, rfl⟩, h4, h5, h6⟩⟩
        · exact absurd h hf
        · refine ⟨tx.vin, w1, w2 ++ w3, by simp, h1, tx.vout, w2, w3, rfl, h2, tx.nLockTime, w3, [], by simp, h3, ?_, rfl⟩
          rw [← (noWitness_iff h4 h5).1 h6]
  · intro tx w
    unfold BindEnc
    constructor
    · rintro ⟨v, w1, _, rfl, h1, flag, w2, w3, rfl, h2, rfl, ⟨rfl, b, x, h3, h4, h5, h6, h7, rfl⟩ | ⟨h, h3, h4, h5, h6⟩⟩
      · obtain ⟨f, rfl, hf⟩ := uint_one.1 h2
        have : f = 1 := u8_eq_of_toNat hf
        subst this
        have := TxEnc.extended h1 h3 h4 h5 h6 h7
        simpa using this
      · obtain ⟨f, rfl, hf⟩ := uint_one.1 h2
        have h7 : f ≠ 1 := by rintro rfl; exact h (by rw [← hf]; rfl)
        have := TxEnc.basic (strict := false) h1 h3 h7 (by simp) h4 h5 h6
        simpa using this
    · intro h
      cases h with
      | extended h1 h2 h3 h4 h5 h6 =>
        rename_i v b x
        exact ⟨_, v, [1] ++ (b ++ x), by simp, h1, 1, [1], b ++ x, rfl, uint_one.2 ⟨1, rfl, rfl⟩, rfl,
          Or.inl ⟨rfl, b, x, h2, h3, h4, h5, h6, rfl⟩⟩
      | basic h1 h2 h3 h4 h5 h6 h7 =>
        rename_i v b f
        refine ⟨_, v, [f] ++ b, by simp, h1, f.toNat, [f], b, rfl, uint_one.2 ⟨f, rfl, rfl⟩, rfl,
          Or.inr ⟨?_, h2, h5, h6, h7⟩⟩
        intro h8; exact h3 (u8_eq_of_toNat h8)

end Verif
