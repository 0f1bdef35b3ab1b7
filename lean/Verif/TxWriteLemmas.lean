import Verif.TxLemmas
/-
The writers produce exactly the strict (canonical) wire grammar on well-formed data.
-/
namespace Verif
open Spec

theorem fieldEnc_iff {sz : Nat} {a b : UInt8} {c w : Bytes} (hsz : 0 < sz) :
    FieldEnc sz a b c w ↔ ValidField sz a b c ∧ w = serConf c := by
  unfold FieldEnc ValidField serConf
  constructor
  · rintro (⟨rfl, rfl⟩ | ⟨rfl, h1, h2⟩ | ⟨rfl, h1, h2⟩)
    · simp
    · exact ⟨Or.inr (Or.inl ⟨h1, h2⟩), by rw [if_pos (by omega)]⟩
    · exact ⟨Or.inr (Or.inr ⟨h1, h2⟩), by rw [if_pos (by omega)]⟩
  · rintro ⟨rfl | ⟨h1, h2⟩ | ⟨h1, h2⟩, rfl⟩
    · left; simp
    · right; left; exact ⟨by rw [if_pos (by omega)], h1, h2⟩
    · right; right; exact ⟨by rw [if_pos (by omega)], h1, h2⟩

theorem valueEnc_iff {c w : Bytes} : ValueEnc c w ↔ ValidField 9 8 9 c ∧ w = serConf c := fieldEnc_iff (by decide)
theorem assetEnc_iff {c w : Bytes} : AssetEnc c w ↔ ValidField 33 10 11 c ∧ w = serConf c := fieldEnc_iff (by decide)
theorem nonceEnc_iff {c w : Bytes} : NonceEnc c w ↔ ValidField 33 2 3 c ∧ w = serConf c := fieldEnc_iff (by decide)

theorem issuanceEnc_iff {i : Issuance} {w : Bytes} : IssuanceEnc i w ↔
    (i.assetBlindingNonce.length = 32 ∧ i.assetEntropy.length = 32 ∧ ValidField 9 8 9 i.nAmount ∧
      ValidField 9 8 9 i.nInflationKeys) ∧ w = serIssuance i := by
  unfold IssuanceEnc RawEnc
  simp only [valueEnc_iff]
  constructor
  · rintro ⟨_, _, _, _, ⟨rfl, h1⟩, ⟨rfl, h2⟩, ⟨h3, rfl⟩, ⟨h4, rfl⟩, rfl⟩
    exact ⟨⟨h1, h2, h3, h4⟩, rfl⟩
  · rintro ⟨⟨h1, h2, h3, h4⟩, rfl⟩
    exact ⟨_, _, _, _, ⟨rfl, h1⟩, ⟨rfl, h2⟩, ⟨h3, rfl⟩, ⟨h4, rfl⟩, rfl⟩

theorem Issuance.isNull_iff {i : Issuance} : i.isNull = true ↔ NoIssue i := by
  simp [Issuance.isNull, confIsNull, NoIssue]

theorem Issuance.isNull_false {i : Issuance} : i.isNull = false ↔ ¬ NoIssue i := by
  rw [← Issuance.isNull_iff]; simp

theorem wf_default_issuance : WFIssuance {} := by
  constructor
  · rfl
  · rfl
  · exact Or.inl rfl
  · exact Or.inl rfl
  · intro _; rfl

theorem len_true : Len true = VarIntMin := rfl
theorem len_false : Len false = VarIntEnc := rfl

theorem bytesMin_iff {s w : Bytes} :
    BytesEnc (Len true) s w ↔ s.length ≤ maxItem ∧ serVarBytes s = .ok w := by
  rw [serVarBytes_ok, len_true]
  unfold BytesEnc
  constructor
  · rintro ⟨l, h1, h2, rfl⟩; exact ⟨h2, l, h1, rfl⟩
  · rintro ⟨h2, l, h1, rfl⟩; exact ⟨l, h1, h2, rfl⟩

theorem serOutPoint_ok {o : OutPoint} {w : Bytes} :
    serOutPoint o = .ok w ↔ o.hash.length = 32 ∧ ∃ x, UIntEnc 4 o.n x ∧ w = o.hash ++ x := by
  unfold serOutPoint
  by_cases h : o.hash.length = 32
  · simp only [h, ne_eq, not_true, if_false, Except.bind_ok, Except.pure_ok, packU_iff, true_and]
  · simp only [ne_eq, h, not_false_eq_true, if_true, false_and, iff_false]
    intro h2
    cases h2

theorem serTxIn_wire {fs : Bool} {i : TxIn} {w : Bytes} :
    serTxIn fs i = .ok w ↔ ∃ o iss a s q, wireOutPoint fs i = .ok (o, iss) ∧ serOutPoint o = .ok a ∧
      serVarBytes i.scriptSig = .ok s ∧ UIntEnc 4 i.nSequence q ∧
      w = a ++ s ++ q ++ (if iss then serIssuance i.assetIssuance else []) := by
  unfold serTxIn
  simp only [Except.bind_ok, Except.pure_ok, packU_iff]
  constructor
  · rintro ⟨⟨o, iss⟩, h1, a, h2, s, h3, q, h4, rfl⟩; exact ⟨o, iss, a, s, q, h1, h2, h3, h4, rfl⟩
  · rintro ⟨o, iss, a, s, q, h1, h2, h3, h4, rfl⟩; exact ⟨⟨o, iss⟩, h1, a, h2, s, h3, q, h4, rfl⟩

theorem wireOutPoint_coinbase {fs : Bool} {i : TxIn} (h : i.prevout.n = 0xffffffff) :
    wireOutPoint fs i = .ok (i.prevout, false) := by
  unfold wireOutPoint; rw [if_pos h]; rfl

theorem wireOutPoint_high {fs : Bool} {i : TxIn} (h : i.prevout.n ≠ 0xffffffff) (h2 : ¬ i.prevout.n < 1073741824) :
    wireOutPoint fs i = .error .txInSerialization := by
  unfold wireOutPoint; rw [if_neg h, if_pos (by rw [ne_eq, shift_zero]; exact h2)]; rfl

/-- The index written for an input with a 30-bit index. -/
def wireIndex (i : TxIn) : Nat :=
  i.prevout.n + (if i.assetIssuance.isNull then 0 else 2147483648) + (if i.isPegin then 1073741824 else 0)

theorem wireOutPoint_low {i : TxIn} (h2 : i.prevout.n < 1073741824) (hh : i.prevout.hash.length = 32) :
    wireOutPoint false i = .ok (⟨i.prevout.hash, wireIndex i⟩, !i.assetIssuance.isNull) := by
  unfold wireOutPoint
  rw [if_neg (by omega)]
  have h3 : ¬ ((i.prevout.n >>> 30) <<< 30 ≠ 0) := by rw [ne_eq, shift_zero, Decidable.not_not]; exact h2
  simp only [if_neg h3, land_mask, Nat.mod_eq_of_lt h2]
  have key : (if (!false) = true then
        (if i.isPegin = true then (if (!i.assetIssuance.isNull) = true then i.prevout.n ||| OUTPOINT_ISSUANCE_FLAG
          else i.prevout.n) ||| OUTPOINT_PEGIN_FLAG
        else (if (!i.assetIssuance.isNull) = true then i.prevout.n ||| OUTPOINT_ISSUANCE_FLAG else i.prevout.n))
        else i.prevout.n) = wireIndex i := by
    unfold wireIndex
    cases i.assetIssuance.isNull <;> cases i.isPegin <;>
      simp [lor_issuance h2, lor_pegin h2, lor_both h2]
  simp only [key]
  have hle : ¬ (wireIndex i > 0xffffffff) := by
    unfold wireIndex
    split <;> split <;> omega
  unfold outPointNew
  simp only [hh, ne_eq, not_true, if_false, if_neg hle]
  rfl

theorem txInEnc_iff {i : TxIn} {w : Bytes} : TxInEnc true i w ↔ WFIn i ∧ serTxIn false i = .ok w := by
  rw [serTxIn_wire]
  unfold TxInEnc
  simp only [bytesMin_iff, RawEnc]
  constructor
  · rintro ⟨n, h, x, s, q, t, hidx, ⟨rfl, hh⟩, hx, ⟨hs, hs'⟩, hq, rfl⟩
    have hq' := (uintEnc_iff.1 hq).1
    rcases IndexEnc.inv hidx with ⟨rfl, h5, h6, h7, rfl⟩ | ⟨hN, h5, h6, rfl⟩ | ⟨hN, h5, h6, h7, h8⟩
    · refine ⟨⟨hh, hs, hq', by rw [h7]; exact wf_default_issuance, Or.inl ⟨h5, h6, by rw [h7]; exact ⟨rfl, rfl⟩⟩⟩, ?_⟩
      exact ⟨_, _, _, s, q, wireOutPoint_coinbase h5, serOutPoint_ok.2 ⟨hh, x, by rw [h5]; exact hx, rfl⟩, hs', hq, by simp⟩
    · have hnull : NoIssue i.assetIssuance := by rw [h6]; exact ⟨rfl, rfl⟩
      have hnull' := Issuance.isNull_iff.2 hnull
      refine ⟨⟨hh, hs, hq', by rw [h6]; exact wf_default_issuance, Or.inr ⟨h5, fun h => h.2.2 hnull⟩⟩, ?_⟩
      have e : wireIndex i = n := by unfold wireIndex; rw [hnull', hN]; simp
      refine ⟨_, _, _, s, q, wireOutPoint_low h5 hh, serOutPoint_ok.2 ⟨hh, x, by simp only [e]; exact hx, rfl⟩, hs', hq, ?_⟩
      simp [hnull']
    · have hnn := h7 rfl
      have hnull' := Issuance.isNull_false.2 hnn
      obtain ⟨⟨i1, i2, i3, i4⟩, rfl⟩ := issuanceEnc_iff.1 h6
      refine ⟨⟨hh, hs, hq', ⟨i1, i2, i3, i4, fun h => absurd h hnn⟩, Or.inr ⟨h5, fun h => h8 ⟨h.1, h.2.1⟩⟩⟩, ?_⟩
      have e : wireIndex i = n := by unfold wireIndex; rw [hnull', hN]; simp
      refine ⟨_, _, _, s, q, wireOutPoint_low h5 hh, serOutPoint_ok.2 ⟨hh, x, by simp only [e]; exact hx, rfl⟩, hs', hq, ?_⟩
      simp [hnull']
  · rintro ⟨⟨hh, hs, hq', hiss, hidx⟩, o, iss, a, s, q, h1, h2, h3, h4, rfl⟩
    rcases hidx with ⟨h5, h6, h7⟩ | ⟨h5, h8⟩
    · rw [wireOutPoint_coinbase h5] at h1
      simp only [Except.ok.injEq, Prod.mk.injEq] at h1
      obtain ⟨rfl, rfl⟩ := h1
      obtain ⟨_, x, hx, rfl⟩ := serOutPoint_ok.1 h2
      rw [h5] at hx
      exact ⟨_, _, x, s, q, [], .coinbase h5 h6 (hiss.null h7), ⟨rfl, hh⟩, hx, ⟨hs, h3⟩, h4, by simp⟩
    · rw [wireOutPoint_low h5 hh] at h1
      simp only [Except.ok.injEq, Prod.mk.injEq] at h1
      obtain ⟨rfl, rfl⟩ := h1
      obtain ⟨_, x, hx, rfl⟩ := serOutPoint_ok.1 h2
      by_cases hn : NoIssue i.assetIssuance
      · have hnull' := Issuance.isNull_iff.2 hn
        refine ⟨_, _, x, s, q, [], .plain h5 (hiss.null hn), ⟨rfl, hh⟩, ?_, ⟨hs, h3⟩, h4, by simp [hnull']⟩
        have e : wireIndex i = i.prevout.n + if i.isPegin then 1073741824 else 0 := by
          unfold wireIndex; rw [hnull']; simp
        rw [← e]; exact hx
      · have hnull' := Issuance.isNull_false.2 hn
        refine ⟨_, _, x, s, q, serIssuance i.assetIssuance, .issue h5
          (issuanceEnc_iff.2 ⟨⟨hiss.nonce, hiss.entropy, hiss.amount, hiss.keys⟩, rfl⟩) (fun _ => hn)
          (fun h => h8 ⟨h.1, h.2, hn⟩), ⟨rfl, hh⟩, ?_, ⟨hs, h3⟩, h4, by simp [hnull']⟩
        have e : wireIndex i = i.prevout.n + 2147483648 + if i.isPegin then 1073741824 else 0 := by
          unfold wireIndex; rw [hnull']; simp
        rw [← e]; exact hx

theorem txOutEnc_iff {o : TxOut} {w : Bytes} : TxOutEnc true o w ↔ WFOut o ∧ serTxOut o = .ok w := by
  unfold TxOutEnc serTxOut
  simp only [bytesMin_iff, Except.bind_ok, Except.pure_ok, assetEnc_iff, valueEnc_iff, nonceEnc_iff]
  constructor
  · rintro ⟨_, _, _, s, ⟨h1, rfl⟩, ⟨h2, rfl⟩, ⟨h3, rfl⟩, ⟨h4, h5⟩, rfl⟩
    exact ⟨⟨h1, h2, h3, h4⟩, s, h5, rfl⟩
  · rintro ⟨⟨h1, h2, h3, h4⟩, s, h5, rfl⟩
    exact ⟨_, _, _, s, ⟨h1, rfl⟩, ⟨h2, rfl⟩, ⟨h3, rfl⟩, ⟨h4, h5⟩, rfl⟩

theorem seqEnc_iff {α : Type} {E : α → Bytes → Prop} {W : α → Prop} {f : α → Except PyErr Bytes}
    (h : ∀ x b, E x b ↔ W x ∧ f x = .ok b) {xs : List α} {b : Bytes} :
    SeqEnc E xs b ↔ (∀ x ∈ xs, W x) ∧ serN f xs = .ok b := by
  induction xs generalizing b with
  | nil =>
    simp only [serN, Except.ok.injEq]
    constructor
    · intro h; cases h; simp
    · rintro ⟨_, rfl⟩; exact .nil
  | cons x xs ih =>
    simp only [serN, Except.bind_ok, Except.pure_ok, List.mem_cons, forall_eq_or_imp]
    constructor
    · intro hs
      cases hs with
      | cons h1 h2 =>
        obtain ⟨h3, h4⟩ := (h _ _).1 h1
        obtain ⟨h5, h6⟩ := ih.1 h2
        exact ⟨⟨h3, h5⟩, _, h4, _, h6, rfl⟩
    · rintro ⟨⟨h3, h5⟩, a, h4, c, h6, rfl⟩
      exact .cons ((h _ _).2 ⟨h3, h4⟩) (ih.2 ⟨h5, h6⟩)

theorem varIntEnc_lt {n : Nat} {b : Bytes} (h : VarIntEnc n b) : n < 18446744073709551616 := by
  cases h with
  | one _ h => omega
  | two h => have := (uintEnc_iff.1 h).1; omega
  | four h => have := (uintEnc_iff.1 h).1; omega
  | eight h => have := (uintEnc_iff.1 h).1; omega

theorem vecEncMin_iff {α : Type} {E : α → Bytes → Prop} {W : α → Prop} {f : α → Except PyErr Bytes}
    (h : ∀ x b, E x b ↔ W x ∧ f x = .ok b) {xs : List α} {b : Bytes} :
    VecEnc (Len true) E xs b ↔
      (xs.length < 18446744073709551616 ∧ ∀ x ∈ xs, W x) ∧ serVec f xs = .ok b := by
  unfold VecEnc serVec
  simp only [Except.bind_ok, Except.pure_ok, serVarInt_ok, seqEnc_iff h, len_true]
  constructor
  · rintro ⟨l, r, h1, ⟨h2, h3⟩, rfl⟩; exact ⟨⟨varIntEnc_lt h1.1, h2⟩, l, h1, r, h3, rfl⟩
  · rintro ⟨⟨_, h2⟩, l, h1, r, h3, rfl⟩; exact ⟨l, r, h1, ⟨h2, h3⟩, rfl⟩

theorem stackEnc_iff {s : List Bytes} {b : Bytes} : StackEnc true s b ↔ WFStack s ∧ serStack s = .ok b :=
  vecEncMin_iff (E := BytesEnc (Len true)) (W := fun x => x.length ≤ maxItem) (f := serVarBytes)
    (fun _ _ => bytesMin_iff)

theorem txInWitnessEnc_iff {x : TxInWitness} {w : Bytes} :
    TxInWitnessEnc true x w ↔ WFInWitness x ∧ serTxInWitness x = .ok w := by
  unfold TxInWitnessEnc serTxInWitness
  simp only [bytesMin_iff, stackEnc_iff, Except.bind_ok, Except.pure_ok]
  constructor
  · rintro ⟨a, k, s, p, ⟨h1, h2⟩, ⟨h3, h4⟩, ⟨h5, h6⟩, ⟨h7, h8⟩, rfl⟩
    exact ⟨⟨h1, h3, h5, h7⟩, a, h2, k, h4, s, h6, p, h8, rfl⟩
  · rintro ⟨⟨h1, h3, h5, h7⟩, a, h2, k, h4, s, h6, p, h8, rfl⟩
    exact ⟨a, k, s, p, ⟨h1, h2⟩, ⟨h3, h4⟩, ⟨h5, h6⟩, ⟨h7, h8⟩, rfl⟩

theorem txOutWitnessEnc_iff {x : TxOutWitness} {w : Bytes} :
    TxOutWitnessEnc true x w ↔ WFOutWitness x ∧ serTxOutWitness x = .ok w := by
  unfold TxOutWitnessEnc serTxOutWitness
  simp only [bytesMin_iff, Except.bind_ok, Except.pure_ok]
  constructor
  · rintro ⟨s, r, ⟨h1, h2⟩, ⟨h3, h4⟩, rfl⟩; exact ⟨⟨h1, h3⟩, s, h2, r, h4, rfl⟩
  · rintro ⟨⟨h1, h3⟩, s, h2, r, h4, rfl⟩; exact ⟨s, r, ⟨h1, h2⟩, ⟨h3, h4⟩, rfl⟩

/-- Fields outside the witness in range. -/
structure WFBody (tx : Tx) : Prop where
  locktime : tx.nLockTime < 4294967296
  nin : tx.vin.length < 18446744073709551616
  nout : tx.vout.length < 18446744073709551616
  vin : ∀ i ∈ tx.vin, WFIn i
  vout : ∀ o ∈ tx.vout, WFOut o

theorem bodyEnc_iff {tx : Tx} {w : Bytes} : BodyEnc true tx w ↔ WFBody tx ∧
    ∃ i o l, serVec (serTxIn false) tx.vin = .ok i ∧ serVec serTxOut tx.vout = .ok o ∧
      packU 4 tx.nLockTime = .ok l ∧ w = i ++ o ++ l := by
  unfold BodyEnc
  simp only [vecEncMin_iff (fun x b => txInEnc_iff (i := x) (w := b)),
    vecEncMin_iff (fun x b => txOutEnc_iff (o := x) (w := b)), packU_iff]
  constructor
  · rintro ⟨i, o, l, ⟨⟨h1, h2⟩, h3⟩, ⟨⟨h4, h5⟩, h6⟩, h7, rfl⟩
    exact ⟨⟨(uintEnc_iff.1 h7).1, h1, h4, h2, h5⟩, i, o, l, h3, h6, h7, rfl⟩
  · rintro ⟨⟨_, h1, h4, h2, h5⟩, i, o, l, h3, h6, h7, rfl⟩
    exact ⟨i, o, l, ⟨⟨h1, h2⟩, h3⟩, ⟨⟨h4, h5⟩, h6⟩, h7, rfl⟩

theorem witnessEnc_iff {tx : Tx} {w : Bytes} : WitnessEnc true tx w ↔
    ((∀ x ∈ tx.wit.vtxinwit, WFInWitness x) ∧ ∀ x ∈ tx.wit.vtxoutwit, WFOutWitness x) ∧
      serTxWitness tx.wit = .ok w := by
  unfold WitnessEnc serTxWitness
  simp only [seqEnc_iff (fun x b => txInWitnessEnc_iff (x := x) (w := b)),
    seqEnc_iff (fun x b => txOutWitnessEnc_iff (x := x) (w := b)),
    Except.bind_ok, Except.pure_ok]
  constructor
  · rintro ⟨i, o, ⟨h1, h2⟩, ⟨h3, h4⟩, rfl⟩; exact ⟨⟨h1, h3⟩, i, h2, o, h4, rfl⟩
  · rintro ⟨⟨h1, h3⟩, i, h2, o, h4, rfl⟩; exact ⟨i, o, ⟨h1, h2⟩, ⟨h3, h4⟩, rfl⟩

theorem wf_empty_in : WFInWitness {} := by
  constructor
  · simp
  · simp
  · exact ⟨by simp, by simp⟩
  · exact ⟨by simp, by simp⟩

theorem wf_empty_out : WFOutWitness {} := by constructor <;> simp

/-- `serTx` on the extended path. -/
theorem serTx_ext {tx : Tx} {w : Bytes} (hn : tx.wit.isNull = false) (fs : Bool)
    (h1 : tx.wit.vtxinwit.length = tx.vin.length) (h2 : tx.wit.vtxoutwit.length = tx.vout.length) :
    serTx true fs tx = .ok w ↔ ∃ v i o l x, packS 4 tx.nVersion = .ok v ∧
      serVec (serTxIn false) tx.vin = .ok i ∧ serVec serTxOut tx.vout = .ok o ∧
      packU 4 tx.nLockTime = .ok l ∧ serTxWitness tx.wit = .ok x ∧
      w = v ++ [1] ++ i ++ o ++ l ++ x := by
  unfold serTx
  simp only [hn, Bool.not_false, Bool.and_true, if_true, h1, h2, BEq.rfl, Bool.or_true, Bool.not_true,
    Bool.false_eq_true, if_false, Except.bind_ok, Except.pure_ok]
  constructor
  · rintro ⟨v, h1, i, h2, o, h3, l, h4, x, h5, rfl⟩
    exact ⟨v, i, o, l, x, h1, h2, h3, h4, h5, rfl⟩
  · rintro ⟨v, i, o, l, x, h1, h2, h3, h4, h5, rfl⟩
    exact ⟨v, h1, i, h2, o, h3, l, h4, x, h5, rfl⟩

theorem serTx_basic {tx : Tx} {w : Bytes} {iw fs : Bool} (hn : (iw && !tx.wit.isNull) = false) :
    serTx iw fs tx = .ok w ↔ ∃ v i o l, packS 4 tx.nVersion = .ok v ∧
      serVec (serTxIn fs) tx.vin = .ok i ∧ serVec serTxOut tx.vout = .ok o ∧
      packU 4 tx.nLockTime = .ok l ∧
      w = v ++ (if fs then [] else [0]) ++ i ++ o ++ l := by
  unfold serTx
  simp only [hn, Bool.false_eq_true, if_false, Except.bind_ok, Except.pure_ok]
  constructor
  · rintro ⟨v, h1, i, h2, o, h3, l, h4, rfl⟩
    exact ⟨v, i, o, l, h1, h2, h3, h4, by cases fs <;> rfl⟩
  · rintro ⟨v, i, o, l, h1, h2, h3, h4, rfl⟩
    exact ⟨v, h1, i, h2, o, h3, l, h4, by cases fs <;> rfl⟩

theorem version_range {v : Int} : inRangeS 4 v ↔ -2147483648 ≤ v ∧ v < 2147483648 := by
  unfold inRangeS
  constructor
  · rintro ⟨h1, h2⟩; simp at h1 h2; omega
  · rintro ⟨h1, h2⟩; simp; omega

/-- On well-formed transactions the writer produces exactly the canonical encoding,
and only well-formed transactions have one. -/
theorem txEnc_iff {tx : Tx} {w : Bytes} : TxEnc true tx w ↔ WFTx tx ∧ serializeTx tx = .ok w := by
  unfold serializeTx
  constructor
  · intro h
    cases h with
    | extended h1 h2 h3 h4 h5 h6 =>
      rename_i v b x
      obtain ⟨hb, i, o, l, e1, e2, e3, rfl⟩ := bodyEnc_iff.1 h2
      obtain ⟨⟨hw1, hw2⟩, e4⟩ := witnessEnc_iff.1 h3
      have hn : tx.wit.isNull = false := by
        cases hn : tx.wit.isNull
        · rfl
        · exact absurd (TxWitness.isNull_iff.1 hn) h6
      refine ⟨⟨version_range.1 (sintEnc_iff'.1 h1).1, hb.locktime, hb.nin, hb.nout, hb.vin, hb.vout, h4, h5, hw1, hw2⟩, ?_⟩
      rw [serTx_ext hn false h4 h5]
      exact ⟨v, i, o, l, x, packS_iff.2 h1, e1, e2, e3, e4, by simp⟩
    | basic h1 h2 h3 h4 h5 h6 h7 =>
      rename_i v b f
      obtain ⟨hb, i, o, l, e1, e2, e3, rfl⟩ := bodyEnc_iff.1 h2
      have hf := h4 rfl
      subst hf
      have hn := TxWitness.isNull_iff.2 h7
      refine ⟨⟨version_range.1 (sintEnc_iff'.1 h1).1, hb.locktime, hb.nin, hb.nout, hb.vin, hb.vout, h5, h6, ?_, ?_⟩, ?_⟩
      · intro x hx; rw [h7.1 x hx]; exact wf_empty_in
      · intro x hx; rw [h7.2 x hx]; exact wf_empty_out
      · rw [serTx_basic (by rw [hn]; rfl)]
        exact ⟨v, i, o, l, packS_iff.2 h1, e1, e2, e3, by simp⟩
  · rintro ⟨hw, hs⟩
    have hb : WFBody tx := ⟨hw.locktime, hw.nin, hw.nout, hw.vin, hw.vout⟩
    cases hn : tx.wit.isNull
    · obtain ⟨v, i, o, l, x, h1, e1, e2, e3, e4, rfl⟩ := (serTx_ext hn false hw.witin hw.witout).1 hs
      have := TxEnc.extended (strict := true) (packS_iff.1 h1) (bodyEnc_iff.2 ⟨hb, i, o, l, e1, e2, e3, rfl⟩)
        (witnessEnc_iff.2 ⟨⟨hw.vtxinwit, hw.vtxoutwit⟩, e4⟩) hw.witin hw.witout
        (fun h => by rw [TxWitness.isNull_iff.2 h] at hn; simp at hn)
      simpa using this
    · obtain ⟨v, i, o, l, h1, e1, e2, e3, rfl⟩ := (serTx_basic (by rw [hn]; rfl)).1 hs
      have := TxEnc.basic (strict := true) (flag := 0) (packS_iff.1 h1)
        (bodyEnc_iff.2 ⟨hb, i, o, l, e1, e2, e3, rfl⟩) (by decide) (fun _ => rfl) hw.witin hw.witout
        (TxWitness.isNull_iff.1 hn)
      simpa using this

/-! ### The writer succeeds on well-formed data -/

theorem varIntMin_exists {n : Nat} (h : n < 18446744073709551616) : ∃ b, VarIntMin n b := by
  have : ∃ b, serVarInt n = .ok b := by
    unfold serVarInt
    split
    · exact ⟨_, rfl⟩
    · split
      · exact ⟨_, rfl⟩
      · split
        · exact ⟨_, rfl⟩
        · have : packU 8 n = .ok (leBytes 8 n) := packU_ok.2 ⟨by omega, rfl⟩
          exact ⟨_, by rw [this]; rfl⟩
  obtain ⟨b, hb⟩ := this
  exact ⟨b, serVarInt_ok.1 hb⟩

theorem serVarBytes_exists {s : Bytes} (h : s.length ≤ maxItem) : ∃ b, serVarBytes s = .ok b := by
  obtain ⟨l, hl⟩ := varIntMin_exists (n := s.length) (by unfold maxItem at h; omega)
  exact ⟨l ++ s, serVarBytes_ok.2 ⟨l, hl, rfl⟩⟩

theorem serN_exists {α : Type} {f : α → Except PyErr Bytes} {xs : List α} (h : ∀ x ∈ xs, ∃ b, f x = .ok b) :
    ∃ b, serN f xs = .ok b := by
  induction xs with
  | nil => exact ⟨[], rfl⟩
  | cons x xs ih =>
    obtain ⟨a, ha⟩ := h x (by simp)
    obtain ⟨b, hb⟩ := ih (fun y hy => h y (by simp [hy]))
    exact ⟨a ++ b, by simp [serN, ha, hb, bind, Except.bind, pure, Except.pure]⟩

theorem serVec_exists {α : Type} {f : α → Except PyErr Bytes} {xs : List α}
    (hl : xs.length < 18446744073709551616) (h : ∀ x ∈ xs, ∃ b, f x = .ok b) :
    ∃ b, serVec f xs = .ok b := by
  obtain ⟨l, hl⟩ := varIntMin_exists hl
  obtain ⟨b, hb⟩ := serN_exists h
  exact ⟨l ++ b, by simp [serVec, serVarInt_ok.2 hl, hb, bind, Except.bind, pure, Except.pure]⟩

theorem packU_exists {k n : Nat} (h : n < 256 ^ k) : ∃ b, packU k n = .ok b := ⟨_, packU_ok.2 ⟨h, rfl⟩⟩

theorem wireIndex_lt {i : TxIn} (h : i.prevout.n < 1073741824) : wireIndex i < 4294967296 := by
  unfold wireIndex; split <;> split <;> omega

/-- Enough for `serTxIn` to succeed. -/
theorem serTxIn_exists {i : TxIn} (hh : i.prevout.hash.length = 32) (hs : i.scriptSig.length ≤ maxItem)
    (hq : i.nSequence < 4294967296) (hn : i.prevout.n = 4294967295 ∨ i.prevout.n < 1073741824) :
    ∃ b, serTxIn false i = .ok b := by
  obtain ⟨s, hs⟩ := serVarBytes_exists hs
  obtain ⟨q, hq⟩ := packU_exists (k := 4) (n := i.nSequence) (by omega)
  rw [packU_iff] at hq
  rcases hn with hn | hn
  · exact ⟨_, serTxIn_wire.2 ⟨_, _, _, s, q, wireOutPoint_coinbase hn,
      serOutPoint_ok.2 ⟨hh, _, uintEnc_leBytes (by omega), rfl⟩, hs, hq, rfl⟩⟩
  · have := wireIndex_lt hn
    exact ⟨_, serTxIn_wire.2 ⟨_, _, _, s, q, wireOutPoint_low hn hh,
      serOutPoint_ok.2 ⟨hh, _, uintEnc_leBytes (by simpa using this), rfl⟩, hs, hq, rfl⟩⟩

theorem serTxOut_exists {o : TxOut} (h : o.scriptPubKey.length ≤ maxItem) : ∃ b, serTxOut o = .ok b := by
  obtain ⟨s, hs⟩ := serVarBytes_exists h
  exact ⟨_, by unfold serTxOut; rw [hs]; rfl⟩

theorem serStack_exists {s : List Bytes} (h : WFStack s) : ∃ b, serStack s = .ok b :=
  serVec_exists h.1 (fun x hx => serVarBytes_exists (h.2 x hx))

theorem serTxInWitness_exists {w : TxInWitness} (h : WFInWitness w) : ∃ b, serTxInWitness w = .ok b := by
  obtain ⟨a, ha⟩ := serVarBytes_exists h.amount
  obtain ⟨k, hk⟩ := serVarBytes_exists h.keys
  obtain ⟨s, hs⟩ := serStack_exists h.script
  obtain ⟨p, hp⟩ := serStack_exists h.pegin
  exact ⟨_, by unfold serTxInWitness; rw [ha, hk, hs, hp]; rfl⟩

theorem serTxOutWitness_exists {w : TxOutWitness} (h : WFOutWitness w) : ∃ b, serTxOutWitness w = .ok b := by
  obtain ⟨a, ha⟩ := serVarBytes_exists h.surj
  obtain ⟨k, hk⟩ := serVarBytes_exists h.range
  exact ⟨_, by unfold serTxOutWitness; rw [ha, hk]; rfl⟩

theorem serTxWitness_exists {w : TxWitness} (h1 : ∀ x ∈ w.vtxinwit, WFInWitness x)
    (h2 : ∀ x ∈ w.vtxoutwit, WFOutWitness x) : ∃ b, serTxWitness w = .ok b := by
  obtain ⟨a, ha⟩ := serN_exists (f := serTxInWitness) (fun x hx => serTxInWitness_exists (h1 x hx))
  obtain ⟨k, hk⟩ := serN_exists (f := serTxOutWitness) (fun x hx => serTxOutWitness_exists (h2 x hx))
  exact ⟨_, by unfold serTxWitness; rw [ha, hk]; rfl⟩

/-- Ranges that make `serialize()` succeed (weaker than `WFTx`: content may be hidden or invalid). -/
structure SerOK (tx : Tx) : Prop where
  version : -2147483648 ≤ tx.nVersion ∧ tx.nVersion < 2147483648
  locktime : tx.nLockTime < 4294967296
  nin : tx.vin.length < 18446744073709551616
  nout : tx.vout.length < 18446744073709551616
  vin : ∀ i ∈ tx.vin, i.prevout.hash.length = 32 ∧ i.scriptSig.length ≤ maxItem ∧
    i.nSequence < 4294967296 ∧ (i.prevout.n = 4294967295 ∨ i.prevout.n < 1073741824)
  vout : ∀ o ∈ tx.vout, o.scriptPubKey.length ≤ maxItem
  witin : tx.wit.vtxinwit.length = tx.vin.length
  witout : tx.wit.vtxoutwit.length = tx.vout.length
  vtxinwit : ∀ w ∈ tx.wit.vtxinwit, WFInWitness w
  vtxoutwit : ∀ w ∈ tx.wit.vtxoutwit, WFOutWitness w

theorem WFTx.serOK {tx : Tx} (h : WFTx tx) : SerOK tx := by
  refine ⟨h.version, h.locktime, h.nin, h.nout, ?_, fun o ho => (h.vout o ho).script, h.witin, h.witout,
    h.vtxinwit, h.vtxoutwit⟩
  intro i hi
  have := h.vin i hi
  refine ⟨this.hash, this.script, this.seq, ?_⟩
  rcases this.index with ⟨h1, _⟩ | ⟨h1, _⟩
  · exact Or.inl h1
  · exact Or.inr h1

theorem serTx_exists {tx : Tx} (h : SerOK tx) : ∃ b, serializeTx tx = .ok b := by
  obtain ⟨i, hi⟩ := serVec_exists (f := serTxIn false) h.nin (fun x hx => by
    obtain ⟨h1, h2, h3, h4⟩ := h.vin x hx
    exact serTxIn_exists h1 h2 h3 h4)
  obtain ⟨o, ho⟩ := serVec_exists (f := serTxOut) h.nout (fun x hx => serTxOut_exists (h.vout x hx))
  obtain ⟨l, hl⟩ := packU_exists (k := 4) (n := tx.nLockTime) (by have := h.locktime; omega)
  obtain ⟨w, hw⟩ := serTxWitness_exists h.vtxinwit h.vtxoutwit
  have hv : packS 4 tx.nVersion = .ok _ := packS_ok.2 ⟨version_range.2 h.version, rfl⟩
  unfold serializeTx
  cases hn : tx.wit.isNull
  · exact ⟨_, (serTx_ext hn false h.witin h.witout).2 ⟨_, i, o, l, w, hv, hi, ho, hl, hw, rfl⟩⟩
  · exact ⟨_, (serTx_basic (by rw [hn]; rfl)).2 ⟨_, i, o, l, hv, hi, ho, hl, rfl⟩⟩

/-! ### Strict encodings are encodings -/

theorem bytesEnc_relax {s w : Bytes} (h : BytesEnc (Len true) s w) : BytesEnc (Len false) s w := by
  obtain ⟨l, h1, h2, rfl⟩ := h; exact ⟨l, h1.1, h2, rfl⟩

theorem indexEnc_relax {i : TxIn} {n : Nat} {w : Bytes} (h : IndexEnc true i n w) : IndexEnc false i n w := by
  cases h with
  | coinbase h1 h2 h3 => exact .coinbase h1 h2 h3
  | plain h1 h2 => exact .plain h1 h2
  | issue h1 h2 h3 h4 => exact .issue h1 h2 (by simp) h4

theorem txInEnc_relax {i : TxIn} {w : Bytes} (h : TxInEnc true i w) : TxInEnc false i w := by
  obtain ⟨n, h, x, s, q, t, h1, h2, h3, h4, h5, rfl⟩ := h
  exact ⟨n, h, x, s, q, t, indexEnc_relax h1, h2, h3, bytesEnc_relax h4, h5, rfl⟩

theorem txOutEnc_relax {o : TxOut} {w : Bytes} (h : TxOutEnc true o w) : TxOutEnc false o w := by
  obtain ⟨a, v, n, s, h1, h2, h3, h4, rfl⟩ := h
  exact ⟨a, v, n, s, h1, h2, h3, bytesEnc_relax h4, rfl⟩

theorem len_relax (n : Nat) (b : Bytes) (h : Len true n b) : Len false n b := h.1

theorem stackEnc_relax {s : List Bytes} {w : Bytes} (h : StackEnc true s w) : StackEnc false s w :=
  VecEnc.mono len_relax (fun _ _ _ => bytesEnc_relax) h

theorem txInWitnessEnc_relax {x : TxInWitness} {w : Bytes} (h : TxInWitnessEnc true x w) :
    TxInWitnessEnc false x w := by
  obtain ⟨a, k, s, p, h1, h2, h3, h4, rfl⟩ := h
  exact ⟨a, k, s, p, bytesEnc_relax h1, bytesEnc_relax h2, stackEnc_relax h3, stackEnc_relax h4, rfl⟩

theorem txOutWitnessEnc_relax {x : TxOutWitness} {w : Bytes} (h : TxOutWitnessEnc true x w) :
    TxOutWitnessEnc false x w := by
  obtain ⟨s, r, h1, h2, rfl⟩ := h
  exact ⟨s, r, bytesEnc_relax h1, bytesEnc_relax h2, rfl⟩

theorem bodyEnc_relax {tx : Tx} {w : Bytes} (h : BodyEnc true tx w) : BodyEnc false tx w := by
  obtain ⟨i, o, l, h1, h2, h3, rfl⟩ := h
  exact ⟨i, o, l, VecEnc.mono len_relax (fun _ _ _ => txInEnc_relax) h1,
    VecEnc.mono len_relax (fun _ _ _ => txOutEnc_relax) h2, h3, rfl⟩

theorem witnessEnc_relax {tx : Tx} {w : Bytes} (h : WitnessEnc true tx w) : WitnessEnc false tx w := by
  obtain ⟨i, o, h1, h2, rfl⟩ := h
  exact ⟨i, o, SeqEnc.mono (fun _ _ _ => txInWitnessEnc_relax) h1,
    SeqEnc.mono (fun _ _ _ => txOutWitnessEnc_relax) h2, rfl⟩

theorem txEnc_relax {tx : Tx} {w : Bytes} (h : TxEnc true tx w) : TxEnc false tx w := by
  cases h with
  | extended h1 h2 h3 h4 h5 h6 => exact .extended h1 (bodyEnc_relax h2) (witnessEnc_relax h3) h4 h5 h6
  | basic h1 h2 h3 h4 h5 h6 h7 => exact .basic h1 (bodyEnc_relax h2) h3 (by simp) h5 h6 h7

/-! ### What a reader returns -/

theorem seqEnc_mem {α : Type} {E : α → Bytes → Prop} {xs : List α} {b : Bytes} (h : SeqEnc E xs b) :
    ∀ x ∈ xs, ∃ w, E x w := by
  induction h with
  | nil => simp
  | cons h1 _ ih =>
    intro y hy
    rcases List.mem_cons.1 hy with rfl | hy
    · exact ⟨_, h1⟩
    · exact ih y hy

/-- Issuance data that a stream can carry. -/
structure StreamIssuance (i : Issuance) : Prop where
  nonce : i.assetBlindingNonce.length = 32
  entropy : i.assetEntropy.length = 32
  amount : ValidField 9 8 9 i.nAmount
  keys : ValidField 9 8 9 i.nInflationKeys

/-- What holds of an input read from a stream: as `WFIn`, except that an all-null
issuance may carry nonce and entropy. -/
structure StreamIn (i : TxIn) : Prop where
  hash : i.prevout.hash.length = 32
  script : i.scriptSig.length ≤ maxItem
  seq : i.nSequence < 4294967296
  iss : StreamIssuance i.assetIssuance
  index : (i.prevout.n = 4294967295 ∧ i.isPegin = false ∧ i.assetIssuance = {}) ∨
    (i.prevout.n < 1073741824 ∧
      ¬ (i.prevout.n = 1073741823 ∧ i.isPegin = true ∧ ¬ NoIssue i.assetIssuance))

theorem stream_default : StreamIssuance {} := ⟨rfl, rfl, Or.inl rfl, Or.inl rfl⟩

theorem txInEnc_stream {strict : Bool} {i : TxIn} {w : Bytes} (h : TxInEnc strict i w) : StreamIn i := by
  obtain ⟨n, h, x, s, q, t, h1, ⟨rfl, h2⟩, h3, ⟨_, _, h4, _⟩, h5, rfl⟩ := h
  have hq := (uintEnc_iff.1 h5).1
  rcases IndexEnc.inv h1 with ⟨rfl, h5, h6, h7, rfl⟩ | ⟨hN, h5, h6, rfl⟩ | ⟨hN, h5, h6, h7, h8⟩
  · exact ⟨h2, h4, hq, by rw [h7]; exact stream_default, Or.inl ⟨h5, h6, h7⟩⟩
  · exact ⟨h2, h4, hq, by rw [h6]; exact stream_default, Or.inr ⟨h5, fun h => h.2.2 (by rw [h6]; exact ⟨rfl, rfl⟩)⟩⟩
  · obtain ⟨⟨i1, i2, i3, i4⟩, rfl⟩ := issuanceEnc_iff.1 h6
    exact ⟨h2, h4, hq, ⟨i1, i2, i3, i4⟩, Or.inr ⟨h5, fun h => h8 ⟨h.1, h.2.1⟩⟩⟩

theorem txOutEnc_wf {strict : Bool} {o : TxOut} {w : Bytes} (h : TxOutEnc strict o w) : WFOut o := by
  obtain ⟨a, v, n, s, h1, h2, h3, ⟨_, _, h4, _⟩, rfl⟩ := h
  exact ⟨(assetEnc_iff.1 h1).1, (valueEnc_iff.1 h2).1, (nonceEnc_iff.1 h3).1, h4⟩

theorem bytesEnc_le {L : Nat → Bytes → Prop} {s w : Bytes} (h : BytesEnc L s w) : s.length ≤ maxItem := by
  obtain ⟨_, _, h, _⟩ := h; exact h

theorem len_lt {strict : Bool} {n : Nat} {b : Bytes} (h : Len strict n b) : n < 18446744073709551616 := by
  cases strict
  · exact varIntEnc_lt h
  · exact varIntEnc_lt h.1

theorem stackEnc_wf {strict : Bool} {s : List Bytes} {w : Bytes} (h : StackEnc strict s w) : WFStack s := by
  obtain ⟨l, r, h1, h2, rfl⟩ := h
  exact ⟨len_lt h1, fun x hx => by obtain ⟨w, hw⟩ := seqEnc_mem h2 x hx; exact bytesEnc_le hw⟩

theorem txInWitnessEnc_wf {strict : Bool} {x : TxInWitness} {w : Bytes} (h : TxInWitnessEnc strict x w) :
    WFInWitness x := by
  obtain ⟨a, k, s, p, h1, h2, h3, h4, rfl⟩ := h
  exact ⟨bytesEnc_le h1, bytesEnc_le h2, stackEnc_wf h3, stackEnc_wf h4⟩

theorem txOutWitnessEnc_wf {strict : Bool} {x : TxOutWitness} {w : Bytes} (h : TxOutWitnessEnc strict x w) :
    WFOutWitness x := by
  obtain ⟨s, r, h1, h2, rfl⟩ := h
  exact ⟨bytesEnc_le h1, bytesEnc_le h2⟩

/-- What holds of a transaction read from a stream. -/
structure StreamTx (tx : Tx) : Prop where
  version : -2147483648 ≤ tx.nVersion ∧ tx.nVersion < 2147483648
  locktime : tx.nLockTime < 4294967296
  nin : tx.vin.length < 18446744073709551616
  nout : tx.vout.length < 18446744073709551616
  vin : ∀ i ∈ tx.vin, StreamIn i
  vout : ∀ o ∈ tx.vout, WFOut o
  witin : tx.wit.vtxinwit.length = tx.vin.length
  witout : tx.wit.vtxoutwit.length = tx.vout.length
  vtxinwit : ∀ w ∈ tx.wit.vtxinwit, WFInWitness w
  vtxoutwit : ∀ w ∈ tx.wit.vtxoutwit, WFOutWitness w

theorem txEnc_stream {strict : Bool} {tx : Tx} {w : Bytes} (h : TxEnc strict tx w) : StreamTx tx := by
  cases h with
  | extended h1 h2 h3 h4 h5 h6 =>
    obtain ⟨i, o, l, ⟨_, _, hl1, hs1, rfl⟩, ⟨_, _, hl2, hs2, rfl⟩, h8, rfl⟩ := h2
    obtain ⟨i, o, h9, h10, rfl⟩ := h3
    refine ⟨version_range.1 (sintEnc_iff'.1 h1).1, (uintEnc_iff.1 h8).1, len_lt hl1, len_lt hl2, ?_, ?_, h4, h5, ?_, ?_⟩
    · intro x hx; obtain ⟨w, hw⟩ := seqEnc_mem hs1 x hx; exact txInEnc_stream hw
    · intro x hx; obtain ⟨w, hw⟩ := seqEnc_mem hs2 x hx; exact txOutEnc_wf hw
    · intro x hx; obtain ⟨w, hw⟩ := seqEnc_mem h9 x hx; exact txInWitnessEnc_wf hw
    · intro x hx; obtain ⟨w, hw⟩ := seqEnc_mem h10 x hx; exact txOutWitnessEnc_wf hw
  | basic h1 h2 h3 h4 h5 h6 h7 =>
    obtain ⟨i, o, l, ⟨_, _, hl1, hs1, rfl⟩, ⟨_, _, hl2, hs2, rfl⟩, h8, rfl⟩ := h2
    refine ⟨version_range.1 (sintEnc_iff'.1 h1).1, (uintEnc_iff.1 h8).1, len_lt hl1, len_lt hl2, ?_, ?_, h5, h6, ?_, ?_⟩
    · intro x hx; obtain ⟨w, hw⟩ := seqEnc_mem hs1 x hx; exact txInEnc_stream hw
    · intro x hx; obtain ⟨w, hw⟩ := seqEnc_mem hs2 x hx; exact txOutEnc_wf hw
    · intro x hx; rw [h7.1 x hx]; exact wf_empty_in
    · intro x hx; rw [h7.2 x hx]; exact wf_empty_out

theorem normIssuance_null {i : Issuance} : NoIssue (normIssuance i) ↔ NoIssue i := by
  unfold normIssuance
  split
  · rename_i h; exact ⟨fun _ => h, fun _ => ⟨rfl, rfl⟩⟩
  · exact Iff.rfl

theorem norm_wf {i : TxIn} (h : StreamIn i) : WFIn { i with assetIssuance := normIssuance i.assetIssuance } := by
  have hwf : WFIssuance (normIssuance i.assetIssuance) := by
    unfold normIssuance
    split
    · exact wf_default_issuance
    · rename_i hn
      exact ⟨h.iss.nonce, h.iss.entropy, h.iss.amount, h.iss.keys, fun h => absurd h hn⟩
  refine ⟨h.hash, h.script, h.seq, hwf, ?_⟩
  simp only [normIssuance_null]
  rcases h.index with ⟨h1, h2, h3⟩ | h
  · exact Or.inl ⟨h1, h2, by rw [h3]; exact ⟨rfl, rfl⟩⟩
  · exact Or.inr h

theorem normTx_wf {tx : Tx} (h : StreamTx tx) : WFTx (normTx tx) := by
  refine ⟨h.version, h.locktime, by simpa [normTx] using h.nin, h.nout, ?_, h.vout,
    by simpa [normTx] using h.witin, h.witout, h.vtxinwit, h.vtxoutwit⟩
  intro i hi
  simp only [normTx, List.mem_map] at hi
  obtain ⟨j, hj, rfl⟩ := hi
  exact norm_wf (h.vin j hj)

theorem isNull_norm (i : Issuance) : (normIssuance i).isNull = i.isNull := by
  cases h : i.isNull
  · rw [Issuance.isNull_false] at *; rwa [normIssuance_null]
  · rw [Issuance.isNull_iff] at *; rwa [normIssuance_null]

theorem serTxIn_norm (fs : Bool) (i : TxIn) :
    serTxIn fs { i with assetIssuance := normIssuance i.assetIssuance } = serTxIn fs i := by
  have hw : wireOutPoint fs { i with assetIssuance := normIssuance i.assetIssuance } = wireOutPoint fs i := by
    unfold wireOutPoint
    simp only [isNull_norm]
  unfold serTxIn
  rw [hw]
  by_cases hn : NoIssue i.assetIssuance
  · have hn' := Issuance.isNull_iff.2 hn
    have : ∀ o iss, wireOutPoint fs i = .ok (o, iss) → iss = false := by
      intro o iss h
      by_cases h1 : i.prevout.n = 0xffffffff
      · rw [wireOutPoint_coinbase h1] at h; cases h; rfl
      · by_cases h2 : i.prevout.n < 1073741824
        · unfold wireOutPoint at h
          have h3 : ¬ ((i.prevout.n >>> 30) <<< 30 ≠ 0) := by
            rw [ne_eq, shift_zero, Decidable.not_not]; exact h2
          simp only [if_neg h1, if_neg h3] at h
          obtain ⟨_, _, h⟩ := Except.bind_ok.1 h
          cases h
          simp [hn']
        · rw [wireOutPoint_high h1 h2] at h; cases h
    cases hwo : wireOutPoint fs i with
    | error e => rfl
    | ok p =>
      obtain ⟨o, iss⟩ := p
      have := this o iss hwo
      subst this
      rfl
  · have : normIssuance i.assetIssuance = i.assetIssuance := by
      unfold normIssuance; exact if_neg hn
    rw [this]

theorem serN_congr {α : Type} {f g : α → Except PyErr Bytes} {xs : List α} (h : ∀ x ∈ xs, f x = g x) :
    serN f xs = serN g xs := by
  induction xs with
  | nil => rfl
  | cons x xs ih =>
    simp only [serN]
    rw [h x (by simp), ih (fun y hy => h y (by simp [hy]))]

theorem serN_map {α β : Type} {f : β → Except PyErr Bytes} {g : α → β} {xs : List α} :
    serN f (xs.map g) = serN (fun x => f (g x)) xs := by
  induction xs with
  | nil => rfl
  | cons x xs ih => simp only [List.map_cons, serN, ih]

theorem serTx_norm (iw fs : Bool) (tx : Tx) : serTx iw fs (normTx tx) = serTx iw fs tx := by
  have h : ∀ b, serVec (serTxIn b) (normTx tx).vin = serVec (serTxIn b) tx.vin := by
    intro b
    unfold serVec
    have h1 : serN (serTxIn b) (normTx tx).vin = serN (serTxIn b) tx.vin := by
      unfold normTx
      rw [serN_map]
      exact serN_congr (fun x _ => serTxIn_norm b x)
    rw [h1]; simp [normTx]
  have hl : (normTx tx).vin.length = tx.vin.length := by simp [normTx]
  unfold serTx
  rw [h, h, hl]
  rfl

theorem normTx_idem {tx : Tx} (h : WFTx tx) : normTx tx = tx := by
  have h' : ∀ i ∈ tx.vin, { i with assetIssuance := normIssuance i.assetIssuance } = i := by
    intro i hi
    have : normIssuance i.assetIssuance = i.assetIssuance := by
      unfold normIssuance
      split
      · rename_i hn; exact ((h.vin i hi).iss.null hn).symm
      · rfl
    rw [this]
  unfold normTx
  have : tx.vin.map (fun i => { i with assetIssuance := normIssuance i.assetIssuance }) = tx.vin := by
    conv => rhs; rw [← List.map_id tx.vin]
    exact List.map_congr_left h'
  rw [this]

end Verif
