import Verif.Props.Confidential
import Verif.Props.Tx
import Verif.Spec.Predicates
/-
C68: the questions `is_null`, `is_fee`, `is_explicit`, `is_commitment` are answered as the bytes on
the wire have it.
-/
namespace Verif
open Spec

namespace Predicates

theorem blank_nil : Blank [] := fun x hx => nomatch hx

theorem blank_cons {x : UInt8} {b : Bytes} : Blank (x :: b) ↔ x = 0 ∧ Blank b := by
  simp [Blank]

theorem blank_append {a b : Bytes} : Blank (a ++ b) ↔ Blank a ∧ Blank b := by
  simp only [Blank, List.mem_append]
  exact ⟨fun h => ⟨fun x hx => h x (Or.inl hx), fun x hx => h x (Or.inr hx)⟩,
    fun ⟨h1, h2⟩ x hx => hx.elim (h1 x) (h2 x)⟩

theorem blank_varInt {n : Nat} {b : Bytes} (h : serVarInt n = .ok b) : Blank b ↔ n = 0 := by
  unfold serVarInt at h
  split at h
  · cases h
    rw [blank_cons]
    constructor
    · rintro ⟨h0, _⟩
      have := congrArg UInt8.toNat h0
      rw [UInt8.toNat_ofNat] at this
      simp at this
      omega
    · rintro rfl
      exact ⟨rfl, blank_nil⟩
  split at h
  · cases h
    rw [blank_cons]
    exact ⟨fun h => absurd h.1 (by decide), fun h => by omega⟩
  split at h
  · cases h
    rw [blank_cons]
    exact ⟨fun h => absurd h.1 (by decide), fun h => by omega⟩
  · cases hp : packU 8 n with
    | error e => rw [hp] at h; cases h
    | ok l =>
      rw [hp] at h
      cases h
      rw [blank_cons]
      exact ⟨fun h => absurd h.1 (by decide), fun h => by omega⟩

theorem blank_varBytes {s b : Bytes} (h : serVarBytes s = .ok b) : Blank b ↔ s = [] := by
  simp only [serVarBytes, Except.bind_ok, Except.pure_ok] at h
  obtain ⟨l, h1, rfl⟩ := h
  rw [blank_append, blank_varInt h1, List.length_eq_zero_iff]
  exact ⟨fun h => h.1, fun h => ⟨h, by rw [h]; exact blank_nil⟩⟩

theorem blank_serN {α : Type} {f : α → Except PyErr Bytes} {N : α → Bool}
    (hf : ∀ x b, f x = .ok b → (Blank b ↔ N x = true)) {xs : List α} {b : Bytes} (h : serN f xs = .ok b) :
    Blank b ↔ xs.all N = true := by
  induction xs generalizing b with
  | nil =>
    cases h
    exact ⟨fun _ => rfl, fun _ => blank_nil⟩
  | cons x xs ih =>
    simp only [serN, Except.bind_ok, Except.pure_ok] at h
    obtain ⟨a, h1, c, h2, rfl⟩ := h
    rw [blank_append, hf _ _ h1, ih h2, List.all_cons, Bool.and_eq_true]

theorem blank_stack {s : List Bytes} {b : Bytes} (h : serStack s = .ok b) : Blank b ↔ s = [] := by
  simp only [serStack, Except.bind_ok, Except.pure_ok] at h
  obtain ⟨l, h1, c, h2, rfl⟩ := h
  rw [blank_append, blank_varInt h1, List.length_eq_zero_iff]
  refine ⟨fun h => h.1, fun h => ⟨h, ?_⟩⟩
  subst h
  cases h2
  exact blank_nil

theorem conf_pos (c : Bytes) : 0 < (serConf c).length := by
  unfold serConf
  split
  · omega
  · decide

theorem varBytes_pos {s b : Bytes} (h : serVarBytes s = .ok b) : s.length < b.length := by
  simp only [serVarBytes, Except.bind_ok, Except.pure_ok] at h
  obtain ⟨l, h1, rfl⟩ := h
  have : 0 < l.length := by
    unfold serVarInt at h1
    repeat' split at h1
    · cases h1; exact Nat.zero_lt_one
    · cases h1; exact Nat.zero_lt_succ _
    · cases h1; exact Nat.zero_lt_succ _
    · cases hp : packU 8 s.length with
      | error e => rw [hp] at h1; cases h1
      | ok l => rw [hp] at h1; cases h1; exact Nat.zero_lt_succ _
  rw [List.length_append]; omega

theorem varBytes_nil {s : Bytes} : serVarBytes s = .ok [0] ↔ s = [] := by
  constructor
  · intro h
    exact (blank_varBytes h).1 (blank_cons.2 ⟨rfl, blank_nil⟩)
  · rintro rfl; rfl

end Predicates
open Predicates

/-! ### Confidential fields -/

/-- C68: of a valid confidential field, `is_null`, `is_explicit` and `is_commitment` say what the
first byte written is: 0, 1, or one of the two commitment markers. -/
theorem C68_field {k : ConfKind} {sz : Nat} {a b : UInt8} (hk : ConfClass k sz a b) (c : Bytes)
    (hv : ValidField sz a b c) :
    (confIsNull c = true ↔ serConf c = [0])
    ∧ (confIsNull c = true ↔ (serConf c).head? = some 0)
    ∧ (confIsExplicit k c = true ↔ (serConf c).head? = some 1)
    ∧ (confIsCommitment k c = true ↔ (serConf c).head? = some a ∨ (serConf c).head? = some b) := by
  have hm : a ≠ 0 ∧ b ≠ 0 ∧ a ≠ 1 ∧ b ≠ 1 ∧ 1 < sz ∧ k.explicitSize = sz ∧ k.prefixA = a ∧ k.prefixB = b := by
    cases hk <;> exact ⟨by decide, by decide, by decide, by decide, by decide, rfl, rfl, rfl⟩
  obtain ⟨a0, b0, a1, b1, hsz, rfl, rfl, rfl⟩ := hm
  rcases hv with rfl | ⟨hl, hh⟩ | ⟨hl, hh⟩
  · refine ⟨by simp [confIsNull, serConf], by simp [confIsNull, serConf], ?_, ?_⟩
    · simp [confIsExplicit, serConf]
    · simp [confIsCommitment, serConf, a0.symm, b0.symm]
  · have e : serConf c = c := by rw [serConf, if_pos (by omega)]
    have n : confIsNull c = false := by rw [confIsNull, beq_eq_false_iff_ne]; omega
    rw [e, n, hh]
    refine ⟨?_, ?_, ?_, ?_⟩
    · simp only [Bool.false_eq_true, false_iff]
      rintro rfl
      cases hh
    · simp
    · simp [confIsExplicit, hl, hh]
    · simp [confIsCommitment, hh, a1.symm, b1.symm]
  · have e : serConf c = c := by rw [serConf, if_pos (by omega)]
    have n : confIsNull c = false := by rw [confIsNull, beq_eq_false_iff_ne]; omega
    rw [e, n]
    refine ⟨?_, ?_, ?_, ?_⟩
    · simp only [Bool.false_eq_true, false_iff]
      rintro rfl
      simp at hl
    · rcases hh with hh | hh <;> simp [hh, a0, b0]
    · rcases hh with hh | hh <;> simp [confIsExplicit, hh, a1, b1]
    · simp [confIsCommitment, hl, committedSize]

/-- Valid fields of the three kinds exist. -/
example : ValidField 9 8 9 [] ∧ ValidField 9 8 9 (1 :: List.replicate 8 7) ∧ ValidField 33 10 11 (11 :: List.replicate 32 7) :=
  ⟨Or.inl rfl, Or.inr (Or.inl ⟨by simp, rfl⟩), Or.inr (Or.inr ⟨by simp, Or.inr rfl⟩)⟩

/-! ### Outputs -/

/-- C68: an output is null exactly when it is written as four zero bytes. -/
theorem C68_null (o : TxOut) (w : Bytes) (hb : OutBuilt o) (h : serTxOut o = .ok w) :
    o.isNull = true ↔ NullOutWire w := by
  simp only [serTxOut, Except.bind_ok, Except.pure_ok] at h
  obtain ⟨s, h1, rfl⟩ := h
  obtain ⟨ba, bv, bn⟩ := hb
  have iff : o.isNull = true ↔ o.nAsset.length = 0 ∧ o.nValue.length = 0 ∧ o.nNonce.length = 0
      ∧ o.scriptPubKey.length = 0 := by
    simp only [TxOut.isNull, confIsNull, Bool.and_eq_true, beq_iff_eq, and_assoc]
  rw [iff, NullOutWire]
  constructor
  · rintro ⟨a, v, n, p⟩
    have hp := List.length_eq_zero_iff.1 p
    rw [hp] at h1
    cases h1
    rw [List.length_eq_zero_iff.1 a, List.length_eq_zero_iff.1 v, List.length_eq_zero_iff.1 n]
    rfl
  · intro e
    have hl := congrArg List.length e
    simp only [List.length_append, List.length_cons, List.length_nil] at hl
    have pa := conf_pos o.nAsset
    have pv := conf_pos o.nValue
    have pn := conf_pos o.nNonce
    have ps := varBytes_pos h1
    have ge : ∀ c : Bytes, c.length ≤ (serConf c).length := by
      intro c
      unfold serConf
      split <;> omega
    have ga := ge o.nAsset
    have gv := ge o.nValue
    have gn := ge o.nNonce
    omega

/-- C68: the wire form of a null output reads as a null output, whatever follows it. -/
theorem C68_null_read (rest : Bytes) :
    ∃ o, readTxOut ([0, 0, 0, 0] ++ rest) = .ok (o, rest) ∧ o.isNull = true ∧ o = ⟨[], [], [], []⟩ := by
  have e : TxOutEnc true ⟨[], [], [], []⟩ [0, 0, 0, 0] :=
    txOutEnc_iff.2 ⟨⟨Or.inl rfl, Or.inl rfl, Or.inl rfl, Nat.zero_le _⟩, rfl⟩
  exact ⟨_, Codec.readTxOut.reads.run (txOutEnc_relax e) rest, rfl, rfl⟩

/-- C68: an output is a fee exactly when its script is empty and both `to_asset` and `to_amount`
give an answer. -/
theorem C68_fee_answers (o : TxOut) :
    o.isFee = true ↔ o.scriptPubKey = [] ∧ (∃ a, assetToAsset o.nAsset = .ok a) ∧ ∃ v, valueToAmount o.nValue = .ok v := by
  simp only [TxOut.isFee, Bool.and_eq_true, beq_iff_eq, List.length_eq_zero_iff, and_assoc]
  have hv : confIsExplicit valueKind o.nValue = true ↔ ∃ v, valueToAmount o.nValue = .ok v := by
    unfold valueToAmount
    split
    · simp [*]
    · simp [*]
  have ha : confIsExplicit assetKind o.nAsset = true ↔ ∃ a, assetToAsset o.nAsset = .ok a := by
    unfold assetToAsset
    split
    · rename_i h
      have : (o.nAsset.drop 1).length = 32 := by
        simp only [confIsExplicit, Bool.and_eq_true, beq_iff_eq] at h
        rw [List.length_drop, h.1]; rfl
      rw [assetNew, if_pos this]
      simp [h]
    · simp [*]
  rw [hv, ha]
  exact ⟨fun h => ⟨h.1, h.2.2, h.2.1⟩, fun h => ⟨h.1, h.2.2, h.2.1⟩⟩

/-- C68: a well-formed output is a fee exactly when it is written as one: marker 1 and 32 bytes of
asset, marker 1 and 8 bytes of amount, any nonce, and a zero byte for the empty script. -/
theorem C68_fee (o : TxOut) (w : Bytes) (hw : WFOut o) (h : serTxOut o = .ok w) :
    o.isFee = true ↔ FeeOutWire w := by
  have iff : o.isFee = true ↔ o.scriptPubKey = [] ∧ (o.nValue.length = 9 ∧ o.nValue.head? = some 1)
      ∧ o.nAsset.length = 33 ∧ o.nAsset.head? = some 1 := by
    simp only [TxOut.isFee, confIsExplicit, Bool.and_eq_true, beq_iff_eq, List.length_eq_zero_iff, and_assoc,
      valueKind, assetKind]
  constructor
  · intro hf
    obtain ⟨hs, ⟨vl, vh⟩, al, ah⟩ := iff.1 hf
    obtain ⟨v, hv⟩ := List.head?_eq_some_iff.1 vh
    obtain ⟨a, ha⟩ := List.head?_eq_some_iff.1 ah
    rw [hv, List.length_cons] at vl
    rw [ha, List.length_cons] at al
    simp only [serTxOut, Except.bind_ok, Except.pure_ok] at h
    obtain ⟨s, h1, rfl⟩ := h
    rw [hs] at h1
    cases h1
    exact ⟨a, v, o.nNonce, serConf o.nNonce, by omega, by omega, nonceEnc_iff.2 ⟨hw.nonce, rfl⟩,
      by rw [hv, ha]; rfl⟩
  · rintro ⟨a, v, c, n, la, lv, hn, rfl⟩
    have e1 := txOutEnc_relax (txOutEnc_iff.2 ⟨hw, h⟩)
    have e2 : TxOutEnc false ⟨1 :: v, [], 1 :: a, c⟩ ((1 :: a) ++ (1 :: v) ++ n ++ [0]) :=
      ⟨_, _, _, _, Or.inr (Or.inl ⟨rfl, by simp [la], rfl⟩), Or.inr (Or.inl ⟨rfl, by simp [lv], rfl⟩), hn,
        ⟨[0], VarIntEnc.one rfl (by show 0 < 253; decide), Nat.zero_le _, rfl⟩, rfl⟩
    have := (Codec.readTxOut.reads.unique (r := []) (r' := []) e1 e2 rfl).1
    rw [this, TxOut.isFee, confIsExplicit, confIsExplicit]
    simp [la, lv, valueKind, assetKind]

/-- No output is both null and a fee. -/
theorem C68_exclusive (o : TxOut) (h : o.isFee = true) : o.isNull = false := by
  obtain ⟨_, _, v, hv⟩ := (C68_fee_answers o).1 h
  cases hn : o.isNull with
  | false => rfl
  | true =>
    simp only [TxOut.isNull, confIsNull, Bool.and_eq_true, beq_iff_eq, List.length_eq_zero_iff] at hn
    rw [hn.1.1.2] at hv
    cases hv

/-- Null, fee and ordinary outputs that meet the hypotheses. -/
example :
    let fee : TxOut := ⟨1 :: List.replicate 8 5, [], 1 :: List.replicate 32 7, []⟩
    let plain : TxOut := ⟨1 :: List.replicate 8 5, [0x51], 1 :: List.replicate 32 7, 2 :: List.replicate 32 9⟩
    OutBuilt fee ∧ OutBuilt plain ∧ OutBuilt ⟨[], [], [], []⟩ ∧ fee.isFee = true ∧ plain.isFee = false
      ∧ plain.isNull = false ∧ (TxOut.mk [] [] [] []).isNull = true
      ∧ (TxOut.mk [] [] [] (2 :: List.replicate 32 9)).isNull = false := by
  refine ⟨?_, ?_, ?_, rfl, rfl, rfl, rfl, rfl⟩ <;> simp [OutBuilt]

/-! ### Witnesses -/

/-- C68: the witness of an input is null exactly when it is written with zero bytes only. -/
theorem C68_in_witness (x : TxInWitness) (w : Bytes) (h : serTxInWitness x = .ok w) :
    x.isNull = true ↔ Blank w := by
  simp only [serTxInWitness, Except.bind_ok, Except.pure_ok] at h
  obtain ⟨a, h1, k, h2, s, h3, p, h4, rfl⟩ := h
  rw [blank_append, blank_append, blank_append, blank_varBytes h1, blank_varBytes h2, blank_stack h3,
    blank_stack h4]
  simp only [TxInWitness.isNull, Bool.and_eq_true, beq_iff_eq, List.length_eq_zero_iff]

/-- C68: the witness of an output is null exactly when it is written with zero bytes only. -/
theorem C68_out_witness (x : TxOutWitness) (w : Bytes) (h : serTxOutWitness x = .ok w) :
    x.isNull = true ↔ Blank w := by
  simp only [serTxOutWitness, Except.bind_ok, Except.pure_ok] at h
  obtain ⟨s, h1, r, h2, rfl⟩ := h
  rw [blank_append, blank_varBytes h1, blank_varBytes h2]
  simp only [TxOutWitness.isNull, Bool.and_eq_true, beq_iff_eq, List.length_eq_zero_iff]

/-- C68: the witness of a transaction is null exactly when it is written with zero bytes only. -/
theorem C68_witness (x : TxWitness) (w : Bytes) (h : serTxWitness x = .ok w) :
    x.isNull = true ↔ Blank w := by
  simp only [serTxWitness, Except.bind_ok, Except.pure_ok] at h
  obtain ⟨i, h1, o, h2, rfl⟩ := h
  rw [blank_append, blank_serN (fun x b hb => (C68_in_witness x b hb).symm) h1,
    blank_serN (fun x b hb => (C68_out_witness x b hb).symm) h2]
  simp only [TxWitness.isNull, Bool.and_eq_true]

example : serTxWitness ⟨[{}], [{}]⟩ = .ok [0, 0, 0, 0, 0, 0]
    ∧ serTxWitness ⟨[⟨[[]], [], [], []⟩], [{}]⟩ = .ok [0, 0, 1, 0, 0, 0, 0] := ⟨rfl, rfl⟩

/-! ### Issuances -/

/-- C68: an issuance is null exactly when its wire form ends, after the 64 bytes of nonce and
entropy, with two absent values. -/
theorem C68_issuance (i : Issuance) (hn : i.assetBlindingNonce.length = 32) (he : i.assetEntropy.length = 32) :
    i.isNull = true ∧ NullIssuanceWire (serIssuance i)
      ∨ i.isNull = false ∧ (ValidField 9 8 9 i.nAmount → ValidField 9 8 9 i.nInflationKeys →
          ¬ NullIssuanceWire (serIssuance i)) := by
  have hd : (serIssuance i).drop 64 = serConf i.nAmount ++ serConf i.nInflationKeys := by
    rw [serIssuance, List.append_assoc (i.assetBlindingNonce ++ i.assetEntropy), List.drop_left']
    rw [List.length_append, hn, he]
  cases hnull : i.isNull with
  | true =>
    left
    obtain ⟨ha, hk⟩ := Issuance.isNull_iff.1 hnull
    refine ⟨rfl, ?_, by rw [hd, ha, hk]; rfl⟩
    rw [serIssuance, ha, hk]
    simp [serConf, hn, he]
  | false =>
    right
    refine ⟨rfl, fun va vk h => ?_⟩
    rw [NullIssuanceWire, hd] at h
    have hl := congrArg List.length h.2
    have : ¬ NoIssue i := Issuance.isNull_false.1 hnull
    apply this
    have len : ∀ c : Bytes, ValidField 9 8 9 c → c = [] ∨ 9 ≤ (serConf c).length := by
      rintro c (rfl | ⟨h1, _⟩ | ⟨h1, _⟩)
      · exact Or.inl rfl
      · right; rw [serConf, if_pos (by omega)]; omega
      · right; rw [serConf, if_pos (by omega)]; omega
    simp only [List.length_append, List.length_cons, List.length_nil] at hl
    have pa := conf_pos i.nAmount
    have pk := conf_pos i.nInflationKeys
    constructor
    · rcases len _ va with h | h
      · exact h
      · omega
    · rcases len _ vk with h | h
      · exact h
      · omega

example : ∃ i : Issuance, i.assetBlindingNonce.length = 32 ∧ i.assetEntropy.length = 32 ∧ i.isNull = false
    ∧ ValidField 9 8 9 i.nAmount ∧ ValidField 9 8 9 i.nInflationKeys :=
  ⟨⟨List.replicate 32 0, List.replicate 32 0, [], 1 :: List.replicate 8 0⟩, by simp, by simp, rfl, Or.inl rfl,
    Or.inr (Or.inl ⟨by simp, rfl⟩)⟩

end Verif
