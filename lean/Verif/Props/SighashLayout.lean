import Verif.Spec.SighashLayout
import Verif.Props.SighashBase
import Verif.Props.SighashTapArgs
/-
C48, C49: the digests are hashes of the strings laid out in Spec/SighashLayout.
-/
namespace Verif
open Spec

/-! ### Pieces -/

theorem seqEnc_serN {α β : Type} {E : β → Bytes → Prop} {g : α → β} {f : α → Except PyErr Bytes} {xs : List α} {b : Bytes}
    (h : ∀ x ∈ xs, ∀ w, E (g x) w ↔ f x = .ok w) : SeqEnc E (xs.map g) b ↔ serN f xs = .ok b := by
  induction xs generalizing b with
  | nil =>
    simp only [serN, Except.ok.injEq, List.map_nil]
    constructor
    · intro h; cases h; rfl
    · rintro rfl; exact .nil
  | cons x xs ih =>
    have ih := fun b => @ih b (fun y hy => h y (List.mem_cons_of_mem _ hy))
    rw [serN_cons, List.map_cons]
    constructor
    · intro h'
      cases h' with
      | cons h1 h2 => exact ⟨_, _, (h x List.mem_cons_self _).1 h1, (ih _).1 h2, rfl⟩
    · rintro ⟨a, c, h1, h2, rfl⟩
      exact .cons ((h x List.mem_cons_self _).2 h1) ((ih _).2 h2)

theorem outPointEnc_iff {o : OutPoint} {w : Bytes} : OutPointEnc o w ↔ serOutPoint o = .ok w := by
  rw [serOutPoint_ok]
  unfold OutPointEnc RawEnc
  constructor
  · rintro ⟨_, x, ⟨rfl, h1⟩, h2, rfl⟩; exact ⟨h1, x, h2, rfl⟩
  · rintro ⟨h1, x, h2, rfl⟩; exact ⟨_, x, ⟨rfl, h1⟩, h2, rfl⟩

theorem bytesEncMin_iff {s w : Bytes} (h : s.length ≤ maxItem) : BytesEnc VarIntMin s w ↔ serVarBytes s = .ok w := by
  have := bytesMin_iff (s := s) (w := w)
  rw [len_true] at this
  rw [this]; simp [h]

theorem issuanceEnc_wf {i : Issuance} {w : Bytes} (h : WFIssuance i) : IssuanceEnc i w ↔ w = serIssuance i := by
  rw [issuanceEnc_iff]
  exact ⟨fun h => h.2, fun e => ⟨⟨h.nonce, h.entropy, h.amount, h.keys⟩, e⟩⟩

theorem issuanceOrZero_iff {i : Issuance} {w : Bytes} (h : WFIssuance i) :
    IssuanceOrZero i w ↔ w = issuanceOrZero i := by
  unfold IssuanceOrZero issuanceOrZero
  rw [issuanceEnc_wf h]
  by_cases hn : NoIssue i
  · rw [if_pos (Issuance.isNull_iff.2 hn)]; simp [hn]
  · rw [if_neg (by simp [Issuance.isNull_false.2 hn])]; simp [hn]

theorem issuanceOrNothing_iff {i : Issuance} {w : Bytes} (h : WFIssuance i) :
    IssuanceOrNothing i w ↔ w = issSigned i := by
  unfold IssuanceOrNothing issSigned
  rw [issuanceEnc_wf h]
  by_cases hn : NoIssue i
  · rw [if_neg (by simp [Issuance.isNull_iff.2 hn])]; simp [hn]
  · rw [if_pos (by simp [Issuance.isNull_false.2 hn])]; simp [hn]

theorem txOutEnc_wf_iff {o : TxOut} {w : Bytes} (h : WFOut o) : TxOutEnc true o w ↔ serTxOut o = .ok w := by
  rw [txOutEnc_iff]; simp [h]

theorem txOutWitnessEnc_wf_iff {x : TxOutWitness} {w : Bytes} (h : WFOutWitness x) :
    TxOutWitnessEnc true x w ↔ serTxOutWitness x = .ok w := by
  rw [txOutWitnessEnc_iff]; simp [h]

theorem prevoutsEnc_iff {vin : List TxIn} {w : Bytes} :
    SeqEnc OutPointEnc (vin.map (·.prevout)) w ↔ serN (fun i : TxIn => serOutPoint i.prevout) vin = .ok w :=
  seqEnc_serN fun _ _ _ => outPointEnc_iff

theorem sequencesEnc_iff {vin : List TxIn} {w : Bytes} :
    SeqEnc (UIntEnc 4) (vin.map (·.nSequence)) w ↔ serN (fun i : TxIn => packU 4 i.nSequence) vin = .ok w :=
  seqEnc_serN fun _ _ _ => packU_iff.symm

theorem issuancesEnc_iff {vin : List TxIn} {w : Bytes} (h : ∀ i ∈ vin, WFIn i) :
    SeqEnc IssuanceOrZero (vin.map (·.assetIssuance)) w ↔
      w = (vin.map fun i => issuanceOrZero i.assetIssuance).flatten := by
  rw [seqEnc_serN (f := fun i : TxIn => .ok (issuanceOrZero i.assetIssuance)), serN_pure]
  · simp [eq_comm]
  · intro i hi w
    rw [issuanceOrZero_iff (h i hi).iss]; simp [eq_comm]

theorem outputsEnc_iff {vout : List TxOut} {w : Bytes} (h : ∀ o ∈ vout, WFOut o) :
    SeqEnc (TxOutEnc true) vout w ↔ serN serTxOut vout = .ok w := by
  have := seqEnc_serN (g := id) (E := TxOutEnc true) (f := serTxOut) (xs := vout) (b := w)
    (fun o ho w => txOutEnc_wf_iff (h o ho))
  rwa [List.map_id] at this

theorem outWitnessesEnc_iff {xs : List TxOutWitness} {w : Bytes} (h : ∀ o ∈ xs, WFOutWitness o) :
    SeqEnc (TxOutWitnessEnc true) xs w ↔ serN serTxOutWitness xs = .ok w := by
  have := seqEnc_serN (g := id) (E := TxOutWitnessEnc true) (f := serTxOutWitness) (xs := xs) (b := w)
    (fun o ho w => txOutWitnessEnc_wf_iff (h o ho))
  rwa [List.map_id] at this

/-! ### Segwit v0 -/

theorem hashedIf_part (h : HashFn) {c : Prop} {E : Bytes → Prop} {x : Except PyErr Bytes} {w : Bytes}
    (hE : ∀ b, c → (E b ↔ x = .ok b)) {y : Except PyErr (Option Bytes)} (h1 : c → y = x.map some) (h2 : ¬ c → y = .ok none) :
    HashedIf h.dbl c E w ↔ ∃ p, y = .ok p ∧ w = partHash h p := by
  unfold HashedIf
  by_cases hc : c
  · rw [h1 hc]
    simp only [hc, true_and, not_true, false_and, or_false, Except.map_ok]
    constructor
    · rintro ⟨b, hb, rfl⟩; exact ⟨some b, ⟨b, (hE b hc).1 hb, rfl⟩, rfl⟩
    · rintro ⟨_, ⟨b, hb, rfl⟩, rfl⟩; exact ⟨b, (hE b hc).2 hb, rfl⟩
  · rw [h2 hc]
    simp only [hc, false_and, not_false_eq_true, true_and, false_or, Except.ok.injEq]
    constructor
    · rintro rfl; exact ⟨none, rfl, rfl⟩
    · rintro ⟨_, rfl, rfl⟩; rfl

theorem v0Prevouts_enc (h : HashFn) {tx : Tx} {ht : Nat} {w : Bytes} :
    HashedIf h.dbl (¬ AnyoneCanPay ht) (SeqEnc OutPointEnc (tx.vin.map (·.prevout))) w ↔
      ∃ p, v0Prevouts tx ht = .ok p ∧ w = partHash h p := by
  refine hashedIf_part h (fun b _ => prevoutsEnc_iff) ?_ ?_
  · intro ha; unfold v0Prevouts; simp [(not_true_iff_false htAcp_iff).2 ha]
  · intro ha; unfold v0Prevouts; simp [htAcp_iff.2 (Decidable.not_not.1 ha)]

theorem v0Issuance_enc (h : HashFn) {tx : Tx} {ht : Nat} {w : Bytes} (hw : ∀ i ∈ tx.vin, WFIn i) :
    HashedIf h.dbl (¬ AnyoneCanPay ht) (SeqEnc IssuanceOrZero (tx.vin.map (·.assetIssuance))) w ↔
      w = partHash h (v0Issuance tx ht) := by
  rw [hashedIf_part h (x := .ok (tx.vin.map fun i => issuanceOrZero i.assetIssuance).flatten)
    (y := .ok (v0Issuance tx ht))]
  · simp
  · intro b _; rw [issuancesEnc_iff hw]; simp [eq_comm]
  · intro ha; unfold v0Issuance; simp [(not_true_iff_false htAcp_iff).2 ha, Except.map]
  · intro ha; unfold v0Issuance; simp [htAcp_iff.2 (Decidable.not_not.1 ha)]

theorem v0Sequence_enc (h : HashFn) {tx : Tx} {ht : Nat} {w : Bytes} :
    HashedIf h.dbl (¬ AnyoneCanPay ht ∧ OutAll ht) (SeqEnc (UIntEnc 4) (tx.vin.map (·.nSequence))) w ↔
      ∃ p, v0Sequence tx ht = .ok p ∧ w = partHash h p := by
  refine hashedIf_part h (fun b _ => sequencesEnc_iff) ?_ ?_
  · rintro ⟨ha, hn, hs⟩
    unfold v0Sequence
    simp [(not_true_iff_false htAcp_iff).2 ha, (not_true_iff_false htNone_iff).2 hn, (not_true_iff_false htSingle_iff).2 hs]
  · intro hc
    unfold v0Sequence
    rw [if_neg]
    intro hb
    simp only [Bool.and_eq_true, Bool.not_eq_true'] at hb
    exact hc ⟨(not_true_iff_false htAcp_iff).1 hb.1.1, (not_true_iff_false htNone_iff).1 hb.2,
      (not_true_iff_false htSingle_iff).1 hb.1.2⟩

theorem outAll_or (ht : Nat) : OutAll ht ∨ OutSingle ht ∨ (OutNone ht ∧ ¬ OutSingle ht) := by
  unfold OutAll OutSingle OutNone; omega

theorem v0Outputs_enc (h : HashFn) {tx : Tx} {idx ht : Nat} {w : Bytes} (hw : ∀ o ∈ tx.vout, WFOut o) :
    HashedIf h.dbl (OutAll ht ∨ OutSingle ht ∧ idx < tx.vout.length)
      (SeqEnc (TxOutEnc true) (v0HashedOutputs tx.vout idx ht)) w ↔
      ∃ p, v0Outputs tx idx ht = .ok p ∧ w = partHash h p := by
  rcases outAll_or ht with ha | hs | ⟨hn, hns⟩
  · refine hashedIf_part h (x := serN serTxOut tx.vout) ?_ ?_ ?_
    · intro b _
      unfold v0HashedOutputs
      rw [if_neg ha.2]; exact outputsEnc_iff hw
    · intro _
      unfold v0Outputs
      simp [(not_true_iff_false htNone_iff).2 ha.1, (not_true_iff_false htSingle_iff).2 ha.2]
    · intro hc; exact absurd (Or.inl ha) hc
  · by_cases hi : idx < tx.vout.length
    · have hg : tx.vout[idx]? = some tx.vout[idx] := List.getElem?_eq_getElem hi
      have hwo := hw _ (List.getElem_mem hi)
      refine hashedIf_part h (x := serTxOut tx.vout[idx]) ?_ ?_ ?_
      · intro b _
        unfold v0HashedOutputs
        rw [if_pos hs, hg]
        rw [show (some tx.vout[idx]).toList = [tx.vout[idx]] from rfl, outputsEnc_iff (by simpa using hwo), serN_cons]
        simp [serN]
      · intro _
        unfold v0Outputs
        rw [if_neg (by simp [htSingle_iff.2 hs]), if_pos (by simp [htSingle_iff.2 hs, hi]), pyGet_nat_ok.2 hg]
        rfl
      · intro hc; exact absurd (Or.inr ⟨hs, hi⟩) hc
    · refine hashedIf_part h (x := .error .valueError) ?_ ?_ ?_
      · rintro b (hc | hc)
        · exact absurd hs hc.2
        · exact absurd hc.2 hi
      · rintro (hc | hc)
        · exact absurd hs hc.2
        · exact absurd hc.2 hi
      · intro _
        unfold v0Outputs
        rw [if_neg (by simp [htSingle_iff.2 hs]), if_neg (by simp [hi])]
  · refine hashedIf_part h (x := .error .valueError) ?_ ?_ ?_
    · rintro b (hc | hc)
      · exact absurd hn hc.1
      · exact absurd hc.1 hns
    · rintro (hc | hc)
      · exact absurd hn hc.1
      · exact absurd hc.1 hns
    · intro _
      unfold v0Outputs
      rw [if_neg (by simp [htNone_iff.2 hn]), if_neg (by simp [(not_true_iff_false htSingle_iff).2 hns])]

/-- The hashed string is the layout with the raw bytes of the amount object. -/
theorem v0_layout (h : HashFn) {script : Bytes} {tx : Tx} {idx ht : Nat} {amount : Bytes} (hw : WFTx tx)
    (hs : script.length ≤ maxItem) (hl : tx.nLockTime < 2147483648) (d : Bytes) :
    sighashV0 h script tx idx ht (some amount) = .ok d ↔
      ∃ w, V0LayoutWith h.dbl script tx idx ht amount w ∧ d = h.dbl w := by
  rw [sighashV0_ok]
  have hlock : ∀ l, UIntEnc 4 tx.nLockTime l ↔ packS 4 (tx.nLockTime : Int) = .ok l := by
    intro l
    rw [packS_iff]
    unfold UIntEnc SIntEnc
    constructor
    · rintro ⟨h1, h2⟩; exact ⟨h1, Or.inl (by omega)⟩
    · rintro ⟨h1, h2 | h2⟩
      · exact ⟨h1, by omega⟩
      · exfalso
        have h3 := leVal_lt l
        rw [h1] at h3
        omega
  unfold V0LayoutWith
  simp only [v0Prevouts_enc, v0Sequence_enc, v0Issuance_enc h hw.vin, v0Outputs_enc h hw.vout, outPointEnc_iff,
    bytesEncMin_iff hs, ← packS_iff, ← packU_iff (n := TxIn.nSequence _), hlock]
  constructor
  · rintro ⟨p, pre, hp, hpre, rfl⟩
    obtain ⟨v, i, o, s, q, l, t, h1, h2, h3, h4, h5, h6, h7, rfl⟩ := v0Preimage_ok.1 hpre
    unfold v0Parts at hp
    simp only [Except.bind_ok, Except.pure_ok] at hp
    obtain ⟨pp, hpp, ps, hps, po, hpo, rfl⟩ := hp
    have hi := pyGet_nat_ok.1 h2
    refine ⟨_, ⟨v, _, _, _, i, o, s, q, _, _, l, t, h1, ⟨pp, hpp, rfl⟩, ⟨ps, hps, rfl⟩, rfl, hi, h3, h4, h5,
      (issuanceOrNothing_iff (hw.vin i (List.mem_of_getElem? hi)).iss).2 rfl, ⟨po, hpo, rfl⟩, h6, h7, rfl⟩, ?_⟩
    simp only [List.append_assoc]
  · rintro ⟨_, ⟨v, _, _, _, i, o, s, q, iss, _, l, t, h1, ⟨pp, hpp, rfl⟩, ⟨ps, hps, rfl⟩, rfl, hi, h3, h4, h5, h8,
      ⟨po, hpo, rfl⟩, h6, h7, rfl⟩, rfl⟩
    obtain rfl := (issuanceOrNothing_iff (hw.vin i (List.mem_of_getElem? hi)).iss).1 h8
    have hp : v0Parts tx idx ht = .ok ⟨pp, v0Issuance tx ht, ps, po⟩ := by
      unfold v0Parts; rw [hpp, hps, hpo]; rfl
    refine ⟨_, _, hp, v0Preimage_ok.2 ⟨v, i, o, s, q, l, t, h1, pyGet_nat_ok.2 hi, h3, h4, h5, h6, h7, rfl⟩, ?_⟩
    simp only [List.append_assoc]

/-- C48 as one would want it: on every transaction that fits on the wire, the digest of
`RawElementsSignatureHash` is the double hash of the defined string, and there is one exactly
when the string is defined. -/
def C48_statement : Prop :=
  ∀ (h : HashFn) (script : Bytes) (tx : Tx) (idx ht : Nat) (amount d : Bytes), WFTx tx → script.length ≤ maxItem →
    ValidField 9 8 9 amount →
    (rawSighash h script tx idx ht (some amount) .witnessV0 = .ok (d, false) ↔ V0Digest h.dbl script tx idx ht amount d)

/-- C48 for lock times below 2^31 and amounts that are not null.  Missing: lock times from
2^31 on, which raise (`C48_statement_false`), and the null amount, for which a byte is missing
(`C48_null_amount`). -/
theorem C48_v0_layout_partial (h : HashFn) {script : Bytes} {tx : Tx} (idx ht : Nat) {amount : Bytes} (hw : WFTx tx)
    (hs : script.length ≤ maxItem) (ha : ValidField 9 8 9 amount) (hn : amount ≠ []) (hl : tx.nLockTime < 2147483648)
    (d : Bytes) :
    rawSighash h script tx idx ht (some amount) .witnessV0 = .ok (d, false) ↔ V0Digest h.dbl script tx idx ht amount d := by
  have e : rawSighash h script tx idx ht (some amount) .witnessV0 = .ok (d, false) ↔
      sighashV0 h script tx idx ht (some amount) = .ok d := by
    show (sighashV0 h script tx idx ht (some amount)).map (·, false) = .ok (d, false) ↔ _
    rw [Except.map_ok]
    constructor
    · rintro ⟨a, h1, h2⟩; cases h2; exact h1
    · intro h1; exact ⟨d, h1, rfl⟩
  rw [e, v0_layout h hw hs hl]
  have hv : ∀ a, ValueEnc amount a ↔ a = amount := by
    intro a
    rw [valueEnc_iff]
    have : serConf amount = amount := by unfold serConf; simp [hn]
    rw [this]; simp [ha]
  unfold V0Digest
  simp only [hv]
  constructor
  · rintro ⟨w, h1, h2⟩; exact ⟨_, w, rfl, h1, h2⟩
  · rintro ⟨_, w, rfl, h1, h2⟩; exact ⟨w, h1, h2⟩

/-- C48, exactly: for an amount that is not null the digest of the code is that of the defined string, and there is one if and only if
the string is defined and the lock time is below 2^31. -/
theorem C48_exact (h : HashFn) {script : Bytes} {tx : Tx} (idx ht : Nat) {amount : Bytes} (hw : WFTx tx)
    (hs : script.length ≤ maxItem) (ha : ValidField 9 8 9 amount) (hn : amount ≠ []) (d : Bytes) :
    rawSighash h script tx idx ht (some amount) .witnessV0 = .ok (d, false) ↔
      tx.nLockTime < 2147483648 ∧ V0Digest h.dbl script tx idx ht amount d := by
  by_cases hl : tx.nLockTime < 2147483648
  · rw [C48_v0_layout_partial h idx ht hw hs ha hn hl d]; simp [hl]
  · refine ⟨fun e => ?_, fun e => absurd e.1 hl⟩
    have e : (sighashV0 h script tx idx ht (some amount)).map (·, false) = .ok (d, false) := e
    obtain ⟨a, h1, -⟩ := Except.map_ok.1 e
    obtain ⟨p, pre, -, h2, -⟩ := sighashV0_ok.1 h1
    obtain ⟨v, i, o, s, q, l, t, -, h3, -⟩ := v0Preimage_ok.1 h2
    obtain ⟨hi, -⟩ := List.getElem?_eq_some_iff.1 (pyGet_nat_ok.1 h3)
    rw [C15_locktime_raises h script tx idx ht amount hw hi hs (by omega)] at h1
    cases h1

/-- The layout exists for every input of a transaction that fits on the wire. -/
theorem v0Digest_exists (h : HashFn) {script : Bytes} {tx : Tx} {idx ht : Nat} {amount : Bytes} (hw : WFTx tx)
    (hs : script.length ≤ maxItem) (ha : ValidField 9 8 9 amount) (hi : idx < tx.vin.length) (hht : ht < 256) :
    ∃ d, V0Digest h.dbl script tx idx ht amount d := by
  have hw' : WFTx { tx with nLockTime := 0 } :=
    ⟨hw.version, by simp, hw.nin, hw.nout, hw.vin, hw.vout, hw.witin, hw.witout, hw.vtxinwit, hw.vtxoutwit⟩
  obtain ⟨d, hd⟩ := C15_total_partial h script { tx with nLockTime := 0 } idx ht (serConf amount) hw' hi hht hs (by simp)
  obtain ⟨w, ⟨v, hp, hq, hi, i, p, c, q, iss, ho, l, t, h1, h2, h3, h4, h5, h6, h7, h8, h9, h10, h11, h12, rfl⟩, rfl⟩ :=
    (v0_layout h hw' hs (by simp) d).1 hd
  exact ⟨_, _, _, valueEnc_iff.2 ⟨ha, rfl⟩, ⟨v, hp, hq, hi, i, p, c, q, iss, ho, leBytes 4 tx.nLockTime, t, h1, h2, h3, h4, h5,
    h6, h7, h8, h9, h10, uintEnc_leBytes (by have := hw.locktime; omega), h12, rfl⟩, rfl⟩

/-- C48 does not hold as stated: a lock time from 2^31 on has a digest which the code does not
compute. -/
theorem C48_statement_false : ¬ C48_statement := by
  intro hall
  have ha : ValidField 9 8 9 [1, 0, 0, 0, 0, 0, 0, 0, 9] := Or.inr (Or.inl ⟨rfl, rfl⟩)
  obtain ⟨d, hd⟩ := v0Digest_exists constHash (script := []) (idx := 0) (ht := 1) sampleTx_wf (by decide) ha (by decide) (by decide)
  have := (hall constHash [] sampleTx 0 1 _ d sampleTx_wf (by decide) ha).2 hd
  have e : rawSighash constHash [] sampleTx ((0 : Nat) : Int) 1 (some [1, 0, 0, 0, 0, 0, 0, 0, 9]) .witnessV0 =
      (sighashV0 constHash [] sampleTx ((0 : Nat) : Int) 1 (some [1, 0, 0, 0, 0, 0, 0, 0, 9])).map (·, false) := rfl
  rw [e, C15_locktime_raises constHash [] sampleTx 0 1 _ sampleTx_wf (by decide) (by decide) (by decide)] at this
  cases this

/-- C48: with a null amount the code hashes the layout without the zero byte that stands for a
null amount, which is one byte shorter than the defined string. -/
theorem C48_null_amount (h : HashFn) {script : Bytes} {tx : Tx} {idx ht : Nat} (hw : WFTx tx)
    (hs : script.length ≤ maxItem) (hl : tx.nLockTime < 2147483648) {d : Bytes}
    (e : rawSighash h script tx idx ht (some []) .witnessV0 = .ok (d, false)) :
    ∃ w w', d = h.dbl w ∧ V0LayoutWith h.dbl script tx idx ht [0] w' ∧ V0Digest h.dbl script tx idx ht [] (h.dbl w') ∧
      w'.length = w.length + 1 := by
  have e : (sighashV0 h script tx idx ht (some [])).map (·, false) = .ok (d, false) := e
  rw [Except.map_ok] at e
  obtain ⟨a, h0, h2⟩ := e
  cases h2
  obtain ⟨w, ⟨v, hp, hq, hi, i, p, c, q, iss, ho, l, t, h1, h2, h3, h4, h5, h6, h7, h8, h9, h10, h11, h12, rfl⟩, rfl⟩ :=
    (v0_layout h hw hs hl d).1 h0
  have hlay : V0LayoutWith h.dbl script tx idx ht [0] (v ++ hp ++ hq ++ hi ++ p ++ c ++ [0] ++ q ++ iss ++ ho ++ l ++ t) :=
    ⟨v, hp, hq, hi, i, p, c, q, iss, ho, l, t, h1, h2, h3, h4, h5, h6, h7, h8, h9, h10, h11, h12, rfl⟩
  exact ⟨_, _, rfl, hlay, ⟨_, _, Or.inl ⟨rfl, rfl⟩, hlay, rfl⟩, by simp; omega⟩

/-- C48 is not vacuous: a transaction with an issuance, a peg-in and witnesses. -/
example (h : HashFn) (idx ht : Nat) (hi : idx < 2) (hht : ht < 256) : ∃ d,
    rawSighash h [0x51, 0x52] sampleTxLow idx ht (some [1, 0, 0, 0, 0, 0, 0, 0, 9]) .witnessV0 = .ok (d, false) ∧
      V0Digest h.dbl [0x51, 0x52] sampleTxLow idx ht [1, 0, 0, 0, 0, 0, 0, 0, 9] d := by
  have ha : ValidField 9 8 9 [1, 0, 0, 0, 0, 0, 0, 0, 9] := Or.inr (Or.inl ⟨rfl, rfl⟩)
  have hs : ([0x51, 0x52] : Bytes).length ≤ maxItem := by decide
  obtain ⟨d, hd⟩ := v0Digest_exists h (script := [0x51, 0x52]) (idx := idx) (ht := ht) sampleTxLow_wf hs ha
    (by simpa [sampleTxLow, sampleTx] using hi) hht
  exact ⟨d, (C48_v0_layout_partial h idx ht sampleTxLow_wf hs ha (by decide) (by decide) d).2 hd, hd⟩

/-! ### Taproot -/

theorem flagEnc_iff {i : TxIn} {w : Bytes} : FlagEnc i w ↔ w = outpointFlag i := by
  unfold FlagEnc outpointFlag
  have key : ∀ (a b : Bool),
      UInt8.ofNat ((if b then (if !a then 0 ||| OUTPOINT_ISSUANCE_FLAG else 0) ||| OUTPOINT_PEGIN_FLAG
        else if !a then 0 ||| OUTPOINT_ISSUANCE_FLAG else 0) >>> 24) =
      UInt8.ofNat ((if a then 0 else 128) + if b then 64 else 0) := by decide
  have hn : (if NoIssue i.assetIssuance then 0 else 128) = if i.assetIssuance.isNull then 0 else 128 := by
    by_cases h : NoIssue i.assetIssuance
    · simp [h, Issuance.isNull_iff.2 h]
    · simp [h, Issuance.isNull_false.2 h]
  simp only [hn, key]
  constructor
  · rintro ⟨b, rfl, hb⟩; rw [u8_eq_of_toNat hb]
  · rintro rfl
    refine ⟨_, rfl, ?_⟩
    cases i.assetIssuance.isNull <;> cases i.isPegin <;> rfl

theorem proofsEnc_iff {x : TxInWitness} {w : Bytes} (h : WFInWitness x) : ProofsEnc x w ↔ serProofs x = .ok w := by
  unfold ProofsEnc serProofs
  simp only [bytesEncMin_iff h.amount, bytesEncMin_iff h.keys, Except.bind_ok, Except.pure_ok]
  constructor
  · rintro ⟨a, k, h1, h2, rfl⟩; exact ⟨a, h1, k, h2, rfl⟩
  · rintro ⟨a, h1, k, h2, rfl⟩; exact ⟨a, k, h1, h2, rfl⟩

theorem tapInputs_iff {tx : Tx} {spent : List TxOut} (hw : WFTx tx) {q : TapInputs} :
    tapInputs tx spent = .ok q ↔
    q.flags = (tx.vin.map outpointFlag).flatten ∧ serN (fun i : TxIn => serOutPoint i.prevout) tx.vin = .ok q.prevouts ∧
    q.assets = (spent.map fun o => serConf o.nAsset ++ serConf o.nValue).flatten ∧
    serN (fun o : TxOut => serVarBytes o.scriptPubKey) spent = .ok q.scripts ∧
    serN (fun i : TxIn => packU 4 i.nSequence) tx.vin = .ok q.sequences ∧
    q.issuances = (tx.vin.map fun i => issuanceOrZero i.assetIssuance).flatten ∧
    serN serProofs tx.wit.vtxinwit = .ok q.proofs := by
  have htake : tx.wit.vtxinwit.take tx.vin.length = tx.wit.vtxinwit := by rw [← hw.witin]; simp
  constructor
  · intro h
    obtain ⟨h1, h2, h3, h4, h5, h6, _, h8⟩ := tapInputs_ok h
    rw [serN_pure] at h3
    rw [htake] at h8
    exact ⟨h1, h2, (Except.ok.inj h3).symm, h4, h5, h6, h8⟩
  · rintro ⟨h1, h2, h3, h4, h5, h6, h8⟩
    obtain ⟨z, hz⟩ := zipWit_exists (xs := tx.vin) (ys := tx.wit.vtxinwit) (by rw [hw.witin]; exact Nat.le_refl _)
    have hz2 := (zipWit_ok hz).2
    rw [htake] at hz2
    have h8' : serN (fun p : TxIn × TxInWitness => do
        let a ← serVarBytes p.2.issuanceAmountRangeproof
        let k ← serVarBytes p.2.inflationKeysRangeproof
        return a ++ k) z = .ok q.proofs := by
      rw [← h8, ← hz2, serN_map]; rfl
    unfold tapInputs
    simp only [h2, h4, h5, hz, ok_bind]
    rw [h8']
    cases q
    simp only at h1 h3 h6
    subst h1 h3 h6
    rfl

theorem tapInputsEnc_iff (h : HashFn) {tx : Tx} {spent : List TxOut} (hw : WFTx tx) (hs : ∀ o ∈ spent, WFOut o) (w : Bytes) :
    TapInputsEnc h.fn tx spent w ↔ ∃ q, tapInputs tx spent = .ok q ∧ w = q.bytes h := by
  have e1 : ∀ f, SeqEnc FlagEnc tx.vin f ↔ f = (tx.vin.map outpointFlag).flatten := by
    intro f
    have := seqEnc_serN (g := id) (E := FlagEnc) (f := fun i => .ok (outpointFlag i)) (xs := tx.vin) (b := f)
      (fun i _ w => by rw [id, flagEnc_iff]; simp [eq_comm])
    rw [List.map_id, serN_pure] at this
    rw [this]; simp [eq_comm]
  have e2 : ∀ a, SeqEnc (fun o : TxOut => Cat (AssetEnc o.nAsset) (ValueEnc o.nValue)) spent a ↔
      a = (spent.map fun o => serConf o.nAsset ++ serConf o.nValue).flatten := by
    intro a
    have := seqEnc_serN (g := id) (E := fun o : TxOut => Cat (AssetEnc o.nAsset) (ValueEnc o.nValue))
      (f := fun o => .ok (serConf o.nAsset ++ serConf o.nValue)) (xs := spent) (b := a)
      (fun o ho w => by
        simp only [id, Cat, assetEnc_iff, valueEnc_iff]
        constructor
        · rintro ⟨_, _, ⟨_, rfl⟩, ⟨_, rfl⟩, rfl⟩; rfl
        · intro e; cases e; exact ⟨_, _, ⟨(hs o ho).asset, rfl⟩, ⟨(hs o ho).value, rfl⟩, rfl⟩)
    rw [List.map_id, serN_pure] at this
    rw [this]; simp [eq_comm]
  have e3 : ∀ s, SeqEnc (BytesEnc VarIntMin) (spent.map (·.scriptPubKey)) s ↔
      serN (fun o : TxOut => serVarBytes o.scriptPubKey) spent = .ok s := fun s =>
    seqEnc_serN fun o ho _ => bytesEncMin_iff (hs o ho).script
  have e4 : ∀ r, SeqEnc ProofsEnc tx.wit.vtxinwit r ↔ serN serProofs tx.wit.vtxinwit = .ok r := by
    intro r
    have := seqEnc_serN (g := id) (E := ProofsEnc) (f := serProofs) (xs := tx.wit.vtxinwit) (b := r)
      (fun x hx w => proofsEnc_iff (hw.vtxinwit x hx))
    rwa [List.map_id] at this
  unfold TapInputsEnc
  simp only [e1, e2, e3, e4, prevoutsEnc_iff, sequencesEnc_iff, issuancesEnc_iff hw.vin, tapInputs_iff hw]
  constructor
  · rintro ⟨f, p, a, s, q, i, r, h1, h2, h3, h4, h5, h6, h7, rfl⟩
    exact ⟨⟨f, p, a, s, q, i, r⟩, ⟨h1, h2, h3, h4, h5, h6, h7⟩, rfl⟩
  · rintro ⟨⟨f, p, a, s, q, i, r⟩, ⟨h1, h2, h3, h4, h5, h6, h7⟩, rfl⟩
    exact ⟨f, p, a, s, q, i, r, h1, h2, h3, h4, h5, h6, h7, rfl⟩

theorem tapOutputsEnc_iff (h : HashFn) {tx : Tx} (hw : WFTx tx) (w : Bytes) :
    TapOutputsEnc h.fn tx.vout tx.wit.vtxoutwit w ↔ ∃ q, tapOutputs tx = .ok q ∧ w = q.bytes h := by
  have htake : tx.wit.vtxoutwit.take tx.vout.length = tx.wit.vtxoutwit := by rw [← hw.witout]; simp
  unfold TapOutputsEnc
  simp only [outputsEnc_iff hw.vout, outWitnessesEnc_iff hw.vtxoutwit]
  constructor
  · rintro ⟨o, x, h1, h2, rfl⟩
    obtain ⟨z, hz⟩ := zipWit_exists (xs := tx.vout) (ys := tx.wit.vtxoutwit) (by rw [hw.witout]; exact Nat.le_refl _)
    have hz2 := (zipWit_ok hz).2
    rw [htake] at hz2
    have h2' : serN (fun p : TxOut × TxOutWitness => serTxOutWitness p.2) z = .ok x := by
      rw [← h2, ← hz2, serN_map]
    exact ⟨⟨o, x⟩, by unfold tapOutputs; simp only [h1, hz, ok_bind, h2']; rfl, rfl⟩
  · rintro ⟨q, hq, rfl⟩
    obtain ⟨h1, _, h2⟩ := tapOutputs_ok hq
    rw [htake] at h2
    exact ⟨_, _, h1, h2, rfl⟩

theorem serN_one {α : Type} {f : α → Except PyErr Bytes} {x : α} {w : Bytes} : serN f [x] = .ok w ↔ f x = .ok w := by
  rw [serN_cons]; simp [serN]

theorem tapSingleEnc_iff (h : HashFn) {tx : Tx} {idx : Nat} (hw : WFTx tx) (w : Bytes) :
    TapSingleEnc h.fn tx idx w ↔ ∃ q, tapSingle tx idx = .ok q ∧ w = q.bytes h := by
  unfold TapSingleEnc TapOutputsEnc
  constructor
  · rintro ⟨o, x, ho, hx, a, b, h1, h2, rfl⟩
    rw [outputsEnc_iff (by simpa using hw.vout o (List.mem_of_getElem? ho)), serN_one] at h1
    rw [outWitnessesEnc_iff (by simpa using hw.vtxoutwit x (List.mem_of_getElem? hx)), serN_one] at h2
    have hlt := (List.getElem?_eq_some_iff.1 ho).1
    refine ⟨⟨a, b⟩, ?_, rfl⟩
    unfold tapSingle
    rw [if_neg (by omega)]
    simp only [pyGet_nat_ok.2 ho, pyGet_nat_ok.2 hx, h1, h2, ok_bind]; rfl
  · rintro ⟨q, hq, rfl⟩
    obtain ⟨o, x, ho, hx, h1, h2⟩ := tapSingle_ok hq
    refine ⟨o, x, ho, hx, q.outputs, q.witnesses, ?_, ?_, rfl⟩
    · rw [outputsEnc_iff (by simpa using hw.vout o (List.mem_of_getElem? ho)), serN_one]; exact h1
    · rw [outWitnessesEnc_iff (by simpa using hw.vtxoutwit x (List.mem_of_getElem? hx)), serN_one]; exact h2

theorem tapSignedEnc_iff (h : HashFn) {tx : Tx} {idx : Nat} {spent : List TxOut} (hw : WFTx tx)
    (hs : ∀ o ∈ spent, WFOut o) (w : Bytes) :
    TapSignedEnc .swapped h.fn tx idx spent w ↔ ∃ q, tapSigned tx idx spent = .ok q ∧ w = q.bytes h := by
  unfold TapSignedEnc
  constructor
  · rintro ⟨i, s, x, f, p, a, v, c, q, iss, r, hi, hsp, hx, h1, h2, h3, h4, h5, h6, h7, h8, rfl⟩
    have hwi := hw.vin i (List.mem_of_getElem? hi)
    rw [flagEnc_iff] at h1
    rw [outPointEnc_iff] at h2
    rw [assetEnc_iff] at h3
    rw [valueEnc_iff] at h4
    rw [← packU_iff] at h6
    rw [issuanceOrZero_iff hwi.iss] at h7
    obtain ⟨_, rfl⟩ := h3
    obtain ⟨_, rfl⟩ := h4
    obtain rfl : c = s.scriptPubKey := h5
    subst h1 h7
    rcases h8 with ⟨hn, y, hy, rfl⟩ | ⟨hn, rfl⟩
    · obtain rfl : y = x.issuanceAmountRangeproof ++ x.inflationKeysRangeproof := hy
      have hr : tapSignedIssuance tx idx i.assetIssuance =
          .ok (serIssuance i.assetIssuance, some (x.issuanceAmountRangeproof ++ x.inflationKeysRangeproof)) := by
        unfold tapSignedIssuance
        rw [if_neg (by simp [Issuance.isNull_false.2 hn]), pyGet_nat_ok.2 hx]; rfl
      refine ⟨_, by unfold tapSigned; simp only [pyGet_nat_ok.2 hi, pyGet_nat_ok.2 hsp, h2, h6, hr, ok_bind]; rfl, ?_⟩
      simp [TapSigned.bytes, issuanceOrZero, Issuance.isNull_false.2 hn]
    · have hn := Decidable.not_not.1 hn
      have hr : tapSignedIssuance tx idx i.assetIssuance = .ok ([0], none) := by
        unfold tapSignedIssuance
        rw [if_pos (Issuance.isNull_iff.2 hn)]
      refine ⟨_, by unfold tapSigned; simp only [pyGet_nat_ok.2 hi, pyGet_nat_ok.2 hsp, h2, h6, hr, ok_bind]; rfl, ?_⟩
      simp [TapSigned.bytes, issuanceOrZero, Issuance.isNull_iff.2 hn]
  · rintro ⟨q, hq, rfl⟩
    obtain ⟨i, o, s, b, r, hi, h2, hsp, h6, hr, rfl⟩ := tapSigned_ok hq
    have hlt := (List.getElem?_eq_some_iff.1 hi).1
    have hwi := hw.vin i (List.mem_of_getElem? hi)
    have hws := hs s (List.mem_of_getElem? hsp)
    obtain ⟨x, hx, _⟩ := getElem?_lt (l := tx.wit.vtxinwit) (k := idx) (by rw [hw.witin]; exact hlt)
    have fin : ∀ t, PresentIf (¬ NoIssue i.assetIssuance)
          (fun r => ∃ y, TapWriting.swapped.proofs x y ∧ r = h.fn y) t →
        r.1 = issuanceOrZero i.assetIssuance → (match r.2 with | none => [] | some y => h.fn y) = t →
        ∃ i' s' x' f p a v c q iss t, tx.vin[idx]? = some i' ∧ spent[idx]? = some s' ∧ tx.wit.vtxinwit[idx]? = some x' ∧
          FlagEnc i' f ∧ OutPointEnc i'.prevout p ∧ AssetEnc s'.nAsset a ∧ ValueEnc s'.nValue v ∧
          TapWriting.swapped.script s'.scriptPubKey c ∧
          UIntEnc 4 i'.nSequence q ∧ IssuanceOrZero i'.assetIssuance iss ∧
          PresentIf (¬ NoIssue i'.assetIssuance) (fun r => ∃ y, TapWriting.swapped.proofs x' y ∧ r = h.fn y) t ∧
          TapSigned.bytes h ⟨outpointFlag i ++ (o ++ (serConf s.nAsset ++ (serConf s.nValue ++ (s.scriptPubKey ++ (b ++ r.1))))), r.2⟩ =
            f ++ p ++ a ++ v ++ c ++ q ++ iss ++ t := by
      intro t ht e1 e2
      refine ⟨i, s, x, _, o, _, _, _, b, _, t, hi, hsp, hx, flagEnc_iff.2 rfl, outPointEnc_iff.2 h2,
        assetEnc_iff.2 ⟨hws.asset, rfl⟩, valueEnc_iff.2 ⟨hws.value, rfl⟩, rfl, packU_iff.1 h6,
        (issuanceOrZero_iff hwi.iss).2 rfl, ht, ?_⟩
      simp only [TapSigned.bytes, e1, ← e2, List.append_assoc]
      cases r.2 <;> rfl
    rcases tapSignedIssuance_ok hr with ⟨hn, rfl⟩ | ⟨hn, y, hy, rfl⟩
    · exact fin [] (Or.inr ⟨fun h => h (Issuance.isNull_iff.1 hn), rfl⟩) (by simp [issuanceOrZero, hn]) rfl
    · obtain rfl : x = y := by rw [hx] at hy; exact Option.some.inj hy
      exact fin _ (Or.inl ⟨Issuance.isNull_false.1 hn, _, rfl, rfl⟩) (by simp [issuanceOrZero, hn]) rfl

theorem presentIf_opt {α : Type} {c : Prop} {b : Bool} {E : Bytes → Prop} {x : Except PyErr α} {f : α → Bytes}
    (hb : b = true ↔ c) (hE : ∀ w, E w ↔ ∃ a, x = .ok a ∧ w = f a) (w : Bytes) :
    PresentIf c E w ↔ ∃ y, optPart b x = .ok y ∧ w = optBytes f y := by
  unfold PresentIf optPart
  cases b
  · have hc : ¬ c := fun h => by simpa using hb.2 h
    simp [hc, optBytes, eq_comm]
  · have hc : c := hb.1 rfl
    simp only [hc, true_and, not_true, false_and, or_false, if_true, hE, Except.map_ok]
    constructor
    · rintro ⟨a, h1, rfl⟩; exact ⟨some a, ⟨a, h1, rfl⟩, rfl⟩
    · rintro ⟨_, ⟨a, h1, rfl⟩, rfl⟩; exact ⟨a, h1, rfl⟩

theorem hashTypeEnc_iff {a : TapArgs} {w : Bytes} : HashTypeEnc a.hashtype w ↔ w = [a.htByte] := by
  unfold HashTypeEnc TapArgs.htByte
  have key : ∀ (n : Nat) (y : UInt8), n = y.toNat → ((∃ b : UInt8, w = [b] ∧ b.toNat = n) ↔ w = [y]) := by
    rintro n y rfl
    constructor
    · rintro ⟨b, rfl, hb⟩; rw [UInt8.toNat_inj.1 hb]
    · rintro rfl; exact ⟨_, rfl, rfl⟩
  apply key
  rcases a.hashtype with _ | ⟨o, a⟩
  · rfl
  · cases o <;> cases a <;> rfl

theorem spendTypeEnc_iff {a : TapArgs} {ext : Nat} {w : Bytes}
    (h : a.sigversion = .taproot ∧ ext = 0 ∨ a.sigversion = .tapscript ∧ ext = 1) :
    SpendTypeEnc a w ↔ w = [spendType ext a] := by
  unfold SpendTypeEnc spendType
  have key : (if a.sigversion = .tapscript then 2 else 0) + (if a.annexHash = none then 0 else 1) =
      (UInt8.ofNat ((ext <<< 1) + if a.annexHash.isSome then 1 else 0)).toNat := by
    cases a.annexHash <;> rcases h with ⟨h1, rfl⟩ | ⟨h1, rfl⟩ <;> rw [h1] <;> rfl
  rw [key]
  constructor
  · rintro ⟨b, rfl, hb⟩; rw [UInt8.toNat_inj.1 hb]
  · rintro rfl; exact ⟨_, rfl, rfl⟩

theorem annexEnc_iff {a : TapArgs} {w : Bytes} (h : ∀ l, a.annexHash = some l → l.length = 32) :
    AnnexEnc .swapped a w ↔ tapAnnex a.annexHash = .ok w := by
  unfold AnnexEnc
  cases hx : a.annexHash with
  | none => simp [tapAnnex, eq_comm]
  | some x =>
    have hl := h x hx
    have e : serVarBytes x = .ok (32 :: x) := by
      rw [serVarBytes_ok, hl]
      exact ⟨[32], ⟨.one rfl (by decide), rfl⟩, rfl⟩
    simp [tapAnnex, e, TapWriting.swapped, hl, eq_comm]

theorem tapTrailerEnc_iff {a : TapArgs} {w : Bytes} : TapTrailerEnc a w ↔ tapTrailer a = .ok w := by
  unfold TapTrailerEnc PresentIf tapTrailer
  by_cases hs : a.sigversion = .tapscript
  · rw [if_pos hs]
    simp only [hs, true_and, not_true, false_and, or_false]
    cases a.tapleafHash with
    | none => simp
    | some l =>
      cases a.codeseparatorPos with
      | none => simp
      | some c =>
        simp only [Option.some.injEq, Except.bind_ok, Except.pure_ok, packS_iff]
        constructor
        · rintro ⟨_, _, p, rfl, rfl, h1, rfl⟩; exact ⟨p, h1, rfl⟩
        · rintro ⟨p, h1, rfl⟩; exact ⟨_, _, p, rfl, rfl, h1, rfl⟩
  · rw [if_neg hs]; simp [hs, eq_comm]

theorem ascii_tapSighash : ascii "TapSighash/elements" = tapSighashTag := by decide +kernel
theorem ascii_tapLeaf : ascii "TapLeaf/elements" = tapLeafTag := by decide +kernel

/-- C49: what is hashed for a taproot signature, for every valid call.  The three fields of
`TapWriting` are written the other way round than the network does. -/
theorem C49_tap_layout (h : HashFn) (c : TapCall) (hw : WFTx c.tx) (hs : ∀ o ∈ c.spent, WFOut o) (d : Bytes) :
    sighashSchnorr h c.tx c.idx c.spent c.args = .ok d ↔
      TapArgsOk c.tx c.idx c.spent c.args ∧ TapDigest .swapped h.fn c d := by
  have hin := presentIf_opt (c := ¬ c.acp) (b := !c.args.ht.acp) (f := TapInputs.bytes h)
    (by rw [← acp_iff]; simp) (tapInputsEnc_iff h hw hs)
  have hout := presentIf_opt (c := c.all) (b := c.args.ht.out == .all) (f := TapOutputs.bytes h) all_iff (tapOutputsEnc_iff h hw)
  have hsg := presentIf_opt (c := c.single) (b := c.args.ht.out == .single) (f := TapOutputs.bytes h) single_iff
    (tapSingleEnc_iff h (idx := c.idx) hw)
  have hsi := tapSignedEnc_iff h (idx := c.idx) hw hs
  constructor
  · intro e
    have ok := (C18_only_valid e).1
    refine ⟨ok, ?_⟩
    obtain ⟨r⟩ := tapRun (c := c) e
    obtain ⟨c1, c2, c3, c4, c5, c6⟩ := tapCheck_ok.1 r.hcheck
    obtain ⟨p1, p2, p3, p4⟩ := tapParts_ok r.hparts
    refine ⟨r.m, ⟨_, r.v, r.l, _, _, _, optBytes (·.bytes h) r.p.signed ++ r.x, r.n, _, r.t, hashTypeEnc_iff.2 rfl,
      packS_iff.1 r.hv, packU_iff.1 r.hl, (hin _).2 ⟨_, p1, rfl⟩, (hout _).2 ⟨_, p2, rfl⟩, (spendTypeEnc_iff c6).2 rfl, ?_,
      (annexEnc_iff ok.annex).2 r.hn, (hsg _).2 ⟨_, p4, rfl⟩, tapTrailerEnc_iff.2 r.ht, ?_⟩, ?_⟩
    · have hx := r.hx
      unfold tapIdx at hx
      rcases optPart_ok p3 with ⟨hb, q, hq, e3⟩ | ⟨hb, e3⟩
      · left
        rw [if_pos hb] at hx
        refine ⟨acp_iff.1 hb, (hsi _).2 ⟨q, hq, ?_⟩⟩
        rw [e3, ← Except.ok.inj hx]; simp [optBytes]
      · right
        rw [if_neg (by simp [hb])] at hx
        refine ⟨(fun ha => Bool.noConfusion ((acp_iff.2 ha).symm.trans hb)), ?_⟩
        rw [e3]; exact packU_iff.1 hx
    · rw [r.hm]; simp only [List.append_assoc]
    · refine r.hdig.trans ?_
      unfold Tagged taggedPreimage; rw [ascii_tapSighash]
  · rintro ⟨ok, m, ⟨hb, v, l, ins, outs, sp, inp, an, sg, tr, g1, g2, g3, g4, g5, g6, g7, g8, g9, g10, rfl⟩, rfl⟩
    have ver : ∃ ext, c.args.sigversion = .taproot ∧ ext = 0 ∨ c.args.sigversion = .tapscript ∧ ext = 1 := by
      rcases ok.version with h | h
      · exact ⟨0, Or.inl ⟨h, rfl⟩⟩
      · exact ⟨1, Or.inr ⟨h, rfl⟩⟩
    obtain ⟨ext, ver⟩ := ver
    have hk : c.idx < c.tx.vin.length := by have := ok.index.2; omega
    have hcheck : tapCheck c.tx c.idx c.spent c.args = .ok ext :=
      tapCheck_ok.2 ⟨hk, badHash_false.2 ok.tapleaf, badHash_false.2 ok.annex, ok.genesis, ok.spent, ver⟩
    obtain ⟨y1, p1, rfl⟩ := (hin _).1 g4
    obtain ⟨y2, p2, rfl⟩ := (hout _).1 g5
    obtain ⟨y4, p4, rfl⟩ := (hsg _).1 g9
    obtain rfl := hashTypeEnc_iff.1 g1
    obtain rfl := (spendTypeEnc_iff ver).1 g6
    have : ∃ y3 x, optPart c.args.ht.acp (tapSigned c.tx c.idx c.spent) = .ok y3 ∧ tapIdx c.idx c.args = .ok x ∧
        inp = optBytes (·.bytes h) y3 ++ x := by
      rcases g7 with ⟨ha, g7⟩ | ⟨ha, g7⟩
      · obtain ⟨q, hq, rfl⟩ := (hsi _).1 g7
        have hb := acp_iff.2 ha
        refine ⟨some q, [], ?_, ?_, by simp [optBytes]⟩
        · rw [hb]; simp [optPart, hq, Except.map]
        · unfold tapIdx; rw [if_pos hb]
      · have hb : c.args.ht.acp = false := (not_true_iff_false acp_iff).2 ha
        refine ⟨none, inp, ?_, ?_, rfl⟩
        · rw [hb]; rfl
        · unfold tapIdx; rw [if_neg (by simp [hb])]; exact packU_iff.2 g7
    obtain ⟨y3, x, p3, hx, rfl⟩ := this
    have hp : tapParts c.tx c.idx c.spent c.args.ht = .ok ⟨y1, y2, y3, y4⟩ := by
      unfold tapParts; simp only [p1, p2, p3, p4, ok_bind]; rfl
    have hm := tapMessage_ok (h := h) (i := c.idx) (ext := ext) (p := ⟨y1, y2, y3, y4⟩) |>.2
      ⟨v, l, x, an, tr, packS_iff.2 g2, packU_iff.2 g3, hx, (annexEnc_iff ok.annex).1 g8, tapTrailerEnc_iff.1 g10, rfl⟩
    unfold sighashSchnorr
    rw [hcheck, ok_bind, Int.toNat_natCast, hp, ok_bind, hm, ok_bind]
    unfold Tagged
    rw [ascii_tapSighash]
    simp only [List.append_assoc, taggedPreimage]
    rfl

/-- C49 as one would want it: valid calls give the digest the network verifies. -/
def C49_statement : Prop :=
  ∀ (h : HashFn) (c : TapCall) (d : Bytes), WFTx c.tx → (∀ o ∈ c.spent, WFOut o) →
    (sighashSchnorr h c.tx c.idx c.spent c.args = .ok d ↔
      TapArgsOk c.tx c.idx c.spent c.args ∧ TapDigest .network h.fn c d)

/-- Without ANYONECANPAY and annex the two ways of writing agree. -/
theorem tapMessage_plain {H : Bytes → Bytes} {c : TapCall} (hacp : ¬ c.acp) (hann : c.args.annexHash = none) {m : Bytes}
    (W W' : TapWriting) (hm : TapMessage W H c m) : TapMessage W' H c m := by
  obtain ⟨hb, v, l, ins, outs, sp, inp, an, sg, tr, g1, g2, g3, g4, g5, g6, g7, g8, g9, g10, rfl⟩ := hm
  refine ⟨hb, v, l, ins, outs, sp, inp, an, sg, tr, g1, g2, g3, g4, g5, g6, ?_, ?_, g9, g10, rfl⟩
  · rcases g7 with ⟨ha, _⟩ | g7
    · exact absurd ha hacp
    · exact Or.inr g7
  · rcases g8 with g8 | ⟨x, hx, _⟩
    · exact Or.inl g8
    · rw [hann] at hx; cases hx

/-- C49 without ANYONECANPAY and without an annex.  Missing: under ANYONECANPAY the lengths of
the spent script and of the rangeproofs are not written, with an annex a length is written
that should not be (`C49_tap_layout` says what is hashed then, `C49_statement_false` that it
makes a difference). -/
theorem C49_tap_layout_partial (h : HashFn) (c : TapCall) (hw : WFTx c.tx) (hs : ∀ o ∈ c.spent, WFOut o)
    (hacp : ¬ c.acp) (hann : c.args.annexHash = none) (d : Bytes) :
    sighashSchnorr h c.tx c.idx c.spent c.args = .ok d ↔
      TapArgsOk c.tx c.idx c.spent c.args ∧ TapDigest .network h.fn c d := by
  rw [C49_tap_layout h c hw hs d]
  refine and_congr_right fun _ => ?_
  unfold TapDigest
  constructor
  · rintro ⟨m, h1, h2⟩; exact ⟨m, tapMessage_plain hacp hann _ _ h1, h2⟩
  · rintro ⟨m, h1, h2⟩; exact ⟨m, tapMessage_plain hacp hann _ _ h1, h2⟩

/-- C49: with an annex the hashed message is one byte longer than the one the network
verifies. -/
theorem C49_annex_longer (h : HashFn) (c : TapCall) (hw : WFTx c.tx) (hs : ∀ o ∈ c.spent, WFOut o) (hacp : ¬ c.acp)
    (hann : c.args.annexHash ≠ none) {d : Bytes} (e : sighashSchnorr h c.tx c.idx c.spent c.args = .ok d) :
    ∃ m m', TapMessage .swapped h.fn c m ∧ TapMessage .network h.fn c m' ∧ m.length = m'.length + 1 ∧
      d = Tagged h.fn "TapSighash/elements" (c.args.genesisHash ++ c.args.genesisHash ++ m) := by
  obtain ⟨ok, m, hm, rfl⟩ := (C49_tap_layout h c hw hs d).1 e
  have hm' := hm
  obtain ⟨hb, v, l, ins, outs, sp, inp, an, sg, tr, g1, g2, g3, g4, g5, g6, g7, g8, g9, g10, rfl⟩ := hm
  rcases g8 with ⟨g8, _⟩ | ⟨x, hx, hl, rfl⟩
  · exact absurd g8 hann
  refine ⟨_, hb ++ v ++ l ++ ins ++ outs ++ sp ++ inp ++ x ++ sg ++ tr, hm', ?_, ?_, rfl⟩
  · refine ⟨hb, v, l, ins, outs, sp, inp, x, sg, tr, g1, g2, g3, g4, g5, g6, ?_, Or.inr ⟨x, hx, rfl, hl⟩, g9, g10, rfl⟩
    rcases g7 with ⟨ha, _⟩ | g7
    · exact absurd ha hacp
    · exact Or.inr g7
  · simp only [List.length_append, List.length_cons]; omega

/-- C49: under ANYONECANPAY the hashed message is shorter than the one the network verifies. -/
theorem C49_acp_shorter (h : HashFn) (c : TapCall) (hw : WFTx c.tx) (hs : ∀ o ∈ c.spent, WFOut o) (hacp : c.acp)
    (hann : c.args.annexHash = none) {d : Bytes} (e : sighashSchnorr h c.tx c.idx c.spent c.args = .ok d) :
    ∃ m m', TapMessage .swapped h.fn c m ∧ TapMessage .network h.fn c m' ∧ m.length < m'.length ∧ m'.length ≤ m.length + 5 ∧
      d = Tagged h.fn "TapSighash/elements" (c.args.genesisHash ++ c.args.genesisHash ++ m) := by
  obtain ⟨ok, m, hm, rfl⟩ := (C49_tap_layout h c hw hs d).1 e
  have hm' := hm
  obtain ⟨hb, v, l, ins, outs, sp, inp, an, sg, tr, g1, g2, g3, g4, g5, g6, g7, g8, g9, g10, rfl⟩ := hm
  have g7 : TapSignedEnc .swapped h.fn c.tx c.idx c.spent inp := by
    rcases g7 with ⟨_, g7⟩ | ⟨ha, _⟩
    · exact g7
    · exact absurd hacp ha
  obtain ⟨i, s, x, f, p, a, v', c', q, iss, r, k1, k2, k3, k4, k5, k6, k7, k8, k9, k10, k11, rfl⟩ := g7
  obtain rfl : c' = s.scriptPubKey := k8
  have hsc := (hs s (List.mem_of_getElem? k2)).script
  have hwx := hw.vtxinwit x (List.mem_of_getElem? k3)
  obtain ⟨sl, hsl⟩ := varIntMin_exists (n := s.scriptPubKey.length) (Nat.lt_of_le_of_lt hsc (by decide))
  have hsl1 : 1 ≤ sl.length ∧ sl.length ≤ 5 := by
    rw [hsl.2]; unfold varIntSize
    have : s.scriptPubKey.length ≤ 33554432 := hsc
    split
    · omega
    · split
      · omega
      · rw [if_pos (by omega)]; omega
  obtain ⟨y, hy⟩ := serProofs_exists hwx
  have hr : ∃ r', PresentIf (¬ NoIssue i.assetIssuance) (fun r => ∃ y, TapWriting.network.proofs x y ∧ r = h.fn y) r' ∧
      r'.length = r.length := by
    rcases k11 with ⟨hn, z, _, rfl⟩ | ⟨hn, rfl⟩
    · exact ⟨h.fn y, Or.inl ⟨hn, y, (proofsEnc_iff hwx).2 hy, rfl⟩, by rw [h.len, h.len]⟩
    · exact ⟨[], Or.inr ⟨hn, rfl⟩, rfl⟩
  obtain ⟨r', hr, hrl⟩ := hr
  refine ⟨_, hb ++ v ++ l ++ ins ++ outs ++ sp ++ (f ++ p ++ a ++ v' ++ (sl ++ s.scriptPubKey) ++ q ++ iss ++ r') ++ an ++ sg ++ tr,
    hm', ?_, ?_, ?_, rfl⟩
  · refine ⟨hb, v, l, ins, outs, sp, _, an, sg, tr, g1, g2, g3, g4, g5, g6,
      Or.inl ⟨hacp, i, s, x, f, p, a, v', _, q, iss, r', k1, k2, k3, k4, k5, k6, k7, ⟨sl, hsl, hsc, rfl⟩, k9, k10, hr, rfl⟩,
      ?_, g9, g10, rfl⟩
    rcases g8 with g8 | ⟨x, hx, _⟩
    · exact Or.inl g8
    · rw [hann] at hx; cases hx
  · simp only [List.length_append]; omega
  · simp only [List.length_append]; omega

/-- A hash function that keeps lengths. -/
def sizeHash : HashFn := ⟨fun x => leBytes 32 x.length, fun _ => leBytes_length _ _⟩

theorem tagged_len_ne {m m' g : Bytes} (hl : m.length = m'.length + 1) :
    Tagged sizeHash.fn "TapSighash/elements" (g ++ g ++ m) ≠ Tagged sizeHash.fn "TapSighash/elements" (g ++ g ++ m') := by
  intro e
  have e := congrArg leVal e
  unfold Tagged sizeHash at e
  simp only [leVal_leBytes, List.length_append, leBytes_length, hl] at e
  omega

/-- A key path spend with an annex. -/
def annexCall : TapCall :=
  ⟨sampleTx, 0, sampleSpent, { annexHash := some (List.replicate 32 5), genesisHash := List.replicate 32 6 }⟩

theorem annexCall_ok : TapArgsOk annexCall.tx annexCall.idx annexCall.spent annexCall.args := by
  refine ⟨⟨by decide, by decide⟩, rfl, rfl, ?_, ?_, Or.inl rfl, ?_, ?_⟩
  · intro l hl; cases hl
  · intro l hl; cases hl; rfl
  · intro h; cases h
  · rintro ⟨t, ht, _⟩; cases ht

/-- C49 does not hold as stated. -/
theorem C49_statement_false : ¬ C49_statement := by
  intro hall
  obtain ⟨d, hd⟩ := (C18_iff sizeHash sampleTx_wf sampleSpent_wf (by decide) annexCall.idx annexCall.args).2 annexCall_ok
  have hacp : ¬ annexCall.acp := by rintro ⟨t, ht, _⟩; cases ht
  have hd : sighashSchnorr sizeHash annexCall.tx annexCall.idx annexCall.spent annexCall.args = .ok d := hd
  obtain ⟨m, m', _, hm', hlen, rfl⟩ := C49_annex_longer sizeHash annexCall sampleTx_wf sampleSpent_wf hacp
    (by intro h; cases h) hd
  have := (hall sizeHash annexCall _ sampleTx_wf sampleSpent_wf).2 ⟨annexCall_ok, m', hm', rfl⟩
  rw [hd] at this
  exact tagged_len_ne hlen (Except.ok.inj this)

/-- C49 is not vacuous: tapscript spends of every input with every output type. -/
example (h : HashFn) (o : OutType) (k : Nat) (hk : k < 2) :
    let c : TapCall := ⟨sampleTx, k, sampleSpent, { sampleArgs (some ⟨o, false⟩) with annexHash := none }⟩
    ∃ d, sighashSchnorr h c.tx c.idx c.spent c.args = .ok d ∧ TapDigest .network h.fn c d := by
  intro c
  have ok := sampleArgs_ok (some ⟨o, false⟩) k hk
  have ok' : TapArgsOk c.tx c.idx c.spent c.args :=
    ⟨ok.index, ok.spent, ok.genesis, ok.tapleaf, (fun l hl => by cases hl), ok.version, ok.script, ok.single⟩
  obtain ⟨d, hd⟩ := (C18_iff h sampleTx_wf sampleSpent_wf (by decide) c.idx c.args).2 ok'
  have hacp : ¬ c.acp := by rintro ⟨t, ht, h2⟩; cases ht; cases h2
  exact ⟨d, hd, ((C49_tap_layout_partial h c sampleTx_wf sampleSpent_wf hacp rfl d).1 hd).2⟩

/-! ### Tapscript: `CElementsScript.sighash_schnorr` -/

/-- C50: a script signature hash is the tapscript hash for the leaf of the script. -/
theorem C50_leaf (h : HashFn) {c : LeafSig} (hsc : c.script.length ≤ maxItem) (d : Bytes) :
    c.run h = .ok d ↔ ∃ p, LeafPreimage h.fn c.script p ∧ (c.call (h.fn p)).digest h = .ok d := by
  unfold LeafSig.run scriptSighashSchnorr LeafPreimage
  simp only [bytesEncMin_iff hsc, Except.bind_ok, ascii_tapLeaf, taggedPreimage]
  constructor
  · rintro ⟨s, h1, h2⟩; exact ⟨_, ⟨s, h1, rfl⟩, h2⟩
  · rintro ⟨_, ⟨s, h1, rfl⟩, h2⟩; exact ⟨s, h1, h2⟩

/-- C50: equal digests mean equal scripts (and everything a taproot hash always covers),
unless a collision is exhibited, among the strings of the two signature hashes or between the
two leaves. -/
theorem C50_commits_script (h : HashFn) {c d : LeafSig} (hc : c.script.length ≤ maxItem) (hd : d.script.length ≤ maxItem)
    {dig : Bytes} (h1 : c.run h = .ok dig) (h2 : d.run h = .ok dig) :
    ∃ p q, LeafPreimage h.fn c.script p ∧ LeafPreimage h.fn d.script q ∧
      ((c.script = d.script ∧ TapAgreeBase (c.call (h.fn p)) (d.call (h.fn q))) ∨
        TapCollision h (c.call (h.fn p)) (d.call (h.fn q)) ∨ CollAt h.fn p q) := by
  obtain ⟨p, hp, e1⟩ := (C50_leaf h hc dig).1 h1
  obtain ⟨q, hq, e2⟩ := (C50_leaf h hd dig).1 h2
  refine ⟨p, q, hp, hq, ?_⟩
  by_cases hcol : TapCollision h (c.call (h.fn p)) (d.call (h.fn q))
  · exact Or.inr (Or.inl hcol)
  obtain ⟨r⟩ := tapRun e1
  obtain ⟨s⟩ := tapRun e2
  have hb := (tap_header r s hcol).1
  have hl : some (h.fn p) = some (h.fn q) := hb.tapleaf rfl
  by_cases hpq : p = q
  · left
    refine ⟨?_, hb⟩
    obtain ⟨a, ha, rfl⟩ := hp
    obtain ⟨b, hb, hq⟩ := hq
    have := append_split (hpq.trans hq) rfl
    have hab : a = b := by simpa using this.2
    rw [bytesEncMin_iff hc] at ha
    rw [bytesEncMin_iff hd] at hb
    exact (serVarBytes_prefix c.script d.script _ _ [] [] hc hd ha (hab ▸ hb) rfl).1
  · exact Or.inr (Or.inr ⟨hpq, Option.some.inj hl⟩)

/-- C50 is not vacuous. -/
example (h : HashFn) : ∃ d, LeafSig.run h ⟨[0x51, 0xac], sampleTx, 1, sampleSpent, none, some (-1), none, List.replicate 32 6⟩ = .ok d := by
  obtain ⟨s, hs⟩ := serVarBytes_exists (s := [0x51, 0xac]) (by decide)
  unfold LeafSig.run scriptSighashSchnorr
  rw [hs, ok_bind]
  refine (C18_iff h sampleTx_wf sampleSpent_wf (by decide) 1 _).2
    ⟨by decide, rfl, rfl, ?_, ?_, Or.inr rfl, fun _ => ⟨_, _, rfl, rfl, by decide, by decide⟩, ?_⟩
  · intro l hl; cases hl; exact h.len _
  · intro l hl; cases hl
  · rintro ⟨t, ht, _⟩; cases ht

end Verif
