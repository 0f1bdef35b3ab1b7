import Verif.TxWriteLemmas
import Verif.Spec.Collision
/-
C05-C12: transactions on the wire.
-/
namespace Verif
open Spec

section helpers

theorem deserializeTx_ok {b : Bytes} {tx : Tx} : deserializeTx b = .ok tx ↔ TxEnc false tx b := by
  unfold deserializeTx deserializeAll
  have h := Codec.readTx.1
  constructor
  · intro e
    split at e
    · cases e
    · rename_i a heq
      cases e
      obtain ⟨w, e1, e2⟩ := (h _ _ _).1 heq
      simp at e1
      rwa [e1]
    · cases e
  · intro e
    have := h.run e []
    rw [List.append_nil] at this
    rw [this]

/-- The transaction without its witness data. -/
def stripTx (tx : Tx) : Tx := { tx with wit := emptyWitness tx.vin.length tx.vout.length }

theorem emptyWitness_null (m n : Nat) : (emptyWitness m n).isNull = true := by
  rw [TxWitness.isNull_iff]
  constructor
  · intro x hx; exact (List.mem_replicate.1 hx).2
  · intro x hx; exact (List.mem_replicate.1 hx).2

theorem serTx_strip (iw fs : Bool) (tx : Tx) : serTx iw fs (stripTx tx) = serTx false fs tx := by
  unfold serTx stripTx
  simp only [emptyWitness_null, Bool.not_true, Bool.and_false, Bool.false_and]
  rfl

theorem wf_strip {tx : Tx} (hv : -2147483648 ≤ tx.nVersion ∧ tx.nVersion < 2147483648) (h : WFBody tx) :
    WFTx (stripTx tx) := by
  refine ⟨hv, h.locktime, h.nin, h.nout, h.vin, h.vout, by simp [stripTx, emptyWitness],
    by simp [stripTx, emptyWitness], ?_, ?_⟩
  · intro x hx; rw [(List.mem_replicate.1 hx).2]; exact wf_empty_in
  · intro x hx; rw [(List.mem_replicate.1 hx).2]; exact wf_empty_out

theorem WFTx.body {tx : Tx} (h : WFTx tx) : WFBody tx := ⟨h.locktime, h.nin, h.nout, h.vin, h.vout⟩

theorem roundtrip_wf {tx : Tx} (h : WFTx tx) : ∃ b, serializeTx tx = .ok b ∧ deserializeTx b = .ok tx := by
  obtain ⟨b, hb⟩ := serTx_exists (WFTx.serOK h)
  exact ⟨b, hb, deserializeTx_ok.2 (txEnc_relax (txEnc_iff.2 ⟨h, hb⟩))⟩

/-- A non-trivial transaction: a peg-in with an issuance, a plain input, a blinded and
a fee output, some witnesses. -/
def sampleTx : Tx where
  nVersion := 2
  vin := [
    { prevout := ⟨List.replicate 32 5, 3⟩, scriptSig := [0x51], nSequence := 7, isPegin := true,
      assetIssuance := { assetEntropy := List.replicate 32 9, nAmount := [1, 0, 0, 0, 0, 0, 0, 0, 9],
                         nInflationKeys := 8 :: List.replicate 32 1 } },
    { prevout := ⟨List.replicate 32 6, 0x3fffffff⟩ }]
  vout := [
    { nValue := 9 :: List.replicate 32 1, nAsset := 10 :: List.replicate 32 2,
      nNonce := 3 :: List.replicate 32 3, scriptPubKey := [0, 20] },
    { nValue := [1, 0, 0, 0, 0, 0, 0, 0, 1], nAsset := 1 :: List.replicate 32 2 }]
  nLockTime := 0xfffffffe
  wit := ⟨[{ scriptWitness := [[1, 2], []], peginWitness := [[4]] }, {}],
          [{ surjectionproof := [1], rangeproof := [2, 3] }, {}]⟩

instance (n a b c) : Decidable (ValidField n a b c) := by unfold ValidField; infer_instance
instance (i) : Decidable (NoIssue i) := by unfold NoIssue; infer_instance
instance (s) : Decidable (WFStack s) := by unfold WFStack; infer_instance

theorem sampleTx_wf : WFTx sampleTx := by
  have hi : ∀ i ∈ sampleTx.vin, WFIn i := by
    intro i hi
    simp only [sampleTx, List.mem_cons, List.not_mem_nil, or_false] at hi
    rcases hi with rfl | rfl
    · refine ⟨by decide, by decide, by decide, ⟨by decide, by decide, by decide, by decide, by decide⟩, by decide⟩
    · refine ⟨by decide, by decide, by decide, ⟨by decide, by decide, by decide, by decide, by decide⟩, by decide⟩
  have ho : ∀ o ∈ sampleTx.vout, WFOut o := by
    intro o ho
    simp only [sampleTx, List.mem_cons, List.not_mem_nil, or_false] at ho
    rcases ho with rfl | rfl <;> exact ⟨by decide, by decide, by decide, by decide⟩
  have hwi : ∀ w ∈ sampleTx.wit.vtxinwit, WFInWitness w := by
    intro w hw
    simp only [sampleTx, List.mem_cons, List.not_mem_nil, or_false] at hw
    rcases hw with rfl | rfl <;> exact ⟨by decide, by decide, by decide, by decide⟩
  have hwo : ∀ w ∈ sampleTx.wit.vtxoutwit, WFOutWitness w := by
    intro w hw
    simp only [sampleTx, List.mem_cons, List.not_mem_nil, or_false] at hw
    rcases hw with rfl | rfl <;> exact ⟨by decide, by decide⟩
  exact ⟨by decide, by decide, by decide, by decide, hi, ho, by decide, by decide, hwi, hwo⟩

end helpers

/-! ### C05 -/

/-- C05: exactly the well-formed transactions survive serialization and deserialization. -/
theorem C05_roundtrip (tx : Tx) :
    (∃ b, serializeTx tx = .ok b ∧ deserializeTx b = .ok tx) ↔ WFTx tx := by
  constructor
  · rintro ⟨b, h1, h2⟩
    have hs := txEnc_stream (deserializeTx_ok.1 h2)
    obtain ⟨b', h3, h4⟩ := roundtrip_wf (normTx_wf hs)
    have : b' = b := by
      unfold serializeTx at h1 h3
      rw [serTx_norm, h1] at h3
      cases h3; rfl
    subst this
    rw [h2] at h4
    have e := Except.ok.inj h4
    rw [e]
    exact normTx_wf hs
  · exact roundtrip_wf

/-- C05, without witness: everything but the witness comes back. -/
theorem C05_roundtrip_no_witness (tx : Tx) (h : WFTx tx) :
    ∃ b, serTx false false tx = .ok b ∧
      deserializeTx b = .ok { tx with wit := emptyWitness tx.vin.length tx.vout.length } := by
  obtain ⟨b, h1, h2⟩ := roundtrip_wf (wf_strip h.version (WFTx.body h))
  exact ⟨b, by rw [← serTx_strip true]; exact h1, h2⟩

example : ∃ b, serializeTx sampleTx = .ok b ∧ deserializeTx b = .ok sampleTx :=
  (C05_roundtrip sampleTx).2 sampleTx_wf

/-- C05: the restriction to full-length witness vectors matters.  With an output witness
but no input witness vector `serialize` succeeds and the result is not readable. -/
theorem C05_short_witness_breaks :
    let tx : Tx := { nVersion := 2, vin := [{ prevout := ⟨List.replicate 32 0, 0⟩ }],
                     vout := [{}], nLockTime := 0, wit := ⟨[], [{ rangeproof := [7] }]⟩ }
    ∃ b, serializeTx tx = .ok b ∧ deserializeTx b = .error .truncation := by
  refine ⟨_, rfl, ?_⟩
  decide +kernel

/-! ### C06 -/

/-- C06: `deserialize` returns `tx` exactly on the encodings of `tx`. -/
theorem C06_grammar (b : Bytes) (tx : Tx) : deserializeTx b = .ok tx ↔ TxEnc false tx b :=
  deserializeTx_ok

example : ∃ b, TxEnc false sampleTx b := by
  obtain ⟨b, _, h⟩ := (C05_roundtrip sampleTx).2 sampleTx_wf
  exact ⟨b, (C06_grammar b sampleTx).1 h⟩

/-! ### C07 -/

/-- C07: cutting an accepted byte string anywhere makes it a truncated stream, adding
anything makes it one with extra data. -/
theorem C07_prefix_free (b : Bytes) (tx : Tx) (h : deserializeTx b = .ok tx) :
    (∀ p x, b = p ++ x → x ≠ [] → deserializeTx p = .error .truncation) ∧
    (∀ x, x ≠ [] → deserializeTx (b ++ x) = .error .extraData) := by
  rw [deserializeTx_ok] at h
  constructor
  · rintro p x rfl hx
    have := Codec.readTx.2 tx (p ++ x) h p x rfl hx
    unfold deserializeTx deserializeAll
    rw [this]
  · intro x hx
    have := Codec.readTx.1.run h x
    unfold deserializeTx deserializeAll
    rw [this]
    cases x with
    | nil => exact absurd rfl hx
    | cons _ _ => rfl

/-- C07 for what `serialize` writes. -/
theorem C07_serialized (tx : Tx) (b : Bytes) (hw : WFTx tx) (h : serializeTx tx = .ok b) :
    (∀ p x, b = p ++ x → x ≠ [] → deserializeTx p = .error .truncation) ∧
    (∀ x, x ≠ [] → deserializeTx (b ++ x) = .error .extraData) := by
  obtain ⟨b', h1, h2⟩ := roundtrip_wf hw
  rw [h] at h1
  cases h1
  exact C07_prefix_free b tx h2

/-! ### C08 -/

/-- C08: re-serializing what was read always works, gives a fixed point of
deserialize-then-serialize, and gives back the input exactly on canonical input. -/
theorem C08_normal_form (b : Bytes) (tx : Tx) (h : deserializeTx b = .ok tx) :
    ∃ b', serializeTx tx = .ok b' ∧ deserializeTx b' = .ok (normTx tx) ∧
      serializeTx (normTx tx) = .ok b' ∧ (b' = b ↔ TxEnc true tx b) := by
  have hs := txEnc_stream (deserializeTx_ok.1 h)
  obtain ⟨b', h3, h4⟩ := roundtrip_wf (normTx_wf hs)
  have h5 : serializeTx tx = .ok b' := by
    unfold serializeTx at *; rwa [serTx_norm] at h3
  refine ⟨b', h5, h4, h3, ?_⟩
  constructor
  · rintro rfl
    exact txEnc_iff.2 ⟨(C05_roundtrip tx).1 ⟨b', h5, h⟩, h5⟩
  · intro he
    have := (txEnc_iff.1 he).2
    rw [h5] at this
    cases this; rfl

/-- C08: a transaction with a flag byte of 5, a long-form compact size and an issuance
flag on a null issuance is read, and re-serialization shortens it. -/
example : ∃ b tx b', deserializeTx b = .ok tx ∧ serializeTx tx = .ok b' ∧ b'.length < b.length :=
  ⟨[2, 0, 0, 0, 5, 0xfd, 1, 0] ++ List.replicate 32 1 ++ [3, 0, 0, 0x80, 0, 1, 0, 0, 0] ++ List.replicate 64 7
      ++ [0, 0, 0, 0, 0, 0, 0],
    { nVersion := 2, vout := [], nLockTime := 0, wit := ⟨[{}], []⟩,
      vin := [{ prevout := ⟨List.replicate 32 1, 3⟩, nSequence := 1,
                assetIssuance := { assetBlindingNonce := List.replicate 32 7, assetEntropy := List.replicate 32 7 } }] },
    [2, 0, 0, 0, 0, 1] ++ List.replicate 32 1 ++ [3, 0, 0, 0, 0, 1, 0, 0, 0, 0, 0, 0, 0, 0], by decide +kernel⟩

/-! ### C09 -/

/-- C09: the serialized index carries the issuance bit iff there is an issuance and the
peg-in bit iff the input is a peg-in; an index with high bits is refused. -/
theorem C09_index_written (i : TxIn) :
    (∀ w, i.prevout.n < 1073741824 → serTxIn false i = .ok w →
      w.take 32 = i.prevout.hash ∧
      leVal ((w.drop 32).take 4) = i.prevout.n + (if NoIssue i.assetIssuance then 0 else 2147483648)
        + (if i.isPegin then 1073741824 else 0)) ∧
    (∀ w, i.prevout.n = 4294967295 → serTxIn false i = .ok w → leVal ((w.drop 32).take 4) = 4294967295) ∧
    (1073741824 ≤ i.prevout.n → i.prevout.n ≠ 4294967295 →
      ∀ fs, serTxIn fs i = .error .txInSerialization) := by
  refine ⟨?_, ?_, ?_⟩
  · intro w hn h
    obtain ⟨o, iss, a, s, q, h1, h2, h3, h4, rfl⟩ := serTxIn_wire.1 h
    have hh : i.prevout.hash.length = 32 := by
      apply Classical.byContradiction
      intro hh
      have h3 : ¬ ((i.prevout.n >>> 30) <<< 30 ≠ 0) := by rw [ne_eq, shift_zero, Decidable.not_not]; exact hn
      unfold wireOutPoint at h1
      simp only [if_neg (show i.prevout.n ≠ 0xffffffff by omega), if_neg h3] at h1
      obtain ⟨o', h5, _⟩ := Except.bind_ok.1 h1
      unfold outPointNew at h5
      rw [if_pos hh] at h5
      cases h5
    rw [wireOutPoint_low hn hh] at h1
    cases h1
    obtain ⟨_, x, hx, rfl⟩ := serOutPoint_ok.1 h2
    simp only at hx ⊢
    have hxl : x.length = 4 := hx.1
    refine ⟨by simp [List.append_assoc, hh], ?_⟩
    have : ((i.prevout.hash ++ x ++ s ++ q ++ if (!i.assetIssuance.isNull) = true then serIssuance i.assetIssuance else []).drop 32).take 4 = x := by
      simp only [List.append_assoc]
      rw [← hh, List.drop_left]
      simp [← hxl]
    rw [this, hx.2]
    unfold wireIndex
    by_cases hnull : NoIssue i.assetIssuance
    · rw [Issuance.isNull_iff.2 hnull, if_pos hnull]; rfl
    · rw [Issuance.isNull_false.2 hnull, if_neg hnull]; rfl
  · intro w hn h
    obtain ⟨o, iss, a, s, q, h1, h2, h3, h4, rfl⟩ := serTxIn_wire.1 h
    rw [wireOutPoint_coinbase hn] at h1
    cases h1
    obtain ⟨hh, x, hx, rfl⟩ := serOutPoint_ok.1 h2
    have hxl : x.length = 4 := hx.1
    rw [hn] at hx
    have : ((i.prevout.hash ++ x ++ s ++ q ++ if false = true then serIssuance i.assetIssuance else []).drop 32).take 4 = x := by
      simp only [List.append_assoc]
      rw [← hh, List.drop_left]
      simp [← hxl]
    rw [this, hx.2]
  · intro h1 h2 fs
    unfold serTxIn
    rw [wireOutPoint_high h2 (by omega)]
    rfl

/-- C09, full claim: reading back a serialized input with a 30-bit index gives the same
index, peg-in flag and issuance, leaving what follows. -/
def C09_full : Prop := ∀ (i : TxIn) (w rest : Bytes), i.prevout.n < 1073741824 →
  i.scriptSig.length ≤ maxItem → WFIssuance i.assetIssuance →
  serTxIn false i = .ok w → readTxIn (w ++ rest) = .ok (i, rest)

/-- C09 fails for index 0x3fffffff on a peg-in with an issuance: all bits of the written
index are ones, the mark of a coinbase input. -/
theorem C09_full_false : ¬ C09_full := by
  intro h
  let i : TxIn := { prevout := ⟨List.replicate 32 5, 0x3fffffff⟩, isPegin := true,
                    assetIssuance := { nAmount := [1, 0, 0, 0, 0, 0, 0, 0, 9] } }
  have hw : ∃ w, serTxIn false i = .ok w ∧
      readTxIn (w ++ []) = .ok ({ prevout := ⟨List.replicate 32 5, 0xffffffff⟩ }, serIssuance i.assetIssuance) :=
    ⟨List.replicate 32 5 ++ [255, 255, 255, 255, 0, 255, 255, 255, 255] ++ List.replicate 64 0 ++
      [1, 0, 0, 0, 0, 0, 0, 0, 9, 0], by decide +kernel⟩
  obtain ⟨w, h1, h2⟩ := hw
  have := h i w [] (by decide) (by decide)
    ⟨by decide, by decide, by decide, by decide, by decide⟩ h1
  rw [h2] at this
  revert this
  decide

/-- C09 outside that case.  Missing: index 0x3fffffff with both flags. -/
theorem C09_index_roundtrip_partial (i : TxIn) (w rest : Bytes) (hn : i.prevout.n < 1073741824)
    (hs : i.scriptSig.length ≤ maxItem) (hi : WFIssuance i.assetIssuance)
    (hx : ¬ (i.prevout.n = 1073741823 ∧ i.isPegin = true ∧ ¬ NoIssue i.assetIssuance))
    (hw : serTxIn false i = .ok w) : readTxIn (w ++ rest) = .ok (i, rest) := by
  obtain ⟨o, iss, a, s, q, h1, h2, h3, h4, _⟩ := serTxIn_wire.1 hw
  have hh : i.prevout.hash.length = 32 := by
    apply Classical.byContradiction
    intro hh
    have h3 : ¬ ((i.prevout.n >>> 30) <<< 30 ≠ 0) := by rw [ne_eq, shift_zero, Decidable.not_not]; exact hn
    unfold wireOutPoint at h1
    simp only [if_neg (show i.prevout.n ≠ 0xffffffff by omega), if_neg h3] at h1
    obtain ⟨o', h5, _⟩ := Except.bind_ok.1 h1
    unfold outPointNew at h5
    rw [if_pos hh] at h5
    cases h5
  have hwf : WFIn i := ⟨hh, hs, (uintEnc_iff.1 h4).1, hi, Or.inr ⟨hn, hx⟩⟩
  exact Codec.readTxIn.1.run (txInEnc_relax (txInEnc_iff.2 ⟨hwf, hw⟩)) rest

/-- C09, exactly: of the inputs with a 30-bit index, those that are read back as they were are all but peg-ins with an issuance and
index 0x3fffffff. -/
theorem C09_exact (i : TxIn) (w rest : Bytes) (hn : i.prevout.n < 1073741824) (hs : i.scriptSig.length ≤ maxItem)
    (hi : WFIssuance i.assetIssuance) (hw : serTxIn false i = .ok w) :
    readTxIn (w ++ rest) = .ok (i, rest) ↔ ¬ (i.prevout.n = 1073741823 ∧ i.isPegin = true ∧ ¬ NoIssue i.assetIssuance) := by
  refine ⟨fun h hx => ?_, fun hx => C09_index_roundtrip_partial i w rest hn hs hi hx hw⟩
  obtain ⟨w', -, ⟨n, a, x, s, q, t, h1, -⟩⟩ := (Codec.readTxIn.reads _ _ _).1 h
  cases h1 with
  | coinbase h1 _ _ => omega
  | plain _ h2 => exact hx.2.2 (by rw [h2]; exact Issuance.isNull_iff.1 rfl)
  | issue _ _ _ h2 => exact h2 ⟨hx.1, hx.2.1⟩

example : ∃ i w, i.prevout.n = 0x3ffffffe ∧ i.isPegin = true ∧ ¬ NoIssue i.assetIssuance ∧
    serTxIn false i = .ok w ∧ readTxIn w = .ok (i, []) :=
  ⟨{ prevout := ⟨List.replicate 32 5, 0x3ffffffe⟩, isPegin := true,
     assetIssuance := { nAmount := [1, 0, 0, 0, 0, 0, 0, 0, 9] } },
   List.replicate 32 5 ++ [254, 255, 255, 255, 0, 255, 255, 255, 255] ++ List.replicate 64 0 ++
      [1, 0, 0, 0, 0, 0, 0, 0, 9, 0], by decide +kernel⟩

/-! ### C10 -/

/-- C10: neither the serialization without witness nor the txid depends on witness data. -/
theorem C10_ignores_witness (h : HashFn) (tx : Tx) (w : TxWitness) :
    serTx false false { tx with wit := w } = serTx false false tx ∧ txid h { tx with wit := w } = txid h tx := by
  have h1 : serTx false false { tx with wit := w } = serTx false false tx := by
    unfold serTx; simp
  have h2 : ∀ tx : Tx, txid h tx = (serTx false false tx).map h.dbl := by
    intro tx
    unfold txid
    split
    · rename_i hn
      unfold serTx; simp [hn]
    · rfl
  exact ⟨h1, by rw [h2, h2, h1]⟩

/-- C10: two well-formed transactions with the same txid agree on everything but the
witness, unless their two serializations are a collision of the hash. -/
theorem C10_txid_commits (h : HashFn) (t1 t2 : Tx) (d : Bytes) (w1 : WFTx t1) (w2 : WFTx t2)
    (e1 : txid h t1 = .ok d) (e2 : txid h t2 = .ok d) :
    (t1.nVersion = t2.nVersion ∧ t1.vin = t2.vin ∧ t1.vout = t2.vout ∧ t1.nLockTime = t2.nLockTime) ∨
    ∃ b1 b2, serTx false false t1 = .ok b1 ∧ serTx false false t2 = .ok b2 ∧ DblCollAt h.fn b1 b2 := by
  obtain ⟨b1, s1, r1⟩ := C05_roundtrip_no_witness t1 w1
  obtain ⟨b2, s2, r2⟩ := C05_roundtrip_no_witness t2 w2
  have key : ∀ t : Tx, txid h t = (serTx false false t).map h.dbl := by
    intro t
    unfold txid
    split
    · rename_i hn
      unfold serTx; simp [hn]
    · rfl
  rw [key, s1] at e1
  rw [key, s2] at e2
  have e : h.dbl b1 = h.dbl b2 := by
    cases e1; simp only [Except.map, Except.ok.injEq] at e2; exact e2.symm
  rcases dbl_inj_or e with rfl | hc
  · left
    rw [r1] at r2
    simp only [Except.ok.injEq, Tx.mk.injEq] at r2
    obtain ⟨a, b, c, d, _⟩ := r2
    exact ⟨a, b, c, d⟩
  · exact Or.inr ⟨b1, b2, s1, s2, hc⟩

-- two well-formed transactions exist (here equal up to the witness), with the same txid
example (h : HashFn) : ∃ d, txid h sampleTx = .ok d ∧ WFTx sampleTx := by
  obtain ⟨b, hb, _⟩ := C05_roundtrip_no_witness sampleTx sampleTx_wf
  exact ⟨h.dbl b, by rw [(C10_ignores_witness h sampleTx sampleTx.wit).2.symm]; unfold txid; simp [hb, show sampleTx.wit.isNull = false from by decide, Except.map], sampleTx_wf⟩

/-- C10: outside the well-formed transactions the txid hides things: blinding nonce and
entropy of an issuance without amounts do not count. -/
theorem C10_hidden_data (h : HashFn) : ∃ t1 t2 d, txid h t1 = .ok d ∧ txid h t2 = .ok d ∧ t1.vin ≠ t2.vin :=
  ⟨{ nVersion := 2, vin := [{ prevout := ⟨List.replicate 32 1, 0⟩ }], vout := [], nLockTime := 0, wit := {} },
   { nVersion := 2, vin := [{ prevout := ⟨List.replicate 32 1, 0⟩, assetIssuance := { assetEntropy := List.replicate 32 3 } }],
     vout := [], nLockTime := 0, wit := {} }, _, rfl, rfl, by decide⟩

/-! ### C11 -/

/-- C11: the flag byte says whether witnesses follow, and they do iff asked for and some
witness is non-empty. -/
theorem C11_extended_iff (iw : Bool) (tx : Tx) (b : Bytes) (h : serTx iw false tx = .ok b) :
    (b[4]? = some 1 ↔ iw = true ∧ ¬ NoWitness tx.wit) ∧
    (b[4]? = some 0 ↔ ¬ (iw = true ∧ ¬ NoWitness tx.wit)) := by
  have hn := @TxWitness.isNull_iff tx.wit
  unfold serTx at h
  obtain ⟨v, hv, h⟩ := Except.bind_ok.1 h
  have hv4 : v.length = 4 := (packS_iff.1 hv).1
  have hget : ∀ (f : UInt8) (r : Bytes), (v ++ [f] ++ r)[4]? = some f := by
    intro f r
    rw [List.append_assoc, List.getElem?_append_right (by omega), hv4]; rfl
  by_cases hc : (iw && !tx.wit.isNull) = true
  · have hc' : iw = true ∧ ¬ NoWitness tx.wit := by
      rw [Bool.and_eq_true] at hc
      refine ⟨hc.1, fun h => ?_⟩
      rw [hn.2 h] at hc; simp at hc
    have : b[4]? = some 1 := by
      rw [if_pos hc] at h
      split at h
      · simp only [throw, throwThe, MonadExceptOf.throw, bind, Except.bind] at h
        split at h <;> cases h
      · split at h
        · simp only [throw, throwThe, MonadExceptOf.throw, bind, Except.bind] at h
          cases h
        · simp only [Except.bind_ok, Except.pure_ok] at h
          obtain ⟨i, _, o, _, l, _, w, _, rfl⟩ := h
          have := hget 1 (i ++ o ++ l ++ w)
          simpa only [List.append_assoc] using this
    rw [this]
    simp [hc']
  · have hc' : ¬ (iw = true ∧ ¬ NoWitness tx.wit) := by
      rintro ⟨rfl, h2⟩
      apply hc
      cases hnull : tx.wit.isNull
      · rfl
      · exact absurd (hn.1 hnull) h2
    have : b[4]? = some 0 := by
      rw [if_neg hc] at h
      simp only [Except.bind_ok, Except.pure_ok] at h
      obtain ⟨i, _, o, _, l, _, rfl⟩ := h
      have := hget 0 (i ++ o ++ l)
      simpa only [List.append_assoc, Bool.not_false, if_true] using this
    rw [this]
    simp [hc']

/-- C11: an extended transaction whose witnesses are all empty is superfluous: refused,
whatever follows it. -/
theorem C11_superfluous_rejected (tx : Tx) (v b x rest : Bytes) (hv : SIntEnc 4 tx.nVersion v)
    (hb : BodyEnc false tx b) (hx : WitnessEnc false tx x)
    (hi : tx.wit.vtxinwit.length = tx.vin.length) (ho : tx.wit.vtxoutwit.length = tx.vout.length)
    (hn : NoWitness tx.wit) :
    deserializeTx (v ++ [1] ++ b ++ x ++ rest) = .error .valueError := by
  obtain ⟨i, o, l, h1, h2, h3, rfl⟩ := hb
  have e : v ++ [1] ++ (i ++ o ++ l) ++ x ++ rest = v ++ ([1] ++ (i ++ (o ++ (l ++ (x ++ rest))))) := by simp
  have : readTx (v ++ [1] ++ (i ++ o ++ l) ++ x ++ rest) = .error .valueError := by
    rw [e, readTx, P.bind_of_ok ((Codec.s (by decide)).1.run hv _),
      P.bind_of_ok ((Codec.u (k := 1) (by decide)).1.run (a := 1) (b := [1]) ⟨rfl, rfl⟩ _), if_pos rfl,
      P.bind_of_ok ((Codec.readVec Codec.readTxIn).1.run h1 _),
      P.bind_of_ok ((Codec.readVec Codec.readTxOut).1.run h2 _),
      P.bind_of_ok ((Codec.u (by decide)).1.run h3 _)]
    have hw : readTxWitness tx.vin.length tx.vout.length (x ++ rest) = .ok (tx.wit, rest) :=
      (Codec.readTxWitness _ _).1.run ⟨hi, ho, hx⟩ _
    rw [P.bind_of_ok hw, if_pos (TxWitness.isNull_iff.2 hn)]
    rfl
  unfold deserializeTx deserializeAll
  rw [this]

example : deserializeTx ([2, 0, 0, 0, 1, 1] ++ List.replicate 32 1 ++ [3, 0, 0, 0, 0, 1, 0, 0, 0, 0, 0, 0, 0, 0] ++
    [0, 0, 0, 0]) = .error .valueError := by decide +kernel

/-- C11: a witness vector of a wrong non-zero length is refused. -/
theorem C11_wrong_length_refused (fs : Bool) (tx : Tx) (hw : ¬ NoWitness tx.wit)
    (hv : -2147483648 ≤ tx.nVersion ∧ tx.nVersion < 2147483648)
    (h : (tx.wit.vtxinwit ≠ [] ∧ tx.wit.vtxinwit.length ≠ tx.vin.length) ∨
         (tx.wit.vtxoutwit ≠ [] ∧ tx.wit.vtxoutwit.length ≠ tx.vout.length)) :
    serTx true fs tx = .error .assertion := by
  have hn : tx.wit.isNull = false := by
    cases hnull : tx.wit.isNull
    · rfl
    · exact absurd (TxWitness.isNull_iff.1 hnull) hw
  have hp : packS 4 tx.nVersion = .ok _ := packS_ok.2 ⟨version_range.2 hv, rfl⟩
  have hl : ∀ {α : Type} (l : List α), l ≠ [] → l.length ≠ 0 := by
    intro α l hl h; exact hl (List.length_eq_zero_iff.1 h)
  unfold serTx
  rw [hp]
  simp only [hn, Bool.not_false, Bool.and_true, if_true, bind, Except.bind]
  rcases h with ⟨h1, h2⟩ | ⟨h1, h2⟩
  · rw [if_pos (by simp [h2, h1])]; rfl
  · split
    · rfl
    · rw [if_pos (by simp [h2, h1])]; rfl

example : ∃ tx : Tx, ¬ NoWitness tx.wit ∧ tx.wit.vtxoutwit ≠ [] ∧ tx.wit.vtxoutwit.length ≠ tx.vout.length :=
  ⟨{ sampleTx with vout := [] }, by
    rw [← TxWitness.isNull_iff]; decide, by decide, by decide⟩

/-! ### C12 -/

/-- C12: `num_issuances` is the number of amounts plus the number of inflation key fields. -/
theorem C12_num_issuances (tx : Tx) :
    numIssuances tx = tx.vin.countP (fun i => i.assetIssuance.nAmount ≠ [])
      + tx.vin.countP (fun i => i.assetIssuance.nInflationKeys ≠ []) := by
  unfold numIssuances
  generalize tx.vin = l
  have key : ∀ acc, l.foldl (fun acc i =>
      if !i.assetIssuance.isNull then
        let acc := if !confIsNull i.assetIssuance.nAmount then acc + 1 else acc
        if !confIsNull i.assetIssuance.nInflationKeys then acc + 1 else acc
      else acc) acc = acc + l.countP (fun i => i.assetIssuance.nAmount ≠ [])
      + l.countP (fun i => i.assetIssuance.nInflationKeys ≠ []) := by
    induction l with
    | nil => simp
    | cons i l ih =>
      intro acc
      rw [List.foldl_cons, ih]
      have e : ∀ b : Bytes, confIsNull b = decide (b = []) := by intro b; cases b <;> rfl
      simp only [List.countP_cons, Issuance.isNull, e]
      by_cases h1 : i.assetIssuance.nAmount = [] <;> by_cases h2 : i.assetIssuance.nInflationKeys = [] <;>
        simp [h1, h2] <;> omega
  rw [key 0]; omega

example : numIssuances sampleTx = 2 := by decide

end Verif
