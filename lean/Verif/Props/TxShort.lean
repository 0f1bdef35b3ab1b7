import Verif.Props.Tx
import Verif.Spec.BlindWire
/-
C08: what is written is the shortest of all encodings.  C54: exactly which transactions with missing witnesses survive the wire.
-/
namespace Verif
open Spec

theorem varInt_shortest {n : Nat} {b b' : Bytes} (h : VarIntEnc n b) (h' : VarIntMin n b') : b'.length ≤ b.length := by
  rw [h'.2, varIntSize]
  cases h with
  | one _ h => rw [if_pos h]; simp
  | two h => have := (uintEnc_iff.1 h).1; have := h.1; split <;> (try split) <;> (try split) <;> simp <;> omega
  | four h => have := (uintEnc_iff.1 h).1; have := h.1; split <;> (try split) <;> (try split) <;> simp <;> omega
  | eight h => have := h.1; split <;> (try split) <;> (try split) <;> simp <;> omega

theorem bytes_shortest {s b b' : Bytes} (h : BytesEnc (Len false) s b) (h' : BytesEnc (Len true) s b') : b'.length ≤ b.length := by
  obtain ⟨l, h1, _, rfl⟩ := h
  obtain ⟨l', h2, _, rfl⟩ := h'
  have := varInt_shortest h1 h2
  simp only [List.length_append]
  omega

theorem seq_shortest {α β : Type} {E : α → Bytes → Prop} {E' : β → Bytes → Prop} {g : α → β}
    (hE : ∀ x b b', E x b → E' (g x) b' → b'.length ≤ b.length) : ∀ {xs : List α} {b b' : Bytes},
    SeqEnc E xs b → SeqEnc E' (xs.map g) b' → b'.length ≤ b.length
  | [], _, _, .nil, .nil => Nat.le_refl _
  | _ :: _, _, _, .cons h1 h2, .cons h3 h4 => by
    have := hE _ _ _ h1 h3
    have := seq_shortest hE h2 h4
    simp only [List.length_append]
    omega

theorem vec_shortest {α β : Type} {E : α → Bytes → Prop} {E' : β → Bytes → Prop} {g : α → β}
    (hE : ∀ x b b', E x b → E' (g x) b' → b'.length ≤ b.length) {xs : List α} {b b' : Bytes}
    (h : VecEnc (Len false) E xs b) (h' : VecEnc (Len true) E' (xs.map g) b') : b'.length ≤ b.length := by
  obtain ⟨l, r, h1, h2, rfl⟩ := h
  obtain ⟨l', r', h3, h4, rfl⟩ := h'
  rw [List.length_map] at h3
  have := varInt_shortest h1 h3
  have := seq_shortest hE h2 h4
  simp only [List.length_append]
  omega

theorem stack_shortest {s : List Bytes} {b b' : Bytes} (h : StackEnc false s b) (h' : StackEnc true s b') : b'.length ≤ b.length :=
  vec_shortest (g := id) (fun _ _ _ h1 h2 => bytes_shortest h1 h2) h (by rw [List.map_id]; exact h')

theorem txIn_shortest {i : TxIn} {b b' : Bytes} (h : TxInEnc false i b)
    (h' : TxInEnc true { i with assetIssuance := normIssuance i.assetIssuance } b') : b'.length ≤ b.length := by
  obtain ⟨n, x, y, s, q, t, h1, h2, h3, h4, h5, rfl⟩ := h
  obtain ⟨n', x', y', s', q', t', g1, g2, g3, g4, g5, rfl⟩ := h'
  have a1 := h2.1; have a2 := g2.1; have a3 := h3.1; have a4 := g3.1; have a5 := h5.1; have a6 := g5.1
  have a7 := bytes_shortest h4 g4
  have a8 : t'.length ≤ t.length := by
    cases g1 with
    | coinbase => simp
    | plain => simp
    | issue g6 g7 g8 g9 =>
      have hne := g8 rfl
      dsimp only at hne g7
      have hn : normIssuance i.assetIssuance = i.assetIssuance := by
        unfold normIssuance
        split
        · rename_i he
          rw [normIssuance, if_pos he] at hne
          exact absurd ⟨rfl, rfl⟩ hne
        · rfl
      rw [hn] at hne g7
      cases h1 with
      | coinbase _ _ e => rw [e] at hne; exact absurd ⟨rfl, rfl⟩ hne
      | plain _ e => rw [e] at hne; exact absurd ⟨rfl, rfl⟩ hne
      | issue _ e _ _ => rw [(issuanceEnc_iff.1 g7).2, (issuanceEnc_iff.1 e).2]; exact Nat.le_refl _
  rw [a1, a2]
  simp only [List.length_append]
  omega

theorem txOut_shortest {o : TxOut} {b b' : Bytes} (h : TxOutEnc false o b) (h' : TxOutEnc true o b') : b'.length ≤ b.length := by
  obtain ⟨a, v, n, s, h1, h2, h3, h4, rfl⟩ := h
  obtain ⟨a', v', n', s', g1, g2, g3, g4, rfl⟩ := h'
  rw [assetEnc_iff] at h1 g1
  rw [valueEnc_iff] at h2 g2
  rw [nonceEnc_iff] at h3 g3
  rw [h1.2, g1.2, h2.2, g2.2, h3.2, g3.2]
  have := bytes_shortest h4 g4
  simp only [List.length_append]
  omega

theorem txInWitness_shortest {x : TxInWitness} {b b' : Bytes} (h : TxInWitnessEnc false x b) (h' : TxInWitnessEnc true x b') :
    b'.length ≤ b.length := by
  obtain ⟨a, k, s, p, h1, h2, h3, h4, rfl⟩ := h
  obtain ⟨a', k', s', p', g1, g2, g3, g4, rfl⟩ := h'
  have := bytes_shortest h1 g1; have := bytes_shortest h2 g2; have := stack_shortest h3 g3; have := stack_shortest h4 g4
  simp only [List.length_append]
  omega

theorem txOutWitness_shortest {x : TxOutWitness} {b b' : Bytes} (h : TxOutWitnessEnc false x b) (h' : TxOutWitnessEnc true x b') :
    b'.length ≤ b.length := by
  obtain ⟨s, r, h1, h2, rfl⟩ := h
  obtain ⟨s', r', g1, g2, rfl⟩ := h'
  have := bytes_shortest h1 g1; have := bytes_shortest h2 g2
  simp only [List.length_append]
  omega

theorem body_shortest {tx : Tx} {b b' : Bytes} (h : BodyEnc false tx b) (h' : BodyEnc true (normTx tx) b') : b'.length ≤ b.length := by
  obtain ⟨i, o, l, h1, h2, h3, rfl⟩ := h
  obtain ⟨i', o', l', g1, g2, g3, rfl⟩ := h'
  have := vec_shortest (g := fun i : TxIn => { i with assetIssuance := normIssuance i.assetIssuance })
    (fun _ _ _ e e' => txIn_shortest e e') h1 g1
  have := vec_shortest (g := id) (fun _ _ _ e e' => txOut_shortest e e') h2 (by rw [List.map_id]; exact g2)
  have a := h3.1; have a' := g3.1
  simp only [List.length_append]
  omega

theorem witness_shortest {tx : Tx} {b b' : Bytes} (h : WitnessEnc false tx b) (h' : WitnessEnc true (normTx tx) b') :
    b'.length ≤ b.length := by
  obtain ⟨i, o, h1, h2, rfl⟩ := h
  obtain ⟨i', o', g1, g2, rfl⟩ := h'
  have := seq_shortest (g := id) (fun _ _ _ e e' => txInWitness_shortest e e') h1 (by rw [List.map_id]; exact g1)
  have := seq_shortest (g := id) (fun _ _ _ e e' => txOutWitness_shortest e e') h2 (by rw [List.map_id]; exact g2)
  simp only [List.length_append]
  omega

theorem tx_shortest {tx : Tx} {b b' : Bytes} (h : TxEnc false tx b) (h' : TxEnc true (normTx tx) b') : b'.length ≤ b.length := by
  cases h with
  | extended h1 h2 h3 h4 h5 h6 =>
    cases h' with
    | extended g1 g2 g3 g4 g5 g6 =>
      have := body_shortest h2 g2; have := witness_shortest h3 g3
      have a := h1.1; have a' := g1.1
      simp only [List.length_append, List.length_cons, List.length_nil]
      omega
    | basic g1 g2 g3 g4 g5 g6 g7 => exact absurd g7 h6
  | basic h1 h2 h3 h4 h5 h6 h7 =>
    cases h' with
    | extended g1 g2 g3 g4 g5 g6 => exact absurd h7 g6
    | basic g1 g2 g3 g4 g5 g6 g7 =>
      have := body_shortest h2 g2
      have a := h1.1; have a' := g1.1
      simp only [List.length_append, List.length_cons, List.length_nil]
      omega

/-- C08: no byte string that is read as a transaction is shorter than what is written for it. -/
theorem C08_shortest (b b' : Bytes) (tx : Tx) (h : deserializeTx b = .ok tx) (h' : serializeTx tx = .ok b') : b'.length ≤ b.length := by
  have he := deserializeTx_ok.1 h
  have hw := normTx_wf (txEnc_stream he)
  refine tx_shortest he (txEnc_iff.2 ⟨hw, ?_⟩)
  unfold serializeTx at *
  rw [serTx_norm]
  exact h'

-- Not only equal lengths: a flag and a length may be written longer.
example : ∃ b b' tx, deserializeTx b = .ok tx ∧ serializeTx tx = .ok b' ∧ b'.length < b.length := by
  refine ⟨[2, 0, 0, 0, 0, 0xfd, 0, 0, 0, 0, 0, 0, 0], [2, 0, 0, 0, 0, 0, 0, 0, 0, 0, 0], ⟨2, [], [], 0, ⟨[], []⟩⟩, ?_, ?_, ?_⟩ <;> decide +kernel

/-! ### Missing witnesses -/

theorem serN_append {α : Type} (f : α → Except PyErr Bytes) : ∀ (xs ys : List α) (b : Bytes), serN f (xs ++ ys) = .ok b ↔
    ∃ b1 b2, serN f xs = .ok b1 ∧ serN f ys = .ok b2 ∧ b = b1 ++ b2
  | [], ys, b => by
    constructor
    · intro h; exact ⟨[], b, rfl, h, rfl⟩
    · rintro ⟨_, b2, h1, h2, rfl⟩
      cases h1
      exact h2
  | x :: xs, ys, b => by
    simp only [List.cons_append, serN, Except.bind_ok, Except.pure_ok]
    constructor
    · rintro ⟨a, h1, c, h2, rfl⟩
      obtain ⟨b1, b2, h3, h4, rfl⟩ := (serN_append f xs ys c).1 h2
      exact ⟨a ++ b1, b2, ⟨a, h1, b1, h3, rfl⟩, h4, by simp⟩
    · rintro ⟨_, b2, ⟨a, h1, b1, h3, rfl⟩, h4, rfl⟩
      exact ⟨a, h1, b1 ++ b2, (serN_append f xs ys _).2 ⟨b1, b2, h3, h4, rfl⟩, by simp⟩

theorem serN_replicate {α : Type} {f : α → Except PyErr Bytes} {x : α} {w : Bytes} (h : f x = .ok w) :
    ∀ {n : Nat} {b : Bytes}, serN f (List.replicate n x) = .ok b → b.length = n * w.length
  | 0, b, hb => by cases hb; simp
  | n + 1, b, hb => by
    simp only [List.replicate_succ, serN, Except.bind_ok, Except.pure_ok] at hb
    obtain ⟨a, h1, c, h2, rfl⟩ := hb
    rw [h] at h1
    cases h1
    have := serN_replicate h h2
    rw [List.length_append, this, Nat.add_mul]
    omega

theorem fill_wit (tx : Tx) : NoWitness (fillWitness tx).wit ↔ NoWitness tx.wit := by
  unfold NoWitness fillWitness
  simp only [List.mem_append, List.mem_replicate]
  constructor
  · rintro ⟨h1, h2⟩
    exact ⟨fun x hx => h1 x (.inl hx), fun x hx => h2 x (.inl hx)⟩
  · rintro ⟨h1, h2⟩
    exact ⟨fun x hx => hx.elim (h1 x) (fun h => h.2), fun x hx => hx.elim (h2 x) (fun h => h.2)⟩

theorem isNull_eq (w : TxWitness) : w.isNull = true ↔ NoWitness w := TxWitness.isNull_iff

/-- What is written for a transaction with witnesses, complete or missing. -/
theorem serTx_some {tx : Tx} {w : Bytes} (hn : tx.wit.isNull = false) (h : serTx true false tx = .ok w) :
    ∃ v i o l x, packS 4 tx.nVersion = .ok v ∧ serVec (serTxIn false) tx.vin = .ok i ∧ serVec serTxOut tx.vout = .ok o ∧
      packU 4 tx.nLockTime = .ok l ∧ serTxWitness tx.wit = .ok x ∧ w = v ++ [1] ++ i ++ o ++ l ++ x := by
  unfold serTx at h
  simp only [hn, Bool.not_false, Bool.and_true, if_true] at h
  cases c1 : (tx.wit.vtxinwit.length == 0 || tx.wit.vtxinwit.length == tx.vin.length)
  · rw [c1] at h
    obtain ⟨_, -, h⟩ := Except.bind_ok.1 h
    cases h
  cases c2 : (tx.wit.vtxoutwit.length == 0 || tx.wit.vtxoutwit.length == tx.vout.length)
  · rw [c1, c2] at h
    obtain ⟨_, -, h⟩ := Except.bind_ok.1 h
    cases h
  simp only [c1, c2, Bool.not_true, Bool.false_eq_true, if_false, Except.bind_ok, Except.pure_ok] at h
  obtain ⟨v, h1, i, h2, o, h3, l, h4, x, h5, rfl⟩ := h
  exact ⟨v, i, o, l, x, h1, h2, h3, h4, h5, rfl⟩

/-- C54: exactly which transactions survive the wire, of those whose fields fit it: those without any witness, and those whose witness lists are complete. -/
theorem C54_exact (tx : Tx) (hw : WFTx (fillWitness tx)) :
    Survives tx ↔ NoWitness tx.wit ∨ tx.wit.vtxinwit.length = tx.vin.length ∧ tx.wit.vtxoutwit.length = tx.vout.length := by
  have lin : tx.wit.vtxinwit.length ≤ tx.vin.length := by
    have := hw.witin
    simp only [fillWitness, List.length_append, List.length_replicate] at this
    omega
  have lout : tx.wit.vtxoutwit.length ≤ tx.vout.length := by
    have := hw.witout
    simp only [fillWitness, List.length_append, List.length_replicate] at this
    omega
  constructor
  · rintro ⟨b, t, h1, h2, rfl⟩
    by_cases hnw : NoWitness tx.wit
    · exact .inl hnw
    right
    have hn : tx.wit.isNull = false := by
      cases hc : tx.wit.isNull
      · rfl
      · exact absurd ((isNull_eq _).1 hc) hnw
    have hnf : (fillWitness tx).wit.isNull = false := by
      cases hc : (fillWitness tx).wit.isNull
      · rfl
      · exact absurd ((fill_wit tx).1 ((isNull_eq _).1 hc)) hnw
    obtain ⟨b', g1, g2⟩ := roundtrip_wf hw
    have hle := C08_shortest b b' _ h2 g1
    obtain ⟨v, i, o, l, x, e1, e2, e3, e4, e5, rfl⟩ := serTx_some hn h1
    obtain ⟨v', i', o', l', x', f1, f2, f3, f4, f5, rfl⟩ := serTx_some hnf g1
    have a1 : v' = v := Except.ok.inj (f1.symm.trans e1)
    have a2 : i' = i := Except.ok.inj (f2.symm.trans e2)
    have a3 : o' = o := Except.ok.inj (f3.symm.trans e3)
    have a4 : l' = l := Except.ok.inj (f4.symm.trans e4)
    subst a1 a2 a3 a4
    simp only [serTxWitness, Except.bind_ok, Except.pure_ok] at e5 f5
    obtain ⟨p, e6, q, e7, rfl⟩ := e5
    obtain ⟨p', f6, q', f7, rfl⟩ := f5
    obtain ⟨p1, p2, k1, k2, rfl⟩ := (serN_append _ _ _ _).1 f6
    obtain ⟨q1, q2, k3, k4, rfl⟩ := (serN_append _ _ _ _).1 f7
    have a5 : p1 = p := Except.ok.inj (k1.symm.trans e6)
    have a6 : q1 = q := Except.ok.inj (k3.symm.trans e7)
    subst a5 a6
    have m1 := serN_replicate (w := [0, 0, 0, 0]) (by rfl) k2
    have m2 := serN_replicate (w := [0, 0]) (by rfl) k4
    simp only [List.length_append, List.length_cons, List.length_nil] at hle m1 m2
    omega
  · rintro (hnw | ⟨h1, h2⟩)
    · obtain ⟨b, g1, g2⟩ := roundtrip_wf hw
      refine ⟨b, _, ?_, g2, rfl⟩
      rw [← g1]
      unfold serializeTx serTx
      rw [(isNull_eq _).2 hnw, (isNull_eq _).2 ((fill_wit tx).2 hnw)]
      rfl
    · have : fillWitness tx = tx := by
        unfold fillWitness
        rw [h1, h2]
        simp
      rw [this] at hw
      obtain ⟨b, g1, g2⟩ := roundtrip_wf hw
      exact ⟨b, tx, g1, g2, this.symm⟩

-- A transaction on the losing side: its input witnesses are there, its output witnesses are not.
private def half : Tx := ⟨2, [{ prevout := ⟨List.replicate 32 0, 0⟩, scriptSig := [], nSequence := 0 }], [{ scriptPubKey := [] }], 0, ⟨[{ scriptWitness := [[1]] }], []⟩⟩

example : ¬ Survives half := by
  rintro ⟨b, t, h1, h2, -⟩
  have e : serializeTx half = .ok ([2, 0, 0, 0, 1, 1] ++ List.replicate 32 0 ++ [0, 0, 0, 0, 0, 0, 0, 0, 0, 1, 0, 0, 0, 0, 0, 0, 0, 0, 0, 0, 1, 1, 1, 0]) := by decide +kernel
  rw [e] at h1
  cases h1
  revert h2
  cases hd : deserializeTx ([2, 0, 0, 0, 1, 1] ++ List.replicate 32 0 ++ [0, 0, 0, 0, 0, 0, 0, 0, 0, 1, 0, 0, 0, 0, 0, 0, 0, 0, 0, 0, 1, 1, 1, 0])
  · intro h; cases h
  · rename_i t'
    have : (deserializeTx ([2, 0, 0, 0, 1, 1] ++ List.replicate 32 0 ++ [0, 0, 0, 0, 0, 0, 0, 0, 0, 1, 0, 0, 0, 0, 0, 0, 0, 0, 0, 0, 1, 1, 1, 0])).isOk = false := by decide +kernel
    rw [hd] at this
    cases this

end Verif
