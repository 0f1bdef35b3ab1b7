import Verif.Sighash
import Verif.TxWriteLemmas
import Verif.Spec.Collision
/-
Unique parsing of the strings that signature hashes are computed from.
-/
namespace Verif
open Spec

theorem append_split {a b c d : Bytes} (h : a ++ b = c ++ d) (hl : a.length = c.length) : a = c ∧ b = d :=
  List.append_inj h hl

/-- Encodings under `f` of items in `W` can be told apart, with the property `g` of the
item recovered, whatever follows. -/
def PrefixInj {α β : Type} (W : α → Prop) (f : α → Except PyErr Bytes) (g : α → β) : Prop :=
  ∀ x y a b r s, W x → W y → f x = .ok a → f y = .ok b → a ++ r = b ++ s → g x = g y ∧ a = b

theorem serN_cons {α : Type} {f : α → Except PyErr Bytes} {x : α} {xs : List α} {w : Bytes} :
    serN f (x :: xs) = .ok w ↔ ∃ a b, f x = .ok a ∧ serN f xs = .ok b ∧ w = a ++ b := by
  simp only [serN, Except.bind_ok, Except.pure_ok]
  constructor
  · rintro ⟨a, h1, b, h2, h3⟩; exact ⟨a, b, h1, h2, h3⟩
  · rintro ⟨a, b, h1, h2, h3⟩; exact ⟨a, h1, b, h2, h3⟩

/-- A sequence of such items is determined by its encoding, including its length. -/
theorem serN_inj {α β : Type} {W : α → Prop} {f : α → Except PyErr Bytes} {g : α → β}
    (hp : PrefixInj W f g) (hne : ∀ x a, W x → f x = .ok a → a ≠ [])
    {xs ys : List α} {w : Bytes} (hx : ∀ x ∈ xs, W x) (hy : ∀ y ∈ ys, W y)
    (h1 : serN f xs = .ok w) (h2 : serN f ys = .ok w) : xs.map g = ys.map g := by
  induction xs generalizing ys w with
  | nil =>
    cases ys with
    | nil => rfl
    | cons y ys =>
      obtain ⟨a, b, ha, _, rfl⟩ := serN_cons.1 h2
      have e : ([] : Bytes) = a ++ b := Except.ok.inj h1
      exact absurd (List.append_eq_nil_iff.1 e.symm).1 (hne y a (hy y (by simp)) ha)
  | cons x xs ih =>
    obtain ⟨a, b, ha, hb, rfl⟩ := serN_cons.1 h1
    cases ys with
    | nil =>
      have e : ([] : Bytes) = a ++ b := Except.ok.inj h2
      exact absurd (List.append_eq_nil_iff.1 e.symm).1 (hne x a (hx x (by simp)) ha)
    | cons y ys =>
      obtain ⟨a', b', ha', hb', e⟩ := serN_cons.1 h2
      obtain ⟨hg, rfl⟩ := hp x y a a' b b' (hx x (by simp)) (hy y (by simp)) ha ha' e
      have e' : b = b' := List.append_cancel_left e
      subst e'
      simp only [List.map_cons, hg, List.cons.injEq, true_and]
      exact ih (fun z hz => hx z (by simp [hz])) (fun z hz => hy z (by simp [hz])) hb hb'

/-- From a reader that recognises the encodings. -/
theorem PrefixInj.of_reads {α β : Type} {W : α → Prop} {f : α → Except PyErr Bytes} {g : α → β}
    {p : P β} {E : β → Bytes → Prop} (hp : Reads p E) (h : ∀ x a, W x → f x = .ok a → E (g x) a) :
    PrefixInj W f g := by
  intro x y a b r s hx hy ha hb e
  obtain ⟨h1, h2, _⟩ := hp.unique (h x a hx ha) (h y b hy hb) e
  exact ⟨h1, h2⟩

theorem serOutPoint_len {o : OutPoint} {w : Bytes} (h : serOutPoint o = .ok w) : w.length = 36 := by
  obtain ⟨h1, x, h2, rfl⟩ := serOutPoint_ok.1 h
  simp [h1, h2.1]

theorem serOutPoint_inj {o o' : OutPoint} {w : Bytes} (h : serOutPoint o = .ok w) (h' : serOutPoint o' = .ok w) :
    o = o' := by
  obtain ⟨h1, x, h2, rfl⟩ := serOutPoint_ok.1 h
  obtain ⟨h1', x', h2', e⟩ := serOutPoint_ok.1 h'
  obtain ⟨e1, rfl⟩ := append_split e (by rw [h1, h1'])
  cases o; cases o'
  simp only [OutPoint.mk.injEq]
  exact ⟨e1, h2.2.symm.trans h2'.2⟩

theorem packU_len {k n : Nat} {w : Bytes} (h : packU k n = .ok w) : w.length = k := by
  rw [(packU_ok.1 h).2]; simp
theorem packS_len {k : Nat} {n : Int} {w : Bytes} (h : packS k n = .ok w) : w.length = k := by
  rw [(packS_ok.1 h).2]; simp
theorem packU_inj {k m n : Nat} {w : Bytes} (h : packU k m = .ok w) (h' : packU k n = .ok w) : m = n := by
  rw [packU_iff] at h h'; rw [← h.2, ← h'.2]
theorem packS_inj {k : Nat} {m n : Int} {w : Bytes} (h : packS k m = .ok w) (h' : packS k n = .ok w) : m = n := by
  obtain ⟨h1, e⟩ := packS_ok.1 h
  obtain ⟨h1', e'⟩ := packS_ok.1 h'
  rw [← untwos_twos h1, ← untwos_twos h1']
  rw [leBytes_inj (twos_lt k m) (twos_lt k n) (e ▸ e')]

theorem prevouts_prefix : PrefixInj (fun _ => True) (fun i : TxIn => serOutPoint i.prevout) (·.prevout) := by
  intro x y a b r s _ _ ha hb e
  obtain ⟨rfl, _⟩ := append_split e (by rw [serOutPoint_len ha, serOutPoint_len hb])
  exact ⟨serOutPoint_inj ha hb, rfl⟩

theorem sequences_prefix : PrefixInj (fun _ => True) (fun i : TxIn => packU 4 i.nSequence) (·.nSequence) := by
  intro x y a b r s _ _ ha hb e
  obtain ⟨rfl, _⟩ := append_split e (by rw [packU_len ha, packU_len hb])
  exact ⟨packU_inj ha hb, rfl⟩

theorem serVarBytes_enc {s w : Bytes} (hl : s.length ≤ maxItem) (h : serVarBytes s = .ok w) :
    BytesEnc VarIntEnc s w := bytesEnc_relax (bytesMin_iff.2 ⟨hl, h⟩)

theorem serVarBytes_prefix : PrefixInj (fun s : Bytes => s.length ≤ maxItem) serVarBytes id :=
  PrefixInj.of_reads Reads.readVarBytes (fun _ _ => serVarBytes_enc)

theorem serVarInt_ne {n : Nat} {w : Bytes} (h : serVarInt n = .ok w) : w ≠ [] := by
  have := (serVarInt_ok.1 h).1
  cases this <;> simp

theorem serVarBytes_ne {s w : Bytes} (h : serVarBytes s = .ok w) : w ≠ [] := by
  obtain ⟨l, hl, rfl⟩ := serVarBytes_ok.1 h
  have := hl.1
  cases this <;> simp

theorem serConf_ne (c : Bytes) : serConf c ≠ [] := by
  unfold serConf
  split
  · intro h; simp_all
  · simp

theorem outputs_prefix : PrefixInj WFOut serTxOut id :=
  PrefixInj.of_reads Codec.readTxOut.1 (fun _ _ hx h => txOutEnc_relax (txOutEnc_iff.2 ⟨hx, h⟩))

theorem serTxOut_ne {o : TxOut} {w : Bytes} (h : serTxOut o = .ok w) : w ≠ [] := by
  simp only [serTxOut, Except.bind_ok, Except.pure_ok] at h
  obtain ⟨s, hs, rfl⟩ := h
  simp [serConf_ne]

theorem outWitness_prefix : PrefixInj WFOutWitness serTxOutWitness id :=
  PrefixInj.of_reads Codec.readTxOutWitness.1 (fun _ _ hx h => txOutWitnessEnc_relax (txOutWitnessEnc_iff.2 ⟨hx, h⟩))

theorem serTxOutWitness_ne {o : TxOutWitness} {w : Bytes} (h : serTxOutWitness o = .ok w) : w ≠ [] := by
  simp only [serTxOutWitness, Except.bind_ok, Except.pure_ok] at h
  obtain ⟨s, hs, r, hr, rfl⟩ := h
  simp [serVarBytes_ne hs]

theorem serIssuance_enc {i : Issuance} (h : WFIssuance i) : IssuanceEnc i (serIssuance i) :=
  issuanceEnc_iff.2 ⟨⟨h.nonce, h.entropy, h.amount, h.keys⟩, rfl⟩

theorem serIssuance_prefix {i j : Issuance} {r s : Bytes} (hi : WFIssuance i) (hj : WFIssuance j)
    (e : serIssuance i ++ r = serIssuance j ++ s) : i = j ∧ r = s := by
  obtain ⟨h1, _, h3⟩ := Codec.readIssuance.1.unique (serIssuance_enc hi) (serIssuance_enc hj) e
  exact ⟨h1, h3⟩

/-- Null or not agrees, then the issuance is recovered. -/
theorem issuanceOrZero_prefix {i j : Issuance} {r s : Bytes} (hi : WFIssuance i) (hj : WFIssuance j)
    (hn : i.isNull = j.isNull)
    (e : issuanceOrZero i ++ r = issuanceOrZero j ++ s) : i = j ∧ r = s := by
  unfold issuanceOrZero at e
  cases h : i.isNull
  · rw [← hn, h] at e; exact serIssuance_prefix hi hj (by simpa using e)
  · rw [← hn, h] at e
    simp only [if_true, List.cons_append, List.nil_append, List.cons.injEq, true_and] at e
    exact ⟨by rw [hi.null (Issuance.isNull_iff.1 h), hj.null (Issuance.isNull_iff.1 (hn ▸ h))], e⟩

theorem issuances_inj {xs ys : List TxIn} (hx : ∀ x ∈ xs, WFIssuance x.assetIssuance)
    (hy : ∀ y ∈ ys, WFIssuance y.assetIssuance)
    (hn : xs.map (·.assetIssuance.isNull) = ys.map (·.assetIssuance.isNull))
    (e : (xs.map fun i => issuanceOrZero i.assetIssuance).flatten =
      (ys.map fun i => issuanceOrZero i.assetIssuance).flatten) :
    xs.map (·.assetIssuance) = ys.map (·.assetIssuance) := by
  induction xs generalizing ys with
  | nil => cases ys with
    | nil => rfl
    | cons y ys => simp at hn
  | cons x xs ih =>
    cases ys with
    | nil => simp at hn
    | cons y ys =>
      simp only [List.map_cons, List.cons.injEq, List.flatten_cons] at hn e
      obtain ⟨e1, e2⟩ := issuanceOrZero_prefix (hx x (by simp)) (hy y (by simp)) hn.1 e
      simp only [List.map_cons, e1, List.cons.injEq, true_and]
      exact ih (fun z hz => hx z (by simp [hz])) (fun z hz => hy z (by simp [hz])) hn.2 e2

/-! ### Lengths and amounts -/

theorem validValue_len {c : Bytes} (h : ValidField 9 8 9 c) :
    c = [] ∨ (c.length = 9 ∧ c.head? = some 1) ∨ (c.length = 33 ∧ c.head? ≠ some 1) := by
  rcases h with h | h | ⟨h, h' | h'⟩
  · exact Or.inl h
  · exact Or.inr (Or.inl h)
  · exact Or.inr (Or.inr ⟨h, by rw [h']; decide⟩)
  · exact Or.inr (Or.inr ⟨h, by rw [h']; decide⟩)

theorem serConf_len_value {c : Bytes} (h : ValidField 9 8 9 c) :
    (c = [] ∧ (serConf c).length = 1) ∨ (serConf c).length = 9 ∨ (serConf c).length = 33 := by
  rcases validValue_len h with rfl | ⟨h, _⟩ | ⟨h, _⟩
  · exact Or.inl ⟨rfl, rfl⟩
  · right; left; simp [serConf, h]
  · right; right; simp [serConf, h]

/-- Issuance bytes of the signed input: absent or of one of five lengths. -/
def issSigned (i : Issuance) : Bytes := if !i.isNull then serIssuance i else []

theorem issSigned_len {i : Issuance} (h : WFIssuance i) :
    (i.isNull = true ∧ (issSigned i).length = 0) ∨
    (i.isNull = false ∧ ((issSigned i).length = 74 ∨ (issSigned i).length = 82 ∨ (issSigned i).length = 98 ∨
      (issSigned i).length = 106 ∨ (issSigned i).length = 130)) := by
  unfold issSigned
  cases hn : i.isNull
  · right
    refine ⟨rfl, ?_⟩
    have hn' := Issuance.isNull_false.1 hn
    simp only [Bool.not_false, if_true, serIssuance, List.length_append, h.nonce, h.entropy]
    rcases serConf_len_value h.amount with ⟨h1, h2⟩ | h2 | h2 <;>
      rcases serConf_len_value h.keys with ⟨h3, h4⟩ | h4 | h4 <;>
      first
      | (rw [h2, h4]; omega)
      | exact absurd ⟨by assumption, by assumption⟩ hn'
  · left; simp

/-- The tail of a v0 preimage, from the amount on, can be parsed although the amount and
the issuance have no length prefix. -/
theorem amount_parse {a a' q q' d d' : Bytes} {i i' : Issuance}
    (ha : ValidField 9 8 9 a) (ha' : ValidField 9 8 9 a') (hi : WFIssuance i) (hi' : WFIssuance i')
    (hq : q.length = 4) (hq' : q'.length = 4) (hd : d.length = 40) (hd' : d'.length = 40)
    (e : a ++ (q ++ (issSigned i ++ d)) = a' ++ (q' ++ (issSigned i' ++ d'))) :
    a = a' ∧ q = q' ∧ i = i' ∧ d = d' := by
  have hl := congrArg List.length e
  simp only [List.length_append, hq, hq', hd, hd'] at hl
  have hlen : a.length = a'.length := by
    rcases validValue_len ha with rfl | ⟨h1, h2⟩ | ⟨h1, h2⟩ <;>
      rcases validValue_len ha' with rfl | ⟨h3, h4⟩ | ⟨h3, h4⟩ <;>
      rcases issSigned_len hi with ⟨_, h5⟩ | ⟨_, h5⟩ <;>
      rcases issSigned_len hi' with ⟨_, h6⟩ | ⟨_, h6⟩ <;>
      (try simp only [List.length_nil] at hl ⊢) <;>
      first
      | omega
      | (exfalso
         have := congrArg List.head? e
         cases a with
         | nil => simp at h1
         | cons x xs => cases a' with
           | nil => simp at h3
           | cons y ys => simp_all)
  obtain ⟨rfl, e2⟩ := append_split e hlen
  obtain ⟨rfl, e3⟩ := append_split e2 (by rw [hq, hq'])
  have hli : (issSigned i).length = (issSigned i').length := by
    omega
  obtain ⟨e1, rfl⟩ := append_split e3 hli
  refine ⟨rfl, rfl, ?_, rfl⟩
  rcases issSigned_len hi with ⟨h1, h2⟩ | ⟨h1, h2⟩
  · rcases issSigned_len hi' with ⟨h3, h4⟩ | ⟨h3, h4⟩
    · rw [hi.null (Issuance.isNull_iff.1 h1), hi'.null (Issuance.isNull_iff.1 h3)]
    · omega
  · rcases issSigned_len hi' with ⟨h3, h4⟩ | ⟨h3, h4⟩
    · omega
    · simp only [issSigned, h1, h3, Bool.not_false, if_true] at e1
      exact (serIssuance_prefix (r := []) (s := []) hi hi' (by rw [e1])).1

theorem partHash_len (h : HashFn) (p : Option Bytes) : (partHash h p).length = 32 := by
  cases p
  · simp [partHash, zero32]
  · exact h.len _

/-! ### Python indexing at a natural number -/

theorem pyGet_nat {α : Type} (l : List α) (i : Nat) :
    pyGet l (i : Int) = match l[i]? with | some x => .ok x | none => .error .indexError := by
  unfold pyGet
  have h : ¬ ((i : Int) < 0) := by omega
  simp only [h, if_false, Int.toNat_natCast]
  cases l[i]? <;> rfl

theorem pyGet_nat_ok {α : Type} {l : List α} {i : Nat} {x : α} : pyGet l (i : Int) = .ok x ↔ l[i]? = some x := by
  rw [pyGet_nat]
  cases l[i]? <;> simp

end Verif
