import Verif.Props.SighashV0
import Verif.Props.Script
import Verif.Spec.SighashBase
/-
C19: legacy signature hashes.
-/
namespace Verif
open Spec

theorem scriptNext_cases {s : Bytes} {op : UInt8} {x : Option Bytes} {r : Bytes} (h : scriptNext s = .ok (op, x, r)) :
    (∃ b, s = b :: r ∧ op = b ∧ 0x4e < b) ∨ (∃ d w, PushEnc d w ∧ s = w ++ r ∧ op ≠ 0xab ∧ x = some d) := by
  cases x with
  | none =>
    left
    cases s with
    | nil => cases h
    | cons b t =>
      have hb : op = b := scriptNext_op h
      rw [scriptNext] at h
      split at h
      · rename_i hgt
        cases h
        exact ⟨op, rfl, rfl, hgt⟩
      · split at h
        · exact absurd h scriptData_none
        · split at h
          · split at h
            · cases h
            · exact absurd h scriptData_none
          · split at h
            · split at h
              · cases h
              · exact absurd h scriptData_none
            · split at h
              · cases h
              · exact absurd h scriptData_none
  | some d =>
    right
    obtain ⟨p, hp, hd⟩ := scriptNext_push.1 ⟨op, h⟩
    refine ⟨d, p, hd, hp, ?_, rfl⟩
    rintro rfl
    cases s with
    | nil => cases h
    | cons b t =>
      have : 0xab = b := scriptNext_op h
      subst this
      rw [scriptNext, if_pos (by decide)] at h
      cases h

theorem push_next {d w r : Bytes} (h : PushEnc d w) : ∃ op, scriptNext (w ++ r) = .ok (op, some d, r) ∧ op ≠ 0xab := by
  obtain ⟨op, ho⟩ := scriptNext_push.2 ⟨w, rfl, h⟩
  refine ⟨op, ho, ?_⟩
  rcases scriptNext_cases ho with ⟨b, h1, _, hb⟩ | ⟨_, _, _, _, h, _⟩
  · exfalso
    cases h <;> simp only [List.cons_append, List.cons.injEq] at h1 <;> obtain ⟨rfl, _⟩ := h1
    · rename_i hd
      rw [UInt8.lt_iff_toNat_lt] at hb
      have : (UInt8.ofNat d.length).toNat = d.length := by simp; omega
      have e : (78 : UInt8).toNat = 78 := rfl
      omega
    · exact absurd hb (by decide)
    · exact absurd hb (by decide)
    · exact absurd hb (by decide)
  · exact h

theorem push_ne {d w : Bytes} (h : PushEnc d w) : w ≠ [] := by cases h <;> simp

theorem scriptNext_end {s : Bytes} (h : scriptNext s = .error .stopIteration) : s = [] := by
  cases s with
  | nil => rfl
  | cons b t =>
    exfalso
    have key : ∀ {n t}, scriptData b n t ≠ .error .stopIteration := by
      intro n t h
      unfold scriptData at h
      split at h <;> cases h
    rw [scriptNext] at h
    split at h
    · cases h
    · split at h
      · exact key h
      · split at h
        · split at h
          · cases h
          · exact key h
        · split at h
          · split at h
            · cases h
            · exact key h
          · split at h
            · cases h
            · exact key h

theorem dropSeparators_iff {s c : Bytes} {fuel : Nat} (hf : s.length < fuel) :
    dropSeparators fuel s = .ok c ↔ StripSep s c := by
  induction fuel generalizing s c with
  | zero => omega
  | succ fuel ih =>
    rw [dropSeparators]
    constructor
    · intro h
      split at h
      · rename_i he
        rw [scriptNext_end he]
        cases h; exact .nil
      · cases h
      · rename_i op x r he
        simp only [Except.bind_ok, Except.pure_ok] at h
        obtain ⟨c', hc', rfl⟩ := h
        rcases scriptNext_cases he with ⟨b, rfl, rfl, hb⟩ | ⟨d, w, hw, rfl, hne, _⟩
        · have := (ih (by simp at hf; omega)).1 hc'
          split
          · rename_i h; rw [h]; exact .sep this
          · rename_i h
            have e : (op :: r).take ((op :: r).length - r.length) = [op] := by
              simp only [List.length_cons, Nat.add_sub_cancel_left]; rfl
            rw [e]
            exact .op hb h this
        · have hwl : 0 < w.length := List.length_pos_iff.2 (push_ne hw)
          have := (ih (by simp at hf; omega)).1 hc'
          rw [if_neg (show ¬ _ = OP_CODESEPARATOR from hne)]
          have e : (w ++ r).take ((w ++ r).length - r.length) = w := by
            simp
          rw [e]
          exact .push hw this
    · intro h
      cases h with
      | nil => rfl
      | sep h =>
        rename_i s
        rw [scriptNext, if_pos (by decide)]
        have := (ih (by simp at hf; omega)).2 h
        simp only [this, ok_bind]
        rfl
      | op hb hne h =>
        rename_i b s c
        rw [scriptNext, if_pos (show b > OP_PUSHDATA4 from hb)]
        have := (ih (by simp at hf; omega)).2 h
        simp only [this, ok_bind]
        rw [if_neg (show ¬ _ = OP_CODESEPARATOR from hne)]
        have e : (b :: s).take ((b :: s).length - s.length) = [b] := by
          simp only [List.length_cons, Nat.add_sub_cancel_left]; rfl
        rw [e]; rfl
      | push hw h =>
        rename_i d w s c
        obtain ⟨op, ho, hne⟩ := push_next (r := s) hw
        have hwl : 0 < w.length := List.length_pos_iff.2 (push_ne hw)
        have := (ih (by simp at hf; omega)).2 h
        rw [ho]
        simp only [this, ok_bind]
        rw [if_neg (show ¬ _ = OP_CODESEPARATOR from hne)]
        have e : (w ++ s).take ((w ++ s).length - s.length) = w := by simp
        rw [e]; rfl

theorem legacyScriptCode_iff {s c : Bytes} : legacyScriptCode s = .ok c ↔ StripSep s c :=
  dropSeparators_iff (by omega)

theorem stripSep_len {s c : Bytes} (h : StripSep s c) : c.length ≤ s.length := by
  induction h with
  | nil => simp
  | sep _ ih => simp; omega
  | op _ _ _ ih => simp; omega
  | push _ _ ih => simp; omega

/-! ### The blanked transaction -/

theorem legacyInputs_eq (code : Bytes) (tx : Tx) (idx ht : Nat) (hi : idx < tx.vin.length) :
    legacyAcp (if htNone ht || htSingle ht then zeroOtherSeq idx (legacyScripts code tx idx) else legacyScripts code tx idx)
      idx ht = .ok (legacyInputs code tx.vin idx ht) := by
  have hs : ∀ k : Nat, (legacyScripts code tx idx)[k]? =
      (tx.vin[k]?).map fun i => if k = idx then { i with scriptSig := code } else { i with scriptSig := [] } := by
    intro k
    unfold legacyScripts
    simp only [List.getElem?_mapIdx]
    congr 1
    funext i
    simp only [show ¬ ((idx : Int) < 0) by omega, if_false, Int.natCast_inj]
  have hz : ∀ k : Nat, (if htNone ht || htSingle ht then zeroOtherSeq idx (legacyScripts code tx idx)
        else legacyScripts code tx idx)[k]? =
      (tx.vin[k]?).map fun i => if k = idx then { i with scriptSig := code }
        else { i with scriptSig := [], nSequence := if OutAll ht then i.nSequence else 0 } := by
    intro k
    by_cases ho : OutAll ht
    · have h1 : htNone ht = false := (not_true_iff_false htNone_iff).2 ho.1
      have h2 : htSingle ht = false := (not_true_iff_false htSingle_iff).2 ho.2
      rw [h1, h2]
      simp only [Bool.or_self, Bool.false_eq_true, if_false, hs, if_pos ho]
    · have : (htNone ht || htSingle ht) = true := by
        rw [Bool.or_eq_true, htNone_iff, htSingle_iff]
        unfold OutAll at ho
        by_cases OutNone ht
        · exact Or.inl ‹_›
        · right
          by_cases OutSingle ht
          · assumption
          · exact absurd ⟨‹_›, ‹_›⟩ ho
      rw [if_pos this]
      unfold zeroOtherSeq
      simp only [List.getElem?_mapIdx, hs, Option.map_map, if_neg ho]
      congr 1
      funext i
      simp only [Function.comp, Int.natCast_inj]
      split
      · rfl
      · rfl
  unfold legacyAcp legacyInputs
  by_cases ha : AnyoneCanPay ht
  · rw [if_pos (htAcp_iff.2 ha), if_pos ha]
    obtain ⟨i, hi'⟩ : ∃ i, tx.vin[idx]? = some i := ⟨_, List.getElem?_eq_getElem hi⟩
    have := hz idx
    rw [hi'] at this
    rw [Except.map_ok]
    exact ⟨_, pyGet_nat_ok.2 this, by simp [hi']⟩
  · rw [if_neg (by rw [htAcp_iff]; exact ha), if_neg ha]
    congr 1
    apply List.ext_getElem?
    intro k
    rw [hz, List.getElem?_mapIdx]

theorem legacyOutputs_eq (tx : Tx) (idx ht : Nat) (hi : OutSingle ht → idx < tx.vout.length) :
    legacyVout tx idx ht = .ok (legacyOutputs tx.vout idx ht) := by
  unfold legacyVout legacyOutputs
  by_cases hn : OutNone ht
  · rw [if_pos (htNone_iff.2 hn), if_pos hn]
  · rw [if_neg (by rw [htNone_iff]; exact hn), if_neg hn]
    by_cases hs : OutSingle ht
    · rw [if_pos (htSingle_iff.2 hs), if_pos hs]
      obtain ⟨o, hi'⟩ : ∃ o, tx.vout[idx]? = some o := ⟨_, List.getElem?_eq_getElem (hi hs)⟩
      rw [pyGet_nat_ok.2 hi', ok_bind, hi']
      rfl
    · rw [if_neg (by rw [htSingle_iff]; exact hs), if_neg hs]

theorem wireOutPoint_sig {i : TxIn} (h : WFIn i) :
    wireOutPoint true i = .ok (i.prevout, !i.assetIssuance.isNull) := by
  unfold wireOutPoint
  rcases h.index with ⟨h1, h2, h3⟩ | ⟨h1, _⟩
  · rw [if_pos h1, Issuance.isNull_iff.2 h3]; rfl
  · rw [if_neg (by omega)]
    have h3 : ¬ ((i.prevout.n >>> 30) <<< 30 ≠ 0) := by rw [ne_eq, shift_zero, Decidable.not_not]; exact h1
    have h4 : i.prevout.n &&& OUTPOINT_INDEX_MASK = i.prevout.n := by
      unfold OUTPOINT_INDEX_MASK
      rw [show (0x3fffffff : Nat) = 2 ^ 30 - 1 from rfl, Nat.and_two_pow_sub_one_eq_mod]
      exact Nat.mod_eq_of_lt h1
    simp only [if_neg h3, Bool.not_true, Bool.false_eq_true, if_false, h4]
    have : outPointNew i.prevout.hash i.prevout.n = .ok i.prevout := by
      unfold outPointNew
      rw [if_neg (by simp [h.hash]), if_neg (by omega)]
    rw [this]; rfl

theorem sigInEnc_iff {i : TxIn} {w : Bytes} (h : WFIn i) : SigInEnc i w ↔ serTxIn true i = .ok w := by
  have hop := wireOutPoint_sig h
  unfold SigInEnc serTxIn
  rw [hop, ok_bind]
  simp only [Except.bind_ok, Except.pure_ok, serOutPoint_ok, ← len_true, bytesMin_iff, uintEnc_iff, packU_ok, issuanceEnc_iff]
  constructor
  · rintro ⟨x, s, q, t, ⟨h1, rfl⟩, ⟨_, h2⟩, ⟨h3, rfl⟩, h4, rfl⟩
    refine ⟨_, ⟨h.hash, _, ⟨h1, rfl⟩, rfl⟩, s, h2, _, ⟨h3, rfl⟩, ?_⟩
    rcases h4 with ⟨h4, rfl⟩ | ⟨h4, _, rfl⟩
    · simp [Issuance.isNull_iff.2 h4]
    · simp [Issuance.isNull_false.2 h4]
  · rintro ⟨_, ⟨_, _, ⟨h1, rfl⟩, rfl⟩, s, h2, _, ⟨h3, rfl⟩, rfl⟩
    refine ⟨_, s, _, _, ⟨h1, rfl⟩, ⟨h.script, h2⟩, ⟨h3, rfl⟩, ?_, rfl⟩
    by_cases h4 : NoIssue i.assetIssuance
    · left; exact ⟨h4, by simp [Issuance.isNull_iff.2 h4]⟩
    · right
      exact ⟨h4, ⟨h.iss.nonce, h.iss.entropy, h.iss.amount, h.iss.keys⟩, by simp [Issuance.isNull_false.2 h4]⟩

theorem seqEnc_mem_iff {α : Type} {E F : α → Bytes → Prop} {xs : List α} {b : Bytes}
    (h : ∀ x ∈ xs, ∀ w, E x w ↔ F x w) : SeqEnc E xs b ↔ SeqEnc F xs b := by
  induction xs generalizing b with
  | nil => constructor <;> (intro h; cases h; exact .nil)
  | cons x xs ih =>
    have ih := fun b => @ih b (fun y hy => h y (List.mem_cons_of_mem _ hy))
    constructor
    · intro h'
      cases h' with
      | cons h1 h2 => exact .cons ((h x List.mem_cons_self _).1 h1) ((ih _).1 h2)
    · intro h'
      cases h' with
      | cons h1 h2 => exact .cons ((h x List.mem_cons_self _).2 h1) ((ih _).2 h2)

theorem vecEnc_serVec {α : Type} {E : α → Bytes → Prop} {f : α → Except PyErr Bytes} {xs : List α} {b : Bytes}
    (h : ∀ x ∈ xs, ∀ w, E x w ↔ f x = .ok w) (hl : xs.length < 18446744073709551616) :
    VecEnc VarIntMin E xs b ↔ serVec f xs = .ok b := by
  have := vecEncMin_iff (E := fun x w => f x = .ok w) (W := fun _ => True) (f := f) (by simp) (xs := xs) (b := b)
  rw [len_true] at this
  rw [show VecEnc VarIntMin E xs b ↔ VecEnc VarIntMin (fun x w => f x = .ok w) xs b by
    unfold VecEnc; simp only [seqEnc_mem_iff h], this]
  simp [hl]

theorem legacyInputs_wf {code : Bytes} {vin : List TxIn} (h : ∀ i ∈ vin, WFIn i) (hc : code.length ≤ maxItem)
    (idx ht : Nat) : ∀ i ∈ legacyInputs code vin idx ht, WFIn i := by
  have key : ∀ i, WFIn i → WFIn { i with scriptSig := code } := fun i h => ⟨h.hash, hc, h.seq, h.iss, h.index⟩
  unfold legacyInputs
  intro i hi
  split at hi
  · simp only [List.mem_map, Option.mem_toList] at hi
    obtain ⟨j, hj, rfl⟩ := hi
    exact key j (h j (List.mem_of_getElem? hj))
  · rw [List.mem_mapIdx] at hi
    obtain ⟨k, hk, rfl⟩ := hi
    have hj := h _ (List.getElem_mem hk)
    split
    · exact key _ hj
    · refine ⟨hj.hash, by simp, ?_, hj.iss, hj.index⟩
      show (if OutAll ht then vin[k].nSequence else 0) < 4294967296
      split
      · exact hj.seq
      · decide

theorem legacyOutputs_wf {vout : List TxOut} (h : ∀ o ∈ vout, WFOut o) (idx ht : Nat) :
    ∀ o ∈ legacyOutputs vout idx ht, WFOut o := by
  unfold legacyOutputs
  intro o ho
  split at ho
  · cases ho
  · split at ho
    · simp only [List.mem_append, List.mem_replicate, Option.mem_toList] at ho
      rcases ho with ⟨_, rfl⟩ | ho
      · exact ⟨Or.inl rfl, Or.inl rfl, Or.inl rfl, by simp⟩
      · exact h o (List.mem_of_getElem? ho)
    · exact h o ho

theorem legacyInputs_len (code : Bytes) (vin : List TxIn) (idx ht : Nat) :
    (legacyInputs code vin idx ht).length ≤ vin.length ∨ (legacyInputs code vin idx ht).length ≤ 1 := by
  unfold legacyInputs
  split
  · right
    cases vin[idx]? <;> simp
  · left; simp

/-- C19: the constant hash comes with an error exactly when the index has no input or, under
SINGLE, no output.  (In the latter case the script is decoded first, which may raise.) -/
theorem C19_error_iff (h : HashFn) (script : Bytes) (tx : Tx) (idx ht : Nat) (amount : Option Bytes) (d : Bytes) :
    rawSighash h script tx idx ht amount .base = .ok (d, true) ↔
      d = 1 :: List.replicate 31 0 ∧
      (tx.vin.length ≤ idx ∨ (OutSingle ht ∧ tx.vout.length ≤ idx ∧ ∃ code, StripSep script code)) := by
  unfold rawSighash sighashBase
  simp only
  by_cases h1 : tx.vin.length ≤ idx
  · rw [if_pos (by omega)]
    simp [h1, hashOne, eq_comm]
  · rw [if_neg (by omega)]
    have h1 : idx < tx.vin.length := by omega
    rw [pyGet_nat_ok.2 (List.getElem?_eq_getElem h1), ok_bind]
    cases hc : legacyScriptCode script with
    | error e =>
      rw [error_bind]
      constructor
      · intro h; cases h
      · rintro ⟨_, h | ⟨_, _, c, hc'⟩⟩
        · omega
        · rw [legacyScriptCode_iff.2 hc'] at hc; cases hc
    | ok c =>
      rw [ok_bind]
      by_cases h2 : OutSingle ht ∧ tx.vout.length ≤ idx
      · have : (htSingle ht && decide ((idx : Int) ≥ tx.vout.length)) = true := by
          rw [htSingle_iff.2 h2.1]; simp; omega
        rw [if_pos this]
        have hc := legacyScriptCode_iff.1 hc
        constructor
        · intro h
          have : hashOne = d := (Prod.mk.inj (Except.ok.inj h)).1
          exact ⟨this.symm, Or.inr ⟨h2.1, h2.2, c, hc⟩⟩
        · rintro ⟨rfl, _⟩; rfl
      · have : ¬ (htSingle ht && decide ((idx : Int) ≥ tx.vout.length)) = true := by
          rw [Bool.and_eq_true, htSingle_iff]
          simp only [decide_eq_true_eq]
          intro ⟨a, b⟩
          exact h2 ⟨a, by omega⟩
        rw [if_neg this]
        constructor
        · intro h
          simp only [Except.bind_ok, Except.pure_ok] at h
          obtain ⟨_, _, _, _, _, _, _, _, h⟩ := h
          cases h
        · rintro ⟨_, h | ⟨a, b, _⟩⟩
          · omega
          · exact absurd ⟨a, b⟩ h2

/-- C19: otherwise the hash is that of the blanked transaction. -/
theorem C19_hash (h : HashFn) {script : Bytes} {tx : Tx} {idx ht : Nat} (amount : Option Bytes) (hw : WFTx tx)
    (hs : script.length ≤ maxItem) (d : Bytes) :
    rawSighash h script tx idx ht amount .base = .ok (d, false) ↔
      idx < tx.vin.length ∧ (OutSingle ht → idx < tx.vout.length) ∧
      ∃ code pre, StripSep script code ∧ LegacyPreimage code tx idx ht pre ∧ d = h.dbl pre := by
  unfold rawSighash sighashBase
  simp only
  by_cases h1 : tx.vin.length ≤ idx
  · rw [if_pos (by omega)]
    constructor
    · intro h; cases h
    · rintro ⟨h, _⟩; omega
  · rw [if_neg (by omega)]
    have h1 : idx < tx.vin.length := by omega
    rw [pyGet_nat_ok.2 (List.getElem?_eq_getElem h1), ok_bind]
    by_cases h2 : OutSingle ht ∧ tx.vout.length ≤ idx
    · have : (htSingle ht && decide ((idx : Int) ≥ tx.vout.length)) = true := by
        rw [htSingle_iff.2 h2.1]; simp; omega
      simp only [if_pos this]
      constructor
      · intro h
        cases hc : legacyScriptCode script <;> rw [hc] at h <;> cases h
      · rintro ⟨_, h, _⟩
        have := h h2.1
        omega
    · have : ¬ (htSingle ht && decide ((idx : Int) ≥ tx.vout.length)) = true := by
        rw [Bool.and_eq_true, htSingle_iff]
        simp only [decide_eq_true_eq]
        intro ⟨a, b⟩
        exact h2 ⟨a, by omega⟩
      simp only [if_neg this]
      have h3 : OutSingle ht → idx < tx.vout.length := by
        intro ho
        rcases Nat.lt_or_ge idx tx.vout.length with h | h
        · exact h
        · exact absurd ⟨ho, h⟩ h2
      have hv := legacyOutputs_eq tx idx ht h3
      have key : ∀ code, StripSep script code → ∀ pre, LegacyPreimage code tx idx ht pre ↔
          ∃ s t, serTx false true
              { tx with vin := legacyInputs code tx.vin idx ht, vout := legacyOutputs tx.vout idx ht, wit := {} } = .ok s ∧
            packS 4 (ht : Int) = .ok t ∧ pre = s ++ t := by
        intro code hcode pre
        have hcl : code.length ≤ maxItem := Nat.le_trans (stripSep_len hcode) hs
        have hil : (legacyInputs code tx.vin idx ht).length < 18446744073709551616 := by
          have := hw.nin
          rcases legacyInputs_len code tx.vin idx ht with h | h <;> omega
        have hol : (legacyOutputs tx.vout idx ht).length < 18446744073709551616 := by
          have := hw.nout
          unfold legacyOutputs
          split
          · simp
          · split
            · rename_i ho
              have := h3 ho
              simp [this]; omega
            · omega
        unfold LegacyPreimage
        have a1 : ∀ b, VecEnc VarIntMin SigInEnc (legacyInputs code tx.vin idx ht) b ↔
            serVec (serTxIn true) (legacyInputs code tx.vin idx ht) = .ok b := fun b =>
          vecEnc_serVec (fun i hi w => sigInEnc_iff (i := i) (w := w) (legacyInputs_wf hw.vin hcl idx ht i hi)) hil
        have a2 : ∀ b, VecEnc VarIntMin (TxOutEnc true) (legacyOutputs tx.vout idx ht) b ↔
            serVec serTxOut (legacyOutputs tx.vout idx ht) = .ok b := fun b =>
          vecEnc_serVec (fun o ho w => (txOutEnc_iff (o := o) (w := w)).trans
            ⟨fun h => h.2, fun h => ⟨legacyOutputs_wf hw.vout idx ht o ho, h⟩⟩) hol
        simp only [a1, a2, sintEnc_iff', uintEnc_iff, ← packS_ok, ← packU_ok]
        simp only [serTx_basic (iw := false) (fs := true) (Bool.false_and _)]
        constructor
        · rintro ⟨v, i, o, l, t, e1, e2, e3, e4, e5, rfl⟩
          exact ⟨_, t, ⟨v, i, o, l, e1, e2, e3, e4, rfl⟩, e5, by simp⟩
        · rintro ⟨_, t, ⟨v, i, o, l, e1, e2, e3, e4, rfl⟩, e5, rfl⟩
          exact ⟨v, i, o, l, t, e1, e2, e3, e4, e5, by simp⟩
      constructor
      · intro e
        cases hc : legacyScriptCode script with
        | error e' => rw [hc] at e; cases e
        | ok code =>
          rw [hc, ok_bind, hv, ok_bind, legacyInputs_eq code tx idx ht h1, ok_bind] at e
          simp only [Except.bind_ok, Except.pure_ok] at e
          obtain ⟨s, e1, t, e2, e3⟩ := e
          have hcode := legacyScriptCode_iff.1 hc
          exact ⟨h1, h3, code, s ++ t, hcode, (key code hcode _).2 ⟨s, t, e1, e2, rfl⟩, (Prod.mk.inj e3).1⟩
      · rintro ⟨_, _, code, pre, hcode, hpre, rfl⟩
        obtain ⟨s, t, e1, e2, rfl⟩ := (key code hcode _).1 hpre
        rw [legacyScriptCode_iff.2 hcode, ok_bind, hv, ok_bind, legacyInputs_eq code tx idx ht h1, ok_bind, e1, ok_bind,
          e2, ok_bind]
        rfl

/-- C19: `sighash()` raises instead of returning the constant hash. -/
theorem C19_sighash_raises (h : HashFn) (script : Bytes) (tx : Tx) (idx ht : Nat) (amount : Option Bytes)
    (hb : tx.vin.length ≤ idx ∨ (OutSingle ht ∧ tx.vout.length ≤ idx)) :
    ∃ e, sighash h script tx idx ht amount .base = .error e := by
  cases hh : sighash h script tx idx ht amount .base with
  | error e => exact ⟨e, rfl⟩
  | ok d =>
    exfalso
    unfold sighash at hh
    simp only [Except.bind_ok] at hh
    obtain ⟨ht', h1, ⟨d', err⟩, h2, h3⟩ := hh
    have e : ht' = ht := by
      unfold sighashTypeNew at h1
      split at h1
      · exact (Except.ok.inj h1).symm
      · cases h1
    subst e
    cases err with
    | true => cases h3
    | false =>
      unfold rawSighash sighashBase at h2
      simp only at h2
      rcases hb with hb | hb
      · rw [if_pos (by omega)] at h2
        cases h2
      · split at h2
        · cases h2
        · have : (htSingle ht' && decide ((idx : Int) ≥ tx.vout.length)) = true := by
            rw [htSingle_iff.2 hb.1]; simp; omega
          simp only [if_pos this, Except.bind_ok] at h2
          obtain ⟨_, _, _, _, h2⟩ := h2
          cases h2

/-- C19: and returns exactly what `raw_sighash` computed otherwise. -/
theorem C19_sighash_ok (h : HashFn) (script : Bytes) (tx : Tx) (idx ht : Nat) (amount : Option Bytes) (sv : SigVersion)
    (d : Bytes) : sighash h script tx idx ht amount sv = .ok d ↔
      (ht % 128 = 1 ∨ ht % 128 = 2 ∨ ht % 128 = 3) ∧ ht < 256 ∧ rawSighash h script tx idx ht amount sv = .ok (d, false) := by
  have ht' : (ht = 1 ∨ ht = 2 ∨ ht = 3 ∨ ht = 0x81 ∨ ht = 0x82 ∨ ht = 0x83) ↔
      (ht % 128 = 1 ∨ ht % 128 = 2 ∨ ht % 128 = 3) ∧ ht < 256 := by omega
  unfold sighash sighashTypeNew
  by_cases hh : ht = 1 ∨ ht = 2 ∨ ht = 3 ∨ ht = 0x81 ∨ ht = 0x82 ∨ ht = 0x83
  · rw [if_pos hh, ok_bind]
    have := ht'.1 hh
    cases hr : rawSighash h script tx idx ht amount sv with
    | error e => rw [error_bind]; simp
    | ok p =>
      obtain ⟨d', err⟩ := p
      rw [ok_bind]
      cases err
      · simp only [Bool.false_eq_true, if_false]
        constructor
        · intro h
          have : d' = d := Except.ok.inj h
          subst this
          exact ⟨this.1, this.2, rfl⟩
        · rintro ⟨_, _, h⟩
          have : d' = d := (Prod.mk.inj (Except.ok.inj h)).1
          rw [this]; rfl
      · constructor
        · intro h; cases h
        · rintro ⟨_, _, h⟩; cases h
  · rw [if_neg hh, error_bind]
    constructor
    · intro h; cases h
    · rintro ⟨a, b, _⟩; exact absurd (ht'.2 ⟨a, b⟩) hh

theorem serTxIn_sig_exists {i : TxIn} (h : WFIn i) : ∃ b, serTxIn true i = .ok b := by
  obtain ⟨o, ho⟩ := WFIn.outpoint h
  obtain ⟨s, hs⟩ := serVarBytes_exists h.script
  obtain ⟨q, hq⟩ := WFIn.sequence h
  unfold serTxIn
  rw [wireOutPoint_sig h, ok_bind]
  simp only [ho, hs, hq, ok_bind]
  exact ⟨_, rfl⟩

/-- C19: a hash is always given for a decodable script and a hash type that fits 32 bits. -/
theorem C19_total (h : HashFn) {script code : Bytes} {tx : Tx} (idx : Nat) {ht : Nat} (amount : Option Bytes) (hw : WFTx tx)
    (hs : script.length ≤ maxItem) (hc : StripSep script code) (hht : ht < 2147483648) :
    ∃ r, rawSighash h script tx idx ht amount .base = .ok r := by
  by_cases hb : tx.vin.length ≤ idx ∨ (OutSingle ht ∧ tx.vout.length ≤ idx)
  · refine ⟨(_, true), (C19_error_iff h script tx idx ht amount _).2 ⟨rfl, ?_⟩⟩
    rcases hb with hb | hb
    · exact Or.inl hb
    · exact Or.inr ⟨hb.1, hb.2, code, hc⟩
  · have h1 : idx < tx.vin.length := by
      rcases Nat.lt_or_ge idx tx.vin.length with h | h
      · exact h
      · exact absurd (Or.inl h) hb
    have h3 : OutSingle ht → idx < tx.vout.length := by
      intro ho
      rcases Nat.lt_or_ge idx tx.vout.length with h | h
      · exact h
      · exact absurd (Or.inr ⟨ho, h⟩) hb
    have hcl : code.length ≤ maxItem := Nat.le_trans (stripSep_len hc) hs
    obtain ⟨v, hv⟩ := packS4_exists hw.version
    obtain ⟨l, hl⟩ := packU_exists (k := 4) (n := tx.nLockTime) (by have := hw.locktime; omega)
    obtain ⟨t, ht'⟩ := packS4_exists (v := (ht : Int)) (by omega)
    obtain ⟨i, hi⟩ := serVec_exists (f := serTxIn true) (xs := legacyInputs code tx.vin idx ht)
      (by have := hw.nin; rcases legacyInputs_len code tx.vin idx ht with h | h <;> omega)
      (fun x hx => serTxIn_sig_exists (legacyInputs_wf hw.vin hcl idx ht x hx))
    obtain ⟨o, ho⟩ := serVec_exists (f := serTxOut) (xs := legacyOutputs tx.vout idx ht)
      (by
        have := hw.nout
        unfold legacyOutputs
        split
        · simp
        · split
          · rename_i ho
            have := h3 ho
            simp [this]; omega
          · omega)
      (fun x hx => serTxOut_exists (legacyOutputs_wf hw.vout idx ht x hx).script)
    unfold rawSighash sighashBase
    simp only
    rw [if_neg (by omega), pyGet_nat_ok.2 (List.getElem?_eq_getElem h1), ok_bind, legacyScriptCode_iff.2 hc, ok_bind]
    have : ¬ (htSingle ht && decide ((idx : Int) ≥ tx.vout.length)) = true := by
      rw [Bool.and_eq_true, htSingle_iff]
      simp only [decide_eq_true_eq]
      intro ⟨a, b⟩
      have := h3 a
      omega
    rw [if_neg this, legacyOutputs_eq tx idx ht h3, ok_bind, legacyInputs_eq code tx idx ht h1, ok_bind,
      (serTx_basic (tx := { tx with vin := legacyInputs code tx.vin idx ht, vout := legacyOutputs tx.vout idx ht, wit := {} })
        (iw := false) (fs := true) (Bool.false_and _)).2 ⟨v, i, o, l, hv, hi, ho, hl, rfl⟩, ok_bind, ht', ok_bind]
    exact ⟨_, rfl⟩

/-- C19: unlocking scripts and witnesses of a transaction are not part of what is signed. -/
theorem C19_free (h : HashFn) (script : Bytes) (tx tx' : Tx) (idx ht : Nat) (hv : tx'.nVersion = tx.nVersion)
    (hl : tx'.nLockTime = tx.nLockTime) (ho : tx'.vout = tx.vout)
    (hi : tx'.vin.map (fun i => { i with scriptSig := [] }) = tx.vin.map (fun i => { i with scriptSig := [] })) :
    sighashBase h script tx' idx ht = sighashBase h script tx idx ht := by
  obtain ⟨v, i, o, l, w⟩ := tx
  obtain ⟨v', i', o', l', w'⟩ := tx'
  simp only at hv hl ho hi
  subst hv hl ho
  have hlen : i'.length = i.length := by simpa using congrArg List.length hi
  have hs : ∀ code, legacyScripts code ⟨v', i', o', l', w'⟩ idx = legacyScripts code ⟨v', i, o', l', w⟩ idx := by
    intro code
    unfold legacyScripts
    dsimp only
    apply List.ext_getElem?
    intro k
    have hk : (i'[k]?).map (fun i => { i with scriptSig := ([] : Bytes) }) = (i[k]?).map (fun i => { i with scriptSig := [] }) := by
      have := congrArg (fun l : List TxIn => l[k]?) hi
      simpa using this
    rw [List.getElem?_mapIdx, List.getElem?_mapIdx, hlen]
    cases h1 : i'[k]? with
    | none =>
      cases h2 : i[k]? with
      | none => rfl
      | some y => rw [h1, h2] at hk; cases hk
    | some x =>
      cases h2 : i[k]? with
      | none => rw [h1, h2] at hk; cases hk
      | some y =>
        rw [h1, h2] at hk
        obtain ⟨a, b, c, d, e⟩ := x
        obtain ⟨a', b', c', d', e'⟩ := y
        simp only [Option.map_some, Option.some.injEq, TxIn.mk.injEq, true_and] at hk
        obtain ⟨rfl, rfl, rfl, rfl⟩ := hk
        rfl
  unfold sighashBase
  dsimp only
  rw [hlen]
  by_cases hx : (idx : Int) ≥ i.length
  · rw [if_pos hx, if_pos hx]
  · rw [if_neg hx, if_neg hx, pyGet_nat_ok.2 (List.getElem?_eq_getElem (by omega)),
      pyGet_nat_ok.2 (List.getElem?_eq_getElem (show idx < i.length by omega)), ok_bind, ok_bind]
    simp only [hs]
    rfl

/-- Non-vacuity: SINGLE|ANYONECANPAY on both inputs, a script with a separator inside and one
in pushed data. -/
example : StripSep [0xab, 0x02, 0xab, 0x51, 0xac] [0x02, 0xab, 0x51, 0xac] :=
  .sep (.push (d := [0xab, 0x51]) (w := [2, 0xab, 0x51]) (.direct (by decide)) (.op (by decide) (by decide) .nil))

example (h : HashFn) : ∃ d, rawSighash h [0xab, 0x51] sampleTx 1 0x83 none .base = .ok (d, false) ∧
    d ≠ 1 :: List.replicate 31 0 ∨ ∃ pre, h.dbl pre = 1 :: List.replicate 31 0 := by
  obtain ⟨⟨d, err⟩, hr⟩ := C19_total h (script := [0xab, 0x51]) (code := [0x51]) 1 (ht := 0x83) none sampleTx_wf (by decide)
    (.sep (.op (by decide) (by decide) .nil)) (by decide)
  cases err with
  | false =>
    obtain ⟨_, _, code, pre, _, _, rfl⟩ := (C19_hash h none sampleTx_wf (by decide) d).1 hr
    by_cases he : h.dbl pre = 1 :: List.replicate 31 0
    · exact ⟨h.dbl pre, Or.inr ⟨pre, he⟩⟩
    · exact ⟨h.dbl pre, Or.inl ⟨hr, he⟩⟩
  | true =>
    exfalso
    rcases ((C19_error_iff h _ sampleTx 1 0x83 none d).1 hr).2 with h | h
    · exact absurd h (by decide)
    · exact absurd h.2.1 (by decide)

end Verif
