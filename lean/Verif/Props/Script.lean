import Verif.Script
import Verif.Spec.Push
import Verif.SerializeLemmas
/-
C20, C21: peg-out and unspendable scripts.
-/
namespace Verif
open Spec

section helpers

theorem scriptData_ok {op o : UInt8} {n : Nat} {t d r : Bytes} :
    scriptData op n t = .ok (o, some d, r) ↔ o = op ∧ t = d ++ r ∧ d.length = n := by
  unfold scriptData
  split
  · rename_i h
    constructor
    · intro h; cases h
    · rintro ⟨_, rfl, rfl⟩; simp at h; omega
  · rename_i h
    simp only [Except.ok.injEq, Prod.mk.injEq, Option.some.injEq]
    constructor
    · rintro ⟨rfl, rfl, rfl⟩; exact ⟨rfl, by simp, by simp; omega⟩
    · rintro ⟨rfl, rfl, rfl⟩; simp

theorem scriptData_none {op o : UInt8} {n : Nat} {t r : Bytes} : scriptData op n t ≠ .ok (o, none, r) := by
  unfold scriptData; split <;> simp

theorem scriptData_err {op : UInt8} {n : Nat} {t : Bytes} {e : PyErr} (h : scriptData op n t = .error e) :
    e = .scriptInvalid := by
  unfold scriptData at h; split at h <;> simp_all

theorem scriptNext_err {s : Bytes} {e : PyErr} (h : scriptNext s = .error e) :
    e = .scriptInvalid ∨ e = .stopIteration := by
  unfold scriptNext at h
  split at h
  · cases h; exact Or.inr rfl
  · left
    split at h
    · cases h
    · split at h
      · exact scriptData_err h
      · split at h
        · split at h
          · cases h; rfl
          · exact scriptData_err h
        · split at h
          · split at h
            · cases h; rfl
            · exact scriptData_err h
          · split at h
            · cases h; rfl
            · exact scriptData_err h

theorem take_drop_split {t d r : Bytes} {k : Nat} (hk : ¬ t.length < k) (h : t.drop k = d ++ r) :
    t = t.take k ++ d ++ r ∧ (t.take k).length = k := by
  refine ⟨?_, by simp; omega⟩
  rw [List.append_assoc, ← h, List.take_append_drop]

theorem scriptNext_push {s d r : Bytes} :
    (∃ op, scriptNext s = .ok (op, some d, r)) ↔ ∃ p, s = p ++ r ∧ PushEnc d p := by
  constructor
  · rintro ⟨o, h⟩
    unfold scriptNext at h
    split at h
    · cases h
    · rename_i op t
      split at h
      · cases h
      · rename_i h1
        split at h
        · rename_i h2
          obtain ⟨rfl, rfl, h3⟩ := scriptData_ok.1 h
          refine ⟨_, ?_, PushEnc.direct (d := d) ?_⟩
          · rw [h3]; simp
          · rw [h3]; exact h2
        · rename_i h2
          split at h
          · rename_i h3
            split at h
            · cases h
            · rename_i h4
              obtain ⟨rfl, h5, h6⟩ := scriptData_ok.1 h
              obtain ⟨h7, h8⟩ := take_drop_split h4 h5
              refine ⟨0x4c :: (t.take 1 ++ d), ?_, .one ⟨h8, h6.symm⟩⟩
              rw [h3]; simp only [List.cons_append, List.append_assoc] at h7 ⊢; rw [← h7]; rfl
          · rename_i h3
            split at h
            · rename_i h3
              split at h
              · cases h
              · rename_i h4
                obtain ⟨rfl, h5, h6⟩ := scriptData_ok.1 h
                obtain ⟨h7, h8⟩ := take_drop_split h4 h5
                refine ⟨0x4d :: (t.take 2 ++ d), ?_, .two ⟨h8, h6.symm⟩⟩
                rw [h3]; simp only [List.cons_append, List.append_assoc] at h7 ⊢; rw [← h7]; rfl
            · rename_i h3'
              split at h
              · cases h
              · rename_i h4
                obtain ⟨rfl, h5, h6⟩ := scriptData_ok.1 h
                obtain ⟨h7, h8⟩ := take_drop_split h4 h5
                refine ⟨0x4e :: (t.take 4 ++ d), ?_, .four ⟨h8, h6.symm⟩⟩
                have : o = 0x4e := by
                  unfold OP_PUSHDATA1 OP_PUSHDATA2 OP_PUSHDATA4 at *
                  rw [UInt8.lt_iff_toNat_lt] at h2
                  have h1' : ¬ (78 : UInt8).toNat < o.toNat := h1
                  have e1 : o.toNat ≠ 76 := fun h => h3 (UInt8.toNat_inj.1 h)
                  have e2 : o.toNat ≠ 77 := fun h => h3' (UInt8.toNat_inj.1 h)
                  apply UInt8.toNat_inj.1
                  have : (78 : UInt8).toNat = 78 := rfl
                  have : (76 : UInt8).toNat = 76 := rfl
                  omega
                rw [this]; simp only [List.cons_append, List.append_assoc] at h7 ⊢; rw [← h7]
  · rintro ⟨p, rfl, h⟩
    cases h with
    | direct h =>
      have hn : (UInt8.ofNat d.length).toNat = d.length := by simp; omega
      refine ⟨UInt8.ofNat d.length, ?_⟩
      rw [List.cons_append, scriptNext]
      rw [if_neg, if_pos, hn]
      · exact scriptData_ok.2 ⟨rfl, rfl, rfl⟩
      · rw [UInt8.lt_iff_toNat_lt, hn]; exact h
      · rw [gt_iff_lt, UInt8.lt_iff_toNat_lt, hn]
        have : OP_PUSHDATA4.toNat = 78 := rfl
        omega
    | one h =>
      rename_i l
      have hl : l.length = 1 := h.1
      refine ⟨0x4c, ?_⟩
      rw [List.cons_append, scriptNext, if_neg (by decide), if_neg (by decide), if_pos (by decide),
        if_neg (by simp [hl]), scriptData_ok]
      refine ⟨rfl, ?_, ?_⟩
      · rw [List.append_assoc, ← hl, List.drop_left]
      · rw [List.append_assoc, ← hl, List.take_left]; exact h.2.symm
    | two h =>
      rename_i l
      have hl : l.length = 2 := h.1
      refine ⟨0x4d, ?_⟩
      rw [List.cons_append, scriptNext, if_neg (by decide), if_neg (by decide), if_neg (by decide), if_pos (by decide),
        if_neg (by rw [List.length_append, List.length_append, hl]; omega), scriptData_ok]
      refine ⟨rfl, ?_, ?_⟩
      · rw [List.append_assoc, ← hl, List.drop_left]
      · rw [List.append_assoc, ← hl, List.take_left]; exact h.2.symm
    | four h =>
      rename_i l
      have hl : l.length = 4 := h.1
      refine ⟨0x4e, ?_⟩
      rw [List.cons_append, scriptNext, if_neg (by decide), if_neg (by decide), if_neg (by decide), if_neg (by decide),
        if_neg (by rw [List.length_append, List.length_append, hl]; omega), scriptData_ok]
      refine ⟨rfl, ?_, ?_⟩
      · rw [List.append_assoc, ← hl, List.drop_left]
      · rw [List.append_assoc, ← hl, List.take_left]; exact h.2.symm

theorem scriptNext_op {op o : UInt8} {t r : Bytes} {x : Option Bytes}
    (h : scriptNext (op :: t) = .ok (o, x, r)) : o = op := by
  have key : ∀ {n t}, scriptData op n t = .ok (o, x, r) → o = op := by
    intro n t h
    cases x with
    | none => exact absurd h scriptData_none
    | some d => exact (scriptData_ok.1 h).1
  rw [scriptNext] at h
  split at h
  · cases h; rfl
  · split at h
    · exact key h
    · split at h
      · split at h
        · cases h
        · exact key h
      · split at h
        · split at h
          · cases h
          · exact key h
        · split at h
          · cases h
          · exact key h

theorem scriptNext_return {s r : Bytes} {x : Option Bytes} :
    scriptNext s = .ok (OP_RETURN, x, r) ↔ s = 0x6a :: r ∧ x = none := by
  constructor
  · intro h
    cases s with
    | nil => cases h
    | cons op t =>
      have := scriptNext_op h
      subst this
      cases h
      exact ⟨rfl, rfl⟩
  · rintro ⟨rfl, rfl⟩; rfl

theorem pegoutBody_some {s h k : Bytes} : pegoutBody s = .ok (some (h, k)) ↔ PegoutScript s h k := by
  constructor
  · intro e
    unfold pegoutBody at e
    obtain ⟨⟨op, x, s1⟩, h1, e⟩ := Except.bind_ok.1 e
    by_cases hop : op = OP_RETURN
    · subst hop
      obtain ⟨rfl, rfl⟩ := scriptNext_return.1 h1
      simp only [ne_eq, not_true, if_false] at e
      obtain ⟨⟨op2, y, s2⟩, h2, e⟩ := Except.bind_ok.1 e
      cases y with
      | none => cases e
      | some g =>
        by_cases hg : g.length = 32
        · simp only [hg, ne_eq, not_true, if_false] at e
          obtain ⟨⟨op3, z, s3⟩, h3, e⟩ := Except.bind_ok.1 e
          cases z with
          | none => cases e
          | some spk =>
            by_cases hk : spk.length = 0
            · simp only [if_pos hk] at e; cases e
            · simp only [if_neg hk] at e
              cases e
              obtain ⟨p1, rfl, hp1⟩ := scriptNext_push.1 ⟨_, h2⟩
              obtain ⟨p2, rfl, hp2⟩ := scriptNext_push.1 ⟨_, h3⟩
              exact ⟨p1, p2, s3, by simp, hp1, hg, hp2, fun h => hk (by rw [h]; rfl)⟩
        · simp only [ne_eq, hg, not_false_eq_true, if_true] at e; cases e
    · simp only [ne_eq, hop, not_false_eq_true, if_true] at e; cases e
  · rintro ⟨p1, p2, rest, rfl, hp1, hl, hp2, hk⟩
    have h1 : scriptNext (0x6a :: (p1 ++ p2 ++ rest)) = .ok (OP_RETURN, none, p1 ++ p2 ++ rest) :=
      scriptNext_return.2 ⟨rfl, rfl⟩
    obtain ⟨o2, h2⟩ := (scriptNext_push (s := p1 ++ p2 ++ rest) (d := h) (r := p2 ++ rest)).2 ⟨p1, by simp, hp1⟩
    obtain ⟨o3, h3⟩ := (scriptNext_push (s := p2 ++ rest) (d := k) (r := rest)).2 ⟨p2, rfl, hp2⟩
    unfold pegoutBody
    refine Except.bind_ok.2 ⟨_, h1, ?_⟩
    simp only [ne_eq, not_true, if_false]
    refine Except.bind_ok.2 ⟨_, h2, ?_⟩
    simp only [hl, not_true, ne_eq, if_false]
    refine Except.bind_ok.2 ⟨_, h3, ?_⟩
    simp only
    rw [if_neg (fun h => hk (List.length_eq_zero_iff.1 h))]
    rfl

theorem pegoutBody_err {s : Bytes} {e : PyErr} (h : pegoutBody s = .error e) :
    e = .scriptInvalid ∨ e = .stopIteration := by
  unfold pegoutBody at h
  cases h1 : scriptNext s with
  | error e1 => rw [h1] at h; cases h; exact scriptNext_err h1
  | ok p1 =>
    obtain ⟨op, x, s1⟩ := p1
    by_cases hop : op = OP_RETURN
    · simp only [h1, bind, Except.bind, hop, ne_eq, not_true, if_false] at h
      cases h2 : scriptNext s1 with
      | error e1 => rw [h2] at h; cases h; exact scriptNext_err h2
      | ok p2 =>
        obtain ⟨op2, y, s2⟩ := p2
        cases y with
        | none => simp only [h2] at h; cases h
        | some g =>
          by_cases hg : g.length = 32
          · simp only [h2, hg, ne_eq, not_true, if_false] at h
            cases h3 : scriptNext s2 with
            | error e1 => rw [h3] at h; cases h; exact scriptNext_err h3
            | ok p3 =>
              obtain ⟨op3, z, s3⟩ := p3
              cases z with
              | none => simp only [h3] at h; cases h
              | some spk =>
                simp only [h3] at h
                split at h <;> cases h
          · simp only [h2, hg, ne_eq, not_false_eq_true, if_true] at h; cases h
    · simp only [h1, bind, Except.bind, hop, ne_eq, not_false_eq_true, if_true] at h; cases h

end helpers

/-- C20: peg-out data is returned exactly for peg-out scripts. -/
theorem C20_pegout_iff (s genesis spk : Bytes) :
    getPegoutData s = .ok (some (genesis, spk)) ↔ PegoutScript s genesis spk := by
  rw [← pegoutBody_some]
  unfold getPegoutData
  constructor
  · intro h
    split at h
    · rename_i r hr; cases h; exact hr
    · cases h
    · cases h
    · cases h
  · intro h; rw [h]

/-- C20: on every other script `None` is returned, and never an exception; `is_pegout`
says which case it is. -/
theorem C20_pegout_total (s : Bytes) :
    ((¬ ∃ genesis spk, PegoutScript s genesis spk) → getPegoutData s = .ok none) ∧
    (isPegout s = .ok true ↔ ∃ genesis spk, PegoutScript s genesis spk) ∧
    (isPegout s = .ok false ↔ ¬ ∃ genesis spk, PegoutScript s genesis spk) := by
  have key : getPegoutData s = .ok none ∨ ∃ h k, getPegoutData s = .ok (some (h, k)) := by
    unfold getPegoutData
    cases hb : pegoutBody s with
    | error e =>
      rcases pegoutBody_err hb with rfl | rfl <;> exact Or.inl rfl
    | ok r =>
      cases r with
      | none => exact Or.inl rfl
      | some p => exact Or.inr ⟨p.1, p.2, rfl⟩
  rcases key with hk | ⟨h, k, hk⟩
  · have hno : ¬ ∃ genesis spk, PegoutScript s genesis spk := by
      rintro ⟨g, p, hp⟩
      rw [← C20_pegout_iff, hk] at hp
      cases hp
    refine ⟨fun _ => hk, ?_, ?_⟩ <;> simp [isPegout, hk, Except.map, hno]
  · have hyes : ∃ genesis spk, PegoutScript s genesis spk := ⟨h, k, (C20_pegout_iff _ _ _).1 hk⟩
    refine ⟨fun hno => absurd hyes hno, ?_, ?_⟩ <;> simp [isPegout, hk, Except.map, hyes]

/-- C20: the data of a script is unique. -/
theorem C20_pegout_unique (s g1 k1 g2 k2 : Bytes) (h1 : PegoutScript s g1 k1) (h2 : PegoutScript s g2 k2) :
    g1 = g2 ∧ k1 = k2 := by
  rw [← C20_pegout_iff] at h1 h2
  rw [h1] at h2
  cases h2; exact ⟨rfl, rfl⟩

-- direct push and OP_PUSHDATA1, with trailing bytes that do not even decode
example : getPegoutData ([0x6a, 0x4c, 32] ++ List.replicate 32 7 ++ [2, 0x51, 0x52, 0x4c]) =
    .ok (some (List.replicate 32 7, [0x51, 0x52])) ∧
    getPegoutData ([0x6a, 31] ++ List.replicate 31 7 ++ [1, 0x51]) = .ok none ∧
    getPegoutData ([0x6a, 32] ++ List.replicate 32 7 ++ [0]) = .ok none ∧
    getPegoutData ([0x6a, 32] ++ List.replicate 20 7) = .ok none := by decide +kernel

/-- C21: a script is unspendable exactly if it is empty or starts with OP_RETURN. -/
theorem C21_unspendable (s : Bytes) : isUnspendable s = true ↔ s = [] ∨ ∃ r, s = 0x6a :: r := by
  unfold isUnspendable baseIsUnspendable
  cases s with
  | nil => simp
  | cons x r =>
    simp [OP_RETURN]

example : isUnspendable [0x6a, 1] = true ∧ isUnspendable [0x51] = false := by decide

end Verif
