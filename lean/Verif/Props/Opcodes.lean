import Verif.Opcodes
import Verif.Spec.Opcodes
import Verif.Props.Script
import Verif.Props.SighashBase
import Mathlib.Data.List.Forall2
/-
C81: scripts written with the opcodes of Elements.
-/
namespace Verif.Opcodes
open Verif Verif.Spec Verif.Spec.Opcodes

/-- What the one who wrote the item means by it. -/
def Item.step : Item → Step
  | .named n => .elements n
  | .bitcoin o => .bitcoin o
  | .data d => .push d

section helpers

theorem Means_inj {o : UInt8} {a b : String} (ha : Means o a) (hb : Means o b) : a = b := by
  obtain ⟨i, hi, hoi⟩ := ha
  obtain ⟨j, hj, hoj⟩ := hb
  have : i = j := by omega
  subst this
  rw [hi] at hj
  exact Option.some.inj hj

theorem Means_range {o : UInt8} {a : String} (h : Means o a) : 0xc0 ≤ o.toNat := by
  obtain ⟨i, _, h⟩ := h; omega

theorem table_means : ∀ e ∈ table, e.1 ≠ "OP_DETERMINISTICRANDOM" →
    ∃ i, i < 37 ∧ names[i]? = some e.1 ∧ e.2.toNat = 0xc0 + i := by decide +kernel

theorem lookup_mem {l : List (String × UInt8)} {n : String} {o : UInt8} (h : l.lookup n = some o) : (n, o) ∈ l := by
  induction l with
  | nil => cases h
  | cons e l ih =>
    obtain ⟨k, v⟩ := e
    rw [List.lookup_cons] at h
    split at h
    · rename_i hk
      cases h
      rw [beq_iff_eq] at hk; subst hk
      exact List.mem_cons_self
    · exact List.mem_cons_of_mem _ (ih h)

theorem value_means {n : String} {o : UInt8} (h : value n = some o) (hn : n ≠ "OP_DETERMINISTICRANDOM") : Means o n := by
  obtain ⟨i, _, h1, h2⟩ := table_means _ (lookup_mem h) hn
  exact ⟨i, h1, h2⟩

theorem names_value : ∀ n ∈ names, (value n).isSome = true := by decide +kernel
theorem table_names : ∀ e ∈ table, e.1 ∈ names := by decide +kernel

theorem encode_push {d w : Bytes} (h : encodeOpPushdata d = .ok w) : PushEnc d w := by
  unfold encodeOpPushdata at h
  split at h
  · cases h; exact .direct ‹_›
  split at h
  · cases h; exact .one ⟨by simp, leVal_leBytes_of_lt (by omega)⟩
  split at h
  · cases h; exact .two ⟨by simp, leVal_leBytes_of_lt (by omega)⟩
  split at h
  · cases h; exact .four ⟨by simp, leVal_leBytes_of_lt (by omega)⟩
  · cases h

theorem scriptNext_plain {o : UInt8} (t : Bytes) (h : 0x4f ≤ o.toNat) : scriptNext (o :: t) = .ok (o, none, t) := by
  rw [scriptNext, if_pos]
  show (0x4e : UInt8).toNat < o.toNat
  exact h

theorem pushEnc_length {d w : Bytes} (h : PushEnc d w) : 0 < w.length := by cases h <;> simp

theorem pushEnc_next {d w : Bytes} (t : Bytes) (h : PushEnc d w) : ∃ op, scriptNext (w ++ t) = .ok (op, some d, t) :=
  scriptNext_push.2 ⟨w, rfl, h⟩

end helpers

theorem rawIter_reads {p : List Step} {s : Bytes} (h : ReadAs p s) :
    ∀ fuel, s.length < fuel → ∃ l, rawIter fuel s = .ok l ∧ List.Forall₂ Shows p l := by
  induction h with
  | nil =>
    intro fuel hf
    obtain ⟨k, rfl⟩ : ∃ k, fuel = k + 1 := ⟨fuel - 1, by simp at hf; omega⟩
    exact ⟨[], rfl, .nil⟩
  | @elements n o p s hm hr ih =>
    intro fuel hf
    obtain ⟨k, rfl⟩ : ∃ k, fuel = k + 1 := ⟨fuel - 1, by omega⟩
    obtain ⟨l, hl, hs⟩ := ih k (by simp at hf; omega)
    refine ⟨(o, none) :: l, ?_, .cons ⟨hm, rfl⟩ hs⟩
    rw [rawIter, scriptNext_plain s (by have := Means_range hm; omega)]
    simp only [hl]; rfl
  | @bitcoin o p s hm hr ih =>
    intro fuel hf
    obtain ⟨k, rfl⟩ : ∃ k, fuel = k + 1 := ⟨fuel - 1, by omega⟩
    obtain ⟨l, hl, hs⟩ := ih k (by simp at hf; omega)
    refine ⟨(o, none) :: l, ?_, .cons rfl hs⟩
    rw [rawIter, scriptNext_plain s hm.1]
    simp only [hl]; rfl
  | @push d w p s hw hr ih =>
    intro fuel hf
    obtain ⟨k, rfl⟩ : ∃ k, fuel = k + 1 := ⟨fuel - 1, by omega⟩
    have hw0 := pushEnc_length hw
    obtain ⟨l, hl, hs⟩ := ih k (by simp at hf; omega)
    obtain ⟨op, hop⟩ := pushEnc_next s hw
    refine ⟨(op, some d) :: l, ?_, .cons rfl hs⟩
    rw [rawIter, hop]
    simp only [hl]; rfl

theorem shows_unique {a b : Step} {r : UInt8 × Option Bytes} (ha : Shows a r) (hb : Shows b r)
    (hpa : ∀ o, a = .bitcoin o → Plain o) (hpb : ∀ o, b = .bitcoin o → Plain o) : a = b := by
  cases a <;> cases b <;> simp only [Shows] at ha hb
  · rw [Means_inj ha.1 hb.1]
  · subst hb
    have := Means_range ha.1; have := (hpb _ rfl).2; simp only at *; omega
  · rw [ha.2] at hb; cases hb
  · subst ha
    have := Means_range hb.1; have := (hpa _ rfl).2; simp only at *; omega
  · subst ha; cases hb; rfl
  · subst ha; cases hb
  · rw [ha] at hb; cases hb.2
  · subst hb; cases ha
  · rw [ha] at hb; cases hb; rfl

theorem reads_plain {p : List Step} {s : Bytes} (h : ReadAs p s) : ∀ o, Step.bitcoin o ∈ p → Plain o := by
  induction h with
  | nil => intro o h; cases h
  | elements _ _ ih => intro o h; cases h with | tail _ h => exact ih o h
  | bitcoin hp _ ih =>
    intro o h
    cases h with
    | head => exact hp
    | tail _ h => exact ih o h
  | push _ _ ih => intro o h; cases h with | tail _ h => exact ih o h

theorem forall₂_unique {p q : List Step} {l : List (UInt8 × Option Bytes)} (hp : List.Forall₂ Shows p l)
    (hq : List.Forall₂ Shows q l) (h1 : ∀ o, Step.bitcoin o ∈ p → Plain o) (h2 : ∀ o, Step.bitcoin o ∈ q → Plain o) :
    p = q := by
  induction hp generalizing q with
  | nil => cases hq; rfl
  | cons ha _ ih =>
    cases hq with
    | cons hb hq =>
      rw [shows_unique ha hb (fun o e => h1 o (e ▸ List.mem_cons_self)) (fun o e => h2 o (e ▸ List.mem_cons_self))]
      rw [ih hq (fun o h => h1 o (List.mem_cons_of_mem _ h)) (fun o h => h2 o (List.mem_cons_of_mem _ h))]

/-- C81: the script iterator reads every script as the node does, step by step, to the end. -/
theorem C81_iterates (p : List Step) (s : Bytes) (h : ReadAs p s) :
    ∃ l, operations s = .ok l ∧ List.Forall₂ Shows p l := rawIter_reads h _ (Nat.lt_succ_self _)

theorem wrote_next {r : UInt8 × Option Bytes} {w : Bytes} (h : Wrote r w) (t : Bytes) : scriptNext (w ++ t) = .ok (r.1, r.2, t) ∧ w ≠ [] := by
  obtain ⟨op, _ | d⟩ := r
  · obtain ⟨rfl, h⟩ := h
    exact ⟨scriptNext_plain t h, by simp⟩
  · obtain ⟨h, ho⟩ := h
    obtain ⟨op', h'⟩ := pushEnc_next t h
    refine ⟨?_, push_ne h⟩
    cases w with
    | nil => cases ho
    | cons b w =>
      cases ho
      have : op' = op := scriptNext_op h'
      rw [h', this]

theorem next_wrote {s t : Bytes} {op : UInt8} {x : Option Bytes} (h : scriptNext s = .ok (op, x, t)) : ∃ w, s = w ++ t ∧ Wrote (op, x) w := by
  cases x with
  | none =>
    rcases scriptNext_cases h with ⟨b, rfl, rfl, hb⟩ | ⟨d, w, _, _, _, hx⟩
    · exact ⟨[op], rfl, rfl, hb⟩
    · cases hx
  | some d =>
    obtain ⟨w, rfl, hw⟩ := scriptNext_push.1 ⟨op, h⟩
    refine ⟨w, rfl, hw, ?_⟩
    cases w with
    | nil => exact absurd rfl (push_ne hw)
    | cons b w =>
      have : op = b := scriptNext_op h
      rw [this]
      rfl

/-- C81: the script iterator gives operations exactly if the script is these, one after the other and to the end. -/
theorem C81_exact (s : Bytes) (l : List (UInt8 × Option Bytes)) : operations s = .ok l ↔ ∃ ws, s = ws.flatten ∧ List.Forall₂ Wrote l ws := by
  have key : ∀ fuel s l, s.length < fuel → (rawIter fuel s = .ok l ↔ ∃ ws, s = ws.flatten ∧ List.Forall₂ Wrote l ws) := by
    intro fuel
    induction fuel with
    | zero => intro s l h; omega
    | succ fuel ih =>
      intro s l hf
      rw [rawIter]
      constructor
      · intro h
        split at h
        · rename_i he
          cases h
          exact ⟨[], scriptNext_end he, .nil⟩
        · cases h
        · rename_i op d t hn
          obtain ⟨w, rfl, hw⟩ := next_wrote hn
          have hw0 : 0 < w.length := List.length_pos_iff.2 (wrote_next hw []).2
          rw [List.length_append] at hf
          cases hr : rawIter fuel t with
          | error e => rw [hr] at h; cases h
          | ok r =>
            rw [hr] at h
            cases h
            obtain ⟨ws, rfl, hws⟩ := (ih t r (by omega)).1 hr
            exact ⟨w :: ws, rfl, .cons hw hws⟩
      · rintro ⟨ws, rfl, hws⟩
        cases hws with
        | nil => rfl
        | @cons r w l ws hw hws =>
          rw [List.flatten_cons] at hf ⊢
          obtain ⟨h1, h2⟩ := wrote_next hw ws.flatten
          have hw0 : 0 < w.length := List.length_pos_iff.2 h2
          rw [List.length_append] at hf
          rw [h1]
          simp only
          rw [(ih ws.flatten l (by omega)).2 ⟨ws, rfl, hws⟩]
          rfl
  exact key _ s l (Nat.lt_succ_self _)

/-- C81: a script stands for at most one sequence of steps. -/
theorem C81_one_reading (p q : List Step) (s : Bytes) (hp : ReadAs p s) (hq : ReadAs q s) : p = q := by
  obtain ⟨l, hl, h1⟩ := C81_iterates p s hp
  obtain ⟨l', hl', h2⟩ := C81_iterates q s hq
  rw [hl] at hl'; cases hl'
  exact forall₂_unique h1 h2 (reads_plain hp) (reads_plain hq)

/-- The claim: the node reads what was written, for every script written with the names of
core/script.py, opcodes of Bitcoin and data. -/
def C81_statement : Prop := ∀ (items : List Item) (s : Bytes),
  (∀ o, Item.bitcoin o ∈ items → Plain o) → build items = .ok s → ReadAs (items.map Item.step) s

/-- C81 does not hold: `OP_DETERMINISTICRANDOM` is written as 0xc1, which the node takes for
`OP_CHECKSIGFROMSTACK` (core/script.py:46-47). -/
theorem C81_statement_false : ¬ C81_statement := by
  intro h
  have h1 := h [.named "OP_DETERMINISTICRANDOM"] [0xc1] (by intro o ho; simp at ho) rfl
  have h2 : ReadAs [.elements "OP_CHECKSIGFROMSTACK"] [0xc1] := .elements ⟨1, rfl, rfl⟩ .nil
  have := C81_one_reading _ _ _ h1 h2
  simp [Item.step] at this

/-- C81 without that name: the node reads what was written. -/
theorem C81_reads_partial (items : List Item) (s : Bytes) (hd : Item.named "OP_DETERMINISTICRANDOM" ∉ items)
    (hb : ∀ o, Item.bitcoin o ∈ items → Plain o) (h : build items = .ok s) : ReadAs (items.map Item.step) s := by
  induction items generalizing s with
  | nil => cases h; exact .nil
  | cons i l ih =>
    rw [build] at h
    cases hi : i.bytes with
    | error e => rw [hi] at h; cases h
    | ok b =>
      cases hl : build l with
      | error e => rw [hi, hl] at h; cases h
      | ok r =>
        rw [hi, hl] at h
        cases h
        have hr := ih r (fun h => hd (List.mem_cons_of_mem _ h)) (fun o h => hb o (List.mem_cons_of_mem _ h)) hl
        cases i with
        | named n =>
          simp only [Item.bytes] at hi
          split at hi
          · rename_i o ho
            cases hi
            exact .elements (value_means ho (fun e => hd (e ▸ List.mem_cons_self))) hr
          · cases hi
        | bitcoin o => cases hi; exact .bitcoin (hb o List.mem_cons_self) hr
        | data d => exact .push (encode_push hi) hr

theorem step_inj {a b : Item} (h : a.step = b.step) : a = b := by
  cases a <;> cases b <;> simp [Item.step] at h <;> subst h <;> rfl

/-- C81 without that name: scripts written differently are different. -/
theorem C81_apart_partial (a b : List Item) (s : Bytes) (ha : Item.named "OP_DETERMINISTICRANDOM" ∉ a)
    (hb : Item.named "OP_DETERMINISTICRANDOM" ∉ b) (hpa : ∀ o, Item.bitcoin o ∈ a → Plain o)
    (hpb : ∀ o, Item.bitcoin o ∈ b → Plain o) (h1 : build a = .ok s) (h2 : build b = .ok s) : a = b :=
  (List.map_injective_iff.2 (fun _ _ => step_inj))
    (C81_one_reading _ _ s (C81_reads_partial a s ha hpa h1) (C81_reads_partial b s hb hpb h2))

/-- C81: a script can be written exactly when every name in it is one the node knows and every data
has fewer than 2^32 bytes. -/
theorem C81_written (items : List Item) : (∃ s, build items = .ok s) ↔
    (∀ n, Item.named n ∈ items → n ∈ names) ∧ ∀ d, Item.data d ∈ items → d.length < 2 ^ 32 := by
  induction items with
  | nil => simp [build]
  | cons i l ih =>
    have hi : (∃ b, i.bytes = .ok b) ↔ (∀ n, i = .named n → n ∈ names) ∧ ∀ d, i = .data d → d.length < 2 ^ 32 := by
      cases i with
      | named n =>
        simp only [Item.bytes, Item.named.injEq, reduceCtorEq, false_implies, implies_true, and_true, forall_eq']
        constructor
        · rintro ⟨b, hb⟩
          split at hb
          · rename_i o ho; exact table_names _ (lookup_mem ho)
          · cases hb
        · intro hn
          have := names_value n hn
          cases hv : value n with
          | none => rw [hv] at this; cases this
          | some o => exact ⟨_, rfl⟩
      | bitcoin o => simp [Item.bytes]
      | data d =>
        simp only [Item.bytes, Item.data.injEq, reduceCtorEq, false_implies, implies_true, true_and, forall_eq']
        unfold encodeOpPushdata
        constructor
        · rintro ⟨b, hb⟩
          repeat' split at hb
          all_goals first | omega | cases hb
        · intro hd
          repeat' split
          all_goals first | exact ⟨_, rfl⟩ | omega
    have : (∃ s, build (i :: l) = .ok s) ↔ (∃ b, i.bytes = .ok b) ∧ ∃ r, build l = .ok r := by
      rw [build]
      cases i.bytes with
      | error e => simp [bind, Except.bind]
      | ok b => cases build l <;> simp [bind, Except.bind, pure, Except.pure]
    rw [this, hi, ih]
    constructor
    · rintro ⟨⟨h1, h2⟩, h3, h4⟩
      refine ⟨fun n hn => ?_, fun d hd => ?_⟩
      · cases hn with
        | head => exact h1 n rfl
        | tail _ h => exact h3 n h
      · cases hd with
        | head => exact h2 d rfl
        | tail _ h => exact h4 d h
    · rintro ⟨h1, h2⟩
      exact ⟨⟨fun n e => h1 n (e ▸ List.mem_cons_self), fun d e => h2 d (e ▸ List.mem_cons_self)⟩,
        fun n h => h1 n (List.mem_cons_of_mem _ h), fun d h => h2 d (List.mem_cons_of_mem _ h)⟩

/-- A covenant of the kind the introspection opcodes are made for: the first output has the asset
given, and the signature on it is good. -/
def covenant : List Item :=
  [.bitcoin 0x51, .named "OP_INSPECTOUTPUTASSET", .bitcoin 0x51, .bitcoin 0x88, .data (List.replicate 32 7),
   .bitcoin 0x88, .data (List.replicate 33 2), .named "OP_CHECKSIGFROMSTACK"]

example : ∃ s, build covenant = .ok s ∧ s.length = 72 + 1 ∧ ReadAs (covenant.map Item.step) s :=
  ⟨_, rfl, by decide +kernel, C81_reads_partial covenant _ (by decide +kernel) (by
    intro o ho
    simp only [covenant, List.mem_cons, Item.bitcoin.injEq, reduceCtorEq, List.not_mem_nil, false_or, or_false] at ho
    rcases ho with rfl | rfl | rfl | rfl <;> exact ⟨by decide, by decide⟩) rfl⟩

example : operations [0x51, 0xce, 0x02, 0xaa, 0xbb, 0xc1] =
    .ok [(0x51, none), (0xce, none), (0x02, some [0xaa, 0xbb]), (0xc1, none)] := by decide +kernel

/-- A push that is cut short. -/
example : operations [0x51, 0x03, 0xaa, 0xbb] = .error .scriptInvalid := by decide +kernel

example : ¬ ∃ s, build [.named "OP_CHECKSIGFROMSTCK"] = .ok s := by
  rw [C81_written]
  intro h
  exact absurd (h.1 "OP_CHECKSIGFROMSTCK" List.mem_cons_self) (by decide +kernel)

end Verif.Opcodes
