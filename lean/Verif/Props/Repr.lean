import Verif.Spec.Repr
import Verif.Props.Confidential
/-
C58: printed objects can be read back.  C59: printed objects can be told apart.
C60: what `str` calls confidential.
-/
namespace Verif
open Spec

section helpers

mutual
theorem text_prefix : ∀ (e f : PyExpr) (s t : List Tok), e.text ++ s = f.text ++ t → e = f ∧ s = t
  | .int v, f, s, t => by
    cases f <;> simp [PyExpr.text]
  | .hex v, f, s, t => by
    cases f <;> simp [PyExpr.text]
  | .bool v, f, s, t => by
    cases f <;> simp [PyExpr.text]
  | .bytes v, f, s, t => by
    cases f <;> simp [PyExpr.text]
  | .lx v, f, s, t => by
    cases f <;> simp [PyExpr.text]
  | .quoted v, f, s, t => by
    cases f <;> simp [PyExpr.text]
  | .digits v, f, s, t => by
    cases f <;> simp [PyExpr.text]
  | .confidential, f, s, t => by
    cases f <;> simp [PyExpr.text]
  | .script v, f, s, t => by
    cases f <;> simp [PyExpr.text]
  | .call c args, f, s, t => by
    cases f with
    | call c' args' =>
      intro h
      simp only [PyExpr.text, List.cons_append, List.append_assoc, List.nil_append, List.cons.injEq, true_and, Tok.name.injEq] at h
      obtain ⟨rfl, h⟩ := h
      have := seq_prefix args args' .cls s t (by simp) (by simp) (by simp) (by simp) h
      simp [this.1, this.2]
    | _ => simp [PyExpr.text]
  | .list items, f, s, t => by
    cases f with
    | list items' =>
      intro h
      simp only [PyExpr.text, List.cons_append, List.append_assoc, List.nil_append, List.cons.injEq, true_and] at h
      have := seq_prefix items items' .rbr s t (by simp) (by simp) (by simp) (by simp) h
      simp [this.1, this.2]
    | _ => simp [PyExpr.text]
  | .isPegin b, f, s, t => by
    cases f <;> simp [PyExpr.text]
theorem seq_prefix : ∀ (es fs : List PyExpr) (k : Tok) (s t : List Tok), k ≠ .comma → k ≠ .lbr → k = .cls ∨ k = .rbr → k ≠ .opn →
    textSeq es ++ k :: s = textSeq fs ++ k :: t → es = fs ∧ s = t
  | [], [], k, s, t => by simp [textSeq]
  | [], f :: fs, k, s, t => by
    rintro - - (rfl | rfl) - h <;> cases f <;> simp [textSeq, PyExpr.text] at h
  | e :: es, [], k, s, t => by
    rintro - - (rfl | rfl) - h <;> cases e <;> simp [textSeq, PyExpr.text] at h
  | e :: es, f :: fs, k, s, t => by
    intro h1 h2 h3 h4 h
    simp only [textSeq, List.append_assoc] at h
    obtain ⟨he, h'⟩ := text_prefix e f _ _ h
    obtain ⟨hr, h''⟩ := rest_prefix es fs k s t h1 h'
    simp [he, hr, h'']
theorem rest_prefix : ∀ (es fs : List PyExpr) (k : Tok) (s t : List Tok), k ≠ .comma →
    textRest es ++ k :: s = textRest fs ++ k :: t → es = fs ∧ s = t
  | [], [], k, s, t => by simp [textRest]
  | [], f :: fs, k, s, t => by
    intro hk h
    simp [textRest] at h
    exact absurd h.1 hk
  | e :: es, [], k, s, t => by
    intro hk h
    simp [textRest] at h
    exact absurd h.1.symm hk
  | e :: es, f :: fs, k, s, t => by
    intro hk h
    simp only [textRest, List.append_assoc, List.cons_append, List.cons.injEq, true_and] at h
    obtain ⟨he, h'⟩ := text_prefix e f _ _ h
    obtain ⟨hr, h''⟩ := rest_prefix es fs k s t hk h'
    simp [he, hr, h'']
end

/-- The text determines the expression: printing separates what it joins. -/
theorem pyText_inj {e f : PyExpr} (h : e.text = f.text) : e = f :=
  (text_prefix e f [] [] (by simpa using h)).1


theorem confNew_eq {k : ConfKind} {c d : Bytes} (h : confNew k c = .ok d) : confNew k c = .ok c := by
  unfold confNew at h ⊢
  split at h
  · rw [if_pos ‹_›]
  · cases h

theorem conf_split {k : ConfKind} {c : Bytes} (h : confIsExplicit k c = true) : c = 1 :: c.drop 1 ∧ c.length = k.explicitSize := by
  unfold confIsExplicit at h
  simp only [Bool.and_eq_true, beq_iff_eq] at h
  cases c with
  | nil => simp at h
  | cons x t => simp_all

/-- The amount of an explicit value makes that value again. -/
theorem value_again {c : Bytes} (h : confIsExplicit valueKind c = true) :
    ∃ v, valueToAmount c = .ok v ∧ valueFromAmount v = .ok c := by
  have hv : valueToAmount c = .ok (untwos 8 (beVal (c.drop 1))) := by unfold valueToAmount; rw [if_pos h]
  exact ⟨_, hv, ((C04_value_from_amount _).1 c).2 (((C04_value_to_amount c).1 _).1 hv)⟩

theorem asset_explicit {c : Bytes} (h : confIsExplicit assetKind c = true) : assetToAsset c = .ok (c.drop 1) := by
  have := (conf_split h).2
  unfold assetToAsset assetNew
  rw [if_pos h, if_pos (by simp [this, assetKind])]

theorem evalSeq_nil : evalSeq [] = .ok [] := by simp [evalSeq]
theorem evalSeq_cons {e : PyExpr} {es : List PyExpr} {v : PyVal} {vs : List PyVal} (h : e.eval = .ok v) (hs : evalSeq es = .ok vs) :
    evalSeq (e :: es) = .ok (v :: vs) := by
  simp [evalSeq, h, hs, Except.bind, Except.map]
theorem evalSeq_one {e : PyExpr} {v : PyVal} (h : e.eval = .ok v) : evalSeq [e] = .ok [v] := evalSeq_cons h evalSeq_nil
theorem eval_call {c : Cls} {es : List PyExpr} {vs : List PyVal} (h : evalSeq es = .ok vs) :
    (PyExpr.call c es).eval = callCls c vs := by
  simp [PyExpr.eval, h, Except.bind]

/-- What a value field prints, and that it evaluates to the field. -/
theorem value_evals {c : Bytes} (h : confNew valueKind c = .ok c) :
    ∃ e, valueText .repr c = .ok e ∧ e.eval = .ok (.cvalue c) := by
  by_cases hx : confIsExplicit valueKind c = true
  · obtain ⟨v, hv, hc⟩ := value_again hx
    refine ⟨.call .value [.int v], ?_, ?_⟩
    · unfold valueText; rw [if_pos hx, hv]; rfl
    · rw [eval_call (evalSeq_one (v := .int v) (by simp [PyExpr.eval])), callCls, valueCall, hc]; rfl
  · refine ⟨.call .value [.bytes c], ?_, ?_⟩
    · unfold valueText; rw [if_neg hx]; rfl
    · rw [eval_call (evalSeq_one (v := .bytes c) (by simp [PyExpr.eval]))]
      show (confNew valueKind c).map _ = _
      rw [h]; rfl

theorem nonce_evals {c : Bytes} (h : confNew nonceKind c = .ok c) : (nonceText .repr c).eval = .ok (.cnonce c) := by
  unfold nonceText
  rw [eval_call (evalSeq_one (v := .bytes c) (by simp [PyExpr.eval]))]
  show (confNew nonceKind c).map _ = _
  rw [h]; rfl

theorem asset_plain {c : Bytes} (h : confNew assetKind c = .ok c) (hx : confIsExplicit assetKind c = false) :
    ∃ e, assetText .repr c = .ok e ∧ e.eval = .ok (.casset c) := by
  refine ⟨.call .asset [.bytes c], ?_, ?_⟩
  · unfold assetText; rw [if_neg (by simp [hx])]; rfl
  · rw [eval_call (evalSeq_one (v := .bytes c) (by simp [PyExpr.eval]))]
    show (confNew assetKind c).map _ = _
    rw [h]; rfl

theorem asset_stuck {c : Bytes} (hx : confIsExplicit assetKind c = true) :
    assetText .repr c = .ok (.call .asset [casRepr (c.drop 1)]) ∧
    (PyExpr.call .asset [casRepr (c.drop 1)]).eval = .error .typeError := by
  constructor
  · unfold assetText; rw [if_pos hx, asset_explicit hx]; rfl
  · simp [PyExpr.eval, evalSeq, casRepr, callCls, casCall, Except.bind, Except.map]

theorem bytesItems_map (s : List Bytes) : bytesItems (s.map .bytes) = some s := by
  induction s with
  | nil => rfl
  | cons b s ih => simp [bytesItems, ih]

theorem evalSeq_bytes (s : List Bytes) : evalSeq (s.map .bytes) = .ok (s.map .bytes) := by
  induction s with
  | nil => exact evalSeq_nil
  | cons b s ih => exact evalSeq_cons (by simp [PyExpr.eval]) ih

theorem stack_evals (s : List Bytes) : (stackText s).eval = .ok (.stack s) := by
  unfold stackText
  rw [eval_call (evalSeq_one (v := .list (s.map .bytes)) (by simp [PyExpr.eval, evalSeq_bytes, Except.map]))]
  simp [callCls, stackCall, bytesItems_map]

theorem inWit_evals (w : TxInWitness) : (inWitText w).eval = .ok (.inWit w) := by
  unfold inWitText
  by_cases h : w.isNull = true
  · rw [if_pos h, eval_call evalSeq_nil]
    obtain ⟨a, b, c, d⟩ := w
    simp [TxInWitness.isNull] at h
    obtain ⟨⟨⟨rfl, rfl⟩, rfl⟩, rfl⟩ := h
    simp [callCls, inWitCall]
  · rw [if_neg h, eval_call (evalSeq_cons (stack_evals _) (evalSeq_cons (v := .bytes w.issuanceAmountRangeproof)
      (by simp [PyExpr.eval]) (evalSeq_cons (v := .bytes w.inflationKeysRangeproof) (by simp [PyExpr.eval])
        (evalSeq_one (stack_evals _)))))]
    simp [callCls, inWitCall]

theorem outWit_evals (w : TxOutWitness) : (outWitText w).eval = .ok (.outWit w) := by
  unfold outWitText
  by_cases h : w.isNull = true
  · rw [if_pos h, eval_call evalSeq_nil]
    obtain ⟨a, b⟩ := w
    simp [TxOutWitness.isNull] at h
    obtain ⟨rfl, rfl⟩ := h
    simp [callCls, outWitCall]
  · rw [if_neg h, eval_call (evalSeq_cons (v := .bytes w.surjectionproof) (by simp [PyExpr.eval])
      (evalSeq_one (v := .bytes w.rangeproof) (by simp [PyExpr.eval])))]
    simp [callCls, outWitCall]

theorem inWitItems_map (s : List TxInWitness) : inWitItems (s.map .inWit) = some s := by
  induction s with
  | nil => rfl
  | cons b s ih => simp [inWitItems, ih]
theorem outWitItems_map (s : List TxOutWitness) : outWitItems (s.map .outWit) = some s := by
  induction s with
  | nil => rfl
  | cons b s ih => simp [outWitItems, ih]
theorem evalSeq_map {α : Type} {f : α → PyExpr} {g : α → PyVal} (h : ∀ a, (f a).eval = .ok (g a)) (s : List α) :
    evalSeq (s.map f) = .ok (s.map g) := by
  induction s with
  | nil => exact evalSeq_nil
  | cons b s ih => exact evalSeq_cons (h b) ih

theorem txWit_evals (w : TxWitness) : (txWitText w).eval = .ok (.txWit w) := by
  unfold txWitText
  rw [eval_call (evalSeq_cons (v := .list (w.vtxinwit.map .inWit))
    (by simp [PyExpr.eval, evalSeq_map inWit_evals, Except.map])
    (evalSeq_one (v := .list (w.vtxoutwit.map .outWit)) (by simp [PyExpr.eval, evalSeq_map outWit_evals, Except.map])))]
  simp [callCls, txWitCall, inWitItems_map, outWitItems_map]

theorem zero32_iff {b : Bytes} (h : b.length = 32) : isNull32 b = true ↔ b = zero32 := by
  unfold isNull32 zero32
  rw [List.all_eq_true, List.eq_replicate_iff]
  simp [h]

end helpers

/-! ### C58 -/

/-- C58 at full strength: the printed form of every object evaluates to the object. -/
def C58_statement : Prop := ∀ o : Obj, o.Made → ∃ e, o.repr = .ok e ∧ e.eval = .ok o.val

theorem explicit_asset_iff {c : Bytes} : confIsExplicit assetKind c = true ↔ ∃ a, c = 1 :: a ∧ a.length = 32 := by
  constructor
  · intro h
    have := conf_split h
    exact ⟨c.drop 1, this.1, by simp [this.2, assetKind]⟩
  · rintro ⟨a, rfl, h⟩
    simp [confIsExplicit, assetKind, h]

theorem issuance_eval {i : Issuance} (h : (Obj.issuance i).Made) :
    ∃ e, issuanceText .repr i = .ok e ∧
      e.eval = if i = ⟨zero32, zero32, [], []⟩ then .ok (.issuance i) else .error .typeError := by
  obtain ⟨n, t, a, k⟩ := i
  obtain ⟨hn, ht, ha, hk⟩ := h
  dsimp only at hn ht ha hk
  obtain ⟨ea, hea, hva⟩ := value_evals ha
  obtain ⟨ek, hek, hvk⟩ := value_evals hk
  have e1 := zero32_iff hn
  have e2 := zero32_iff ht
  unfold issuanceText
  dsimp only
  rw [hea, hek]
  by_cases c1 : isNull32 n = true <;> by_cases c2 : isNull32 t = true <;>
    by_cases c3 : confIsNull a = true <;> by_cases c4 : confIsNull k = true <;>
    simp only [c1, c2, c3, c4, Bool.not_true, Bool.not_false, if_true, if_false, Bool.false_eq_true,
      Except.map, bind, Except.bind, pure, Except.pure, List.nil_append, List.cons_append] <;>
    refine ⟨_, rfl, ?_⟩ <;>
    simp only [PyExpr.eval, evalSeq, hva, hvk, Except.bind, Except.map] <;>
    simp_all [callCls, issuanceCall, confIsNull]

/-- **C58** (partial), exactly which objects read back: their printed form evaluates to the object
itself; that of every other object raises `TypeError`. -/
theorem C58_reads_back_partial (o : Obj) (h : o.Made) :
    ∃ e, o.repr = .ok e ∧ (o.ReadsBack → e.eval = .ok o.val) ∧ (¬ o.ReadsBack → e.eval = .error .typeError) := by
  cases o with
  | value c => obtain ⟨e, h1, h2⟩ := value_evals h; exact ⟨e, h1, fun _ => h2, fun h => absurd trivial h⟩
  | asset c =>
    by_cases hx : confIsExplicit assetKind c = true
    · obtain ⟨h1, h2⟩ := asset_stuck hx
      exact ⟨_, h1, fun h => absurd (explicit_asset_iff.1 hx) h, fun _ => h2⟩
    · obtain ⟨e, h1, h2⟩ := asset_plain h (by simpa using hx)
      exact ⟨e, h1, fun _ => h2, fun h => absurd (fun h' => hx (explicit_asset_iff.2 h')) h⟩
  | nonce c => exact ⟨_, rfl, fun _ => nonce_evals h, fun h => absurd trivial h⟩
  | issuance i =>
    obtain ⟨e, h1, h2⟩ := issuance_eval h
    refine ⟨e, h1, fun hr => ?_, fun hr => ?_⟩
    · rw [h2, if_pos (show i = ⟨zero32, zero32, [], []⟩ from hr)]; rfl
    · rw [h2, if_neg (show ¬ i = ⟨zero32, zero32, [], []⟩ from hr)]
  | inWit w => exact ⟨_, rfl, fun _ => inWit_evals w, fun h => absurd trivial h⟩
  | outWit w => exact ⟨_, rfl, fun _ => outWit_evals w, fun h => absurd trivial h⟩
  | txWit w => exact ⟨_, rfl, fun _ => txWit_evals w, fun h => absurd trivial h⟩

/-- **C58** is false: the printed form of an explicit asset passes a string to `CAsset`. -/
theorem C58_statement_false : ¬ C58_statement := by
  intro h
  obtain ⟨e, h1, h2⟩ := h (.asset (1 :: List.replicate 32 7)) (by show confNew _ _ = _; decide)
  have hx : confIsExplicit assetKind (1 :: List.replicate 32 7) = true := by decide
  obtain ⟨h3, h4⟩ := asset_stuck hx
  rw [show (Obj.asset (1 :: List.replicate 32 7)).repr = assetText .repr (1 :: List.replicate 32 7) from rfl, h3] at h1
  injection h1 with h1
  rw [← h1, h4] at h2
  cases h2

-- a commitment, an explicit amount and a witness with a proof read back; an issuance does not
example : (Obj.value (8 :: List.replicate 32 1)).Made ∧ (Obj.value [1, 0, 0, 0, 0, 0, 0, 1, 2]).ReadsBack ∧
    (Obj.outWit ⟨[1], [2, 3]⟩).ReadsBack ∧ ¬ (Obj.issuance { nAmount := [1, 0, 0, 0, 0, 0, 0, 1, 2] }).ReadsBack :=
  ⟨by show confNew _ _ = _; decide, trivial, trivial, by intro h; cases h⟩

/-! ### C59 -/

/-- What a constructible value prints. -/
def valueExpr (c : Bytes) : PyExpr :=
  match valueText .repr c with
  | .ok e => e
  | .error _ => .confidential

def partExpr : Bytes ⊕ Bytes → PyExpr
  | .inl b => .bytes b
  | .inr c => valueExpr c

theorem valueExpr_ok {c : Bytes} (h : confNew valueKind c = .ok c) :
    valueText .repr c = .ok (valueExpr c) ∧ (valueExpr c).eval = .ok (.cvalue c) := by
  obtain ⟨e, h1, h2⟩ := value_evals h
  unfold valueExpr
  rw [h1]; exact ⟨rfl, h2⟩

theorem valueExpr_inj {c d : Bytes} (h : confNew valueKind c = .ok c) (h' : confNew valueKind d = .ok d)
    (e : valueExpr c = valueExpr d) : c = d := by
  have h1 := (valueExpr_ok h).2
  rw [e, (valueExpr_ok h').2] at h1
  injection h1 with h1
  injection h1 with h1
  exact h1.symm

theorem valueExpr_call (c : Bytes) (b : Bytes) : valueExpr c ≠ .bytes b := by
  unfold valueExpr valueText
  by_cases hx : confIsExplicit valueKind c = true
  · rw [if_pos hx]
    obtain ⟨v, hv, -⟩ := value_again hx
    rw [hv]; intro h; cases h
  · rw [if_neg hx]; intro h; cases h

theorem issuanceText_eq {i : Issuance} (h : (Obj.issuance i).Made) :
    issuanceText .repr i = .ok (.call .issuance ((presentParts i).map partExpr)) := by
  obtain ⟨n, t, a, k⟩ := i
  obtain ⟨hn, ht, ha, hk⟩ := h
  dsimp only at hn ht ha hk
  have e1 := zero32_iff hn
  have e2 := zero32_iff ht
  unfold zero32 at e1 e2
  unfold issuanceText presentParts
  dsimp only
  rw [(valueExpr_ok ha).1, (valueExpr_ok hk).1]
  generalize List.replicate 32 (0 : UInt8) = z at e1 e2 ⊢
  have f1 : isNull32 n = decide (n = z) := Bool.eq_iff_iff.2 (by simp [e1])
  have f2 : isNull32 t = decide (t = z) := Bool.eq_iff_iff.2 (by simp [e2])
  rw [f1, f2]
  by_cases c1 : n = z <;> by_cases c2 : t = z <;>
    by_cases c3 : a = [] <;> by_cases c4 : k = [] <;>
    simp [c1, c2, c3, c4, confIsNull, Except.map, bind, Except.bind, pure, Except.pure, partExpr]

theorem parts_made {i : Issuance} (h : (Obj.issuance i).Made) {c : Bytes} (hc : Sum.inr c ∈ presentParts i) :
    confNew valueKind c = .ok c := by
  unfold presentParts at hc
  simp only [List.mem_append] at hc
  rcases hc with ((hc | hc) | hc) | hc <;> split at hc <;> simp at hc
  · subst hc; exact h.2.2.1
  · subst hc; exact h.2.2.2

theorem partExpr_inj : ∀ {l m : List (Bytes ⊕ Bytes)}, (∀ c, Sum.inr c ∈ l → confNew valueKind c = .ok c) →
    (∀ c, Sum.inr c ∈ m → confNew valueKind c = .ok c) → l.map partExpr = m.map partExpr → l = m
  | [], [], _, _, _ => rfl
  | [], _ :: _, _, _, h => by simp at h
  | _ :: _, [], _, _, h => by simp at h
  | x :: l, y :: m, hl, hm, h => by
    simp only [List.map_cons, List.cons.injEq] at h
    have hr := partExpr_inj (fun c hc => hl c (List.mem_cons_of_mem _ hc)) (fun c hc => hm c (List.mem_cons_of_mem _ hc)) h.2
    have : x = y := by
      cases x with
      | inl a =>
        cases y with
        | inl b => have := h.1; simp only [partExpr, PyExpr.bytes.injEq] at this; rw [this]
        | inr b => exact absurd h.1.symm (valueExpr_call b a)
      | inr a =>
        cases y with
        | inl b => exact absurd h.1 (valueExpr_call a b)
        | inr b => rw [valueExpr_inj (hl a (by simp)) (hm b (by simp)) h.1]
    rw [this, hr]

/-- The issuances that print alike are those with the same parts present. -/
theorem C59_issuances {i j : Issuance} (hi : (Obj.issuance i).Made) (hj : (Obj.issuance j).Made) {e f : PyExpr}
    (he : issuanceText .repr i = .ok e) (hf : issuanceText .repr j = .ok f) :
    e.text = f.text ↔ presentParts i = presentParts j := by
  rw [issuanceText_eq hi] at he
  rw [issuanceText_eq hj] at hf
  injection he with he
  injection hf with hf
  subst he hf
  constructor
  · intro h
    have := pyText_inj h
    simp only [PyExpr.call.injEq, true_and] at this
    exact partExpr_inj (fun _ => parts_made hi) (fun _ => parts_made hj) this
  · intro h; rw [h]

/-- C59 at full strength for one object: equal texts mean equal objects. -/
theorem C59_objects {a b : Obj} (ha : a.Made) (hb : b.Made) (hn : ∀ i, a ≠ .issuance i) {e f : PyExpr}
    (he : a.repr = .ok e) (hf : b.repr = .ok f) (h : e.text = f.text) : a = b := by
  have hef := pyText_inj h
  subst hef
  obtain ⟨e1, r1, k1, x1⟩ := C58_reads_back_partial a ha
  obtain ⟨e2, r2, k2, x2⟩ := C58_reads_back_partial b hb
  rw [he] at r1; injection r1 with r1; subst r1
  rw [hf] at r2; injection r2 with r2; subst r2
  by_cases ra : a.ReadsBack
  · by_cases rb : b.ReadsBack
    · have h1 := k1 ra
      rw [k2 rb] at h1
      injection h1 with h1
      cases a <;> cases b <;> simp [Obj.val] at h1 <;> rw [h1]
    · have h1 := k1 ra
      rw [x2 rb] at h1; cases h1
  · cases a with
    | asset c =>
      have hc : confIsExplicit assetKind c = true := explicit_asset_iff.2 (Classical.not_not.1 ra)
      have hc1 := (asset_stuck hc).1
      rw [show (Obj.asset c).repr = assetText .repr c from rfl, hc1] at he
      injection he with he
      subst he
      cases b with
      | asset d =>
        by_cases hd : confIsExplicit assetKind d = true
        · rw [show (Obj.asset d).repr = assetText .repr d from rfl, (asset_stuck hd).1] at hf
          simp [casRepr] at hf
          rw [(conf_split hc).1, (conf_split hd).1]; simp [hf]
        · rw [show (Obj.asset d).repr = assetText .repr d from rfl] at hf
          unfold assetText at hf
          rw [if_neg hd] at hf
          simp [casRepr, pure, Except.pure] at hf
      | value d =>
        rw [show (Obj.value d).repr = valueText .repr d from rfl, (valueExpr_ok hb).1] at hf
        have := (valueExpr_ok hb).2
        injection hf with hf
        rw [hf, (asset_stuck hc).2] at this; cases this
      | nonce d => simp [Obj.repr, nonceText] at hf
      | issuance i =>
        rw [show (Obj.issuance i).repr = issuanceText .repr i from rfl, issuanceText_eq hb] at hf
        simp at hf
      | inWit w => simp only [Obj.repr, inWitText] at hf; split at hf <;> simp at hf
      | outWit w => simp only [Obj.repr, outWitText] at hf; split at hf <;> simp at hf
      | txWit w => simp [Obj.repr, txWitText] at hf
    | issuance i => exact absurd rfl (hn i)
    | _ => exact absurd trivial ra

/-- C59 for inputs, at full strength: however scripts are printed, so long as their printed forms
tell scripts apart, inputs that print alike are equal. -/
def C59_statement : Prop := ∀ (script : Bytes → String), (∀ s t, script s = script t → s = t) →
  ∀ i j, InMade i → InMade j → ∀ e f, txInText script .repr i = .ok e → txInText script .repr j = .ok f →
    e.text = f.text → i = j

theorem outPointText_inj {o p : OutPoint} (h : outPointText o = outPointText p) : o = p := by
  obtain ⟨a, n⟩ := o
  obtain ⟨b, m⟩ := p
  unfold outPointText at h
  dsimp only at h
  split at h <;> split at h <;> simp_all
  omega

/-- **C59** (partial), inputs: inputs that print alike spend the same output in the same way; their
scripts print alike, and their issuances have the same parts present, though perhaps in other
places. -/
theorem C59_inputs_partial (script : Bytes → String) {i j : TxIn} (hi : InMade i) (hj : InMade j) {e f : PyExpr}
    (he : txInText script .repr i = .ok e) (hf : txInText script .repr j = .ok f) :
    e.text = f.text ↔ i.prevout = j.prevout ∧ script i.scriptSig = script j.scriptSig ∧ i.nSequence = j.nSequence ∧
      i.isPegin = j.isPegin ∧ presentParts i.assetIssuance = presentParts j.assetIssuance := by
  unfold txInText at he hf
  rw [issuanceText_eq hi.2.2.2] at he
  rw [issuanceText_eq hj.2.2.2] at hf
  simp only [bind, Except.bind, pure, Except.pure, Except.ok.injEq] at he hf
  subst he hf
  constructor
  · intro h
    have := pyText_inj h
    simp only [PyExpr.call.injEq, List.cons.injEq, PyExpr.script.injEq, PyExpr.hex.injEq, PyExpr.isPegin.injEq, true_and, and_true] at this
    obtain ⟨h1, h2, h3, h4, h5⟩ := this
    exact ⟨outPointText_inj h1, h2, h3, h5, partExpr_inj (fun _ => parts_made hi.2.2.2) (fun _ => parts_made hj.2.2.2) h4⟩
  · rintro ⟨h1, h2, h3, h4, h5⟩
    rw [h1, h2, h3, h4, h5]

/-- **C59** (partial), with the same parts of the issuances absent nothing is lost. -/
theorem C59_same_shape_partial {i j : Issuance} (h : presentParts i = presentParts j)
    (h1 : i.assetBlindingNonce = List.replicate 32 0 ↔ j.assetBlindingNonce = List.replicate 32 0)
    (h2 : i.assetEntropy = List.replicate 32 0 ↔ j.assetEntropy = List.replicate 32 0)
    (h3 : i.nAmount = [] ↔ j.nAmount = []) (h4 : i.nInflationKeys = [] ↔ j.nInflationKeys = []) : i = j := by
  obtain ⟨n, t, a, k⟩ := i
  obtain ⟨n', t', a', k'⟩ := j
  unfold presentParts at h
  dsimp only at h h1 h2 h3 h4
  by_cases c1 : n' = List.replicate 32 0 <;> by_cases c2 : t' = List.replicate 32 0 <;>
    by_cases c3 : a' = [] <;> by_cases c4 : k' = [] <;>
    simp only [c1, c2, c3, c4, iff_true, iff_false] at h1 h2 h3 h4 <;>
    simp [h1, h2, h3, h4, c1, c2, c3, c4] at h <;> simp_all

/-- **C59** is false of inputs: 100 units of a new asset without tokens print like no units and 100
tokens. -/
theorem C59_statement_false : ¬ C59_statement := by
  intro h
  have hi : InMade ⟨⟨List.replicate 32 1, 0⟩, [], 5, { nAmount := [1, 0, 0, 0, 0, 0, 0, 0, 100] }, false⟩ :=
    ⟨by decide, by decide, by decide, by decide, by decide, by show confNew _ _ = _; decide, by show confNew _ _ = _; decide⟩
  have hj : InMade ⟨⟨List.replicate 32 1, 0⟩, [], 5, { nInflationKeys := [1, 0, 0, 0, 0, 0, 0, 0, 100] }, false⟩ :=
    ⟨by decide, by decide, by decide, by decide, by decide, by show confNew _ _ = _; decide, by show confNew _ _ = _; decide⟩
  have script : ∃ f : Bytes → String, ∀ s t, f s = f t → s = t := by
    refine ⟨fun b => String.ofList (b.map fun x => Char.ofNat x.toNat), fun s t hst => ?_⟩
    have h1 := String.ofList_injective hst
    refine (List.map_inj_right ?_).1 h1
    intro x y hxy
    have hx' : ∀ n < 256, (Char.ofNat n).toNat = n := by decide +kernel
    have hx : ∀ x : UInt8, (Char.ofNat x.toNat).toNat = x.toNat := fun x => hx' _ x.toNat_lt
    have := congrArg Char.toNat hxy
    rw [hx, hx] at this
    exact UInt8.toNat_inj.1 this
  obtain ⟨sc, hsc⟩ := script
  have := h sc hsc _ _ hi hj _ _ (by unfold txInText; rw [issuanceText_eq hi.2.2.2]; rfl)
    (by unfold txInText; rw [issuanceText_eq hj.2.2.2]; rfl) rfl
  simp at this

/-- **C59**, outputs: outputs that print alike have the same value, asset and nonce, and their
scripts print alike. -/
theorem C59_outputs (script : Bytes → String) {o p : TxOut}
    (ho : (Obj.value o.nValue).Made ∧ (Obj.asset o.nAsset).Made ∧ (Obj.nonce o.nNonce).Made)
    (hp : (Obj.value p.nValue).Made ∧ (Obj.asset p.nAsset).Made ∧ (Obj.nonce p.nNonce).Made) {e f : PyExpr}
    (he : txOutText script .repr o = .ok e) (hf : txOutText script .repr p = .ok f) :
    e.text = f.text ↔ o.nValue = p.nValue ∧ o.nAsset = p.nAsset ∧ o.nNonce = p.nNonce ∧
      script o.scriptPubKey = script p.scriptPubKey := by
  obtain ⟨a1, ra1, -⟩ := C58_reads_back_partial _ ho.2.1
  obtain ⟨a2, ra2, -⟩ := C58_reads_back_partial _ hp.2.1
  have ra1' : assetText .repr o.nAsset = .ok a1 := ra1
  have ra2' : assetText .repr p.nAsset = .ok a2 := ra2
  unfold txOutText at he hf
  rw [(valueExpr_ok ho.1).1, ra1'] at he
  rw [(valueExpr_ok hp.1).1, ra2'] at hf
  simp only [bind, Except.bind, pure, Except.pure, Except.ok.injEq] at he hf
  subst he hf
  constructor
  · intro h
    have := pyText_inj h
    simp only [PyExpr.call.injEq, List.cons.injEq, PyExpr.script.injEq, true_and, and_true, nonceText, PyExpr.bytes.injEq] at this
    obtain ⟨h1, h2, h3, h4⟩ := this
    have h5 := C59_objects ho.2.1 hp.2.1 (by intro i h; cases h) ra1 ra2 (by rw [h3])
    injection h5 with h5
    exact ⟨valueExpr_inj ho.1 hp.1 h1, h5, h4, h2⟩
  · rintro ⟨h1, h2, h3, h4⟩
    rw [h1, h3, h4]
    rw [h2, ra2'] at ra1'
    injection ra1' with ra1'
    rw [ra1']

-- two inputs that print differently
example : presentParts { nAmount := [1, 0, 0, 0, 0, 0, 0, 0, 100] } ≠ presentParts { nAmount := [1, 0, 0, 0, 0, 0, 0, 0, 99] } := by
  decide

/-! ### C60 -/

/-- C60 at full strength: `str` shows CONFIDENTIAL in place of a value, asset or nonce exactly when
it is a commitment. -/
def C60_statement : Prop := ∀ c,
  (confNew valueKind c = .ok c → (valueText .str c = .ok (.call .value [.confidential]) ↔ confIsCommitment valueKind c = true)) ∧
  (confNew assetKind c = .ok c → (assetText .str c = .ok (.call .asset [.confidential]) ↔ confIsCommitment assetKind c = true)) ∧
  (confNew nonceKind c = .ok c → (nonceText .str c = .call .nonce [.confidential] ↔ confIsCommitment nonceKind c = true))

/-- **C60** is false: an absent field is shown as CONFIDENTIAL. -/
theorem C60_statement_false : ¬ C60_statement := by
  intro h
  have := (h []).1 (by decide)
  have h2 : valueText .str [] = .ok (.call .value [.confidential]) := rfl
  exact absurd (this.1 h2) (by decide)

/-- **C60** (partial), what `str` shows: the amount or the asset if it is explicit, CONFIDENTIAL for
everything else and for every nonce.  In particular no commitment is shown as a plain amount or
asset. -/
theorem C60_str_partial (c : Bytes) :
    (∀ v, ExplicitAmount v c → valueText .str c = .ok (.call .value [.int v])) ∧
    ((¬ ∃ v, ExplicitAmount v c) → valueText .str c = .ok (.call .value [.confidential])) ∧
    (∀ a, c = 1 :: a → a.length = 32 → assetText .str c = .ok (.call .asset [.digits a])) ∧
    ((¬ ∃ a, c = 1 :: a ∧ a.length = 32) → assetText .str c = .ok (.call .asset [.confidential])) ∧
    nonceText .str c = .call .nonce [.confidential] ∧
    (confIsCommitment valueKind c = true → valueText .str c = .ok (.call .value [.confidential])) ∧
    (confIsCommitment assetKind c = true → assetText .str c = .ok (.call .asset [.confidential])) := by
  have hv := (C04_value_to_amount c).1
  have hx : confIsExplicit valueKind c = true ↔ ∃ v, ExplicitAmount v c := by
    constructor
    · intro h
      obtain ⟨v, h1, -⟩ := value_again h
      exact ⟨v, (hv v).1 h1⟩
    · rintro ⟨v, h⟩
      have h1 := (hv v).2 h
      unfold valueToAmount at h1
      split at h1
      · assumption
      · cases h1
  have pv : confIsExplicit valueKind c = false → valueText .str c = .ok (.call .value [.confidential]) := by
    intro h; unfold valueText; rw [if_neg (by simp [h])]; rfl
  have pa : confIsExplicit assetKind c = false → assetText .str c = .ok (.call .asset [.confidential]) := by
    intro h; unfold assetText; rw [if_neg (by simp [h])]; rfl
  refine ⟨fun v h => ?_, fun h => pv ?_, fun a h1 h2 => ?_, fun h => pa ?_, rfl, fun h => pv ?_, fun h => pa ?_⟩
  · unfold valueText
    rw [if_pos (hx.2 ⟨v, h⟩), (hv v).2 h]; rfl
  · simpa using mt hx.1 h
  · have he := explicit_asset_iff.2 ⟨a, h1, h2⟩
    unfold assetText
    rw [if_pos he, asset_explicit he, h1]; rfl
  · simpa using mt explicit_asset_iff.1 h
  · have := (C03_exclusive .value c).2.2.2.2.2.1
    simpa using fun h' => this ⟨h', h⟩
  · have := (C03_exclusive .asset c).2.2.2.2.2.1
    simpa using fun h' => this ⟨h', h⟩

-- 258 is shown, a commitment is not
example : ExplicitAmount 258 [1, 0, 0, 0, 0, 0, 0, 1, 2] ∧ confIsCommitment valueKind (8 :: List.replicate 32 1) = true :=
  ⟨explicitAmount_iff.2 ⟨[0, 0, 0, 0, 0, 0, 1, 2], by decide⟩, by decide⟩

end Verif
