import Verif.Spec.BlindEnd
import Verif.Props.BlindDone
/-
C61: however an attempt to blind ends, at most one thing is half done.
-/
namespace Verif

/-! ### Exceptions: what is half written -/

/-- `R` relates the transactions before and after whenever `m` raises. -/
def OnRaise {α} (R : Tx → Tx → Prop) (m : BM α) : Prop := ∀ s e s', m s = (.error (.raise e), s') → R s.tx s'.tx
/-- `R` relates the transactions before and after whenever `m` goes through. -/
def OnOk {α} (R : Tx → Tx → Prop) (m : BM α) : Prop := ∀ s a s', m s = (.ok a, s') → R s.tx s'.tx

/-- Only fields of output `j` differ. -/
def WroteOut (j : Nat) (t t' : Tx) : Prop := ∃ f, t' = setOut j f t

theorem WroteOut.refl (j : Nat) (t : Tx) : WroteOut j t t := ⟨id, by unfold setOut; rw [List.modify_id]⟩
theorem WroteOut.trans {j : Nat} {t1 t2 t3 : Tx} (h : WroteOut j t1 t2) (g : WroteOut j t2 t3) : WroteOut j t1 t3 := by
  obtain ⟨f, rfl⟩ := h
  obtain ⟨g, rfl⟩ := g
  exact ⟨g ∘ f, by unfold setOut; simp [List.modify_modify_eq]⟩

theorem OnRaise.bind {α β} {j} {m : BM α} {f : α → BM β} (h0 : OnOk (WroteOut j) m) (h1 : OnRaise (WroteOut j) m)
    (h2 : ∀ a, OnRaise (WroteOut j) (f a)) : OnRaise (WroteOut j) (m >>= f) := by
  intro s e s' h
  replace h := BM.bind_error.1 h
  rcases h with h | ⟨a, s1, g, h⟩
  · exact h1 s e s' h
  · exact (h0 s a s1 g).trans (h2 a s1 e s' h)

theorem OnOk.bind {α β} {j} {m : BM α} {f : α → BM β} (h1 : OnOk (WroteOut j) m) (h2 : ∀ a, OnOk (WroteOut j) (f a)) :
    OnOk (WroteOut j) (m >>= f) := by
  intro s a s' h
  obtain ⟨b, s1, g, h⟩ := BM.bind_ok.1 h
  exact (h1 s b s1 g).trans (h2 b s1 a s' h)

section
variable (j : Nat)
theorem onOk_lift {α} (x : Except PyErr α) : OnOk (WroteOut j) (BM.lift x) := by
  intro s a s' h; obtain ⟨-, rfl⟩ := BM.lift_ok.1 h; exact .refl j _
theorem onRaise_lift {α} (x : Except PyErr α) : OnRaise (WroteOut j) (BM.lift x) := by
  intro s a s' h; obtain ⟨_, -, -, rfl⟩ := BM.lift_error.1 h; exact .refl j _
theorem onOk_modify {f : BS → BS} (hf : ∀ s, (f s).tx = s.tx) : OnOk (WroteOut j) (BM.modify f) := by
  intro s a s' h; rw [BM.modify_ok.1 h, hf]; exact .refl j _
theorem onRaise_modify {f : BS → BS} : OnRaise (WroteOut j) (BM.modify f) := fun _ _ _ h => (BM.modify_error.1 h).elim
theorem onOk_setOut (f : TxOut → TxOut) : OnOk (WroteOut j) (BM.modifyTx (setOut j f)) := by
  intro s a s' h; rw [BM.modifyTx_ok.1 h]; exact ⟨f, rfl⟩
theorem onRaise_modifyTx {f : Tx → Tx} : OnRaise (WroteOut j) (BM.modifyTx f) := fun _ _ _ h => (BM.modifyTx_error.1 h).elim
theorem onOk_get : OnOk (WroteOut j) BM.get := by
  intro s a s' h; obtain ⟨-, rfl⟩ := BM.get_ok.1 h; exact .refl j _
theorem onRaise_get : OnRaise (WroteOut j) BM.get := fun _ _ _ h => (BM.get_error.1 h).elim
theorem onOk_rand (A : BlindArgs) : OnOk (WroteOut j) (BM.rand A) := by
  intro s a s' h; obtain ⟨-, rfl⟩ := BM.rand_ok.1 h; exact .refl j _
theorem onRaise_rand (A : BlindArgs) : OnRaise (WroteOut j) (BM.rand A) := fun _ _ _ h => (BM.rand_error.1 h).elim
theorem onRaise_pure {α} (a : α) : OnRaise (WroteOut j) (pure a : BM α) := fun _ _ _ h => (BM.pure_error.1 h).elim
theorem onOk_pure {α} (a : α) : OnOk (WroteOut j) (pure a : BM α) := by
  intro s a s' h; obtain ⟨-, rfl⟩ := BM.pure_ok.1 h; exact .refl j _
theorem onRaise_finish {α} (C : Ctx) : OnRaise (WroteOut j) (BM.finish C : BM α) := by
  intro s e s' h; obtain ⟨h, -⟩ := BM.finish_error.1 h; cases h
theorem onOk_finish {α} (C : Ctx) : OnOk (WroteOut j) (BM.finish C : BM α) := fun _ _ _ h => (BM.finish_ok.1 h).elim
end

theorem onRaise_commitOutput (C : Ctx) (j : Nat) (pk script : Bytes) (amount : Int) (asset blind assetblind : Bytes) :
    OnRaise (WroteOut j) (commitOutput C j pk script amount asset blind assetblind) := by
  unfold commitOutput
  refine .bind (onOk_modify j fun _ => rfl) (onRaise_modify j) fun _ => .bind (onOk_lift j _) (onRaise_lift j _) fun p => ?_
  obtain ⟨ca, gen⟩ := p
  refine .bind (onOk_setOut j _) (onRaise_modifyTx j) fun _ => .bind (onOk_lift j _) (onRaise_lift j _) fun p => ?_
  obtain ⟨cv, com⟩ := p
  refine .bind (onOk_setOut j _) (onRaise_modifyTx j) fun _ => .bind (onOk_rand j _) (onRaise_rand j _) fun seed =>
    .bind (onOk_lift j _) (onRaise_lift j _) fun p => ?_
  obtain ⟨nonce, eph⟩ := p
  refine .bind (onOk_lift j _) (onRaise_lift j _) fun cn => .bind (onOk_setOut j _) (onRaise_modifyTx j) fun _ =>
    .bind (onOk_lift j _) (onRaise_lift j _) fun rp => .bind (onOk_rand j _) (onRaise_rand j _) fun seed =>
    .bind (onOk_lift j _) (onRaise_lift j _) fun sp => ?_
  cases sp with
  | none => exact onRaise_pure j _
  | some proof =>
    dsimp only
    split
    · exact onRaise_pure j _
    · intro s e s' h
      replace h := BM.bind_error.1 h
      rcases h with h | ⟨_, _, _, h⟩
      · exact (BM.modifyTx_error.1 h).elim
      · exact (BM.modify_error.1 h).elim

theorem onOk_balance (C : Ctx) (j : Nat) : OnOk (WroteOut j) (balanceIfLast C) ∧ OnRaise (WroteOut j) (balanceIfLast C) := by
  unfold balanceIfLast balance
  constructor
  · refine .bind (onOk_get j) fun s => ?_
    split
    · refine .bind (onOk_get j) fun s => ?_
      split
      · exact onOk_finish j C
      · split
        · exact onOk_lift j _
        · split
          · exact onOk_lift j _
          · refine .bind (onOk_lift j _) fun last => .bind (onOk_modify j fun _ => rfl) fun _ => ?_
            split
            · exact .bind (onOk_modify j fun _ => rfl) fun _ => onOk_finish j C
            · exact onOk_pure j _
    · exact onOk_pure j _
  · refine .bind (onOk_get j) (onRaise_get j) fun s => ?_
    split
    · refine .bind (onOk_get j) (onRaise_get j) fun s => ?_
      split
      · exact onRaise_finish j C
      · split
        · exact onRaise_lift j _
        · split
          · exact onRaise_lift j _
          · refine .bind (onOk_lift j _) (onRaise_lift j _) fun last =>
              .bind (onOk_modify j fun _ => rfl) (onRaise_modify j) fun _ => ?_
            split
            · exact .bind (onOk_modify j fun _ => rfl) (onRaise_modify j) fun _ => onRaise_finish j C
            · exact onRaise_pure j _
    · exact onRaise_pure j _

theorem onRaise_outputBlind (C : Ctx) (j : Nat) (pk : Bytes) : OnRaise (WroteOut j) (outputBlind C j pk) := by
  unfold outputBlind
  refine .bind (onOk_modify j fun _ => rfl) (onRaise_modify j) fun _ => .bind (onOk_get j) (onRaise_get j) fun s =>
    .bind (onOk_lift j _) (onRaise_lift j _) fun amount => .bind (onOk_lift j _) (onRaise_lift j _) fun asset =>
    .bind (onOk_modify j fun _ => rfl) (onRaise_modify j) fun _ => .bind (onOk_rand j _) (onRaise_rand j _) fun _ =>
    .bind (onOk_lift j _) (onRaise_lift j _) fun _ => .bind (onOk_modify j fun _ => rfl) (onRaise_modify j) fun _ =>
    .bind (onOk_rand j _) (onRaise_rand j _) fun _ => .bind (onOk_lift j _) (onRaise_lift j _) fun _ =>
    .bind (onOk_modify j fun _ => rfl) (onRaise_modify j) fun _ => .bind (onOk_balance C j).1 (onOk_balance C j).2 fun _ =>
    .bind (onOk_get j) (onRaise_get j) fun s => onRaise_commitOutput C j pk _ _ _ _ _

/-- An exception in the output loop: finished outputs, then one half-written. -/
theorem outputLoop_raise {C : Ctx} : ∀ {pks : List Bytes} {j : Nat} {s s' : BS} {e : PyErr},
    outputLoop C j pks s = (.error (.raise e), s') →
    ∃ ds x rest, OutRun C s ds ∧ ds.map (fun d => (d.pk, d.j)) ++ x :: rest = validKeys C.E.z j pks ∧
      WroteOut x.2 (outsAfter s ds).tx s'.tx
  | [], j, s, s', e, h => by
    simp only [outputLoop] at h
    exact (BM.pure_error.1 h).elim
  | pk :: rest, j, s, s', e, h => by
    simp only [outputLoop] at h
    replace h := BM.bind_error.1 h
    rcases h with h | ⟨_, s1, h1, h⟩
    · unfold outputStep at h
      by_cases hv : fullyValid C.E.z pk = true
      · rw [if_pos hv] at h
        refine ⟨[], (pk, j), validKeys C.E.z (j + 1) rest, .nil s, ?_, onRaise_outputBlind C j pk s e s' h⟩
        simp only [validKeys, List.zipIdx_cons, List.filter_cons, hv, if_true, List.map_nil, List.nil_append]
      · rw [if_neg hv] at h
        exact (BM.pure_error.1 h).elim
    · obtain ⟨ds, x, rest', hr, hm, hw⟩ := outputLoop_raise h
      unfold outputStep at h1
      by_cases hv : fullyValid C.E.z pk = true
      · rw [if_pos hv] at h1
        obtain ⟨d, hd, hc, rfl, rfl, ho, rfl⟩ := outputBlind_ok h1
        refine ⟨d :: ds, x, rest', .cons hd hc hv ho hr, ?_, hw⟩
        simp only [List.map_cons, List.cons_append, hm, validKeys, List.zipIdx_cons, List.filter_cons, hv, if_true]
      · rw [if_neg hv, BM.pure_ok] at h1
        obtain ⟨-, rfl⟩ := h1
        refine ⟨ds, x, rest', hr, ?_, hw⟩
        simp only [hm, validKeys, List.zipIdx_cons, List.filter_cons, hv]
        rfl

/-- Only the issued amount at `x` differs, not even its proof. -/
structure WroteIss (x : Nat × Bool) (t t' : Tx) : Prop where
  vout : t'.vout = t.vout
  outwit : t'.wit.vtxoutwit = t.wit.vtxoutwit
  cells : ∀ y, y ≠ x → t'.issCell y = t.issCell y
  proof : (t'.inWit x.1).proof x.2 = (t.inWit x.1).proof x.2

theorem WroteIss.refl (x : Nat × Bool) (t : Tx) : WroteIss x t t := ⟨rfl, rfl, fun _ _ => rfl, rfl⟩

theorem inWit_pad (t : Tx) (i k : Nat) :
    ({ t with wit := { t.wit with vtxinwit := padTo t.wit.vtxinwit (i + 1) {} } } : Tx).inWit k = t.inWit k := by
  unfold Tx.inWit
  exact getD_padTo _ _ _ _

theorem wroteIss_pad (x : Nat × Bool) (t : Tx) :
    WroteIss x t { t with wit := { t.wit with vtxinwit := padTo t.wit.vtxinwit (x.1 + 1) {} } } :=
  ⟨rfl, rfl, fun y _ => by unfold Tx.issCell; rw [inWit_pad], by rw [inWit_pad]⟩

theorem wroteIss_set (x : Nat × Bool) (v : Bytes) (t : Tx) :
    WroteIss x t (setIssuance x.1 ((t.vin.getD x.1 default).assetIssuance.setVal x.2 v)
      { t with wit := { t.wit with vtxinwit := padTo t.wit.vtxinwit (x.1 + 1) {} } }) := by
  refine ⟨rfl, rfl, fun y hy => ?_, inWit_pad t x.1 x.1 ▸ rfl⟩
  have hw : ∀ k, (setIssuance x.1 ((t.vin.getD x.1 default).assetIssuance.setVal x.2 v)
      { t with wit := { t.wit with vtxinwit := padTo t.wit.vtxinwit (x.1 + 1) {} } }).inWit k = t.inWit k :=
    fun k => inWit_pad t x.1 k
  unfold Tx.issCell
  rw [hw]
  show IssCell.mk ((setIssuance _ _ _).vin[y.1]?.map _) ((setIssuance _ _ _).vin[y.1]?.map _) _ = _
  unfold setIssuance
  rw [List.getElem?_modify]
  by_cases hi : x.1 = y.1
  · obtain ⟨i, tk⟩ := x
    obtain ⟨i', tk'⟩ := y
    dsimp only at hi ⊢
    subst hi
    have ht : tk ≠ tk' := fun e => hy (by rw [e])
    rw [List.getD_eq_getElem?_getD]
    cases hv : t.vin[i]? with
    | none => simp
    | some a =>
      revert ht
      cases tk <;> cases tk' <;> simp [TxIn.fixed, Issuance.setVal, Issuance.val]
  · simp [hi]

theorem blindPseudo_raise {C : Ctx} {i token key amount asset blind s s' e}
    (h : blindPseudo C i token key amount asset blind s = (.error (.raise e), s')) : WroteIss (i, token) s.tx s'.tx := by
  unfold blindPseudo at h
  replace h := BM.bind_error.1 h
  rcases h with h | ⟨_, s1, h1, h⟩
  · exact (BM.modifyTx_error.1 h).elim
  rw [BM.modifyTx_ok] at h1
  replace h := BM.bind_error.1 h
  rcases h with h | ⟨⟨_, gen⟩, s2, h2, h⟩
  · obtain ⟨_, -, -, rfl⟩ := BM.lift_error.1 h
    rw [h1]; exact wroteIss_pad (i, token) s.tx
  obtain ⟨-, rfl⟩ := BM.lift_ok.1 h2
  dsimp only at h
  replace h := BM.bind_error.1 h
  rcases h with h | ⟨⟨cv, com⟩, s3, h3, h⟩
  · obtain ⟨_, -, -, rfl⟩ := BM.lift_error.1 h
    rw [h1]; exact wroteIss_pad (i, token) s.tx
  obtain ⟨-, rfl⟩ := BM.lift_ok.1 h3
  dsimp only at h
  replace h := BM.bind_error.1 h
  rcases h with h | ⟨t, s4, h4, h⟩
  · exact (BM.get_error.1 h).elim
  obtain ⟨rfl, rfl⟩ := BM.get_ok.1 h4
  replace h := BM.bind_error.1 h
  rcases h with h | ⟨_, s5, h5, h⟩
  · exact (BM.modifyTx_error.1 h).elim
  rw [BM.modifyTx_ok] at h5
  have hs5 : WroteIss (i, token) s.tx s5.tx := by
    rw [h5, h1]; exact wroteIss_set (i, token) cv s.tx
  replace h := BM.bind_error.1 h
  rcases h with h | ⟨nonce, s6, h6, h⟩
  · obtain ⟨_, -, -, rfl⟩ := BM.lift_error.1 h
    exact hs5
  obtain ⟨-, rfl⟩ := BM.lift_ok.1 h6
  replace h := BM.bind_error.1 h
  rcases h with h | ⟨proof, s7, h7, h⟩
  · obtain ⟨_, -, -, rfl⟩ := BM.lift_error.1 h
    exact hs5
  replace h := BM.bind_error.1 h
  rcases h with h | ⟨_, s8, h8, h⟩
  · exact (BM.modifyTx_error.1 h).elim
  · exact (BM.modify_error.1 h).elim

theorem issuancePseudo_raise {C : Ctx} {i token key s s' e}
    (h : issuancePseudo C i token key s = (.error (.raise e), s')) : WroteIss (i, token) s.tx s'.tx := by
  unfold issuancePseudo at h
  replace h := BM.bind_error.1 h
  rcases h with h | ⟨_, s1, h1, h⟩
  · exact (BM.modify_error.1 h).elim
  rw [BM.modify_ok] at h1
  replace h := BM.bind_error.1 h
  rcases h with h | ⟨t, s2, h2, h⟩
  · exact (BM.get_error.1 h).elim
  obtain ⟨rfl, rfl⟩ := BM.get_ok.1 h2
  have e1 : s2.tx = s.tx := by rw [h1]
  rw [← e1]
  clear h1 h2
  change (if confIsNull ((s2.tx.vin.getD i default).assetIssuance.val token) = true then _ else _ : BM Unit) s2 = _ at h
  by_cases hn : confIsNull ((s2.tx.vin.getD i default).assetIssuance.val token) = true
  · rw [if_pos hn] at h
    exact (BM.pure_error.1 h).elim
  rw [if_neg hn] at h
  replace h := BM.bind_error.1 h
  rcases h with h | ⟨amount, s3, h3, h⟩
  · obtain ⟨_, -, -, rfl⟩ := BM.lift_error.1 h
    exact .refl _ _
  obtain ⟨-, rfl⟩ := BM.lift_ok.1 h3
  replace h := BM.bind_error.1 h
  rcases h with h | ⟨_, s4, h4, h⟩
  · exact (BM.modify_error.1 h).elim
  rw [BM.modify_ok] at h4
  have e4 : s4.tx = s3.tx := by rw [h4]
  replace h := BM.bind_error.1 h
  rcases h with h | ⟨oa, s5, h5, h⟩
  · obtain ⟨_, -, -, rfl⟩ := BM.lift_error.1 h
    rw [e4]; exact .refl _ _
  obtain ⟨-, rfl⟩ := BM.lift_ok.1 h5
  cases oa with
  | none => exact (BM.pure_error.1 h).elim
  | some asset =>
    dsimp only at h
    replace h := BM.bind_error.1 h
    rcases h with h | ⟨r, s6, h6, h⟩
    · exact (BM.rand_error.1 h).elim
    obtain ⟨-, h6⟩ := BM.rand_ok.1 h6
    have e6 : s6.tx = s3.tx := by rw [h6]; exact e4
    replace h := BM.bind_error.1 h
    rcases h with h | ⟨b, s7, h7, h⟩
    · obtain ⟨_, -, -, rfl⟩ := BM.lift_error.1 h
      rw [e6]; exact .refl _ _
    obtain ⟨-, rfl⟩ := BM.lift_ok.1 h7
    replace h := BM.bind_error.1 h
    rcases h with h | ⟨_, s8, h8, h⟩
    · exact (BM.modify_error.1 h).elim
    rw [BM.modify_ok] at h8
    have e8 : s8.tx = s3.tx := by rw [h8]; exact e6
    replace h := BM.bind_error.1 h
    rcases h with h | ⟨t', s9, h9, h⟩
    · exact (BM.get_error.1 h).elim
    obtain ⟨rfl, rfl⟩ := BM.get_ok.1 h9
    split at h
    · obtain ⟨h, -⟩ := BM.finish_error.1 h
      cases h
    · rw [← e8]
      exact blindPseudo_raise h

theorem issuanceStep_raise {C : Ctx} {i token s s' e} (h : issuanceStep C i token s = (.error (.raise e), s')) :
    (keyAt (C.A.issKeys token) i).isSome = true ∧ WroteIss (i, token) s.tx s'.tx := by
  unfold issuanceStep at h
  change (match keyAt (C.A.issKeys token) i with | none => pure () | some key => issuancePseudo C i token key : BM Unit) s = _ at h
  cases hk : keyAt (C.A.issKeys token) i with
  | none =>
    rw [hk] at h
    exact (BM.pure_error.1 h).elim
  | some key =>
    rw [hk] at h
    exact ⟨rfl, issuancePseudo_raise h⟩

theorem issuanceLoop_raise {C : Ctx} : ∀ {n i : Nat} {s s' : BS} {e}, issuanceLoop C i n s = (.error (.raise e), s') →
    ∃ es x rest, IssRun C s es ∧ es.map IssEv.at ++ x :: rest = keyed C.A i n ∧ WroteIss x (issAfter s es).tx s'.tx
  | 0, i, s, s', e, h => by
    simp only [issuanceLoop] at h
    exact (BM.pure_error.1 h).elim
  | n + 1, i, s, s', e, h => by
    simp only [issuanceLoop] at h
    replace h := BM.bind_error.1 h
    rcases h with h | ⟨_, s1, h1, h⟩
    · obtain ⟨hk, hw⟩ := issuanceStep_raise h
      refine ⟨[], (i, false), (if (keyAt (C.A.issKeys true) i).isSome then [(i, true)] else []) ++ keyed C.A (i + 1) n,
        .nil s, ?_, hw⟩
      rw [keyed_succ, if_pos hk]
      rfl
    obtain ⟨e1, r1, q1, m1⟩ := issuanceStep_ok h1
    replace h := BM.bind_error.1 h
    rcases h with h | ⟨_, s2, h2, h⟩
    · obtain ⟨hk, hw⟩ := issuanceStep_raise h
      refine ⟨e1, (i, true), keyed C.A (i + 1) n, ?_, ?_, by rw [← q1]; exact hw⟩
      · have := r1 [] (.nil _)
        rwa [List.append_nil] at this
      · rw [keyed_succ, if_pos hk, m1]
        rfl
    obtain ⟨e2, r2, q2, m2⟩ := issuanceStep_ok h2
    obtain ⟨e3, x, rest, r3, m3, hw⟩ := issuanceLoop_raise h
    refine ⟨e1 ++ (e2 ++ e3), x, rest, r1 _ (r2 _ r3), ?_, ?_⟩
    · rw [List.map_append, List.map_append, m1, m2, keyed_succ, ← m3]
      simp
    · rw [issAfter_append, issAfter_append, ← q1, ← q2]; exact hw

/-! ### From cells to the specification -/

theorem issued_val (t : TxIn) (token : Bool) : t.issued token = t.assetIssuance.val token := by cases token <;> rfl
theorem issuedProof_proof (w : TxInWitness) (token : Bool) : w.issuedProof token = w.proof token := by cases token <;> rfl

theorem same_of_cell {t t' : Tx} {x : Nat × Bool} (h : t'.issCell x = t.issCell x) : IssuanceSame t t' x := by
  have h2 := congrArg IssCell.val h
  have h3 := congrArg IssCell.proof h
  simp only [Tx.issCell] at h2 h3
  constructor
  · simpa only [issued_val] using h2
  · simpa only [issuedProof_proof] using h3

/-- Pseudo-inputs are treated in order. -/
theorem keyed_sorted (A : BlindArgs) : ∀ n i, (keyed A i n).Pairwise IssuanceBefore
  | 0, i => by simp [keyed]
  | n + 1, i => by
    rw [keyed_succ]
    have ih := keyed_sorted A n (i + 1)
    have h2 := (keyed_nodup A n (i + 1)).2
    have ha : ∀ tk, ∀ x ∈ keyed A (i + 1) n, IssuanceBefore (i, tk) x := by
      intro tk x hx
      left
      have := h2 x hx
      show i < x.1
      omega
    have hb : IssuanceBefore (i, false) (i, true) := .inr ⟨rfl, rfl, rfl⟩
    split <;> split
    · exact List.pairwise_cons.2 ⟨fun x hx => by
        rcases List.mem_cons.1 hx with rfl | hx
        · exact hb
        · exact ha _ x hx, List.pairwise_cons.2 ⟨ha _, ih⟩⟩
    · exact List.pairwise_cons.2 ⟨ha _, ih⟩
    · exact List.pairwise_cons.2 ⟨ha _, ih⟩
    · exact ih

theorem IssuanceBefore.irrefl (x : Nat × Bool) : ¬ IssuanceBefore x x := by
  rintro (h | ⟨-, h, h'⟩)
  · omega
  · rw [h] at h'; cases h'

theorem IssuanceBefore.asymm {x y : Nat × Bool} (h : IssuanceBefore x y) (g : IssuanceBefore y x) : False := by
  rcases h with h | ⟨h1, h2, h3⟩ <;> rcases g with g | ⟨g1, g2, g3⟩
  · omega
  · omega
  · omega
  · rw [h2] at g3; cases g3

/-- Issued amounts after a run over some of them. -/
theorem issuanceDone_of_run {C : Ctx} {tx : Tx} (hsz : ∀ txin ∈ tx.vin, InputSizes txin)
    (hk1 : C.A.assetKeys.length ≤ tx.vin.length) (hk2 : C.A.tokenKeys.length ≤ tx.vin.length) {es : List IssEv}
    (hr : IssRun C (firstState C.A tx) es) {rest} (hm : es.map IssEv.at ++ rest = keyed C.A 0 tx.vin.length) {t' : Tx}
    {y : Nat × Bool} (hy : y ∈ keyed C.A 0 tx.vin.length → y ∈ es.map IssEv.at)
    (ht : t'.issCell y = (issAfter (firstState C.A tx) es).tx.issCell y) : IssuanceDone C.E C.A tx t' y := by
  have hn : (es.map IssEv.at).Nodup := by
    have := (keyed_nodup C.A tx.vin.length 0).1
    rw [← hm] at this
    exact this.sublist (List.sublist_append_left _ _)
  by_cases hmem : y ∈ es.map IssEv.at
  · obtain ⟨e, he, rfl⟩ := List.mem_map.1 hmem
    have hyk : e.at ∈ keyed C.A 0 tx.vin.length := by rw [← hm]; exact List.mem_append_left _ hmem
    have hi := (mem_keyed.1 hyk).1
    have hev := hr.event hn e he
    cases e with
    | made d =>
      obtain ⟨g1, g2, g3⟩ := hev
      have g2' : C.A.issuanceKey d.i d.token = some d.key := by rw [← issKeys_key]; exact g2
      refine .blinded d.key g2' (IssData.Made.blinded rfl (hsz _ ?_) hi g1 (ht.trans g3))
      change d.i < tx.vin.length at hi
      show tx.vin.getD d.i default ∈ tx.vin
      rw [List.getD_eq_getElem?_getD, List.getElem?_eq_getElem hi]
      exact List.getElem_mem hi
    | passed i token key as =>
      obtain ⟨t, g1, g2, g3, g4, g5⟩ := hev
      have hsame : IssuanceSame tx t' (i, token) := same_of_cell (ht.trans g5)
      cases g1 with
      | null hnull =>
        refine .nothing ?_ hsame
        show (tx.vin.getD i default).issued token = []
        rw [issued_val, ← show _ = (tx.vin.getD i default).assetIssuance.val token from g3]
        simpa [confIsNull] using hnull
      | reissued a _ htk hz _ =>
        refine .reissued htk (fun hall => hz ?_) hsame
        rw [isNull32_iff]
        have : t.assetIssuance.assetBlindingNonce = (tx.vin.getD i default).assetIssuance.assetBlindingNonce := by
          have := congrArg (fun x => x.2.2.2.2.1) g2
          exact this
        rw [this]
        exact hall
  · refine .notAsked ?_ (same_of_cell (ht.trans (issCell_issAfter_none hr hmem)))
    have hnk : y ∉ keyed C.A 0 tx.vin.length := fun h => hmem (hy h)
    rw [mem_keyed, not_and_or] at hnk
    have hkey := issKeys_key C.A y.1 y.2
    rw [← hkey]
    rcases hnk with h | h
    · rw [hkey]
      unfold BlindArgs.issuanceKey
      cases y.2
      · dsimp only; rw [List.getD_eq_getElem?_getD, List.getElem?_eq_none (by omega)]; rfl
      · dsimp only; rw [List.getD_eq_getElem?_getD, List.getElem?_eq_none (by omega)]; rfl
    · simpa using h

/-- An output gone through without surjection proof. -/
theorem Left.committed {C : Ctx} {tx : Tx} {s' : BS} {ds} (hL : Left C (firstState C.A tx) s' ds) {d : OutData} (hd : d ∈ ds)
    (hp : d.surj = none) : Committed C.E C.A tx s'.tx d.j d.blind d.assetblind := by
  obtain ⟨m1, m2, m3, m4⟩ := hL.made d hd
  obtain ⟨t1, t2, -⟩ := hL.those d hd
  change d.out = tx.vout.getD d.j {} at m4
  obtain ⟨v, hv, he⟩ := m1.hidden
  obtain ⟨n1, n2, n3, n4, x, n5, n6⟩ := outputNonce_ok.1 m1.nonce
  refine ⟨by rw [t1]; exact m1.committed, ⟨d.asset, v, d.gen, d.commit, d.seed, x, ?_, n2, ?_, ?_⟩, t2 hp⟩
  · rw [← m4, t1]; exact hv
  · rw [t1]; exact n3
  · rw [List.getD_eq_getElem?_getD, m2]; exact n5

/-- An output gone through. -/
theorem Left.done {C : Ctx} {tx : Tx} {s' : BS} {ds} (hL : Left C (firstState C.A tx) s' ds) {d : OutData} (hd : d ∈ ds) :
    OutputDone C.E C.A tx s'.tx d.j := by
  obtain ⟨-, m2, m3, -⟩ := hL.made d hd
  have hne : C.A.pubkeys.getD d.j [] ≠ [] := by rw [List.getD_eq_getElem?_getD, m2]; exact m3
  cases hp : d.surj with
  | none => exact .committed _ _ hne (hL.committed hd hp)
  | some p => exact .blinded _ _ hne (hL.blinded rfl rfl hd hp)

theorem OutputDone.congr {E : Env} {A : BlindArgs} {t t' t'' : Tx} {j : Nat} (h1 : t''.vout[j]? = t'.vout[j]?)
    (h2 : t''.outWit j = t'.outWit j) (h : OutputDone E A t t' j) : OutputDone E A t t'' j := by
  have h3 : t''.vout.getD j {} = t'.vout.getD j {} := by
    rw [List.getD_eq_getElem?_getD, List.getD_eq_getElem?_getD, h1]
  cases h with
  | notAsked h g => exact .notAsked h ⟨h1.trans g.1, h2.trans g.2⟩
  | blinded bf abf h g =>
    refine .blinded bf abf h ⟨by rw [h3]; exact g.committed, ?_, by rw [h2]; exact g.surjection⟩
    rw [h3, h2]
    exact g.hidden
  | committed bf abf h g =>
    refine .committed bf abf h ⟨by rw [h3]; exact g.committed, ?_, h2.trans g.noProofs⟩
    rw [h3]
    exact g.hidden

/-- A run over the first outputs, then perhaps something at output `j`. -/
theorem gotTo_output {C : Ctx} {tx : Tx} {s' : BS} {ds : List OutData} {j : Nat} {t'' : Tx} {raised : Prop}
    (hRo : ∀ j pk, C.A.pubkeys[j]? = some pk → pk ≠ [] → Blindable C.E.z tx j pk)
    (hL : Left C (firstState C.A tx) s' ds) {rest : List (Bytes × Nat)}
    (hm : ds.map (fun d => (d.pk, d.j)) ++ rest = validKeys C.E.z 0 C.A.pubkeys)
    (hj : ∀ x ∈ rest, j ≤ x.2) (hj' : ∀ d ∈ ds, d.j < j)
    (hiss : ∀ x, IssuanceDone C.E C.A tx t'' x)
    (hv : ∀ k, k ≠ j → t''.vout[k]? = s'.tx.vout[k]?) (hw : ∀ k, t''.outWit k = s'.tx.outWit k)
    (hr : ¬ raised → t''.vout[j]? = s'.tx.vout[j]?) : GotTo C.E C.A tx t'' raised := by
  have hnot : ∀ k, j ≤ k → k ∉ ds.map OutData.j := by
    intro k hk h
    obtain ⟨d, hd, rfl⟩ := List.mem_map.1 h
    have := hj' d hd
    omega
  refine .output j hiss ?_ ?_ ?_ ?_
  · intro k hk
    refine OutputDone.congr (hv k (by omega)) (hw k) ?_
    by_cases hne : C.A.pubkeys.getD k [] = []
    · have : k ∉ ds.map OutData.j := by
        intro h
        obtain ⟨d, hd, rfl⟩ := List.mem_map.1 h
        obtain ⟨-, m2, m3, -⟩ := hL.made d hd
        rw [List.getD_eq_getElem?_getD, m2] at hne
        exact m3 hne
      obtain ⟨o1, o2, -⟩ := hL.others k this
      exact .notAsked hne ⟨o1, o2⟩
    · have hk' : C.A.pubkeys[k]? = some (C.A.pubkeys.getD k []) := by
        rw [List.getD_eq_getElem?_getD] at hne ⊢
        cases hx : C.A.pubkeys[k]? with
        | none => rw [hx] at hne; exact absurd rfl hne
        | some y => rfl
      have hin : (C.A.pubkeys.getD k [], k) ∈ validKeys C.E.z 0 C.A.pubkeys :=
        mem_validKeys.2 ⟨hk', fullyValid_iff.2 ⟨hne, (hRo k _ hk' hne).pubkey⟩⟩
      rw [← hm] at hin
      rcases List.mem_append.1 hin with hin | hin
      · obtain ⟨d, hd, hdj⟩ := List.mem_map.1 hin
        have : d.j = k := (Prod.mk.inj hdj).2
        subst this
        exact hL.done hd
      · have := hj _ hin
        dsimp only at this
        omega
  · intro k hk
    obtain ⟨o1, o2, -⟩ := hL.others k (hnot k (by omega))
    exact ⟨(hv k (by omega)).trans o1, (hw k).trans o2⟩
  · exact (hw j).trans (hL.others j (hnot j (Nat.le_refl _))).2.1
  · intro hnr
    obtain ⟨o1, o2, -⟩ := hL.others j (hnot j (Nat.le_refl _))
    exact ⟨(hr hnr).trans o1, (hw j).trans o2⟩

/-- What a split of the valid keys says about order. -/
theorem split_keys {z : Zkp} {pks : List Bytes} {ds : List OutData} {x : Bytes × Nat} {rest}
    (hm : ds.map (fun d => (d.pk, d.j)) ++ x :: rest = validKeys z 0 pks) :
    (∀ y ∈ x :: rest, x.2 ≤ y.2) ∧ ∀ d ∈ ds, d.j < x.2 := by
  have hsort := validKeys_sorted z pks
  rw [← hm] at hsort
  simp only [List.map_append, List.map_map, List.map_cons, List.pairwise_append, List.pairwise_cons] at hsort
  obtain ⟨-, ⟨h2, -⟩, h3⟩ := hsort
  constructor
  · intro y hy
    rcases List.mem_cons.1 hy with rfl | hy
    · exact Nat.le_refl _
    · exact Nat.le_of_lt (h2 _ (List.mem_map_of_mem hy))
  · intro d hd
    exact h3 d.j (List.mem_map.2 ⟨d, hd, rfl⟩) x.2 (by simp)

/-- A run over the first issuances, then perhaps something at `x`. -/
theorem gotTo_issuance {C : Ctx} {tx : Tx} {raised : Prop} {t'' : Tx} (hsz : ∀ txin ∈ tx.vin, InputSizes txin)
    (hk1 : C.A.assetKeys.length ≤ tx.vin.length) (hk2 : C.A.tokenKeys.length ≤ tx.vin.length) {es : List IssEv}
    (hr : IssRun C (firstState C.A tx) es) {x rest} (hm : es.map IssEv.at ++ x :: rest = keyed C.A 0 tx.vin.length)
    (hw : WroteIss x (issAfter (firstState C.A tx) es).tx t'')
    (hnr : ¬ raised → t''.issCell x = (issAfter (firstState C.A tx) es).tx.issCell x) : GotTo C.E C.A tx t'' raised := by
  have hsort := keyed_sorted C.A tx.vin.length 0
  rw [← hm] at hsort
  simp only [List.pairwise_append, List.pairwise_cons] at hsort
  obtain ⟨-, ⟨h2, -⟩, h3⟩ := hsort
  have hxn : x ∉ es.map IssEv.at := fun h => (h3 x h x (by simp)).irrefl
  have hx : x ∈ keyed C.A 0 tx.vin.length := by rw [← hm]; simp
  obtain ⟨key, hkey⟩ := Option.isSome_iff_exists.1 (mem_keyed.1 hx).2
  obtain ⟨-, -, -, -, -, -, -, -, i3, i4⟩ := issAfter_lists es (firstState C.A tx)
  have hxc := issCell_issAfter_none hr hxn
  refine .issuance x key (by rw [← issKeys_key]; exact hkey) ?_ ?_ ?_ ?_ ?_
  · intro y hy
    have hne : y ≠ x := fun e => by rw [e] at hy; exact hy.irrefl
    refine issuanceDone_of_run hsz hk1 hk2 hr hm (fun h => ?_) (hw.cells y hne)
    rw [← hm] at h
    rcases List.mem_append.1 h with h | h
    · exact h
    · rcases List.mem_cons.1 h with h | h
      · exact absurd h hne
      · exact (hy.asymm (h2 y h)).elim
  · intro y hy
    have hne : y ≠ x := fun e => by rw [e] at hy; exact hy.irrefl
    refine same_of_cell ((hw.cells y hne).trans (issCell_issAfter_none hr fun h => ?_))
    exact hy.asymm (h3 y h x (by simp))
  · rw [issuedProof_proof, issuedProof_proof, hw.proof]
    exact congrArg IssCell.proof hxc
  · intro h
    exact same_of_cell ((hnr h).trans hxc)
  · intro j
    refine ⟨by rw [hw.vout, i3]; rfl, ?_⟩
    unfold Tx.outWit
    rw [hw.outwit, i4]
    rfl

/-! ### C61 -/

/-- C61.  However `blind()` ends, whatever the arguments, the randomness and the library: there
is a place up to which everything was gone through, and after which nothing was touched.  At
that place itself no proof was written; and nothing at all unless an exception was raised. -/
theorem C61_got_to (E : Env) (A : BlindArgs) (tx : Tx) (hsz : ∀ txin ∈ tx.vin, InputSizes txin) :
    GotTo E A tx (blindTransaction E A tx).2 (∃ e, (blindTransaction E A tx).1 = .error e) := by
  unfold blindTransaction
  cases hc : checks E A tx with
  | error e => cases e <;> exact .start rfl
  | ok p =>
    obtain ⟨T, c⟩ := p
    obtain ⟨h1, h2, h3, h4, rfl⟩ := checks_ok.1 hc
    dsimp only
    generalize hC : (Ctx.mk E A T _ _) = C
    have hCE : C.E = E := by rw [← hC]
    have hCA : C.A = A := by rw [← hC]
    subst hCE hCA
    change GotTo C.E C.A tx (blindBody C tx.vin.length (firstState C.A tx)).2.tx
      (∃ e, endOf (blindBody C tx.vin.length (firstState C.A tx)).1 = .error e)
    have hlenP : C.A.pubkeys.length ≤ (firstState C.A tx).tx.vout.length := h1.pubkeys
    -- whatever happened after all issuances
    have hiss : ∀ (es : List IssEv) (t' : Tx), IssRun C (firstState C.A tx) es → es.map IssEv.at = keyed C.A 0 tx.vin.length →
        (∀ x, t'.issCell x = (issAfter (firstState C.A tx) es).tx.issCell x) → ∀ x, IssuanceDone C.E C.A tx t' x := by
      intro es t' hr hm ht x
      exact issuanceDone_of_run (rest := []) hsz h1.assetKeys h1.tokenKeys hr (by rw [List.append_nil]; exact hm)
        (fun h => by rw [hm]; exact h) (ht x)
    rcases hb : blindBody C tx.vin.length (firstState C.A tx) with ⟨r, s'⟩
    dsimp only
    cases r with
    | ok u =>
      exfalso
      unfold blindBody at hb
      obtain ⟨_, _, _, hb⟩ := BM.bind_ok.1 hb
      obtain ⟨_, _, _, hb⟩ := BM.bind_ok.1 hb
      obtain ⟨_, _, _, hb⟩ := BM.bind_ok.1 hb
      exact BM.finish_ok.1 hb
    | error st =>
      cases st with
      | ret r =>
        obtain ⟨hE, -⟩ := blindBody_ret hb
        cases hE with
        | issuance es x rest g1 g2 g3 g4 g5 g6 g7 =>
          refine gotTo_issuance hsz h1.assetKeys h1.tokenKeys g1 g2 ?_ fun _ => by rw [g4]
          rw [g4]
          exact .refl _ _
        | early es ds x rest amount g1 g2 g3 g4 g5 g6 g7 =>
          have hL := left_of_run g3 g4 hlenP (by simp [firstState]) (by simp [firstState])
          obtain ⟨f1, f2, f3⟩ := g7.frame
          obtain ⟨k1, k2⟩ := split_keys g4
          refine gotTo_output h4 hL g4 k1 k2 (hiss es _ g1 g2 fun y => ?_) (fun k _ => by rw [f1]) (fun k => by rw [f1])
            fun _ => by rw [f1]
          rw [f1, issCell_outsAfter]; rfl
        | full es ds g1 g2 g3 g4 g5 =>
          subst g5
          have hL := left_of_run (rest := []) g3 (by rw [List.append_nil]; exact g4) hlenP (by simp [firstState]) (by simp [firstState])
          refine gotTo_output (rest := []) (j := C.A.pubkeys.length) h4 hL (by rw [List.append_nil]; exact g4) (by simp) ?_
            (hiss es _ g1 g2 fun y => ?_) (fun _ _ => rfl) (fun _ => rfl) fun _ => rfl
          · intro d hd
            obtain ⟨-, m2, -⟩ := hL.made d hd
            exact (List.getElem?_eq_some_iff.1 m2).1
          · rw [issCell_outsAfter]; rfl
      | raise e =>
        unfold blindBody at hb
        replace hb := BM.bind_error.1 hb
        rcases hb with hb | ⟨_, s1, hb1, hb⟩
        · obtain ⟨es, x, rest, g1, g2, g3⟩ := issuanceLoop_raise hb
          exact gotTo_issuance hsz h1.assetKeys h1.tokenKeys g1 g2 g3 fun h => (h ⟨e, rfl⟩).elim
        obtain ⟨es, g1, rfl, g2⟩ := issuanceLoop_ok hb1
        replace hb := BM.bind_error.1 hb
        rcases hb with hb | ⟨_, s2, hb2, hb⟩
        · exact (BM.modifyTx_error.1 hb).elim
        rw [BM.modifyTx_ok] at hb2
        change s2 = padOut (issAfter (firstState C.A tx) es) at hb2
        subst hb2
        replace hb := BM.bind_error.1 hb
        rcases hb with hb | ⟨_, s3, hb3, hb⟩
        · obtain ⟨ds, x, rest, g3, g4, f, hf⟩ := outputLoop_raise hb
          have hL := left_of_run g3 g4 hlenP (by simp [firstState]) (by simp [firstState])
          obtain ⟨k1, k2⟩ := split_keys g4
          refine gotTo_output h4 hL g4 k1 k2 (hiss es _ g1 g2 fun y => ?_) (fun k hk => ?_) (fun k => ?_)
            fun h => (h ⟨e, rfl⟩).elim
          · rw [hf]
            show (outsAfter (padOut (issAfter (firstState C.A tx) es)) ds).tx.issCell y = _
            rw [issCell_outsAfter]; rfl
          · rw [hf]
            unfold setOut
            simp only [List.getElem?_modify]
            simp [Ne.symm hk]
          · rw [hf]; rfl
        · obtain ⟨hb, -⟩ := BM.finish_error.1 hb
          cases hb

/-- C61, outputs: a witness that changed belongs to an output that is blinded completely. -/
theorem C61_output_proof (E : Env) (A : BlindArgs) (tx : Tx) (hsz : ∀ txin ∈ tx.vin, InputSizes txin) (j : Nat)
    (h : (blindTransaction E A tx).2.outWit j ≠ tx.outWit j) : ∃ bf abf, Blinded E A tx (blindTransaction E A tx).2 j bf abf := by
  have done : OutputDone E A tx (blindTransaction E A tx).2 j → ∃ bf abf, Blinded E A tx (blindTransaction E A tx).2 j bf abf := by
    intro g
    cases g with
    | notAsked _ g => exact absurd g.2 h
    | blinded bf abf _ g => exact ⟨bf, abf, g⟩
    | committed _ _ _ g => exact absurd g.noProofs h
  cases C61_got_to E A tx hsz with
  | start g => rw [g] at h; exact absurd rfl h
  | issuance x key _ _ _ _ _ g => exact absurd (g j).2 h
  | output k _ g1 g2 g3 _ =>
    rcases Nat.lt_trichotomy j k with hk | hk | hk
    · exact done (g1 j hk)
    · subst hk; exact absurd g3 h
    · exact absurd (g2 j hk).2 h

/-- C61, issuances: a proof that changed belongs to an issued amount that is blinded. -/
theorem C61_issuance_proof (E : Env) (A : BlindArgs) (tx : Tx) (hsz : ∀ txin ∈ tx.vin, InputSizes txin) (i : Nat) (token : Bool)
    (h : ((blindTransaction E A tx).2.inWit i).issuedProof token ≠ (tx.inWit i).issuedProof token) :
    ∃ key, A.issuanceKey i token = some key ∧ IssuanceBlinded E A tx (blindTransaction E A tx).2 i token key := by
  have done : IssuanceDone E A tx (blindTransaction E A tx).2 (i, token) →
      ∃ key, A.issuanceKey i token = some key ∧ IssuanceBlinded E A tx (blindTransaction E A tx).2 i token key := by
    intro g
    cases g with
    | notAsked _ g => exact absurd g.2 h
    | nothing _ g => exact absurd g.2 h
    | reissued _ _ g => exact absurd g.2 h
    | blinded key hk g => exact ⟨key, hk, g⟩
  cases C61_got_to E A tx hsz with
  | start g => rw [g] at h; exact absurd rfl h
  | issuance x key _ g1 g2 g3 _ _ =>
    by_cases hx : (i, token) = x
    · subst hx; exact absurd g3 h
    by_cases hb : IssuanceBefore (i, token) x
    · exact done (g1 _ hb)
    · refine absurd (g2 (i, token) ?_).2 h
      obtain ⟨i', tk⟩ := x
      unfold IssuanceBefore at hb ⊢
      dsimp only at hb ⊢
      rcases Nat.lt_trichotomy i i' with hi | hi | hi
      · exact absurd (.inl hi) hb
      · subst hi
        cases token <;> cases tk
        · exact absurd rfl hx
        · exact absurd (.inr ⟨rfl, rfl, rfl⟩) hb
        · exact .inr ⟨rfl, rfl, rfl⟩
        · exact absurd rfl hx
      · exact .inl hi
  | output k g _ _ _ _ => exact done (g _)

/-- Three outputs to blind; the random source fails when the second needs its ephemeral key. -/
def tornTx : Tx := Toy.tx [(5, 3), (5, 2), (5, 3)]
def tornArgs : BlindArgs :=
  { descs := [⟨Toy.b32 5, 8, Toy.b32 3, Toy.b32 4⟩], pubkeys := [Toy.pub 3, Toy.pub 4, Toy.pub 5], 
    rand := fun k => if k = 6 then [] else Toy.b32 (k + 5) }

-- a call that raises: the first output is blinded, the second half-written, the third untouched
example : (blindTransaction Toy.env tornArgs tornTx).1 = .error .valueError ∧
    (∀ txin ∈ tornTx.vin, InputSizes txin) ∧
    (blindTransaction Toy.env tornArgs tornTx).2.outWit 0 ≠ tornTx.outWit 0 ∧
    (blindTransaction Toy.env tornArgs tornTx).2.vout[1]? ≠ tornTx.vout[1]? ∧
    (blindTransaction Toy.env tornArgs tornTx).2.outWit 1 = tornTx.outWit 1 ∧
    (blindTransaction Toy.env tornArgs tornTx).2.vout[2]? = tornTx.vout[2]? := by
  refine ⟨by decide +kernel, ?_, by decide +kernel, by decide +kernel, by decide +kernel, by decide +kernel⟩
  intro txin ht
  rw [show tornTx.vin = [{ prevout := ⟨Toy.b32 9, 0⟩ }] from rfl, List.mem_singleton] at ht
  subst ht
  exact ⟨by decide, by decide, by decide⟩

end Verif
