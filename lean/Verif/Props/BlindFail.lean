import Verif.BlindChecks
import Verif.ZkpToy
/-
C38: outputs that cannot be blinded.  C39: what a failure leaves behind.
-/
namespace Verif

/-- If the checks do not pass, nothing is changed and there is no success. -/
theorem blind_checks_fail {E : Env} {A : BlindArgs} {tx : Tx} (h : ∀ T c, checks E A tx ≠ .ok (T, c))
    (hr : ∀ n b a, checks E A tx ≠ .error (.ret (.success n b a))) :
    (blindTransaction E A tx).2 = tx ∧ ∀ n b a, (blindTransaction E A tx).1 ≠ .ok (.success n b a) := by
  unfold blindTransaction
  cases hc : checks E A tx with
  | error e =>
    cases e with
    | raise e => exact ⟨rfl, fun _ _ _ h => by cases h⟩
    | ret r =>
      refine ⟨rfl, fun n b a hh => ?_⟩
      cases hh
      exact hr n b a hc
  | ok p => exact absurd hc (h p.1 p.2)

/-- Results of the checking phase are failures. -/
def NoSuccess {α} (x : Except Stop α) : Prop := ∀ n b a, x ≠ .error (.ret (.success n b a))

theorem NoSuccess.ok {α} (a : α) : NoSuccess (.ok a : Except Stop α) := fun _ _ _ h => nomatch h
theorem NoSuccess.failure {α} (m : String) : NoSuccess (.error (.ret (.failure m)) : Except Stop α) := fun _ _ _ h => by cases h
theorem NoSuccess.raised {α} (e : PyErr) : NoSuccess (.error (.raise e) : Except Stop α) := fun _ _ _ h => by cases h
theorem NoSuccess.raiseE {α} (x : Except PyErr α) : NoSuccess (raiseE x) := by
  cases x <;> intro n b a h <;> simp [Verif.raiseE, Except.mapError] at h
theorem NoSuccess.bind {α β} {x : Except Stop α} {f : α → Except Stop β} (hx : NoSuccess x) (hf : ∀ a, NoSuccess (f a)) :
    NoSuccess (x >>= f) := by
  intro n b a h
  rcases exc_bind_error.1 h with h | ⟨y, _, h⟩
  · exact hx n b a h
  · exact hf y n b a h

theorem noSuccess_inputGenerator (z : Zkp) (A : BlindArgs) (i : Nat) (d : Desc) : NoSuccess (inputGenerator z A i d) := by
  unfold inputGenerator
  split
  · split
    · split
      · exact .raised _
      · split
        · exact .ok _
        · exact .failure _
    · exact .failure _
  · exact .raiseE _

theorem noSuccess_inputTargets (E : Env) (A : BlindArgs) : ∀ l i t tok, NoSuccess (inputTargets E A i l t tok)
  | [], _, _, _ => .ok _
  | (txin, d) :: rest, i, t, tok => by
    unfold inputTargets
    refine .bind (noSuccess_inputGenerator _ _ _ _) fun g => .bind (.raiseE _) fun t => .bind ?_ fun p => ?_
    · unfold issuanceTargets
      split
      · exact .ok _
      · split
        · exact .failure _
        · split
          · exact .failure _
          · refine .bind (.raiseE _) fun q => ?_
            obtain ⟨a, tk⟩ := q
            exact .bind (.raiseE _) fun t => .bind (.raiseE _) fun t => .ok _
    · obtain ⟨t, tok⟩ := p
      exact noSuccess_inputTargets E A rest _ _ _

theorem noSuccess_auxTargets (z : Zkp) : ∀ n l t, NoSuccess (auxTargets z n l t)
  | _, [], _ => .ok _
  | n, ag :: rest, t => by
    unfold auxTargets
    split
    · exact .failure _
    · exact .bind (.raiseE _) fun t => noSuccess_auxTargets z (n + 1) rest t

theorem noSuccess_countInputs (A : BlindArgs) (w : List TxInWitness) : ∀ l i c, NoSuccess (countInputs A w i l c)
  | [], _, _ => .ok _
  | (txin, d) :: rest, i, c => by
    have h1 : ∀ i d c, NoSuccess (countBlinded i d c) := by
      intro i d c; unfold countBlinded
      split
      · split
        · exact .failure _
        · exact .ok _
      · exact .ok _
    have h2 : ∀ i b k v p c, NoSuccess (countIssuance i b k v p c) := by
      intro i b k v p c; unfold countIssuance
      split
      · split
        · exact .failure _
        · split
          · exact .ok _
          · exact .failure _
      · exact .ok _
    unfold countInputs
    refine .bind (h1 _ _ _) fun c => ?_
    dsimp only
    split
    · exact .bind (.ok _) fun c => noSuccess_countInputs A w rest _ _
    · exact .bind (h2 _ _ _ _ _ _) fun c => .bind (h2 _ _ _ _ _ _) fun c => noSuccess_countInputs A w rest _ _

theorem noSuccess_countOutputs (z : Zkp) (tx : Tx) : ∀ l j c, NoSuccess (countOutputs z tx j l c)
  | [], _, _ => .ok _
  | pk :: rest, j, c => by
    unfold countOutputs
    refine .bind ?_ fun c => noSuccess_countOutputs z tx rest _ _
    unfold countOutput
    split
    · exact .ok _
    · split
      · exact .failure _
      · split
        · exact .failure _
        · split
          · exact .failure _
          · split
            · exact .failure _
            · split
              · exact .failure _
              · exact .ok _

theorem noSuccess_checks (E : Env) (A : BlindArgs) (tx : Tx) : NoSuccess (checks E A tx) := by
  unfold checks surjTargets
  exact .bind (.raiseE _) fun _ =>
    .bind (.bind (noSuccess_inputTargets _ _ _ _ _ _) fun _ => .bind (noSuccess_auxTargets _ _ _ _) fun _ => .raiseE _)
      fun _ => .bind (noSuccess_countInputs _ _ _ _ _) fun _ => .bind (noSuccess_countOutputs _ _ _ _ _) fun _ => .ok _

/-- C38.  A non-empty pubkey that is invalid, or given for an output that is not explicit in
value and asset, has a witness, or is a fee: no success and the transaction is untouched. -/
theorem C38_refused (E : Env) (A : BlindArgs) (tx : Tx) (j : Nat) (pk : Bytes) (hj : A.pubkeys[j]? = some pk)
    (hpk : pk ≠ []) (hbad : ¬ Blindable E.z tx j pk) :
    (blindTransaction E A tx).2 = tx ∧ ∀ n b a, (blindTransaction E A tx).1 ≠ .ok (.success n b a) := by
  refine blind_checks_fail (fun T c h => ?_) (noSuccess_checks E A tx)
  exact hbad ((checks_ok.1 h).2.2.2.1 j pk hj hpk)

/-- C38, the failure is reported, not raised, once inputs and argument lengths are in order. -/
theorem C38_reported (E : Env) (A : BlindArgs) (tx : Tx) (j : Nat) (pk : Bytes) (hj : A.pubkeys[j]? = some pk)
    (hpk : pk ≠ []) (hbad : ¬ Blindable E.z tx j pk) (hl : LengthsFine A tx) (T : TargetLists)
    (hT : surjTargets E A tx = .ok T)
    (hin : ∀ i txin d, tx.vin[i]? = some txin → A.descs[i]? = some d → InputFine A tx.wit.vtxinwit i txin d) :
    ∃ msg, (blindTransaction E A tx).1 = .ok (.failure msg) := by
  have key : ∀ (l : List Bytes) (j : Nat) (c : Counts), (∃ msg, countOutputs E.z tx j l c = .error (.ret (.failure msg)))
      ∨ ∃ c', countOutputs E.z tx j l c = .ok c' := by
    intro l
    induction l with
    | nil => intro j c; exact .inr ⟨c, rfl⟩
    | cons p rest ih =>
      intro j c
      unfold countOutputs
      have h1 : (∃ msg, countOutput E.z j p (tx.vout.getD j {}) tx.wit.vtxoutwit[j]? c = .error (.ret (.failure msg))) ∨
          ∃ c', countOutput E.z j p (tx.vout.getD j {}) tx.wit.vtxoutwit[j]? c = .ok c' := by
        unfold countOutput
        repeat' split
        all_goals first | exact .inr ⟨_, rfl⟩ | exact .inl ⟨_, rfl⟩
      rcases h1 with ⟨m, h1⟩ | ⟨c', h1⟩
      · rw [h1]; exact .inl ⟨m, rfl⟩
      · rw [h1]; exact ih (j + 1) c'
  have hci : ∃ c', countInputs A tx.wit.vtxinwit 0 (tx.vin.zip A.descs) {} = .ok c' := by
    refine ⟨_, countInputs_ok.2 ⟨?_, rfl⟩⟩
    intro k x hx
    rw [zip_get] at hx
    simpa using hin k x.1 x.2 hx.1 hx.2
  obtain ⟨c1, hc1⟩ := hci
  have hch : checks E A tx = (do
      let c ← countOutputs E.z tx 0 A.pubkeys c1
      return (T, c)) := by
    unfold checks
    rw [hT, hc1, (checkArgs_ok (u := ())).2 hl]
    rfl
  rcases key A.pubkeys 0 c1 with ⟨m, hm⟩ | ⟨c', hc'⟩
  · refine ⟨m, ?_⟩
    unfold blindTransaction
    rw [hch, hm]
    rfl
  · exact absurd ((countOutputs_ok.1 hc').1 j pk hj hpk) (by simpa using hbad)

-- A fee output with a pubkey: refused, reported, untouched.
example :
    let t : Tx := ⟨2, [{ prevout := ⟨Toy.b32 9, 0⟩ }], [{ nAsset := Toy.ast 5, nValue := Toy.amt 7 }], 0, {}⟩
    let A : BlindArgs := { descs := [⟨Toy.b32 5, 7, Toy.b32 3, Toy.b32 4⟩], pubkeys := [Toy.pub 3], rand := fun k => Toy.b32 (k + 5) }
    ¬ Blindable Toy.env.z t 0 (Toy.pub 3) ∧ blindTransaction Toy.env A t = (.ok (.failure "valid blinding pubkey specified for output 0, but this output is a fee output"), t) :=
  ⟨fun h => h.script rfl, by decide +kernel⟩

/-! ### C39 -/

/-- Everything `blind()` checks before it changes anything. -/
structure Acceptable (E : Env) (A : BlindArgs) (tx : Tx) : Prop where
  lengths : LengthsFine A tx
  /-- generators of all inputs and issuances can be made -/
  targets : ∃ T, surjTargets E A tx = .ok T
  inputs : ∀ i txin d, tx.vin[i]? = some txin → A.descs[i]? = some d → InputFine A tx.wit.vtxinwit i txin d
  outputs : ∀ j pk, A.pubkeys[j]? = some pk → pk ≠ [] → Blindable E.z tx j pk

/-- C39, the full statement. -/
def C39_statement : Prop := ∀ (E : Env) (A : BlindArgs) (tx : Tx),
  (∀ n b a, (blindTransaction E A tx).1 ≠ .ok (.success n b a)) → (blindTransaction E A tx).2 = tx

/-- C39 for every reason detected by the checks: unacceptable arguments leave the transaction
as it was.  Missing: failures of the library, of the random source or of the surjection proof
once changes have begun. -/
theorem C39_partial (E : Env) (A : BlindArgs) (tx : Tx) (h : ¬ Acceptable E A tx) :
    (blindTransaction E A tx).2 = tx ∧ ∀ n b a, (blindTransaction E A tx).1 ≠ .ok (.success n b a) := by
  refine blind_checks_fail (fun T c hc => h ?_) (noSuccess_checks E A tx)
  obtain ⟨h1, h2, h3, h4, _⟩ := checks_ok.1 hc
  exact ⟨h1, ⟨T, h2⟩, h3, h4⟩

/-- One blinded input of asset 5, one output of asset 6 to blind: there is no surjection. -/
def noSurjTx : Tx := Toy.tx [(6, 7)]
def noSurjArgs : BlindArgs :=
  { descs := [⟨Toy.b32 5, 7, Toy.b32 3, Toy.b32 4⟩], pubkeys := [Toy.pub 3], rand := fun k => Toy.b32 (k + 5) }

/-- C39 is false: the missing surjection proof is noticed after the output was overwritten. -/
theorem C39_statement_false : ¬ C39_statement := by
  intro h
  have h1 : (blindTransaction Toy.env noSurjArgs noSurjTx).1 = .ok (.failure
      "blinded 0 outputs/issuances, but should have blinded 1 (this check can be turned off with is_blind_success_strict=False)") := by
    decide +kernel
  have h2 := h Toy.env noSurjArgs noSurjTx (fun n b a => by rw [h1]; exact fun hh => by cases hh)
  exact absurd h2 (by decide +kernel)

end Verif
