import Verif.Blind
/-
How runs of the blinding steps decompose.
-/
namespace Verif

theorem BM.bind_ok {α β} {m : BM α} {f : α → BM β} {s s' b} :
    (m >>= f) s = (.ok b, s') ↔ ∃ a s1, m s = (.ok a, s1) ∧ f a s1 = (.ok b, s') := by
  show (match m s with | (.ok a, s) => f a s | (.error e, s) => (.error e, s)) = _ ↔ _
  rcases hm : m s with ⟨_ | a, s1⟩
  · simp
  · simp [and_assoc]

theorem BM.bind_error {α β} {m : BM α} {f : α → BM β} {s s' e} :
    (m >>= f) s = (.error e, s') ↔
      m s = (.error e, s') ∨ ∃ a s1, m s = (.ok a, s1) ∧ f a s1 = (.error e, s') := by
  show (match m s with | (.ok a, s) => f a s | (.error e, s) => (.error e, s)) = _ ↔ _
  rcases hm : m s with ⟨_ | a, s1⟩
  · simp
  · simp [and_assoc]

theorem BM.pure_ok {α} {a b : α} {s s'} : (pure a : BM α) s = (.ok b, s') ↔ a = b ∧ s = s' := by
  show ((.ok a, s) : Except Stop α × BS) = _ ↔ _
  simp
theorem BM.pure_error {α} {a : α} {s s' e} : (pure a : BM α) s = (.error e, s') ↔ False := by
  show ((.ok a, s) : Except Stop α × BS) = _ ↔ _
  simp
theorem BM.get_ok {s a s'} : BM.get s = (.ok a, s') ↔ a = s ∧ s' = s := by
  simp [BM.get]; constructor <;> (rintro ⟨rfl, rfl⟩; simp)
theorem BM.get_error {s s' e} : BM.get s = (.error e, s') ↔ False := by simp [BM.get]
theorem BM.modify_ok {f s a s'} : BM.modify f s = (.ok a, s') ↔ s' = f s := by
  simp [BM.modify]; constructor <;> (rintro rfl; rfl)
theorem BM.modify_error {f s s' e} : BM.modify f s = (.error e, s') ↔ False := by simp [BM.modify]
theorem BM.modifyTx_ok {f s a s'} : BM.modifyTx f s = (.ok a, s') ↔ s' = { s with tx := f s.tx } := by
  simp [BM.modifyTx, BM.modify_ok]
theorem BM.modifyTx_error {f s s' e} : BM.modifyTx f s = (.error e, s') ↔ False := by
  simp [BM.modifyTx, BM.modify_error]
theorem BM.lift_ok {α} {x : Except PyErr α} {s a s'} : BM.lift x s = (.ok a, s') ↔ x = .ok a ∧ s' = s := by
  cases x <;> simp [BM.lift, raiseE, Except.mapError]
  exact fun _ => eq_comm
theorem BM.lift_error {α} {x : Except PyErr α} {s s' e} :
    BM.lift x s = (.error e, s') ↔ ∃ p, x = .error p ∧ e = .raise p ∧ s' = s := by
  cases x <;> simp [BM.lift, raiseE, Except.mapError]
  constructor <;> (rintro ⟨rfl, rfl⟩; simp)
theorem BM.stop_ok {α} {r s} {a : α} {s'} : BM.stop r s = (.ok a, s') ↔ False := by simp [BM.stop]
theorem BM.stop_error {α} {r s s' e} : (BM.stop r : BM α) s = (.error e, s') ↔ e = .ret r ∧ s' = s := by
  simp [BM.stop]; constructor <;> (rintro ⟨rfl, rfl⟩; simp)
theorem BM.rand_ok {A s a s'} : BM.rand A s = (.ok a, s') ↔ a = A.rand s.rnd ∧ s' = { s with rnd := s.rnd + 1 } := by
  simp [BM.rand]; constructor <;> (rintro ⟨rfl, rfl⟩; simp)
theorem BM.rand_error {A s s' e} : BM.rand A s = (.error e, s') ↔ False := by simp [BM.rand]
theorem BM.finish_ok {α} {C s} {a : α} {s'} : BM.finish C s = (.ok a, s') ↔ False := by
  simp [BM.finish, BM.bind_ok, BM.stop_ok]
theorem BM.finish_error {α} {C s s' e} : (BM.finish C : BM α) s = (.error e, s') ↔
    e = .ret (blindingResult C s) ∧ s' = s := by
  simp only [BM.finish, BM.bind_error, BM.get_error, BM.get_ok, BM.stop_error, false_or]
  constructor
  · rintro ⟨a, s1, ⟨rfl, rfl⟩, h⟩; exact h
  · intro h; exact ⟨s, s, ⟨rfl, rfl⟩, h⟩

theorem orRuntime_ok {α} {x : Option α} {a} : orRuntime x = .ok a ↔ x = some a := by
  cases x <;> simp [orRuntime]

theorem exc_bind_ok {ε α β} {x : Except ε α} {f : α → Except ε β} {b} :
    (x >>= f) = .ok b ↔ ∃ a, x = .ok a ∧ f a = .ok b := by
  cases x <;> simp [bind, Except.bind]
theorem exc_bind_error {ε α β} {x : Except ε α} {f : α → Except ε β} {e} :
    (x >>= f) = .error e ↔ x = .error e ∨ ∃ a, x = .ok a ∧ f a = .error e := by
  cases x <;> simp [bind, Except.bind]
theorem raiseE_ok {α} {x : Except PyErr α} {a} : raiseE x = .ok a ↔ x = .ok a := by
  cases x <;> simp [raiseE, Except.mapError]
theorem raiseE_error {α} {x : Except PyErr α} {e} : raiseE x = .error e ↔ ∃ p, x = .error p ∧ e = .raise p := by
  cases x <;> simp [raiseE, Except.mapError, eq_comm]

theorem uint256New_ok {b c} : uint256New b = .ok c ↔ b.length = 32 ∧ c = b := by
  unfold uint256New; split <;> simp_all [eq_comm]

/-- What `blinded_asset` returns. -/
theorem blindedAsset_ok {z : Zkp} {asset r ca gen} :
    blindedAsset z asset r = .ok (ca, gen) ↔
      z.generateBlinded asset r = some gen ∧ z.genSerialize gen = some ca ∧ confIsValid assetKind ca = true := by
  unfold blindedAsset
  simp only [exc_bind_ok, orRuntime_ok]
  constructor
  · rintro ⟨g, hg, b, hb, c, hc, h⟩
    have hl := z.genSerialize_len _ _ hb
    have : c = b := by simpa [confNew, hl, committedSize, eq_comm] using hc
    subst this
    by_cases hv : confIsValid assetKind c = true
    · simp [hv, pure, Except.pure] at h
      obtain ⟨rfl, rfl⟩ := h
      exact ⟨hg, hb, hv⟩
    · simp [hv, throw, throwThe, MonadExceptOf.throw, bind, Except.bind] at h
  · rintro ⟨hg, hb, hv⟩
    have hl := z.genSerialize_len _ _ hb
    exact ⟨gen, hg, ca, hb, ca, by simp [confNew, hl, committedSize], by simp [hv, pure, Except.pure]⟩

/-- What `create_value_commitment` returns. -/
theorem createValueCommitment_ok {z : Zkp} {blind gen amount cv com} :
    createValueCommitment z blind gen amount = .ok (cv, com) ↔
      z.commit blind (twos 8 amount) gen = some com ∧ z.commitSerialize com = some cv
        ∧ confIsValid valueKind cv = true := by
  unfold createValueCommitment
  simp only [exc_bind_ok, orRuntime_ok]
  constructor
  · rintro ⟨g, hg, b, hb, c, hc, h⟩
    have hl := z.commitSerialize_len _ _ hb
    have : c = b := by simpa [confNew, hl, committedSize, eq_comm] using hc
    subst this
    by_cases hv : confIsValid valueKind c = true
    · simp [hv, pure, Except.pure] at h
      obtain ⟨rfl, rfl⟩ := h
      exact ⟨hg, hb, hv⟩
    · simp [hv, throw, throwThe, MonadExceptOf.throw, bind, Except.bind] at h
  · rintro ⟨hg, hb, hv⟩
    have hl := z.commitSerialize_len _ _ hb
    exact ⟨com, hg, cv, hb, cv, by simp [confNew, hl, committedSize], by simp [hv, pure, Except.pure]⟩

theorem generateRangeproof_ok {z : Zkp} {e b blind nonce amount script commit gen asset assetblind p} :
    generateRangeproof z e b blind nonce amount script commit gen asset assetblind = .ok p ↔
      commit.length = 64 ∧ gen.length = 64 ∧
      z.rangeSign (rangeproofArgs e b blind nonce amount script commit gen asset assetblind) = some p := by
  unfold generateRangeproof
  split
  · simp_all
  · split
    · simp_all
    · simp_all [orRuntime_ok]

theorem outputNonce_ok {E : Env} {pk seed nonce eph} :
    outputNonce E pk seed = .ok (nonce, eph) ↔
      seed.length = 32 ∧ E.z.secValid seed = true ∧ eph = E.z.pubOf seed ∧ eph.length = 33 ∧
      ∃ x, E.z.ecdh seed pk = some x ∧ nonce = E.h.fn x := by
  unfold outputNonce ckeyNew
  by_cases hl : seed.length = 32
  · by_cases hv : E.z.secValid seed = true
    · by_cases hp : (E.z.pubOf seed).length = 33
      · simp only [hl, hv, ne_eq, not_true_eq_false, if_false, if_true, exc_bind_ok, hp, committedSize, orRuntime_ok]
        constructor
        · rintro ⟨a, ha, h⟩
          cases ha
          simp only [hp, not_true_eq_false, if_false, exc_bind_ok, orRuntime_ok, pure, Except.pure] at h
          obtain ⟨x, hx, h⟩ := h
          cases h
          exact ⟨trivial, trivial, rfl, hp, x, hx, rfl⟩
        · rintro ⟨-, -, rfl, -, x, hx, rfl⟩
          refine ⟨seed, rfl, ?_⟩
          simp only [hp, not_true_eq_false, if_false, exc_bind_ok, orRuntime_ok, pure, Except.pure]
          exact ⟨x, hx, rfl⟩
      · simp only [hl, hv, ne_eq, not_true_eq_false, if_false, if_true, committedSize]
        constructor
        · intro h
          simp [hp, bind, Except.bind, throw, throwThe, MonadExceptOf.throw] at h
        · rintro ⟨-, -, rfl, h, -⟩
          exact absurd h hp
    · simp [hl, hv, bind, Except.bind]
  · simp [hl, bind, Except.bind]

end Verif
