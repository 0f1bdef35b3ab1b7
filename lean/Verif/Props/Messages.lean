import Verif.Spec.Messages
import Verif.Props.BlindFail
import Verif.Props.BlindTargets
import Verif.Props.Unblind
/-
C75: failures tell what is wrong.
-/
namespace Verif

/-- A computation of the checking phase that looks for the problems in `R`. -/
structure Tells {α : Type} (E : Env) (A : BlindArgs) (tx : Tx) (R : Problem → Prop) (x : Except Stop α) : Prop where
  fine : ∀ a, x = .ok a → ∀ p, R p → ¬ p.Present E A tx
  told : ∀ r, x = .error (.ret r) → ∃ p, R p ∧ p.Present E A tx ∧ r = .failure p.told ∧
    ∀ q, R q → q.Before p → ¬ q.Present E A tx

variable {α β : Type} {E : Env} {A : BlindArgs} {tx : Tx}

theorem Tells.mono {R R' : Problem → Prop} {x : Except Stop α} (h : Tells E A tx R x)
    (hR : ∀ p, p.Present E A tx → (R p ↔ R' p)) : Tells E A tx R' x := by
  refine ⟨fun a ha p hp hpr => h.fine a ha p ((hR p hpr).2 hp) hpr, fun r hr => ?_⟩
  obtain ⟨p, h1, h2, h3, h4⟩ := h.told r hr
  exact ⟨p, (hR p h2).1 h1, h2, h3, fun q hq hb hp => h4 q ((hR q hp).2 hq) hb hp⟩

theorem Tells.raiseE (x : Except PyErr α) : Tells E A tx (fun _ => False) (raiseE x) :=
  ⟨fun _ _ _ h => h.elim, fun r hr => by obtain ⟨_, _, h⟩ := raiseE_error.1 hr; cases h⟩

theorem Tells.ok (a : α) : Tells E A tx (fun _ => False) (.ok a) :=
  ⟨fun _ _ _ h => h.elim, fun r hr => by cases hr⟩

/-- One after the other. -/
theorem Tells.bind {R R' : Problem → Prop} {x : Except Stop α} {f : α → Except Stop β} (h : Tells E A tx R x)
    (hf : ∀ a, Tells E A tx R' (f a)) (ho : ∀ p q, R p → R' q → ¬ q.Before p) :
    Tells E A tx (fun p => R p ∨ R' p) (x >>= f) := by
  constructor
  · intro b hb p hp
    obtain ⟨a, ha, hb⟩ := exc_bind_ok.1 hb
    exact hp.elim (h.fine a ha p) ((hf a).fine b hb p)
  · intro r hr
    rcases exc_bind_error.1 hr with hr | ⟨a, ha, hr⟩
    · obtain ⟨p, h1, h2, h3, h4⟩ := h.told r hr
      exact ⟨p, .inl h1, h2, h3, fun q hq hb => hq.elim (fun hq => h4 q hq hb) fun hq => absurd hb (ho p q h1 hq)⟩
    · obtain ⟨p, h1, h2, h3, h4⟩ := (hf a).told r hr
      exact ⟨p, .inr h1, h2, h3, fun q hq hb => hq.elim (fun hq => h.fine a ha q hq) fun hq => h4 q hq hb⟩

/-- As `bind`, when nothing is looked for first. -/
theorem Tells.after {R : Problem → Prop} {x : Except PyErr α} {f : α → Except Stop β} (hf : ∀ a, Tells E A tx R (f a)) :
    Tells E A tx R (Verif.raiseE x >>= f) :=
  ((Tells.raiseE x).bind hf (fun _ _ h => h.elim)).mono fun _ _ => by simp

/-- The problems of phase `φ` at number `i`. -/
def At (φ i : Nat) (p : Problem) : Prop := p.place.1 = φ ∧ p.place.2.1 = i
/-- The problems of phase `φ` from number `i` on. -/
def From (φ i : Nat) (p : Problem) : Prop := p.place.1 = φ ∧ i ≤ p.place.2.1

theorem from_step {φ i : Nat} (p : Problem) : At φ i p ∨ From φ (i + 1) p ↔ From φ i p := by
  unfold At From; omega

theorem at_from {φ i : Nat} (p q : Problem) (hp : At φ i p) (hq : From φ (i + 1) q) : ¬ q.Before p := by
  unfold At From Problem.Before at *; omega

theorem issued_commitment {txin : TxIn} (h : txin.assetIssuance.isNull = true) (token : Bool) : ¬ IsValueCommitment (txin.issued token) := by
  simp only [Issuance.isNull, confIsNull, Bool.and_eq_true, beq_iff_eq, List.length_eq_zero_iff] at h
  rintro ⟨b, hb, -⟩
  cases token <;> simp [TxIn.issued, h.1, h.2] at hb

theorem isNull_false {i : Issuance} (h : ¬ i.isNull = true) : i.isNull = false := by simpa using h

theorem tells_generator {i : Nat} {d : Desc} (hi : i < tx.vin.length) (hd : A.descs[i]? = some d) :
    Tells E A tx (fun p => At 0 i p ∧ p.place.2.2 = 0) (inputGenerator E.z A i d) := by
  have split0 : ∀ p : Problem, At 0 i p ∧ p.place.2.2 = 0 → p = .noGenerator i ∨ p = .badGenerator i := by
    rintro p ⟨⟨h1, h2⟩, h3⟩
    cases p with
    | noGenerator k => exact .inl (by rw [show k = i from h2])
    | badGenerator k => exact .inr (by rw [show k = i from h2])
    | hiddenIssuance k token => cases token <;> simp [Problem.place] at h3
    | _ => simp [Problem.place] at h1
  constructor
  · intro g hg p hp hpr
    have hs := inputGenerator_ok.1 hg
    rcases split0 p hp with rfl | rfl
    · obtain ⟨-, ⟨d', hd', hz⟩, ha⟩ := hpr
      rw [hd] at hd'; cases hd'
      cases hs with
      | own _ h => exact h hz
      | foreign _ _ _ h => rw [ha] at h; simp at h
    · obtain ⟨-, ⟨d', hd', hz⟩, g', hg', hn⟩ := hpr
      rw [hd] at hd'; cases hd'
      cases hs with
      | own _ h => exact h hz
      | foreign _ _ _ h h' => rw [hg'] at h; cases h; rw [hn] at h'; cases h'
  · intro r hr
    have before : ∀ p : Problem, (p = .noGenerator i ∨ p = .badGenerator i) → ∀ q : Problem, At 0 i q ∧ q.place.2.2 = 0 → ¬ q.Before p := by
      rintro p (rfl | rfl) q ⟨⟨h1, h2⟩, h3⟩ hb <;> simp [Problem.Before, h1, h2, h3] at hb <;> simp [Problem.place] at hb
    unfold inputGenerator at hr
    split at hr
    · rename_i hz
      have hz := isNull32_iff.1 hz
      split at hr
      · split at hr
        · cases hr
        · rename_i ag hag
          split at hr
          · cases hr
          · rename_i hn
            cases hr
            exact ⟨.badGenerator i, ⟨⟨rfl, rfl⟩, rfl⟩, ⟨hi, ⟨d, hd, hz⟩, ag, hag, hn⟩, rfl,
              fun q hq hb => absurd hb (before _ (.inr rfl) q hq)⟩
      · rename_i ha
        cases hr
        exact ⟨.noGenerator i, ⟨⟨rfl, rfl⟩, rfl⟩, ⟨hi, ⟨d, hd, hz⟩, by simpa using ha⟩, rfl,
          fun q hq hb => absurd hb (before _ (.inl rfl) q hq)⟩
    · obtain ⟨_, _, h⟩ := raiseE_error.1 hr; cases h

theorem tells_issuance {i : Nat} {txin : TxIn} (hi : tx.vin[i]? = some txin) (t : Targets) (token : Option Bytes) :
    Tells E A tx (fun p => At 0 i p ∧ p.place.2.2 ≠ 0) (issuanceTargets E A i txin t token) := by
  have split0 : ∀ p : Problem, At 0 i p ∧ p.place.2.2 ≠ 0 → p = .hiddenIssuance i false ∨ p = .hiddenIssuance i true := by
    rintro p ⟨⟨h1, h2⟩, h3⟩
    cases p with
    | noGenerator k => simp [Problem.place] at h3
    | badGenerator k => simp [Problem.place] at h3
    | hiddenIssuance k token => rw [show k = i from h2]; cases token <;> simp
    | _ => simp [Problem.place] at h1
  have none_iff : ∀ token, Problem.Present E A tx (.hiddenIssuance i token) ↔ IsValueCommitment (txin.issued token) := by
    intro token
    constructor
    · rintro ⟨x, hx, h⟩; rw [hi] at hx; cases hx; exact h
    · intro h; exact ⟨txin, hi, h⟩
  by_cases hn : txin.assetIssuance.isNull = true
  · unfold issuanceTargets
    rw [if_pos hn]
    refine ⟨fun a _ p hp hpr => ?_, fun r hr => by cases hr⟩
    rcases split0 p hp with rfl | rfl
    · exact issued_commitment hn false ((none_iff false).1 hpr)
    · exact issued_commitment hn true ((none_iff true).1 hpr)
  · unfold issuanceTargets
    rw [if_neg hn]
    by_cases h1 : IsValueCommitment txin.assetIssuance.nAmount
    · rw [if_pos (valueCommitment_iff.2 h1)]
      refine ⟨fun a ha => (by cases ha), fun r hr => ?_⟩
      cases hr
      refine ⟨.hiddenIssuance i false, ⟨⟨rfl, rfl⟩, (by cases i <;> simp [Problem.place])⟩, (none_iff false).2 h1, rfl, fun q hq hb => ?_⟩
      rcases split0 q hq with rfl | rfl <;> simp [Problem.Before, Problem.place] at hb
    · rw [if_neg (fun h => h1 (valueCommitment_iff.1 h))]
      by_cases h2 : IsValueCommitment txin.assetIssuance.nInflationKeys
      · rw [if_pos (valueCommitment_iff.2 h2)]
        refine ⟨fun a ha => (by cases ha), fun r hr => ?_⟩
        cases hr
        refine ⟨.hiddenIssuance i true, ⟨⟨rfl, rfl⟩, (by cases i <;> simp [Problem.place])⟩, (none_iff true).2 h2, rfl, fun q hq hb => ?_⟩
        rcases split0 q hq with rfl | rfl
        · exact fun h => h1 ((none_iff false).1 h)
        · simp [Problem.Before] at hb
      · rw [if_neg (fun h => h2 (valueCommitment_iff.1 h))]
        refine Tells.mono (Tells.after fun x => ?_ : Tells E A tx (fun _ => False) _) fun p hp => ?_
        · exact Tells.after fun t => Tells.after fun t => Tells.ok _
        · constructor
          · exact False.elim
          · intro h
            rcases split0 p h with rfl | rfl
            · exact h1 ((none_iff false).1 hp)
            · exact h2 ((none_iff true).1 hp)

theorem tells_inputs : ∀ (l : List (TxIn × Desc)) (i : Nat) (t : Targets) (token : Option Bytes),
    A.descs.length = tx.vin.length → l = (tx.vin.zip A.descs).drop i → Tells E A tx (From 0 i) (inputTargets E A i l t token)
  | [], i, t, token, hl, h => by
    refine (Tells.ok t).mono fun p hp => ⟨False.elim, fun ⟨h1, h2⟩ => ?_⟩
    have hlen : tx.vin.length ≤ i := by
      have := congrArg List.length h
      simp at this
      omega
    have : p.place.2.1 < tx.vin.length := by
      cases p with
      | noGenerator k => exact hp.1
      | badGenerator k => exact hp.1
      | hiddenIssuance k token => obtain ⟨x, hx, -⟩ := hp; exact (List.getElem?_eq_some_iff.1 hx).1
      | _ => simp [Problem.place] at h1
    omega
  | (txin, d) :: rest, i, t, token, hl, h => by
    have hx : (tx.vin.zip A.descs)[i]? = some (txin, d) := by
      have := congrArg (fun l => l[0]?) h
      simpa using this.symm
    obtain ⟨h1, h2⟩ := zip_get.1 hx
    have hr : rest = (tx.vin.zip A.descs).drop (i + 1) := by
      have := congrArg List.tail h
      simpa using this
    unfold inputTargets
    refine ((tells_generator (List.getElem?_eq_some_iff.1 h1).1 h2).bind (R' := fun p => (At 0 i p ∧ p.place.2.2 ≠ 0) ∨ From 0 (i + 1) p)
      (fun g => Tells.after fun t => (tells_issuance h1 t token).bind (fun q => ?_) ?_) ?_).mono fun p _ => ?_
    · obtain ⟨t, tok⟩ := q
      exact tells_inputs rest (i + 1) t tok hl hr
    · exact fun p q hp hq => at_from p q hp.1 hq
    · rintro p q ⟨hp, hp0⟩ (⟨hq, hq0⟩ | hq)
      · unfold At Problem.Before at *; omega
      · exact at_from p q hp hq
    · rw [← from_step (i := i)]
      by_cases hz : p.place.2.2 = 0 <;> simp [hz]

theorem tells_extra : ∀ (l : List Bytes) (i : Nat) (t : Targets), l = A.auxGens.drop i → tx.vin.length ≤ i →
    Tells E A tx (From 1 i) (auxTargets E.z i l t)
  | [], i, t, h, hi => by
    refine (Tells.ok t).mono fun p hp => ⟨False.elim, fun ⟨h1, h2⟩ => ?_⟩
    have hlen : A.auxGens.length ≤ i := by
      have := congrArg List.length h
      simp at this
      omega
    cases p with
    | extraGenerator k =>
      obtain ⟨-, g, hg, -⟩ := hp
      have := (List.getElem?_eq_some_iff.1 hg).1
      simp only [Problem.place] at h2
      omega
    | _ => simp [Problem.place] at h1
  | ag :: rest, i, t, h, hi => by
    have hx : A.auxGens[i]? = some ag := by
      have := congrArg (fun l => l[0]?) h
      simpa using this.symm
    have hr : rest = A.auxGens.drop (i + 1) := by
      have := congrArg List.tail h
      simpa using this
    have only : ∀ p : Problem, At 1 i p → p = .extraGenerator i := by
      rintro p ⟨h1, h2⟩
      cases p with
      | extraGenerator k => rw [show k = i from h2]
      | _ => simp [Problem.place] at h1
    unfold auxTargets
    cases hg : E.z.genParse ag with
    | none =>
      refine ⟨fun a ha => (by cases ha), fun r hr => ?_⟩
      cases hr
      refine ⟨.extraGenerator i, ⟨rfl, Nat.le_refl _⟩, ⟨hi, ag, hx, hg⟩, rfl, ?_⟩
      rintro q ⟨h1, h2⟩ hb
      simp only [Problem.Before, h1, show (Problem.extraGenerator i).place = (1, i, 0) from rfl] at hb
      omega
    | some g =>
      dsimp only
      refine (Tells.after fun t => tells_extra rest (i + 1) t hr (by omega)).mono fun p hp => ?_
      rw [← from_step (i := i)]
      constructor
      · exact .inr
      · rintro (h | h)
        · rw [only p h] at hp
          obtain ⟨-, g', hg', hn⟩ := hp
          rw [hx] at hg'; cases hg'
          rw [hg] at hn; cases hn
        · exact h

theorem tells_blinded {i : Nat} {d : Desc} (hi : i < tx.vin.length) (hd : A.descs[i]? = some d) (c : Counts) :
    Tells E A tx (fun p => At 2 i p ∧ p.place.2.2 = 0) (countBlinded i d c) := by
  have only : ∀ p : Problem, At 2 i p ∧ p.place.2.2 = 0 → p = .negative i := by
    rintro p ⟨⟨h1, h2⟩, h3⟩
    cases p with
    | negative k => rw [show k = i from h2]
    | notExplicit k token => cases token <;> simp [Problem.place] at h3
    | proofInPlace k token => cases token <;> simp [Problem.place] at h3
    | _ => simp [Problem.place] at h1
  constructor
  · intro c' hc p hp hpr
    rw [only p hp] at hpr
    obtain ⟨-, d', hd', hb, ha⟩ := hpr
    rw [hd] at hd'; cases hd'
    have := (countBlinded_ok.1 hc).1 hb
    omega
  · intro r hr
    unfold countBlinded at hr
    rw [blinded_iff] at hr
    split at hr
    · rename_i hb
      split at hr
      · rename_i ha
        cases hr
        refine ⟨.negative i, ⟨⟨rfl, rfl⟩, rfl⟩, ⟨hi, d, hd, hb, ha⟩, rfl, fun q hq hbf => ?_⟩
        rw [only q hq] at hbf
        simp [Problem.Before] at hbf
      · cases hr
    · cases hr

/-- Where problems with the issued amount, or the number of tokens, stand. -/
def sub (token : Bool) : Nat := if token then 3 else 1

theorem told_notExplicit (i : Nat) (token : Bool) : notExplicit i token = (Problem.notExplicit i token).told := by
  cases token <;> rfl

theorem validKeyFor_append (j : Nat) {b d : String} (h : ", but " ++ b = d) :
    validKeyFor j ++ b = "valid blinding pubkey specified for output " ++ toString j ++ d := by
  subst h
  exact String.append_assoc

theorem tells_countIssuance {i : Nat} {txin : TxIn} (hi : tx.vin[i]? = some txin) (hn : txin.assetIssuance.isNull = false) (token : Bool)
    (c : Counts) : Tells E A tx (fun p => At 2 i p ∧ (p.place.2.2 = sub token ∨ p.place.2.2 = sub token + 1))
      (countIssuance i token (A.issuanceKey i token) (txin.issued token) ((tx.inWit i).issuedProof token) c) := by
  have only : ∀ p : Problem, At 2 i p ∧ (p.place.2.2 = sub token ∨ p.place.2.2 = sub token + 1) →
      p = .notExplicit i token ∨ p = .proofInPlace i token := by
    rintro p ⟨⟨h1, h2⟩, h3⟩
    cases p with
    | negative k => cases token <;> simp [Problem.place, sub] at h3
    | notExplicit k tok => rw [show k = i from h2]; cases tok <;> cases token <;> simp [Problem.place, sub] at h3 ⊢
    | proofInPlace k tok => rw [show k = i from h2]; cases tok <;> cases token <;> simp [Problem.place, sub] at h3 ⊢
    | _ => simp [Problem.place] at h1
  constructor
  · intro c' hc p hp hpr
    have hk := (countIssuance_ok.1 hc).1
    rcases only p hp with rfl | rfl
    · obtain ⟨x, key, hx, -, hkey, he⟩ := hpr
      rw [hi] at hx; cases hx
      exact he (hk (by rw [hkey]; rfl)).1
    · obtain ⟨x, key, hx, -, hkey, he⟩ := hpr
      exact he (hk (by rw [hkey]; rfl)).2
  · intro r hr
    unfold countIssuance at hr
    split at hr
    · rename_i hkey
      obtain ⟨key, hkey⟩ := Option.isSome_iff_exists.1 hkey
      by_cases he : IsExplicitValue (txin.issued token)
      · rw [explicitValue_iff.2 he] at hr
        simp only [Bool.not_true, Bool.false_eq_true, if_false] at hr
        split at hr
        · cases hr
        · rename_i hp
          cases hr
          refine ⟨.proofInPlace i token, ⟨⟨rfl, rfl⟩, .inr (by cases token <;> rfl)⟩, ⟨txin, key, hi, hn, hkey, ?_⟩,
            by cases token <;> rfl, fun q hq hb => ?_⟩
          · simpa using hp
          · rcases only q hq with rfl | rfl
            · rintro ⟨x, -, hx, -, -, h⟩; rw [hi] at hx; cases hx; exact h he
            · simp [Problem.Before] at hb
      · have hf : confIsExplicit valueKind (txin.issued token) = false := by
          rw [← Bool.not_eq_true, explicitValue_iff]; exact he
        rw [hf] at hr
        simp only [Bool.not_false, if_true] at hr
        cases hr
        refine ⟨.notExplicit i token, ⟨⟨rfl, rfl⟩, .inl rfl⟩, ⟨txin, key, hi, hn, hkey, he⟩, ?_, fun q hq hb => ?_⟩
        · rw [told_notExplicit]
        · rcases only q hq with rfl | rfl <;> cases token <;> simp [Problem.Before, Problem.place] at hb
    · cases hr

theorem tells_countInputs : ∀ (l : List (TxIn × Desc)) (i : Nat) (c : Counts),
    A.descs.length = tx.vin.length → l = (tx.vin.zip A.descs).drop i → Tells E A tx (From 2 i) (countInputs A tx.wit.vtxinwit i l c)
  | [], i, c, hl, h => by
    refine (Tells.ok c).mono fun p hp => ⟨False.elim, fun ⟨h1, h2⟩ => ?_⟩
    have hlen : tx.vin.length ≤ i := by
      have := congrArg List.length h
      simp at this
      omega
    have : p.place.2.1 < tx.vin.length := by
      cases p with
      | negative k => exact hp.1
      | notExplicit k token => obtain ⟨x, _, hx, -⟩ := hp; exact (List.getElem?_eq_some_iff.1 hx).1
      | proofInPlace k token => obtain ⟨x, _, hx, -⟩ := hp; exact (List.getElem?_eq_some_iff.1 hx).1
      | _ => simp [Problem.place] at h1
    omega
  | (txin, d) :: rest, i, c, hl, h => by
    have hx : (tx.vin.zip A.descs)[i]? = some (txin, d) := by
      have := congrArg (fun l => l[0]?) h
      simpa using this.symm
    obtain ⟨h1, h2⟩ := zip_get.1 hx
    have hr : rest = (tx.vin.zip A.descs).drop (i + 1) := by
      have := congrArg List.tail h
      simpa using this
    unfold countInputs
    refine ((tells_blinded (List.getElem?_eq_some_iff.1 h1).1 h2 c).bind (R' := fun p => (At 2 i p ∧ p.place.2.2 ≠ 0) ∨ From 2 (i + 1) p)
      (fun c => ?_) ?_).mono fun p _ => ?_
    · dsimp only
      by_cases hn : txin.assetIssuance.isNull = true
      · rw [if_pos hn]
        refine (tells_countInputs rest (i + 1) c hl hr).mono fun p hp => ⟨.inr, ?_⟩
        rintro (⟨⟨e1, e2⟩, e3⟩ | h)
        · exfalso
          cases p with
          | negative k => simp [Problem.place] at e3
          | notExplicit k token =>
            obtain ⟨x, _, hx, hnn, -⟩ := hp
            rw [show k = i from e2, h1] at hx; cases hx
            rw [hn] at hnn; cases hnn
          | proofInPlace k token =>
            obtain ⟨x, _, hx, hnn, -⟩ := hp
            rw [show k = i from e2, h1] at hx; cases hx
            rw [hn] at hnn; cases hnn
          | _ => simp [Problem.place] at e1
        · exact h
      · rw [if_neg hn]
        have hn := isNull_false hn
        rw [keyAt_getD, keyAt_getD]
        refine ((tells_countIssuance h1 hn false c).bind
          (R' := fun p => (At 2 i p ∧ (p.place.2.2 = sub true ∨ p.place.2.2 = sub true + 1)) ∨ From 2 (i + 1) p)
          (fun c => (tells_countIssuance h1 hn true c).bind (fun c => tells_countInputs rest (i + 1) c hl hr)
            (fun p q hp hq => at_from p q hp.1 hq)) ?_).mono fun p hp => ?_
        · rintro p q ⟨hp, hp0⟩ (⟨hq, hq0⟩ | hq)
          · simp only [sub, Bool.false_eq_true, if_false, if_true] at hp0 hq0
            unfold At Problem.Before at *; omega
          · exact at_from p q hp hq
        · simp only [sub, Bool.false_eq_true, if_false, if_true]
          constructor
          · rintro (⟨e1, e2⟩ | ⟨e1, e2⟩ | e)
            · exact .inl ⟨e1, by omega⟩
            · exact .inl ⟨e1, by omega⟩
            · exact .inr e
          · rintro (⟨e1, e2⟩ | e)
            · have : p.place.2.2 = 1 ∨ p.place.2.2 = 2 ∨ p.place.2.2 = 3 ∨ p.place.2.2 = 4 := by
                obtain ⟨e0, -⟩ := e1
                cases p with
                | negative k => simp [Problem.place] at e2
                | notExplicit k token => cases token <;> simp [Problem.place]
                | proofInPlace k token => cases token <;> simp [Problem.place]
                | _ => simp [Problem.place] at e0
              rcases this with h | h | h | h
              · exact .inl ⟨e1, .inl h⟩
              · exact .inl ⟨e1, .inr h⟩
              · exact .inr (.inl ⟨e1, .inl h⟩)
              · exact .inr (.inl ⟨e1, .inr h⟩)
            · exact .inr (.inr e)
    · rintro p q ⟨hp, hp0⟩ (⟨hq, hq0⟩ | hq)
      · unfold At Problem.Before at *; omega
      · exact at_from p q hp hq
    · rw [← from_step (i := i)]
      by_cases hz : p.place.2.2 = 0 <;> simp [hz]

theorem tells_countOutput {j : Nat} {pk : Bytes} (hj : A.pubkeys[j]? = some pk) (c : Counts) :
    Tells E A tx (At 3 j) (countOutput E.z j pk (tx.vout.getD j {}) tx.wit.vtxoutwit[j]? c) := by
  have only : ∀ p : Problem, At 3 j p → p = .badKey j ∨ p = .hiddenValue j ∨ p = .hiddenAsset j ∨ p = .witness j ∨ p = .fee j := by
    rintro p ⟨h1, h2⟩
    cases p with
    | badKey k => rw [show k = j from h2]; simp
    | hiddenValue k => rw [show k = j from h2]; simp
    | hiddenAsset k => rw [show k = j from h2]; simp
    | witness k => rw [show k = j from h2]; simp
    | fee k => rw [show k = j from h2]; simp
    | _ => simp [Problem.place] at h1
  have wanted : Wanted A j ↔ pk ≠ [] := by
    constructor
    · rintro ⟨q, hq, h⟩; rw [hj] at hq; cases hq; exact h
    · exact fun h => ⟨pk, hj, h⟩
  have hg : A.pubkeys.getD j [] = pk := by rw [List.getD_eq_getElem?_getD, hj]; rfl
  constructor
  · intro c' hc p hp hpr
    rcases countOutput_ok.1 hc with ⟨h, -⟩ | ⟨h, hb, -⟩
    · rcases only p hp with rfl | rfl | rfl | rfl | rfl <;> exact (wanted.1 hpr.1) h
    · rcases only p hp with rfl | rfl | rfl | rfl | rfl
      · obtain ⟨-, h⟩ := hpr; rw [hg, hb.pubkey] at h; cases h
      · exact hpr.2 hb.value
      · exact hpr.2 hb.asset
      · exact hpr.2 hb.noWitness
      · exact hb.script hpr.2
  · intro r hr
    unfold countOutput at hr
    split at hr
    · cases hr
    rename_i hpk
    have hpk : pk ≠ [] := by simpa using hpk
    have hw := wanted.2 hpk
    split at hr
    · rename_i hv
      cases hr
      refine ⟨.badKey j, ⟨rfl, rfl⟩, ⟨hw, ?_⟩, rfl, fun q hq hb => ?_⟩
      · rw [hg]
        simp only [fullyValid, Bool.not_eq_true', Bool.and_eq_false_iff] at hv
        rcases hv with hv | hv
        · simp [hpk] at hv
        · exact hv
      · rcases only q hq with rfl | rfl | rfl | rfl | rfl <;> simp [Problem.Before, Problem.place] at hb
    rename_i hv
    have hv : E.z.pubValid pk = true := (fullyValid_iff.1 (by simpa using hv)).2
    have n1 : ¬ Problem.Present E A tx (.badKey j) := by
      rintro ⟨-, h⟩; rw [hg, hv] at h; cases h
    split at hr
    · rename_i he
      cases hr
      refine ⟨.hiddenValue j, ⟨rfl, rfl⟩, ⟨hw, ?_⟩, congrArg _ (validKeyFor_append j (by decide +kernel)), fun q hq hb => ?_⟩
      · rw [← explicitValue_iff]; simpa using he
      · rcases only q hq with rfl | rfl | rfl | rfl | rfl
        · exact n1
        all_goals simp [Problem.Before, Problem.place] at hb
    rename_i he
    have he : IsExplicitValue (tx.vout.getD j {}).nValue := explicitValue_iff.1 (by simpa using he)
    have n2 : ¬ Problem.Present E A tx (.hiddenValue j) := fun h => h.2 he
    split at hr
    · rename_i ha
      cases hr
      refine ⟨.hiddenAsset j, ⟨rfl, rfl⟩, ⟨hw, ?_⟩, congrArg _ (validKeyFor_append j (by decide +kernel)), fun q hq hb => ?_⟩
      · rw [← explicitAsset_iff]; simpa using ha
      · rcases only q hq with rfl | rfl | rfl | rfl | rfl
        · exact n1
        · exact n2
        all_goals simp [Problem.Before, Problem.place] at hb
    rename_i ha
    have ha : IsExplicitAsset (tx.vout.getD j {}).nAsset := explicitAsset_iff.1 (by simpa using ha)
    have n3 : ¬ Problem.Present E A tx (.hiddenAsset j) := fun h => h.2 ha
    split at hr
    · rename_i hwit
      cases hr
      refine ⟨.witness j, ⟨rfl, rfl⟩, ⟨hw, ?_⟩, congrArg _ (validKeyFor_append j (by decide +kernel)), fun q hq hb => ?_⟩
      · intro h
        rw [outWit_null.2 h] at hwit; cases hwit
      · rcases only q hq with rfl | rfl | rfl | rfl | rfl
        · exact n1
        · exact n2
        · exact n3
        all_goals simp [Problem.Before, Problem.place] at hb
    rename_i hwit
    have n4 : ¬ Problem.Present E A tx (.witness j) := fun h => h.2 (outWit_null.1 (by simpa using hwit))
    split at hr
    · rename_i hf
      cases hr
      refine ⟨.fee j, ⟨rfl, rfl⟩, ⟨hw, ?_⟩, congrArg _ (validKeyFor_append j (by decide +kernel)), fun q hq hb => ?_⟩
      · simp only [TxOut.isFee, Bool.and_eq_true] at hf
        simpa using hf.1.1
      · rcases only q hq with rfl | rfl | rfl | rfl | rfl
        · exact n1
        · exact n2
        · exact n3
        · exact n4
        · simp [Problem.Before] at hb
    · cases hr

theorem tells_countOutputs : ∀ (l : List Bytes) (j : Nat) (c : Counts), l = A.pubkeys.drop j →
    Tells E A tx (From 3 j) (countOutputs E.z tx j l c)
  | [], j, c, h => by
    refine (Tells.ok c).mono fun p hp => ⟨False.elim, fun ⟨h1, h2⟩ => ?_⟩
    have hlen : A.pubkeys.length ≤ j := by
      have := congrArg List.length h
      simp at this
      omega
    have : ∀ k, Wanted A k → k < A.pubkeys.length := by
      rintro k ⟨pk, hk, -⟩; exact (List.getElem?_eq_some_iff.1 hk).1
    have : p.place.2.1 < A.pubkeys.length := by
      cases p with
      | badKey k => exact this k hp.1
      | hiddenValue k => exact this k hp.1
      | hiddenAsset k => exact this k hp.1
      | witness k => exact this k hp.1
      | fee k => exact this k hp.1
      | _ => simp [Problem.place] at h1
    omega
  | pk :: rest, j, c, h => by
    have hx : A.pubkeys[j]? = some pk := by
      have := congrArg (fun l => l[0]?) h
      simpa using this.symm
    have hr : rest = A.pubkeys.drop (j + 1) := by
      have := congrArg List.tail h
      simpa using this
    unfold countOutputs
    exact ((tells_countOutput hx c).bind (fun c => tells_countOutputs rest (j + 1) c hr) at_from).mono fun p _ => from_step p

/-- The checking phase looks for all problems. -/
theorem tells_checks (hl : LengthsFine A tx) : Tells E A tx (fun _ => True) (checks E A tx) := by
  have later : ∀ {φ ψ i j : Nat}, φ < ψ → ∀ p q : Problem, From φ i p → From ψ j q → ¬ q.Before p := by
    intro φ ψ i j h p q hp hq
    unfold From Problem.Before at *; omega
  unfold checks surjTargets
  refine (Tells.after fun _ => ((tells_inputs _ 0 _ none hl.descs rfl).bind
      (R' := fun p => From 1 tx.vin.length p) (fun t => ((tells_extra _ _ t rfl (Nat.le_refl _)).bind
        (fun t => Tells.raiseE _) (fun _ _ _ h => h.elim)).mono fun _ _ => by simp) (later (by omega))).bind
      (R' := fun p => From 2 0 p ∨ From 3 0 p) (fun T => (tells_countInputs _ 0 {} hl.descs rfl).bind
        (fun c => ((tells_countOutputs _ 0 c rfl).bind (fun c => Tells.ok _) (fun _ _ _ h => h.elim)).mono fun _ _ => by simp)
        (later (by omega))) ?_ : Tells E A tx (fun p => (From 0 0 p ∨ From 1 tx.vin.length p) ∨ (From 2 0 p ∨ From 3 0 p)) _).mono ?_
  · rintro p q (hp | hp) (hq | hq)
    all_goals exact later (by omega) p q hp hq
  · intro p hp
    simp only [iff_true, From, Nat.zero_le, and_true]
    cases p with
    | extraGenerator k => exact .inl (.inr ⟨rfl, hp.1⟩)
    | _ => simp [Problem.place]

/-! ### The strict switch -/

/-- Two computations that do the same, but end with the reports of their own contexts. -/
def Sim (C C' : Ctx) (m m' : BM α) : Prop :=
  ∀ s, (∃ a s', m s = (.ok a, s') ∧ m' s = (.ok a, s')) ∨ (∃ e s', m s = (.error (.raise e), s') ∧ m' s = (.error (.raise e), s')) ∨
    ∃ s', m s = (.error (.ret (blindingResult C s')), s') ∧ m' s = (.error (.ret (blindingResult C' s')), s')

variable {C C' : Ctx}

theorem Sim.bind {m m' : BM α} {f f' : α → BM β} (h : Sim C C' m m') (hf : ∀ a, Sim C C' (f a) (f' a)) :
    Sim C C' (m >>= f) (m' >>= f') := by
  intro s
  simp only [Bind.bind]
  rcases h s with ⟨a, s', h1, h2⟩ | ⟨e, s', h1, h2⟩ | ⟨s', h1, h2⟩
  · rw [h1, h2]; exact hf a s'
  · rw [h1, h2]; exact .inr (.inl ⟨e, s', rfl, rfl⟩)
  · rw [h1, h2]; exact .inr (.inr ⟨s', rfl, rfl⟩)

theorem Sim.pure (a : α) : Sim C C' (pure a) (pure a) := fun s => .inl ⟨a, s, rfl, rfl⟩
theorem Sim.get : Sim C C' BM.get BM.get := fun s => .inl ⟨s, s, rfl, rfl⟩
theorem Sim.modify (f : BS → BS) : Sim C C' (BM.modify f) (BM.modify f) := fun s => .inl ⟨(), f s, rfl, rfl⟩
theorem Sim.modifyTx (f : Tx → Tx) : Sim C C' (BM.modifyTx f) (BM.modifyTx f) := Sim.modify _
theorem Sim.rand (A : BlindArgs) : Sim C C' (BM.rand A) (BM.rand A) := fun s => .inl ⟨_, _, rfl, rfl⟩
theorem Sim.lift (x : Except PyErr α) : Sim C C' (BM.lift x) (BM.lift x) := by
  intro s
  cases x with
  | ok a => exact .inl ⟨a, s, rfl, rfl⟩
  | error e => exact .inr (.inl ⟨e, s, rfl, rfl⟩)
theorem Sim.finish : Sim C C' (BM.finish C : BM α) (BM.finish C') := fun s => .inr (.inr ⟨s, rfl, rfl⟩)
theorem Sim.ite {p : Prop} [Decidable p] {m m' n n' : BM α} (h : Sim C C' m m') (h' : Sim C C' n n') :
    Sim C C' (if p then m else n) (if p then m' else n') := by
  split
  · exact h
  · exact h'

/-- The same context, strict or not. -/
def Ctx.withStrict (C : Ctx) (b : Bool) : Ctx := { C with A := { C.A with strict := b } }

theorem sim_blindPseudo (b : Bool) (nIn token key amount asset blind) :
    Sim C (C.withStrict b) (blindPseudo C nIn token key amount asset blind) (blindPseudo (C.withStrict b) nIn token key amount asset blind) := by
  unfold blindPseudo
  exact (Sim.modifyTx _).bind fun _ => (Sim.lift _).bind fun _ => (Sim.lift _).bind fun _ => Sim.get.bind fun _ =>
    (Sim.modifyTx _).bind fun _ => (Sim.lift _).bind fun _ => (Sim.lift _).bind fun _ => (Sim.modifyTx _).bind fun _ => Sim.modify _

theorem sim_issuanceStep (b : Bool) (nIn token) :
    Sim C (C.withStrict b) (issuanceStep C nIn token) (issuanceStep (C.withStrict b) nIn token) := by
  cases hk : keyAt (if token then C.A.tokenKeys else C.A.assetKeys) nIn with
  | none =>
    have h1 : issuanceStep C nIn token = pure () := by unfold issuanceStep; rw [hk]
    have h2 : issuanceStep (C.withStrict b) nIn token = pure () := by
      unfold issuanceStep
      rw [show keyAt (if token then (C.withStrict b).A.tokenKeys else (C.withStrict b).A.assetKeys) nIn = none from hk]
    rw [h1, h2]
    exact Sim.pure _
  | some key =>
    have h1 : issuanceStep C nIn token = issuancePseudo C nIn token key := by unfold issuanceStep; rw [hk]
    have h2 : issuanceStep (C.withStrict b) nIn token = issuancePseudo (C.withStrict b) nIn token key := by
      unfold issuanceStep
      rw [show keyAt (if token then (C.withStrict b).A.tokenKeys else (C.withStrict b).A.assetKeys) nIn = some key from hk]
    rw [h1, h2]
    unfold issuancePseudo
    refine (Sim.modify _).bind fun _ => Sim.get.bind fun s => ?_
    dsimp only
    refine Sim.ite (Sim.pure _) ((Sim.lift _).bind fun _ => (Sim.modify _).bind fun _ => (Sim.lift _).bind fun x => ?_)
    cases x with
    | none => exact Sim.pure _
    | some asset =>
      exact (Sim.rand _).bind fun _ => (Sim.lift _).bind fun _ => (Sim.modify _).bind fun _ => Sim.get.bind fun _ =>
        Sim.ite Sim.finish (sim_blindPseudo b _ _ _ _ _ _)

theorem sim_issuanceLoop (b : Bool) : ∀ n i, Sim C (C.withStrict b) (issuanceLoop C i n) (issuanceLoop (C.withStrict b) i n)
  | 0, _ => Sim.pure _
  | n + 1, i => (sim_issuanceStep b i false).bind fun _ => (sim_issuanceStep b i true).bind fun _ => sim_issuanceLoop b n (i + 1)

theorem sim_balance (b : Bool) : Sim C (C.withStrict b) (balanceIfLast C) (balanceIfLast (C.withStrict b)) := by
  unfold balanceIfLast balance
  exact Sim.get.bind fun _ => Sim.ite (Sim.get.bind fun _ => Sim.ite Sim.finish (Sim.ite (Sim.lift _) (Sim.ite (Sim.lift _)
    ((Sim.lift _).bind fun _ => (Sim.modify _).bind fun _ => Sim.ite ((Sim.modify _).bind fun _ => Sim.finish) (Sim.pure _))))) (Sim.pure _)

theorem sim_commitOutput (b : Bool) (nOut pk script amount asset blind assetblind) :
    Sim C (C.withStrict b) (commitOutput C nOut pk script amount asset blind assetblind)
      (commitOutput (C.withStrict b) nOut pk script amount asset blind assetblind) := by
  unfold commitOutput
  refine (Sim.modify _).bind fun _ => (Sim.lift _).bind fun _ => (Sim.modifyTx _).bind fun _ => (Sim.lift _).bind fun _ =>
    (Sim.modifyTx _).bind fun _ => (Sim.rand _).bind fun _ => (Sim.lift _).bind fun _ => (Sim.lift _).bind fun _ =>
    (Sim.modifyTx _).bind fun _ => (Sim.lift _).bind fun _ => (Sim.rand _).bind fun _ => (Sim.lift _).bind fun x => ?_
  cases x with
  | none => exact Sim.pure _
  | some proof => exact Sim.ite (Sim.pure _) ((Sim.modifyTx _).bind fun _ => Sim.modify _)

theorem sim_outputStep (b : Bool) (nOut pk) : Sim C (C.withStrict b) (outputStep C nOut pk) (outputStep (C.withStrict b) nOut pk) := by
  unfold outputStep outputBlind
  exact Sim.ite ((Sim.modify _).bind fun _ => Sim.get.bind fun _ => (Sim.lift _).bind fun _ => (Sim.lift _).bind fun _ =>
    (Sim.modify _).bind fun _ => (Sim.rand _).bind fun _ => (Sim.lift _).bind fun _ => (Sim.modify _).bind fun _ => (Sim.rand _).bind fun _ =>
    (Sim.lift _).bind fun _ => (Sim.modify _).bind fun _ => (sim_balance b).bind fun _ => Sim.get.bind fun _ => sim_commitOutput b _ _ _ _ _ _ _) (Sim.pure _)

theorem sim_outputLoop (b : Bool) : ∀ l j, Sim C (C.withStrict b) (outputLoop C j l) (outputLoop (C.withStrict b) j l)
  | [], _ => Sim.pure _
  | pk :: rest, j => (sim_outputStep b j pk).bind fun _ => sim_outputLoop b rest (j + 1)

/-- The body ends with an exception or with the report. -/
theorem sim_blindBody (b : Bool) (n : Nat) (s : BS) :
    (∃ e s', blindBody C n s = (.error (.raise e), s') ∧ blindBody (C.withStrict b) n s = (.error (.raise e), s')) ∨
    ∃ s', blindBody C n s = (.error (.ret (blindingResult C s')), s') ∧
      blindBody (C.withStrict b) n s = (.error (.ret (blindingResult (C.withStrict b) s')), s') := by
  have h : Sim C (C.withStrict b) (blindBody C n) (blindBody (C.withStrict b) n) := by
    unfold blindBody
    exact (sim_issuanceLoop b n 0).bind fun _ => (Sim.modifyTx _).bind fun _ => (sim_outputLoop b _ 0).bind fun _ => Sim.finish
  have never : ∀ {C : Ctx} {s a s'}, blindBody C n s ≠ (.ok a, s') := by
    intro C s a s' h
    unfold blindBody at h
    obtain ⟨_, _, -, h⟩ := BM.bind_ok.1 h
    obtain ⟨_, _, -, h⟩ := BM.bind_ok.1 h
    obtain ⟨_, _, -, h⟩ := BM.bind_ok.1 h
    cases h
  rcases h s with ⟨a, s', h1, -⟩ | h | h
  · exact absurd h1 never
  · exact .inl h
  · exact .inr h

theorem inputTargets_strict (E : Env) (A : BlindArgs) (b : Bool) : ∀ l i t tok,
    inputTargets E { A with strict := b } i l t tok = inputTargets E A i l t tok
  | [], _, _, _ => rfl
  | (txin, d) :: rest, i, t, tok => by
    unfold inputTargets
    simp only [inputTargets_strict E A b rest]
    rfl

theorem countInputs_strict (A : BlindArgs) (w : List TxInWitness) (b : Bool) : ∀ l i c,
    countInputs { A with strict := b } w i l c = countInputs A w i l c
  | [], _, _ => rfl
  | (txin, d) :: rest, i, c => by
    unfold countInputs
    simp only [countInputs_strict A w b rest]

theorem checks_strict (E : Env) (A : BlindArgs) (tx : Tx) (b : Bool) : checks E { A with strict := b } tx = checks E A tx := by
  unfold checks surjTargets
  simp only [inputTargets_strict, countInputs_strict]
  rfl

/-! ### Unblinding -/

theorem of_nonce {E : Env} {key cn script n s : Bytes} (h : unblindNonce E key cn script = .ok (some (n, s))) :
    RightNonce E key cn script n (if s.length = 0 then none else some s) := by
  rcases unblindNonce_ok.1 h with ⟨h1, h2, x, h3, rfl, rfl⟩ | ⟨h1, rfl, rfl⟩
  · simp only [List.length_eq_zero_iff]; exact .shared x h1 h2 h3
  · exact .direct h1

theorem nonce_of {E : Env} {key cn script n : Bytes} {x : Option Bytes} (h : RightNonce E key cn script n x) :
    ∃ s, unblindNonce E key cn script = .ok (some (n, s)) ∧ (if s.length = 0 then none else some s) = x := by
  cases h with
  | shared x h1 h2 h3 =>
    refine ⟨script, unblindNonce_ok.2 (.inl ⟨h1, h2, x, h3, rfl, rfl⟩), ?_⟩
    simp only [List.length_eq_zero_iff]
  | direct h => exact ⟨[], unblindNonce_ok.2 (.inr ⟨h, rfl, rfl⟩), rfl⟩

theorem unblindNonce_none {E : Env} {key cn script : Bytes} :
    unblindNonce E key cn script = .ok none ↔ cn ≠ [] ∧ E.z.pubValid cn = false := by
  unfold unblindNonce
  by_cases hc : cn = []
  · subst hc; simp
  · rw [if_pos (List.length_pos_iff.2 hc)]
    by_cases hv : fullyValid E.z cn = true
    · have := (fullyValid_iff.1 hv).2
      simp only [hv, Bool.not_true, Bool.false_eq_true, if_false, exc_bind_ok, this]
      constructor
      · rintro ⟨x, -, h⟩; cases h
      · rintro ⟨-, h⟩; cases h
    · have : E.z.pubValid cn = false := by
        rw [← Bool.not_eq_true]; exact fun h => hv (fullyValid_iff.2 ⟨hc, h⟩)
      simp [hv, hc, this]

theorem observedGen_none {z : Zkp} {ca : Bytes} : observedGen z ca = .ok none ↔
    (IsAssetCommitment ca ∧ z.genParse ca = none) ∨ ∃ a, ca = 1 :: a ∧ a.length = 32 ∧ z.generate a = none := by
  unfold observedGen
  by_cases h1 : IsAssetCommitment ca
  · rw [if_pos (assetCommitment_iff.2 h1)]
    constructor
    · intro h; exact .inl ⟨h1, by simpa using h⟩
    · rintro (⟨-, h⟩ | ⟨a, h, -⟩)
      · rw [h]
      · obtain ⟨b, hb | hb, _⟩ := h1 <;> (rw [hb] at h; cases h)
  · rw [if_neg (fun h => h1 (assetCommitment_iff.1 h))]
    by_cases h2 : IsExplicitAsset ca
    · rw [if_pos (explicitAsset_iff.2 h2)]
      obtain ⟨b, rfl, hb⟩ := h2
      have he : confIsExplicit assetKind (1 :: b) = true := explicitAsset_iff.2 ⟨b, rfl, hb⟩
      simp only [assetToAsset, he, if_true, List.drop_succ_cons, List.drop_zero, assetNew, hb]
      constructor
      · intro h
        exact .inr ⟨b, rfl, hb, by simpa [bind, Except.bind, pure, Except.pure] using h⟩
      · rintro (⟨h, -⟩ | ⟨a, h, -, hg⟩)
        · exact absurd h h1
        · cases h; simp [bind, Except.bind, pure, Except.pure, hg]
    · rw [if_neg (fun h => h2 (explicitAsset_iff.1 h))]
      constructor
      · intro h; cases h
      · rintro (⟨h, -⟩ | ⟨a, h, hl, -⟩)
        · exact absurd h h1
        · exact absurd ⟨a, h, hl⟩ h2

theorem noGenerator_commitment {ca : Bytes} (h : IsAssetCommitment ca) : noGenerator ca = "cannot parse asset commitment as a generator" := by
  unfold noGenerator; rw [if_pos (assetCommitment_iff.2 h)]

theorem noGenerator_explicit {a : Bytes} : noGenerator (1 :: a) = "unable to create a generator out of asset explicit data" := by
  unfold noGenerator
  rw [if_neg]
  intro h
  obtain ⟨b, hb | hb, -⟩ := assetCommitment_iff.1 h <;> cases hb

theorem unblind_after {E : Env} {key cv ca cn script proof n s : Bytes} (hp : proof ≠ []) (hn : unblindNonce E key cn script = .ok (some (n, s))) :
    unblind E key cv ca cn script proof = unblindWith E.z n s cv ca proof := by
  unfold unblind
  rw [if_neg (fun h => hp (List.length_eq_zero_iff.1 h)), hn]
  rfl

theorem unblindWith_shown {z : Zkp} {cv ca proof n s g : Bytes} (hv : IsValueCommitment cv) (hs : Shown z ca g) :
    unblindWith z n s cv ca proof = unblindRewind z n s cv proof g := by
  unfold unblindWith
  rw [valueCommitment_iff.2 hv, observedGen_ok.2 hs]
  rfl

/-- C75.  Unblinding fails exactly when the output is closed under the key, and tells why. -/
theorem C75_unblind (E : Env) (key cv ca cn script proof : Bytes) (m : String) :
    unblind E key cv ca cn script proof = .ok (.failure m) ↔ Closed E key cv ca cn script proof m := by
  have money : ∀ {n}, moneyRange n = true ↔ n ≤ 21 * 10 ^ 14 := by intro n; simp [moneyRange]
  by_cases hp : proof = []
  · subst hp
    constructor
    · intro h; cases h; exact .noProof rfl
    · intro h; cases h
      · rfl
      all_goals contradiction
  constructor
  · intro h
    have h0 := h
    unfold unblind at h
    rw [if_neg (fun h => hp (List.length_eq_zero_iff.1 h))] at h
    obtain ⟨x, hx, -⟩ := exc_bind_ok.1 h
    cases x with
    | none =>
      rw [hx] at h
      cases h
      obtain ⟨h1, h2⟩ := unblindNonce_none.1 hx
      exact .nonce hp h1 h2
    | some x =>
      obtain ⟨n, s⟩ := x
      have hn := of_nonce hx
      rw [unblind_after hp hx] at h0
      by_cases hv : IsValueCommitment cv
      · unfold unblindWith at h0
        rw [valueCommitment_iff.2 hv] at h0
        simp only [Bool.not_true, Bool.false_eq_true, if_false] at h0
        obtain ⟨og, hog, h0⟩ := exc_bind_ok.1 h0
        cases og with
        | none =>
          cases h0
          rcases observedGen_none.1 hog with ⟨h1, h2⟩ | ⟨a, rfl, h1, h2⟩
          · rw [noGenerator_commitment h1]
            exact .assetCommitment n _ hp hn hv h1 h2
          · rw [noGenerator_explicit]
            exact .asset n _ a hp hn hv rfl h1 h2
        | some g =>
          have hs := observedGen_ok.1 hog
          replace h0 : unblindRewind E.z n s cv proof g = .ok (.failure m) := h0
          unfold unblindRewind at h0
          cases hc : E.z.commitParse cv with
          | none => rw [hc] at h0; cases h0; exact .valueCommitment n _ g hp hn hv hs hc
          | some c =>
            rw [hc] at h0
            dsimp only at h0
            cases hw : E.z.rangeRewind n c proof (if s.length = 0 then none else some s) g with
            | none => rw [hw] at h0; cases h0; exact .rewind n _ g c hp hn hv hs hc hw
            | some y =>
              obtain ⟨bf, amount, msg, size⟩ := y
              rw [hw] at h0
              dsimp only at h0
              unfold unblindCheck at h0
              by_cases hm : moneyRange amount = true
              · rw [hm] at h0
                simp only [Bool.not_true, Bool.false_eq_true, if_false] at h0
                have hm := money.1 hm
                by_cases h64 : size = 64
                · subst h64
                  simp only [ne_eq, not_true_eq_false, if_false] at h0
                  cases hg : E.z.generateBlinded (msg.take 32) ((msg.drop 32).take 32) with
                  | none => rw [hg] at h0; cases h0; exact .generator n _ g c bf msg amount hp hn hv hs hc hw hm hg
                  | some g' =>
                    rw [hg] at h0
                    dsimp only at h0
                    unfold unblindFinish at h0
                    simp only [exc_bind_ok, orRuntime_ok] at h0
                    obtain ⟨o, ho, d, hd, h0⟩ := h0
                    by_cases hod : o = d
                    · rw [if_neg (by simpa using hod)] at h0
                      simp only [exc_bind_ok] at h0
                      obtain ⟨_, -, _, -, _, -, h0⟩ := h0
                      cases h0
                    · rw [if_pos hod] at h0
                      cases h0
                      exact .mismatch n _ g c bf msg amount g' o d hp hn hv hs hc hw hm hg ho hd hod
                · rw [if_pos h64] at h0
                  cases h0
                  exact .message n _ g c bf msg amount size hp hn hv hs hc hw hm h64
              · rw [(Bool.not_eq_true _).mp hm] at h0
                cases h0
                exact .amount n _ g c bf msg amount size hp hn hv hs hc hw (by rw [money] at hm; omega)
      · unfold unblindWith at h0
        rw [if_pos (by rw [Bool.not_eq_true', ← Bool.not_eq_true, valueCommitment_iff]; exact hv)] at h0
        cases h0
        exact .value n _ hp hn hv
  · have shown : ∀ {n x g}, RightNonce E key cn script n x → IsValueCommitment cv → Shown E.z ca g →
        ∃ s, (if s.length = 0 then none else some s) = x ∧ unblind E key cv ca cn script proof = unblindRewind E.z n s cv proof g := by
      intro n x g hn hv hs
      obtain ⟨s, h1, h2⟩ := nonce_of hn
      exact ⟨s, h2, by rw [unblind_after hp h1, unblindWith_shown hv hs]⟩
    intro h
    cases h with
    | noProof h => exact absurd h hp
    | nonce _ h1 h2 =>
      unfold unblind
      rw [if_neg (fun h => hp (List.length_eq_zero_iff.1 h)), unblindNonce_none.2 ⟨h1, h2⟩]
      rfl
    | value n x _ hn hv =>
      obtain ⟨s, h1, h2⟩ := nonce_of hn
      rw [unblind_after hp h1]
      unfold unblindWith
      rw [if_pos (by rw [Bool.not_eq_true', ← Bool.not_eq_true, valueCommitment_iff]; exact hv)]
    | assetCommitment n x _ hn hv h1 h2 =>
      obtain ⟨s, e1, -⟩ := nonce_of hn
      rw [unblind_after hp e1]
      unfold unblindWith
      rw [valueCommitment_iff.2 hv, observedGen_none.2 (.inl ⟨h1, h2⟩), noGenerator_commitment h1]
      rfl
    | asset n x a _ hn hv h1 h2 h3 =>
      subst h1
      obtain ⟨s, e1, -⟩ := nonce_of hn
      rw [unblind_after hp e1]
      unfold unblindWith
      rw [valueCommitment_iff.2 hv, observedGen_none.2 (.inr ⟨a, rfl, h2, h3⟩), noGenerator_explicit]
      rfl
    | valueCommitment n x g _ hn hv hs hc =>
      obtain ⟨s, -, e⟩ := shown hn hv hs
      rw [e, unblindRewind, hc]
    | rewind n x g c _ hn hv hs hc hw =>
      obtain ⟨s, hx, e⟩ := shown hn hv hs
      simp only [e, unblindRewind, hc, hx, hw]
    | amount n x g c bf msg amount size _ hn hv hs hc hw hm =>
      obtain ⟨s, hx, e⟩ := shown hn hv hs
      have : moneyRange amount = false := by rw [← Bool.not_eq_true, money]; omega
      simp only [e, unblindRewind, hc, hx, hw, unblindCheck, this]
      rfl
    | message n x g c bf msg amount size _ hn hv hs hc hw hm h64 =>
      obtain ⟨s, hx, e⟩ := shown hn hv hs
      simp only [e, unblindRewind, hc, hx, hw, unblindCheck, money.2 hm, h64, ne_eq, not_false_eq_true, if_true]
      rfl
    | generator n x g c bf msg amount _ hn hv hs hc hw hm hg =>
      obtain ⟨s, hx, e⟩ := shown hn hv hs
      simp only [e, unblindRewind, hc, hx, hw, unblindCheck, money.2 hm, hg]
      rfl
    | mismatch n x g c bf msg amount g' o d _ hn hv hs hc hw hm hg ho hd hod =>
      obtain ⟨s, hx, e⟩ := shown hn hv hs
      simp only [e, unblindRewind, hc, hx, hw, unblindCheck, money.2 hm, hg, unblindFinish, ho, hd]
      simp [orRuntime, bind, Except.bind, pure, Except.pure, hod]

/-! ### Blinding -/

/-- The strict switch changes nothing but the report: what is done to the transaction is the same, and what would be
reported is, unless it is a success with too few or too many made. -/
theorem C75_strict (E : Env) (A : BlindArgs) (tx : Tx) :
    (blindTransaction E { A with strict := true } tx).2 = (blindTransaction E { A with strict := false } tx).2 ∧
    ((blindTransaction E { A with strict := true } tx).1 = (blindTransaction E { A with strict := false } tx).1 ∨
      ∃ num bfs abfs, (blindTransaction E { A with strict := false } tx).1 = .ok (.success num bfs abfs) ∧ num ≠ asked A tx ∧
        (blindTransaction E { A with strict := true } tx).1 = .ok (.failure (shortfall num (asked A tx)))) := by
  unfold blindTransaction
  rw [checks_strict E A tx true, checks_strict E A tx false]
  cases hc : checks E A tx with
  | error e => cases e <;> exact ⟨rfl, .inl rfl⟩
  | ok x =>
    obtain ⟨T, c⟩ := x
    have hn : c.nToBlind = asked A tx := by
      obtain ⟨-, -, -, -, rfl⟩ := checks_ok.1 hc
      rfl
    dsimp only
    rcases sim_blindBody (C := ⟨E, { A with strict := true }, T, c.nBlindsIn, c.nToBlind⟩) false tx.vin.length (startState tx c) with
      ⟨e, s', h1, h2⟩ | ⟨s', h1, h2⟩
    · simp only [Ctx.withStrict] at h2
      rw [h1, h2]
      exact ⟨rfl, .inl rfl⟩
    · simp only [Ctx.withStrict] at h2
      rw [h1, h2]
      refine ⟨rfl, ?_⟩
      by_cases hd : s'.done = c.nToBlind
      · left
        simp [endOf, blindingResult, hd]
      · right
        refine ⟨s'.done, s'.obf.map (·.getD zero32), s'.oabf.map (·.getD zero32), by simp [endOf, blindingResult], hn ▸ hd, ?_⟩
        rw [← hn]
        have : (s'.done != c.nToBlind) = true := by simpa using hd
        simp only [endOf, blindingResult, this, Bool.and_true, if_true]
        rfl

/-- C75, blinding, in the words of the code: whatever is reported is a success; or tells the first problem, the transaction
being left as it was; or tells how many were blinded and how many should have been. -/
theorem C75_blind_partial (E : Env) (A : BlindArgs) (tx tx' : Tx) (r : BlindResult) (h : blindTransaction E A tx = (.ok r, tx')) :
    (∃ p, FirstProblem E A tx p ∧ r = .failure p.told ∧ tx' = tx) ∨
    (∀ p : Problem, ¬ p.Present E A tx) ∧ ((∃ num bfs abfs, r = .success num bfs abfs) ∨
      A.strict = true ∧ ∃ num bfs abfs, blindTransaction E { A with strict := false } tx = (.ok (.success num bfs abfs), tx') ∧
        num ≠ asked A tx ∧ r = .failure (shortfall num (asked A tx))) := by
  have fine : ∀ x, checks E A tx = x → (∀ e, x ≠ .error (.raise e)) → LengthsFine A tx := by
    intro x hx he
    cases ha : checkArgs A tx with
    | ok u => exact checkArgs_ok.1 ha
    | error e =>
      refine absurd ?_ (he e)
      rw [← hx]
      unfold checks
      rw [ha]
      rfl
  cases hc : checks E A tx with
  | error e =>
    cases e with
    | raise e => unfold blindTransaction at h; rw [hc] at h; cases h
    | ret r' =>
      have hl := fine _ hc (by rintro e ⟨⟩)
      unfold blindTransaction at h
      rw [hc] at h
      cases h
      obtain ⟨p, -, hp, hr, hb⟩ := (tells_checks hl).told r hc
      exact .inl ⟨p, ⟨hp, fun q hq => hb q trivial hq⟩, hr, rfl⟩
  | ok x =>
    have hl := fine _ hc (by rintro e ⟨⟩)
    refine .inr ⟨fun p => (tells_checks hl).fine x hc p trivial, ?_⟩
    cases r with
    | success num bfs abfs => exact .inl ⟨num, bfs, abfs, rfl⟩
    | failure m =>
      right
      obtain ⟨T, c⟩ := x
      have hs : A.strict = true := by
        by_contra hs
        unfold blindTransaction at h
        rw [hc] at h
        dsimp only at h
        rcases sim_blindBody (C := ⟨E, A, T, c.nBlindsIn, c.nToBlind⟩) false tx.vin.length (startState tx c) with
          ⟨e, s', h1, -⟩ | ⟨s', h1, -⟩
        · rw [h1] at h; cases h
        · rw [h1] at h; simp [endOf, blindingResult, hs] at h
      refine ⟨hs, ?_⟩
      have hA : { A with strict := true } = A := by rw [← hs]
      have key := C75_strict E A tx
      rw [hA, h] at key
      obtain ⟨h2, h1 | ⟨num, bfs, abfs, h1, h3, h4⟩⟩ := key
      · exfalso
        unfold blindTransaction at h1
        rw [checks_strict, hc] at h1
        dsimp only at h1
        rcases sim_blindBody (C := ⟨E, { A with strict := false }, T, c.nBlindsIn, c.nToBlind⟩) false tx.vin.length (startState tx c) with
          ⟨e, s', h5, -⟩ | ⟨s', h5, -⟩
        · rw [h5] at h1; cases h1
        · rw [h5] at h1; simp [endOf, blindingResult] at h1
      · exact ⟨num, bfs, abfs, Prod.ext h1 h2.symm, h3, by simpa using h4⟩

/-- C75: a request with a problem is not carried out: the transaction stays as it was, and either an exception is raised or
the first problem is told. -/
theorem C75_found (E : Env) (A : BlindArgs) (tx : Tx) (p : Problem) (hp : p.Present E A tx) :
    (∃ e, blindTransaction E A tx = (.error e, tx)) ∨
    ∃ q, FirstProblem E A tx q ∧ blindTransaction E A tx = (.ok (.failure q.told), tx) := by
  cases h : blindTransaction E A tx with
  | mk r tx' =>
    have hc : ∀ x, checks E A tx ≠ .ok x := by
      intro x hc
      obtain ⟨hl, -⟩ := checks_ok.1 hc
      exact (tells_checks hl).fine x hc p trivial hp
    cases r with
    | error e =>
      left
      unfold blindTransaction at h
      cases hx : checks E A tx with
      | ok x => exact absurd hx (hc x)
      | error s => cases s <;> (rw [hx] at h; cases h); exact ⟨e, rfl⟩
    | ok r =>
      right
      rcases C75_blind_partial E A tx tx' r h with ⟨q, hq, rfl, rfl⟩ | ⟨hn, -⟩
      · exact ⟨q, hq, rfl⟩
      · exact absurd hp (hn p)

/-- C75, blinding, the full statement: failures tell the first problem with its number, or how many were blinded. -/
def C75_statement : Prop := ∀ (E : Env) (A : BlindArgs) (tx tx' : Tx) (m : String), blindTransaction E A tx = (.ok (.failure m), tx') →
  (∃ p, FirstProblem E A tx p ∧ m = p.text) ∨ ∃ num, m = shortfall num (asked A tx)

namespace MessageToy

/-- An issuance with a key, and a rangeproof in place. -/
def t : Tx :=
  ⟨2, [{ prevout := ⟨Toy.b32 9, 0⟩, assetIssuance := { nAmount := Toy.amt 7 } }], [], 0, ⟨[{ issuanceAmountRangeproof := [1] }], []⟩⟩
def args : BlindArgs := { descs := [⟨Toy.b32 5, 7, Toy.b32 3, Toy.b32 4⟩], pubkeys := [], assetKeys := [some (Toy.b32 3)], rand := fun k => Toy.b32 (k + 5) }

theorem only (p : Problem) (h : p.Present Toy.env args t) : p = .proofInPlace 0 false := by
  have zero : ∀ d : Desc, d ∈ args.descs → ¬ AllZero d.asset ∧ ¬ d.amount < 0 := by
    intro d hd
    rw [List.mem_singleton.1 hd]
    exact ⟨fun h => absurd (h 5 (by decide +kernel)) (by decide), by decide⟩
  have input : ∀ {i x}, t.vin[i]? = some x → i = 0 ∧ x = { prevout := ⟨Toy.b32 9, 0⟩, assetIssuance := { nAmount := Toy.amt 7 } } := by
    intro i x h
    match i with
    | 0 => cases h; exact ⟨rfl, rfl⟩
    | i + 1 => simp [t] at h
  have nokey : ∀ {j}, ¬ Wanted args j := by rintro j ⟨pk, h, -⟩; simp [args] at h
  cases p with
  | noGenerator i => obtain ⟨-, ⟨d, hd, hz⟩, -⟩ := h; exact absurd hz (zero d (List.mem_of_getElem? hd)).1
  | badGenerator i => obtain ⟨-, ⟨d, hd, hz⟩, -⟩ := h; exact absurd hz (zero d (List.mem_of_getElem? hd)).1
  | hiddenIssuance i token =>
    obtain ⟨x, hx, h⟩ := h
    obtain ⟨rfl, rfl⟩ := input hx
    obtain ⟨b, hb, -⟩ := h
    cases token <;> rcases hb with hb | hb <;> simp [TxIn.issued, Toy.amt] at hb
  | extraGenerator i => obtain ⟨-, g, hg, -⟩ := h; simp [args] at hg
  | negative i => obtain ⟨-, d, hd, -, hn⟩ := h; exact absurd hn (zero d (List.mem_of_getElem? hd)).2
  | notExplicit i token =>
    obtain ⟨x, k, hx, -, hk, h⟩ := h
    obtain ⟨rfl, rfl⟩ := input hx
    cases token with
    | false => exact absurd ⟨_, rfl, by simp⟩ h
    | true => simp [BlindArgs.issuanceKey, args] at hk
  | proofInPlace i token =>
    obtain ⟨x, k, hx, -, hk, h⟩ := h
    obtain ⟨rfl, rfl⟩ := input hx
    cases token with
    | false => rfl
    | true => simp [BlindArgs.issuanceKey, args] at hk
  | badKey j => exact absurd h.1 nokey
  | hiddenValue j => exact absurd h.1 nokey
  | hiddenAsset j => exact absurd h.1 nokey
  | witness j => exact absurd h.1 nokey
  | fee j => exact absurd h.1 nokey

theorem run : blindTransaction Toy.env args t = (.ok (.failure
    "blind_issuance_asset_keys is specified for input %d, but issuanceAmountRangeproof is already in place"), t) := by decide +kernel

end MessageToy

/-- C75 is false for blinding: with a rangeproof in place the number of the input is not told. -/
theorem C75_statement_false : ¬ C75_statement := by
  intro h
  rcases h _ _ _ _ _ MessageToy.run with ⟨p, hp, e⟩ | ⟨num, e⟩
  · rw [MessageToy.only p hp.1] at e
    exact absurd e (by decide +kernel)
  · have := congrArg (fun s => s.toList[5]?) e
    simp [shortfall] at this

-- A hidden output beside an explicit fee; the second request's first problem is told, and nothing is changed.
example :
    let t : Tx := ⟨2, [{ prevout := ⟨Toy.b32 9, 0⟩ }], [{ nAsset := Toy.ast 5, nValue := Toy.amt 7, scriptPubKey := [0x51] },
      { nAsset := Toy.ast 5, nValue := Toy.amt 7 }], 0, {}⟩
    let A : BlindArgs := { descs := [⟨Toy.b32 5, 7, Toy.b32 3, Toy.b32 4⟩], pubkeys := [Toy.pub 3, Toy.pub 3], rand := fun k => Toy.b32 (k + 5) }
    (Problem.fee 1).Present Toy.env A t ∧ blindTransaction Toy.env A t = (.ok (.failure (Problem.fee 1).told), t) :=
  ⟨⟨⟨_, rfl, by decide⟩, rfl⟩, by decide +kernel⟩

-- Nothing wrong with the request, but there is no surjection: told how many were blinded.
example : blindTransaction Toy.env noSurjArgs noSurjTx =
    (.ok (.failure (shortfall 0 1)), (blindTransaction Toy.env { noSurjArgs with strict := false } noSurjTx).2) ∧ asked noSurjArgs noSurjTx = 1 :=
  ⟨by decide +kernel, by decide +kernel⟩

-- An output that does not open for want of a rangeproof, and one whose value is explicit.
example : unblind Toy.env (Toy.b32 3) (Toy.amt 7) (Toy.ast 5) [] [] [] = .ok (.failure "rangeproof is empty") ∧
    unblind Toy.env (Toy.b32 3) (Toy.amt 7) (Toy.ast 5) [] [] [1] = .ok (.failure "value is not a commitment") :=
  ⟨(C75_unblind ..).2 (.noProof rfl), (C75_unblind ..).2 (.value _ _ (by decide) (.direct rfl) (by rintro ⟨b, h | h, -⟩ <;> simp [Toy.amt] at h))⟩

end Verif
