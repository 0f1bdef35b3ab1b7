import Verif.Props.BlindWire
import Verif.Props.TxShort
import Verif.Props.TokenId
/-
C54: exactly which blinded transactions survive the wire.
-/
namespace Verif
open Spec

/-- What holds of the transaction from the first change to the end, `t0` being the one given. -/
structure Fit (A : BlindArgs) (t0 t : Tx) : Prop where
  fields : WFTx (fillWitness t)
  nin : t.vin.length = t0.vin.length
  nout : t.vout.length = t0.vout.length
  issues : ∀ i, IssuesAt i t → IssuesAt i t0
  ins : t.wit.vtxinwit.length = t0.wit.vtxinwit.length ∨
    ∃ (i : Nat) (token : Bool) (key : Bytes), keyAt (if token then A.tokenKeys else A.assetKeys) i = some key ∧ IssuesAt i t0 ∧ t.wit.vtxinwit.length ≤ i + 1
  grow : t0.wit.vtxinwit.length ≤ t.wit.vtxinwit.length
  outs : t.wit.vtxoutwit = t0.wit.vtxoutwit ∨ t.wit.vtxoutwit.length = t0.vout.length

theorem fill_pad {α} (l : List α) {n m : Nat} (x : α) (h : n ≤ m) :
    padTo l n x ++ List.replicate (m - (padTo l n x).length) x = l ++ List.replicate (m - l.length) x := by
  unfold padTo
  rw [List.append_assoc, List.replicate_append_replicate]
  congr 2
  simp only [List.length_append, List.length_replicate]
  omega

theorem modify_past {α} (l : List α) (f : α → α) {n : Nat} (h : l.length ≤ n) : l.modify n f = l := by
  apply List.ext_getElem?
  intro i
  rw [List.getElem?_modify]
  by_cases hi : n = i
  · subst hi; rw [List.getElem?_eq_none h]; rfl
  · simp [hi]

theorem modify_append_lt {α} (l r : List α) (f : α → α) {n : Nat} (h : n < l.length) :
    (l ++ r).modify n f = l.modify n f ++ r := by
  apply List.ext_getElem?
  intro i
  rw [List.getElem?_modify]
  by_cases hi : i < l.length
  · rw [List.getElem?_append_left hi, List.getElem?_append_left (by rw [List.length_modify]; exact hi), List.getElem?_modify]
  · rw [List.getElem?_append_right (by omega), List.getElem?_append_right (by rw [List.length_modify]; omega), List.length_modify]
    have hne : n ≠ i := by omega
    simp [hne]

theorem fill_setOut (j : Nat) (f : TxOut → TxOut) (t : Tx) : fillWitness (setOut j f t) = setOut j f (fillWitness t) := by
  simp only [fillWitness, setOut, List.length_modify]

theorem fill_setIssuance (i : Nat) (x : Issuance) (t : Tx) : fillWitness (setIssuance i x t) = setIssuance i x (fillWitness t) := by
  simp only [fillWitness, setIssuance, List.length_modify]

theorem fill_setInWit (i : Nat) (f : TxInWitness → TxInWitness) (t : Tx) :
    fillWitness (setInWit i f t) = fillWitness t ∨ fillWitness (setInWit i f t) = setInWit i f (fillWitness t) := by
  rcases Nat.lt_or_ge i t.wit.vtxinwit.length with h | h
  · right; simp only [fillWitness, setInWit, List.length_modify, modify_append_lt _ _ f h]
  · left; simp only [fillWitness, setInWit, modify_past _ f h]

theorem fill_setOutWit (i : Nat) (f : TxOutWitness → TxOutWitness) (t : Tx) :
    fillWitness (setOutWit i f t) = fillWitness t ∨ fillWitness (setOutWit i f t) = setOutWit i f (fillWitness t) := by
  rcases Nat.lt_or_ge i t.wit.vtxoutwit.length with h | h
  · right; simp only [fillWitness, setOutWit, List.length_modify, modify_append_lt _ _ f h]
  · left; simp only [fillWitness, setOutWit, modify_past _ f h]

variable {A : BlindArgs} {t0 : Tx}

theorem Fit.setOut {j : Nat} {f : TxOut → TxOut} (hf : ∀ o, WFOut o → WFOut (f o)) {t : Tx} (h : Fit A t0 t) : Fit A t0 (setOut j f t) :=
  { h with
    fields := by rw [fill_setOut]; exact wf_setOut hf h.fields
    nout := by show (t.vout.modify j f).length = _; rw [List.length_modify]; exact h.nout }

theorem Fit.setOutWit {j : Nat} {w : TxOutWitness} (hw : WFOutWitness w) {t : Tx} (h : Fit A t0 t)
    (hl : t.wit.vtxoutwit.length = t0.vout.length) : Fit A t0 (setOutWit j (fun _ => w) t) :=
  { h with
    fields := by
      rcases fill_setOutWit j (fun _ => w) t with e | e <;> rw [e]
      · exact h.fields
      · exact wf_setOutWit hw h.fields
    outs := .inr (by show (t.wit.vtxoutwit.modify j _).length = _; rw [List.length_modify]; exact hl) }

theorem Fit.setInWit {i : Nat} {f : TxInWitness → TxInWitness} (hf : ∀ w, WFInWitness w → WFInWitness (f w)) {t : Tx}
    (h : Fit A t0 t) : Fit A t0 (setInWit i f t) :=
  { h with
    fields := by
      rcases fill_setInWit i f t with e | e <;> rw [e]
      · exact h.fields
      · exact wf_setInWit hf h.fields
    ins := by
      show (t.wit.vtxinwit.modify i f).length = _ ∨ ∃ k token key, _ ∧ _ ∧ (t.wit.vtxinwit.modify i f).length ≤ k + 1
      rw [List.length_modify]; exact h.ins
    grow := by show _ ≤ (t.wit.vtxinwit.modify i f).length; rw [List.length_modify]; exact h.grow }

theorem Fit.setIssuance {i : Nat} {token : Bool} {cv : Bytes} (hv : ValidField 9 8 9 cv) (hne : cv ≠ []) {t : Tx} (h : Fit A t0 t)
    (hi : IssuesAt i t) :
    Fit A t0 (setIssuance i
      (if token then { (t.vin.getD i default).assetIssuance with nInflationKeys := cv }
        else { (t.vin.getD i default).assetIssuance with nAmount := cv }) t) :=
  { h with
    fields := by rw [fill_setIssuance]; exact wf_setIssuance (tx := fillWitness t) hv hne h.fields hi
    nin := by show (t.vin.modify i _).length = _; rw [List.length_modify]; exact h.nin
    issues := by
      intro k hk
      by_cases hik : i = k
      · exact h.issues k (hik ▸ hi)
      · refine h.issues k fun hx => hk ?_
        show NoIssue ((t.vin.modify i _).getD k default).assetIssuance
        rw [List.getD_eq_getElem?_getD, getElem?_modify_ne _ _ hik, ← List.getD_eq_getElem?_getD]
        exact hx }

theorem Fit.padIn {i : Nat} {token : Bool} {key : Bytes} (hk : keyAt (if token then A.tokenKeys else A.assetKeys) i = some key)
    {t : Tx} (h : Fit A t0 t) (hi : IssuesAt i t) :
    Fit A t0 { t with wit := { t.wit with vtxinwit := padTo t.wit.vtxinwit (i + 1) {} } } :=
  { h with
    fields := by
      have : fillWitness { t with wit := { t.wit with vtxinwit := padTo t.wit.vtxinwit (i + 1) {} } } = fillWitness t := by
        have hl := hi.lt
        simp only [fillWitness]
        rw [fill_pad _ _ (by omega)]
      rw [this]; exact h.fields
    ins := by
      rcases Nat.lt_or_ge t.wit.vtxinwit.length (i + 1) with hl | hl
      · refine .inr ⟨i, token, key, hk, h.issues i hi, ?_⟩
        show (padTo t.wit.vtxinwit (i + 1) {}).length ≤ i + 1
        simp only [padTo, List.length_append, List.length_replicate]; omega
      · rw [padTo_full _ hl]; exact h.ins
    grow := by
      have := h.grow
      show _ ≤ (padTo t.wit.vtxinwit (i + 1) {}).length
      simp only [padTo, List.length_append]; omega }

theorem Fit.padOut {t : Tx} (h : Fit A t0 t) (hl : t0.wit.vtxoutwit.length ≤ t0.vout.length) :
    Fit A t0 { t with wit := { t.wit with vtxoutwit := padTo t.wit.vtxoutwit t.vout.length {} } } ∧
    (padTo t.wit.vtxoutwit t.vout.length {}).length = t0.vout.length := by
  have e : (padTo t.wit.vtxoutwit t.vout.length {}).length = t0.vout.length := by
    rw [h.nout]
    have hle : t.wit.vtxoutwit.length ≤ t0.vout.length := by
      rcases h.outs with e | e
      · rw [e]; exact hl
      · omega
    simp only [padTo, List.length_append, List.length_replicate]; omega
  refine ⟨{ h with
    fields := ?_
    outs := .inr e }, e⟩
  have : fillWitness { t with wit := { t.wit with vtxoutwit := padTo t.wit.vtxoutwit t.vout.length {} } } = fillWitness t := by
    simp only [fillWitness]
    rw [fill_pad _ _ (Nat.le_refl _)]
  rw [this]; exact h.fields

/-! ### Whole runs -/

theorem fit_blindPseudo (C : Ctx) (W : WireSizes C.E.z) (i : Nat) (token : Bool) (key : Bytes) (amount : Int) (asset blind : Bytes)
    (hk : keyAt (if token then C.A.tokenKeys else C.A.assetKeys) i = some key) :
    Brings (fun t => Fit C.A t0 t ∧ IssuesAt i t) (blindPseudo C i token key amount asset blind) (Fit C.A t0) := by
  unfold blindPseudo
  refine .modifyTx_bind (R := fun t => Fit C.A t0 t ∧ IssuesAt i t) (fun t ht => ⟨ht.1.padIn hk ht.2, ht.2⟩) ?_
  refine .lift_bind (fun _ h => h.1) fun p _ => ?_
  obtain ⟨_, gen⟩ := p
  refine .lift_bind (fun _ h => h.1) fun p hcv => ?_
  obtain ⟨cv, com⟩ := p
  obtain ⟨hv, hne⟩ := createValueCommitment_valid hcv
  refine .get_bind fun s hs => ?_
  dsimp only
  refine .modifyTx_bind (R := Fit C.A t0) (fun t ht => by rw [ht]; exact hs.1.setIssuance hv hne hs.2) ?_
  refine .lift_bind (fun _ h => h) fun nonce _ => .lift_bind (fun _ h => h) fun proof hp => ?_
  have hl := generateRangeproof_size W hp
  refine .modifyTx_bind (R := Fit C.A t0) (fun t ht => ht.setInWit (fun w hw => ?_)) (.modify (fun _ h => h) fun _ => rfl)
  cases token
  · exact { hw with amount := hl }
  · exact { hw with keys := hl }

theorem fit_issuancePseudo (C : Ctx) (W : WireSizes C.E.z) (i : Nat) (token : Bool) (key : Bytes)
    (hk : keyAt (if token then C.A.tokenKeys else C.A.assetKeys) i = some key) :
    Brings (Fit C.A t0) (issuancePseudo C i token key) (Fit C.A t0) := by
  unfold issuancePseudo
  refine .modify_bind (fun _ => rfl) (.get_bind fun s hs => ?_)
  dsimp only
  by_cases hn : confIsNull (if token then (s.tx.vin.getD i default).assetIssuance.nInflationKeys
      else (s.tx.vin.getD i default).assetIssuance.nAmount) = true
  · rw [if_pos hn]
    exact .pure (fun t ht => by rw [ht]; exact hs) _
  · rw [if_neg hn]
    have hi : IssuesAt i s.tx := by
      rintro ⟨h1, h2⟩
      rw [h1, h2] at hn
      cases token <;> exact hn rfl
    have hw : ∀ t, t = s.tx → Fit C.A t0 t := fun t ht => by rw [ht]; exact hs
    refine .lift_bind hw fun amount _ => .modify_bind (fun _ => rfl) (.lift_bind hw fun a _ => ?_)
    cases a with
    | none => exact .pure hw _
    | some asset =>
      refine .rand_bind fun r => .lift_bind hw fun blind _ => .modify_bind (fun _ => rfl) (.get_bind fun s' hs' => ?_)
      split
      · exact .finish (fun t ht => by rw [ht, hs']; exact hs) C
      · exact (fit_blindPseudo C W i token key amount asset blind hk).weaken fun t ht => by
          rw [ht, hs']; exact ⟨hs, hi⟩

theorem fit_issuanceStep (C : Ctx) (W : WireSizes C.E.z) (i : Nat) (token : Bool) :
    Brings (Fit C.A t0) (issuanceStep C i token) (Fit C.A t0) := by
  unfold issuanceStep
  cases hk : keyAt (if token then C.A.tokenKeys else C.A.assetKeys) i with
  | none => exact .pure (fun _ h => h) _
  | some key => exact fit_issuancePseudo C W i token key hk

theorem fit_issuanceLoop (C : Ctx) (W : WireSizes C.E.z) : ∀ n i, Brings (Fit C.A t0) (issuanceLoop C i n) (Fit C.A t0)
  | 0, _ => .pure (fun _ h => h) _
  | n + 1, i => .bind (fit_issuanceStep C W i false) (fun _ h => h) fun _ =>
      .bind (fit_issuanceStep C W i true) (fun _ h => h) fun _ => fit_issuanceLoop C W n (i + 1)

/-- After the output witnesses were completed. -/
def FitOut (A : BlindArgs) (t0 t : Tx) : Prop := Fit A t0 t ∧ t.wit.vtxoutwit.length = t0.vout.length

theorem fit_balance (C : Ctx) : Brings (FitOut C.A t0) (balanceIfLast C) (FitOut C.A t0) := by
  unfold balanceIfLast
  refine .get_bind fun s hs => ?_
  have hw : ∀ t, t = s.tx → FitOut C.A t0 t := fun t ht => by rw [ht]; exact hs
  split
  · unfold balance
    refine .get_bind fun s' hs' => ?_
    have hw' : ∀ t, t = s'.tx → FitOut C.A t0 t := fun t ht => hw t (ht.trans hs')
    split
    · exact .finish hw' C
    · split
      · exact .lift hw' _
      · split
        · exact .lift hw' _
        · refine .lift_bind hw' fun last _ => .modify_bind (fun _ => rfl) ?_
          split
          · exact .modify_bind (fun _ => rfl) (.finish hw' C)
          · exact .pure hw' _
  · exact .pure hw _

theorem FitOut.setOut {j : Nat} {f : TxOut → TxOut} (hf : ∀ o, WFOut o → WFOut (f o)) {t : Tx} (h : FitOut A t0 t) :
    FitOut A t0 (setOut j f t) := ⟨h.1.setOut hf, h.2⟩

theorem fit_commitOutput (C : Ctx) (W : WireSizes C.E.z) (j : Nat) (pk script : Bytes) (amount : Int)
    (asset blind assetblind : Bytes) :
    Brings (FitOut C.A t0) (commitOutput C j pk script amount asset blind assetblind) (FitOut C.A t0) := by
  unfold commitOutput
  refine .modify_bind (fun _ => rfl) (.lift_bind (fun _ h => h) fun p hp => ?_)
  obtain ⟨ca, gen⟩ := p
  have hca := blindedAsset_valid hp
  refine .modifyTx_bind (R := FitOut C.A t0) (fun t ht => ht.setOut (f := fun o => { o with nAsset := ca }) (fun _ ho => ⟨hca, ho.value, ho.nonce, ho.script⟩))
    (.lift_bind (fun _ h => h) fun p hp => ?_)
  obtain ⟨cv, com⟩ := p
  have hcv := (createValueCommitment_valid hp).1
  refine .modifyTx_bind (R := FitOut C.A t0) (fun t ht => ht.setOut (f := fun o => { o with nValue := cv }) (fun _ ho => ⟨ho.asset, hcv, ho.nonce, ho.script⟩))
    (.rand_bind fun seed => .lift_bind (fun _ h => h) fun p hp => ?_)
  obtain ⟨nonce, eph⟩ := p
  refine .lift_bind (fun _ h => h) fun cn hc => ?_
  have hcn := nonce_valid W hp hc
  refine .modifyTx_bind (R := FitOut C.A t0) (fun t ht => ht.setOut (f := fun o => { o with nNonce := cn }) (fun _ ho => ⟨ho.asset, ho.value, hcn, ho.script⟩))
    (.lift_bind (fun _ h => h) fun rp hrp => .rand_bind fun seed => .lift_bind (fun _ h => h) fun sp hsp => ?_)
  have hrl := generateRangeproof_size W hrp
  cases sp with
  | none => exact .pure (fun _ h => h) _
  | some proof =>
    have hsl := surjectionProof_size W hsp
    dsimp only
    split
    · exact .pure (fun _ h => h) _
    · refine .modifyTx_bind (R := FitOut C.A t0) (fun t ht => ⟨ht.1.setOutWit ⟨hsl, hrl⟩ ht.2, ?_⟩) (.modify (fun _ h => h) fun _ => rfl)
      show (t.wit.vtxoutwit.modify j _).length = _
      rw [List.length_modify]; exact ht.2

theorem fit_outputStep (C : Ctx) (W : WireSizes C.E.z) (j : Nat) (pk : Bytes) :
    Brings (FitOut C.A t0) (outputStep C j pk) (FitOut C.A t0) := by
  unfold outputStep
  split
  · unfold outputBlind
    have id : ∀ t, FitOut C.A t0 t → FitOut C.A t0 t := fun _ h => h
    refine .modify_bind (fun _ => rfl) (.get_bind fun s hs => ?_)
    refine Brings.weaken (P' := FitOut C.A t0) ?_ (fun t ht => by rw [ht]; exact hs)
    exact .lift_bind id fun amount _ => .lift_bind id fun asset _ => .modify_bind (fun _ => rfl) (.rand_bind fun _ =>
      .lift_bind id fun _ _ => .modify_bind (fun _ => rfl) (.rand_bind fun _ => .lift_bind id fun _ _ =>
      .modify_bind (fun _ => rfl) (.bind (fit_balance C) id fun _ => .get_bind fun s' hs' =>
        (fit_commitOutput C W j _ _ _ _ _ _).weaken fun t ht => by rw [ht]; exact hs')))
  · exact .pure (fun _ h => h) _

theorem fit_outputLoop (C : Ctx) (W : WireSizes C.E.z) : ∀ (pks : List Bytes) (j : Nat),
    Brings (FitOut C.A t0) (outputLoop C j pks) (FitOut C.A t0)
  | [], _ => .pure (fun _ h => h) _
  | pk :: rest, j => .bind (fit_outputStep C W j pk) (fun _ h => h) fun _ => fit_outputLoop C W rest (j + 1)

theorem fit_blindBody (C : Ctx) (W : WireSizes C.E.z) (n : Nat) (hl : t0.wit.vtxoutwit.length ≤ t0.vout.length) :
    Brings (Fit C.A t0) (blindBody C n) (Fit C.A t0) := by
  unfold blindBody
  exact .bind (fit_issuanceLoop C W n 0) (fun _ h => h) fun _ =>
    .modifyTx_bind (R := FitOut C.A t0) (fun t ht => ht.padOut hl)
      (.bind (fit_outputLoop C W C.A.pubkeys 0) (fun _ h => h.1) fun _ => .finish (fun _ h => h.1) C)

theorem fill_le {t : Tx} (h : WFTx (fillWitness t)) :
    t.wit.vtxinwit.length ≤ t.vin.length ∧ t.wit.vtxoutwit.length ≤ t.vout.length := by
  have h1 := h.witin
  have h2 := h.witout
  simp only [fillWitness, List.length_append, List.length_replicate] at h1 h2
  omega

/-- Blinding a transaction whose fields fit the wire, with witness lists of any length up to the full one, leaves such a
transaction, whatever the result. -/
theorem blind_fit (E : Env) (W : WireSizes E.z) (A : BlindArgs) {tx : Tx} (h : WFTx (fillWitness tx)) :
    Fit A tx (blindTransaction E A tx).2 := by
  have h0 : Fit A tx tx := ⟨h, rfl, rfl, fun _ h => h, .inl rfl, Nat.le_refl _, .inl rfl⟩
  unfold blindTransaction
  cases hc : checks E A tx with
  | error e => cases e <;> exact h0
  | ok p =>
    obtain ⟨T, c⟩ := p
    exact fit_blindBody ⟨E, A, T, c.nBlindsIn, c.nToBlind⟩ W tx.vin.length (fill_le h).2 (startState tx c) h0

theorem wf_inputSizes {t : Tx} (h : WFTx t) : ∀ x ∈ t.vin, InputSizes x := by
  intro x hx
  have hi := h.vin x hx
  refine ⟨hi.hash, ?_, hi.iss.entropy⟩
  rcases hi.index with ⟨e, -⟩ | ⟨e, -⟩ <;> omega

/-- C54, exactly: of the transactions whose fields fit the wire, with witness lists of any length, one that strict blinding
has hidden an output of survives the wire if and only if the list of input witnesses was complete or the last input issues
something and has a key to hide it. -/
theorem C54_hidden {E : Env} {A : BlindArgs} {tx tx' : Tx} {num bfs abfs} {j : Nat} (F : Formats E.z) (W : WireSizes E.z)
    (hw : WFTx (fillWitness tx)) (h : blindTransaction E A tx = (.ok (.success num bfs abfs), tx')) (hst : A.strict = true)
    (hj : A.pubkeys.getD j [] ≠ []) (hp : (tx'.outWit j).rangeproof ≠ []) :
    Survives tx' ↔ tx.wit.vtxinwit.length = tx.vin.length ∨
      ∃ i token key, i + 1 = tx.vin.length ∧ ¬ NoIssue (tx.vin.getD i default).assetIssuance ∧ A.issuanceKey i token = some key := by
  have hfit := blind_fit E W A hw
  rw [h] at hfit
  have hfit : Fit A tx tx' := hfit
  have hle := fill_le hfit.fields
  have hout : tx'.wit.vtxoutwit.length = tx'.vout.length := by
    rcases hfit.outs with e | e
    · refine absurd ?_ hp
      have hb : Blindable E.z tx j (A.pubkeys.getD j []) := by
        by_contra hbad
        have hj' : A.pubkeys[j]? = some (A.pubkeys.getD j []) := by
          rw [List.getD_eq_getElem?_getD] at hj ⊢
          cases hx : A.pubkeys[j]? with
          | none => rw [hx] at hj; exact absurd rfl hj
          | some x => rfl
        have := (C38_refused E A tx j _ hj' hj hbad).2 num bfs abfs
        rw [h] at this
        exact this rfl
      have : tx'.outWit j = tx.outWit j := by unfold Tx.outWit; rw [e]
      rw [this, hb.noWitness]
    · rw [e, hfit.nout]
  have hnw : ¬ NoWitness tx'.wit := by
    rintro ⟨-, h2⟩
    apply hp
    unfold Tx.outWit
    cases hx : tx'.wit.vtxoutwit[j]? with
    | none => rfl
    | some w => rw [h2 w (List.mem_of_getElem? hx)]; rfl
  rw [C54_exact tx' hfit.fields]
  constructor
  · rintro (hn | ⟨h1, -⟩)
    · exact absurd hn hnw
    · rcases hfit.ins with e | ⟨i, token, key, hk, hi, hl⟩
      · exact .inl (by rw [← e, h1, hfit.nin])
      · refine .inr ⟨i, token, key, ?_, hi, ?_⟩
        · have := hi.lt
          rw [h1, hfit.nin] at hl
          omega
        · rw [keyAt_getD] at hk
          cases token <;> exact hk
  · intro hc
    refine .inr ⟨?_, hout⟩
    rcases hc with hc | ⟨i, token, key, hi, hiss, hk⟩
    · have h1 := hfit.grow
      have h2 := hle.1
      have h3 := hfit.nin
      omega
    · have hb := (C33_strict h hst (wf_inputSizes (t := fillWitness tx) hw)).2.1 i token key (by omega) (by
        rw [← Bool.not_eq_true, Issuance.isNull_iff]; exact hiss) hk
      obtain ⟨v, gen, com, bf, a, p, -, -, -, -, -, -, -, hs, he⟩ := hb.hidden
      have hne := F.proof a p hs
      by_contra hlt
      apply hne
      rw [← he]
      unfold Tx.inWit
      rw [List.getElem?_eq_none (by have := hfit.nin; omega)]
      cases token <;> rfl

/-- C54, recipients of any blinded transaction that survives: what comes out of the bytes is unblinded by the key the pubkey of
an output belongs to, to its original asset and amount. -/
theorem C54_opens {E : Env} {A : BlindArgs} {tx tx' : Tx} {num bfs abfs} {j : Nat} {key : Bytes} (F : Formats E.z)
    (R : Rewinds E.z) (W : WireSizes E.z) (hs : Survives tx')
    (h : blindTransaction E A tx = (.ok (.success num bfs abfs), tx')) (hj : A.pubkeys.getD j [] = E.z.pubOf key)
    (hk : E.z.secValid key = true) (hp : (tx'.outWit j).rangeproof ≠ []) :
    ∃ b t asset v, serializeTx tx' = .ok b ∧ deserializeTx b = .ok t ∧
      (tx.vout.getD j {}).nAsset = 1 :: asset ∧ (tx.vout.getD j {}).nValue = 1 :: v ∧ asset.length = 32 ∧ v.length = 8 ∧
      (beVal v ≤ 21 * 10 ^ 14 →
        unblind E key (t.vout.getD j {}).nValue (t.vout.getD j {}).nAsset (t.vout.getD j {}).nNonce
          (t.vout.getD j {}).scriptPubKey (t.outWit j).rangeproof
          = .ok (.success asset (beVal v) (bfs.getD j []) (abfs.getD j []))) := by
  obtain ⟨b, t, h1, h2, rfl⟩ := hs
  have hne : E.z.pubOf key ≠ [] := by
    intro h0
    have := W.pubPrefix key hk
    rw [h0] at this
    simp at this
  obtain ⟨asset, v, h3⟩ := C36_unblinds F R h hj hk hp hne
  have hw : (fillWitness tx').outWit j = tx'.outWit j :=
    getD_padTo tx'.wit.vtxoutwit tx'.vout.length {} j
  refine ⟨b, _, asset, v, h1, h2, ?_⟩
  rw [hw]
  exact h3

-- Blinding a transaction without witness lists, appended to an empty one: what comes out is lost.
example : ∃ n b a t', blindTransaction Toy.env appendedArgs appendedTx = (.ok (.success n b a), t') ∧ ¬ Survives t' := by
  obtain ⟨b, a, t', hx⟩ := success_of (x := blindTransaction Toy.env appendedArgs appendedTx) (n := 2) (by decide +kernel)
  refine ⟨2, b, a, t', hx, fun hs => ?_⟩
  have ht : t' = (blindTransaction Toy.env appendedArgs appendedTx).2 := by rw [hx]
  rcases (C54_hidden (j := 0) Toy.formats Toy.wireSizes appendedTx_fits.fields hx rfl (by decide +kernel) (by rw [ht]; decide +kernel)).1 hs
    with h | ⟨i, token, key, -, -, hk⟩
  · exact absurd h (by decide)
  · cases token <;> exact absurd hk (by simp [BlindArgs.issuanceKey, appendedArgs])

-- The same with an issuance in the last input that is to be hidden: the list of input witnesses is completed.
theorem Toy.tokenTx_fits : WFTx (fillWitness Toy.tokenTx) := by
  refine ⟨by decide, by decide, by decide, by decide, ?_, ?_, rfl, rfl, ?_, ?_⟩
  · intro i hi
    have : i = { prevout := ⟨Toy.b32 9, 0⟩, assetIssuance := ⟨zero32, Toy.b32 7, Toy.amt 1, Toy.amt 1⟩ } := List.mem_singleton.1 hi
    subst this
    exact ⟨by decide, by decide, by decide,
      ⟨by decide, by decide, .inr (.inl ⟨by decide, by decide⟩), .inr (.inl ⟨by decide, by decide⟩), fun h => absurd h.1 (by decide)⟩,
      .inr ⟨by decide, by decide⟩⟩
  · intro o ho
    have : o = { nAsset := Toy.ast 5, nValue := Toy.amt 8, scriptPubKey := [0x51] } := List.mem_singleton.1 ho
    subst this
    exact ⟨.inr (.inl ⟨by decide, by decide⟩), .inr (.inl ⟨by decide, by decide⟩), .inl rfl, by decide⟩
  · intro w hw
    rw [List.eq_of_mem_replicate hw]
    exact ⟨by decide, by decide, ⟨by decide, by simp⟩, ⟨by decide, by simp⟩⟩
  · intro w hw
    rw [List.eq_of_mem_replicate hw]
    exact ⟨by decide, by decide⟩
example : ∃ n b a t', blindTransaction Toy.env Toy.amountAndToken Toy.tokenTx = (.ok (.success n b a), t') ∧
    Toy.tokenTx.wit.vtxinwit = [] ∧ Survives t' := by
  obtain ⟨b, a, t', hx⟩ := success_of (x := blindTransaction Toy.env Toy.amountAndToken Toy.tokenTx) (n := 3) (by decide +kernel)
  refine ⟨3, b, a, t', hx, rfl, ?_⟩
  have ht : t' = (blindTransaction Toy.env Toy.amountAndToken Toy.tokenTx).2 := by rw [hx]
  exact (C54_hidden (j := 0) Toy.formats Toy.wireSizes Toy.tokenTx_fits hx rfl (by decide +kernel) (by rw [ht]; decide +kernel)).2
    (.inr ⟨0, false, Toy.b32 8, rfl, by decide +kernel, rfl⟩)

end Verif
