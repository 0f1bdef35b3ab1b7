import Verif.Spec.BlindAgain
import Verif.Props.BlindFrame
import Verif.Props.BlindFail
import Verif.Props.Joint
import Verif.Props.TokenId
/-
C102: what was hidden once is never changed again, however often `blind()` is called.
-/
namespace Verif
open Spec

/-! ### What one call leaves -/

/-- Output `j` hides its asset. -/
def OutMarked (t : Tx) (j : Nat) : Prop := IsAssetCommitment (t.vout.getD j {}).nAsset
/-- The amount issued at `i` is hidden. -/
def IssMarked (t : Tx) (i : Nat) (token : Bool) : Prop := IsValueCommitment ((t.vin.getD i default).issued token)

/-- What changed is marked as hidden, and marks stay. -/
structure Marks (t t' : Tx) : Prop where
  nin : t'.vin.length = t.vin.length
  nout : t'.vout.length = t.vout.length
  out : ∀ j, j < t.vout.length → Untouched t t' j ∨ OutMarked t' j
  outKept : ∀ j, j < t.vout.length → OutMarked t j → OutMarked t' j
  iss : ∀ i token, i < t.vin.length → IssuanceSame t t' (i, token) ∨ IssMarked t' i token
  issKept : ∀ i token, i < t.vin.length → IssMarked t i token → IssMarked t' i token

theorem Marks.refl (t : Tx) : Marks t t :=
  ⟨rfl, rfl, fun _ _ => .inl ⟨rfl, rfl⟩, fun _ _ h => h, fun _ _ _ => .inl ⟨rfl, rfl⟩, fun _ _ _ h => h⟩

theorem Marks.trans {t1 t2 t3 : Tx} (h : Marks t1 t2) (g : Marks t2 t3) : Marks t1 t3 := by
  refine ⟨g.nin.trans h.nin, g.nout.trans h.nout, ?_, ?_, ?_, ?_⟩
  · intro j hj
    have hj' : j < t2.vout.length := h.nout ▸ hj
    rcases g.out j hj' with a | a
    · rcases h.out j hj with b | b
      · exact .inl ⟨a.1.trans b.1, a.2.trans b.2⟩
      · exact .inr (g.outKept j hj' b)
    · exact .inr a
  · intro j hj m
    exact g.outKept j (h.nout ▸ hj) (h.outKept j hj m)
  · intro i token hi
    have hi' : i < t2.vin.length := h.nin ▸ hi
    rcases g.iss i token hi' with a | a
    · rcases h.iss i token hi with b | b
      · exact .inl ⟨a.1.trans b.1, a.2.trans b.2⟩
      · exact .inr (g.issKept i token hi' b)
    · exact .inr a
  · intro i token hi m
    exact g.issKept i token (h.nin ▸ hi) (h.issKept i token hi m)

/-- However a computation ends, the transactions before and after are related. -/
def Rel {α} (R : Tx → Tx → Prop) (m : BM α) : Prop := ∀ s, R s.tx (m s).2.tx

/-- Relations that hold over no step and over two if over each. -/
class Steps (R : Tx → Tx → Prop) : Prop where
  refl : ∀ t, R t t
  trans : ∀ a b c, R a b → R b c → R a c

section
variable {R : Tx → Tx → Prop} [Steps R]
theorem Rel.bind {α β} {m : BM α} {f : α → BM β} (hm : Rel R m) (hf : ∀ a s, m s = (.ok a, (m s).2) → R (m s).2.tx (f a (m s).2).2.tx) :
    Rel R (m >>= f) := by
  intro s
  have h1 := hm s
  have h2 := fun a => hf a s
  show R s.tx (match m s with | (.ok a, s) => f a s | (.error e, s) => (.error e, s)).2.tx
  rcases hr : m s with ⟨_ | a, s1⟩
  · rw [hr] at h1; exact h1
  · rw [hr] at h1 h2; exact Steps.trans _ _ _ h1 (h2 a rfl)
theorem Rel.seq {α β} {m : BM α} {f : α → BM β} (hm : Rel R m) (hf : ∀ a, Rel R (f a)) : Rel R (m >>= f) :=
  Rel.bind hm fun a _ _ => hf a _
theorem Rel.pure {α} (a : α) : Rel R (pure a : BM α) := fun s => Steps.refl s.tx
theorem Rel.get : Rel R BM.get := fun s => Steps.refl s.tx
theorem Rel.lift {α} (e : Except PyErr α) : Rel R (BM.lift e) := fun s => Steps.refl s.tx
theorem Rel.rand (A : BlindArgs) : Rel R (BM.rand A) := fun s => Steps.refl s.tx
theorem Rel.modify {f : BS → BS} (h : ∀ s, (f s).tx = s.tx) : Rel R (BM.modify f) := by
  intro s; show R s.tx (f s).tx; rw [h]; exact Steps.refl s.tx
theorem Rel.finish {α} (C : Ctx) : Rel R (BM.finish C : BM α) := fun s => Steps.refl s.tx
/-- A value taken from a computation that does not touch the state. -/
theorem Rel.use {α β} {e : Except PyErr α} {f : α → BM β} (h : ∀ a, e = .ok a → Rel R (f a)) : Rel R (BM.lift e >>= f) := by
  intro s
  cases he : e with
  | error x => exact Steps.refl s.tx
  | ok a => exact h a he s
end
theorem Rel.modifyTx {R : Tx → Tx → Prop} {f : Tx → Tx} (h : ∀ t, R t (f t)) : Rel R (BM.modifyTx f) := fun s => h s.tx

instance : Steps Marks := ⟨.refl, fun _ _ _ => .trans⟩

/-! ### Outputs -/

/-- Only output `j` was changed, and not its asset. -/
structure RestOut (j : Nat) (t t' : Tx) : Prop where
  vin : t'.vin = t.vin
  inWit : t'.wit.vtxinwit = t.wit.vtxinwit
  nout : t'.vout.length = t.vout.length
  other : ∀ k, k ≠ j → Untouched t t' k
  asset : (t'.vout.getD j {}).nAsset = (t.vout.getD j {}).nAsset

theorem RestOut.refl (j : Nat) (t : Tx) : RestOut j t t := ⟨rfl, rfl, rfl, fun _ _ => ⟨rfl, rfl⟩, rfl⟩
theorem RestOut.trans {j : Nat} {a b c : Tx} (h : RestOut j a b) (g : RestOut j b c) : RestOut j a c :=
  ⟨g.vin.trans h.vin, g.inWit.trans h.inWit, g.nout.trans h.nout,
    fun k hk => ⟨(g.other k hk).1.trans (h.other k hk).1, (g.other k hk).2.trans (h.other k hk).2⟩, g.asset.trans h.asset⟩

instance (j : Nat) : Steps (RestOut j) := ⟨.refl j, fun _ _ _ => .trans⟩

theorem getD_modify_self {α β} {l : List α} {n : Nat} {f : α → α} {d : α} (g : α → β) (hf : ∀ a, g (f a) = g a) :
    g ((l.modify n f).getD n d) = g (l.getD n d) := by
  rw [List.getD_eq_getElem?_getD, List.getD_eq_getElem?_getD, List.getElem?_modify]
  cases l[n]? <;> simp [hf]

theorem restOut_setOut {j : Nat} {f : TxOut → TxOut} (hf : ∀ o, (f o).nAsset = o.nAsset) (t : Tx) : RestOut j t (setOut j f t) :=
  ⟨rfl, rfl, by simp [setOut], fun k hk => ⟨getElem?_modify_ne _ _ (Ne.symm hk), rfl⟩, getD_modify_self TxOut.nAsset hf⟩

theorem restOut_setOutWit (j : Nat) (f : TxOutWitness → TxOutWitness) (t : Tx) : RestOut j t (setOutWit j f t) := by
  refine ⟨rfl, rfl, rfl, fun k hk => ⟨rfl, ?_⟩, rfl⟩
  show ((t.wit.vtxoutwit.modify j f)[k]?).getD {} = _
  rw [getElem?_modify_ne _ _ (Ne.symm hk)]
  rfl

/-- Once the asset of output `j` is hidden, the rest of the work on it leaves marks only. -/
theorem marks_of_rest {j : Nat} {t t' : Tx} (h : RestOut j t t') (hm : j < t.vout.length → OutMarked t j) : Marks t t' := by
  have hin : ∀ i, t'.inWit i = t.inWit i := fun i => by unfold Tx.inWit; rw [h.inWit]
  refine ⟨by rw [h.vin], h.nout, ?_, ?_, fun i token _ => .inl ⟨by rw [h.vin], by rw [hin]⟩, ?_⟩
  · intro k hk
    by_cases e : k = j
    · subst e
      right
      unfold OutMarked
      rw [h.asset]
      exact hm hk
    · exact .inl (h.other k e)
  · intro k hk m
    unfold OutMarked at *
    by_cases e : k = j
    · subst e; rw [h.asset]; exact m
    · rw [List.getD_eq_getElem?_getD, (h.other k e).1, ← List.getD_eq_getElem?_getD]
      exact m
  · intro i token _ m
    unfold IssMarked at *
    rw [h.vin]
    exact m

theorem marks_setAsset {j : Nat} {ca : Bytes} (hc : IsAssetCommitment ca) (t : Tx) :
    Marks t (setOut j (fun o => { o with nAsset := ca }) t) := by
  have hj : j < t.vout.length → OutMarked (setOut j (fun o => { o with nAsset := ca }) t) j := by
    intro hj
    unfold OutMarked setOut
    dsimp only
    rw [List.getD_eq_getElem?_getD, List.getElem?_modify, List.getElem?_eq_getElem hj]
    simpa using hc
  refine ⟨rfl, by simp [setOut], ?_, ?_, fun _ _ _ => .inl ⟨rfl, rfl⟩, fun _ _ _ h => h⟩
  · intro k hk
    by_cases e : k = j
    · subst e; exact .inr (hj hk)
    · exact .inl ⟨getElem?_modify_ne _ _ (Ne.symm e), rfl⟩
  · intro k hk m
    by_cases e : k = j
    · subst e; exact hj hk
    · unfold OutMarked at *
      rw [List.getD_eq_getElem?_getD, show (setOut j (fun o => { o with nAsset := ca }) t).vout[k]? = t.vout[k]? from
        getElem?_modify_ne _ _ (Ne.symm e), ← List.getD_eq_getElem?_getD]
      exact m

theorem blindedAsset_commitment {z : Zkp} (F : Formats z) {asset r ca gen : Bytes} (h : blindedAsset z asset r = .ok (ca, gen)) :
    IsAssetCommitment ca := by
  obtain ⟨-, h1, -⟩ := blindedAsset_ok.1 h
  have hl := z.genSerialize_len _ _ h1
  have hp := F.genPrefix _ _ h1
  cases ca with
  | nil => simp at hl
  | cons b l =>
    simp only [List.head?_cons, Option.some.injEq, List.length_cons, Nat.reduceEqDiff] at hp hl
    rcases hp with rfl | rfl
    · exact ⟨l, .inl rfl, by omega⟩
    · exact ⟨l, .inr rfl, by omega⟩

theorem createValue_commitment {z : Zkp} {blind gen cv com : Bytes} {amount : Int} (h : createValueCommitment z blind gen amount = .ok (cv, com)) :
    IsValueCommitment cv := by
  obtain ⟨-, h1, h2⟩ := createValueCommitment_ok.1 h
  have hl := z.commitSerialize_len _ _ h1
  unfold confIsValid confIsNull confIsExplicit confIsCommitment committedSize valueKind at h2
  simp only [hl, Bool.or_eq_true, Bool.and_eq_true, beq_iff_eq] at h2
  cases cv with
  | nil => simp at hl
  | cons b l =>
    simp at h2 hl
    rcases h2 with rfl | rfl
    · exact ⟨l, .inl rfl, by omega⟩
    · exact ⟨l, .inr rfl, by omega⟩

theorem marks_commitOutput (C : Ctx) (F : Formats C.E.z) (j : Nat) (pk script : Bytes) (amount : Int) (asset blind assetblind : Bytes) :
    Rel Marks (commitOutput C j pk script amount asset blind assetblind) := by
  unfold commitOutput
  refine .seq (.modify fun _ => rfl) fun _ => .use fun p hp => ?_
  obtain ⟨ca, gen⟩ := p
  have hc := blindedAsset_commitment F hp
  refine Rel.bind (.modifyTx fun t => marks_setAsset hc t) fun _ s _ => ?_
  refine marks_of_rest (j := j) ?_ ?_
  · refine (?_ : Rel (RestOut j) _) _
    refine .seq (.lift _) fun p => ?_
    obtain ⟨cv, com⟩ := p
    refine .seq (.modifyTx fun t => restOut_setOut (by intro o; rfl) t) fun _ => .seq (.rand _) fun seed => .seq (.lift _) fun p => ?_
    obtain ⟨nonce, eph⟩ := p
    refine .seq (.lift _) fun cn => .seq (.modifyTx fun t => restOut_setOut (by intro o; rfl) t) fun _ => .seq (.lift _) fun rp =>
      .seq (.rand _) fun seed => .seq (.lift _) fun sp => ?_
    cases sp with
    | none => exact .pure _
    | some proof =>
      dsimp only
      split
      · exact .pure _
      · exact .seq (.modifyTx fun t => restOut_setOutWit j _ t) fun _ => .modify fun _ => rfl
  · intro hj
    show IsAssetCommitment (((s.tx.vout.modify j fun o => { o with nAsset := ca }).getD j {}).nAsset)
    have hj : j < s.tx.vout.length := by
      have : j < (s.tx.vout.modify j fun o => { o with nAsset := ca }).length := hj
      simpa using this
    rw [List.getD_eq_getElem?_getD, List.getElem?_modify, List.getElem?_eq_getElem hj]
    simpa using hc

theorem marks_balance (C : Ctx) : Rel Marks (balanceIfLast C) := by
  unfold balanceIfLast
  refine .seq (.get) fun s => ?_
  split
  · unfold balance
    refine .seq (.get) fun s => ?_
    split
    · exact .finish C
    · split
      · exact .lift _
      · split
        · exact .lift _
        · refine .seq (.lift _) fun last => .seq (.modify fun _ => rfl) fun _ => ?_
          split
          · exact .seq (.modify fun _ => rfl) fun _ => .finish C
          · exact .pure _
  · exact .pure _

theorem marks_outputStep (C : Ctx) (F : Formats C.E.z) (j : Nat) (pk : Bytes) : Rel Marks (outputStep C j pk) := by
  unfold outputStep
  split
  · unfold outputBlind
    exact .seq (.modify fun _ => rfl) fun _ => .seq (.get) fun s => .seq (.lift _) fun amount => .seq (.lift _) fun asset =>
      .seq (.modify fun _ => rfl) fun _ => .seq (.rand _) fun _ => .seq (.lift _) fun _ => .seq (.modify fun _ => rfl) fun _ =>
      .seq (.rand _) fun _ => .seq (.lift _) fun _ => .seq (.modify fun _ => rfl) fun _ => .seq (marks_balance C) fun _ =>
      .seq (.get) fun s => marks_commitOutput C F j _ _ _ _ _ _
  · exact .pure _

theorem marks_outputLoop (C : Ctx) (F : Formats C.E.z) : ∀ (pks : List Bytes) (j : Nat), Rel Marks (outputLoop C j pks)
  | [], _ => .pure _
  | pk :: rest, j => .seq (marks_outputStep C F j pk) fun _ => marks_outputLoop C F rest (j + 1)

/-! ### Issuances -/

/-- Only the proof for the amount issued at `i` was changed. -/
structure RestIss (i : Nat) (token : Bool) (t t' : Tx) : Prop where
  vin : t'.vin = t.vin
  vout : t'.vout = t.vout
  outWit : t'.wit.vtxoutwit = t.wit.vtxoutwit
  other : ∀ k tk, (k, tk) ≠ (i, token) → (t'.inWit k).issuedProof tk = (t.inWit k).issuedProof tk

theorem RestIss.refl (i : Nat) (token : Bool) (t : Tx) : RestIss i token t t := ⟨rfl, rfl, rfl, fun _ _ _ => rfl⟩
theorem RestIss.trans {i : Nat} {token : Bool} {a b c : Tx} (h : RestIss i token a b) (g : RestIss i token b c) : RestIss i token a c :=
  ⟨g.vin.trans h.vin, g.vout.trans h.vout, g.outWit.trans h.outWit, fun k tk e => (g.other k tk e).trans (h.other k tk e)⟩

instance (i : Nat) (token : Bool) : Steps (RestIss i token) := ⟨.refl i token, fun _ _ _ => .trans⟩

theorem restIss_setInWit (i : Nat) (token : Bool) (p : Bytes) (t : Tx) : RestIss i token t (setInWit i (fun w =>
    if token then { w with inflationKeysRangeproof := p } else { w with issuanceAmountRangeproof := p }) t) := by
  refine ⟨rfl, rfl, rfl, fun k tk e => ?_⟩
  unfold Tx.inWit setInWit
  dsimp only
  by_cases hk : k = i
  · subst hk
    rw [List.getElem?_modify]
    cases t.wit.vtxinwit[k]? with
    | none => rfl
    | some w => cases token <;> cases tk <;> first | exact absurd rfl e | simp [TxInWitness.issuedProof]
  · rw [getElem?_modify_ne _ _ (Ne.symm hk)]

theorem marks_of_restIss {i : Nat} {token : Bool} {t t' : Tx} (h : RestIss i token t t') (hm : i < t.vin.length → IssMarked t i token) :
    Marks t t' := by
  have how : ∀ j, t'.outWit j = t.outWit j := fun j => by unfold Tx.outWit; rw [h.outWit]
  refine ⟨by rw [h.vin], by rw [h.vout], fun j _ => .inl ⟨by rw [h.vout], how j⟩, ?_, ?_, ?_⟩
  · intro j _ m
    unfold OutMarked at *
    rw [h.vout]
    exact m
  · intro k tk hk
    by_cases e : (k, tk) = (i, token)
    · obtain ⟨rfl, rfl⟩ := Prod.mk.inj e
      right
      unfold IssMarked at *
      rw [h.vin]
      exact hm hk
    · exact .inl ⟨by rw [h.vin], h.other k tk e⟩
  · intro k tk _ m
    unfold IssMarked at *
    rw [h.vin]
    exact m

/-- The issuance with one amount replaced. -/
def withIssued (iss : Issuance) (token : Bool) (v : Bytes) : Issuance := if token then { iss with nInflationKeys := v } else { iss with nAmount := v }

theorem setIssuance_issued (i : Nat) (token : Bool) (v : Bytes) (t : Tx) (hi : i < t.vin.length) :
    ((setIssuance i (withIssued (t.vin.getD i default).assetIssuance token v) t).vin.getD i default).issued token = v := by
  unfold setIssuance
  dsimp only
  rw [List.getD_eq_getElem?_getD, List.getElem?_modify, List.getElem?_eq_getElem hi]
  cases token <;> simp [withIssued, TxIn.issued]

theorem setIssuance_other (i : Nat) (token : Bool) (v : Bytes) (t : Tx) (k : Nat) (tk : Bool) (e : (k, tk) ≠ (i, token)) :
    (setIssuance i (withIssued (t.vin.getD i default).assetIssuance token v) t).vin[k]?.map (fun y => y.issued tk) =
      t.vin[k]?.map (fun y => y.issued tk) := by
  unfold setIssuance
  dsimp only
  by_cases hk : k = i
  · subst hk
    rw [List.getElem?_modify, List.getD_eq_getElem?_getD]
    cases t.vin[k]? with
    | none => rfl
    | some x => cases token <;> cases tk <;> first | exact absurd rfl e | simp [withIssued, TxIn.issued]
  · rw [getElem?_modify_ne _ _ (Ne.symm hk)]

theorem marks_setIssuance {i : Nat} {token : Bool} {v : Bytes} (hv : IsValueCommitment v) (t : Tx) :
    Marks t (setIssuance i (withIssued (t.vin.getD i default).assetIssuance token v) t) := by
  refine ⟨by simp [setIssuance], rfl, fun _ _ => .inl ⟨rfl, rfl⟩, fun _ _ h => h, ?_, ?_⟩
  · intro k tk hk
    by_cases e : (k, tk) = (i, token)
    · obtain ⟨rfl, rfl⟩ := Prod.mk.inj e
      right
      unfold IssMarked
      rw [setIssuance_issued k tk v t hk]
      exact hv
    · exact .inl ⟨setIssuance_other i token v t k tk e, rfl⟩
  · intro k tk hk m
    unfold IssMarked at *
    by_cases e : (k, tk) = (i, token)
    · obtain ⟨rfl, rfl⟩ := Prod.mk.inj e
      rw [setIssuance_issued k tk v t hk]
      exact hv
    · have := setIssuance_other i token v t k tk e
      have hk' : k < (setIssuance i (withIssued (t.vin.getD i default).assetIssuance token v) t).vin.length := by simpa [setIssuance] using hk
      rw [List.getElem?_eq_getElem hk, List.getElem?_eq_getElem hk'] at this
      rw [List.getD_eq_getElem?_getD, List.getElem?_eq_getElem hk] at m
      rw [List.getD_eq_getElem?_getD, List.getElem?_eq_getElem hk']
      simp only [Option.map_some, Option.some.injEq, Option.getD_some] at this m ⊢
      rw [this]
      exact m

theorem marks_padIn (n : Nat) (t : Tx) : Marks t { t with wit := { t.wit with vtxinwit := padTo t.wit.vtxinwit n {} } } := by
  have key : ∀ i, Tx.inWit { t with wit := { t.wit with vtxinwit := padTo t.wit.vtxinwit n {} } } i = t.inWit i := fun i => getD_padTo _ _ _ _
  exact ⟨rfl, rfl, fun _ _ => .inl ⟨rfl, rfl⟩, fun _ _ h => h, fun i _ _ => .inl ⟨rfl, by rw [key]⟩, fun _ _ _ h => h⟩

theorem marks_padOut (n : Nat) (t : Tx) : Marks t { t with wit := { t.wit with vtxoutwit := padTo t.wit.vtxoutwit n {} } } :=
  ⟨rfl, rfl, fun _ _ => .inl ⟨rfl, getD_padTo _ _ _ _⟩, fun _ _ h => h, fun _ _ _ => .inl ⟨rfl, rfl⟩, fun _ _ _ h => h⟩

theorem marks_blindPseudo (C : Ctx) (i : Nat) (token : Bool) (key : Bytes) (amount : Int) (asset blind : Bytes) :
    Rel Marks (blindPseudo C i token key amount asset blind) := by
  unfold blindPseudo
  refine .seq (.modifyTx fun t => marks_padIn _ t) fun _ => .seq (.lift _) fun p => ?_
  obtain ⟨_, gen⟩ := p
  refine .use fun p hp => ?_
  obtain ⟨cv, com⟩ := p
  have hc := createValue_commitment hp
  intro s
  refine Marks.trans (marks_setIssuance (i := i) (token := token) hc s.tx) ?_
  refine marks_of_restIss (i := i) (token := token) (t' := _) ?_ ?_
  · refine Rel.seq (R := RestIss i token) (m := BM.lift _) (.lift _) (fun nonce => ?_)
      { s with tx := setIssuance i (withIssued (s.tx.vin.getD i default).assetIssuance token cv) s.tx }
    refine .seq (.lift _) fun proof => ?_
    exact .seq (.modifyTx fun t => restIss_setInWit i token proof t) fun _ => .modify fun _ => rfl
  · intro hi
    unfold IssMarked
    rw [setIssuance_issued i token cv s.tx (by simpa [setIssuance] using hi)]
    exact hc

theorem marks_issuancePseudo (C : Ctx) (i : Nat) (token : Bool) (key : Bytes) : Rel Marks (issuancePseudo C i token key) := by
  unfold issuancePseudo
  refine .seq (.modify fun _ => rfl) fun _ => .seq (.get) fun s => ?_
  dsimp only
  generalize hx : (if token then (s.tx.vin.getD i default).assetIssuance.nInflationKeys
    else (s.tx.vin.getD i default).assetIssuance.nAmount) = x
  split
  · exact .pure _
  · refine .seq (.lift _) fun amount => .seq (.modify fun _ => rfl) fun _ => .seq (.lift _) fun a => ?_
    cases a with
    | none => exact .pure _
    | some asset =>
      refine .seq (.rand _) fun _ => .seq (.lift _) fun blind => .seq (.modify fun _ => rfl) fun _ => .seq (.get) fun s => ?_
      split
      · exact .finish C
      · exact marks_blindPseudo C i token key amount asset blind

theorem marks_issuanceLoop (C : Ctx) : ∀ n i, Rel Marks (issuanceLoop C i n)
  | 0, _ => .pure _
  | n + 1, i => by
    have key : ∀ token, Rel Marks (issuanceStep C i token) := by
      intro token
      unfold issuanceStep
      cases keyAt (if token then C.A.tokenKeys else C.A.assetKeys) i with
      | none => exact .pure _
      | some key => exact marks_issuancePseudo C i token key
    exact .seq (key false) fun _ => .seq (key true) fun _ => marks_issuanceLoop C n (i + 1)

/-- Whatever a call does, what it changed is marked. -/
theorem marks_call (E : Env) (F : Formats E.z) (A : BlindArgs) (tx : Tx) : Marks tx (blindTransaction E A tx).2 := by
  unfold blindTransaction
  cases hc : checks E A tx with
  | error e => cases e <;> exact .refl tx
  | ok p =>
    obtain ⟨T, c⟩ := p
    have : Rel Marks (blindBody ⟨E, A, T, c.nBlindsIn, c.nToBlind⟩ tx.vin.length) := by
      unfold blindBody
      exact .seq (marks_issuanceLoop _ _ 0) fun _ => .seq (.modifyTx fun t => marks_padOut _ t) fun _ =>
        .seq (marks_outputLoop ⟨E, A, T, c.nBlindsIn, c.nToBlind⟩ F A.pubkeys 0) fun _ => .finish _
    exact this (startState tx c)

/-! ### What later calls do to it -/

/-- A hidden output is left alone by every call, and asking for it again is refused. -/
theorem marked_out (E : Env) (A : BlindArgs) {t : Tx} {j : Nat} (hm : OutMarked t j) : Untouched t (blindTransaction E A t).2 j := by
  by_cases hp : A.pubkeys.getD j [] = []
  · have h := C32_only_asked E A t
    exact ⟨h.outputs j hp, h.outputWitness j hp⟩
  · obtain ⟨pk, hj, hpk⟩ : ∃ pk, A.pubkeys[j]? = some pk ∧ pk ≠ [] := by
      rw [List.getD_eq_getElem?_getD] at hp
      cases hx : A.pubkeys[j]? with
      | none => rw [hx] at hp; exact absurd rfl hp
      | some pk => rw [hx] at hp; exact ⟨pk, rfl, hp⟩
    rw [(C38_refused E A t j pk hj hpk fun hb => ?_).1]
    · exact ⟨rfl, rfl⟩
    · obtain ⟨b, hb, -⟩ := hb.asset
      obtain ⟨c, hc | hc, -⟩ := hm <;> rw [hb] at hc <;> cases hc

/-- Once an issued amount is hidden no call changes anything. -/
theorem marked_iss (E : Env) (A : BlindArgs) {t : Tx} {i : Nat} {token : Bool} (hi : i < t.vin.length) (hm : IssMarked t i token) :
    (blindTransaction E A t).2 = t ∧ ∀ n b a, (blindTransaction E A t).1 ≠ .ok (.success n b a) := by
  refine C39_partial E A t fun hA => ?_
  obtain ⟨T, ht⟩ := hA.targets
  unfold surjTargets at ht
  obtain ⟨u, ht, -⟩ := exc_bind_ok.1 ht
  have hlen : t.vin.length = A.descs.length := hA.lengths.descs.symm
  have hz : (t.vin[i], A.descs[i]'(by omega)) ∈ t.vin.zip A.descs := by
    rw [List.mem_iff_getElem]
    exact ⟨i, by simp; omega, by simp⟩
  have hc : IsValueCommitment t.vin[i].assetIssuance.nAmount ∨ IsValueCommitment t.vin[i].assetIssuance.nInflationKeys := by
    unfold IssMarked at hm
    rw [List.getD_eq_getElem?_getD, List.getElem?_eq_getElem hi] at hm
    cases token
    · exact .inl hm
    · exact .inr hm
  rcases inputTargets_plain ht _ hz with hn | ⟨h1, h2⟩
  · have hn : t.vin[i].assetIssuance.nAmount = [] ∧ t.vin[i].assetIssuance.nInflationKeys = [] := by
      simpa [Issuance.isNull, confIsNull] using hn
    rw [hn.1, hn.2] at hc
    rcases hc with hc | hc <;> exact not_commitment_nil hc
  · rcases hc with hc | hc
    · exact h1 hc
    · exact h2 hc

theorem Appended.out {t t' : Tx} (h : Appended t t') {j : Nat} (hj : j < t.vout.length) : Untouched t t' j := by
  obtain ⟨r, hr⟩ := h.outputs
  exact ⟨by rw [← hr, List.getElem?_append_left hj], h.outWit j hj⟩

theorem Appended.vin {t t' : Tx} (h : Appended t t') {i : Nat} (hi : i < t.vin.length) : t'.vin[i]? = t.vin[i]? := by
  obtain ⟨r, hr⟩ := h.inputs
  rw [← hr, List.getElem?_append_left hi]

theorem outMarked_congr {t t' : Tx} {j : Nat} (h : t'.vout[j]? = t.vout[j]?) : OutMarked t' j ↔ OutMarked t j := by
  unfold OutMarked
  rw [List.getD_eq_getElem?_getD, h, ← List.getD_eq_getElem?_getD]

theorem Later.counts {t t' : Tx} (h : Later t t') : t.vin.length ≤ t'.vin.length ∧ t.vout.length ≤ t'.vout.length := by
  induction h with
  | refl => exact ⟨le_rfl, le_rfl⟩
  | call E A _ _ ih => have := C32_counts E A; rw [(this _).1, (this _).2]; exact ih
  | append _ h ih => exact ⟨ih.1.trans h.inputs.length_le, ih.2.trans h.outputs.length_le⟩

/-- What changed is hidden. -/
theorem Later.marked {t t' : Tx} (h : Later t t') {j : Nat} (hj : j < t.vout.length) : Untouched t t' j ∨ OutMarked t' j := by
  induction h with
  | refl => exact .inl ⟨rfl, rfl⟩
  | @call t' E A F h ih =>
    have hj' := hj.trans_le h.counts.2
    have hm := marks_call E F A t'
    rcases hm.out j hj' with a | a
    · rcases ih with b | b
      · exact .inl ⟨a.1.trans b.1, a.2.trans b.2⟩
      · exact .inr (hm.outKept j hj' b)
    · exact .inr a
  | @append t' t'' h g ih =>
    have a := g.out (hj.trans_le h.counts.2)
    rcases ih with b | b
    · exact .inl ⟨a.1.trans b.1, a.2.trans b.2⟩
    · exact .inr ((outMarked_congr a.1).2 b)

theorem issMarked_at {t : Tx} {i : Nat} {token : Bool} (hi : i < t.vin.length) : IssMarked t i token ↔ IsValueCommitment (t.vin[i].issued token) := by
  unfold IssMarked
  rw [List.getD_eq_getElem?_getD, List.getElem?_eq_getElem hi]
  rfl

theorem Later.markedIss {t t' : Tx} (h : Later t t') {i : Nat} {token : Bool} (hi : i < t.vin.length) :
    IssuanceSame t t' (i, token) ∨ IssMarked t' i token := by
  induction h with
  | refl => exact .inl ⟨rfl, rfl⟩
  | @call t' E A F h ih =>
    have hi' := hi.trans_le h.counts.1
    have hm := marks_call E F A t'
    rcases hm.iss i token hi' with a | a
    · rcases ih with b | b
      · exact .inl ⟨a.1.trans b.1, a.2.trans b.2⟩
      · exact .inr (hm.issKept i token hi' b)
    · exact .inr a
  | @append t' t'' h g ih =>
    have hi' := hi.trans_le h.counts.1
    have a := g.vin hi'
    rcases ih with b | b
    · exact .inl ⟨by rw [show (i, token).1 = i from rfl, a]; exact b.1, by rw [show (i, token).1 = i from rfl, g.inWit i hi']; exact b.2⟩
    · right
      unfold IssMarked at *
      rw [List.getD_eq_getElem?_getD, a, ← List.getD_eq_getElem?_getD]
      exact b

/-- C102: an output that some call changed, in whatever way that call ended, is never changed again, nor is its witness. -/
theorem C102_output {t t' t'' : Tx} (h : Later t t') (g : Later t' t'') {j : Nat} (hj : j < t.vout.length) (hc : ¬ Untouched t t' j) :
    Untouched t' t'' j := by
  have hm := (h.marked hj).resolve_left hc
  have hj := hj.trans_le h.counts.2
  clear h hc
  induction g with
  | refl => exact ⟨rfl, rfl⟩
  | call E A F g ih =>
    have a := ih
    have b := marked_out E A ((outMarked_congr a.1).2 hm)
    exact ⟨b.1.trans a.1, b.2.trans a.2⟩
  | append g k ih =>
    have a := ih
    have b := k.out (hj.trans_le g.counts.2)
    exact ⟨b.1.trans a.1, b.2.trans a.2⟩

/-- C102: asking for it again is refused, and then nothing at all is changed: it can be neither finished nor repaired. -/
theorem C102_asked {t t' : Tx} (h : Later t t') {j : Nat} (hj : j < t.vout.length) (hc : ¬ Untouched t t' j) (E : Env) (A : BlindArgs)
    (hp : A.pubkeys.getD j [] ≠ []) :
    (blindTransaction E A t').2 = t' ∧ ∀ n b a, (blindTransaction E A t').1 ≠ .ok (.success n b a) := by
  have hm := (h.marked hj).resolve_left hc
  obtain ⟨pk, hj, hpk⟩ : ∃ pk, A.pubkeys[j]? = some pk ∧ pk ≠ [] := by
    rw [List.getD_eq_getElem?_getD] at hp
    cases hx : A.pubkeys[j]? with
    | none => rw [hx] at hp; exact absurd rfl hp
    | some pk => rw [hx] at hp; exact ⟨pk, rfl, hp⟩
  refine C38_refused E A t' j pk hj hpk fun hb => ?_
  obtain ⟨b, hb, -⟩ := hb.asset
  obtain ⟨c, hc | hc, -⟩ := hm <;> rw [hb] at hc <;> cases hc

/-- C102: once some call changed an issued amount or its proof, every further call, whatever is asked, is refused and changes nothing. -/
theorem C102_issuance {t t' t'' : Tx} (h : Later t t') (g : Later t' t'') {i : Nat} {token : Bool} (hi : i < t.vin.length)
    (hc : ¬ IssuanceSame t t' (i, token)) :
    IssuanceSame t' t'' (i, token) ∧ ∀ (E : Env) (A : BlindArgs),
      (blindTransaction E A t'').2 = t'' ∧ ∀ n b a, (blindTransaction E A t'').1 ≠ .ok (.success n b a) := by
  have hm := (h.markedIss hi).resolve_left hc
  have hi := hi.trans_le h.counts.1
  clear h hc
  have key : IssuanceSame t' t'' (i, token) ∧ IssMarked t'' i token := by
    induction g with
    | refl => exact ⟨⟨rfl, rfl⟩, hm⟩
    | call E A F g ih =>
      obtain ⟨a, b⟩ := ih
      rw [(marked_iss E A (hi.trans_le g.counts.1) b).1]
      exact ⟨a, b⟩
    | append g k ih =>
      obtain ⟨a, b⟩ := ih
      have hi' := hi.trans_le g.counts.1
      have e := k.vin hi'
      refine ⟨⟨by rw [show (i, token).1 = i from rfl, e]; exact a.1, by rw [show (i, token).1 = i from rfl, k.inWit i hi']; exact a.2⟩, ?_⟩
      unfold IssMarked at *
      rw [List.getD_eq_getElem?_getD, e, ← List.getD_eq_getElem?_getD]
      exact b
  exact ⟨key.1, fun E A => marked_iss E A (hi.trans_le g.counts.1) key.2⟩

/-- An output that was left without proofs (no surjection proof was found) is one of these, though failure was reported. -/
example : Later noSurjTx (blindTransaction Toy.env noSurjArgs noSurjTx).2 ∧ 0 < noSurjTx.vout.length ∧
    ¬ Untouched noSurjTx (blindTransaction Toy.env noSurjArgs noSurjTx).2 0 ∧ noSurjArgs.pubkeys.getD 0 [] ≠ [] ∧
    ∃ msg, (blindTransaction Toy.env noSurjArgs noSurjTx).1 = .ok (.failure msg) := by
  refine ⟨.call _ _ Toy.formats (.refl _), by decide, ?_, by decide, ?_⟩
  · rintro ⟨h, -⟩
    revert h
    decide +kernel
  · exact ⟨_, (by decide +kernel : (blindTransaction Toy.env noSurjArgs noSurjTx).1 = .ok (.failure
      "blinded 0 outputs/issuances, but should have blinded 1 (this check can be turned off with is_blind_success_strict=False)"))⟩

/-- So is an issued amount that was hidden. -/
example : Later Toy.tokenTx (blindTransaction Toy.env Toy.amountOnly Toy.tokenTx).2 ∧ 0 < Toy.tokenTx.vin.length ∧
    ¬ IssuanceSame Toy.tokenTx (blindTransaction Toy.env Toy.amountOnly Toy.tokenTx).2 (0, false) := by
  refine ⟨.call _ _ Toy.formats (.refl _), by decide, ?_⟩
  rintro ⟨h, -⟩
  revert h
  decide +kernel

end Verif
