import Verif.Props.BlindUnblind
import Verif.Props.Tx
import Verif.Spec.BlindWire
/-
C54: a blinded transaction survives the wire, and its recipients can unblind it there.
-/
namespace Verif
open Spec

/-! ### Running from `P` to `Q` -/

/-- Started on a transaction with `P`, the transaction has `Q` however the computation ends. -/
def Brings {α} (P : Tx → Prop) (m : BM α) (Q : Tx → Prop) : Prop := ∀ s, P s.tx → Q (m s).2.tx

theorem Brings.bind {α β} {P Q : Tx → Prop} {m : BM α} {f : α → BM β} (hm : Brings P m P) (hPQ : ∀ t, P t → Q t)
    (hf : ∀ a, Brings P (f a) Q) : Brings P (m >>= f) Q := by
  intro s hs
  have h1 := hm s hs
  show Q (match m s with | (.ok a, s) => f a s | (.error e, s) => (.error e, s)).2.tx
  rcases hr : m s with ⟨_ | a, s1⟩
  · rw [hr] at h1; exact hPQ _ h1
  · rw [hr] at h1; exact hf a s1 h1

/-- The value of a lifted computation is one it can return. -/
theorem Brings.lift_bind {α β} {P Q : Tx → Prop} {e : Except PyErr α} {f : α → BM β} (hPQ : ∀ t, P t → Q t)
    (hf : ∀ a, e = .ok a → Brings P (f a) Q) : Brings P (BM.lift e >>= f) Q := by
  intro s hs
  cases e with
  | error x => exact hPQ _ hs
  | ok a => exact hf a rfl s hs

theorem Brings.get_bind {β} {P Q : Tx → Prop} {f : BS → BM β} (hf : ∀ s, P s.tx → Brings (· = s.tx) (f s) Q) :
    Brings P (BM.get >>= f) Q := fun s hs => hf s hs s rfl

theorem Brings.modify_bind {β} {P Q : Tx → Prop} {g : BS → BS} {f : Unit → BM β} (hg : ∀ s, (g s).tx = s.tx)
    (hf : Brings P (f ()) Q) : Brings P (BM.modify g >>= f) Q := fun s hs => hf (g s) (by rw [hg]; exact hs)

theorem Brings.modifyTx_bind {β} {P R Q : Tx → Prop} {g : Tx → Tx} {f : Unit → BM β} (hg : ∀ t, P t → R (g t))
    (hf : Brings R (f ()) Q) : Brings P (BM.modifyTx g >>= f) Q := fun s hs => hf { s with tx := g s.tx } (hg _ hs)

theorem Brings.rand_bind {β} {P Q : Tx → Prop} {A : BlindArgs} {f : Bytes → BM β}
    (hf : ∀ a, Brings P (f a) Q) : Brings P (BM.rand A >>= f) Q :=
  fun s hs => hf _ { s with rnd := s.rnd + 1 } hs

theorem Brings.weaken {α} {P P' Q : Tx → Prop} {m : BM α} (h : Brings P' m Q) (hp : ∀ t, P t → P' t) : Brings P m Q :=
  fun s hs => h s (hp _ hs)
theorem Brings.pure {α} {P Q : Tx → Prop} (h : ∀ t, P t → Q t) (a : α) : Brings P (pure a : BM α) Q := fun _ hs => h _ hs
theorem Brings.lift {α} {P Q : Tx → Prop} (h : ∀ t, P t → Q t) (e : Except PyErr α) : Brings P (BM.lift e) Q :=
  fun _ hs => h _ hs
theorem Brings.modify {P Q : Tx → Prop} (h : ∀ t, P t → Q t) {g : BS → BS} (hg : ∀ s, (g s).tx = s.tx) :
    Brings P (BM.modify g) Q := fun s hs => by
  show Q (g s).tx
  rw [hg]; exact h _ hs
theorem Brings.finish {α} {P Q : Tx → Prop} (h : ∀ t, P t → Q t) (C : Ctx) : Brings P (BM.finish C : BM α) Q :=
  fun _ hs => h _ hs

/-! ### What is written is well-formed -/

theorem validField_of_isValid {k : ConfKind} {c : Bytes} (h : confIsValid k c = true) :
    ValidField k.explicitSize k.prefixA k.prefixB c := by
  unfold confIsValid confIsNull confIsExplicit confIsCommitment committedSize at h
  simp only [Bool.or_eq_true, Bool.and_eq_true, beq_iff_eq] at h
  rcases h with (h | h) | h
  · exact .inl (List.length_eq_zero_iff.1 h)
  · exact .inr (.inl h)
  · exact .inr (.inr h)

theorem blindedAsset_valid {z : Zkp} {asset blind ca gen : Bytes} (h : blindedAsset z asset blind = .ok (ca, gen)) :
    ValidField 33 10 11 ca := by
  unfold blindedAsset at h
  obtain ⟨g, _, h⟩ := exc_bind_ok.1 h
  obtain ⟨ser, _, h⟩ := exc_bind_ok.1 h
  obtain ⟨c, _, h⟩ := exc_bind_ok.1 h
  cases hv : confIsValid assetKind c with
  | false => rw [hv] at h; cases h
  | true =>
    rw [hv] at h
    injection h with h
    injection h with h _
    exact h ▸ validField_of_isValid (k := assetKind) hv

theorem createValueCommitment_valid {z : Zkp} {blind gen cv com : Bytes} {amount : Int}
    (h : createValueCommitment z blind gen amount = .ok (cv, com)) : ValidField 9 8 9 cv ∧ cv ≠ [] := by
  unfold createValueCommitment at h
  obtain ⟨g, _, h⟩ := exc_bind_ok.1 h
  obtain ⟨ser, hs, h⟩ := exc_bind_ok.1 h
  obtain ⟨c, hc, h⟩ := exc_bind_ok.1 h
  cases hv : confIsValid valueKind c with
  | false => rw [hv] at h; cases h
  | true =>
    rw [hv] at h
    injection h with h
    injection h with h _
    subst h
    refine ⟨validField_of_isValid (k := valueKind) hv, ?_⟩
    have hl := z.commitSerialize_len g ser (by
      cases hz : z.commitSerialize g with
      | none => rw [hz] at hs; cases hs
      | some x => rw [hz] at hs; injection hs with hs; rw [hs])
    unfold confNew at hc
    split at hc
    · injection hc with hc
      rintro rfl
      rw [hc] at hl; simp at hl
    · cases hc

theorem generateRangeproof_size {z : Zkp} (W : WireSizes z) {e b : Option Int} {blind nonce script commit gen asset ab p : Bytes}
    {amount : Int} (h : generateRangeproof z e b blind nonce amount script commit gen asset ab = .ok p) :
    p.length ≤ maxItem := by
  unfold generateRangeproof at h
  split at h
  · cases h
  · split at h
    · cases h
    · generalize rangeproofArgs e b blind nonce amount script commit gen asset ab = a at h
      cases hz : z.rangeSign a with
      | none => rw [hz] at h; cases h
      | some x =>
        rw [hz] at h
        injection h with h
        have := W.rangeSize a x hz
        rw [← h]; unfold maxItem; omega

theorem surjectionProof_size {z : Zkp} (W : WireSizes z) {t g bl : List Bytes} {ab gen asset seed p : Bytes}
    (h : surjectionProof z t g bl ab gen asset seed = .ok (some p)) : p.length ≤ maxItem := by
  unfold surjectionProof at h
  obtain ⟨tags, _, h⟩ := exc_bind_ok.1 h
  split at h
  · cases h
  · obtain ⟨eph, _, h⟩ := exc_bind_ok.1 h
    split at h
    · cases h
    · obtain ⟨pr, _, h⟩ := exc_bind_ok.1 h
      cases hs : z.surjSerialize pr with
      | none =>
        rw [hs] at h
        cases hv : z.surjVerify pr eph g.length gen <;> rw [hv] at h <;> cases h
      | some x =>
        rw [hs] at h
        cases hv : z.surjVerify pr eph g.length gen <;> rw [hv] at h
        · cases h
        · injection h with h
          injection h with h
          have := W.surjSize _ _ hs
          rw [← h]; unfold maxItem; omega

theorem nonce_valid {E : Env} (W : WireSizes E.z) {pk seed nonce eph cn : Bytes} (h : outputNonce E pk seed = .ok (nonce, eph))
    (hc : confNew nonceKind eph = .ok cn) : ValidField 33 2 3 cn := by
  unfold outputNonce at h
  obtain ⟨key, hk, h⟩ := exc_bind_ok.1 h
  have hsec : E.z.secValid key = true := by
    unfold ckeyNew at hk
    split at hk
    · cases hk
    · split at hk
      · rename_i hv
        injection hk with hk
        rw [← hk]; exact hv
      · cases hk
  dsimp only at h
  have hl : (E.z.pubOf key).length = 33 ∧ eph = E.z.pubOf key := by
    by_cases hl : (E.z.pubOf key).length ≠ committedSize
    · rw [if_pos hl] at h; cases h
    · rw [if_neg hl] at h
      obtain ⟨_, _, h⟩ := exc_bind_ok.1 h
      injection h with h
      injection h with _ h
      exact ⟨by unfold committedSize at hl; omega, h.symm⟩
  have hcn : cn = eph := by
    unfold confNew at hc
    split at hc
    · injection hc with hc; exact hc.symm
    · cases hc
  rw [hcn, hl.2]
  exact .inr (.inr ⟨hl.1, W.pubPrefix key hsec⟩)

/-! ### Each change of the transaction -/

theorem mem_modify {α} {P : α → Prop} {l : List α} {f : α → α} {n : Nat} (h : ∀ x ∈ l, P x)
    (hf : ∀ x ∈ l, P (f x)) : ∀ x ∈ l.modify n f, P x := by
  intro x hx
  obtain ⟨i, hi⟩ := List.mem_iff_getElem?.1 hx
  rw [List.getElem?_modify] at hi
  cases hl : l[i]? with
  | none => rw [hl] at hi; cases hi
  | some y =>
    rw [hl] at hi
    have hy := List.mem_of_getElem? hl
    have hx2 : (if n = i then f y else y) = x := Option.some.inj hi
    rw [← hx2]
    split
    · exact hf y hy
    · exact h y hy

theorem wf_setOut {j : Nat} {f : TxOut → TxOut} (hf : ∀ o, WFOut o → WFOut (f o)) {tx : Tx} (h : WFTx tx) :
    WFTx (setOut j f tx) :=
  { h with
    nout := by show (tx.vout.modify j f).length < _; rw [List.length_modify]; exact h.nout
    vout := mem_modify h.vout fun o ho => hf o (h.vout o ho)
    witout := by show _ = (tx.vout.modify j f).length; rw [List.length_modify]; exact h.witout }

theorem wf_setOutWit {j : Nat} {w : TxOutWitness} (hw : WFOutWitness w) {tx : Tx} (h : WFTx tx) :
    WFTx (setOutWit j (fun _ => w) tx) :=
  { h with
    witout := by show (tx.wit.vtxoutwit.modify j _).length = _; rw [List.length_modify]; exact h.witout
    vtxoutwit := mem_modify h.vtxoutwit fun _ _ => hw }

theorem wf_setInWit {i : Nat} {f : TxInWitness → TxInWitness} (hf : ∀ w, WFInWitness w → WFInWitness (f w)) {tx : Tx}
    (h : WFTx tx) : WFTx (setInWit i f tx) :=
  { h with
    witin := by show (tx.wit.vtxinwit.modify i f).length = _; rw [List.length_modify]; exact h.witin
    vtxinwit := mem_modify h.vtxinwit fun w hw => hf w (h.vtxinwit w hw) }

/-- The issuance at `i` issues something. -/
def IssuesAt (i : Nat) (tx : Tx) : Prop := ¬ NoIssue (tx.vin.getD i default).assetIssuance

theorem IssuesAt.lt {i : Nat} {tx : Tx} (h : IssuesAt i tx) : i < tx.vin.length := by
  rcases Nat.lt_or_ge i tx.vin.length with hl | hl
  · exact hl
  · refine absurd ?_ h
    rw [List.getD_eq_getElem?_getD, List.getElem?_eq_none hl]
    exact ⟨rfl, rfl⟩

theorem wf_setIssuance {i : Nat} {token : Bool} {cv : Bytes} (hv : ValidField 9 8 9 cv) (hne : cv ≠ []) {tx : Tx} (h : WFTx tx)
    (hi : IssuesAt i tx) :
    WFTx (setIssuance i
      (if token then { (tx.vin.getD i default).assetIssuance with nInflationKeys := cv }
        else { (tx.vin.getD i default).assetIssuance with nAmount := cv }) tx) := by
  obtain ⟨t, ht⟩ : ∃ t, tx.vin[i]? = some t := ⟨_, List.getElem?_eq_getElem hi.lt⟩
  have hget : tx.vin.getD i default = t := by rw [List.getD_eq_getElem?_getD, ht]; rfl
  unfold IssuesAt at hi
  rw [hget] at hi ⊢
  have hwt := h.vin t (List.mem_of_getElem? ht)
  generalize hiss : (if token then { t.assetIssuance with nInflationKeys := cv }
    else { t.assetIssuance with nAmount := cv } : Issuance) = iss
  have hno : ¬ NoIssue iss := by
    rw [← hiss]
    cases token
    · exact fun h => hne h.1
    · exact fun h => hne h.2
  have hwi : WFIssuance iss := by
    have hw := hwt.iss
    rw [← hiss] at hno ⊢
    cases token
    · exact ⟨hw.nonce, hw.entropy, hv, hw.keys, fun h => absurd h hno⟩
    · exact ⟨hw.nonce, hw.entropy, hw.amount, hv, fun h => absurd h hno⟩
  have hnew : WFIn { t with assetIssuance := iss } := by
    refine ⟨hwt.hash, hwt.script, hwt.seq, hwi, ?_⟩
    rcases hwt.index with ⟨_, _, hx⟩ | ⟨h1, h2⟩
    · exact absurd hx hi
    · exact .inr ⟨h1, fun hx => h2 ⟨hx.1, hx.2.1, hi⟩⟩
  refine { h with
    nin := by show (tx.vin.modify i _).length < _; rw [List.length_modify]; exact h.nin
    vin := ?_
    witin := by show _ = (tx.vin.modify i _).length; rw [List.length_modify]; exact h.witin }
  intro x hx
  obtain ⟨k, hk⟩ := List.mem_iff_getElem?.1 hx
  have hk : (tx.vin.modify i (fun t => { t with assetIssuance := iss }))[k]? = some x := hk
  by_cases hik : i = k
  · subst hik
    rw [List.getElem?_modify, ht] at hk
    have hk2 : (if i = i then { t with assetIssuance := iss } else t) = x := Option.some.inj hk
    rw [if_pos rfl] at hk2
    exact hk2 ▸ hnew
  · rw [getElem?_modify_ne _ _ hik] at hk
    exact h.vin x (List.mem_of_getElem? hk)

theorem padTo_full {α} {l : List α} {n : Nat} (x : α) (h : n ≤ l.length) : padTo l n x = l := by
  unfold padTo
  rw [Nat.sub_eq_zero_of_le h]; simp

theorem wf_padIn {i : Nat} {tx : Tx} (h : WFTx tx) (hi : i < tx.vin.length) :
    ({ tx with wit := { tx.wit with vtxinwit := padTo tx.wit.vtxinwit (i + 1) {} } } : Tx) = tx := by
  rw [padTo_full _ (by rw [h.witin]; omega)]

theorem wf_padOut {tx : Tx} (h : WFTx tx) :
    ({ tx with wit := { tx.wit with vtxoutwit := padTo tx.wit.vtxoutwit tx.vout.length {} } } : Tx) = tx := by
  rw [padTo_full _ (by rw [h.witout])]

/-! ### Whole runs -/

theorem wf_blindPseudo (C : Ctx) (W : WireSizes C.E.z) (i : Nat) (token : Bool) (key : Bytes) (amount : Int) (asset blind : Bytes) :
    Brings (fun t => WFTx t ∧ IssuesAt i t) (blindPseudo C i token key amount asset blind) WFTx := by
  unfold blindPseudo
  refine .modifyTx_bind (R := fun t => WFTx t ∧ IssuesAt i t) (fun t ht => by rw [wf_padIn ht.1 ht.2.lt]; exact ht) ?_
  refine .lift_bind (fun _ h => h.1) fun p _ => ?_
  obtain ⟨_, gen⟩ := p
  refine .lift_bind (fun _ h => h.1) fun p hcv => ?_
  obtain ⟨cv, com⟩ := p
  obtain ⟨hv, hne⟩ := createValueCommitment_valid hcv
  refine .get_bind fun s hs => ?_
  dsimp only
  refine .modifyTx_bind (R := WFTx) (fun t ht => by rw [ht]; exact wf_setIssuance hv hne hs.1 hs.2) ?_
  refine .lift_bind (fun _ h => h) fun nonce _ => .lift_bind (fun _ h => h) fun proof hp => ?_
  have hl := generateRangeproof_size W hp
  refine .modifyTx_bind (R := WFTx) (fun t ht => wf_setInWit (fun w hw => ?_) ht) (.modify (fun _ h => h) fun _ => rfl)
  cases token
  · exact { hw with amount := hl }
  · exact { hw with keys := hl }

theorem wf_issuancePseudo (C : Ctx) (W : WireSizes C.E.z) (i : Nat) (token : Bool) (key : Bytes) :
    Brings WFTx (issuancePseudo C i token key) WFTx := by
  unfold issuancePseudo
  refine .modify_bind (fun _ => rfl) (.get_bind fun s hs => ?_)
  dsimp only
  by_cases hn : confIsNull (if token then (s.tx.vin.getD i default).assetIssuance.nInflationKeys
      else (s.tx.vin.getD i default).assetIssuance.nAmount) = true
  · rw [if_pos hn]
    exact .pure (fun t ht => by rw [ht]; exact hs) _
  · rw [if_neg hn]
    have hi : IssuesAt i s.tx := by
      rintro ⟨h1, h2⟩
      rw [h1, h2] at hn
      cases token <;> exact hn rfl
    have hw : ∀ t, t = s.tx → WFTx t := fun t ht => by rw [ht]; exact hs
    refine .lift_bind hw fun amount _ => .modify_bind (fun _ => rfl) (.lift_bind hw fun a _ => ?_)
    cases a with
    | none => exact .pure hw _
    | some asset =>
      refine .rand_bind fun r => .lift_bind hw fun blind _ => .modify_bind (fun _ => rfl) (.get_bind fun s' hs' => ?_)
      split
      · exact .finish (fun t ht => by rw [ht, hs']; exact hs) C
      · exact (wf_blindPseudo C W i token key amount asset blind).weaken fun t ht => by
          rw [ht, hs']; exact ⟨hs, hi⟩

theorem wf_issuanceStep (C : Ctx) (W : WireSizes C.E.z) (i : Nat) (token : Bool) :
    Brings WFTx (issuanceStep C i token) WFTx := by
  unfold issuanceStep
  cases keyAt (if token then C.A.tokenKeys else C.A.assetKeys) i with
  | none => exact .pure (fun _ h => h) _
  | some key => exact wf_issuancePseudo C W i token key

theorem wf_issuanceLoop (C : Ctx) (W : WireSizes C.E.z) : ∀ n i, Brings WFTx (issuanceLoop C i n) WFTx
  | 0, _ => .pure (fun _ h => h) _
  | n + 1, i => .bind (wf_issuanceStep C W i false) (fun _ h => h) fun _ =>
      .bind (wf_issuanceStep C W i true) (fun _ h => h) fun _ => wf_issuanceLoop C W n (i + 1)

theorem wf_balance (C : Ctx) : Brings WFTx (balanceIfLast C) WFTx := by
  unfold balanceIfLast
  refine .get_bind fun s hs => ?_
  have hw : ∀ t, t = s.tx → WFTx t := fun t ht => by rw [ht]; exact hs
  split
  · unfold balance
    refine .get_bind fun s' hs' => ?_
    have hw' : ∀ t, t = s'.tx → WFTx t := fun t ht => hw t (ht.trans hs')
    split
    · exact .finish hw' C
    · split
      · exact .lift hw' _
      · split
        · exact .lift hw' _
        · refine .lift_bind hw' fun last _ => .modify_bind (fun _ => rfl) ?_
          split
          · exact .modify_bind (fun _ => rfl) (.finish hw' C)
          · exact .pure hw' _
  · exact .pure hw _

theorem wf_commitOutput (C : Ctx) (W : WireSizes C.E.z) (j : Nat) (pk script : Bytes) (amount : Int)
    (asset blind assetblind : Bytes) : Brings WFTx (commitOutput C j pk script amount asset blind assetblind) WFTx := by
  unfold commitOutput
  refine .modify_bind (fun _ => rfl) (.lift_bind (fun _ h => h) fun p hp => ?_)
  obtain ⟨ca, gen⟩ := p
  have hca := blindedAsset_valid hp
  refine .modifyTx_bind (R := WFTx) (fun t ht => wf_setOut (f := fun o => { o with nAsset := ca }) (fun _ ho => ⟨hca, ho.value, ho.nonce, ho.script⟩) ht)
    (.lift_bind (fun _ h => h) fun p hp => ?_)
  obtain ⟨cv, com⟩ := p
  have hcv := (createValueCommitment_valid hp).1
  refine .modifyTx_bind (R := WFTx) (fun t ht => wf_setOut (f := fun o => { o with nValue := cv }) (fun _ ho => ⟨ho.asset, hcv, ho.nonce, ho.script⟩) ht)
    (.rand_bind fun seed => .lift_bind (fun _ h => h) fun p hp => ?_)
  obtain ⟨nonce, eph⟩ := p
  refine .lift_bind (fun _ h => h) fun cn hc => ?_
  have hcn := nonce_valid W hp hc
  refine .modifyTx_bind (R := WFTx) (fun t ht => wf_setOut (f := fun o => { o with nNonce := cn }) (fun _ ho => ⟨ho.asset, ho.value, hcn, ho.script⟩) ht)
    (.lift_bind (fun _ h => h) fun rp hrp => .rand_bind fun seed => .lift_bind (fun _ h => h) fun sp hsp => ?_)
  have hrl := generateRangeproof_size W hrp
  cases sp with
  | none => exact .pure (fun _ h => h) _
  | some proof =>
    have hsl := surjectionProof_size W hsp
    dsimp only
    split
    · exact .pure (fun _ h => h) _
    · exact .modifyTx_bind (R := WFTx) (fun t ht => wf_setOutWit ⟨hsl, hrl⟩ ht) (.modify (fun _ h => h) fun _ => rfl)

theorem wf_outputStep (C : Ctx) (W : WireSizes C.E.z) (j : Nat) (pk : Bytes) : Brings WFTx (outputStep C j pk) WFTx := by
  unfold outputStep
  split
  · unfold outputBlind
    have id : ∀ t, WFTx t → WFTx t := fun _ h => h
    refine .modify_bind (fun _ => rfl) (.get_bind fun s hs => ?_)
    refine Brings.weaken (P' := WFTx) ?_ (fun t ht => by rw [ht]; exact hs)
    exact .lift_bind id fun amount _ => .lift_bind id fun asset _ => .modify_bind (fun _ => rfl) (.rand_bind fun _ =>
      .lift_bind id fun _ _ => .modify_bind (fun _ => rfl) (.rand_bind fun _ => .lift_bind id fun _ _ =>
      .modify_bind (fun _ => rfl) (.bind (wf_balance C) id fun _ => .get_bind fun s' hs' =>
        (wf_commitOutput C W j _ _ _ _ _ _).weaken fun t ht => by rw [ht]; exact hs')))
  · exact .pure (fun _ h => h) _

theorem wf_outputLoop (C : Ctx) (W : WireSizes C.E.z) : ∀ (pks : List Bytes) (j : Nat), Brings WFTx (outputLoop C j pks) WFTx
  | [], _ => .pure (fun _ h => h) _
  | pk :: rest, j => .bind (wf_outputStep C W j pk) (fun _ h => h) fun _ => wf_outputLoop C W rest (j + 1)

theorem wf_blindBody (C : Ctx) (W : WireSizes C.E.z) (n : Nat) : Brings WFTx (blindBody C n) WFTx := by
  unfold blindBody
  exact .bind (wf_issuanceLoop C W n 0) (fun _ h => h) fun _ =>
    .modifyTx_bind (R := WFTx) (fun t ht => by rw [wf_padOut ht]; exact ht)
      (.bind (wf_outputLoop C W C.A.pubkeys 0) (fun _ h => h) fun _ => .finish (fun _ h => h) C)

/-- Blinding a well-formed transaction leaves a well-formed one, whatever the result. -/
theorem blind_wf (E : Env) (W : WireSizes E.z) (A : BlindArgs) {tx : Tx} (h : WFTx tx) : WFTx (blindTransaction E A tx).2 := by
  unfold blindTransaction
  cases hc : checks E A tx with
  | error e => cases e <;> exact h
  | ok p =>
    obtain ⟨T, c⟩ := p
    exact wf_blindBody ⟨E, A, T, c.nBlindsIn, c.nToBlind⟩ W tx.vin.length (startState tx c) h

/-- C54, the full claim: a transaction whose fields fit the wire and whose witness lists are
full or empty, once blinded, can be written and read back unchanged. -/
def C54_statement : Prop :=
  ∀ (E : Env) (_ : WireSizes E.z) (A : BlindArgs) (tx tx' : Tx) (num : Nat) (bfs abfs : List Bytes),
    FitsWire tx → blindTransaction E A tx = (.ok (.success num bfs abfs), tx') → Survives tx'

/-- C54 for transactions with full witness lists, whatever blinding returned or raised. -/
theorem C54_survives_partial (E : Env) (W : WireSizes E.z) (A : BlindArgs) {tx : Tx} (h : WFTx tx) :
    ∃ b, serializeTx (blindTransaction E A tx).2 = .ok b ∧ deserializeTx b = .ok (blindTransaction E A tx).2 :=
  (C05_roundtrip _).2 (blind_wf E W A h)

/-- C54, recipients: what comes out of the bytes is unblinded by the key the pubkey of an output
belongs to, to its original asset and amount. -/
theorem C54_recipient_partial {E : Env} {A : BlindArgs} {tx tx' : Tx} {num bfs abfs} {j : Nat} {key : Bytes} (F : Formats E.z)
    (R : Rewinds E.z) (W : WireSizes E.z) (hw : WFTx tx)
    (h : blindTransaction E A tx = (.ok (.success num bfs abfs), tx')) (hj : A.pubkeys.getD j [] = E.z.pubOf key)
    (hk : E.z.secValid key = true) (hp : (tx'.outWit j).rangeproof ≠ []) :
    ∃ b t asset v, serializeTx tx' = .ok b ∧ deserializeTx b = .ok t ∧
      (tx.vout.getD j {}).nAsset = 1 :: asset ∧ (tx.vout.getD j {}).nValue = 1 :: v ∧ asset.length = 32 ∧ v.length = 8 ∧
      (beVal v ≤ 21 * 10 ^ 14 →
        unblind E key (t.vout.getD j {}).nValue (t.vout.getD j {}).nAsset (t.vout.getD j {}).nNonce
          (t.vout.getD j {}).scriptPubKey (t.outWit j).rangeproof
          = .ok (.success asset (beVal v) (bfs.getD j []) (abfs.getD j []))) := by
  have hs := C54_survives_partial E W A hw
  rw [h] at hs
  obtain ⟨b, h1, h2⟩ := hs
  have hne : E.z.pubOf key ≠ [] := by
    intro h0
    have := W.pubPrefix key hk
    rw [h0] at this
    simp at this
  obtain ⟨asset, v, h3⟩ := C36_unblinds F R h hj hk hp hne
  exact ⟨b, tx', asset, v, h1, h2, h3⟩

/-- A transaction built up by appending to an empty one: no witnesses at all. -/
def appendedTx : Tx := Toy.tx [(5, 3), (5, 4), (5, 1)]
def appendedArgs : BlindArgs :=
  { descs := [⟨Toy.b32 5, 8, Toy.b32 3, Toy.b32 4⟩], pubkeys := [Toy.pub 3, Toy.pub 4]
    rand := fun k => Toy.b32 (k + 5) }

theorem appendedTx_fits : FitsWire appendedTx := by
  refine ⟨?_, .inl rfl, .inl rfl⟩
  refine ⟨by decide, by decide, by decide, by decide, ?_, ?_, rfl, rfl, ?_, ?_⟩
  · intro i hi
    have : i = { prevout := ⟨Toy.b32 9, 0⟩ } := List.mem_singleton.1 hi
    subst this
    exact ⟨by decide, by decide, by decide, ⟨by decide, by decide, .inl rfl, .inl rfl, fun _ => rfl⟩,
      .inr ⟨by decide, by decide⟩⟩
  · intro o ho
    have hx : o.nNonce = [] ∧ o.scriptPubKey = [0x51] ∧ o.nAsset = Toy.ast 5 ∧ ∃ n, o.nValue = Toy.amt n := by
      have : o ∈ [(5, 3), (5, 4), (5, 1)].map fun x : Nat × Nat =>
        ({ nAsset := Toy.ast x.1, nValue := Toy.amt x.2, scriptPubKey := [0x51] } : TxOut) := ho
      simp only [List.map_cons, List.map_nil, List.mem_cons, List.not_mem_nil, or_false] at this
      rcases this with rfl | rfl | rfl <;> exact ⟨rfl, rfl, rfl, _, rfl⟩
    obtain ⟨h1, h2, h3, n, h4⟩ := hx
    refine ⟨?_, ?_, by rw [h1]; exact .inl rfl, by rw [h2]; decide⟩
    · rw [h3]; exact .inr (.inl ⟨by simp [Toy.ast], rfl⟩)
    · rw [h4]; exact .inr (.inl ⟨by simp [Toy.amt], rfl⟩)
  · intro w hw
    rw [List.eq_of_mem_replicate hw]
    exact ⟨by decide, by decide, ⟨by decide, by simp⟩, ⟨by decide, by simp⟩⟩
  · intro w hw
    rw [List.eq_of_mem_replicate hw]
    exact ⟨by decide, by decide⟩

/-- The full claim fails: blinding gives output witnesses to a transaction without input
witnesses; it is written without complaint and cannot be read. -/
theorem C54_statement_false : ¬ C54_statement := by
  intro h
  have hs : ∃ n b a, (blindTransaction Toy.env appendedArgs appendedTx).1 = .ok (.success n b a) := by
    have : (match (blindTransaction Toy.env appendedArgs appendedTx).1 with | .ok (.success _ _ _) => true | _ => false) = true := by
      decide +kernel
    split at this
    · rename_i hx; exact ⟨_, _, _, hx⟩
    · cases this
  obtain ⟨n, b, a, hs⟩ := hs
  have pair : ∀ {α β : Type} (p : α × β) (x : α), p.1 = x → p = (x, p.2) := by
    intro α β p x hx; rw [← hx]
  obtain ⟨w, t, h1, h2, _⟩ := h Toy.env Toy.wireSizes appendedArgs appendedTx (blindTransaction Toy.env appendedArgs appendedTx).2
    n b a appendedTx_fits (pair _ _ hs)
  have h3 : ((serializeTx (blindTransaction Toy.env appendedArgs appendedTx).2).bind deserializeTx).toOption.isNone = true := by
    decide +kernel
  rw [h1] at h3
  change (deserializeTx w).toOption.isNone = true at h3
  rw [h2] at h3
  cases h3

-- The same transaction with its witness lists filled in: blinded, written, read, unblinded.
def filledTx : Tx := { appendedTx with wit := emptyWitness 1 3 }
theorem filledTx_wf : WFTx filledTx := appendedTx_fits.fields
example : ∃ n b a, (blindTransaction Toy.env appendedArgs filledTx).1 = .ok (.success n b a) ∧
    ((blindTransaction Toy.env appendedArgs filledTx).2.outWit 0).rangeproof ≠ [] ∧
    ((blindTransaction Toy.env appendedArgs filledTx).2.outWit 1).rangeproof ≠ [] := by
  have : (match (blindTransaction Toy.env appendedArgs filledTx).1 with | .ok (.success _ _ _) => true | _ => false) = true := by
    decide +kernel
  split at this
  · rename_i hx; exact ⟨_, _, _, hx, by decide +kernel, by decide +kernel⟩
  · cases this

end Verif
