import Verif.Spec.SignAfter
import Verif.Props.BlindFrame
import Verif.Props.BlindWireAll
import Verif.Props.BalanceExact
import Mathlib.Data.List.Forall2
import Verif.Props.SighashV0
import Verif.Props.SighashBase
import Verif.Props.SighashTap
/-
C101: signatures made before blinding survive it exactly where they cover nothing that was hidden.
-/
namespace Verif
open Spec

/-! ### What is spared stays -/

theorem spared_in {A : BlindArgs} {t t' : Tx} (h : OnlyAsked A t t') {i : Nat} (h1 : ∀ k, A.assetKeys[i]? ≠ some (some k))
    (h2 : ∀ k, A.tokenKeys[i]? ≠ some (some k)) : t'.vin[i]? = t.vin[i]? := by
  have e0 := congrArg (fun l : List _ => l[i]?) h.inputs
  simp only [List.getElem?_map] at e0
  have e1 := h.amount i h1
  have e2 := h.tokens i h2
  cases hx : t.vin[i]? with
  | none => rw [hx] at e0; simpa using e0
  | some x =>
    cases hy : t'.vin[i]? with
    | none => rw [hx, hy] at e0; simp at e0
    | some y =>
      rw [hx, hy] at e0 e1 e2
      obtain ⟨p, s, q, ⟨n, e, a, k⟩, g⟩ := x
      obtain ⟨p', s', q', ⟨n', e', a', k'⟩, g'⟩ := y
      simp_all [TxIn.fixed]

theorem spared_inWit {A : BlindArgs} {t t' : Tx} (h : OnlyAsked A t t') {i : Nat} (h1 : ∀ k, A.assetKeys[i]? ≠ some (some k))
    (h2 : ∀ k, A.tokenKeys[i]? ≠ some (some k)) : t'.inWit i = t.inWit i := by
  have e1 := h.scriptWitness i
  have e2 := h.peginWitness i
  have e3 := h.amountProof i h1
  have e4 := h.tokensProof i h2
  cases hx : t.inWit i
  cases hy : t'.inWit i
  simp_all

theorem at_wit {α : Type} {l l' : List α} (d : α) (hl : l'.length = l.length) {i : Nat} (h : (l'[i]?).getD d = (l[i]?).getD d) :
    l'[i]? = l[i]? := by
  rcases Nat.lt_or_ge i l.length with hi | hi
  · rw [List.getElem?_eq_getElem hi, List.getElem?_eq_getElem (hl ▸ hi)] at h ⊢
    simpa using h
  · rw [List.getElem?_eq_none hi, List.getElem?_eq_none (hl ▸ hi)]

/-- Where nothing was issued nothing is, and the other way round. -/
theorem noIssue_after {E : Env} {A : BlindArgs} {tx tx' : Tx} {num bfs abfs} (h : blindTransaction E A tx = (.ok (.success num bfs abfs), tx'))
    (hsz : ∀ t ∈ tx.vin, InputSizes t) {k : Nat} {i j : TxIn} (hi : tx.vin[k]? = some i) (hj : tx'.vin[k]? = some j) :
    NoIssue i.assetIssuance ↔ NoIssue j.assetIssuance := by
  have key : ∀ token, i.issued token = [] ↔ j.issued token = [] := by
    intro token
    obtain ⟨bf, -, g⟩ := C35_issuances h hsz k token
    have ei : tx.vin.getD k default = i := by rw [List.getD_eq_getElem?_getD, hi]; rfl
    have ej : tx'.vin.getD k default = j := by rw [List.getD_eq_getElem?_getD, hj]; rfl
    cases g with
    | same g => rw [ei, ej] at g; rw [g]
    | hidden v gen com _ g1 _ _ _ g2 =>
      rw [ei] at g1
      rw [ej] at g2
      obtain ⟨b, g2 | g2, -⟩ := g2 <;> rw [g1, g2] <;> simp
  have h0 := key false
  have h1 := key true
  unfold NoIssue
  unfold TxIn.issued at h0 h1
  dsimp only at h0 h1
  rw [h0, h1]

/-! ### Witness v0 -/

/-- C101: a signature that covers nothing that was to be hidden survives blinding, whatever is returned or raised. -/
theorem C101_keeps_v0 (E : Env) (A : BlindArgs) (tx : Tx) (h : HashFn) (script : Bytes) (idx ht : Nat) (amount : Option Bytes)
    (hs : Spares A ht idx) :
    sighashV0 h script (blindTransaction E A tx).2 idx ht amount = sighashV0 h script tx idx ht amount := by
  have ho := C32_only_asked E A tx
  generalize (blindTransaction E A tx).2 = t' at ho
  have hin : ∀ i, CoversIn ht idx i → t'.vin[i]? = tx.vin[i]? := fun i hi => spared_in ho (hs.amounts i hi) (hs.tokens i hi)
  have hvin : ¬ AnyoneCanPay ht → t'.vin = tx.vin := fun hn => List.ext_getElem? fun i => hin i (.inl hn)
  refine C14_free h script amount ht t' tx idx idx ho.version ho.lockTime (by rw [hin idx (.inr rfl)]) (fun hn => by rw [hvin hn])
    (fun hn _ => by rw [hvin hn]) (fun ha => List.ext_getElem? fun j => ho.outputs j (hs.outputs j (.inl ha)))
    fun hg => ho.outputs idx (hs.outputs idx (.inr ⟨hg, rfl⟩))

/-- C101: a signature that covers an output or an issuance that was hidden does not: the hash is another, or a collision is shown (or, with
SINGLE, a string whose hash is zero). -/
theorem C101_breaks_v0 {E : Env} {A : BlindArgs} {tx tx' : Tx} {num bfs abfs} (W : WireSizes E.z) (hw : WFTx tx)
    (hb : blindTransaction E A tx = (.ok (.success num bfs abfs), tx')) (h : HashFn) {script : Bytes} (idx ht : Nat)
    {amount : Bytes} (hs : script.length ≤ maxItem) (ha : ValidField 9 8 9 amount) (hh : Hit ht idx tx tx') {d : Bytes}
    (h1 : sighashV0 h script tx idx ht (some amount) = .ok d) (h2 : sighashV0 h script tx' idx ht (some amount) = .ok d) :
    V0Collision h ⟨script, tx, idx, ht, amount⟩ ⟨script, tx', idx, ht, amount⟩ ∨
    OutSingle ht ∧ V0Zero h ⟨script, tx, idx, ht, amount⟩ ⟨script, tx', idx, ht, amount⟩ := by
  have hw' := blind_wf E W A hw
  rw [hb] at hw'
  dsimp only at hw'
  rcases C14_covered (c := ⟨script, tx, idx, ht, amount⟩) (d := ⟨script, tx', idx, ht, amount⟩)
    ⟨hw.vout, fun i hi => (hw.vin i hi).iss, ha, hs⟩ ⟨hw'.vout, fun i hi => (hw'.vin i hi).iss, ha, hs⟩ h1 h2 with g | g
  · exfalso
    rcases hh with ⟨j, hj | ⟨hj, rfl⟩, hne⟩ | ⟨i, hi | rfl, hne⟩
    · exact hne (by rw [show tx.vout = tx'.vout from g.outputs hj])
    · exact hne (g.output hj).symm
    · have := g.issuances hi fun k i j e1 e2 => noIssue_after hb (wf_inputSizes hw) e1 e2
      dsimp only at this
      exact hne (by rw [← List.getElem?_map, ← List.getElem?_map, this])
    · obtain ⟨i, j, e1, e2, -, -, e3⟩ := g.signed
      dsimp only at e1 e2
      exact hne (by rw [e1, e2]; simp [e3])
  · exact g

/-! ### Legacy -/

theorem base_congr (h : HashFn) (script : Bytes) (tx t' : Tx) (idx ht : Nat) (hv : t'.nVersion = tx.nVersion) (hl : t'.nLockTime = tx.nLockTime)
    (hni : t'.vin.length = tx.vin.length) (hno : t'.vout.length = tx.vout.length)
    (hi : ∀ code, legacyInputs code t'.vin idx ht = legacyInputs code tx.vin idx ht)
    (ho : legacyOutputs t'.vout idx ht = legacyOutputs tx.vout idx ht) :
    sighashBase h script t' idx ht = sighashBase h script tx idx ht := by
  unfold sighashBase
  rw [hni, hno]
  by_cases h1 : tx.vin.length ≤ idx
  · rw [if_pos (by omega), if_pos (by omega)]
  · rw [if_neg (by omega), if_neg (by omega)]
    have h1 : idx < tx.vin.length := by omega
    have h1' : idx < t'.vin.length := by omega
    rw [pyGet_nat_ok.2 (List.getElem?_eq_getElem h1), ok_bind, pyGet_nat_ok.2 (List.getElem?_eq_getElem h1'), ok_bind]
    congr 1
    funext code
    by_cases h2 : (htSingle ht && decide ((idx : Int) ≥ tx.vout.length)) = true
    · simp only [if_pos h2]
    · simp only [if_neg h2]
      have h3 : OutSingle ht → idx < tx.vout.length := by
        intro g
        rw [Bool.and_eq_true, htSingle_iff] at h2
        simp only [decide_eq_true_eq] at h2
        have : ¬ ((idx : Int) ≥ tx.vout.length) := fun q => h2 ⟨g, q⟩
        omega
      rw [legacyOutputs_eq tx idx ht h3, legacyOutputs_eq t' idx ht (fun g => hno ▸ h3 g), ok_bind, ok_bind,
        legacyInputs_eq code tx idx ht h1, legacyInputs_eq code t' idx ht h1', ok_bind, ok_bind, hi, ho, hv, hl]

/-- C101: the same of legacy signatures. -/
theorem C101_keeps_base (E : Env) (A : BlindArgs) (tx : Tx) (h : HashFn) (script : Bytes) (idx ht : Nat) (hs : Spares A ht idx) :
    sighashBase h script (blindTransaction E A tx).2 idx ht = sighashBase h script tx idx ht := by
  have ho := C32_only_asked E A tx
  have hn := C32_counts E A tx
  generalize (blindTransaction E A tx).2 = t' at ho hn
  have hin : ∀ i, CoversIn ht idx i → t'.vin[i]? = tx.vin[i]? := fun i hi => spared_in ho (hs.amounts i hi) (hs.tokens i hi)
  refine base_congr h script tx t' idx ht ho.version ho.lockTime hn.1 hn.2 (fun code => ?_) ?_
  · unfold legacyInputs
    split
    · rw [hin idx (.inr rfl)]
    · next ha => rw [show t'.vin = tx.vin from List.ext_getElem? fun i => hin i (.inl ha)]
  · unfold legacyOutputs
    split
    · rfl
    · next h1 =>
      split
      · next h2 => rw [ho.outputs idx (hs.outputs idx (.inr ⟨h2, rfl⟩))]
      · next h2 => exact List.ext_getElem? fun j => ho.outputs j (hs.outputs j (.inl ⟨h1, h2⟩))

/-- Inputs that differ in what they issue, but not in whether they do, are told apart by what is written of them. -/
theorem sigIns_unique {xs ys : List TxIn} (hxy : List.Forall₂ (fun x y : TxIn => x.prevout.hash = y.prevout.hash ∧
      (NoIssue x.assetIssuance ↔ NoIssue y.assetIssuance) ∧ (NoIssue x.assetIssuance → x.assetIssuance = y.assetIssuance)) xs ys) :
    ∀ {b b' r r' : Bytes}, SeqEnc SigInEnc xs b → SeqEnc SigInEnc ys b' → b ++ r = b' ++ r' →
      xs.map (·.assetIssuance) = ys.map (·.assetIssuance) ∧ r = r' := by
  induction hxy with
  | nil =>
    intro b b' r r' h1 h2 e
    cases h1
    cases h2
    exact ⟨rfl, e⟩
  | @cons x y xs ys hx _ ih =>
    intro b b' r r' h1 h2 e
    cases h1 with
    | cons h1 h1' =>
    cases h2 with
    | cons h2 h2' =>
    obtain ⟨p, s, q, t, u1, u2, u3, u4, rfl⟩ := h1
    obtain ⟨p', s', q', t', v1, v2, v3, v4, rfl⟩ := h2
    rw [hx.1] at e
    simp only [List.append_assoc, List.append_cancel_left_eq] at e
    obtain ⟨-, -, e⟩ := (Reads.readU (by decide)).unique u1 v1 e
    have hm : ∀ {a b}, BytesEnc VarIntMin a b → BytesEnc VarIntEnc a b := fun ⟨l, a, b⟩ => ⟨l, a.1, b⟩
    obtain ⟨-, -, e⟩ := Reads.readVarBytes.unique (hm u2) (hm v2) e
    obtain ⟨-, -, e⟩ := (Reads.readU (by decide)).unique u3 v3 e
    rcases u4 with ⟨n1, rfl⟩ | ⟨n1, u4⟩ <;> rcases v4 with ⟨n2, rfl⟩ | ⟨n2, v4⟩
    · obtain ⟨g1, g2⟩ := ih h1' h2' (by simpa using e)
      exact ⟨by rw [List.map_cons, List.map_cons, g1, hx.2.2 n1], g2⟩
    · exact absurd (hx.2.1.1 n1) n2
    · exact absurd (hx.2.1.2 n2) n1
    · obtain ⟨g0, -, e⟩ := Codec.readIssuance.1.unique u4 v4 e
      obtain ⟨g1, g2⟩ := ih h1' h2' e
      exact ⟨by rw [List.map_cons, List.map_cons, g1, g0], g2⟩

theorem legacyInputs_issued (code : Bytes) (idx ht i : Nat) (hi : CoversIn ht idx i) :
    ∃ k : Nat, ∀ vin' : List TxIn, (legacyInputs code vin' idx ht)[k]?.map (·.assetIssuance) = vin'[i]?.map (·.assetIssuance) := by
  by_cases ha : AnyoneCanPay ht
  · obtain rfl : i = idx := hi.resolve_left (not_not.2 ha)
    refine ⟨0, fun vin' => ?_⟩
    unfold legacyInputs
    rw [if_pos ha]
    cases vin'[i]? <;> rfl
  · refine ⟨i, fun vin' => ?_⟩
    unfold legacyInputs
    rw [if_neg ha, List.getElem?_mapIdx]
    cases vin'[i]? with
    | none => rfl
    | some x => simp only [Option.map_some]; split <;> rfl

/-- C101: a legacy signature that covers an output or an issuance that was hidden does not survive, unless a collision is shown. -/
theorem C101_breaks_base {E : Env} {A : BlindArgs} {tx tx' : Tx} {num bfs abfs} (W : WireSizes E.z) (hw : WFTx tx)
    (hb : blindTransaction E A tx = (.ok (.success num bfs abfs), tx')) (h : HashFn) {script : Bytes} (idx ht : Nat)
    (hs : script.length ≤ maxItem) (hh : Hit ht idx tx tx') {d : Bytes}
    (h1 : sighashBase h script tx idx ht = .ok (d, false)) (h2 : sighashBase h script tx' idx ht = .ok (d, false)) :
    LegacyCollision h script tx tx' idx ht := by
  have hw' := blind_wf E W A hw
  have ho := C32_only_asked E A tx
  have hn := C32_counts E A tx
  rw [hb] at hw' ho hn
  dsimp only at hw' ho hn
  obtain ⟨l1, l2, code, x, c1, p1, rfl⟩ := (C19_hash h none hw hs d).1 h1
  obtain ⟨-, l4, code', y, c2, p2, e⟩ := (C19_hash h none hw' hs _).1 h2
  obtain rfl : code = code' := by
    have a := legacyScriptCode_iff.2 c1
    rw [legacyScriptCode_iff.2 c2] at a
    exact (Except.ok.inj a).symm
  refine ⟨code, x, y, c1, p1, p2, (dbl_inj_or e).resolve_left ?_⟩
  rintro rfl
  have hfix : ∀ (k : Nat) (i j : TxIn), tx.vin[k]? = some i → tx'.vin[k]? = some j → i.fixed = j.fixed := by
    intro k i j e1 e2
    have := congrArg (fun l : List _ => l[k]?) ho.inputs
    simp only [List.getElem?_map, e1, e2, Option.map_some] at this
    exact (Option.some.inj this).symm
  have rel : ∀ (k : Nat) (i j : TxIn), tx.vin[k]? = some i → tx'.vin[k]? = some j → i.prevout.hash = j.prevout.hash ∧
      (NoIssue i.assetIssuance ↔ NoIssue j.assetIssuance) ∧ (NoIssue i.assetIssuance → i.assetIssuance = j.assetIssuance) := by
    intro k i j e1 e2
    have hf := hfix k i j e1 e2
    have hni := noIssue_after hb (wf_inputSizes hw) e1 e2
    obtain ⟨p, s, q, ⟨n, e, a, m⟩, g⟩ := i
    obtain ⟨p', s', q', ⟨n', e', a', m'⟩, g'⟩ := j
    simp only [TxIn.fixed, Prod.mk.injEq] at hf
    obtain ⟨rfl, -, -, -, rfl, rfl⟩ := hf
    refine ⟨rfl, hni, fun g => ?_⟩
    have g' := hni.1 g
    unfold NoIssue at g g'
    dsimp only at g g'
    rw [g.1, g.2, g'.1, g'.2]
  have hF : List.Forall₂ (fun x y : TxIn => x.prevout.hash = y.prevout.hash ∧ (NoIssue x.assetIssuance ↔ NoIssue y.assetIssuance) ∧
      (NoIssue x.assetIssuance → x.assetIssuance = y.assetIssuance)) (legacyInputs code tx.vin idx ht) (legacyInputs code tx'.vin idx ht) := by
    unfold legacyInputs
    split
    · have l1' : idx < tx'.vin.length := hn.1 ▸ l1
      rw [List.getElem?_eq_getElem l1, List.getElem?_eq_getElem l1']
      have := rel idx _ _ (List.getElem?_eq_getElem l1) (List.getElem?_eq_getElem l1')
      exact .cons this .nil
    · rw [List.forall₂_iff_get]
      refine ⟨by simp [hn.1], fun k k1 k2 => ?_⟩
      simp only [List.length_mapIdx] at k1 k2
      have := rel k _ _ (List.getElem?_eq_getElem k1) (List.getElem?_eq_getElem k2)
      simp only [List.get_eq_getElem, List.getElem_mapIdx]
      split <;> exact this
  obtain ⟨v, i, o, l, q, v1, i1, o1, -, -, rfl⟩ := p1
  obtain ⟨v', i', o', l', q', v2, i2, o2, -, -, e⟩ := p2
  simp only [List.append_assoc] at e
  obtain ⟨-, -, e⟩ := (Reads.readS (by decide)).unique v1 v2 e
  obtain ⟨a1, b1, w1, s1, rfl⟩ := i1
  obtain ⟨a2, b2, w2, s2, rfl⟩ := i2
  simp only [List.append_assoc] at e
  obtain ⟨-, -, e⟩ := Reads.readVarInt.unique w1.1 w2.1 e
  obtain ⟨hiss, e⟩ := sigIns_unique hF s1 s2 e
  have hr := fun {xs b} (g : VecEnc VarIntMin (TxOutEnc true) xs b) => VecEnc.mono (fun _ _ => VarIntMin.enc) (fun _ _ _ => txOutEnc_relax) g
  have heq := ((Codec.readVec Codec.readTxOut).1.unique (hr o1) (hr o2) e).1
  rcases hh with ⟨j, hj, hne⟩ | ⟨k, hk, hne⟩
  · apply hne
    unfold legacyOutputs at heq
    rcases hj with hj | ⟨hj, rfl⟩
    · rw [if_neg hj.1, if_neg hj.1, if_neg hj.2, if_neg hj.2] at heq
      rw [heq]
    · have hnn : ¬ OutNone ht := by unfold OutSingle at hj; unfold OutNone; omega
      rw [if_neg hnn, if_neg hnn, if_pos hj, if_pos hj, List.append_cancel_left_eq] at heq
      have l2 := l2 hj
      have l4 := l4 hj
      rw [List.getElem?_eq_getElem l2, List.getElem?_eq_getElem l4] at heq ⊢
      simpa using heq.symm
  · obtain ⟨n, hn⟩ := legacyInputs_issued code idx ht k hk
    apply hne
    rw [← hn tx.vin, ← hn tx'.vin, ← List.getElem?_map, ← List.getElem?_map, hiss]

/-! ### Taproot -/

/-- C101: a taproot signature that covers nothing that was to be hidden survives the blinding of a transaction with complete witness lists. -/
theorem C101_keeps_tap (E : Env) (W : WireSizes E.z) (A : BlindArgs) (h : HashFn) (c : TapCall) (hw : WFTx c.tx) (hs : TapSpares A c) :
    TapCall.digest h { c with tx := (blindTransaction E A c.tx).2 } = c.digest h := by
  have hw' := blind_wf E W A hw
  have ho := C32_only_asked E A c.tx
  have hn := C32_counts E A c.tx
  obtain ⟨tx, idx, spent, a⟩ := c
  dsimp only at *
  generalize (blindTransaction E A tx).2 = t' at *
  have hin : ∀ i, ¬ TapCall.acp ⟨tx, idx, spent, a⟩ ∨ i = idx → t'.vin[i]? = tx.vin[i]? := fun i hi => spared_in ho (hs.amounts i hi) (hs.tokens i hi)
  have hiw : ∀ i, ¬ TapCall.acp ⟨tx, idx, spent, a⟩ ∨ i = idx → t'.wit.vtxinwit[i]? = tx.wit.vtxinwit[i]? := fun i hi =>
    at_wit ({} : TxInWitness) (by rw [hw'.witin, hw.witin, hn.1]) (spared_inWit ho (hs.amounts i hi) (hs.tokens i hi))
  have hout : ∀ j, TapCall.all ⟨tx, idx, spent, a⟩ ∨ TapCall.single ⟨tx, idx, spent, a⟩ ∧ j = idx → t'.vout[j]? = tx.vout[j]? := fun j hj =>
    ho.outputs j (hs.outputs j hj)
  have how : ∀ j, TapCall.all ⟨tx, idx, spent, a⟩ ∨ TapCall.single ⟨tx, idx, spent, a⟩ ∧ j = idx →
      t'.wit.vtxoutwit[j]? = tx.wit.vtxoutwit[j]? := fun j hj =>
    at_wit ({} : TxOutWitness) (by rw [hw'.witout, hw.witout, hn.2]) (ho.outputWitness j (hs.outputs j hj))
  have hacp : a.ht.acp = false → ¬ TapCall.acp ⟨tx, idx, spent, a⟩ := by
    rintro e ⟨t, e1, e2⟩
    dsimp only at e1
    rw [TapArgs.ht, e1] at e
    simp [e2] at e
  have hall : a.ht.out = .all → TapCall.all ⟨tx, idx, spent, a⟩ := by
    intro e t e1
    dsimp only at e1
    rw [TapArgs.ht, e1] at e
    exact e
  have hsingle : a.ht.out = .single → TapCall.single ⟨tx, idx, spent, a⟩ := by
    intro e
    rw [TapArgs.ht] at e
    cases e1 : a.hashtype with
    | none => rw [e1] at e; cases e
    | some t => rw [e1] at e; exact ⟨t, e1, e⟩
  have p1 : optPart (!a.ht.acp) (tapInputs t' spent) = optPart (!a.ht.acp) (tapInputs tx spent) := by
    cases e : a.ht.acp with
    | true => rfl
    | false =>
      have e1 : t'.vin = tx.vin := List.ext_getElem? fun i => hin i (.inl (hacp e))
      have e2 : t'.wit.vtxinwit = tx.wit.vtxinwit := List.ext_getElem? fun i => hiw i (.inl (hacp e))
      unfold tapInputs
      rw [e1, e2]
  have p2 : optPart (a.ht.out == .all) (tapOutputs t') = optPart (a.ht.out == .all) (tapOutputs tx) := by
    by_cases e : a.ht.out = .all
    · have e1 : t'.vout = tx.vout := List.ext_getElem? fun j => hout j (.inl (hall e))
      have e2 : t'.wit.vtxoutwit = tx.wit.vtxoutwit := List.ext_getElem? fun j => how j (.inl (hall e))
      unfold tapOutputs
      rw [e1, e2]
    · unfold optPart
      rw [if_neg (by simpa using e), if_neg (by simpa using e)]
  have get : ∀ {α : Type} {l l' : List α} (k : Nat), l'[k]? = l[k]? → pyGet l' (k : Int) = pyGet l (k : Int) := by
    intro α l l' k e
    unfold pyGet
    have hk : ¬ ((k : Int) < 0) := by omega
    simp only [if_neg hk, Int.toNat_natCast, e]
  have p3 : tapSigned t' idx spent = tapSigned tx idx spent := by
    unfold tapSigned tapSignedIssuance
    rw [get idx (hin idx (.inr rfl)), get idx (hiw idx (.inr rfl))]
  have p4 : optPart (a.ht.out == .single) (tapSingle t' idx) = optPart (a.ht.out == .single) (tapSingle tx idx) := by
    by_cases e : a.ht.out = .single
    · unfold tapSingle
      rw [get idx (hout idx (.inr ⟨hsingle e, rfl⟩)), get idx (how idx (.inr ⟨hsingle e, rfl⟩)), hn.2]
    · unfold optPart
      rw [if_neg (by simpa using e), if_neg (by simpa using e)]
  unfold TapCall.digest sighashSchnorr
  dsimp only
  have p5 : tapCheck t' idx spent a = tapCheck tx idx spent a := by unfold tapCheck; rw [hn.1]
  have p6 : ∀ ext p, tapMessage h t' idx a ext p = tapMessage h tx idx a ext p := by
    intro ext p
    unfold tapMessage
    rw [ho.version, ho.lockTime]
  have p7 : tapParts t' idx spent a.ht = tapParts tx idx spent a.ht := by
    unfold tapParts
    rw [p1, p2, p3, p4]
  simp only [Int.toNat_natCast, p5, p6, p7]

/-- C101: a taproot signature that covers all inputs, and an output that was hidden, or any issuance, does not survive, unless a collision is
shown. -/
theorem C101_breaks_tap (E : Env) (W : WireSizes E.z) (A : BlindArgs) (h : HashFn) (c : TapCall) (hw : WFTx c.tx) (hsp : ∀ o ∈ c.spent, WFOut o)
    (hacp : ¬ c.acp)
    (hh : (∃ j, (c.all ∨ c.single ∧ j = c.idx) ∧ (blindTransaction E A c.tx).2.vout[j]? ≠ c.tx.vout[j]?) ∨
      (blindTransaction E A c.tx).2.vin.map (·.assetIssuance) ≠ c.tx.vin.map (·.assetIssuance)) {d : Bytes}
    (h1 : c.digest h = .ok d) (h2 : TapCall.digest h { c with tx := (blindTransaction E A c.tx).2 } = .ok d) :
    TapCollision h c { c with tx := (blindTransaction E A c.tx).2 } := by
  have hw' := blind_wf E W A hw
  generalize (blindTransaction E A c.tx).2 = t' at *
  refine (C16_tap_commits (c := c) (d := { c with tx := t' }) ⟨fun i hi => (hw.vin i hi).iss, hw.vout, hsp, hw.vtxinwit, hw.vtxoutwit⟩
    ⟨fun i hi => (hw'.vin i hi).iss, hw'.vout, hsp, hw'.vtxinwit, hw'.vtxoutwit⟩ hacp h1 h2).resolve_left ?_
  rintro ⟨-, gi, ga, gs⟩
  rcases hh with ⟨j, hj | ⟨hj, rfl⟩, hne⟩ | hne
  · exact hne (by rw [show c.tx.vout = t'.vout from (ga hj).outputs])
  · obtain ⟨o, e1, e2⟩ := (gs hj).output
    exact hne (by rw [e1]; exact e2)
  · exact hne gi.issuances.symm

/-- C101: nor does one with ANYONECANPAY that covers an output that was hidden, if the issuance of the signed input was not to be hidden (see
C17 for what the lengths of its proofs have to do with it). -/
theorem C101_breaks_tap_acp (E : Env) (W : WireSizes E.z) (A : BlindArgs) (h : HashFn) (c : TapCall) (hw : WFTx c.tx) (hsp : ∀ o ∈ c.spent, WFOut o)
    (hacp : c.acp) (hk : ∀ k, A.assetKeys[c.idx]? ≠ some (some k))
    {j : Nat} (hj : c.all ∨ c.single ∧ j = c.idx) (hne : (blindTransaction E A c.tx).2.vout[j]? ≠ c.tx.vout[j]?) {d : Bytes}
    (h1 : c.digest h = .ok d) (h2 : TapCall.digest h { c with tx := (blindTransaction E A c.tx).2 } = .ok d) :
    TapCollision h c { c with tx := (blindTransaction E A c.tx).2 } := by
  have hw' := blind_wf E W A hw
  have ho := C32_only_asked E A c.tx
  generalize (blindTransaction E A c.tx).2 = t' at *
  refine (C17_tap_acp_commits_partial (c := c) (d := { c with tx := t' }) ⟨fun i hi => (hw.vin i hi).iss, hw.vout, hsp, hw.vtxinwit, hw.vtxoutwit⟩
    ⟨fun i hi => (hw'.vin i hi).iss, hw'.vout, hsp, hw'.vtxinwit, hw'.vtxoutwit⟩ hacp h1 h2 ?_ ?_).resolve_left ?_
  · intro i s t _ _ e1 e2
    dsimp only at e2
    rw [e1] at e2
    rw [Option.some.inj e2]
  · intro i w x _ _ e1 e2
    dsimp only at e2
    have := ho.amountProof c.idx hk
    unfold Tx.inWit at this
    rw [e1, e2] at this
    exact congrArg List.length this.symm
  rintro ⟨-, -, ga, gs⟩
  rcases hj with hj | ⟨hj, rfl⟩
  · exact hne (by rw [show c.tx.vout = t'.vout from (ga hj).outputs])
  · obtain ⟨o, e1, e2⟩ := (gs hj).output
    exact hne (by rw [e1]; exact e2)

/-! ### What strict blinding hides -/

/-- C101: strict success changes every output it was asked to hide, except the last if that was left as it was. -/
theorem C101_strict {E : Env} {A : BlindArgs} {tx tx' : Tx} {num bfs abfs} (h : blindTransaction E A tx = (.ok (.success num bfs abfs), tx'))
    (hst : A.strict = true) (hsz : ∀ i ∈ tx.vin, InputSizes i) {j : Nat} (hj : A.pubkeys.getD j [] ≠ []) :
    tx'.vout[j]? ≠ tx.vout[j]? ∨ LastAsked A j ∧ Untouched tx tx' j := by
  rcases (C33_strict h hst hsz).2.2 j hj with hb | ⟨v, h1, h2, -⟩
  · left
    intro e
    obtain ⟨⟨b, hb1, -⟩, ⟨asset, v, gen, com, seed, x, a, p, hh, -⟩, -⟩ := hb
    have e' : tx'.vout.getD j {} = tx.vout.getD j {} := by rw [List.getD_eq_getElem?_getD, List.getD_eq_getElem?_getD, e]
    have := hh.explicitValue
    rw [e', this] at hb1
    rcases hb1 with hb1 | hb1 <;> cases hb1
  · exact .inr ⟨h1, h2⟩

/-- Two outputs are hidden: a signature with NONE survives, one with ALL or SINGLE is hit, and there are such hashes before and after. -/
example (h : HashFn) : WFTx filledTx ∧ Spares appendedArgs 2 0 ∧
    Hit 1 0 filledTx (blindTransaction Toy.env appendedArgs filledTx).2 ∧ Hit 3 0 filledTx (blindTransaction Toy.env appendedArgs filledTx).2 ∧
    ∀ ht ∈ [1, 2, 3], (∃ d, sighashV0 h [] filledTx 0 ht (some (Toy.amt 8)) = .ok d) ∧
      ∃ d, sighashV0 h [] (blindTransaction Toy.env appendedArgs filledTx).2 0 ht (some (Toy.amt 8)) = .ok d := by
  have hne : (blindTransaction Toy.env appendedArgs filledTx).2.vout[0]? ≠ filledTx.vout[0]? := by decide +kernel
  refine ⟨filledTx_wf, ⟨?_, ?_, ?_⟩, .inl ⟨0, .inl (by decide), hne⟩, .inl ⟨0, .inr ⟨by decide, rfl⟩, hne⟩, ?_⟩
  · rintro j (hj | ⟨hj, -⟩)
    · exact absurd hj (by decide)
    · exact absurd hj (by decide)
  · rintro i - k hk; simp [appendedArgs] at hk
  · rintro i - k hk; simp [appendedArgs] at hk
  · intro ht hht
    have hlt : ht < 256 := by
      simp only [List.mem_cons, List.not_mem_nil, or_false] at hht
      omega
    exact ⟨C15_total_partial h [] _ 0 ht _ filledTx_wf (by decide) hlt (by decide) (by decide),
      C15_total_partial h [] _ 0 ht _ (blind_wf Toy.env Toy.wireSizes appendedArgs filledTx_wf) (by rw [(C32_counts _ _ _).1]; decide) hlt
        (by decide) (by rw [(C32_only_asked _ _ _).lockTime]; decide)⟩

/-- Blinding the two outputs succeeds. -/
example : ∃ b a t', blindTransaction Toy.env appendedArgs filledTx = (.ok (.success 2 b a), t') := success_of (by decide +kernel)

/-- An issued amount is hidden with success: a signature with NONE is hit too. -/
example : ∃ b a t', blindTransaction Toy.env Toy.amountOnly (fillWitness Toy.tokenTx) = (.ok (.success 2 b a), t') ∧
    WFTx (fillWitness Toy.tokenTx) ∧ Hit 2 0 (fillWitness Toy.tokenTx) t' := by
  obtain ⟨b, a, t', hx⟩ := success_of (x := blindTransaction Toy.env Toy.amountOnly (fillWitness Toy.tokenTx)) (n := 2) (by decide +kernel)
  refine ⟨b, a, t', hx, Toy.tokenTx_fits, .inr ⟨0, .inr rfl, ?_⟩⟩
  rw [show t' = (blindTransaction Toy.env Toy.amountOnly (fillWitness Toy.tokenTx)).2 by rw [hx]]
  decide +kernel

end Verif
