import Verif.Props.SighashTap
/-
C18: which calls of the taproot signature hash are answered.
-/
namespace Verif
open Spec

/-- The conditions on the arguments of a taproot signature hash. -/
structure TapArgsOk (tx : Tx) (idx : Int) (spent : List TxOut) (a : TapArgs) : Prop where
  index : 0 ≤ idx ∧ idx < tx.vin.length
  spent : spent.length = tx.vin.length
  genesis : a.genesisHash.length = 32
  tapleaf : ∀ l, a.tapleafHash = some l → l.length = 32
  annex : ∀ l, a.annexHash = some l → l.length = 32
  version : a.sigversion = .taproot ∨ a.sigversion = .tapscript
  script : a.sigversion = .tapscript → ∃ l c, a.tapleafHash = some l ∧ a.codeseparatorPos = some c ∧
    -2147483648 ≤ c ∧ c < 2147483648
  /-- there is an output to sign under SINGLE -/
  single : (∃ t, a.hashtype = some t ∧ t.out = .single) → idx < tx.vout.length

/-- The witness vectors reach as far as they are hashed. -/
structure TapWitnessOk (tx : Tx) (idx : Int) (a : TapArgs) : Prop where
  inputs : ¬ (∃ t, a.hashtype = some t ∧ t.acp = true) → tx.vin.length ≤ tx.wit.vtxinwit.length
  signed : (∃ t, a.hashtype = some t ∧ t.acp = true) → (∃ i, tx.vin[idx.toNat]? = some i ∧ ¬ NoIssue i.assetIssuance) →
    idx < tx.wit.vtxinwit.length
  outputs : (∀ t, a.hashtype = some t → t.out = .all) → tx.vout.length ≤ tx.wit.vtxoutwit.length
  single : (∃ t, a.hashtype = some t ∧ t.out = .single) → idx < tx.wit.vtxoutwit.length

theorem badHash_false {x : Option Bytes} : badHash x = false ↔ ∀ l, x = some l → l.length = 32 := by
  cases x <;> simp [badHash]

theorem tapCheck_neg {tx : Tx} {i : Int} {spent : List TxOut} {a : TapArgs} (h : i < 0) :
    tapCheck tx i spent a = .error .valueError := by
  unfold tapCheck; rw [if_pos h]

theorem packS4_range {c : Int} {p : Bytes} (h : packS 4 c = .ok p) : -2147483648 ≤ c ∧ c < 2147483648 := by
  have := (packS_ok.1 h).1
  simp [inRangeS] at this
  omega

/-- C18: a hash is produced only for valid arguments and sufficient witnesses. -/
theorem C18_only_valid {h : HashFn} {tx : Tx} {idx : Int} {spent : List TxOut} {a : TapArgs} {dig : Bytes}
    (e : sighashSchnorr h tx idx spent a = .ok dig) : TapArgsOk tx idx spent a ∧ TapWitnessOk tx idx a := by
  by_cases hn : idx < 0
  · unfold sighashSchnorr at e
    rw [tapCheck_neg hn] at e
    cases e
  obtain ⟨k, rfl⟩ := Int.eq_ofNat_of_zero_le (by omega : 0 ≤ idx)
  obtain ⟨r⟩ := tapRun (c := ⟨tx, k, spent, a⟩) e
  obtain ⟨c1, c2, c3, c4, c5, c6⟩ := tapCheck_ok.1 r.hcheck
  obtain ⟨p1, p2, p3, p4⟩ := tapParts_ok r.hparts
  simp only at c1 c2 c3 c4 c5 c6 p1 p2 p3 p4
  have hacp : a.ht.acp = true ↔ ∃ t, a.hashtype = some t ∧ t.acp = true := acp_iff (c := ⟨tx, k, spent, a⟩)
  have hall := all_iff (c := ⟨tx, k, spent, a⟩)
  have hsing := single_iff (c := ⟨tx, k, spent, a⟩)
  have single : (∃ t, a.hashtype = some t ∧ t.out = .single) →
      ∃ o w, tx.vout[k]? = some o ∧ tx.wit.vtxoutwit[k]? = some w := by
    intro hs
    rcases optPart_ok p4 with ⟨_, q, hq, _⟩ | ⟨hf, _⟩
    · obtain ⟨o, w, ho, hw, _⟩ := tapSingle_ok hq
      exact ⟨o, w, ho, hw⟩
    · rw [hsing.2 hs] at hf; cases hf
  refine ⟨⟨⟨by omega, by simpa using c1⟩, c5, c4, badHash_false.1 c2, badHash_false.1 c3, ?_, ?_, ?_⟩, ?_, ?_, ?_, ?_⟩
  · rcases c6 with ⟨h, _⟩ | ⟨h, _⟩
    · exact Or.inl h
    · exact Or.inr h
  · intro hs
    rcases tapTrailer_ok c2 r.ht with ⟨hne, _⟩ | ⟨_, _, l, c, p, hl, hc, hp, _⟩
    · exact absurd hs hne
    · exact ⟨l, c, hl, hc, packS4_range hp⟩
  · intro hs
    obtain ⟨o, w, ho, _⟩ := single hs
    have := (List.getElem?_eq_some_iff.1 ho).1
    omega
  · intro hna
    rcases optPart_ok p1 with ⟨_, q, hq, _⟩ | ⟨hf, _⟩
    · exact (tapInputs_ok hq).2.2.2.2.2.2.1
    · have : a.ht.acp = true := by simpa using hf
      exact absurd (hacp.1 this) hna
  · intro ha ⟨i, hi, hiss⟩
    rcases optPart_ok p3 with ⟨_, q, hq, _⟩ | ⟨hf, _⟩
    · obtain ⟨i', o, s, b, e', g1, _, _, _, g5, _⟩ := tapSigned_ok hq
      rw [Int.toNat_natCast] at hi
      rw [hi] at g1
      cases g1
      rcases tapSignedIssuance_ok g5 with ⟨hnull, _⟩ | ⟨_, w, hw, _⟩
      · exact absurd (Issuance.isNull_iff.1 hnull) hiss
      · have := (List.getElem?_eq_some_iff.1 hw).1
        omega
    · rw [hacp.2 ha] at hf; cases hf
  · intro ha
    rcases optPart_ok p2 with ⟨_, q, hq, _⟩ | ⟨hf, _⟩
    · exact (tapOutputs_ok hq).2.1
    · rw [hall.2 ha] at hf; cases hf
  · intro hs
    obtain ⟨o, w, _, hw⟩ := single hs
    have := (List.getElem?_eq_some_iff.1 hw).1
    omega

theorem optPart_exists {α : Type} {b : Bool} {x : Except PyErr α} (h : b = true → ∃ y, x = .ok y) :
    ∃ y, optPart b x = .ok y := by
  cases b
  · exact ⟨none, rfl⟩
  · obtain ⟨y, hy⟩ := h rfl
    exact ⟨some y, by simp [optPart, hy, Except.map]⟩

theorem serTxOutWitness_exists' {w : TxOutWitness} (h : WFOutWitness w) : ∃ b, serTxOutWitness w = .ok b := by
  obtain ⟨a, ha⟩ := serVarBytes_exists h.surj
  obtain ⟨k, hk⟩ := serVarBytes_exists h.range
  exact ⟨a ++ k, by simp [serTxOutWitness, ha, hk, bind, Except.bind, pure, Except.pure]⟩

theorem serProofs_exists {w : TxInWitness} (h : WFInWitness w) : ∃ b, serProofs w = .ok b := by
  obtain ⟨a, ha⟩ := serVarBytes_exists h.amount
  obtain ⟨k, hk⟩ := serVarBytes_exists h.keys
  exact ⟨a ++ k, by simp [serProofs, ha, hk, bind, Except.bind, pure, Except.pure]⟩

theorem tapInputs_exists {tx : Tx} {spent : List TxOut} (hw : WFTx tx) (hs : ∀ o ∈ spent, WFOut o) :
    ∃ q, tapInputs tx spent = .ok q := by
  obtain ⟨s, e1⟩ := serN_exists (f := fun o : TxOut => serVarBytes o.scriptPubKey)
    (fun o ho => serVarBytes_exists (hs o ho).script)
  obtain ⟨p, e2⟩ := serN_exists (f := fun i : TxIn => serOutPoint i.prevout) (fun i hi => WFIn.outpoint (hw.vin i hi))
  obtain ⟨q, e3⟩ := serN_exists (f := fun i : TxIn => packU 4 i.nSequence) (fun i hi => WFIn.sequence (hw.vin i hi))
  obtain ⟨z, e4⟩ := zipWit_exists (xs := tx.vin) (ys := tx.wit.vtxinwit) (by rw [hw.witin]; exact Nat.le_refl _)
  have hz := (zipWit_ok e4).2
  obtain ⟨r, e5⟩ := serN_exists (f := fun p : TxIn × TxInWitness => serProofs p.2) (xs := z) (by
    intro x hx
    apply serProofs_exists
    apply hw.vtxinwit
    have : x.2 ∈ z.map Prod.snd := List.mem_map_of_mem hx
    rw [hz] at this
    exact List.mem_of_mem_take this)
  refine ⟨⟨(tx.vin.map outpointFlag).flatten, p, (spent.map fun o => serConf o.nAsset ++ serConf o.nValue).flatten, s, q,
    (tx.vin.map fun i => issuanceOrZero i.assetIssuance).flatten, r⟩, ?_⟩
  unfold tapInputs
  simp only [e1, e2, e3, e4, ok_bind]
  have e5' : serN (fun p : TxIn × TxInWitness => do
    let a ← serVarBytes p.2.issuanceAmountRangeproof
    let k ← serVarBytes p.2.inflationKeysRangeproof
    return a ++ k) z = .ok r := e5
  rw [e5']; rfl

theorem tapOutputs_exists {tx : Tx} (hw : WFTx tx) : ∃ q, tapOutputs tx = .ok q := by
  obtain ⟨s, e1⟩ := serN_exists (f := serTxOut) (fun o ho => serTxOut_exists (hw.vout o ho).script)
  obtain ⟨z, e2⟩ := zipWit_exists (xs := tx.vout) (ys := tx.wit.vtxoutwit) (by rw [hw.witout]; exact Nat.le_refl _)
  have hz := (zipWit_ok e2).2
  obtain ⟨r, e3⟩ := serN_exists (f := fun p : TxOut × TxOutWitness => serTxOutWitness p.2) (xs := z) (by
    intro x hx
    apply serTxOutWitness_exists'
    apply hw.vtxoutwit
    have : x.2 ∈ z.map Prod.snd := List.mem_map_of_mem hx
    rw [hz] at this
    exact List.mem_of_mem_take this)
  exact ⟨⟨s, r⟩, by unfold tapOutputs; simp only [e1, e2, ok_bind, e3]; rfl⟩

theorem getElem?_lt {α : Type} {l : List α} {k : Nat} (h : k < l.length) : ∃ x, l[k]? = some x ∧ x ∈ l :=
  ⟨l[k], by simp [h], List.getElem_mem h⟩

theorem tapSigned_exists {tx : Tx} {spent : List TxOut} {k : Nat} (hw : WFTx tx) (hk : k < tx.vin.length)
    (hs : spent.length = tx.vin.length) : ∃ q, tapSigned tx k spent = .ok q := by
  obtain ⟨i, hi, hm⟩ := getElem?_lt hk
  obtain ⟨u, hu, _⟩ := getElem?_lt (l := spent) (k := k) (by omega)
  obtain ⟨w, hwt, _⟩ := getElem?_lt (l := tx.wit.vtxinwit) (k := k) (by rw [hw.witin]; exact hk)
  obtain ⟨o, ho⟩ := WFIn.outpoint (hw.vin i hm)
  obtain ⟨q, hq⟩ := WFIn.sequence (hw.vin i hm)
  have : ∃ r, tapSignedIssuance tx k i.assetIssuance = .ok r := by
    unfold tapSignedIssuance
    cases i.assetIssuance.isNull
    · simp [pyGet_nat_ok.2 hwt, bind, Except.bind, pure, Except.pure]
    · simp
  obtain ⟨r, hr⟩ := this
  exact ⟨_, by unfold tapSigned; simp only [pyGet_nat_ok.2 hi, pyGet_nat_ok.2 hu, ho, hq, hr, ok_bind]; rfl⟩

theorem tapSingle_exists {tx : Tx} {k : Nat} (hw : WFTx tx) (hk : k < tx.vout.length) :
    ∃ q, tapSingle tx k = .ok q := by
  obtain ⟨o, ho, hm⟩ := getElem?_lt hk
  obtain ⟨w, hwt, hwm⟩ := getElem?_lt (l := tx.wit.vtxoutwit) (k := k) (by rw [hw.witout]; exact hk)
  obtain ⟨s, hs⟩ := serTxOut_exists (hw.vout o hm).script
  obtain ⟨r, hr⟩ := serTxOutWitness_exists' (hw.vtxoutwit w hwm)
  refine ⟨⟨s, r⟩, ?_⟩
  unfold tapSingle
  rw [if_neg (by omega)]
  simp only [pyGet_nat_ok.2 ho, pyGet_nat_ok.2 hwt, hs, hr, ok_bind]; rfl

/-- C18: on well-formed transactions with at most 2^32 inputs the conditions are exact. -/
theorem C18_iff (h : HashFn) {tx : Tx} {spent : List TxOut} (hw : WFTx tx) (hs : ∀ o ∈ spent, WFOut o)
    (hn : tx.vin.length ≤ 4294967296) (idx : Int) (a : TapArgs) :
    (∃ dig, sighashSchnorr h tx idx spent a = .ok dig) ↔ TapArgsOk tx idx spent a := by
  constructor
  · rintro ⟨dig, e⟩; exact (C18_only_valid e).1
  intro ok
  obtain ⟨⟨i0, i1⟩, sl, g, tl, an, ver, scr, sing⟩ := ok
  obtain ⟨k, rfl⟩ := Int.eq_ofNat_of_zero_le i0
  have hk : k < tx.vin.length := by omega
  have hacp : a.ht.acp = true ↔ _ := acp_iff (c := ⟨tx, k, spent, a⟩)
  have hsing := single_iff (c := ⟨tx, k, spent, a⟩)
  have : ∃ ext, tapCheck tx (k : Int) spent a = .ok ext := by
    rcases ver with h | h
    · exact ⟨0, tapCheck_ok.2 ⟨hk, badHash_false.2 tl, badHash_false.2 an, g, sl, Or.inl ⟨h, rfl⟩⟩⟩
    · exact ⟨1, tapCheck_ok.2 ⟨hk, badHash_false.2 tl, badHash_false.2 an, g, sl, Or.inr ⟨h, rfl⟩⟩⟩
  obtain ⟨ext, hext⟩ := this
  obtain ⟨p1, q1⟩ := optPart_exists (b := !a.ht.acp) fun _ => tapInputs_exists hw hs
  obtain ⟨p2, q2⟩ := optPart_exists (b := a.ht.out == .all) fun _ => tapOutputs_exists hw
  obtain ⟨p3, q3⟩ := optPart_exists (b := a.ht.acp) fun _ => tapSigned_exists hw hk sl
  obtain ⟨p4, q4⟩ := optPart_exists (b := a.ht.out == .single)
    (x := tapSingle tx k) fun hb => tapSingle_exists hw (by have := sing (hsing.1 hb); omega)
  have hp : tapParts tx k spent a.ht = .ok ⟨p1, p2, p3, p4⟩ := by
    unfold tapParts; simp only [q1, q2, q3, q4, ok_bind]; rfl
  obtain ⟨v, hv⟩ := packS4_exists hw.version
  obtain ⟨l, hl⟩ := packU_exists (k := 4) (n := tx.nLockTime) (by have := hw.locktime; omega)
  have : ∃ x, tapIdx k a = .ok x := by
    unfold tapIdx
    split
    · exact ⟨_, rfl⟩
    · exact packU_exists (by omega)
  obtain ⟨x, hx⟩ := this
  have : ∃ n, tapAnnex a.annexHash = .ok n := by
    cases hh : a.annexHash with
    | none => exact ⟨_, rfl⟩
    | some y => exact serVarBytes_exists (by rw [an y hh]; decide)
  obtain ⟨n, hn'⟩ := this
  have : ∃ t, tapTrailer a = .ok t := by
    unfold tapTrailer
    split
    · rename_i hv
      obtain ⟨l, c, e1, e2, e3⟩ := scr hv
      obtain ⟨p, hp⟩ := packS4_exists e3
      rw [e1, e2]
      simp only [hp, ok_bind]
      exact ⟨_, rfl⟩
    · exact ⟨_, rfl⟩
  obtain ⟨t, ht⟩ := this
  have hm := tapMessage_ok (h := h) (i := k) (ext := ext) (p := ⟨p1, p2, p3, p4⟩) |>.2 ⟨v, l, x, n, t, hv, hl, hx, hn', ht, rfl⟩
  unfold sighashSchnorr
  rw [hext, ok_bind, Int.toNat_natCast, hp, ok_bind, hm, ok_bind]
  exact ⟨_, rfl⟩

/-- C18: SINGLE without a matching output never yields a hash, for any transaction. -/
theorem C18_single_needs_output (h : HashFn) (tx : Tx) (idx : Int) (spent : List TxOut) (a : TapArgs) (t : HashType)
    (ht : a.hashtype = some t) (hs : t.out = .single) (hidx : (tx.vout.length : Int) ≤ idx) :
    ∃ e, sighashSchnorr h tx idx spent a = .error e := by
  cases hh : sighashSchnorr h tx idx spent a with
  | error e => exact ⟨e, rfl⟩
  | ok d =>
    have := (C18_only_valid hh).1.single ⟨t, ht, hs⟩
    omega

/-- Arguments for the samples: tapscript, annex, all hash types. -/
def sampleArgs (t : Option HashType) : TapArgs :=
  { hashtype := t, sigversion := .tapscript, tapleafHash := some (List.replicate 32 4), codeseparatorPos := some (-1),
    annexHash := some (List.replicate 32 5), genesisHash := List.replicate 32 6 }

/-- Outputs spent by `sampleTx`. -/
def sampleSpent : List TxOut :=
  [{ nValue := [1, 0, 0, 0, 0, 0, 0, 0, 9], nAsset := 1 :: List.replicate 32 2, scriptPubKey := [0x51] },
   { nValue := 8 :: List.replicate 32 7, nAsset := 11 :: List.replicate 32 2, scriptPubKey := [0, 1] }]

theorem sampleSpent_wf : ∀ o ∈ sampleSpent, WFOut o := by
  intro o ho
  simp only [sampleSpent, List.mem_cons, List.not_mem_nil, or_false] at ho
  rcases ho with rfl | rfl <;> exact ⟨by decide, by decide, by decide, by decide⟩

theorem sampleArgs_ok (t : Option HashType) (k : Nat) (hk : k < 2) : TapArgsOk sampleTx k sampleSpent (sampleArgs t) := by
  refine ⟨⟨by omega, ?_⟩, rfl, rfl, ?_, ?_, Or.inr rfl, fun _ => ⟨_, _, rfl, rfl, by decide, by decide⟩, fun _ => ?_⟩
  · simp [sampleTx]; omega
  · intro l hl; cases hl; rfl
  · intro l hl; cases hl; rfl
  · simp [sampleTx]; omega

/-- C16–C18 are not vacuous: every input of the sample can be signed with every hash type. -/
example (h : HashFn) (t : Option HashType) (k : Nat) (hk : k < 2) :
    ∃ dig, (TapCall.mk sampleTx k sampleSpent (sampleArgs t)).digest h = .ok dig ∧
      (TapCall.mk sampleTx k sampleSpent (sampleArgs t)).WF := by
  obtain ⟨d, hd⟩ := (C18_iff h sampleTx_wf sampleSpent_wf (by decide) k _).2 (sampleArgs_ok t k hk)
  exact ⟨d, hd, fun i hi => (sampleTx_wf.vin i hi).iss, sampleTx_wf.vout, sampleSpent_wf, sampleTx_wf.vtxinwit,
    sampleTx_wf.vtxoutwit⟩

end Verif
