import Verif.SighashLemmas
import Verif.Spec.Sighash
import Verif.Props.Tx
/-
Segwit v0 signature hashes: C13, C14, C15.
-/
namespace Verif
open Spec

/-! ### Flags -/

theorem htAcp_iff {ht : Nat} : htAcp ht = true ↔ AnyoneCanPay ht := by
  unfold htAcp SIGHASH_ANYONECANPAY AnyoneCanPay
  have := land_bit ht 7
  rw [show (1 <<< 7 : Nat) = 0x80 from rfl] at this
  rw [this]; simp

theorem land31 (ht : Nat) : ht &&& 0x1f = ht % 32 := Nat.and_two_pow_sub_one_eq_mod ht 5

theorem htSingle_iff {ht : Nat} : htSingle ht = true ↔ OutSingle ht := by
  unfold htSingle SIGHASH_SINGLE OutSingle; rw [land31]; simp
theorem htNone_iff {ht : Nat} : htNone ht = true ↔ OutNone ht := by
  unfold htNone SIGHASH_NONE OutNone; rw [land31]; simp

theorem not_true_iff_false {b : Bool} {P : Prop} (h : b = true ↔ P) : b = false ↔ ¬ P := by
  rw [← h]; simp

/-! ### Parts -/

theorem ok_bind {ε α β : Type} (a : α) (f : α → Except ε β) : (Except.ok a >>= f) = f a := rfl
theorem error_bind {ε α β : Type} (e : ε) (f : α → Except ε β) : ((Except.error e : Except ε α) >>= f) = .error e := rfl

theorem Except.map_ok {ε α β : Type} {x : Except ε α} {f : α → β} {b : β} :
    x.map f = .ok b ↔ ∃ a, x = .ok a ∧ b = f a := by
  cases x <;> simp [Except.map, eq_comm]

theorem v0Parts_prevouts {tx : Tx} {i : Int} {ht : Nat} {p : V0Parts} (h : v0Parts tx i ht = .ok p) :
    (htAcp ht = true → p.prevouts = none ∧ p.issuance = none) ∧
    (htAcp ht = false → ∃ b, serN (fun i : TxIn => serOutPoint i.prevout) tx.vin = .ok b ∧ p.prevouts = some b ∧
      p.issuance = some (tx.vin.map (fun i => issuanceOrZero i.assetIssuance)).flatten) ∧
    (htAcp ht = false → htSingle ht = false → htNone ht = false →
      ∃ b, serN (fun i : TxIn => packU 4 i.nSequence) tx.vin = .ok b ∧ p.sequence = some b) ∧
    (htAcp ht = true ∨ htSingle ht = true ∨ htNone ht = true → p.sequence = none) ∧
    (htSingle ht = false → htNone ht = false → ∃ b, serN serTxOut tx.vout = .ok b ∧ p.outputs = some b) ∧
    (htNone ht = true → htSingle ht = false → p.outputs = none) ∧
    (htSingle ht = true → ¬ i < tx.vout.length → p.outputs = none) ∧
    (htSingle ht = true → i < tx.vout.length → ∃ o b, pyGet tx.vout i = .ok o ∧ serTxOut o = .ok b ∧ p.outputs = some b) := by
  unfold v0Parts at h
  simp only [Except.bind_ok, Except.pure_ok] at h
  obtain ⟨a, ha, q, hq, o, ho, rfl⟩ := h
  unfold v0Prevouts at ha
  unfold v0Sequence at hq
  unfold v0Outputs at ho
  unfold v0Issuance
  refine ⟨?_, ?_, ?_, ?_, ?_, ?_, ?_, ?_⟩
  · intro hh; simp_all
  · intro hh
    simp only [hh, Bool.not_false, if_true, Except.map_ok] at ha
    obtain ⟨b, h1, rfl⟩ := ha
    exact ⟨b, h1, rfl, by simp [hh]⟩
  · intro h1 h2 h3
    simp only [h1, h2, h3, Bool.not_false, Bool.and_self, if_true, Except.map_ok] at hq
    exact hq
  · intro hh
    rw [if_neg (by rcases hh with hh | hh | hh <;> simp [hh])] at hq
    exact (Except.ok.inj hq).symm
  · intro h1 h2
    simp only [h1, h2, Bool.not_false, Bool.and_self, if_true, Except.map_ok] at ho
    exact ho
  · intro h1 h2
    rw [if_neg (by simp [h1]), if_neg (by simp [h2])] at ho
    exact (Except.ok.inj ho).symm
  · intro h1 h2
    rw [if_neg (by simp [h1]), if_neg (by simp [h2])] at ho
    exact (Except.ok.inj ho).symm
  · intro h1 h2
    rw [if_neg (by simp [h1]), if_pos (by simp [h1, h2])] at ho
    simp only [Except.bind_ok, Except.map_ok] at ho
    obtain ⟨x, hx, b, hb, rfl⟩ := ho
    exact ⟨x, b, hx, hb, rfl⟩

theorem v0Preimage_ok {h : HashFn} {script : Bytes} {tx : Tx} {idx : Int} {ht : Nat} {amount : Bytes}
    {p : V0Parts} {pre : Bytes} : v0Preimage h script tx idx ht amount p = .ok pre ↔
    ∃ v i o s q l t, packS 4 tx.nVersion = .ok v ∧ pyGet tx.vin idx = .ok i ∧ serOutPoint i.prevout = .ok o ∧
      serVarBytes script = .ok s ∧ packU 4 i.nSequence = .ok q ∧ packS 4 (tx.nLockTime : Int) = .ok l ∧
      packS 4 (ht : Int) = .ok t ∧
      pre = v ++ (partHash h p.prevouts ++ (partHash h p.sequence ++ (partHash h p.issuance ++ (o ++ (s ++
        (amount ++ (q ++ (issSigned i.assetIssuance ++ (partHash h p.outputs ++ (l ++ t)))))))))) := by
  unfold v0Preimage
  simp only [Except.bind_ok, Except.pure_ok]
  constructor
  · rintro ⟨v, h1, i, h2, o, h3, s, h4, q, h5, l, h6, t, h7, rfl⟩
    exact ⟨v, i, o, s, q, l, t, h1, h2, h3, h4, h5, h6, h7, by simp only [issSigned, List.append_assoc]⟩
  · rintro ⟨v, i, o, s, q, l, t, h1, h2, h3, h4, h5, h6, h7, rfl⟩
    exact ⟨v, h1, i, h2, o, h3, s, h4, q, h5, l, h6, t, h7, by simp only [issSigned, List.append_assoc]⟩

theorem sighashV0_ok {h : HashFn} {script : Bytes} {tx : Tx} {idx : Int} {ht : Nat} {amount : Bytes} {d : Bytes} :
    sighashV0 h script tx idx ht (some amount) = .ok d ↔
    ∃ p pre, v0Parts tx idx ht = .ok p ∧ v0Preimage h script tx idx ht amount p = .ok pre ∧ d = h.dbl pre := by
  unfold sighashV0
  simp only [Except.bind_ok, Except.pure_ok]
  constructor
  · rintro ⟨p, h1, pre, h2, h3⟩; exact ⟨p, pre, h1, h2, h3⟩
  · rintro ⟨p, pre, h1, h2, h3⟩; exact ⟨p, h1, pre, h2, h3⟩

theorem nullPattern {xs ys : List TxIn} (hl : xs.length = ys.length)
    (h : ∀ (k : Nat) (i j : TxIn), xs[k]? = some i → ys[k]? = some j → (NoIssue i.assetIssuance ↔ NoIssue j.assetIssuance)) :
    xs.map (·.assetIssuance.isNull) = ys.map (·.assetIssuance.isNull) := by
  apply List.ext_getElem (by simpa using hl)
  intro k h1 h2
  simp only [List.length_map] at h1 h2
  simp only [List.getElem_map]
  have := h k xs[k] ys[k] (List.getElem?_eq_getElem h1) (List.getElem?_eq_getElem h2)
  rw [← Issuance.isNull_iff, ← Issuance.isNull_iff] at this
  exact Bool.eq_iff_iff.2 this

/-- Any two segwit v0 hashes, any hash types. -/
theorem v0_commits {h : HashFn} {c d : SigCall} (hc : c.WF) (hd : d.WF) {dig : Bytes}
    (h1 : sighashV0 h c.script c.tx c.idx c.ht (some c.amount) = .ok dig)
    (h2 : sighashV0 h d.script d.tx d.idx d.ht (some d.amount) = .ok dig) :
    V0Agree c d ∨ V0Collision h c d ∨ (OutSingle c.ht ∧ V0Zero h c d) := by
  obtain ⟨p, pre, hp, hpre, rfl⟩ := sighashV0_ok.1 h1
  obtain ⟨p', pre', hp', hpre', hdig⟩ := sighashV0_ok.1 h2
  by_cases hcol : V0Collision h c d
  · exact Or.inr (Or.inl hcol)
  by_cases hzero : OutSingle c.ht ∧ V0Zero h c d
  · exact Or.inr (Or.inr hzero)
  left
  have key : ∀ {x y}, V0Hashed h c x → V0Hashed h d y → h.dbl x = h.dbl y → x = y := by
    intro x y hx hy e
    rcases dbl_inj_or e with e | e
    · exact e
    · exact absurd ⟨x, y, hx, hy, e⟩ hcol
  obtain rfl : pre = pre' :=
    key ⟨p, hp, by simp [hpre]⟩ ⟨p', hp', by simp [hpre']⟩ hdig
  obtain ⟨v, i, o, s, q, l, t, e1, e2, e3, e4, e5, e6, e7, e8⟩ := v0Preimage_ok.1 hpre
  obtain ⟨v', i', o', s', q', l', t', f1, f2, f3, f4, f5, f6, f7, f8⟩ := v0Preimage_ok.1 hpre'
  rw [e8] at f8
  have hi := pyGet_nat_ok.1 e2
  have hi' := pyGet_nat_ok.1 f2
  have hmem := List.mem_of_getElem? hi
  have hmem' := List.mem_of_getElem? hi'
  obtain ⟨gv, k1⟩ := append_split f8 (by rw [packS_len e1, packS_len f1])
  obtain ⟨gp, k2⟩ := append_split k1 (by rw [partHash_len, partHash_len])
  obtain ⟨gq, k3⟩ := append_split k2 (by rw [partHash_len, partHash_len])
  obtain ⟨gi, k4⟩ := append_split k3 (by rw [partHash_len, partHash_len])
  obtain ⟨gpo, k5⟩ := append_split k4 (by rw [serOutPoint_len e3, serOutPoint_len f3])
  obtain ⟨hs, gs⟩ := serVarBytes_prefix _ _ _ _ _ _ hc.script hd.script e4 f4 k5
  rw [gs] at k5
  obtain ⟨ha, hq, hiss, k6⟩ := amount_parse hc.amount hd.amount (hc.vin _ hmem) (hd.vin _ hmem')
    (packU_len e5) (packU_len f5)
    (by simp [partHash_len, packS_len e6, packS_len e7]) (by simp [partHash_len, packS_len f6, packS_len f7])
    (List.append_cancel_left k5)
  obtain ⟨go, k7⟩ := append_split k6 (by rw [partHash_len, partHash_len])
  obtain ⟨gl, gt⟩ := append_split k7 (by rw [packS_len e6, packS_len f6])
  subst gv gpo hq gl gt
  have hht : c.ht = d.ht := by
    have := packS_inj e7 f7; omega
  obtain ⟨a1, a2, a3, a4, a5, a6, a7, a8⟩ := v0Parts_prevouts hp
  obtain ⟨b1, b2, b3, b4, b5, b6, b7, b8⟩ := v0Parts_prevouts hp'
  rw [← hht] at b1 b2 b3 b4 b5 b6 b7 b8
  have hprev : ¬ AnyoneCanPay c.ht → c.tx.vin.map (·.prevout) = d.tx.vin.map (·.prevout) := by
    intro hacp
    have hacp := (not_true_iff_false htAcp_iff).2 hacp
    obtain ⟨x, hx, hx2, _⟩ := a2 hacp
    obtain ⟨y, hy, hy2, _⟩ := b2 hacp
    obtain rfl : x = y := key ⟨p, hp, Or.inl hx2⟩ ⟨p', hp', Or.inl hy2⟩ (by rw [hx2, hy2] at gp; exact gp)
    exact serN_inj prevouts_prefix (fun z a _ hz => by
      have := serOutPoint_len hz
      intro e; subst e; simp at this) (fun _ _ => trivial) (fun _ _ => trivial) hx hy
  refine ⟨hht, packS_inj e1 f1, ?_, hs, ha, ⟨i, i', hi, hi', serOutPoint_inj e3 f3, packU_inj e5 f5, hiss⟩,
    hprev, ?_, ?_, ?_, ?_⟩
  · have := packS_inj e6 f6; omega
  · intro hacp hnull
    have hlen : c.tx.vin.length = d.tx.vin.length := by simpa using congrArg List.length (hprev hacp)
    have hacp := (not_true_iff_false htAcp_iff).2 hacp
    obtain ⟨_, _, _, hx⟩ := a2 hacp
    obtain ⟨_, _, _, hy⟩ := b2 hacp
    have e := key ⟨p, hp, Or.inr (Or.inl hx)⟩ ⟨p', hp', Or.inr (Or.inl hy)⟩ (by rw [hx, hy] at gi; exact gi)
    exact issuances_inj hc.vin hd.vin (nullPattern hlen hnull) e
  · intro hacp hall
    have hacp := (not_true_iff_false htAcp_iff).2 hacp
    have h1 := (not_true_iff_false htSingle_iff).2 hall.2
    have h2 := (not_true_iff_false htNone_iff).2 hall.1
    obtain ⟨x, hx, hx2⟩ := a3 hacp h1 h2
    obtain ⟨y, hy, hy2⟩ := b3 hacp h1 h2
    obtain rfl : x = y := key ⟨p, hp, by simp [hx2]⟩ ⟨p', hp', by simp [hy2]⟩ (by rw [hx2, hy2] at gq; exact gq)
    exact serN_inj sequences_prefix (fun z a _ hz => by
      have := packU_len hz
      intro e; subst e; simp at this) (fun _ _ => trivial) (fun _ _ => trivial) hx hy
  · intro hall
    have h1 := (not_true_iff_false htSingle_iff).2 hall.2
    have h2 := (not_true_iff_false htNone_iff).2 hall.1
    obtain ⟨x, hx, hx2⟩ := a5 h1 h2
    obtain ⟨y, hy, hy2⟩ := b5 h1 h2
    obtain rfl : x = y := key ⟨p, hp, by simp [hx2]⟩ ⟨p', hp', by simp [hy2]⟩ (by rw [hx2, hy2] at go; exact go)
    have := serN_inj outputs_prefix (fun _ _ _ => serTxOut_ne) hc.vout hd.vout hx hy
    simpa using this
  · intro hsing
    have h1 := htSingle_iff.2 hsing
    have nozero : ∀ x, V0Hashed h c x ∨ V0Hashed h d x → h.dbl x ≠ zero32 :=
      fun x hx e => hzero ⟨hsing, x, hx, e⟩
    by_cases hr : c.idx < c.tx.vout.length
    · obtain ⟨x, bx, hx, hx2, hx3⟩ := a8 h1 (by omega)
      by_cases hr' : d.idx < d.tx.vout.length
      · obtain ⟨y, by', hy, hy2, hy3⟩ := b8 h1 (by omega)
        obtain rfl : bx = by' := key ⟨p, hp, by simp [hx3]⟩ ⟨p', hp', by simp [hy3]⟩ (by rw [hx3, hy3] at go; exact go)
        have hx := pyGet_nat_ok.1 hx
        have hy := pyGet_nat_ok.1 hy
        have := (outputs_prefix x y bx bx [] [] (hc.vout _ (List.mem_of_getElem? hx)) (hd.vout _ (List.mem_of_getElem? hy))
          hx2 hy2 rfl).1
        rw [hx, hy]; exact congrArg some this
      · have hn := b7 h1 (by omega)
        rw [hx3, hn] at go
        exact absurd go (nozero bx (Or.inl ⟨p, hp, by simp [hx3]⟩))
    · have hn := a7 h1 (by omega)
      by_cases hr' : d.idx < d.tx.vout.length
      · obtain ⟨y, by', hy, hy2, hy3⟩ := b8 h1 (by omega)
        rw [hy3, hn] at go
        exact absurd go.symm (nozero by' (Or.inr ⟨p', hp', by simp [hy3]⟩))
      · rw [List.getElem?_eq_none (by omega), List.getElem?_eq_none (by omega)]

/-! ### C13 -/

/-- The plain SIGHASH_ALL of a segwit v0 input commits to the whole transaction: version,
lock time, script code, amount, every prevout and sequence number, every output, the signed
input with its issuance, and every issuance as soon as the same inputs carry one. -/
theorem C13_v0_all_commits {h : HashFn} {c d : SigCall} (hc : c.WF) (hd : d.WF) (hall : c.ht = 1)
    {dig : Bytes}
    (h1 : sighashV0 h c.script c.tx c.idx c.ht (some c.amount) = .ok dig)
    (h2 : sighashV0 h d.script d.tx d.idx d.ht (some d.amount) = .ok dig) :
    (d.ht = 1 ∧ c.script = d.script ∧ c.amount = d.amount ∧ c.tx.nVersion = d.tx.nVersion ∧
      c.tx.nLockTime = d.tx.nLockTime ∧ c.tx.vout = d.tx.vout ∧
      c.tx.vin.map (·.prevout) = d.tx.vin.map (·.prevout) ∧
      c.tx.vin.map (·.nSequence) = d.tx.vin.map (·.nSequence) ∧
      (∃ i j, c.tx.vin[c.idx]? = some i ∧ d.tx.vin[d.idx]? = some j ∧ i.prevout = j.prevout ∧
        i.nSequence = j.nSequence ∧ i.assetIssuance = j.assetIssuance) ∧
      ((∀ (k : Nat) (i j : TxIn), c.tx.vin[k]? = some i → d.tx.vin[k]? = some j →
          (NoIssue i.assetIssuance ↔ NoIssue j.assetIssuance)) →
        c.tx.vin.map (·.assetIssuance) = d.tx.vin.map (·.assetIssuance))) ∨
    V0Collision h c d := by
  have hacp : ¬ AnyoneCanPay c.ht := by rw [hall]; decide
  have hout : OutAll c.ht := by rw [hall]; exact ⟨by decide, by decide⟩
  rcases v0_commits hc hd h1 h2 with e | e | ⟨e, _⟩
  · exact Or.inl ⟨e.ht ▸ hall, e.script, e.amount, e.version, e.locktime, e.outputs hout, e.prevouts hacp,
      e.sequences hacp hout, e.signed, e.issuances hacp⟩
  · exact Or.inr e
  · exact absurd e hout.2

/-- When prevouts are distinct, as in every valid transaction, the index is committed too. -/
theorem C13_v0_all_commits_index {h : HashFn} {c d : SigCall} (hc : c.WF) (hd : d.WF) (hall : c.ht = 1)
    (hnd : (c.tx.vin.map (·.prevout)).Nodup) {dig : Bytes}
    (h1 : sighashV0 h c.script c.tx c.idx c.ht (some c.amount) = .ok dig)
    (h2 : sighashV0 h d.script d.tx d.idx d.ht (some d.amount) = .ok dig) :
    c.idx = d.idx ∨ V0Collision h c d := by
  rcases C13_v0_all_commits hc hd hall h1 h2 with ⟨_, _, _, _, _, _, hp, _, ⟨i, j, hi, hj, hij, _⟩, _⟩ | e
  · left
    have a1 : (c.tx.vin.map (·.prevout))[c.idx]? = some i.prevout := by simp [hi]
    have a2 : (c.tx.vin.map (·.prevout))[d.idx]? = some i.prevout := by rw [hp]; simp [hj, hij]
    exact (List.getElem?_inj (List.getElem?_eq_some_iff.1 a1).1 hnd).1 (a1.trans a2.symm)
  · exact Or.inr e

/-- Two issuance lists that the hash does not tell apart: the issuance moves from the second
input to the first. -/
def ambigEntropy : Bytes := List.replicate 31 7 ++ [0]
def ambigAmount : Bytes := [1, 0, 0, 0, 0, 0, 0, 0, 5]
def ambigIn (k : Nat) (i : Issuance) : TxIn := { prevout := ⟨List.replicate 32 9, k⟩, assetIssuance := i }
def ambigTx1 : Tx := ⟨2, [ambigIn 0 {}, ambigIn 1 ⟨zero32, ambigEntropy, ambigAmount, []⟩, ambigIn 2 {}], [], 0, {}⟩
def ambigTx2 : Tx :=
  ⟨2, [ambigIn 0 ⟨zero32, 0 :: List.replicate 31 7, [], ambigAmount⟩, ambigIn 1 {}, ambigIn 2 {}], [], 0, {}⟩

theorem ambig_wf (t : Tx) (ht : t = ambigTx1 ∨ t = ambigTx2) : SigCall.WF ⟨[], t, 2, 1, []⟩ := by
  have wa : ValidField 9 8 9 ambigAmount := Or.inr (Or.inl ⟨rfl, rfl⟩)
  have wn : ValidField 9 8 9 [] := Or.inl rfl
  refine ⟨?_, ?_, wn, by simp [maxItem]⟩
  · rcases ht with rfl | rfl <;> (intro o ho; cases ho)
  · rcases ht with rfl | rfl
    · intro i hi
      simp only [ambigTx1, List.mem_cons, List.not_mem_nil, or_false] at hi
      rcases hi with rfl | rfl | rfl
      · exact wf_default_issuance
      · exact ⟨rfl, rfl, wa, wn, fun hn => absurd hn.1 (by decide)⟩
      · exact wf_default_issuance
    · intro i hi
      simp only [ambigTx2, List.mem_cons, List.not_mem_nil, or_false] at hi
      rcases hi with rfl | rfl | rfl
      · exact ⟨rfl, rfl, wn, wa, fun hn => absurd hn.2 (by decide)⟩
      · exact wf_default_issuance
      · exact wf_default_issuance

/-- The hypothesis on which inputs carry an issuance cannot be dropped from C13: the
issuance hash is over a concatenation that has two readings. -/
theorem C13_issuance_ambiguity (h : HashFn) :
    (∃ d, sighashV0 h [] ambigTx1 2 1 (some []) = .ok d ∧ sighashV0 h [] ambigTx2 2 1 (some []) = .ok d) ∧
    ambigTx1.vin.map (·.assetIssuance) ≠ ambigTx2.vin.map (·.assetIssuance) := by
  refine ⟨?_, by decide⟩
  have hp : v0Parts ambigTx1 2 1 = v0Parts ambigTx2 2 1 := by decide +kernel
  have e : sighashV0 h [] ambigTx1 2 1 (some []) = sighashV0 h [] ambigTx2 2 1 (some []) := by
    unfold sighashV0; rw [hp]; rfl
  have : ∃ d, sighashV0 h [] ambigTx1 2 1 (some []) = .ok d := ⟨_, rfl⟩
  obtain ⟨d, hd⟩ := this
  exact ⟨d, hd, e ▸ hd⟩

/-! ### C14 -/

/-- What is covered is committed, for every hash type: C14 says the rest is free. -/
theorem C14_covered {h : HashFn} {c d : SigCall} (hc : c.WF) (hd : d.WF) {dig : Bytes}
    (h1 : sighashV0 h c.script c.tx c.idx c.ht (some c.amount) = .ok dig)
    (h2 : sighashV0 h d.script d.tx d.idx d.ht (some d.amount) = .ok dig) :
    V0Agree c d ∨ V0Collision h c d ∨ (OutSingle c.ht ∧ V0Zero h c d) := v0_commits hc hd h1 h2

theorem v0Sequence_free {tx tx' : Tx} {ht : Nat} (hf : AnyoneCanPay ht ∨ OutNone ht ∨ OutSingle ht) :
    v0Sequence tx ht = v0Sequence tx' ht := by
  unfold v0Sequence
  rw [← htAcp_iff, ← htNone_iff, ← htSingle_iff] at hf
  have : (!htAcp ht && !htSingle ht && !htNone ht) = false := by rcases hf with h | h | h <;> simp [h]
  simp [this]

theorem v0Outputs_none {tx tx' : Tx} {i i' : Int} {ht : Nat} (hf : OutNone ht) :
    v0Outputs tx i ht = v0Outputs tx' i' ht := by
  unfold v0Outputs
  have h1 : htNone ht = true := htNone_iff.2 hf
  have h2 : htSingle ht = false := (not_true_iff_false htSingle_iff).2 (by unfold OutSingle; unfold OutNone at hf; omega)
  simp [h1, h2]

theorem v0Outputs_single {tx tx' : Tx} {i i' : Nat} {ht : Nat} (hf : OutSingle ht)
    (he : tx.vout[i]? = tx'.vout[i']?) : v0Outputs tx i ht = v0Outputs tx' i' ht := by
  unfold v0Outputs
  have h1 : htSingle ht = true := htSingle_iff.2 hf
  have hr : i < tx.vout.length ↔ i' < tx'.vout.length := by
    have a : (tx.vout[i]?).isSome = (tx'.vout[i']?).isSome := by rw [he]
    by_cases h1 : i < tx.vout.length <;> by_cases h2 : i' < tx'.vout.length <;>
      simp_all <;> omega
  simp only [h1, Bool.not_true, Bool.false_and, Bool.false_eq_true, if_false, Bool.true_and, decide_eq_true_eq,
    pyGet_nat, he, Int.ofNat_lt, hr]

/-- The pieces of the hash that depend on the transaction. -/
theorem sighashV0_congr {h : HashFn} {script : Bytes} {tx tx' : Tx} {idx idx' : Int} {ht : Nat} {a : Option Bytes}
    (hp : v0Prevouts tx ht = v0Prevouts tx' ht) (hi : v0Issuance tx ht = v0Issuance tx' ht)
    (hq : v0Sequence tx ht = v0Sequence tx' ht) (ho : v0Outputs tx idx ht = v0Outputs tx' idx' ht)
    (hv : tx.nVersion = tx'.nVersion) (hl : tx.nLockTime = tx'.nLockTime)
    (hs : (pyGet tx.vin idx).map (fun i => (i.prevout, i.nSequence, i.assetIssuance)) =
      (pyGet tx'.vin idx').map (fun i => (i.prevout, i.nSequence, i.assetIssuance))) :
    sighashV0 h script tx idx ht a = sighashV0 h script tx' idx' ht a := by
  unfold sighashV0 v0Parts v0Preimage
  rw [hp, hi, hq, ho, hv, hl]
  cases h1 : pyGet tx.vin idx with
  | error e =>
    cases h2 : pyGet tx'.vin idx' with
    | error e' =>
      rw [h1, h2] at hs
      obtain rfl : e = e' := by simpa [Except.map] using hs
      rfl
    | ok j => rw [h1, h2] at hs; simp [Except.map] at hs
  | ok i =>
    cases h2 : pyGet tx'.vin idx' with
    | error e' => rw [h1, h2] at hs; simp [Except.map] at hs
    | ok j =>
      rw [h1, h2] at hs
      simp only [Except.map, Except.ok.injEq, Prod.mk.injEq] at hs
      obtain ⟨e1, e2, e3⟩ := hs
      have e : ∀ {α : Type} (f : TxIn → Except PyErr α),
          (Except.ok i >>= f : Except PyErr α) = f i := fun _ => rfl
      have e' : ∀ {α : Type} (f : TxIn → Except PyErr α),
          (Except.ok j >>= f : Except PyErr α) = f j := fun _ => rfl
      simp only [e, e', e1, e2, e3]

/-- C14: any two calls with the same script, amount and hash type that agree on what the
hash type covers give the same result, be it a hash or an exception.  Everything that is
not mentioned — scriptSigs, peg-in flags, witnesses, and whatever the hash type leaves out —
is free. -/
theorem C14_free (h : HashFn) (script : Bytes) (amount : Option Bytes) (ht : Nat) (tx tx' : Tx) (idx idx' : Nat)
    (hv : tx.nVersion = tx'.nVersion) (hl : tx.nLockTime = tx'.nLockTime)
    (hs : (tx.vin[idx]?).map signedView = (tx'.vin[idx']?).map signedView)
    (hin : ¬ AnyoneCanPay ht → tx.vin.map spendView = tx'.vin.map spendView)
    (hseq : ¬ AnyoneCanPay ht → OutAll ht → tx.vin.map (·.nSequence) = tx'.vin.map (·.nSequence))
    (hout : OutAll ht → tx.vout = tx'.vout)
    (hsing : OutSingle ht → tx.vout[idx]? = tx'.vout[idx']?) :
    sighashV0 h script tx idx ht amount = sighashV0 h script tx' idx' ht amount := by
  have hp : ¬ AnyoneCanPay ht → tx.vin.map (·.prevout) = tx'.vin.map (·.prevout) := by
    intro ha
    have := congrArg (List.map Prod.fst) (hin ha)
    simpa [spendView, Function.comp_def] using this
  have hi : ¬ AnyoneCanPay ht → tx.vin.map (·.assetIssuance) = tx'.vin.map (·.assetIssuance) := by
    intro ha
    have := congrArg (List.map Prod.snd) (hin ha)
    simpa [spendView, Function.comp_def] using this
  apply sighashV0_congr
  · unfold v0Prevouts
    by_cases ha : AnyoneCanPay ht
    · simp [htAcp_iff.2 ha]
    · rw [← serN_map (g := TxIn.prevout), ← serN_map (g := TxIn.prevout), hp ha]
  · unfold v0Issuance
    by_cases ha : AnyoneCanPay ht
    · simp [htAcp_iff.2 ha]
    · have e : ∀ l : List TxIn, l.map (fun i => issuanceOrZero i.assetIssuance) =
          (l.map (·.assetIssuance)).map issuanceOrZero := by intro l; simp
      rw [e, e, hi ha]
  · by_cases hf : AnyoneCanPay ht ∨ OutNone ht ∨ OutSingle ht
    · exact v0Sequence_free hf
    · have ha : ¬ AnyoneCanPay ht := fun h => hf (Or.inl h)
      have ho : OutAll ht := ⟨fun h => hf (Or.inr (Or.inl h)), fun h => hf (Or.inr (Or.inr h))⟩
      unfold v0Sequence
      rw [← serN_map (g := TxIn.nSequence) (f := packU 4), ← serN_map (g := TxIn.nSequence) (f := packU 4), hseq ha ho]
  · by_cases h1 : OutNone ht
    · exact v0Outputs_none h1
    · by_cases h2 : OutSingle ht
      · exact v0Outputs_single h2 (hsing h2)
      · unfold v0Outputs
        have e1 := (not_true_iff_false htSingle_iff).2 h2
        have e2 := (not_true_iff_false htNone_iff).2 h1
        simp only [e1, e2, Bool.not_false, Bool.and_self, if_true, hout ⟨h1, h2⟩]
  · exact hv
  · exact hl
  · rw [pyGet_nat, pyGet_nat]
    cases h1 : tx.vin[idx]? <;> cases h2 : tx'.vin[idx']? <;> simp_all [Except.map, signedView]

/-- C14: scriptSigs, peg-in flags and witnesses are never covered. -/
theorem C14_free_script_witness_pegin (h : HashFn) (script : Bytes) (amount : Option Bytes) (ht : Nat) (tx : Tx)
    (idx : Nat) (sig : TxIn → Bytes) (peg : TxIn → Bool) (wit : TxWitness) :
    sighashV0 h script { tx with vin := tx.vin.map (fun i => { i with scriptSig := sig i, isPegin := peg i }), wit := wit }
      idx ht amount = sighashV0 h script tx idx ht amount := by
  apply C14_free
  · rfl
  · rfl
  · simp only [List.getElem?_map, Option.map_map]; rfl
  · intro _; simp [spendView, Function.comp_def]
  · intro _ _; simp [Function.comp_def]
  · intro _; rfl
  · intro _; rfl

/-- C14: with NONE the outputs can be anything. -/
theorem C14_free_none (h : HashFn) (script : Bytes) (amount : Option Bytes) (ht : Nat) (hn : OutNone ht) (tx : Tx)
    (idx : Nat) (vout : List TxOut) :
    sighashV0 h script { tx with vout := vout } idx ht amount = sighashV0 h script tx idx ht amount := by
  apply C14_free <;> first | rfl | (intros; rfl) | skip
  · intro ho; exact absurd hn ho.1
  · intro ho; unfold OutNone at hn; unfold OutSingle at ho; omega

/-- C14: with SINGLE only the output at the index of the input matters. -/
theorem C14_free_single (h : HashFn) (script : Bytes) (amount : Option Bytes) (ht : Nat) (hn : OutSingle ht) (tx : Tx)
    (idx : Nat) (vout : List TxOut) (he : vout[idx]? = tx.vout[idx]?) :
    sighashV0 h script { tx with vout := vout } idx ht amount = sighashV0 h script tx idx ht amount := by
  apply C14_free <;> first | rfl | (intros; rfl) | skip
  · intro ho; exact absurd hn ho.2
  · intro _; exact he

/-- C14: with ANYONECANPAY the other inputs, and even the position of the signed one, can be
anything (under SINGLE the matching output must move along). -/
theorem C14_free_anyonecanpay (h : HashFn) (script : Bytes) (amount : Option Bytes) (ht : Nat) (ha : AnyoneCanPay ht)
    (tx : Tx) (idx idx' : Nat) (vin : List TxIn) (he : vin[idx']? = tx.vin[idx]?)
    (hs : OutSingle ht → tx.vout[idx']? = tx.vout[idx]?) :
    sighashV0 h script { tx with vin := vin } idx' ht amount = sighashV0 h script tx idx ht amount := by
  apply C14_free <;> first | rfl | (intro hh; exact absurd ha hh) | (intros; rfl) | skip
  · rw [he]
  · intro ho; exact hs ho

/-- C14: with NONE, SINGLE or ANYONECANPAY the sequence numbers of other inputs are free. -/
theorem C14_free_sequences (h : HashFn) (script : Bytes) (amount : Option Bytes) (ht : Nat)
    (hf : AnyoneCanPay ht ∨ OutNone ht ∨ OutSingle ht) (tx : Tx) (idx : Nat) (seq : Nat → Nat) :
    sighashV0 h script
      { tx with vin := tx.vin.mapIdx fun k i => if k = idx then i else { i with nSequence := seq k } }
      idx ht amount = sighashV0 h script tx idx ht amount := by
  apply C14_free <;> first | rfl | (intros; rfl) | skip
  · simp only [List.getElem?_mapIdx, if_true, Option.map_map]; rfl
  · intro _
    apply List.ext_getElem (by simp)
    intro k _ _
    simp only [List.getElem_map, List.getElem_mapIdx, spendView]
    split <;> rfl
  · intro h1 h2
    rcases hf with hf | hf | hf
    · exact absurd hf h1
    · exact absurd hf h2.1
    · exact absurd hf h2.2

/-! ### C15 -/

/-- C15 as one would want it: every well-formed transaction has a hash for every input and
every hash type. -/
def C15_statement : Prop :=
  ∀ (h : HashFn) (script : Bytes) (tx : Tx) (idx : Nat) (ht : Nat) (amount : Bytes), WFTx tx → idx < tx.vin.length →
    ht < 256 → script.length ≤ maxItem → ∃ d, sighashV0 h script tx idx ht (some amount) = .ok d

theorem serOutPoint_exists {o : OutPoint} (h1 : o.hash.length = 32) (h2 : o.n < 4294967296) :
    ∃ b, serOutPoint o = .ok b := by
  obtain ⟨b, hb⟩ := packU_exists (k := 4) (n := o.n) (by omega)
  exact ⟨_, serOutPoint_ok.2 ⟨h1, b, packU_iff.1 hb, rfl⟩⟩

theorem WFIn.outpoint {i : TxIn} (h : WFIn i) : ∃ b, serOutPoint i.prevout = .ok b :=
  serOutPoint_exists h.hash (by rcases h.index with h | h <;> omega)

theorem WFIn.sequence {i : TxIn} (h : WFIn i) : ∃ b, packU 4 i.nSequence = .ok b :=
  packU_exists (by have := h.seq; omega)

theorem packS4_exists {v : Int} (h : -2147483648 ≤ v ∧ v < 2147483648) : ∃ b, packS 4 v = .ok b :=
  ⟨_, packS_ok.2 ⟨version_range.2 h, rfl⟩⟩

theorem v0Parts_exists {tx : Tx} (hw : WFTx tx) (idx ht : Nat) : ∃ p, v0Parts tx idx ht = .ok p := by
  have h1 : ∃ b, v0Prevouts tx ht = .ok b := by
    unfold v0Prevouts
    split
    · obtain ⟨b, hb⟩ := serN_exists (f := fun i : TxIn => serOutPoint i.prevout) (fun i hi => WFIn.outpoint (hw.vin i hi))
      exact ⟨some b, by rw [hb]; rfl⟩
    · exact ⟨_, rfl⟩
  have h2 : ∃ b, v0Sequence tx ht = .ok b := by
    unfold v0Sequence
    split
    · obtain ⟨b, hb⟩ := serN_exists (f := fun i : TxIn => packU 4 i.nSequence) (fun i hi => WFIn.sequence (hw.vin i hi))
      exact ⟨some b, by rw [hb]; rfl⟩
    · exact ⟨_, rfl⟩
  have h3 : ∃ b, v0Outputs tx idx ht = .ok b := by
    unfold v0Outputs
    split
    · obtain ⟨b, hb⟩ := serN_exists (f := serTxOut) (fun o ho => serTxOut_exists (hw.vout o ho).script)
      exact ⟨some b, by rw [hb]; rfl⟩
    · split
      · rename_i hlt
        simp only [Bool.and_eq_true, decide_eq_true_eq] at hlt
        have hlt : idx < tx.vout.length := by omega
        obtain ⟨b, hb⟩ := serTxOut_exists (hw.vout tx.vout[idx] (List.getElem_mem hlt)).script
        rw [pyGet_nat_ok.2 (List.getElem?_eq_getElem hlt)]
        exact ⟨some b, by show (serTxOut tx.vout[idx]).map some = _; rw [hb]; rfl⟩
      · exact ⟨_, rfl⟩
  obtain ⟨b1, h1⟩ := h1
  obtain ⟨b2, h2⟩ := h2
  obtain ⟨b3, h3⟩ := h3
  exact ⟨_, by unfold v0Parts; rw [h1, h2, h3]; rfl⟩

/-- C15 for lock times below 2^31.  Missing: lock times from 2^31 on, where the code raises
(`C15_statement_false`). -/
theorem C15_total_partial (h : HashFn) (script : Bytes) (tx : Tx) (idx : Nat) (ht : Nat) (amount : Bytes)
    (hw : WFTx tx) (hi : idx < tx.vin.length) (hht : ht < 256) (hs : script.length ≤ maxItem)
    (hl : tx.nLockTime < 2147483648) : ∃ d, sighashV0 h script tx idx ht (some amount) = .ok d := by
  obtain ⟨p, hp⟩ := v0Parts_exists hw idx ht
  have hin := hw.vin tx.vin[idx] (List.getElem_mem hi)
  obtain ⟨v, hv⟩ := packS4_exists hw.version
  obtain ⟨o, ho⟩ := WFIn.outpoint hin
  obtain ⟨s, hs⟩ := serVarBytes_exists hs
  obtain ⟨q, hq⟩ := WFIn.sequence hin
  obtain ⟨l, hl⟩ := packS4_exists (v := (tx.nLockTime : Int)) (by omega)
  obtain ⟨t, ht'⟩ := packS4_exists (v := (ht : Int)) (by omega)
  exact ⟨_, sighashV0_ok.2 ⟨p, _, hp, v0Preimage_ok.2 ⟨v, tx.vin[idx], o, s, q, l, t, hv,
    pyGet_nat_ok.2 (List.getElem?_eq_getElem hi), ho, hs, hq, hl, ht', rfl⟩, rfl⟩⟩

/-- C15: exactly which lock times fail. -/
theorem C15_locktime_raises (h : HashFn) (script : Bytes) (tx : Tx) (idx : Nat) (ht : Nat) (amount : Bytes)
    (hw : WFTx tx) (hi : idx < tx.vin.length) (hs : script.length ≤ maxItem)
    (hl : 2147483648 ≤ tx.nLockTime) : sighashV0 h script tx idx ht (some amount) = .error .structError := by
  obtain ⟨p, hp⟩ := v0Parts_exists hw idx ht
  have hin := hw.vin tx.vin[idx] (List.getElem_mem hi)
  obtain ⟨v, hv⟩ := packS4_exists hw.version
  obtain ⟨o, ho⟩ := WFIn.outpoint hin
  obtain ⟨s, hs⟩ := serVarBytes_exists hs
  obtain ⟨q, hq⟩ := WFIn.sequence hin
  have hlk : packS 4 (tx.nLockTime : Int) = .error .structError := by
    unfold packS; rw [if_neg]; rw [version_range]; omega
  unfold sighashV0 v0Preimage
  rw [hp, hv, pyGet_nat_ok.2 (List.getElem?_eq_getElem hi)]
  simp only [ok_bind, ho, hs, hq, hlk, error_bind]

/-- A hash function to instantiate statements with. -/
def constHash : HashFn := ⟨fun _ => List.replicate 32 0, fun _ => by simp⟩

/-- C15 does not hold as stated: the lock time is packed as a signed integer. -/
theorem C15_statement_false : ¬ C15_statement := by
  intro hall
  obtain ⟨d, hd⟩ := hall constHash [] sampleTx 0 1 [] sampleTx_wf (by decide) (by decide) (by decide)
  rw [C15_locktime_raises constHash [] sampleTx 0 1 [] sampleTx_wf (by decide) (by decide) (by decide)] at hd
  cases hd

/-! ### Concrete cases -/

/-- The sample transaction with a lock time the code can sign. -/
def sampleTxLow : Tx := { sampleTx with nLockTime := 500 }

theorem sampleTxLow_wf : WFTx sampleTxLow :=
  ⟨sampleTx_wf.version, by decide, sampleTx_wf.nin, sampleTx_wf.nout, sampleTx_wf.vin, sampleTx_wf.vout,
    sampleTx_wf.witin, sampleTx_wf.witout, sampleTx_wf.vtxinwit, sampleTx_wf.vtxoutwit⟩

def sampleCall (ht : Nat) : SigCall := ⟨[0x51, 0x52], sampleTxLow, 0, ht, [1, 0, 0, 0, 0, 0, 0, 0, 9]⟩

theorem sampleCall_wf (ht : Nat) : (sampleCall ht).WF :=
  ⟨sampleTx_wf.vout, fun i hi => (sampleTx_wf.vin i hi).iss, Or.inr (Or.inl ⟨rfl, rfl⟩),
    by simp [sampleCall, maxItem]⟩

/-- C13/C14: the hypotheses are met by a transaction with issuance, peg-in and witnesses, for
every hash function and hash type. -/
example (h : HashFn) (ht : Nat) (hht : ht < 256) : ∃ dig,
    sighashV0 h (sampleCall ht).script (sampleCall ht).tx (sampleCall ht).idx (sampleCall ht).ht
      (some (sampleCall ht).amount) = .ok dig :=
  C15_total_partial h _ _ _ _ _ sampleTxLow_wf (by simp [sampleCall, sampleTxLow, sampleTx]) hht
    (by simp [sampleCall, maxItem]) (by simp [sampleCall, sampleTxLow])

/-- Hash types of each kind. -/
example : OutAll 1 ∧ ¬ AnyoneCanPay 1 ∧ OutNone 2 ∧ OutSingle 3 ∧ AnyoneCanPay 0x83 ∧ OutSingle 0x83 := by decide

end Verif
