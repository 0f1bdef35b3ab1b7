import Verif.Spec.Joint
import Verif.Props.Balance
/-
C70: a transaction made by several parties in turns balances.
-/
namespace Verif

variable {M : Type} [AddCommGroup M] [Module Scalar M]

theorem spentAmounts_append (a b : List Desc) : spentAmounts (a ++ b) = spentAmounts a ++ spentAmounts b := by
  simp [spentAmounts]

theorem plainPt_append {z : Zkp} (P : Pedersen z M) (a b : List Desc) : P.plainPt (a ++ b) = P.plainPt a + P.plainPt b := by
  simp [Pedersen.plainPt, spentAmounts_append]

theorem spent_foreign {z : Zkp} (P : Pedersen z M) {f : List Desc} (h : ∀ d ∈ f, d.blinded = false) :
    (f.map P.spentPt).sum = P.plainPt f := by
  rw [spent_sum P (fun d hd hb => by rw [h d hd] at hb; cases hb), List.filter_eq_nil_iff.2 (fun d hd => by simp [h d hd])]
  simp [Pedersen.plainPt]

/-- What one turn does to the balance. -/
theorem turn_balanced {E : Env} (P : Pedersen E.z M) {A : BlindArgs} {known foreign own : List Desc} {ins : List TxIn}
    {outs : List TxOut} {tx tx2 tx' : Tx} (hb : Balanced P E known tx) (h : Turn E A foreign own ins outs tx tx2 tx') :
    Balanced P E (known ++ own) tx' := by
  obtain ⟨num, bfs, abfs, hd⟩ := h.done
  have h1 := C34_preserved P hd h.sizes h.fine h.some h.all
  have h2 := plain_balance P h.balance
  have hi : P.issuedSum E (confAfter A tx2) tx2.vin = (tx.vin.map fun i => P.issuancePt E i.confidential i).sum
      + P.issuedSum E (confAfter (A.own own tx.vin.length) { tx2 with vin := ins, vout := outs }) ins := by
    unfold Pedersen.issuedSum
    rw [h.vin, List.zipIdx_append, List.map_append, List.sum_append]
    congr 1
    · have : ∀ x ∈ tx.vin.zipIdx, P.issuancePt E (confAfter A tx2 x.2) x.1 = P.issuancePt E x.1.confidential x.1 := by
        intro x hx
        have hx := List.mem_zipIdx_iff_getElem?.1 hx
        have hlt : x.2 < tx.vin.length := (List.getElem?_eq_some_iff.1 hx).1
        have hk : A.assetKeys.getD x.2 none = none := h.keys x.2 false hlt
        have hg : tx2.vin.getD x.2 default = x.1 := by
          rw [h.vin, List.getD_eq_getElem?_getD, List.getElem?_append_left hlt, hx]; rfl
        unfold confAfter
        rw [hk, hg]
        simp
      rw [List.map_congr_left this]
      have hz : (tx.vin.zipIdx.map fun x => P.issuancePt E x.1.confidential x.1)
          = (tx.vin.zipIdx.map Prod.fst).map fun i => P.issuancePt E i.confidential i := by rw [List.map_map]; rfl
      rw [hz, List.zipIdx_map_fst]
    · rw [Nat.zero_add, List.zipIdx_eq_map_add (l := ins) (i := tx.vin.length), List.map_map]
      congr 1
      apply List.map_congr_left
      intro x hx
      have hx := List.mem_zipIdx_iff_getElem?.1 hx
      have hg : tx2.vin.getD (tx.vin.length + x.2) default = ins.getD x.2 default := by
        rw [h.vin, List.getD_eq_getElem?_getD, List.getElem?_append_right (by omega), Nat.add_sub_cancel_left,
          List.getD_eq_getElem?_getD]
      have hk : A.assetKeys.getD (tx.vin.length + x.2) none = (A.assetKeys.drop tx.vin.length).getD x.2 none := by
        rw [List.getD_eq_getElem?_getD, List.getD_eq_getElem?_getD, List.getElem?_drop]
      show P.issuancePt E (confAfter A tx2 (tx.vin.length + x.2)) x.1 = _
      unfold confAfter
      rw [hg, hk]
      rfl
  rw [h.descs, plainPt_append, List.map_append, List.sum_append, spent_foreign P h.unknown, hi, h.vout, List.map_append,
    List.sum_append] at h1
  unfold Balanced at hb ⊢
  rw [List.map_append, List.sum_append]
  have h2' : P.plainPt own + P.issuedSum E (confAfter (A.own own tx.vin.length) { tx2 with vin := ins, vout := outs }) ins
      = (outs.map P.outPt).sum := h2
  generalize P.issuedSum E (confAfter (A.own own tx.vin.length) { tx2 with vin := ins, vout := outs }) ins = iss at h1 h2'
  rw [← hb, ← h2'] at h1
  have : (tx'.vout.map P.outPt).sum + (P.plainPt foreign + P.plainPt own
        + (tx.vin.map fun i => P.issuancePt E i.confidential i).sum + iss)
      = ((known.map P.spentPt).sum + (own.map P.spentPt).sum + (tx'.vin.map fun i => P.issuancePt E i.confidential i).sum)
        + (P.plainPt foreign + P.plainPt own + (tx.vin.map fun i => P.issuancePt E i.confidential i).sum + iss) := by
    have e : (tx'.vout.map P.outPt).sum + (P.plainPt foreign + P.plainPt own
        + (tx.vin.map fun i => P.issuancePt E i.confidential i).sum + iss)
      = (tx'.vout.map P.outPt).sum + (P.plainPt foreign + P.plainPt own)
        + ((tx.vin.map fun i => P.issuancePt E i.confidential i).sum + iss) := by abel
    rw [e, h1]
    abel
  exact (add_right_cancel this).symm

/-- C70: however many parties make a transaction, each appending inputs and outputs whose amounts
balance, hiding its own outputs, and knowing of the inputs of others nothing but what their
commitments show: the result balances as a whole. -/
theorem C70_joint {E : Env} (P : Pedersen E.z M) {known : List Desc} {tx : Tx} (h : Joint E known tx) :
    Balanced P E known tx := by
  induction h with
  | start h1 h2 => simp [Balanced, h1, h2]
  | turn _ ht ih => exact turn_balanced P ih ht

theorem inputTargets_plain {E : Env} {A : BlindArgs} : ∀ {l : List (TxIn × Desc)} {i : Nat} {t t' : Targets} {tok : Option Bytes},
    inputTargets E A i l t tok = .ok t' → ∀ p ∈ l, p.1.assetIssuance.isNull = true ∨
      (¬ IsValueCommitment p.1.assetIssuance.nAmount ∧ ¬ IsValueCommitment p.1.assetIssuance.nInflationKeys)
  | [], _, _, _, _, _, p, hp => by cases hp
  | (txin, d) :: l, i, t, t', tok, h, p, hp => by
    unfold inputTargets at h
    obtain ⟨g, hg, h⟩ := exc_bind_ok.1 h
    obtain ⟨t1, h1, h⟩ := exc_bind_ok.1 h
    obtain ⟨⟨t2, tok2⟩, h2, h⟩ := exc_bind_ok.1 h
    rcases List.mem_cons.1 hp with rfl | hp
    · unfold issuanceTargets at h2
      by_cases hn : txin.assetIssuance.isNull = true
      · exact .inl hn
      · rw [if_neg hn] at h2
        by_cases c1 : confIsCommitment valueKind txin.assetIssuance.nAmount = true
        · rw [if_pos c1] at h2; cases h2
        · rw [if_neg c1] at h2
          by_cases c2 : confIsCommitment valueKind txin.assetIssuance.nInflationKeys = true
          · rw [if_pos c2] at h2; cases h2
          · exact .inr ⟨fun c => c1 (valueCommitment_iff.2 c), fun c => c2 (valueCommitment_iff.2 c)⟩
    · exact inputTargets_plain h p hp

/-- C70, what a turn cannot follow: once an issued amount is hidden, nobody can blind after that. -/
theorem C70_blocked {E : Env} {A : BlindArgs} {tx tx' : Tx} {r : Except PyErr BlindResult}
    (h : blindTransaction E A tx = (r, tx')) {txin : TxIn} (hi : txin ∈ tx.vin)
    (hc : IsValueCommitment txin.assetIssuance.nAmount ∨ IsValueCommitment txin.assetIssuance.nInflationKeys) :
    ∀ num bfs abfs, r ≠ .ok (.success num bfs abfs) := by
  rintro num bfs abfs rfl
  obtain ⟨C, s', hC, -⟩ := blind_success h
  have ht := hC.targets
  unfold surjTargets at ht
  obtain ⟨t, ht, -⟩ := exc_bind_ok.1 ht
  obtain ⟨i, hl, hx⟩ := List.mem_iff_getElem.1 hi
  have hlen : tx.vin.length = A.descs.length := hC.lengths.descs.symm
  have hm : (txin, A.descs[i]'(by omega)) ∈ tx.vin.zip A.descs := by
    rw [List.mem_iff_getElem]
    exact ⟨i, by simp; omega, by simp [hx]⟩
  rcases inputTargets_plain ht _ hm with hn | ⟨h1, h2⟩
  · have hn : txin.assetIssuance.nAmount = [] ∧ txin.assetIssuance.nInflationKeys = [] := by
      simpa [Issuance.isNull, confIsNull] using hn
    rw [hn.1, hn.2] at hc
    rcases hc with hc | hc <;> exact not_commitment_nil hc
  · rcases hc with hc | hc
    · exact h1 hc
    · exact h2 hc

/- Two parties. The first hides all of its input in one output, the second adds an input of another
asset and pays the fee from it. -/
namespace Toy

def jointTx1 : Tx := tx [(5, 8)]
def jointArgs1 : BlindArgs :=
  { descs := [⟨b32 5, 8, b32 3, b32 4⟩], pubkeys := [pub 3], rand := fun k => b32 (k + 5) }
def joint1 : Tx := (blindTransaction env jointArgs1 jointTx1).2
def jointIns : List TxIn := [{ prevout := ⟨b32 10, 1⟩ }]
def jointOuts : List TxOut :=
  [{ nAsset := ast 6, nValue := amt 3, scriptPubKey := [0x51] }, { nAsset := ast 6, nValue := amt 1, scriptPubKey := [] }]
def jointTx2 : Tx := { joint1 with vin := joint1.vin ++ jointIns, vout := joint1.vout ++ jointOuts }
def jointForeign : List Desc := [⟨zero32, -1, zero32, zero32⟩]
def jointOwn : List Desc := [⟨b32 6, 4, b32 2, b32 1⟩]
def jointArgs2 : BlindArgs :=
  { descs := jointForeign ++ jointOwn, pubkeys := [[], pub 4, []], auxGens := [10 :: b32 9, 10 :: b32 7], rand := fun k => b32 (k + 8) }
def joint2 : Tx := (blindTransaction env jointArgs2 jointTx2).2

end Toy

theorem Toy.one_commitment {A : BlindArgs} {t : Tx} {k : Nat} (h : ∀ j, A.pubkeys.getD j [] ≠ [] → j = k)
    (hk : ∃ b : Bytes, (t.vout.getD k {}).nValue = 8 :: b ∧ b.length = 32) :
    ∀ j, A.pubkeys.getD j [] ≠ [] → IsValueCommitment (t.vout.getD j {}).nValue := by
  intro j hj
  obtain ⟨b, hb, hl⟩ := hk
  rw [h j hj]
  exact ⟨b, .inl hb, hl⟩

theorem Toy.turn1 : Turn Toy.env Toy.jointArgs1 [] Toy.jointArgs1.descs Toy.jointTx1.vin Toy.jointTx1.vout
    { Toy.jointTx1 with vin := [], vout := [] } Toy.jointTx1 Toy.joint1 where
  vin := rfl
  vout := rfl
  descs := rfl
  count := rfl
  unknown := by simp
  keys := by simp
  balance := by
    refine ⟨?_, ?_, ?_⟩
    · intro o ho
      simp only [Toy.jointTx1, Toy.tx, List.map_cons, List.map_nil, List.mem_cons, List.not_mem_nil, or_false] at ho
      subst ho
      exact ⟨⟨beBytes 8 _, rfl, by simp⟩, ⟨beBytes 32 _, rfl, by simp⟩⟩
    · intro i hi
      simp only [Toy.jointTx1, Toy.tx, List.mem_cons, List.not_mem_nil, or_false] at hi
      subst hi
      exact ⟨.inl rfl, .inl rfl⟩
    · intro a
      have e1 : spentAmounts Toy.jointArgs1.descs = [(Toy.b32 5, 8)] := by decide +kernel
      have e2 : outAmounts Toy.jointTx1 = [(Toy.b32 5, 8)] := by decide +kernel
      have e3 : ∃ i t, issuedAmounts Toy.env Toy.jointArgs1 Toy.jointTx1 = [(i, 0), (t, 0)] := ⟨_, _, rfl⟩
      obtain ⟨i, t, e3⟩ := e3
      show total a (spentAmounts Toy.jointArgs1.descs ++ issuedAmounts Toy.env Toy.jointArgs1 Toy.jointTx1) = total a (outAmounts Toy.jointTx1)
      rw [e1, e2, e3]
      simp only [List.cons_append, List.nil_append, Toy.total_cons, ite_self]
      simp [total]
  done := by
    obtain ⟨b, a, t', hx⟩ := success_of (x := blindTransaction Toy.env Toy.jointArgs1 Toy.jointTx1) (n := 1) (by decide +kernel)
    exact ⟨1, b, a, by unfold Toy.joint1; rw [hx]⟩
  some := ⟨0, by decide⟩
  all := by
    refine Toy.one_commitment (k := 0) ?_ ⟨(Toy.joint1.vout.getD 0 {}).nValue.drop 1, by decide +kernel, by decide +kernel⟩
    intro j hj
    rcases j with - | j
    · rfl
    · exact absurd rfl hj
  sizes := Toy.sizes _ _ (by decide)
  fine := by
    refine ⟨?_, ?_, by decide⟩
    · intro i token key _ h
      cases token <;> simp [BlindArgs.issuanceKey, Toy.jointArgs1] at h
    · intro i key h
      simp [BlindArgs.issuanceKey, Toy.jointArgs1] at h

theorem Toy.turn2 : Turn Toy.env Toy.jointArgs2 Toy.jointForeign Toy.jointOwn Toy.jointIns Toy.jointOuts
    Toy.joint1 Toy.jointTx2 Toy.joint2 where
  vin := rfl
  vout := rfl
  descs := rfl
  count := by decide +kernel
  unknown := by decide
  keys := by
    intro i token _
    cases token <;> rfl
  balance := by
    refine ⟨?_, ?_, ?_⟩
    · intro o ho
      simp only [Toy.jointOuts, List.mem_cons, List.not_mem_nil, or_false] at ho
      rcases ho with rfl | rfl <;>
      exact ⟨⟨beBytes 8 _, rfl, by simp⟩, ⟨beBytes 32 _, rfl, by simp⟩⟩
    · intro i hi
      simp only [Toy.jointIns, List.mem_cons, List.not_mem_nil, or_false] at hi
      subst hi
      exact ⟨.inl rfl, .inl rfl⟩
    · intro a
      have e1 : spentAmounts Toy.jointOwn = [(Toy.b32 6, 4)] := by decide +kernel
      have e2 : outAmounts { Toy.jointTx2 with vin := Toy.jointIns, vout := Toy.jointOuts } = [(Toy.b32 6, 3), (Toy.b32 6, 1)] := by
        decide +kernel
      have e3 : ∃ i t, issuedAmounts Toy.env (Toy.jointArgs2.own Toy.jointOwn Toy.joint1.vin.length)
          { Toy.jointTx2 with vin := Toy.jointIns, vout := Toy.jointOuts } = [(i, 0), (t, 0)] := ⟨_, _, rfl⟩
      obtain ⟨i, t, e3⟩ := e3
      show total a (spentAmounts Toy.jointOwn ++ _) = _
      rw [e1, e2, e3]
      simp only [List.cons_append, List.nil_append, Toy.total_cons, ite_self]
      simp only [total, List.filter_nil, List.map_nil, List.sum_nil]
      split <;> omega
  done := by
    obtain ⟨b, a, t', hx⟩ := success_of (x := blindTransaction Toy.env Toy.jointArgs2 Toy.jointTx2) (n := 1) (by decide +kernel)
    exact ⟨1, b, a, by unfold Toy.joint2; rw [hx]⟩
  some := ⟨1, by decide⟩
  all := by
    refine Toy.one_commitment (k := 1) ?_ ⟨(Toy.joint2.vout.getD 1 {}).nValue.drop 1, by decide +kernel, by decide +kernel⟩
    intro j hj
    match j with
    | 0 => exact absurd rfl hj
    | 1 => rfl
    | 2 => exact absurd rfl hj
    | _ + 3 => exact absurd rfl hj
  sizes := by
    have : Toy.jointTx2.vin = Toy.jointTx1.vin ++ Toy.jointIns := by decide +kernel
    rw [this]
    intro t ht
    rcases List.mem_append.1 ht with ht | ht
    · exact Toy.sizes _ _ (by decide) t ht
    · simp only [Toy.jointIns, List.mem_cons, List.not_mem_nil, or_false] at ht
      subst ht
      exact ⟨by show (Toy.b32 10).length = 32; simp [Toy.b32], by show (1 : Nat) < 2 ^ 32; decide, by decide⟩
  fine := by
    refine ⟨?_, ?_, by decide⟩
    · intro i token key _ h
      cases token <;> simp [BlindArgs.issuanceKey, Toy.jointArgs2] at h
    · intro i key h
      simp [BlindArgs.issuanceKey, Toy.jointArgs2] at h

-- the two turns give a balanced transaction in which both parties hid something
example : Joint Toy.env [⟨Toy.b32 5, 8, Toy.b32 3, Toy.b32 4⟩, ⟨Toy.b32 6, 4, Toy.b32 2, Toy.b32 1⟩] Toy.joint2 ∧
    Balanced Toy.pedersen Toy.env [⟨Toy.b32 5, 8, Toy.b32 3, Toy.b32 4⟩, ⟨Toy.b32 6, 4, Toy.b32 2, Toy.b32 1⟩] Toy.joint2 ∧
    Toy.joint2.vin.length = 2 ∧ (Toy.joint2.vout.map fun o => o.nValue.head?) = [some 8, some 8, some 1] := by
  have h : Joint Toy.env (([] ++ Toy.jointArgs1.descs) ++ Toy.jointOwn) Toy.joint2 :=
    .turn (.turn (.start rfl rfl) Toy.turn1) Toy.turn2
  have e : ([] ++ Toy.jointArgs1.descs) ++ Toy.jointOwn
      = [⟨Toy.b32 5, 8, Toy.b32 3, Toy.b32 4⟩, ⟨Toy.b32 6, 4, Toy.b32 2, Toy.b32 1⟩] := rfl
  rw [e] at h
  exact ⟨h, C70_joint (E := Toy.env) Toy.pedersen h, by decide +kernel, by decide +kernel⟩

theorem Toy.commitment {x : Bytes} (h : x.head? = some 8 ∧ x.length = 33) : IsValueCommitment x := by
  obtain ⟨h1, h2⟩ := h
  cases x with
  | nil => cases h1
  | cons y t =>
    simp only [List.head?_cons, Option.some.injEq] at h1
    subst h1
    exact ⟨t, .inl rfl, by simpa using h2⟩

-- with a hidden issuance no second turn is possible
example : IsValueCommitment (((blindTransaction Toy.env Toy.balArgs Toy.balTx).2.vin.getD 0 default).assetIssuance.nAmount) := by
  apply Toy.commitment
  decide +kernel

end Verif
