import Verif.Spec.Spend
import Verif.Props.Balance
import Verif.Props.Unblind
/-
C57: what was unblinded can be spent.
-/
namespace Verif

variable {M : Type} [AddCommGroup M] [Module Scalar M]

/-- C57, first half: the descriptor got from unblinding an output opens the commitments of that
output as they stand in the transaction; so does the descriptor of an explicit output. -/
theorem C57_opening {E : Env} (P : Pedersen E.z M) (hP : RewindSound P) {o : TxOut} {w : TxOutWitness} {d : Desc}
    (h : DescribedBy E o w d) : P.outPt o = P.spentPt d := by
  cases h with
  | unblinded key asset amount bf abf r d hu hr hd =>
    obtain ⟨-, hv, -, nonce, extra, g, c, msg, -, -, hc, hrew, -, -, -, g', s, hg', hs, hs'⟩ := (C37_success_iff ..).1 hu
    simp only [UnblindResult.obj, unblindingSuccessNew] at hr
    split at hr
    · injection hr with hr
      subst hr
      injection hd with hd
      subst hd
      rw [outPt_commitment P hv, hP _ _ _ _ _ _ _ _ _ _ hc hrew, ← P.genSerialize _ _ hs, P.genSerialize _ _ hs',
        P.generateBlinded _ _ _ hg']
      rfl
    · cases hr
  | plain a v ha hv hal hvl =>
    have hz : scalar (List.replicate 32 0) = 0 := by
      unfold scalar
      rw [show beVal (List.replicate 32 0) = 0 by decide]
      exact Nat.cast_zero
    simp only [Pedersen.outPt, Pedersen.assetPt, Pedersen.spentPt, ha, hv, hz, Int.toNat_natCast, zero_smul, add_zero]

/-- Amounts of such descriptors fit eight bytes. -/
theorem described_amount {E : Env} {o : TxOut} {w : TxOutWitness} {d : Desc} (h : DescribedBy E o w d) :
    0 ≤ d.amount ∧ d.amount < 2 ^ 64 := by
  cases h with
  | unblinded key asset amount bf abf r d hu hr hd =>
    have hm := ((C37_success_iff ..).1 hu).money
    simp only [UnblindResult.obj, unblindingSuccessNew] at hr
    split at hr
    · injection hr with hr
      subst hr
      injection hd with hd
      subst hd
      exact ⟨Int.natCast_nonneg _, by show (amount : Int) < _; omega⟩
    · cases hr
  | plain a v ha hv hal hvl =>
    have := beVal_lt v
    rw [hvl] at this
    exact ⟨Int.natCast_nonneg _, by show ((beVal v : Nat) : Int) < _; omega⟩

/-- C57: blind a transaction with the descriptors of outputs that were unblinded (or are
explicit), everything balancing in plain amounts.  Then the commitments on chain, those of the
spent outputs and those of the blinded transaction, balance. -/
theorem C57_spend_partial {E : Env} {A : BlindArgs} {tx tx' : Tx} {num bfs abfs} (P : Pedersen E.z M) (hP : RewindSound P)
    (spent : List (TxOut × TxOutWitness)) (hd : List.Forall₂ (fun x d => DescribedBy E x.1 x.2 d) spent A.descs)
    (h : blindTransaction E A tx = (.ok (.success num bfs abfs), tx')) (hsz : ∀ t ∈ tx.vin, InputSizes t)
    (hb : AmountsBalance E A tx)
    (hiss : ∀ i token key, i < tx.vin.length → A.issuanceKey i token = some key →
      (tx.vin.getD i default).assetIssuance.isNull = false)
    (htok : ∀ i key, A.issuanceKey i true = some key → ∃ key', A.issuanceKey i false = some key')
    (hone : ∃ j, A.pubkeys.getD j [] ≠ [])
    (hall : ∀ j, A.pubkeys.getD j [] ≠ [] → IsValueCommitment (tx'.vout.getD j {}).nValue) :
    SpendsBalanced P E (spent.map Prod.fst) tx' := by
  have key : ∀ (l : List (TxOut × TxOutWitness)) (ds : List Desc), List.Forall₂ (fun x d => DescribedBy E x.1 x.2 d) l ds →
      (l.map Prod.fst).map P.outPt = ds.map P.spentPt ∧ ∀ d ∈ ds, 0 ≤ d.amount ∧ d.amount < 2 ^ 64 := by
    intro l ds hf
    induction hf with
    | nil => exact ⟨rfl, by simp⟩
    | cons hx _ ih =>
      refine ⟨?_, ?_⟩
      · simp only [List.map_cons]
        rw [C57_opening P hP hx, ← ih.1]
      · intro d hd
        rcases List.mem_cons.1 hd with rfl | hd
        · exact described_amount hx
        · exact ih.2 d hd
  obtain ⟨k1, k2⟩ := key _ _ hd
  have := C34_balanced_partial P h hsz hb ⟨hiss, htok, fun d hd => (k2 d hd).2⟩ hone hall
  unfold SpendsBalanced
  rw [k1]
  exact this

/-- C57, the full statement: success is enough. -/
def C57_statement : Prop := ∀ (M : Type) [AddCommGroup M] [Module Scalar M] (E : Env) (A : BlindArgs) (tx tx' : Tx) (num : Nat)
    (bfs abfs : List Bytes) (P : Pedersen E.z M) (spent : List (TxOut × TxOutWitness)), RewindSound P →
  List.Forall₂ (fun x d => DescribedBy E x.1 x.2 d) spent A.descs →
  blindTransaction E A tx = (.ok (.success num bfs abfs), tx') → A.strict = true → (∀ t ∈ tx.vin, InputSizes t) →
  AmountsBalance E A tx → SpendsBalanced P E (spent.map Prod.fst) tx'

/-- A transaction that pays 3 of an asset to a key, blinded. -/
def Toy.paidArgs : BlindArgs :=
  { descs := [⟨Toy.b32 5, 7, Toy.b32 3, Toy.b32 4⟩], pubkeys := [Toy.pub 3, Toy.pub 4], rand := fun k => Toy.b32 (k + 5) }
@[irreducible] def Toy.paid : Tx := (blindTransaction Toy.env Toy.paidArgs (Toy.tx [(5, 3), (5, 4)])).2
def Toy.paidOut : TxOut × TxOutWitness := (Toy.paid.vout.getD 0 {}, Toy.paid.outWit 0)
/-- What its owner learns. -/
def Toy.paidDesc : Desc := ⟨Toy.b32 5, 3, Toy.b32 5, Toy.b32 6⟩

theorem Toy.paid_described : DescribedBy Toy.env Toy.paidOut.1 Toy.paidOut.2 Toy.paidDesc :=
  .unblinded (Toy.b32 3) (Toy.b32 5) 3 (Toy.b32 5) (Toy.b32 6) (.unblindingSuccess (Toy.b32 5) 3 (Toy.b32 5) (Toy.b32 6)) _
    (by decide +kernel) (by decide +kernel) (by decide +kernel)

/-- Spending it without hiding anything. -/
def Toy.openArgs : BlindArgs := { descs := [Toy.paidDesc], pubkeys := [[]], rand := fun k => Toy.b32 (k + 5) }
/-- Spending it into two hidden outputs. -/
def Toy.splitArgs : BlindArgs := { descs := [Toy.paidDesc], pubkeys := [Toy.pub 7, Toy.pub 8], rand := fun k => Toy.b32 (k + 11) }

theorem Toy.spend_amounts {A : BlindArgs} (hA : A.descs = [Toy.paidDesc]) {outs : List (Nat × Nat)}
    (hs : ∀ a, total a (outAmounts (Toy.tx outs)) = if Toy.b32 5 = a then 3 else 0) : AmountsBalance Toy.env A (Toy.tx outs) := by
  refine ⟨?_, ?_, ?_⟩
  · intro o ho
    simp only [Toy.tx, List.mem_map] at ho
    obtain ⟨x, -, rfl⟩ := ho
    exact ⟨⟨_, rfl, by simp⟩, ⟨_, rfl, by simp⟩⟩
  · intro i hi
    simp only [Toy.tx, List.mem_cons, List.not_mem_nil, or_false] at hi
    subst hi
    exact ⟨.inl rfl, .inl rfl⟩
  · intro a
    have e3 : ∃ i t, issuedAmounts Toy.env A (Toy.tx outs) = [(i, 0), (t, 0)] := ⟨_, _, rfl⟩
    obtain ⟨i, t, e3⟩ := e3
    rw [hs, spentAmounts, hA, e3]
    simp only [List.map_cons, List.map_nil, List.cons_append, List.nil_append, Toy.total_cons, ite_self]
    simp [total, Toy.paidDesc]
    by_cases h : Toy.b32 5 = a <;> simp [h]

/-- C57 fails as stated: a hidden output spent into an explicit one only is reported as a
success, with nothing to absorb the blinding factors. -/
theorem C57_statement_false : ¬ C57_statement := by
  intro h
  obtain ⟨b, a, t', hx⟩ := success_of (x := blindTransaction Toy.env Toy.openArgs (Toy.tx [(5, 3)])) (n := 0) (by decide +kernel)
  have := h Scalar Toy.env Toy.openArgs _ _ _ _ _ Toy.pedersen [Toy.paidOut] Toy.rewindSound
    (.cons Toy.paid_described .nil) hx rfl (Toy.sizes _ _ (by decide)) (Toy.spend_amounts rfl (by
      intro a
      rw [show outAmounts (Toy.tx [(5, 3)]) = [(Toy.b32 5, 3)] by decide]
      simp only [Toy.total_cons]
      simp [total]))
  rw [show t' = (blindTransaction Toy.env Toy.openArgs (Toy.tx [(5, 3)])).2 by rw [hx]] at this
  revert this
  unfold SpendsBalanced
  decide +kernel

def Toy.splitTx : Tx := Toy.tx [(5, 1), (5, 2)]

theorem Toy.split_iss : (∀ i token key, i < Toy.splitTx.vin.length → Toy.splitArgs.issuanceKey i token = some key →
      (Toy.splitTx.vin.getD i default).assetIssuance.isNull = false) ∧
    (∀ i key, Toy.splitArgs.issuanceKey i true = some key → ∃ key', Toy.splitArgs.issuanceKey i false = some key') := by
  refine ⟨?_, ?_⟩
  · intro i token key _ hkey
    cases token <;> simp [BlindArgs.issuanceKey, Toy.splitArgs] at hkey
  · intro i key hkey
    simp [BlindArgs.issuanceKey, Toy.splitArgs] at hkey

theorem Toy.split_amounts : AmountsBalance Toy.env Toy.splitArgs Toy.splitTx :=
  Toy.spend_amounts rfl (by
    intro a
    rw [show outAmounts (Toy.tx [(5, 1), (5, 2)]) = [(Toy.b32 5, 1), (Toy.b32 5, 2)] by decide]
    simp only [Toy.total_cons]
    by_cases h : Toy.b32 5 = a <;> simp [total, h])

theorem commitment_of_head {v : Bytes} (h : (v.head?, v.length) = (some 8, 33)) : IsValueCommitment v := by
  obtain ⟨h1, h2⟩ := Prod.mk.inj h
  cases v with
  | nil => cases h1
  | cons x c =>
    simp at h1 h2
    exact ⟨c, by simp [h1], h2⟩

theorem Toy.split_committed {t' : Tx} (hv : (t'.vout.map fun o => (o.nValue.head?, o.nValue.length)) = [(some 8, 33), (some 8, 33)]) :
    ∀ j, Toy.splitArgs.pubkeys.getD j [] ≠ [] → IsValueCommitment (t'.vout.getD j {}).nValue := by
  intro j hj
  have hl := congrArg List.length hv
  simp at hl
  have hlt : j < t'.vout.length := by
    rw [hl]
    refine Nat.lt_of_not_le fun h => hj ?_
    rw [List.getD_eq_getElem?_getD, List.getElem?_eq_none (by simpa [Toy.splitArgs] using h)]
    rfl
  have hm : t'.vout.getD j {} ∈ t'.vout := by
    rw [List.getD_eq_getElem?_getD, List.getElem?_eq_getElem hlt]
    exact List.getElem_mem hlt
  refine commitment_of_head ?_
  have := List.mem_map_of_mem (f := fun o : TxOut => (o.nValue.head?, o.nValue.length)) hm
  rw [hv] at this
  simpa using this

-- blinded, unblinded by its owner, spent into two hidden outputs: the commitments balance
example : ∃ b a t', blindTransaction Toy.env Toy.splitArgs Toy.splitTx = (Except.ok (BlindResult.success 2 b a), t') ∧
    SpendsBalanced Toy.pedersen Toy.env ([Toy.paidOut].map Prod.fst) t' ∧ IsValueCommitment Toy.paidOut.1.nValue := by
  obtain ⟨b, a, t', hx⟩ := success_of (x := blindTransaction Toy.env Toy.splitArgs Toy.splitTx) (n := 2) (by decide +kernel)
  have hv : ((blindTransaction Toy.env Toy.splitArgs Toy.splitTx).2.vout.map
      fun o => (o.nValue.head?, o.nValue.length)) = [(some 8, 33), (some 8, 33)] := by decide +kernel
  rw [hx] at hv
  have hp : (Toy.paidOut.1.nValue.head?, Toy.paidOut.1.nValue.length) = (some 8, 33) := by decide +kernel
  have hone : ∃ j, Toy.splitArgs.pubkeys.getD j [] ≠ [] := ⟨0, by decide +kernel⟩
  have hsz : ∀ i ∈ Toy.splitTx.vin, InputSizes i := by unfold Toy.splitTx; exact Toy.sizes _ _ (by decide)
  have hbal := C57_spend_partial (E := Toy.env) (A := Toy.splitArgs) (tx := Toy.splitTx) (tx' := t') Toy.pedersen Toy.rewindSound
    [Toy.paidOut] (.cons Toy.paid_described .nil) hx hsz Toy.split_amounts Toy.split_iss.1 Toy.split_iss.2 hone
    (Toy.split_committed hv)
  exact ⟨b, a, t', hx, hbal, commitment_of_head hp⟩

end Verif
