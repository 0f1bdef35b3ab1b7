import Verif.Props.Spend
import Verif.Props.BalanceExact
/-
C57, exactly: descriptors got from unblinding may stand for the spent outputs in any transaction, and when a blinded transaction
balances against what is on the chain.
-/
namespace Verif

variable {M : Type} [AddCommGroup M] [Module Scalar M]

/-- C57: descriptors got from unblinding stand for the outputs themselves: any transaction balances against the one if and only if it
balances against the other. -/
theorem C57_stands {E : Env} (P : Pedersen E.z M) (hP : RewindSound P) {spent : List (TxOut × TxOutWitness)} {descs : List Desc}
    (hd : List.Forall₂ (fun x d => DescribedBy E x.1 x.2 d) spent descs) (tx : Tx) :
    SpendsBalanced P E (spent.map Prod.fst) tx ↔ Balanced P E descs tx := by
  have key : (spent.map Prod.fst).map P.outPt = descs.map P.spentPt := by
    induction hd with
    | nil => rfl
    | cons hx _ ih => simp only [List.map_cons]; rw [C57_opening P hP hx, ← ih]
  unfold SpendsBalanced
  rw [key]
  exact Iff.rfl

/-- C57, exactly: what was made balances against the outputs on the chain if and only if the factors that came back, and those of hidden
issuances, add up to those that unblinding gave. -/
theorem C57_exact {E : Env} {A : BlindArgs} {tx tx' : Tx} {num bfs abfs} (P : Pedersen E.z M) (hP : RewindSound P)
    (spent : List (TxOut × TxOutWitness)) (hd : List.Forall₂ (fun x d => DescribedBy E x.1 x.2 d) spent A.descs)
    (h : blindTransaction E A tx = (.ok (.success num bfs abfs), tx')) (hsz : ∀ t ∈ tx.vin, InputSizes t)
    (hb : PlainBalance E A.descs tx tx')
    (hc : ∀ i, IsValueCommitment ((tx'.vin.getD i default).issued true) →
      IsValueCommitment ((tx'.vin.getD i default).issued false)) :
    ∃ ibf : Nat → Bool → Bytes, (∀ i token, (ibf i token).length = 32 ∧ IssuedBy E tx tx' i token (ibf i token)) ∧
      (SpendsBalanced P E (spent.map Prod.fst) tx' ↔
        (spentMask A.descs + issuedMask tx.vin.length ibf - reportedMask tx.vout bfs abfs) • P.G = 0) := by
  obtain ⟨ibf, h1, h2⟩ := C34_exact P h hsz hb hc
  exact ⟨ibf, h1, (C57_stands P hP hd tx').trans h2⟩

/-- The same without hidden issuances. -/
theorem C57_exact_outputs {E : Env} {A : BlindArgs} {tx tx' : Tx} {num bfs abfs} (P : Pedersen E.z M) (hP : RewindSound P)
    (spent : List (TxOut × TxOutWitness)) (hd : List.Forall₂ (fun x d => DescribedBy E x.1 x.2 d) spent A.descs)
    (h : blindTransaction E A tx = (.ok (.success num bfs abfs), tx')) (hsz : ∀ t ∈ tx.vin, InputSizes t)
    (hsame : tx'.vin = tx.vin) (hb : PlainBalance E A.descs tx tx) :
    SpendsBalanced P E (spent.map Prod.fst) tx' ↔ (spentMask A.descs - reportedMask tx.vout bfs abfs) • P.G = 0 :=
  (C57_stands P hP hd tx').trans (C34_exact_outputs P h hsz hsame hb)

/-- The case of `C57_statement_false`: a hidden output spent into an explicit one; the factors tell that it does not balance. -/
example : ∃ b a t', blindTransaction Toy.env Toy.openArgs (Toy.tx [(5, 3)]) = (.ok (.success 0 b a), t') ∧
    ¬ SpendsBalanced Toy.pedersen Toy.env [Toy.paidOut.1] t' ∧ spentMask Toy.openArgs.descs - reportedMask (Toy.tx [(5, 3)]).vout b a ≠ 0 := by
  obtain ⟨b, a, t', hx⟩ := success_of (x := blindTransaction Toy.env Toy.openArgs (Toy.tx [(5, 3)])) (n := 0) (by decide +kernel)
  have hv : t'.vin = (Toy.tx [(5, 3)]).vin := by
    rw [show t' = (blindTransaction Toy.env Toy.openArgs (Toy.tx [(5, 3)])).2 by rw [hx]]
    decide +kernel
  have hp : PlainBalance Toy.env Toy.openArgs.descs (Toy.tx [(5, 3)]) (Toy.tx [(5, 3)]) := Toy.plain _ _ (fun a => by
    have e1 : spentAmounts Toy.openArgs.descs = [(Toy.b32 5, 3)] := rfl
    have e2 : outAmounts (Toy.tx [(5, 3)]) = [(Toy.b32 5, 3)] := by decide
    rw [e1, e2])
  have hnb : ¬ SpendsBalanced Toy.pedersen Toy.env [Toy.paidOut.1] t' := by
    rw [show t' = (blindTransaction Toy.env Toy.openArgs (Toy.tx [(5, 3)])).2 by rw [hx]]
    unfold SpendsBalanced
    decide +kernel
  have key := C57_exact_outputs (E := Toy.env) (A := Toy.openArgs) (tx := Toy.tx [(5, 3)]) (tx' := t') Toy.pedersen Toy.rewindSound
    [Toy.paidOut] (.cons Toy.paid_described .nil) hx (Toy.sizes _ _ (by decide)) hv hp
  refine ⟨b, a, t', hx, hnb, ?_⟩
  generalize spentMask Toy.openArgs.descs - reportedMask (Toy.tx [(5, 3)]).vout b a = m at key ⊢
  rintro rfl
  exact hnb (key.2 (zero_smul _ _))

end Verif
