import Verif.Spec.BalanceExact
import Verif.Props.Balance
import Verif.Props.BlindEnd
import Verif.Props.TokenId
/-
C34: by how much a blinded transaction fails to balance, whatever the keys and however blinding
ended, in terms of the factors it returned.
-/
namespace Verif

variable {z : Zkp} {M : Type} [AddCommGroup M] [Module Scalar M]

theorem list_range {α : Type} (l : List α) (d : α) : l = (List.range l.length).map fun i => l.getD i d := by
  apply List.ext_getElem
  · simp
  · intro i h1 h2
    simp [List.getD_eq_getElem?_getD, List.getElem?_eq_getElem h1]

theorem sum_masks (f g : Nat → M) (m : Nat → Scalar) (G : M) : ∀ l : List Nat, (∀ i ∈ l, f i = g i + m i • G) →
    (l.map f).sum = (l.map g).sum + (l.map m).sum • G
  | [], _ => by simp
  | i :: l, h => by
    have ih := sum_masks f g m G l (fun j hj => h j (List.mem_cons_of_mem _ hj))
    simp only [List.map_cons, List.sum_cons, ih, h i List.mem_cons_self, add_smul]
    abel

theorem spentMask_sum (P : Pedersen z M) : ∀ descs : List Desc,
    (descs.map P.spentPt).sum = P.plainPt descs + spentMask descs • P.G
  | [] => by simp [Pedersen.plainPt, spentAmounts, spentMask]
  | d :: descs => by
    have ih := spentMask_sum P descs
    have e1 : P.plainPt (d :: descs) = (d.amount.toNat : Scalar) • P.H d.asset + P.plainPt descs := rfl
    have e2 : spentMask (d :: descs) = (d.amount.toNat : Scalar) * scalar d.assetBlindingFactor + scalar d.blindingFactor
      + spentMask descs := rfl
    rw [List.map_cons, List.sum_cons, ih, e1, e2]
    unfold Pedersen.spentPt
    module

theorem outs_masks {E : Env} {A : BlindArgs} {tx tx' : Tx} {num bfs abfs} (P : Pedersen E.z M)
    (h : blindTransaction E A tx = (.ok (.success num bfs abfs), tx')) :
    (tx'.vout.map P.outPt).sum = (tx.vout.map P.outPt).sum + reportedMask tx.vout bfs abfs • P.G := by
  obtain ⟨hb, ha, hf⟩ := C35_factors h
  have hl : tx'.vout.length = tx.vout.length := by
    have := (C32_counts E A tx).2
    rw [h] at this
    exact this
  rw [list_range tx'.vout {}, hl, List.map_map]
  conv_rhs => rw [list_range tx.vout {}, List.map_map]
  rw [← list_range tx.vout {}]
  apply sum_masks
  intro j hj
  rw [List.mem_range] at hj
  rcases hf j hj with ⟨⟨hu, -⟩, f1, f2⟩ | ⟨-, hc, bf, abf, asset, v, gen, com, f1, f2, hv⟩
  · simp only [Function.comp, List.getD_eq_getElem?_getD, hu, f1, f2, Option.getD_some]
    have : scalar (List.replicate 32 0) = 0 := scalar_zero32
    rw [this]
    module
  · simp only [Function.comp, List.getD_eq_getElem?_getD (l := bfs), List.getD_eq_getElem?_getD (l := abfs), f1, f2, Option.getD_some]
    rw [outPt_commitment P hc, P.commitSerialize _ _ hv.nValue, P.commit _ _ _ _ hv.commitment,
      P.generateBlinded _ _ _ hv.generator]
    unfold Pedersen.outPt
    rw [hv.explicitValue, hv.explicitAsset]
    simp only [Pedersen.assetPt, amountOf]
    module

/-- The second half of C35: what is issued is as before, or hidden under some factor. -/
theorem C35_issuances {E : Env} {A : BlindArgs} {tx tx' : Tx} {num bfs abfs}
    (h : blindTransaction E A tx = (.ok (.success num bfs abfs), tx')) (hsz : ∀ t ∈ tx.vin, InputSizes t) :
    ∀ i token, ∃ bf, bf.length = 32 ∧ IssuedBy E tx tx' i token bf := by
  intro i token
  have same : IssuanceSame tx tx' (i, token) → ∃ bf, bf.length = 32 ∧ IssuedBy E tx tx' i token bf := by
    intro hs
    refine ⟨_, List.length_replicate, .same ?_⟩
    have := hs.1
    dsimp only at this
    rw [List.getD_eq_getElem?_getD, List.getD_eq_getElem?_getD]
    cases h1 : tx'.vin[i]? <;> cases h2 : tx.vin[i]? <;> rw [h1, h2] at this <;> simp_all
  have done : IssuanceDone E A tx tx' (i, token) → ∃ bf, bf.length = 32 ∧ IssuedBy E tx tx' i token bf := by
    intro g
    cases g with
    | notAsked _ g => exact same g
    | nothing _ g => exact same g
    | reissued _ _ g => exact same g
    | blinded key _ g =>
      obtain ⟨hc, v, gen, com, bf, a, p, h1, h2, h3, h4, h5, h6, -⟩ := g
      exact ⟨bf, h3, .hidden v gen com bf h1 h4 h5 h6 hc⟩
  have hg := C61_got_to E A tx hsz
  rw [h] at hg
  have hnr : ¬ ∃ e, (Except.ok (BlindResult.success num bfs abfs) : Except PyErr BlindResult) = .error e := by
    rintro ⟨e, he⟩; cases he
  cases hg with
  | start g => exact same (by dsimp only at g; subst g; exact ⟨rfl, rfl⟩)
  | issuance x key g1 g2 g3 g4 g5 g6 =>
    by_cases hx : (i, token) = x
    · exact same (by rw [hx]; exact g5 hnr)
    · by_cases hb : IssuanceBefore (i, token) x
      · exact done (g2 _ hb)
      · refine same (g3 _ ?_)
        obtain ⟨k, tk⟩ := x
        unfold IssuanceBefore at hb ⊢
        dsimp only at hb ⊢
        cases token <;> cases tk <;> simp_all <;> omega
  | output j g1 => exact done (g1 _)

theorem fixed_after {E : Env} {A : BlindArgs} {tx tx' : Tx} {r}
    (h : blindTransaction E A tx = (r, tx')) (i : Nat) : (tx'.vin.getD i default).fixed = (tx.vin.getD i default).fixed := by
  have := (C32_only_asked E A tx).inputs
  rw [h] at this
  have := congrArg (·[i]?) this
  simp only [List.getElem?_map] at this
  rw [List.getD_eq_getElem?_getD, List.getD_eq_getElem?_getD]
  cases h1 : tx'.vin[i]? <;> cases h2 : tx.vin[i]? <;> rw [h1, h2] at this <;> simp_all

theorem issuedPt_by {E : Env} {t t' : Tx} {i : Nat} {token : Bool} {bf : Bytes} (P : Pedersen E.z M)
    (h : IssuedBy E t t' i token bf) {id : Bytes}
    (hid : IsValueCommitment ((t'.vin.getD i default).issued token) → id = pseudoId E (t.vin.getD i default) token) :
    P.issuedPt id ((t'.vin.getD i default).issued token) = P.issuedPt id ((t.vin.getD i default).issued token) + scalar bf • P.G := by
  cases h with
  | same h =>
    have : scalar (List.replicate 32 0) = 0 := scalar_zero32
    rw [h, this]; module
  | hidden v gen com bf h1 h2 h3 h4 h5 =>
    have : scalar (List.replicate 32 0) = 0 := scalar_zero32
    rw [issuedPt_commitment P h5, P.commitSerialize _ _ h4, P.commit _ _ _ _ h3, P.generateBlinded _ _ _ h2, h1, hid h5, this]
    simp only [Pedersen.issuedPt]
    module

/-- Both issued amounts of all inputs of `t`, the tokens being those the network takes them for
in `t'`. -/
def Pedersen.issuedIn (P : Pedersen z M) (E : Env) (t t' : Tx) : M :=
  ((List.range t.vin.length).map fun i => P.issuancePt E (t'.vin.getD i default).confidential (t.vin.getD i default)).sum

theorem issued_masks {E : Env} {A : BlindArgs} {tx tx' : Tx} {r} (P : Pedersen E.z M)
    (h : blindTransaction E A tx = (r, tx')) {ibf : Nat → Bool → Bytes}
    (hi : ∀ i token, IssuedBy E tx tx' i token (ibf i token))
    (hc : ∀ i, IsValueCommitment ((tx'.vin.getD i default).issued true) → (tx'.vin.getD i default).confidential = true) :
    (tx'.vin.map fun i => P.issuancePt E i.confidential i).sum
      = P.issuedIn E tx tx' + issuedMask tx.vin.length ibf • P.G := by
  have hl : tx'.vin.length = tx.vin.length := by
    have := (C32_counts E A tx).1
    rw [h] at this
    exact this
  conv_lhs => rw [list_range tx'.vin default, hl, List.map_map]
  apply sum_masks
  intro i _
  have hfix := fixed_after h i
  have e1 := issuedPt_by P (hi i false) (id := assetId E (tx.vin.getD i default)) (fun _ => rfl)
  have e2 := issuedPt_by P (hi i true) (id := tokenId E (tx'.vin.getD i default).confidential (tx.vin.getD i default)) (fun hv => by
    rw [hc i hv]; rfl)
  have a1 : assetId E (tx'.vin.getD i default) = assetId E (tx.vin.getD i default) := by
    generalize tx'.vin.getD i default = a at hfix
    generalize tx.vin.getD i default = b at hfix
    simp only [TxIn.fixed, Prod.mk.injEq] at hfix
    obtain ⟨h1, -, -, -, h2, h3⟩ := hfix
    simp only [assetId, issuanceEntropy, h1, h2, h3]
  have a2 := tokenId_fixed (E := E) (c := (tx'.vin.getD i default).confidential) hfix
  simp only [TxIn.issued] at e1 e2
  simp only [Function.comp, Pedersen.issuancePt]
  rw [a1, a2, e1, e2]
  module

theorem plain_balance_in {E : Env} {descs : List Desc} {tx tx' : Tx} (P : Pedersen E.z M) (hb : PlainBalance E descs tx tx') :
    P.plainPt descs + P.issuedIn E tx tx' = (tx.vout.map P.outPt).sum := by
  have h1 := sum_of_totals P.H hb.balance
  rw [List.map_append, List.sum_append] at h1
  have pt : ∀ (id v : Bytes), v = [] ∨ IsExplicitValue v → P.issuedPt id v = (amountOf v : Scalar) • P.H id := by
    intro id v hv
    rcases hv with rfl | ⟨b, rfl, -⟩
    · simp [Pedersen.issuedPt, amountOf]
    · rfl
  have hiss : P.issuedIn E tx tx' = ((issuedAmountsIn E tx tx').map fun x => (x.2 : Scalar) • P.H x.1).sum := by
    unfold Pedersen.issuedIn issuedAmountsIn
    have : ∀ l : List Nat, (∀ i ∈ l, i < tx.vin.length) →
        (l.map fun i => P.issuancePt E (tx'.vin.getD i default).confidential (tx.vin.getD i default)).sum
        = ((l.flatMap fun i => [(assetId E (tx.vin.getD i default), amountOf (tx.vin.getD i default).assetIssuance.nAmount),
            (tokenId E (tx'.vin.getD i default).confidential (tx.vin.getD i default),
              amountOf (tx.vin.getD i default).assetIssuance.nInflationKeys)]).map
              fun x => (x.2 : Scalar) • P.H x.1).sum := by
      intro l
      induction l with
      | nil => intro _; simp
      | cons i l ih =>
        intro hx
        have hi := hx i List.mem_cons_self
        have hm : tx.vin.getD i default ∈ tx.vin := by
          rw [List.getD_eq_getElem?_getD, List.getElem?_eq_getElem hi]
          exact List.getElem_mem hi
        rw [List.map_cons, List.sum_cons, ih (fun y hy => hx y (List.mem_cons_of_mem _ hy)), List.flatMap_cons, List.map_append,
          List.sum_append]
        congr 1
        obtain ⟨f1, f2⟩ := hb.issued _ hm
        unfold Pedersen.issuancePt
        rw [pt _ _ f1, pt _ _ f2]
        simp
    apply this
    intro i hi
    exact List.mem_range.1 hi
  have hout : (tx.vout.map P.outPt).sum = ((outAmounts tx).map fun x => (x.2 : Scalar) • P.H x.1).sum := by
    unfold outAmounts
    rw [List.map_map]
    congr 1
    apply List.map_congr_left
    intro o ho
    obtain ⟨⟨v, hv, -⟩, ⟨a, ha, -⟩⟩ := hb.outputs o ho
    unfold Pedersen.outPt
    rw [hv]
    simp only [Function.comp, hv, ha]
    rfl
  rw [hiss, hout, ← h1]
  rfl

/-- C34, exactly.  Whatever keys were given and however blinding succeeded: the result balances
if and only if the factors that came back for the outputs, and those of the hidden issuances,
add up to those of the inputs.  The amounts have to balance, and tokens may be hidden only where
the issued amount is. -/
theorem C34_exact {E : Env} {A : BlindArgs} {tx tx' : Tx} {num bfs abfs} (P : Pedersen E.z M)
    (h : blindTransaction E A tx = (.ok (.success num bfs abfs), tx')) (hsz : ∀ t ∈ tx.vin, InputSizes t)
    (hb : PlainBalance E A.descs tx tx')
    (hc : ∀ i, IsValueCommitment ((tx'.vin.getD i default).issued true) →
      IsValueCommitment ((tx'.vin.getD i default).issued false)) :
    ∃ ibf : Nat → Bool → Bytes, (∀ i token, (ibf i token).length = 32 ∧ IssuedBy E tx tx' i token (ibf i token)) ∧
      (Balanced P E A.descs tx' ↔
        (spentMask A.descs + issuedMask tx.vin.length ibf - reportedMask tx.vout bfs abfs) • P.G = 0) := by
  choose ibf hl hi using C35_issuances h hsz
  refine ⟨ibf, fun i token => ⟨hl i token, hi i token⟩, ?_⟩
  have e1 := spentMask_sum P A.descs
  have e2 := issued_masks P h hi (fun i hv => confidential_commitment (hc i hv))
  have e3 := outs_masks P h
  have e4 := plain_balance_in P hb
  unfold Balanced
  rw [e1, e2, e3, ← e4, sub_smul, add_smul]
  constructor
  · intro g
    have : spentMask A.descs • P.G + issuedMask tx.vin.length ibf • P.G = reportedMask tx.vout bfs abfs • P.G := by
      have := congrArg (· - (P.plainPt A.descs + P.issuedIn E tx tx')) g
      simp only [add_sub_cancel_left] at this
      rw [← this]; abel
    rw [this, sub_self]
  · intro g
    rw [sub_eq_zero] at g
    rw [← g]; abel

/-- C34, exactly, if no issued amount was hidden: the caller knows from the input factors and
from what `blind()` returned whether the result balances. -/
theorem C34_exact_outputs {E : Env} {A : BlindArgs} {tx tx' : Tx} {num bfs abfs} (P : Pedersen E.z M)
    (h : blindTransaction E A tx = (.ok (.success num bfs abfs), tx')) (hsz : ∀ t ∈ tx.vin, InputSizes t)
    (hsame : tx'.vin = tx.vin) (hb : PlainBalance E A.descs tx tx) :
    Balanced P E A.descs tx' ↔ (spentMask A.descs - reportedMask tx.vout bfs abfs) • P.G = 0 := by
  have hno : ∀ i token, ¬ IsValueCommitment ((tx'.vin.getD i default).issued token) := by
    intro i token hv
    rw [hsame] at hv
    obtain ⟨b, hb1, -⟩ := hv
    by_cases hi : i < tx.vin.length
    · have hm : tx.vin.getD i default ∈ tx.vin := by
        rw [List.getD_eq_getElem?_getD, List.getElem?_eq_getElem hi]
        exact List.getElem_mem hi
      obtain ⟨f1, f2⟩ := hb.issued _ hm
      generalize tx.vin.getD i default = t at *
      cases token <;> simp only [TxIn.issued] at hb1
      · rcases f1 with f | ⟨c, f, -⟩ <;> rw [f] at hb1 <;> simp at hb1
      · rcases f2 with f | ⟨c, f, -⟩ <;> rw [f] at hb1 <;> simp at hb1
    · rw [List.getD_eq_getElem?_getD, List.getElem?_eq_none (by omega), Option.getD_none] at hb1
      cases token <;> rcases hb1 with hb1 | hb1 <;> cases hb1
  have hb' : PlainBalance E A.descs tx tx' := by
    refine ⟨hb.outputs, hb.issued, ?_⟩
    unfold issuedAmountsIn
    rw [hsame]
    exact hb.balance
  obtain ⟨ibf, h1, h2⟩ := C34_exact P h hsz hb' (fun i hv => absurd hv (hno i true))
  have hz : ∀ i token, scalar (ibf i token) = 0 := by
    intro i token
    have := (h1 i token).2
    generalize ibf i token = bf at this
    cases this with
    | same => exact scalar_zero32
    | hidden v gen com bf _ _ _ _ hv => exact absurd hv (hno i token)
  have : issuedMask tx.vin.length ibf = 0 := by
    unfold issuedMask
    simp [hz]
  rw [h2, this, add_zero]

/-! ### The cases of C34, decided by the factors -/

/-- Nothing issued, in or out. -/
theorem Toy.plain (outs : List (Nat × Nat)) (descs : List Desc)
    (h : ∀ a, total a (spentAmounts descs) = total a (outAmounts (Toy.tx outs))) :
    PlainBalance Toy.env descs (Toy.tx outs) (Toy.tx outs) := by
  refine ⟨?_, ?_, ?_⟩
  · intro o ho
    simp only [Toy.tx, List.mem_map] at ho
    obtain ⟨x, -, rfl⟩ := ho
    exact ⟨⟨beBytes 8 _, rfl, by simp⟩, ⟨beBytes 32 _, rfl, by simp⟩⟩
  · intro i hi
    simp only [Toy.tx, List.mem_cons, List.not_mem_nil, or_false] at hi
    subst hi
    exact ⟨.inl rfl, .inl rfl⟩
  · intro a
    have e3 : ∃ i t, issuedAmountsIn Toy.env (Toy.tx outs) (Toy.tx outs) = [(i, 0), (t, 0)] := ⟨_, _, rfl⟩
    obtain ⟨i, t, e3⟩ := e3
    rw [e3, ← h a]
    simp [total, List.filter_append, List.filter_cons]
    split <;> split <;> simp

-- the stray key of `C34_statement_false`: the factors say that the result does not balance
example : ∃ b a t', blindTransaction Toy.env Toy.strayArgs (Toy.tx [(5, 8)]) = (.ok (.success 1 b a), t') ∧
    t'.vin = (Toy.tx [(5, 8)]).vin ∧ PlainBalance Toy.env Toy.strayArgs.descs (Toy.tx [(5, 8)]) (Toy.tx [(5, 8)]) ∧
    ¬ Balanced Toy.pedersen Toy.env Toy.strayArgs.descs t' ∧
    spentMask Toy.strayArgs.descs - reportedMask (Toy.tx [(5, 8)]).vout b a ≠ 0 := by
  obtain ⟨b, a, t', hx⟩ := success_of (x := blindTransaction Toy.env Toy.strayArgs (Toy.tx [(5, 8)])) (n := 1) (by decide +kernel)
  have hv : t'.vin = (Toy.tx [(5, 8)]).vin := by
    rw [show t' = (blindTransaction Toy.env Toy.strayArgs (Toy.tx [(5, 8)])).2 by rw [hx]]
    decide +kernel
  have hp : PlainBalance Toy.env Toy.strayArgs.descs (Toy.tx [(5, 8)]) (Toy.tx [(5, 8)]) := Toy.plain _ _ (fun a => by
    have e1 : spentAmounts Toy.strayArgs.descs = [(Toy.b32 5, 8)] := rfl
    have e2 : outAmounts (Toy.tx [(5, 8)]) = [(Toy.b32 5, 8)] := by decide
    rw [e1, e2])
  have hnb : ¬ Balanced Toy.pedersen Toy.env Toy.strayArgs.descs t' := by
    rw [show t' = (blindTransaction Toy.env Toy.strayArgs (Toy.tx [(5, 8)])).2 by rw [hx]]
    unfold Balanced
    decide +kernel
  have key := C34_exact_outputs Toy.pedersen hx (Toy.sizes _ _ (by decide)) hv hp
  refine ⟨b, a, t', hx, hv, hp, hnb, ?_⟩
  generalize spentMask Toy.strayArgs.descs - reportedMask (Toy.tx [(5, 8)]).vout b a = m at key ⊢
  rintro rfl
  exact hnb (key.2 (zero_smul _ _))

end Verif
