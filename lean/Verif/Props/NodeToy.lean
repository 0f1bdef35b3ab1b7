import Verif.Props.Node
/-
C92: a toy verifier, concrete transactions that are accepted and refused, and why the full
statement fails.
-/
namespace Verif
namespace Toy

/-- Verification for the toy library. -/
def verifier : Verifier where
  rangeVerify c p e g := (zkp.rangeRewind [] c p e g).map fun _ => 1
  surjParse s := some s
  tally l r := (l.map decPt).sum % secpN == (r.map decPt).sum % secpN
  proofLimit := 5134

theorem cast_sum (l : List Bytes) : ((((l.map decPt).sum : Nat) : Scalar)) = (l.map pedersen.comPt).sum := by
  induction l with
  | nil => simp
  | cons c l ih => rw [List.map_cons, List.sum_cons, Nat.cast_add, ih, List.map_cons, List.sum_cons]; rfl

theorem keeps : verifier.Keeps pedersen where
  generates a _ := ⟨_, _, rfl, by
    simp only [zkp, genSer]
    rw [if_pos (by simp [encGen])]⟩
  plain a := by
    have : num zero32 = 0 := by decide
    simp only [zkp, this, Nat.add_zero]
    rw [show num a % secpN = num a from Nat.mod_mod _ _]
  commits a r g v _ _ _ := ⟨_, rfl⟩
  genBack a r g s h1 h2 := by
    cases h1
    simp only [zkp, genSer] at h2 ⊢
    rw [if_pos (by simp [encGen])] at h2
    cases h2
    simp [encGen]
  comBack b v g c s h1 h2 := by
    cases h1
    simp only [zkp] at h2 ⊢
    rw [if_pos (by simp [encCom])] at h2
    cases h2
    simp [encCom]
  range a p h1 h2 h3 h4 h5 := by
    refine ⟨1, ?_, fun _ => Nat.one_pos⟩
    have hp : p = proofOf a := by
      simp only [zkp] at h1
      split at h1
      · exact (Option.some.inj h1).symm
      · cases h1
    subst hp
    have hl : (proofOf a).length = 105 := by simp [proofOf, h2, h3]
    have hc : encCom ((a.value * decPt a.gen + num a.blind) % secpN) = a.commit := Option.some.inj h5
    have e1 : ((proofOf a).drop 1).take 32 = a.blind := by simp [proofOf, ← h3]
    have e2 : ((proofOf a).drop 33).take 8 = beBytes 8 a.value := by
      have : (proofOf a).drop 33 = beBytes 8 a.value ++ a.message := by
        simp only [proofOf, List.drop_succ_cons, List.append_assoc]
        rw [← h3, List.drop_left]
      rw [this, List.take_left' (by simp)]
    have e3 : beVal (beBytes 8 a.value) = a.value := beVal_beBytes_of_lt (by omega)
    simp only [verifier, zkp, rewind]
    rw [if_pos hl, e1, e2, e3]
    generalize List.drop 41 (proofOf a) ++ _ = m
    simp [hc, Option.filter]
  small a p h _ _ := by
    simp only [zkp] at h
    split at h
    · rename_i hl; cases h; exact hl
    · cases h
  surjection h s hs := by
    simp only [zkp] at hs
    split at hs
    · cases hs; exact ⟨_, rfl, fun _ _ _ h => h⟩
    · cases hs
  tally l r _ := by
    simp only [verifier, beq_iff_eq]
    rw [← cast_sum, ← cast_sum]
    exact (ZMod.natCast_eq_natCast_iff' _ _ _).symm

/-- The output a descriptor opens, both hidden. -/
def coin (d : Desc) : TxOut :=
  { nAsset := 10 :: beBytes 32 ((num d.asset + num d.assetBlindingFactor) % secpN)
    nValue := 8 :: beBytes 32 ((d.amount.toNat * decPt (encGen ((num d.asset + num d.assetBlindingFactor) % secpN))
      + num d.blindingFactor) % secpN)
    scriptPubKey := [0x51] }

theorem coin_spent (d : Desc) : SpentAs zkp (coin d) d := by
  refine ⟨_, rfl, .inr ?_, .inr ⟨_, rfl, ?_⟩⟩
  · simp only [zkp, genSer, coin]
    rw [if_pos (by simp [encGen])]
    simp [encGen]
  · simp only [zkp, coin]
    rw [if_pos (by simp [encCom])]
    simp [encCom]

theorem stray_ready : Ready env strayArgs (strayArgs.descs.map coin) (tx [(5, 8)]) where
  spent := by
    show List.Forall₂ (SpentAs zkp) _ _
    exact .cons (coin_spent _) .nil
  own := by decide
  aux := by decide
  bits := by decide
  issued i token hi hn := by
    have : i = 0 := by simpa [tx] using hi
    subst this
    cases token <;> exact absurd rfl hn
  tokens i hi hn := by
    have : i = 0 := by simpa [tx] using hi
    subst this
    exact absurd rfl hn
  outputs j hj := by
    have : j = 0 := by simpa [tx] using hj
    subst this
    refine ⟨⟨beBytes 8 8, rfl, by simp⟩, ⟨beBytes 32 5, rfl, by simp⟩, by decide, fun h => ?_⟩
    exact absurd h (by decide)

theorem bal_ready : Ready env balArgs (balArgs.descs.map coin) balTx where
  spent := by
    show List.Forall₂ (SpentAs zkp) _ _
    exact .cons (coin_spent _) .nil
  own := by decide
  aux := by decide
  bits := by decide
  issued i token hi hn := by
    have : i = 0 := by simpa [balTx, tx] using hi
    subst this
    cases token with
    | true => exact absurd rfl hn
    | false =>
      refine ⟨⟨beBytes 8 1, rfl, by simp⟩, by decide, fun h => ?_⟩
      cases h
  tokens i hi hn := by
    have : i = 0 := by simpa [balTx, tx] using hi
    subst this
    exact absurd rfl hn
  outputs j hj := by
    have : j = 0 ∨ j = 1 ∨ j = 2 := by
      have : j < 3 := by simpa [balTx, tx] using hj
      omega
    rcases this with rfl | rfl | rfl
    · exact ⟨⟨beBytes 8 3, rfl, by simp⟩, ⟨beBytes 32 5, rfl, by simp⟩, by decide, fun h => absurd h (by decide)⟩
    · exact ⟨⟨beBytes 8 5, rfl, by simp⟩, ⟨beBytes 32 5, rfl, by simp⟩, by decide, fun h => absurd h (by decide)⟩
    · exact ⟨⟨beBytes 8 1, rfl, by simp⟩, ⟨beBytes 32 (beVal issId), rfl, by simp⟩, by decide, fun h => absurd h (by decide)⟩

end Toy

/-- C92, the full statement. -/
def C92_statement : Prop := ∀ (M : Type) [AddCommGroup M] [Module Scalar M] (E : Env) (A : BlindArgs) (spent : List TxOut) (tx tx' : Tx)
    (num : Nat) (bfs abfs : List Bytes) (N : Verifier) (P : Pedersen E.z M), N.Keeps P → Formats E.z → WireSizes E.z →
  blindTransaction E A tx = (.ok (.success num bfs abfs), tx') → A.strict = true → (∀ t ∈ tx.vin, InputSizes t) →
  Ready E A spent tx → AmountsBalance E A tx → (∃ j, A.pubkeys.getD j [] ≠ []) →
  verifyAmounts E N spent (Spec.fillWitness tx') = true

/-- C92 fails as stated: blinding reports strict success, and the network refuses the transaction. -/
theorem C92_statement_false : ¬ C92_statement := by
  intro h
  obtain ⟨b, a, t', hx⟩ := success_of (x := blindTransaction Toy.env Toy.strayArgs (Toy.tx [(5, 8)])) (n := 1) (by decide +kernel)
  have := h Scalar Toy.env Toy.strayArgs _ _ _ _ _ _ Toy.verifier Toy.pedersen Toy.keeps Toy.formats Toy.wireSizes hx rfl
    (Toy.sizes _ _ (by decide)) Toy.stray_ready Toy.stray_balance ⟨0, by decide⟩
  rw [show t' = (blindTransaction Toy.env Toy.strayArgs (Toy.tx [(5, 8)])).2 by rw [hx]] at this
  revert this
  decide +kernel

-- the transaction of C34 with an issuance and three outputs is accepted
example : ∃ b a t', blindTransaction Toy.env Toy.balArgs Toy.balTx = (.ok (.success 4 b a), t') ∧
    Ready Toy.env Toy.balArgs (Toy.balArgs.descs.map Toy.coin) Toy.balTx ∧
    verifyAmounts Toy.env Toy.verifier (Toy.balArgs.descs.map Toy.coin) (Spec.fillWitness t') = true := by
  obtain ⟨b, a, t', hx⟩ := success_of (x := blindTransaction Toy.env Toy.balArgs Toy.balTx) (n := 4) (by decide +kernel)
  refine ⟨b, a, t', hx, Toy.bal_ready, ?_⟩
  rw [show t' = (blindTransaction Toy.env Toy.balArgs Toy.balTx).2 by rw [hx]]
  decide +kernel

-- before blinding it is not: the spent outputs are hidden, nothing in the transaction makes up for that
example : verifyAmounts Toy.env Toy.verifier (Toy.balArgs.descs.map Toy.coin) (Spec.fillWitness Toy.balTx) = false := by
  decide +kernel

end Verif
