import Verif.Spec.TargetsCoded
import Verif.Props.BlindTargets
/-
C40 for every transaction: which targets are used when reissuances issue tokens.
-/
namespace Verif
open Spec

open Classical in
/-- The variable `token` after an input. -/
noncomputable def tokAfter (E : Env) (A : BlindArgs) (i : Nat) (txin : TxIn) (tok : Option Bytes) : Option Bytes :=
  if MakesToken txin then some (tokenId E (A.tokenKeys.getD i none).isSome txin) else tok

/-- Targets of one input given the variable `token` after it. -/
structure RunTargets (E : Env) (A : BlindArgs) (tok : Option Bytes) (i : Nat) (txin : TxIn) (d : Desc) (l : List Target) : Prop where
  parts : ∃ t l1 l2, l = t :: (l1 ++ l2) ∧ SpentTarget E.z A i d t ∧
    IssuedTarget E.z (assetId E txin) txin.assetIssuance.nAmount l1 ∧
    ((txin.assetIssuance.nInflationKeys = [] ∧ l2 = []) ∨
      ∃ id, tok = some id ∧ ¬ AllZero id ∧ IssuedTarget E.z id txin.assetIssuance.nInflationKeys l2)
  amount : ¬ IsValueCommitment txin.assetIssuance.nAmount
  keys : ¬ IsValueCommitment txin.assetIssuance.nInflationKeys

inductive RunFrom (E : Env) (A : BlindArgs) : Nat → Option Bytes → List (TxIn × Desc) → List (List Target) → Prop
  | nil (i tok) : RunFrom E A i tok [] []
  | cons {i tok txin d r l L} : RunTargets E A (tokAfter E A i txin tok) i txin d l →
      RunFrom E A (i + 1) (tokAfter E A i txin tok) r L → RunFrom E A i tok ((txin, d) :: r) (l :: L)

theorem tokenPush_rep {z : Zkp} {tok : Option Bytes} {amount : Bytes} {n : Nat} {L : List Target} (hL : L.length < n) {t : Targets} :
    (if confIsNull amount then .ok (Targets.rep n L) else pushToken z tok (Targets.rep n L)) = .ok t ↔
      ∃ l, ((amount = [] ∧ l = []) ∨ ∃ id, tok = some id ∧ ¬ AllZero id ∧ IssuedTarget z id amount l) ∧
        t = Targets.rep n (L ++ l) := by
  by_cases ha : amount = []
  · subst ha
    rw [if_pos (by rfl)]
    constructor
    · intro h; cases h; exact ⟨[], .inl ⟨rfl, rfl⟩, by simp⟩
    · rintro ⟨l, ⟨_, rfl⟩ | ⟨_, _, _, h⟩, rfl⟩
      · simp
      · cases h with
        | none => simp
        | some _ h => exact absurd rfl h
  · cases tok with
    | none =>
      have hn : ¬ confIsNull amount = true := by simpa [confIsNull] using ha
      rw [if_neg hn]
      constructor
      · intro h; cases h
      · rintro ⟨l, ⟨h, _⟩ | ⟨_, h, _⟩, rfl⟩
        · exact absurd h ha
        · cases h
    | some id =>
      rw [pushToken_rep (id := id) (fun _ => rfl) hL]
      constructor
      · rintro ⟨h, l, hl, rfl⟩; exact ⟨l, .inr ⟨id, rfl, h ha, hl⟩, rfl⟩
      · rintro ⟨l, ⟨h, _⟩ | ⟨id', h, h1, h2⟩, rfl⟩
        · exact absurd h ha
        · cases h; exact ⟨fun _ => h1, l, h2, rfl⟩

theorem issuedAsset_run {E : Env} {A : BlindArgs} {i : Nat} {txin : TxIn} (hs : InputSizes txin)
    (hn : ¬ txin.assetIssuance.isNull = true) (tok : Option Bytes) :
    issuedAsset E A i txin tok = .ok (assetId E txin, tokAfter E A i txin tok) := by
  have hm : txin.assetIssuance.nAmount ≠ [] ∨ txin.assetIssuance.nInflationKeys ≠ [] := by
    rcases Classical.em (txin.assetIssuance.nAmount = []) with h1 | h1
    · rcases Classical.em (txin.assetIssuance.nInflationKeys = []) with h2 | h2
      · exact absurd (by simp [Issuance.isNull, confIsNull, h1, h2]) hn
      · exact .inr h2
    · exact .inl h1
  by_cases hz : AllZero txin.assetIssuance.assetBlindingNonce
  · obtain ⟨tok', h, ht⟩ := issuedAsset_ok (E := E) (A := A) (i := i) hs tok
    rw [h, ht hz, tokAfter, if_pos ⟨hm, hz⟩]
  · have he : issuanceEntropy E txin = txin.assetIssuance.assetEntropy := by unfold issuanceEntropy; rw [if_neg hz]
    unfold issuedAsset
    rw [if_neg (fun h => hz (isNull32_iff.1 h)), tokAfter, if_neg (fun h => hz h.2)]
    simp only [bind, Except.bind, calculateAsset, hs.entropy, ne_eq, not_true_eq_false, if_false, pure, Except.pure, assetId,
      he, uint256Small_zero]

theorem tokenTarget_len {z : Zkp} {amount : Bytes} {l : List Target} {P : Bytes → Prop}
    (h : (amount = [] ∧ l = []) ∨ ∃ id, P id ∧ ¬ AllZero id ∧ IssuedTarget z id amount l) : l.length ≤ 1 := by
  rcases h with ⟨_, rfl⟩ | ⟨_, _, _, h⟩
  · simp
  · exact issuedTarget_len h

theorem issuanceTargets_run {E : Env} {A : BlindArgs} {i : Nat} {txin : TxIn} (hs : InputSizes txin)
    (tok : Option Bytes) {n : Nat} {L : List Target} (hL : L.length + 2 ≤ n) {t : Targets} {tok' : Option Bytes} :
    issuanceTargets E A i txin (Targets.rep n L) tok = .ok (t, tok') ↔
      tok' = tokAfter E A i txin tok ∧
      ¬ IsValueCommitment txin.assetIssuance.nAmount ∧ ¬ IsValueCommitment txin.assetIssuance.nInflationKeys ∧
      ∃ l1 l2, IssuedTarget E.z (assetId E txin) txin.assetIssuance.nAmount l1 ∧
        ((txin.assetIssuance.nInflationKeys = [] ∧ l2 = []) ∨
          ∃ id, tokAfter E A i txin tok = some id ∧ ¬ AllZero id ∧
            IssuedTarget E.z id txin.assetIssuance.nInflationKeys l2) ∧
        t = Targets.rep n (L ++ (l1 ++ l2)) := by
  unfold issuanceTargets
  by_cases hn : txin.assetIssuance.isNull = true
  · have h2 : txin.assetIssuance.nAmount = [] ∧ txin.assetIssuance.nInflationKeys = [] := by
      simpa [Issuance.isNull, confIsNull] using hn
    have ht : tokAfter E A i txin tok = tok := by
      rw [tokAfter, if_neg (fun h => h.1.elim (fun h => h h2.1) (fun h => h h2.2))]
    rw [if_pos hn, ht, h2.1, h2.2]
    constructor
    · intro h; cases h
      exact ⟨rfl, not_commitment_nil, not_commitment_nil, [], [], .none rfl, .inl ⟨rfl, rfl⟩, by simp⟩
    · rintro ⟨rfl, _, _, l1, l2, h1, h2, rfl⟩
      cases h1 with
      | some _ h => exact absurd rfl h
      | none =>
        rcases h2 with ⟨_, rfl⟩ | ⟨_, _, _, h2⟩
        · simp
        · cases h2 with
          | some _ h => exact absurd rfl h
          | none => simp
  · rw [if_neg hn]
    by_cases c1 : IsValueCommitment txin.assetIssuance.nAmount
    · rw [if_pos (valueCommitment_iff.2 c1)]
      constructor
      · intro h; cases h
      · rintro ⟨_, h, _⟩; exact absurd c1 h
    · rw [if_neg (fun h => c1 (valueCommitment_iff.1 h))]
      by_cases c2 : IsValueCommitment txin.assetIssuance.nInflationKeys
      · rw [if_pos (valueCommitment_iff.2 c2)]
        constructor
        · intro h; cases h
        · rintro ⟨_, _, h, _⟩; exact absurd c2 h
      · rw [if_neg (fun h => c2 (valueCommitment_iff.1 h)), issuedAsset_run hs hn]
        simp only [exc_bind_ok, raiseE_ok, pure, Except.pure]
        constructor
        · rintro ⟨p, hp, t1, h1, t2, h2, h⟩
          cases hp
          cases h
          dsimp only at h1 h2
          obtain ⟨l1, g1, rfl⟩ := (pushIssued_rep (by omega)).1 h1
          have := issuedTarget_len g1
          obtain ⟨l2, g2, rfl⟩ := (tokenPush_rep (by simp; omega)).1 h2
          exact ⟨rfl, c1, c2, l1, l2, g1, g2, by simp⟩
        · rintro ⟨rfl, _, _, l1, l2, g1, g2, rfl⟩
          have := issuedTarget_len g1
          refine ⟨(assetId E txin, _), rfl, _, (pushIssued_rep (by omega)).2 ⟨l1, g1, rfl⟩, _,
            (tokenPush_rep (by simp; omega)).2 ⟨l2, g2, rfl⟩, by simp⟩

theorem inputTargets_run {E : Env} {A : BlindArgs} {n : Nat} : ∀ {l : List (TxIn × Desc)} {i : Nat} {L : List Target} {tok : Option Bytes}
    {t : Targets}, (∀ x ∈ l, InputSizes x.1) → L.length + 3 * l.length ≤ n →
    (inputTargets E A i l (Targets.rep n L) tok = .ok t ↔ ∃ Ls, RunFrom E A i tok l Ls ∧ t = Targets.rep n (L ++ Ls.flatten))
  | [], i, L, tok, t, _, _ => by
    unfold inputTargets
    constructor
    · intro h; cases h; exact ⟨[], .nil i tok, by simp⟩
    · rintro ⟨L', h, rfl⟩; cases h; simp
  | (txin, d) :: rest, i, L, tok, t, hx, hn => by
    unfold inputTargets
    have hs := hx (txin, d) (by simp)
    simp only [List.length_cons] at hn
    simp only [exc_bind_ok, raiseE_ok, push_rep (show L.length < n by omega)]
    constructor
    · rintro ⟨g, hg, t1, h1, ⟨t2, tok'⟩, h2, h3⟩
      cases h1
      obtain ⟨rfl, c1, c2, l1, l2, g1, g2, rfl⟩ := (issuanceTargets_run hs tok (by simp; omega)).1 h2
      have := issuedTarget_len g1
      have := tokenTarget_len g2
      obtain ⟨Ls, h4, rfl⟩ := (inputTargets_run (fun x hx' => hx x (by simp [hx'])) (by simp; omega)).1 h3
      refine ⟨(⟨d.asset, g, d.assetBlindingFactor⟩ :: (l1 ++ l2)) :: Ls,
        .cons ⟨⟨_, l1, l2, rfl, inputGenerator_ok.1 hg, g1, g2⟩, c1, c2⟩ h4, ?_⟩
      simp
    · rintro ⟨L', h, rfl⟩
      cases h with
      | @cons _ _ _ _ _ l L' hi hrest =>
        obtain ⟨⟨t0, l1, l2, rfl, hsp, g1, g2⟩, c1, c2⟩ := hi
        have := issuedTarget_len g1
        have := tokenTarget_len g2
        have ht0 : ∃ g, t0 = ⟨d.asset, g, d.assetBlindingFactor⟩ := by cases hsp <;> exact ⟨_, rfl⟩
        obtain ⟨g, rfl⟩ := ht0
        have h2 := (issuanceTargets_run (E := E) (A := A) (i := i) hs tok
          (L := L ++ [⟨d.asset, g, d.assetBlindingFactor⟩]) (n := n) (by simp; omega)).2 ⟨rfl, c1, c2, l1, l2, g1, g2, rfl⟩
        refine ⟨g, inputGenerator_ok.2 hsp, _, rfl, (_, _), h2, ?_⟩
        refine (inputTargets_run (fun x hx' => hx x (by simp [hx'])) (by simp; omega)).2 ⟨L', hrest, by simp⟩

theorem runFrom_len {E : Env} {A : BlindArgs} {i tok l Ls} (h : RunFrom E A i tok l Ls) :
    Ls.length = l.length ∧ Ls.flatten.length ≤ 3 * l.length := by
  induction h with
  | nil => simp
  | cons hi _ ih =>
    obtain ⟨⟨_, l1, l2, rfl, _, g1, g2⟩, _⟩ := hi
    have := issuedTarget_len g1
    have := tokenTarget_len g2
    simp only [List.length_cons, List.flatten_cons, List.length_append]; omega

/-- The variable before input `i`. -/
def TokBefore (E : Env) (A : BlindArgs) (vin : List TxIn) (i : Nat) (tok : Option Bytes) : Prop :=
  ∀ id, tok = some id ↔ ∃ j, j + 1 = i ∧ LastToken E A vin j id

theorem lastToken_step {E : Env} {A : BlindArgs} {vin : List TxIn} {i : Nat} {txin : TxIn} {tok : Option Bytes}
    (hi : vin[i]? = some txin) (hb : TokBefore E A vin i tok) (id : Bytes) :
    tokAfter E A i txin tok = some id ↔ LastToken E A vin i id := by
  unfold tokAfter
  split
  · rename_i hm
    constructor
    · intro h; cases h
      exact ⟨i, txin, Nat.le_refl _, hi, hm, rfl, fun k x h1 h2 _ => absurd h1 (by omega)⟩
    · rintro ⟨j, x, hj, hx, hmx, rfl, hno⟩
      rcases Nat.lt_or_ge j i with h | h
      · exact absurd hm (hno i txin h (Nat.le_refl _) hi)
      · have : j = i := by omega
        subst this
        rw [hi] at hx; cases hx; rfl
  · rename_i hm
    rw [hb id]
    constructor
    · rintro ⟨i', rfl, j, x, hj, hx, hmx, rfl, hno⟩
      refine ⟨j, x, by omega, hx, hmx, rfl, fun k y h1 h2 hy => ?_⟩
      rcases Nat.lt_or_ge i' k with h | h
      · have : k = i' + 1 := by omega
        subst this
        rw [hi] at hy; cases hy; exact hm
      · exact hno k y h1 h hy
    · rintro ⟨j, x, hj, hx, hmx, rfl, hno⟩
      have hji : j ≠ i := by rintro rfl; rw [hi] at hx; cases hx; exact hm hmx
      exact ⟨i - 1, by omega, j, x, by omega, hx, hmx, rfl, fun k y h1 h2 hy => hno k y h1 (by omega) hy⟩

theorem tokBefore_succ {E : Env} {A : BlindArgs} {vin : List TxIn} {i : Nat} {txin : TxIn} {tok : Option Bytes}
    (hi : vin[i]? = some txin) (hb : TokBefore E A vin i tok) : TokBefore E A vin (i + 1) (tokAfter E A i txin tok) := by
  intro id
  rw [lastToken_step hi hb]
  constructor
  · intro h; exact ⟨i, rfl, h⟩
  · rintro ⟨j, hj, h⟩
    have : j = i := by omega
    subst this; exact h

theorem runTargets_iff {E : Env} {A : BlindArgs} {vin : List TxIn} {i : Nat} {txin : TxIn} {d : Desc} {tok : Option Bytes}
    (hi : vin[i]? = some txin) (hb : TokBefore E A vin i tok) (l : List Target) :
    RunTargets E A (tokAfter E A i txin tok) i txin d l ↔ CodedTargets E A vin i txin d l := by
  have hs := lastToken_step (E := E) (A := A) hi hb
  constructor
  · rintro ⟨⟨t, l1, l2, h1, h2, h3, h4⟩, h5, h6⟩
    refine ⟨⟨t, l1, l2, h1, h2, h3, h4.imp_right ?_⟩, h5, h6⟩
    rintro ⟨id, a, b⟩; exact ⟨id, (hs id).1 a, b⟩
  · rintro ⟨⟨t, l1, l2, h1, h2, h3, h4⟩, h5, h6⟩
    refine ⟨⟨t, l1, l2, h1, h2, h3, h4.imp_right ?_⟩, h5, h6⟩
    rintro ⟨id, a, b⟩; exact ⟨id, (hs id).2 a, b⟩

theorem runFrom_iff {E : Env} {A : BlindArgs} {vin : List TxIn} {descs : List Desc} : ∀ {r : List TxIn} {ds : List Desc} {i : Nat} {tok : Option Bytes}
    {Ls : List (List Target)}, vin.drop i = r → descs.drop i = ds → TokBefore E A vin i tok →
    (RunFrom E A i tok (r.zip ds) Ls ↔ Ls.length = (r.zip ds).length ∧
      ∀ k txin d l, vin[i + k]? = some txin → descs[i + k]? = some d → Ls[k]? = some l → CodedTargets E A vin (i + k) txin d l)
  | [], ds, i, tok, Ls, hr, hd, hb => by
    constructor
    · intro h; cases h; exact ⟨rfl, fun _ _ _ _ _ _ h => by simp at h⟩
    · rintro ⟨h, _⟩
      have : Ls = [] := List.length_eq_zero_iff.1 h
      subst this; exact .nil i tok
  | x :: r, [], i, tok, Ls, hr, hd, hb => by
    constructor
    · intro h; cases h; exact ⟨rfl, fun _ _ _ _ _ _ h => by simp at h⟩
    · rintro ⟨h, _⟩
      have : Ls = [] := List.length_eq_zero_iff.1 h
      subst this; exact .nil i tok
  | x :: r, d :: ds, i, tok, Ls, hr, hd, hb => by
    have hx : vin[i]? = some x := by
      have := congrArg (·[0]?) hr; simpa using this
    have hdx : descs[i]? = some d := by
      have := congrArg (·[0]?) hd; simpa using this
    have hr' : vin.drop (i + 1) = r := by
      have := congrArg (List.drop 1) hr; simpa [List.drop_drop] using this
    have hd' : descs.drop (i + 1) = ds := by
      have := congrArg (List.drop 1) hd; simpa [List.drop_drop] using this
    have ih := fun {Ls} => runFrom_iff (Ls := Ls) hr' hd' (tokBefore_succ hx hb)
    rw [List.zip_cons_cons]
    constructor
    · intro h
      cases h with
      | cons h1 h2 =>
        obtain ⟨a, b⟩ := ih.1 h2
        refine ⟨by simp [a], fun k txin d' l k1 k2 k3 => ?_⟩
        cases k with
        | zero =>
          rw [Nat.add_zero] at k1 k2 ⊢
          rw [hx] at k1; rw [hdx] at k2; cases k1; cases k2; simp at k3; subst k3
          exact (runTargets_iff hx hb _).1 h1
        | succ k =>
          rw [show i + (k + 1) = i + 1 + k by omega] at k1 k2 ⊢
          exact b k txin d' l k1 k2 (by simpa using k3)
    · rintro ⟨h1, h2⟩
      cases Ls with
      | nil => simp at h1
      | cons l Ls =>
        refine .cons ((runTargets_iff hx hb _).2 (h2 0 x d l (by simpa using hx) (by simpa using hdx) rfl)) (ih.2 ⟨by simpa using h1, ?_⟩)
        intro k txin d' l' k1 k2 k3
        have := h2 (k + 1) txin d' l' (by rw [show i + (k + 1) = i + 1 + k by omega]; exact k1)
          (by rw [show i + (k + 1) = i + 1 + k by omega]; exact k2) (by simpa using k3)
        rwa [show i + (k + 1) = i + 1 + k by omega] at this

/-- C40 for every transaction: the lists are found exactly when every target has a generator and
every token to be proved against is known, and then they are the targets input by input, where an
input that reissues tokens is given the token of the last new issuance up to it. -/
theorem C40_targets (E : Env) (A : BlindArgs) (tx : Tx) (hs : ∀ txin ∈ tx.vin, InputSizes txin) (T : TargetLists) :
    surjTargets E A tx = .ok T ↔
      ∃ L, IsCodedTargets E A tx L ∧ T = ⟨L.map Target.asset, L.map Target.gen, L.map Target.blinder⟩ := by
  unfold surjTargets
  have hz : (tx.vin.zip A.descs).length ≤ tx.vin.length := by rw [List.length_zip]; exact Nat.min_le_left _ _
  have hx : ∀ x ∈ tx.vin.zip A.descs, InputSizes x.1 := fun x hx => hs _ (List.of_mem_zip hx).1
  have hn : 3 * (tx.vin.zip A.descs).length + (A.auxGens.drop tx.vin.length).length ≤ numTargets A tx := by
    unfold numTargets
    by_cases ha : A.auxGens = []
    · simp [ha]; omega
    · simp [ha]; omega
  have hb : TokBefore E A tx.vin 0 none := by
    intro id
    constructor
    · intro h; cases h
    · rintro ⟨j, h, _⟩; omega
  have hrun := fun {Ls} => runFrom_iff (Ls := Ls) (vin := tx.vin) (descs := A.descs) (i := 0) List.drop_zero List.drop_zero hb
  simp only [Nat.zero_add] at hrun
  simp only [exc_bind_ok, raiseE_ok, ← rep_nil]
  constructor
  · rintro ⟨t1, h1, t2, h2, h3⟩
    obtain ⟨L1, g1, rfl⟩ := (inputTargets_run hx (by simp only [List.length_nil]; omega)).1 h1
    have := (runFrom_len g1).2
    obtain ⟨L2, g2, rfl⟩ := (auxTargets_ok (by simp only [List.nil_append]; omega)).1 h2
    rw [trim_rep] at h3
    cases h3
    obtain ⟨a, b⟩ := hrun.1 g1
    exact ⟨L1.flatten ++ L2, ⟨L1, L2, a, b, g2, rfl⟩, by simp⟩
  · rintro ⟨_, ⟨L1, L2, a, b, g2, rfl⟩, rfl⟩
    have g1 := hrun.2 ⟨a, b⟩
    have := (runFrom_len g1).2
    refine ⟨_, (inputTargets_run hx (by simp only [List.length_nil]; omega)).2 ⟨L1, g1, rfl⟩, _,
      (auxTargets_ok (by simp only [List.nil_append]; omega)).2 ⟨L2, g2, rfl⟩, ?_⟩
    rw [trim_rep]
    simp

-- The transaction that shows the claim false has such targets: two inputs of three targets each.
example : (∀ txin ∈ staleTx.vin, InputSizes txin) ∧ ∃ L, IsCodedTargets Toy.env staleArgs staleTx L ∧ L.length = 6 := by
  have hs : ∀ txin ∈ staleTx.vin, InputSizes txin := by
    intro txin ht
    simp only [staleTx, List.mem_cons, List.not_mem_nil, or_false] at ht
    rcases ht with rfl | rfl <;> exact ⟨by decide, by decide, by decide⟩
  refine ⟨hs, ?_⟩
  have hT : ∃ T, surjTargets Toy.env staleArgs staleTx = .ok T ∧ T.targets.length = 6 := by
    refine ⟨(match surjTargets Toy.env staleArgs staleTx with | .ok T => T | _ => ⟨[], [], []⟩), ?_, ?_⟩ <;> decide +kernel
  obtain ⟨T, hT, hl⟩ := hT
  obtain ⟨L, hL, rfl⟩ := (C40_targets Toy.env staleArgs staleTx hs T).1 hT
  exact ⟨L, hL, by simpa using hl⟩

end Verif
