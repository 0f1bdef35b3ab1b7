import Verif.Spec.Targets
import Verif.BlindChecks
import Verif.ZkpToy
import Verif.TxWriteLemmas
/-
C40: the targets of surjection proofs describe the inputs.
-/
namespace Verif
open Spec

/-- The preallocated lists after recording `L`. -/
def Targets.rep (n : Nat) (L : List Target) : Targets :=
  ⟨L.map (fun t => some t.asset) ++ List.replicate (n - L.length) none,
   L.map (fun t => some t.gen) ++ List.replicate (n - L.length) none, L.map Target.blinder, L.length⟩

theorem setAt_rep {f : Target → Bytes} {n : Nat} {L : List Target} (h : L.length < n) (x : Bytes) :
    setAt (L.map (fun t => some (f t)) ++ List.replicate (n - L.length) none) L.length (some x)
      = .ok (L.map (fun t => some (f t)) ++ some x :: List.replicate (n - (L.length + 1)) none) := by
  unfold setAt
  rw [if_pos (by simp; omega)]
  congr 1
  rw [List.set_append_right _ _ (by simp)]
  congr 1
  rw [List.length_map, Nat.sub_self, show n - L.length = (n - (L.length + 1)) + 1 by omega, List.replicate_succ,
    List.set_cons_zero]

theorem push_rep {n : Nat} {L : List Target} (h : L.length < n) (a g b : Bytes) :
    (Targets.rep n L).push a g b = .ok (Targets.rep n (L ++ [⟨a, g, b⟩])) := by
  unfold Targets.push Targets.rep
  dsimp only
  rw [setAt_rep (f := Target.gen) h, setAt_rep (f := Target.asset) h]
  show Except.ok _ = _
  simp

theorem rep_nil (n : Nat) : Targets.rep n [] = ⟨List.replicate n none, List.replicate n none, [], 0⟩ := by
  simp [Targets.rep]

theorem filled_map (L : List Bytes) : filled (L.map some) = .ok L := by
  induction L with
  | nil => rfl
  | cons x r ih => simp [filled, ih, bind, Except.bind, pure, Except.pure]

theorem trim_rep (n : Nat) (L : List Target) :
    trimTargets (Targets.rep n L) = .ok ⟨L.map Target.asset, L.map Target.gen, L.map Target.blinder⟩ := by
  unfold trimTargets Targets.rep
  have e : ∀ f : Target → Bytes, L.map (fun t => some (f t)) = (L.map f).map some := by intro f; simp
  have d : ∀ f : Target → Bytes, (L.map (fun t => some (f t)) ++ List.replicate (n - L.length) none).drop L.length
      = List.replicate (n - L.length) none := by
    intro f; rw [List.drop_append_of_le_length (by simp), List.drop_of_length_le (by simp), List.nil_append]
  have t : ∀ f : Target → Bytes, (L.map (fun t => some (f t)) ++ List.replicate (n - L.length) none).take L.length
      = (L.map f).map some := by
    intro f; rw [List.take_append_of_le_length (by simp), List.take_of_length_le (by simp), e]
  have a : (List.replicate (n - L.length) (none : Option Bytes)).all (·.isNone) = true := by simp
  simp only [d Target.asset, d Target.gen, t Target.asset, t Target.gen, a, filled_map, List.length_map, ne_eq,
    not_true_eq_false, if_false, Bool.not_true, Bool.false_eq_true, pure, Except.pure, bind, Except.bind]

theorem isNull32_iff {b : Bytes} : isNull32 b = true ↔ AllZero b := by
  simp [isNull32, AllZero]
theorem isNull32_false {b : Bytes} : isNull32 b = false ↔ ¬ AllZero b := by
  rw [← isNull32_iff]; simp

theorem inputGenerator_ok {z : Zkp} {A : BlindArgs} {i : Nat} {d : Desc} {g : Bytes} :
    inputGenerator z A i d = .ok g ↔ SpentTarget z A i d ⟨d.asset, g, d.assetBlindingFactor⟩ := by
  unfold inputGenerator
  by_cases hz : AllZero d.asset
  · rw [if_pos (isNull32_iff.2 hz)]
    constructor
    · intro h
      split at h
      · split at h
        · cases h
        · rename_i ag hag
          split at h
          · rename_i g' hg
            cases h
            exact .foreign ag g hz hag hg
          · cases h
      · cases h
    · intro h
      cases h with
      | own _ h => exact absurd hz h
      | foreign ag _ _ h1 h2 =>
        rw [if_pos (by rintro h; rw [h] at h1; simp at h1), h1]
        simp [h2]
  · rw [if_neg (fun h => hz (isNull32_iff.1 h)), raiseE_ok, orRuntime_ok]
    constructor
    · intro h; exact .own g hz h
    · intro h
      cases h with
      | own _ _ h => exact h
      | foreign _ _ h => exact absurd h hz

theorem pushIssued_rep {z : Zkp} {id amount : Bytes} {n : Nat} {L : List Target} (hL : L.length < n) {t : Targets} :
    (if confIsNull amount then .ok (Targets.rep n L) else pushIssued z id (Targets.rep n L)) = .ok t ↔
      ∃ l, IssuedTarget z id amount l ∧ t = Targets.rep n (L ++ l) := by
  by_cases ha : amount = []
  · subst ha
    rw [if_pos (by rfl)]
    constructor
    · intro h; cases h; exact ⟨[], .none rfl, by simp⟩
    · rintro ⟨l, h, rfl⟩
      cases h with
      | none => simp
      | some _ h => exact absurd rfl h
  · have hn : ¬ confIsNull amount = true := by simpa [confIsNull] using ha
    rw [if_neg hn]
    unfold pushIssued
    simp only [exc_bind_ok, orRuntime_ok, push_rep hL]
    constructor
    · rintro ⟨g, hg, h⟩; cases h; exact ⟨_, .some g ha hg, rfl⟩
    · rintro ⟨l, h, rfl⟩
      cases h with
      | none h => exact absurd h ha
      | some g _ hg => exact ⟨g, hg, rfl⟩

theorem issuedTarget_len {z : Zkp} {id amount : Bytes} {l} (h : IssuedTarget z id amount l) : l.length ≤ 1 := by
  cases h <;> simp

theorem entropy_eq {E : Env} {txin : TxIn} (hs : InputSizes txin) (hz : AllZero txin.assetIssuance.assetBlindingNonce) :
    generateAssetEntropy E.h E.m txin.prevout txin.assetIssuance.assetEntropy = .ok (issuanceEntropy E txin) := by
  have hi : txin.prevout.n < 256 ^ 4 := hs.index
  have ho : serOutPoint txin.prevout = .ok (txin.prevout.hash ++ leBytes 4 txin.prevout.n) :=
    serOutPoint_ok.2 ⟨hs.hash, _, uintEnc_leBytes hi, rfl⟩
  unfold generateAssetEntropy issuanceEntropy
  rw [if_pos hz, ho]
  simp [hs.entropy, bind, Except.bind, pure, Except.pure, HashFn.dbl]

theorem issuanceEntropy_len {E : Env} {txin : TxIn} (hs : InputSizes txin) : (issuanceEntropy E txin).length = 32 := by
  unfold issuanceEntropy; split
  · exact E.m.len _
  · exact hs.entropy

theorem uint256Small_zero : uint256Small 0 = List.replicate 32 0 := rfl

/-- The issued asset is the one described; so is the token of a new issuance. -/
theorem issuedAsset_ok {E : Env} {A : BlindArgs} {i : Nat} {txin : TxIn} (hs : InputSizes txin) (tok : Option Bytes) :
    ∃ tok', issuedAsset E A i txin tok = .ok (assetId E txin, tok') ∧
      (AllZero txin.assetIssuance.assetBlindingNonce →
        tok' = some (tokenId E (A.tokenKeys.getD i none).isSome txin)) := by
  have hl := issuanceEntropy_len (E := E) hs
  unfold issuedAsset
  by_cases hz : AllZero txin.assetIssuance.assetBlindingNonce
  · refine ⟨some (tokenId E (A.tokenKeys.getD i none).isSome txin), ?_, fun _ => rfl⟩
    rw [if_pos (isNull32_iff.2 hz), entropy_eq hs hz]
    simp only [bind, Except.bind, calculateAsset, calculateReissuanceToken, hl, ne_eq, not_true_eq_false, if_false, pure,
      Except.pure, assetId, tokenId, uint256Small_zero, keyAt_getD]
    cases (A.tokenKeys.getD i none).isSome <;> rfl
  · refine ⟨tok, ?_, fun h => absurd h hz⟩
    rw [if_neg (fun h => hz (isNull32_iff.1 h))]
    have he : issuanceEntropy E txin = txin.assetIssuance.assetEntropy := by unfold issuanceEntropy; rw [if_neg hz]
    simp only [bind, Except.bind, calculateAsset, hs.entropy, ne_eq, not_true_eq_false, if_false, pure, Except.pure, assetId,
      he, uint256Small_zero]

/-- A reissuance issues no tokens. -/
def NoReissuedTokens (txin : TxIn) : Prop :=
  ¬ AllZero txin.assetIssuance.assetBlindingNonce → txin.assetIssuance.nInflationKeys = []

theorem notCommitment_iff {c : Bytes} : confIsCommitment valueKind c = false ↔ ¬ IsValueCommitment c := by
  rw [← valueCommitment_iff]; simp

theorem not_commitment_nil : ¬ IsValueCommitment [] := by rintro ⟨b, h | h, _⟩ <;> cases h

theorem pushToken_rep {z : Zkp} {tok : Option Bytes} {id amount : Bytes} (htok : amount ≠ [] → tok = some id) {n : Nat}
    {L : List Target} (hL : L.length < n) {t : Targets} :
    (if confIsNull amount then .ok (Targets.rep n L) else pushToken z tok (Targets.rep n L)) = .ok t ↔
      (amount ≠ [] → ¬ AllZero id) ∧ ∃ l, IssuedTarget z id amount l ∧ t = Targets.rep n (L ++ l) := by
  by_cases ha : amount = []
  · have := pushIssued_rep (z := z) (id := id) (amount := amount) hL (t := t)
    subst ha
    rw [if_pos (by rfl)] at this ⊢
    rw [this]; simp
  · have hn : ¬ confIsNull amount = true := by simpa [confIsNull] using ha
    have := pushIssued_rep (z := z) (id := id) (amount := amount) hL (t := t)
    rw [if_neg hn] at this ⊢
    rw [htok ha]
    unfold pushToken
    dsimp only
    by_cases hz : AllZero id
    · rw [if_pos (isNull32_iff.2 hz)]
      constructor
      · intro h; cases h
      · rintro ⟨h, _⟩; exact absurd hz (h ha)
    · rw [if_neg (fun h => hz (isNull32_iff.1 h)), this]
      simp [hz]

theorem issuanceTargets_ok {E : Env} {A : BlindArgs} {i : Nat} {txin : TxIn} (hs : InputSizes txin) (hr : NoReissuedTokens txin)
    (tok : Option Bytes) {n : Nat} {L : List Target} (hL : L.length + 2 ≤ n) {t : Targets} :
    (∃ tok', issuanceTargets E A i txin (Targets.rep n L) tok = .ok (t, tok')) ↔
      ¬ IsValueCommitment txin.assetIssuance.nAmount ∧ ¬ IsValueCommitment txin.assetIssuance.nInflationKeys ∧
      (txin.assetIssuance.nInflationKeys ≠ [] → ¬ AllZero (tokenId E (A.tokenKeys.getD i none).isSome txin)) ∧
      ∃ l1 l2, IssuedTarget E.z (assetId E txin) txin.assetIssuance.nAmount l1 ∧
        IssuedTarget E.z (tokenId E (A.tokenKeys.getD i none).isSome txin) txin.assetIssuance.nInflationKeys l2 ∧
        t = Targets.rep n (L ++ (l1 ++ l2)) := by
  unfold issuanceTargets
  by_cases hn : txin.assetIssuance.isNull = true
  · have h2 : txin.assetIssuance.nAmount = [] ∧ txin.assetIssuance.nInflationKeys = [] := by
      simpa [Issuance.isNull, confIsNull] using hn
    rw [if_pos hn, h2.1, h2.2]
    constructor
    · rintro ⟨_, h⟩; cases h
      exact ⟨not_commitment_nil, not_commitment_nil, fun h => absurd rfl h, [], [], .none rfl, .none rfl, by simp⟩
    · rintro ⟨_, _, _, l1, l2, h1, h2, rfl⟩
      cases h1 with
      | some _ h => exact absurd rfl h
      | none =>
        cases h2 with
        | some _ h => exact absurd rfl h
        | none => exact ⟨tok, by simp⟩
  · rw [if_neg hn]
    by_cases c1 : IsValueCommitment txin.assetIssuance.nAmount
    · rw [if_pos (valueCommitment_iff.2 c1)]
      constructor
      · rintro ⟨_, h⟩; cases h
      · rintro ⟨h, _⟩; exact absurd c1 h
    · rw [if_neg (fun h => c1 (valueCommitment_iff.1 h))]
      by_cases c2 : IsValueCommitment txin.assetIssuance.nInflationKeys
      · rw [if_pos (valueCommitment_iff.2 c2)]
        constructor
        · rintro ⟨_, h⟩; cases h
        · rintro ⟨_, h, _⟩; exact absurd c2 h
      · rw [if_neg (fun h => c2 (valueCommitment_iff.1 h))]
        obtain ⟨tok', ha, htok⟩ := issuedAsset_ok (E := E) (A := A) (i := i) hs tok
        have htok : txin.assetIssuance.nInflationKeys ≠ [] → tok' = some (tokenId E (A.tokenKeys.getD i none).isSome txin) := by
          intro hk
          refine htok ?_
          by_cases hz : AllZero txin.assetIssuance.assetBlindingNonce
          · exact hz
          · exact absurd (hr hz) hk
        rw [ha]
        simp only [exc_bind_ok, raiseE_ok, pure, Except.pure]
        constructor
        · rintro ⟨_, p, hp, t1, h1, t2, h2, h⟩
          cases hp
          cases h
          dsimp only at h1 h2
          obtain ⟨l1, g1, rfl⟩ := (pushIssued_rep (by omega)).1 h1
          have := issuedTarget_len g1
          obtain ⟨g0, l2, g2, rfl⟩ := (pushToken_rep htok (by simp; omega)).1 h2
          exact ⟨c1, c2, g0, l1, l2, g1, g2, by simp⟩
        · rintro ⟨_, _, g0, l1, l2, g1, g2, rfl⟩
          have := issuedTarget_len g1
          refine ⟨tok', (assetId E txin, tok'), rfl, _, (pushIssued_rep (by omega)).2 ⟨l1, g1, rfl⟩, _,
            (pushToken_rep htok (by simp; omega)).2 ⟨g0, l2, g2, rfl⟩, by simp⟩

theorem inputTargets_ok {E : Env} {A : BlindArgs} {n : Nat} : ∀ {l : List (TxIn × Desc)} {i : Nat} {L : List Target} {tok : Option Bytes}
    {t : Targets}, (∀ x ∈ l, InputSizes x.1 ∧ NoReissuedTokens x.1) → L.length + 3 * l.length ≤ n →
    (inputTargets E A i l (Targets.rep n L) tok = .ok t ↔ ∃ L', TargetsFrom E A i l L' ∧ t = Targets.rep n (L ++ L'))
  | [], i, L, tok, t, _, _ => by
    unfold inputTargets
    constructor
    · intro h; cases h; exact ⟨[], .nil i, by simp⟩
    · rintro ⟨L', h, rfl⟩; cases h; simp
  | (txin, d) :: rest, i, L, tok, t, hx, hn => by
    unfold inputTargets
    obtain ⟨hs, hr⟩ := hx (txin, d) (by simp)
    simp only [List.length_cons] at hn
    simp only [exc_bind_ok, raiseE_ok, push_rep (show L.length < n by omega)]
    constructor
    · rintro ⟨g, hg, t1, h1, ⟨t2, tok'⟩, h2, h3⟩
      cases h1
      obtain ⟨c1, c2, c3, l1, l2, g1, g2, rfl⟩ := (issuanceTargets_ok hs hr tok (by simp; omega)).1 ⟨tok', h2⟩
      have := issuedTarget_len g1
      have := issuedTarget_len g2
      obtain ⟨L', h4, rfl⟩ := (inputTargets_ok (fun x hx' => hx x (by simp [hx'])) (by simp; omega)).1 h3
      refine ⟨(⟨d.asset, g, d.assetBlindingFactor⟩ :: (l1 ++ l2)) ++ L', .cons ⟨⟨_, l1, l2, rfl, inputGenerator_ok.1 hg, g1, g2⟩, c1, c2, c3⟩ h4, ?_⟩
      simp
    · rintro ⟨L', h, rfl⟩
      cases h with
      | @cons _ _ _ _ l L' hi hrest =>
        obtain ⟨⟨t0, l1, l2, rfl, hsp, g1, g2⟩, c1, c2, c3⟩ := hi
        have := issuedTarget_len g1
        have := issuedTarget_len g2
        have ht0 : ∃ g, t0 = ⟨d.asset, g, d.assetBlindingFactor⟩ := by cases hsp <;> exact ⟨_, rfl⟩
        obtain ⟨g, rfl⟩ := ht0
        obtain ⟨tok', h2⟩ := (issuanceTargets_ok (E := E) (A := A) (i := i) hs hr tok
          (L := L ++ [⟨d.asset, g, d.assetBlindingFactor⟩]) (n := n) (by simp; omega)).2 ⟨c1, c2, c3, l1, l2, g1, g2, rfl⟩
        refine ⟨g, inputGenerator_ok.2 hsp, _, rfl, (_, tok'), h2, ?_⟩
        refine (inputTargets_ok (fun x hx' => hx x (by simp [hx'])) (by simp; omega)).2 ⟨L', hrest, by simp⟩

theorem targetsFrom_len {E : Env} {A : BlindArgs} {i l L} (h : TargetsFrom E A i l L) : L.length ≤ 3 * l.length := by
  induction h with
  | nil => simp
  | cons hi _ ih =>
    obtain ⟨⟨_, l1, l2, rfl, _, g1, g2⟩, _⟩ := hi
    have := issuedTarget_len g1
    have := issuedTarget_len g2
    simp; omega

theorem auxTargets_ok {z : Zkp} {n : Nat} : ∀ {k : Nat} {l : List Bytes} {L : List Target} {t : Targets}, L.length + l.length ≤ n →
    (auxTargets z k l (Targets.rep n L) = .ok t ↔ ∃ L', AuxTargets z l L' ∧ t = Targets.rep n (L ++ L'))
  | _, [], L, t, _ => by
    unfold auxTargets
    constructor
    · intro h; cases h; exact ⟨[], .nil, by simp⟩
    · rintro ⟨L', h, rfl⟩; cases h; simp
  | _, ag :: rest, L, t, hn => by
    unfold auxTargets
    simp only [List.length_cons] at hn
    cases hg : z.genParse ag with
    | none =>
      dsimp only
      constructor
      · intro h; cases h
      · rintro ⟨L', h, rfl⟩
        cases h with
        | cons h => rw [hg] at h; cases h
    | some g =>
      dsimp only
      rw [push_rep (by omega)]
      simp only [exc_bind_ok, raiseE_ok]
      constructor
      · rintro ⟨t1, h1, h2⟩
        cases h1
        obtain ⟨L', h3, rfl⟩ := (auxTargets_ok (by simp; omega)).1 h2
        exact ⟨_, .cons hg h3, by simp [zero32]⟩
      · rintro ⟨L', h, rfl⟩
        cases h with
        | cons h hr =>
          rw [hg] at h
          cases h
          exact ⟨_, rfl, (auxTargets_ok (by simp; omega)).2 ⟨_, hr, by simp [zero32]⟩⟩

/-- C40, the full statement: the lists used for surjection proofs are the described targets. -/
def C40_statement : Prop := ∀ (E : Env) (A : BlindArgs) (tx : Tx), (∀ txin ∈ tx.vin, InputSizes txin) → ∀ T,
  surjTargets E A tx = .ok T →
    ∃ L, IsTargets E A tx L ∧ T = ⟨L.map Target.asset, L.map Target.gen, L.map Target.blinder⟩

/-- C40 when no reissuance issues tokens: the lists are found exactly when every target has a
generator, and then they are the described targets; in particular the preallocated lists are
always long enough.  Missing: reissuances with inflation keys, for which the claim fails. -/
theorem C40_targets_partial (E : Env) (A : BlindArgs) (tx : Tx) (hs : ∀ txin ∈ tx.vin, InputSizes txin)
    (hr : ∀ txin ∈ tx.vin, NoReissuedTokens txin) (T : TargetLists) :
    surjTargets E A tx = .ok T ↔
      ∃ L, IsTargets E A tx L ∧ T = ⟨L.map Target.asset, L.map Target.gen, L.map Target.blinder⟩ := by
  unfold surjTargets
  have hz : (tx.vin.zip A.descs).length ≤ tx.vin.length := by rw [List.length_zip]; exact Nat.min_le_left _ _
  have hx : ∀ x ∈ tx.vin.zip A.descs, InputSizes x.1 ∧ NoReissuedTokens x.1 := fun x hx =>
    ⟨hs _ (List.of_mem_zip hx).1, hr _ (List.of_mem_zip hx).1⟩
  have hn : 3 * (tx.vin.zip A.descs).length + (A.auxGens.drop tx.vin.length).length ≤ numTargets A tx := by
    unfold numTargets
    by_cases ha : A.auxGens = []
    · simp [ha]; omega
    · simp [ha]; omega
  simp only [exc_bind_ok, raiseE_ok, ← rep_nil]
  constructor
  · rintro ⟨t1, h1, t2, h2, h3⟩
    obtain ⟨L1, g1, rfl⟩ := (inputTargets_ok hx (by simp only [List.length_nil]; omega)).1 h1
    have := targetsFrom_len g1
    obtain ⟨L2, g2, rfl⟩ := (auxTargets_ok (by simp only [List.nil_append]; omega)).1 h2
    rw [trim_rep] at h3
    cases h3
    exact ⟨L1 ++ L2, ⟨L1, L2, g1, g2, rfl⟩, by simp⟩
  · rintro ⟨_, ⟨L1, L2, g1, g2, rfl⟩, rfl⟩
    have := targetsFrom_len g1
    refine ⟨_, (inputTargets_ok hx (by simp only [List.length_nil]; omega)).2 ⟨L1, g1, rfl⟩, _,
      (auxTargets_ok (by simp only [List.nil_append]; omega)).2 ⟨L2, g2, rfl⟩, ?_⟩
    rw [trim_rep]
    simp

/-- A new issuance, then a reissuance with inflation keys. -/
def staleTx : Tx :=
  ⟨2, [{ prevout := ⟨Toy.b32 9, 0⟩, assetIssuance := ⟨zero32, Toy.b32 7, Toy.amt 1, Toy.amt 1⟩ },
       { prevout := ⟨Toy.b32 9, 1⟩, assetIssuance := ⟨Toy.b32 3, Toy.b32 8, Toy.amt 1, Toy.amt 1⟩ }],
    [], 0, {}⟩
def staleArgs : BlindArgs :=
  { descs := [⟨Toy.b32 5, 7, Toy.b32 3, Toy.b32 4⟩, ⟨Toy.b32 5, 7, Toy.b32 3, Toy.b32 4⟩], pubkeys := [], rand := fun _ => [] }

theorem targetsFrom_two {E : Env} {A : BlindArgs} {i x1 d1 x2 d2 L}
    (h : TargetsFrom E A i [(x1, d1), (x2, d2)] L) :
    ∃ l1 l2, L = l1 ++ l2 ∧ InputTargets E A i x1 d1 l1 ∧ InputTargets E A (i + 1) x2 d2 l2 := by
  cases h with
  | cons h1 h =>
    cases h with
    | cons h2 h =>
      cases h
      exact ⟨_, _, by simp, h1, h2⟩

/-- C40 is false: the reissuance is given the token of the issuance before it. -/
theorem C40_statement_false : ¬ C40_statement := by
  intro h
  have hs : ∀ txin ∈ staleTx.vin, InputSizes txin := by
    intro txin ht
    simp only [staleTx, List.mem_cons, List.not_mem_nil, or_false] at ht
    rcases ht with rfl | rfl <;> exact ⟨by decide, by decide, by decide⟩
  have hT : ∃ T, surjTargets Toy.env staleArgs staleTx = .ok T ∧ T.targets[5]? = T.targets[2]? ∧ T.targets.length = 6 := by
    refine ⟨(match surjTargets Toy.env staleArgs staleTx with | .ok T => T | _ => ⟨[], [], []⟩), ?_, ?_, ?_⟩ <;> decide +kernel
  obtain ⟨T, hT, he, hl⟩ := hT
  obtain ⟨L, ⟨L1, L2, h1, h2, rfl⟩, rfl⟩ := h Toy.env staleArgs staleTx hs T hT
  cases h2
  obtain ⟨l1, l2, rfl, ⟨⟨t, a1, a2, rfl, _, g1, g2⟩, _⟩, ⟨⟨t', b1, b2, rfl, _, k1, k2⟩, _⟩⟩ := targetsFrom_two h1
  cases g1 with
  | none hh => exact absurd hh (by decide)
  | some =>
  cases g2 with
  | none hh => exact absurd hh (by decide)
  | some =>
  cases k1 with
  | none hh => exact absurd hh (by decide)
  | some =>
  cases k2 with
  | none hh => exact absurd hh (by decide)
  | some =>
  simp at he
  exact absurd he (by decide +kernel)

/-- C40: a reissuance with inflation keys that is not preceded by a new issuance is not refused
with a message: it ends in an unbound variable. -/
theorem C40_reissued_token_unbound (E : Env) (A : BlindArgs) (txin : TxIn) (i : Nat) (t : Targets)
    (hre : ¬ AllZero txin.assetIssuance.assetBlindingNonce) (he : txin.assetIssuance.assetEntropy.length = 32)
    (ha : txin.assetIssuance.nAmount = []) (hk : IsExplicitValue txin.assetIssuance.nInflationKeys) :
    issuanceTargets E A i txin t none = .error (.raise .unboundLocal) := by
  obtain ⟨b, hb, hl⟩ := hk
  have h1 : txin.assetIssuance.isNull = false := by simp [Issuance.isNull, confIsNull, hb]
  have h2 : confIsCommitment valueKind txin.assetIssuance.nAmount = false := by
    rw [ha]; exact notCommitment_iff.2 not_commitment_nil
  have h3 : confIsCommitment valueKind txin.assetIssuance.nInflationKeys = false := by
    rw [hb]; refine notCommitment_iff.2 ?_
    rintro ⟨c, h | h, _⟩ <;> cases h
  have h4 : issuedAsset E A i txin none = .ok (E.m.fn (txin.assetIssuance.assetEntropy ++ uint256Small 0), none) := by
    unfold issuedAsset
    rw [if_neg (fun h => hre (isNull32_iff.1 h))]
    simp [calculateAsset, he, bind, Except.bind, pure, Except.pure]
  unfold issuanceTargets
  rw [h1, h2, h3, h4, ha, hb]
  rfl

-- The targets of a new issuance of an asset and of tokens: asset spent, asset issued, token.
example :
    let t := Toy.tx [(5, 3)] ⟨zero32, Toy.b32 7, Toy.amt 1, Toy.amt 1⟩
    let A : BlindArgs := { descs := [⟨Toy.b32 5, 7, Toy.b32 3, Toy.b32 4⟩], pubkeys := [], rand := fun _ => [] }
    (∀ txin ∈ t.vin, InputSizes txin) ∧ (∀ txin ∈ t.vin, NoReissuedTokens txin) ∧
      ∃ L, IsTargets Toy.env A t L ∧ L.length = 3 := by
  intro t A
  have h1 : ∀ txin ∈ t.vin, InputSizes txin := by
    intro txin ht
    simp only [t, Toy.tx, List.mem_cons, List.not_mem_nil, or_false] at ht
    subst ht
    exact ⟨by decide, by decide, by decide⟩
  have h2 : ∀ txin ∈ t.vin, NoReissuedTokens txin := by
    intro txin ht
    simp only [t, Toy.tx, List.mem_cons, List.not_mem_nil, or_false] at ht
    subst ht
    exact fun h => absurd (by decide) h
  refine ⟨h1, h2, ?_⟩
  have hT : ∃ T, surjTargets Toy.env A t = .ok T ∧ T.targets.length = 3 := by
    refine ⟨(match surjTargets Toy.env A t with | .ok T => T | _ => ⟨[], [], []⟩), ?_, ?_⟩ <;> decide +kernel
  obtain ⟨T, hT, hl⟩ := hT
  obtain ⟨L, hL, rfl⟩ := (C40_targets_partial Toy.env A t h1 h2 T).1 hT
  exact ⟨L, hL, by simpa using hl⟩

end Verif
