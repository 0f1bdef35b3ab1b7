import Verif.Spec.Buffers
import Verif.BlindLemmas
import Verif.BlindFacts
import Verif.Props.Results
import Verif.Props.BlindDone
/-
C62: blinding and unblinding hand the library buffers of the sizes it reads.
-/
namespace Verif

/-! ### Equal computations and what their results satisfy -/

/-- Two computations end alike, and `Q` holds of the result. -/
def Agree {ε α} (x y : Except ε α) (Q : α → Prop) : Prop := x = y ∧ ∀ a, x = .ok a → Q a

theorem Agree.bind {ε α β} {x y : Except ε α} {f g : α → Except ε β} {Q : α → Prop} {R : β → Prop}
    (h : Agree x y Q) (hf : ∀ a, Q a → Agree (f a) (g a) R) : Agree (x >>= f) (y >>= g) R := by
  obtain ⟨rfl, hq⟩ := h
  cases x with
  | error e => exact ⟨rfl, fun a h => by cases h⟩
  | ok a => exact hf a (hq a rfl)

theorem Agree.error {ε α} {e : ε} {Q : α → Prop} : Agree (.error e) (.error e) Q := ⟨rfl, fun _ h => by cases h⟩
theorem Agree.ok {ε α} {a : α} {Q : α → Prop} (h : Q a) : Agree (.ok a : Except ε α) (.ok a) Q :=
  ⟨rfl, fun _ h' => by cases h'; exact h⟩
theorem Agree.same {ε α} {x : Except ε α} {Q : α → Prop} (h : ∀ a, x = .ok a → Q a) : Agree x x Q := ⟨rfl, h⟩
theorem Agree.mono {ε α} {x y : Except ε α} {Q R : α → Prop} (h : Agree x y Q) (i : ∀ a, Q a → R a) : Agree x y R :=
  ⟨h.1, fun a e => i a (h.2 a e)⟩
theorem Agree.raise {α} {x y : Except PyErr α} {Q : α → Prop} (h : Agree x y Q) : Agree (raiseE x) (raiseE y) Q := by
  obtain ⟨rfl, h⟩ := h
  exact ⟨rfl, fun a e => h a (raiseE_ok.1 e)⟩
theorem Agree.runtime {α} {x y : Option α} {Q : α → Prop} (h : x = y) (hq : ∀ a, x = some a → Q a) :
    Agree (orRuntime x) (orRuntime y) Q := by
  subst h
  exact ⟨rfl, fun a e => hq a (orRuntime_ok.1 e)⟩

variable {P : RangeproofArgs → Prop} {y z : Zkp}

/-! ### Helpers -/

theorem agree_blindedAsset (H : SameOnSizedFor P y z) {a r : Bytes} (ha : a.length = 32) (hr : r.length = 32) :
    Agree (blindedAsset y a r) (blindedAsset z a r) (fun p => p.2.length = 64) := by
  unfold blindedAsset
  refine Agree.bind (Agree.runtime (H.generateBlinded a r ha hr) (fun g h => y.generateBlinded_len _ _ _ h)) ?_
  intro g hg
  refine Agree.bind (Agree.runtime (H.genSerialize g hg) (Q := fun _ => True) (fun _ _ => trivial)) ?_
  intro b _
  refine Agree.bind (Agree.same (Q := fun _ => True) (fun _ _ => trivial)) ?_
  intro c _
  by_cases hv : confIsValid assetKind c = true
  · simp only [hv]
    exact Agree.ok hg
  · simp only [hv]
    exact Agree.error

theorem twos8_lt (v : Int) : twos 8 v < 2 ^ 64 := by
  have := twos_lt 8 v
  simpa using this

theorem agree_createValueCommitment (H : SameOnSizedFor P y z) {b g : Bytes} (v : Int) (hb : b.length = 32) (hg : g.length = 64) :
    Agree (createValueCommitment y b g v) (createValueCommitment z b g v) (fun p => p.2.length = 64) := by
  unfold createValueCommitment
  refine Agree.bind (Agree.runtime (H.commit b _ g hb (twos8_lt v) hg) (fun c h => y.commit_len _ _ _ _ h)) ?_
  intro c hc
  refine Agree.bind (Agree.runtime (H.commitSerialize c hc) (Q := fun _ => True) (fun _ _ => trivial)) ?_
  intro b _
  refine Agree.bind (Agree.same (Q := fun _ => True) (fun _ _ => trivial)) ?_
  intro d _
  by_cases hv : confIsValid valueKind d = true
  · simp only [hv]
    exact Agree.ok hc
  · simp only [hv]
    exact Agree.error

/-- All range proofs with these parameters are among those in question. -/
def Asks (P : RangeproofArgs → Prop) (e b : Option Int) : Prop :=
  ∀ a : RangeproofArgs, a.exp = e.getD CT_EXPONENT → a.bits = b.getD CT_BITS → P a

theorem agree_generateRangeproof (H : SameOnSizedFor P y z) (e b : Option Int) {blind nonce : Bytes} (v : Int)
    (script commit gen asset ab : Bytes) (hP : Asks P e b) (hb : blind.length = 32) (hn : nonce.length = 32) :
    Agree (generateRangeproof y e b blind nonce v script commit gen asset ab)
      (generateRangeproof z e b blind nonce v script commit gen asset ab) (fun _ => True) := by
  unfold generateRangeproof
  by_cases hc : commit.length = 64
  · by_cases hg : gen.length = 64
    · simp only [hc, hg, ne_eq, not_true_eq_false, if_false]
      refine Agree.runtime (H.rangeSign _ (hP _ rfl rfl) ?_ hc hb hn (twos8_lt v) hg) (fun _ _ => trivial)
      show (if isUnspendable script then 0 else 1) < 2 ^ 64
      split <;> decide
    · simp only [hc, hg, ne_eq, not_true_eq_false, if_false, not_false_eq_true, if_true]
      exact Agree.error
  · simp only [hc, ne_eq, not_false_eq_true, if_true]
    exact Agree.error

/-- The environment with another library. -/
def Env.lib (E : Env) (z : Zkp) : Env := { E with z }

theorem agree_outputNonce (H : SameOnSizedFor P y z) (E : Env) (pk seed : Bytes) :
    Agree (outputNonce (E.lib y) pk seed) (outputNonce (E.lib z) pk seed) (fun p => p.1.length = 32) := by
  unfold outputNonce
  refine Agree.bind (Q := fun k => k.length = 32) ?_ ?_
  · unfold ckeyNew
    by_cases hl : seed.length = 32
    · show Agree (if _ then _ else if y.secValid seed = true then _ else _) (if _ then _ else if z.secValid seed = true then _ else _) _
      rw [H.secValid seed hl]
      refine Agree.same ?_
      intro a ha
      split at ha
      · cases ha
      · split at ha
        · cases ha; exact hl
        · cases ha
    · simp only [hl, ne_eq, not_false_eq_true, if_true]
      exact Agree.error
  · intro k hk
    dsimp only
    rw [show (E.lib y).z.pubOf k = (E.lib z).z.pubOf k from H.pubOf k hk]
    by_cases hp : ((E.lib z).z.pubOf k).length = committedSize
    · simp only [hp, ne_eq, not_true_eq_false, if_false]
      refine Agree.bind (Agree.runtime (H.ecdh k pk hk) (Q := fun _ => True) (fun _ _ => trivial)) ?_
      intro s _
      exact Agree.ok (E.h.len _)
    · simp only [hp, ne_eq, not_false_eq_true, if_true]
      exact Agree.error

theorem buildAligned_length {data : List Bytes} {n : Nat} {b : Bytes} (h : buildAligned data n = .ok b) :
    b.length = n * data.length := by
  unfold buildAligned at h
  split at h
  · cases h
  split at h
  · cases h
  split at h
  · cases h
  split at h
  · cases h
  rename_i h0 h1 h2
  cases h
  rw [← Classical.not_not.1 h2]
  have := Nat.div_add_mod data.flatten.length n
  have h1 := Classical.not_not.1 h1
  omega

theorem agree_surjectionProof (H : SameOnSizedFor P y z) {targets gens blinders : List Bytes} {ab gen asset seed : Bytes}
    (hlen : blinders.length = gens.length) (h32 : All32 blinders) (hab : ab.length = 32) (hgen : gen.length = 64)
    (ha : asset.length = 32) (hs : seed.length = 32) :
    Agree (surjectionProof y targets gens blinders ab gen asset seed)
      (surjectionProof z targets gens blinders ab gen asset seed) (fun _ => True) := by
  unfold surjectionProof
  refine Agree.bind (Agree.same (Q := fun b => b.length = 32 * targets.length) (fun a h => buildAligned_length h)) ?_
  intro tags htags
  rw [H.surjInit tags _ _ asset 100 seed htags (Nat.min_le_right _ _) ha hs]
  cases z.surjInit tags targets.length (min 3 targets.length) asset 100 seed with
  | none => exact Agree.ok trivial
  | some p =>
    obtain ⟨p, idx⟩ := p
    dsimp only
    refine Agree.bind (Agree.same (Q := fun b => b.length = 64 * gens.length) (fun a h => buildAligned_length h)) ?_
    intro eph heph
    cases hb : blinders[idx]? with
    | none => exact Agree.error
    | some b =>
      obtain ⟨hi, hbi⟩ := List.getElem?_eq_some_iff.1 hb
      have hb32 : b.length = 32 := h32 b (by rw [← hbi]; exact List.getElem_mem hi)
      dsimp only
      refine Agree.bind (Agree.runtime (H.surjGenerate p eph _ gen idx b ab heph hgen (by omega) hb32 hab)
        (Q := fun _ => True) (fun _ _ => trivial)) ?_
      intro p' _
      rw [H.surjVerify p' eph _ gen heph hgen, H.surjSerialize p']
      exact Agree.same (fun _ _ => trivial)

/-! ### The checks -/

/-- What holds of the targets gathered so far. -/
def TInv (t : Targets) : Prop := t.total ≤ t.gens.length ∧ All32 t.blinders

theorem All32.append {l : List Bytes} {x : Bytes} (h : All32 l) (hx : x.length = 32) : All32 (l ++ [x]) := by
  intro b hb
  rcases List.mem_append.1 hb with hb | hb
  · exact h b hb
  · rw [List.mem_singleton.1 hb]; exact hx

theorem push_inv {t : Targets} {a g b : Bytes} (h : TInv t) (hb : b.length = 32) :
    Agree (t.push a g b) (t.push a g b) TInv := by
  refine Agree.same ?_
  intro t' ht
  unfold Targets.push at ht
  obtain ⟨gs, h1, ht⟩ := exc_bind_ok.1 ht
  obtain ⟨st, h2, ht⟩ := exc_bind_ok.1 ht
  cases ht
  unfold setAt at h1
  split at h1
  · rename_i hl
    cases h1
    exact ⟨by simpa using hl, h.2.append hb⟩
  · cases h1

theorem zero32_len : zero32.length = 32 := by decide

theorem agree_pushIssued (H : SameOnSizedFor P y z) {a : Bytes} {t : Targets} (ha : a.length = 32) (ht : TInv t) :
    Agree (pushIssued y a t) (pushIssued z a t) TInv := by
  unfold pushIssued
  refine Agree.bind (Agree.runtime (H.generate a ha) (Q := fun _ => True) (fun _ _ => trivial)) ?_
  intro g _
  exact push_inv ht zero32_len

theorem agree_issuanceTargets (H : SameOnSizedFor P y z) (E : Env) (A : BlindArgs) (i : Nat) (txin : TxIn) {t : Targets}
    {token : Option Bytes} (ht : TInv t) (htok : ∀ k, token = some k → k.length = 32) :
    Agree (issuanceTargets (E.lib y) A i txin t token) (issuanceTargets (E.lib z) A i txin t token)
      (fun p => TInv p.1 ∧ ∀ k, p.2 = some k → k.length = 32) := by
  unfold issuanceTargets
  split
  · exact Agree.ok ⟨ht, htok⟩
  split
  · exact Agree.error
  split
  · exact Agree.error
  refine Agree.bind (Agree.raise (Agree.same (Q := fun p => p.1.length = 32 ∧ ∀ k, p.2 = some k → k.length = 32) ?_)) ?_
  · rintro ⟨a, tok⟩ h
    change issuedAsset E A i txin token = _ at h
    unfold issuedAsset at h
    split at h
    · obtain ⟨e, -, h⟩ := exc_bind_ok.1 h
      obtain ⟨x, hx, h⟩ := exc_bind_ok.1 h
      obtain ⟨w, hy, h⟩ := exc_bind_ok.1 h
      cases h
      exact ⟨calculateAsset_len hx, fun k hk => by cases hk; exact calculateToken_len hy⟩
    · obtain ⟨x, hx, h⟩ := exc_bind_ok.1 h
      cases h
      exact ⟨calculateAsset_len hx, htok⟩
  rintro ⟨a, tok⟩ ⟨ha, htok'⟩
  dsimp only at ha htok' ⊢
  refine Agree.bind (Q := TInv) (Agree.raise ?_) ?_
  · split
    · exact Agree.ok ht
    · exact agree_pushIssued H ha ht
  intro t' ht'
  refine Agree.bind (Q := TInv) (Agree.raise ?_) ?_
  · split
    · exact Agree.ok ht'
    · unfold pushToken
      cases tok with
      | none => exact Agree.error
      | some k =>
        dsimp only
        split
        · exact Agree.error
        · exact agree_pushIssued H (htok' k rfl) ht'
  intro t'' ht''
  exact Agree.ok ⟨ht'', htok'⟩

theorem agree_inputGenerator (H : SameOnSizedFor P y z) {A : BlindArgs} (i : Nat) {d : Desc} (hA : ∀ g ∈ A.auxGens, g.length = 33)
    (hd : DescSizes d) : Agree (inputGenerator y A i d) (inputGenerator z A i d) (fun _ => True) := by
  unfold inputGenerator
  split
  · split
    · cases hg : A.auxGens[i]? with
      | none => exact Agree.error
      | some g =>
        dsimp only
        rw [H.genParse g (hA g (List.mem_of_getElem? hg))]
        exact Agree.same (fun _ _ => trivial)
    · exact Agree.error
  · exact Agree.raise (Agree.runtime (H.generateBlinded _ _ hd.asset hd.assetBlindingFactor) (fun _ _ => trivial))

theorem agree_inputTargets (H : SameOnSizedFor P y z) (E : Env) (A : BlindArgs) (hA : ∀ g ∈ A.auxGens, g.length = 33) :
    ∀ (l : List (TxIn × Desc)) (i : Nat) (t : Targets) (token : Option Bytes), (∀ p ∈ l, DescSizes p.2) → TInv t →
      (∀ k, token = some k → k.length = 32) →
      Agree (inputTargets (E.lib y) A i l t token) (inputTargets (E.lib z) A i l t token) TInv
  | [], _, _, _, _, ht, _ => Agree.ok ht
  | (txin, d) :: l, i, t, token, hd, ht, htok => by
    unfold inputTargets
    refine Agree.bind (agree_inputGenerator H i hA (hd _ (List.mem_cons_self ..))) ?_
    intro g _
    refine Agree.bind (Agree.raise (push_inv ht (hd _ (List.mem_cons_self ..)).assetBlindingFactor)) ?_
    intro t' ht'
    refine Agree.bind (agree_issuanceTargets H E A i txin ht' htok) ?_
    rintro ⟨t'', tok⟩ ⟨h1, h2⟩
    exact agree_inputTargets H E A hA l (i + 1) t'' tok (fun p hp => hd p (List.mem_cons_of_mem _ hp)) h1 h2

theorem agree_auxTargets (H : SameOnSizedFor P y z) : ∀ (k : Nat) (l : List Bytes) (t : Targets), (∀ g ∈ l, g.length = 33) → TInv t →
    Agree (auxTargets y k l t) (auxTargets z k l t) TInv
  | _, [], _, _, ht => Agree.ok ht
  | k, g :: l, t, hl, ht => by
    unfold auxTargets
    rw [H.genParse g (hl g (List.mem_cons_self ..))]
    cases z.genParse g with
    | none => exact Agree.error
    | some x =>
      dsimp only
      refine Agree.bind (Agree.raise (push_inv ht zero32_len)) ?_
      intro t' ht'
      exact agree_auxTargets H (k + 1) l t' (fun x hx => hl x (List.mem_cons_of_mem _ hx)) ht'

theorem filled_length : ∀ {l : List (Option Bytes)} {r : List Bytes}, filled l = .ok r → r.length = l.length
  | [], r, h => by cases h; rfl
  | none :: _, r, h => by cases h
  | some x :: l, r, h => by
    unfold filled at h
    obtain ⟨r', h1, h⟩ := exc_bind_ok.1 h
    cases h
    simp [filled_length h1]

/-- What holds of the targets used for every surjection proof. -/
def TLInv (T : TargetLists) : Prop := T.blinders.length = T.gens.length ∧ All32 T.blinders

theorem trimTargets_inv {t : Targets} {T : TargetLists} (ht : TInv t) (h : trimTargets t = .ok T) : TLInv T := by
  unfold trimTargets at h
  by_cases h1 : t.total = t.blinders.length
  · by_cases h2 : (t.st.drop t.total).all (·.isNone) = true
    · by_cases h3 : (t.gens.drop t.total).all (·.isNone) = true
      · rw [if_neg (by simpa using h1), h2, h3] at h
        obtain ⟨-, -, h⟩ := exc_bind_ok.1 h
        obtain ⟨-, -, h⟩ := exc_bind_ok.1 h
        obtain ⟨-, -, h⟩ := exc_bind_ok.1 h
        obtain ⟨ts, -, h⟩ := exc_bind_ok.1 h
        obtain ⟨gs, hgs, h⟩ := exc_bind_ok.1 h
        cases h
        refine ⟨?_, ht.2⟩
        rw [filled_length hgs, List.length_take, ← h1]
        have := ht.1
        omega
      · rw [if_neg (by simpa using h1), h2] at h
        simp only [Bool.not_eq_true] at h3
        rw [h3] at h
        obtain ⟨-, -, h⟩ := exc_bind_ok.1 h
        obtain ⟨-, -, h⟩ := exc_bind_ok.1 h
        obtain ⟨-, h, -⟩ := exc_bind_ok.1 h
        cases h
    · simp only [Bool.not_eq_true] at h2
      rw [if_neg (by simpa using h1), h2] at h
      obtain ⟨-, -, h⟩ := exc_bind_ok.1 h
      obtain ⟨-, h, -⟩ := exc_bind_ok.1 h
      cases h
  · rw [if_pos h1] at h
    obtain ⟨-, h, -⟩ := exc_bind_ok.1 h
    cases h

theorem checkArgs_aux {A : BlindArgs} {tx : Tx} (h : checkArgs A tx = .ok ()) : ∀ g ∈ A.auxGens, g.length = 33 := by
  intro g hg
  unfold checkArgs at h
  split at h
  · cases h
  split at h
  · cases h
  split at h
  · cases h
  split at h
  · cases h
  split at h
  · split at h
    · cases h
    split at h
    · cases h
    rename_i hany
    have := fun hne => hany (List.any_eq_true.2 ⟨g, hg, hne⟩)
    simpa using this
  · rename_i hne
    rw [Classical.not_not.1 hne] at hg
    cases hg

/-- What holds of the blinding factors of the inputs. -/
def CInv (c : Counts) : Prop := All32 c.blinds ∧ All32 c.assetblinds ∧ c.assetblinds.length = c.blinds.length

theorem countIssuance_cinv {i : Nat} {token : Bool} {key : Option Bytes} {v p : Bytes} {c c' : Counts} (h : countIssuance i token key v p c = .ok c')
    (hc : CInv c) : CInv c' := by
  unfold countIssuance at h
  split at h
  · split at h
    · cases h
    · split at h
      · cases h; exact hc
      · cases h
  · cases h; exact hc

theorem countInputs_cinv (A : BlindArgs) (wit : List TxInWitness) : ∀ (l : List (TxIn × Desc)) (i : Nat) (c c' : Counts),
    (∀ p ∈ l, DescSizes p.2) → countInputs A wit i l c = .ok c' → CInv c → CInv c'
  | [], _, _, _, _, h, hc => by cases h; exact hc
  | (txin, d) :: l, i, c, c', hd, h, hc => by
    unfold countInputs at h
    obtain ⟨c1, h1, h⟩ := exc_bind_ok.1 h
    have hrest : ∀ c2, countInputs A wit (i + 1) l c2 = .ok c' → CInv c2 → CInv c' :=
      fun c2 h2 => countInputs_cinv A wit l (i + 1) c2 c' (fun p hp => hd p (List.mem_cons_of_mem _ hp)) h2
    have hd0 := hd _ (List.mem_cons_self ..)
    have hc1 : CInv c1 := by
      unfold countBlinded at h1
      split at h1
      · split at h1
        · cases h1
        · cases h1
          exact ⟨hc.1.append hd0.blindingFactor, hc.2.1.append hd0.assetBlindingFactor, by simp [hc.2.2]⟩
      · cases h1; exact hc
    dsimp only at h
    split at h
    · exact hrest c1 h hc1
    · obtain ⟨c3, h3, h⟩ := exc_bind_ok.1 h
      obtain ⟨c4, h4, h⟩ := exc_bind_ok.1 h
      exact hrest c4 h (countIssuance_cinv h4 (countIssuance_cinv h3 hc1))

theorem agree_countOutputs (H : SameOnSizedFor P y z) (tx : Tx) : ∀ (l : List Bytes) (j : Nat) (c : Counts), CInv c →
    Agree (countOutputs y tx j l c) (countOutputs z tx j l c) CInv
  | [], _, _, hc => Agree.ok hc
  | pk :: l, j, c, hc => by
    unfold countOutputs
    refine Agree.bind (Q := CInv) ?_ (fun c' hc' => agree_countOutputs H tx l (j + 1) c' hc')
    have e : countOutput y j pk (tx.vout.getD j {}) tx.wit.vtxoutwit[j]? c = countOutput z j pk (tx.vout.getD j {}) tx.wit.vtxoutwit[j]? c := by
      unfold countOutput fullyValid
      rw [H.pubValid pk]
    rw [e]
    refine Agree.same ?_
    intro c' h
    unfold countOutput at h
    repeat' split at h
    all_goals first | (cases h; exact hc) | cases h

theorem agree_checks (H : SameOnSizedFor P y z) (E : Env) (A : BlindArgs) (tx : Tx) (hd : ∀ d ∈ A.descs, DescSizes d) :
    Agree (checks (E.lib y) A tx) (checks (E.lib z) A tx) (fun p => TLInv p.1 ∧ CInv p.2) := by
  have hz : ∀ p ∈ tx.vin.zip A.descs, DescSizes p.2 := fun p hp => hd p.2 (List.of_mem_zip hp).2
  unfold checks
  refine Agree.bind (Agree.raise (Agree.same (Q := fun _ => ∀ g ∈ A.auxGens, g.length = 33)
    (fun a h => checkArgs_aux h))) ?_
  intro _ hA
  refine Agree.bind (Q := TLInv) ?_ ?_
  · unfold surjTargets
    refine Agree.bind (agree_inputTargets H E A hA _ 0 _ none hz ⟨Nat.zero_le _, fun x hx => by cases hx⟩ (fun k hk => by cases hk)) ?_
    intro t ht
    refine Agree.bind (agree_auxTargets H _ _ t (fun g hg => hA g (List.mem_of_mem_drop hg)) ht) ?_
    intro t' ht'
    exact Agree.raise (Agree.same (fun T h => trimTargets_inv ht' h))
  intro T hT
  refine Agree.bind (Agree.same (Q := CInv) (fun c h => countInputs_cinv A _ _ _ _ _ hz h
    ⟨fun x hx => absurd hx (by simp), fun x hx => absurd hx (by simp), rfl⟩)) ?_
  intro c hc
  refine Agree.bind (agree_countOutputs H tx A.pubkeys 0 c hc) ?_
  intro c' hc'
  exact Agree.ok ⟨hT, hc'⟩

/-! ### The loops -/

/-- Started in a state that satisfies `I`, two computations do the same, and what they end with
satisfies `Q`. -/
def Same {α} (I : BS → Prop) (m n : BM α) (Q : α → BS → Prop) : Prop :=
  ∀ s, I s → m s = n s ∧ ∀ a s', m s = (.ok a, s') → Q a s'

theorem Same.bind {α β} {I : BS → Prop} {m n : BM α} {f g : α → BM β} {Q : α → BS → Prop} {R : β → BS → Prop}
    (h : Same I m n Q) (hf : ∀ a, Same (Q a) (f a) (g a) R) : Same I (m >>= f) (n >>= g) R := by
  intro s hs
  obtain ⟨h1, h2⟩ := h s hs
  show (match m s with | (.ok a, s) => f a s | (.error e, s) => (.error e, s)) =
    (match n s with | (.ok a, s) => g a s | (.error e, s) => (.error e, s)) ∧ _
  constructor
  · rw [← h1]
    rcases hm : m s with ⟨_ | a, s1⟩
    · rfl
    · exact (hf a s1 (h2 a s1 hm)).1
  · intro b s' hb
    obtain ⟨a, s1, hm, hb⟩ := BM.bind_ok.1 hb
    exact (hf a s1 (h2 a s1 hm)).2 b s' hb

theorem Same.pure {α} {I : BS → Prop} {a : α} {Q : α → BS → Prop} (h : ∀ s, I s → Q a s) : Same I (Pure.pure a) (Pure.pure a) Q := by
  intro s hs
  refine ⟨rfl, fun b s' hb => ?_⟩
  obtain ⟨rfl, rfl⟩ := BM.pure_ok.1 hb
  exact h _ hs

theorem Same.get {I : BS → Prop} : Same I BM.get BM.get (fun a s => a = s ∧ I s) := by
  intro s hs
  refine ⟨rfl, fun b s' hb => ?_⟩
  obtain ⟨rfl, rfl⟩ := BM.get_ok.1 hb
  exact ⟨rfl, hs⟩

theorem Same.modify {I : BS → Prop} {f : BS → BS} {Q : Unit → BS → Prop} (h : ∀ s, I s → Q () (f s)) :
    Same I (BM.modify f) (BM.modify f) Q := by
  intro s hs
  refine ⟨rfl, fun b s' hb => ?_⟩
  rw [BM.modify_ok.1 hb]
  exact h s hs

theorem Same.lift {α} {I : BS → Prop} {x w : Except PyErr α} {P : α → Prop} (h : Agree x w P) :
    Same I (BM.lift x) (BM.lift w) (fun a s => P a ∧ I s) := by
  obtain ⟨rfl, h⟩ := h
  intro s hs
  refine ⟨rfl, fun b s' hb => ?_⟩
  obtain ⟨hx, rfl⟩ := BM.lift_ok.1 hb
  exact ⟨h b hx, hs⟩

theorem Same.rand {I : BS → Prop} {A : BlindArgs} (hA : ∀ k, (A.rand k).length = 32) (hI : ∀ s, I s → I { s with rnd := s.rnd + 1 }) :
    Same I (BM.rand A) (BM.rand A) (fun r s => r.length = 32 ∧ I s) := by
  intro s hs
  refine ⟨rfl, fun b s' hb => ?_⟩
  obtain ⟨rfl, rfl⟩ := BM.rand_ok.1 hb
  exact ⟨hA _, hI s hs⟩

theorem Same.mono {α} {I J : BS → Prop} {m n : BM α} {Q R : α → BS → Prop} (h : Same I m n Q) (hj : ∀ s, J s → I s)
    (hq : ∀ a s, Q a s → R a s) : Same J m n R :=
  fun s hs => ⟨(h s (hj s hs)).1, fun a s' e => hq a s' ((h s (hj s hs)).2 a s' e)⟩

/-- A fact that does not depend on the state. -/
theorem Same.given {α} {P : Prop} {I : BS → Prop} {m n : BM α} {Q : α → BS → Prop} (h : P → Same I m n Q) :
    Same (fun s => P ∧ I s) m n Q := fun s hs => h hs.1 s hs.2

/-- The state just read. -/
theorem Same.read {α} {I : BS → Prop} {m n : BM α} {s0 : BS} {Q : α → BS → Prop} (h : I s0 → Same (fun s => s0 = s ∧ I s) m n Q) :
    Same (fun s => s0 = s ∧ I s) m n Q := by
  intro s hs
  obtain ⟨rfl, hi⟩ := hs
  exact h hi s0 ⟨rfl, hi⟩

variable {I : BS → Prop}

theorem Same.finish {α} {C D : Ctx} {Q : α → BS → Prop} (h : ∀ s, blindingResult C s = blindingResult D s) :
    Same I (BM.finish C : BM α) (BM.finish D) Q := by
  intro s _
  refine ⟨?_, fun a s' e => (BM.finish_ok.1 e).elim⟩
  show (BM.finish C : BM α) s = _
  have e1 : (BM.finish C : BM α) s = (.error (.ret (blindingResult C s)), s) := BM.finish_error.2 ⟨rfl, rfl⟩
  have e2 : (BM.finish D : BM α) s = (.error (.ret (blindingResult D s)), s) := BM.finish_error.2 ⟨rfl, rfl⟩
  rw [e1, e2, h s]

/-- What holds between the steps: factors of 32 bytes, `d` asset blinding factors fewer than
blinding factors, `k` attempts of outputs at least. -/
structure Inv (d k : Nat) (s : BS) : Prop where
  blinds : All32 s.blinds
  assetblinds : All32 s.assetblinds
  len : s.assetblinds.length + d = s.blinds.length
  att : s.issAttempts + k ≤ s.attempts

/-- The context with another library. -/
def Ctx.lib (C : Ctx) (z : Zkp) : Ctx := { C with E := C.E.lib z }

theorem agree_uint256 (b : Bytes) : Agree (uint256New b) (uint256New b) (fun c => c.length = 32) :=
  Agree.same (fun a h => by obtain ⟨h1, rfl⟩ := uint256New_ok.1 h; exact h1)

theorem same_blindPseudo (H : SameOnSizedFor P y z) (C : Ctx) (hP : Asks P C.A.ctExponent C.A.ctBits) (nIn : Nat) (token : Bool) (key : Bytes) (amount : Int) {asset blind : Bytes}
    (ha : asset.length = 32) (hb : blind.length = 32) :
    Same (Inv 0 0) (blindPseudo (C.lib y) nIn token key amount asset blind) (blindPseudo (C.lib z) nIn token key amount asset blind)
      (fun _ => Inv 0 0) := by
  unfold blindPseudo
  refine Same.bind (Q := fun _ => Inv 0 0) (Same.modify fun s h => ⟨h.1, h.2, h.3, h.4⟩) ?_
  intro _
  refine Same.bind (Same.lift (agree_blindedAsset H ha zero32_len)) ?_
  rintro ⟨_, gen⟩
  refine Same.given ?_
  intro hgen
  refine Same.bind (Same.lift (agree_createValueCommitment H amount hb hgen)) ?_
  rintro ⟨cv, commit⟩
  refine Same.given ?_
  intro hcom
  refine Same.bind Same.get ?_
  intro s0
  refine Same.bind (Q := fun _ => Inv 0 0) (Same.modify fun s h => ⟨h.2.1, h.2.2, h.2.3, h.2.4⟩) ?_
  intro _
  refine Same.bind (Same.lift (agree_uint256 key)) ?_
  intro nonce
  refine Same.given ?_
  intro hn
  refine Same.bind (Same.lift (agree_generateRangeproof H _ _ amount _ _ _ _ _ hP hb hn)) ?_
  intro proof
  refine Same.bind (Q := fun _ => Inv 0 0) (Same.modify fun s h => ⟨h.2.1, h.2.2, h.2.3, h.2.4⟩) ?_
  intro _
  exact Same.modify fun s h => ⟨h.1, h.2, h.3, h.4⟩

theorem pseudoAsset_len {E : Env} {txin : TxIn} {token : Bool} {a : Bytes} (h : pseudoAsset E txin token = .ok (some a)) :
    a.length = 32 := by
  unfold pseudoAsset at h
  split at h
  · obtain ⟨e, -, h⟩ := exc_bind_ok.1 h
    dsimp only at h
    split at h
    · obtain ⟨x, hx, h⟩ := exc_bind_ok.1 h
      cases h
      exact calculateAsset_len hx
    · obtain ⟨x, hx, h⟩ := exc_bind_ok.1 h
      cases h
      exact calculateToken_len hx
  · split at h
    · obtain ⟨x, hx, h⟩ := exc_bind_ok.1 h
      cases h
      exact calculateAsset_len hx
    · cases h

theorem same_issuancePseudo (H : SameOnSizedFor P y z) (C : Ctx) (hP : Asks P C.A.ctExponent C.A.ctBits) (hr : ∀ k, (C.A.rand k).length = 32) (nIn : Nat) (token : Bool) (key : Bytes) :
    Same (Inv 0 0) (issuancePseudo (C.lib y) nIn token key) (issuancePseudo (C.lib z) nIn token key) (fun _ => Inv 0 0) := by
  unfold issuancePseudo
  refine Same.bind (Q := fun _ => Inv 0 0) (Same.modify fun s h => ⟨h.1, h.2, h.3, by have := h.4; dsimp only; omega⟩) ?_
  intro _
  refine Same.bind Same.get ?_
  intro s0
  dsimp only
  by_cases hnull : confIsNull (if token then (s0.tx.vin.getD nIn default).assetIssuance.nInflationKeys
      else (s0.tx.vin.getD nIn default).assetIssuance.nAmount) = true
  · rw [if_pos hnull, if_pos hnull]
    exact Same.pure fun s h => h.2
  rw [if_neg hnull, if_neg hnull]
  refine Same.bind (Same.lift (Agree.same (Q := fun _ => True) (fun _ _ => trivial))) ?_
  intro amount
  refine Same.bind (Q := fun _ => Inv 0 0) (Same.modify fun s h => ⟨h.2.2.1, h.2.2.2, h.2.2.3, h.2.2.4⟩) ?_
  intro _
  refine Same.bind (Same.lift (Agree.same (x := pseudoAsset C.E _ token) (Q := fun o => ∀ a, o = some a → a.length = 32)
    (fun o h a e => by subst e; exact pseudoAsset_len h))) ?_
  intro o
  refine Same.given ?_
  intro ho
  cases o with
  | none => exact Same.pure fun s h => h
  | some asset =>
    dsimp only
    refine Same.bind (Same.rand hr (fun s h => ⟨h.1, h.2, h.3, h.4⟩)) ?_
    intro r
    refine Same.given ?_
    intro _
    refine Same.bind (Same.lift (agree_uint256 r)) ?_
    intro blind
    refine Same.given ?_
    intro hb
    refine Same.bind (Q := fun _ => Inv 0 0) (Same.modify fun s h =>
      ⟨h.1.append hb, h.2.append zero32_len, by have := h.3; simp only [List.length_append, List.length_cons]; omega, h.4⟩) ?_
    intro _
    refine Same.bind Same.get ?_
    intro s1
    by_cases hl : s1.attempts = C.nToBlind
    · rw [if_pos (show s1.attempts = (C.lib y).nToBlind from hl), if_pos (show s1.attempts = (C.lib z).nToBlind from hl)]
      exact Same.finish fun s => rfl
    · rw [if_neg (show ¬ s1.attempts = (C.lib y).nToBlind from hl), if_neg (show ¬ s1.attempts = (C.lib z).nToBlind from hl)]
      exact (same_blindPseudo H C hP nIn token key amount (ho asset rfl) hb).mono (fun s h => h.2) (fun _ _ h => h)

theorem same_issuanceStep (H : SameOnSizedFor P y z) (C : Ctx) (hP : Asks P C.A.ctExponent C.A.ctBits) (hr : ∀ k, (C.A.rand k).length = 32) (nIn : Nat) (token : Bool) :
    Same (Inv 0 0) (issuanceStep (C.lib y) nIn token) (issuanceStep (C.lib z) nIn token) (fun _ => Inv 0 0) := by
  unfold issuanceStep
  show Same _ (match keyAt (if token then C.A.tokenKeys else C.A.assetKeys) nIn with | none => _ | some key => _)
    (match keyAt (if token then C.A.tokenKeys else C.A.assetKeys) nIn with | none => _ | some key => _) _
  cases keyAt (if token then C.A.tokenKeys else C.A.assetKeys) nIn with
  | none => exact Same.pure fun s h => h
  | some key => exact same_issuancePseudo H C hP hr nIn token key

theorem same_issuanceLoop (H : SameOnSizedFor P y z) (C : Ctx) (hP : Asks P C.A.ctExponent C.A.ctBits) (hr : ∀ k, (C.A.rand k).length = 32) : ∀ (n i : Nat),
    Same (Inv 0 0) (issuanceLoop (C.lib y) i n) (issuanceLoop (C.lib z) i n) (fun _ => Inv 0 0)
  | 0, _ => Same.pure fun s h => h
  | n + 1, i => by
    unfold issuanceLoop
    refine Same.bind (same_issuanceStep H C hP hr i false) ?_
    intro _
    refine Same.bind (same_issuanceStep H C hP hr i true) ?_
    intro _
    exact same_issuanceLoop H C hP hr n (i + 1)

/-- `Inv` with at least one factor of each kind. -/
structure Inv1 (s : BS) : Prop extends Inv 0 1 s where
  ne : s.blinds ≠ []

theorem same_balance (H : SameOnSizedFor P y z) (C : Ctx) :
    Same Inv1 (balance (C.lib y)) (balance (C.lib z)) (fun _ => Inv1) := by
  unfold balance
  refine Same.bind Same.get ?_
  intro s0
  refine Same.read ?_
  intro hi
  by_cases h1 : s0.attempts = 1 ∧ C.nBlindsIn = 0
  · rw [if_pos (show s0.attempts = 1 ∧ (C.lib y).nBlindsIn = 0 from h1), if_pos (show s0.attempts = 1 ∧ (C.lib z).nBlindsIn = 0 from h1)]
    exact Same.finish fun s => rfl
  rw [if_neg (show ¬ (s0.attempts = 1 ∧ (C.lib y).nBlindsIn = 0) from h1), if_neg (show ¬ (s0.attempts = 1 ∧ (C.lib z).nBlindsIn = 0) from h1)]
  by_cases h2 : s0.blinds.length = s0.attempts + C.nBlindsIn
  · rw [if_neg (show ¬ s0.blinds.length ≠ s0.attempts + (C.lib y).nBlindsIn from fun h => h h2),
      if_neg (show ¬ s0.blinds.length ≠ s0.attempts + (C.lib z).nBlindsIn from fun h => h h2)]
    by_cases h3 : s0.amounts.length = s0.blinds.length
    · rw [if_neg (fun h => h h3), if_neg (fun h => h h3)]
      have e := H.blindSum (s0.amounts.map (twos 8)) s0.assetblinds s0.blinds (s0.attempts + C.nBlindsIn)
        (s0.issAttempts + C.nBlindsIn) (by rw [List.length_map, h3, h2]) (by rw [← h2, ← hi.len]; rfl) h2
        (by intro v hv; obtain ⟨i, -, rfl⟩ := List.mem_map.1 hv; exact twos8_lt i) hi.assetblinds hi.blinds
        (by have := hi.att; omega)
      refine Same.bind (Same.lift (Agree.runtime e (fun x h => y.blindSum_len _ _ _ _ _ _ h))) ?_
      intro last
      refine Same.given ?_
      intro hl
      refine Same.bind (Q := fun _ => Inv1) (Same.modify ?_) ?_
      · rintro s ⟨rfl, h⟩
        refine ⟨⟨?_, h.assetblinds, ?_, h.att⟩, by simp⟩
        · exact All32.append (fun x hx => h.blinds x (List.dropLast_subset _ hx)) hl
        · have := h.len
          have := List.length_pos_iff.2 h.ne
          simp only [List.length_append, List.length_dropLast, List.length_cons, List.length_nil]
          omega
      intro _
      split
      · refine Same.bind (Q := fun _ _ => True) (Same.modify fun s _ => trivial) ?_
        intro _
        exact Same.finish fun s => rfl
      · exact Same.pure fun s h => h
    · rw [if_pos h3, if_pos h3]
      exact (Same.lift (I := fun _ => True) (P := fun _ => False) Agree.error).mono (fun _ _ => trivial) (fun _ _ h => h.1.elim)
  · rw [if_pos (show s0.blinds.length ≠ s0.attempts + (C.lib y).nBlindsIn from h2), if_pos (show s0.blinds.length ≠ s0.attempts + (C.lib z).nBlindsIn from h2)]
    exact (Same.lift (I := fun _ => True) (P := fun _ => False) Agree.error).mono (fun _ _ => trivial) (fun _ _ h => h.1.elim)

theorem same_balanceIfLast (H : SameOnSizedFor P y z) (C : Ctx) :
    Same Inv1 (balanceIfLast (C.lib y)) (balanceIfLast (C.lib z)) (fun _ => Inv1) := by
  unfold balanceIfLast
  refine Same.bind Same.get ?_
  intro s0
  by_cases h : s0.attempts = C.nToBlind
  · rw [if_pos (show s0.attempts = (C.lib y).nToBlind from h), if_pos (show s0.attempts = (C.lib z).nToBlind from h)]
    exact (same_balance H C).mono (fun s h => h.2) (fun _ _ h => h)
  · rw [if_neg (show ¬ s0.attempts = (C.lib y).nToBlind from h), if_neg (show ¬ s0.attempts = (C.lib z).nToBlind from h)]
    exact Same.pure fun s h => h.2

theorem Inv.weaken {d k : Nat} {s : BS} (h : Inv d k s) : Inv d 0 s := ⟨h.1, h.2, h.3, by have := h.4; omega⟩

theorem same_commitOutput (H : SameOnSizedFor P y z) (C : Ctx) (hP : Asks P C.A.ctExponent C.A.ctBits) (hT : TLInv C.T) (hr : ∀ k, (C.A.rand k).length = 32) (nOut : Nat)
    (pk script : Bytes) (amount : Int) {asset blind ab : Bytes} (ha : asset.length = 32) (hb : blind.length = 32) (hab : ab.length = 32) :
    Same (Inv 0 0) (commitOutput (C.lib y) nOut pk script amount asset blind ab)
      (commitOutput (C.lib z) nOut pk script amount asset blind ab) (fun _ => Inv 0 0) := by
  have hset : ∀ (f : Tx → Tx), Same (Inv 0 0) (BM.modifyTx f) (BM.modifyTx f) (fun _ => Inv 0 0) :=
    fun f => Same.modify fun s h => ⟨h.1, h.2, h.3, h.4⟩
  have hrand : Same (Inv 0 0) (BM.rand C.A) (BM.rand C.A) _ := Same.rand hr (fun s h => ⟨h.1, h.2, h.3, h.4⟩)
  unfold commitOutput
  refine Same.bind (Q := fun _ => Inv 0 0) (Same.modify fun s h => ⟨h.1, h.2, h.3, h.4⟩) ?_
  intro _
  refine Same.bind (Same.lift (agree_blindedAsset H ha hab)) ?_
  rintro ⟨ca, gen⟩
  refine Same.given ?_
  intro hgen
  refine Same.bind (hset _) ?_
  intro _
  refine Same.bind (Same.lift (agree_createValueCommitment H amount hb hgen)) ?_
  rintro ⟨cv, commit⟩
  refine Same.given ?_
  intro hcom
  refine Same.bind (hset _) ?_
  intro _
  refine Same.bind hrand ?_
  intro seed
  refine Same.given ?_
  intro _
  refine Same.bind (Same.lift (agree_outputNonce H C.E pk seed)) ?_
  rintro ⟨nonce, eph⟩
  refine Same.given ?_
  intro hn
  refine Same.bind (Same.lift (Agree.same (Q := fun _ => True) (fun _ _ => trivial))) ?_
  intro cn
  refine Same.given ?_
  intro _
  refine Same.bind (hset _) ?_
  intro _
  refine Same.bind (Same.lift (agree_generateRangeproof H _ _ amount _ _ _ _ _ hP hb hn)) ?_
  intro rp
  refine Same.given ?_
  intro _
  refine Same.bind hrand ?_
  intro seed
  refine Same.given ?_
  intro hs
  refine Same.bind (Same.lift (agree_surjectionProof H hT.1 hT.2 hab hgen ha hs)) ?_
  intro p
  refine Same.given ?_
  intro _
  cases p with
  | none => exact Same.pure fun s h => h
  | some p =>
    dsimp only
    split
    · exact Same.pure fun s h => h
    · refine Same.bind (hset _) ?_
      intro _
      exact Same.modify fun s h => ⟨h.1, h.2, h.3, h.4⟩

theorem All32.last {l : List Bytes} (h : All32 l) (hne : l ≠ []) : (l.getLastD []).length = 32 := by
  rw [List.getLastD_eq_getLast?, List.getLast?_eq_some_getLast hne]
  exact h _ (List.getLast_mem hne)

theorem same_outputBlind (H : SameOnSizedFor P y z) (C : Ctx) (hP : Asks P C.A.ctExponent C.A.ctBits) (hT : TLInv C.T) (hr : ∀ k, (C.A.rand k).length = 32) (nOut : Nat) (pk : Bytes) :
    Same (Inv 0 0) (outputBlind (C.lib y) nOut pk) (outputBlind (C.lib z) nOut pk) (fun _ => Inv 0 0) := by
  unfold outputBlind
  refine Same.bind (Q := fun _ => Inv 0 1) (Same.modify fun s h => ⟨h.1, h.2, h.3, by have := h.4; dsimp only; omega⟩) ?_
  intro _
  refine Same.bind Same.get ?_
  intro s0
  refine Same.bind (Same.lift (Agree.same (Q := fun _ => True) (fun _ _ => trivial))) ?_
  intro amount
  refine Same.given ?_
  intro _
  refine Same.bind (Same.lift (Agree.same (Q := fun a => a.length = 32) (fun a h => (assetToAsset_ok h).2))) ?_
  intro asset
  refine Same.given ?_
  intro ha
  refine Same.bind (Q := fun _ => Inv 0 1) (Same.modify fun s h => ⟨h.2.1, h.2.2, h.2.3, h.2.4⟩) ?_
  intro _
  refine Same.bind (Same.rand hr (fun s h => ⟨h.1, h.2, h.3, h.4⟩)) ?_
  intro r
  refine Same.given ?_
  intro _
  refine Same.bind (Same.lift (agree_uint256 r)) ?_
  intro blind
  refine Same.given ?_
  intro hb
  refine Same.bind (Q := fun _ => Inv 1 1) (Same.modify fun s h =>
    ⟨h.1.append hb, h.2, by have := h.3; simp only [List.length_append, List.length_cons, List.length_nil]; omega, h.4⟩) ?_
  intro _
  refine Same.bind (Same.rand hr (fun s h => ⟨h.1, h.2, h.3, h.4⟩)) ?_
  intro r
  refine Same.given ?_
  intro _
  refine Same.bind (Same.lift (agree_uint256 r)) ?_
  intro ab
  refine Same.given ?_
  intro hab
  refine Same.bind (Q := fun _ => Inv1) (Same.modify fun s h =>
    ⟨⟨h.1, h.2.append hab, by have := h.3; simp only [List.length_append, List.length_cons, List.length_nil]; omega, h.4⟩,
      by intro e; have := h.3; dsimp only at e; rw [e] at this; simp at this⟩) ?_
  intro _
  refine Same.bind (same_balanceIfLast H C) ?_
  intro _
  refine Same.bind Same.get ?_
  intro s1
  refine Same.read ?_
  intro h1
  have hne : s1.assetblinds ≠ [] := by
    intro e
    have := h1.len
    rw [e] at this
    exact h1.ne (List.length_eq_zero_iff.1 this.symm)
  exact (same_commitOutput H C hP hT hr nOut pk _ amount ha (h1.blinds.last h1.ne) (h1.assetblinds.last hne)).mono
    (fun s h => h.2.toInv.weaken) (fun _ _ h => h)

theorem same_outputLoop (H : SameOnSizedFor P y z) (C : Ctx) (hP : Asks P C.A.ctExponent C.A.ctBits) (hT : TLInv C.T) (hr : ∀ k, (C.A.rand k).length = 32) : ∀ (l : List Bytes) (j : Nat),
    Same (Inv 0 0) (outputLoop (C.lib y) j l) (outputLoop (C.lib z) j l) (fun _ => Inv 0 0)
  | [], _ => Same.pure fun s h => h
  | pk :: l, j => by
    unfold outputLoop
    refine Same.bind ?_ (fun _ => same_outputLoop H C hP hT hr l (j + 1))
    unfold outputStep
    have e : fullyValid (C.lib y).E.z pk = fullyValid (C.lib z).E.z pk := by
      unfold fullyValid
      rw [show (C.lib y).E.z.pubValid pk = (C.lib z).E.z.pubValid pk from H.pubValid pk]
    rw [e]
    split
    · exact same_outputBlind H C hP hT hr j pk
    · exact Same.pure fun s h => h

theorem same_blindBody (H : SameOnSizedFor P y z) (C : Ctx) (hP : Asks P C.A.ctExponent C.A.ctBits) (hT : TLInv C.T) (hr : ∀ k, (C.A.rand k).length = 32) (n : Nat) :
    Same (Inv 0 0) (blindBody (C.lib y) n) (blindBody (C.lib z) n) (fun _ _ => True) := by
  unfold blindBody
  refine Same.bind (same_issuanceLoop H C hP hr n 0) ?_
  intro _
  refine Same.bind (Q := fun _ => Inv 0 0) (Same.modify fun s h => ⟨h.1, h.2, h.3, h.4⟩) ?_
  intro _
  refine Same.bind (same_outputLoop H C hP hT hr _ 0) ?_
  intro _
  exact Same.finish fun s => rfl

/-! ### C62 -/

/-- C62, full statement: blinding depends on the library only through calls whose buffers have the
sizes that the library reads. -/
def C62_blind_statement : Prop :=
  ∀ (h : HashFn) (m : MidFn) (y z : Zkp), SameOnSized y z → ∀ (A : BlindArgs) (tx : Tx), (∀ d ∈ A.descs, DescSizes d) →
    blindTransaction ⟨h, m, y⟩ A tx = blindTransaction ⟨h, m, z⟩ A tx

theorem same_blind (h : HashFn) (m : MidFn) (y z : Zkp) (H : SameOnSizedFor P y z) (A : BlindArgs) (tx : Tx) (hP : Asks P A.ctExponent A.ctBits)
    (hd : ∀ d ∈ A.descs, DescSizes d) (hr : ∀ k, (A.rand k).length = 32) :
    blindTransaction ⟨h, m, y⟩ A tx = blindTransaction ⟨h, m, z⟩ A tx := by
  have hc := agree_checks H ⟨h, m, y⟩ A tx hd
  change Agree (checks ⟨h, m, y⟩ A tx) (checks ⟨h, m, z⟩ A tx) _ at hc
  obtain ⟨he, hc⟩ := hc
  unfold blindTransaction
  rw [← he]
  cases hx : checks ⟨h, m, y⟩ A tx with
  | error e => cases e <;> rfl
  | ok p =>
    obtain ⟨T, c⟩ := p
    obtain ⟨hT, hC⟩ := hc _ hx
    have hs := (same_blindBody H ⟨⟨h, m, y⟩, A, T, c.nBlindsIn, c.nToBlind⟩ hP hT hr tx.vin.length (startState tx c)
      ⟨hC.1, hC.2.1, hC.2.2, Nat.le_refl _⟩).1
    change blindBody ⟨⟨h, m, y⟩, A, T, c.nBlindsIn, c.nToBlind⟩ _ _ = blindBody ⟨⟨h, m, z⟩, A, T, c.nBlindsIn, c.nToBlind⟩ _ _ at hs
    dsimp only
    rw [hs]

/-- C62, for every random source that gives as many bytes as it is asked for.  Missing: other
random sources, see `C62_blind_statement_false`. -/
theorem C62_blind_partial (h : HashFn) (m : MidFn) (y z : Zkp) (H : SameOnSized y z) (A : BlindArgs) (tx : Tx)
    (hd : ∀ d ∈ A.descs, DescSizes d) (hr : ∀ k, (A.rand k).length = 32) :
    blindTransaction ⟨h, m, y⟩ A tx = blindTransaction ⟨h, m, z⟩ A tx :=
  same_blind h m y z H A tx (fun _ _ _ => trivial) hd hr

theorem confIsCommitment_len {k : ConfKind} {c : Bytes} (h : confIsCommitment k c = true) : c.length = 33 := by
  unfold confIsCommitment at h
  have := (Bool.and_eq_true_iff.1 h).1
  simpa [committedSize] using this

theorem same_unblind (h : HashFn) (m : MidFn) (y z : Zkp) (H : SameOnSizedFor P y z) (key confValue confAsset confNonce script rangeproof : Bytes)
    (hk : key.length = 32) :
    unblind ⟨h, m, y⟩ key confValue confAsset confNonce script rangeproof =
      unblind ⟨h, m, z⟩ key confValue confAsset confNonce script rangeproof := by
  suffices Agree (unblind ⟨h, m, y⟩ key confValue confAsset confNonce script rangeproof)
      (unblind ⟨h, m, z⟩ key confValue confAsset confNonce script rangeproof) (fun _ => True) from this.1
  unfold unblind
  split
  · exact Agree.ok trivial
  refine Agree.bind (Q := fun o => ∀ p, o = some p → p.1.length = 32) ?_ ?_
  · unfold unblindNonce
    split
    · rw [show fullyValid (Env.mk h m y).z confNonce = fullyValid (Env.mk h m z).z confNonce from by
        unfold fullyValid; rw [show (Env.mk h m y).z.pubValid confNonce = (Env.mk h m z).z.pubValid confNonce from H.pubValid _]]
      split
      · exact Agree.ok (fun p hp => by cases hp)
      · refine Agree.bind (Agree.runtime (H.ecdh key confNonce hk) (Q := fun _ => True) (fun _ _ => trivial)) ?_
        intro s _
        exact Agree.ok (fun p hp => by cases hp; exact h.len _)
    · exact Agree.ok (fun p hp => by cases hp; exact hk)
  intro o ho
  cases o with
  | none => exact Agree.ok trivial
  | some p =>
    obtain ⟨nonce, script'⟩ := p
    have hn : nonce.length = 32 := ho _ rfl
    dsimp only
    unfold unblindWith
    split
    · exact Agree.ok trivial
    rename_i hcv
    have hcv : confIsCommitment valueKind confValue = true := by simpa using hcv
    refine Agree.bind (Q := fun o => ∀ g, o = some g → g.length = 64) ?_ ?_
    · unfold observedGen
      split
      · rename_i hca
        rw [H.genParse confAsset (confIsCommitment_len hca)]
        exact Agree.ok (fun g hg => z.genParse_len _ _ hg)
      split
      · refine Agree.bind (Agree.same (Q := fun a => a.length = 32) (fun a h => (assetToAsset_ok h).2)) ?_
        intro a ha
        rw [H.generate a ha]
        exact Agree.ok (fun g hg => z.generate_len _ _ hg)
      · exact Agree.ok (fun g hg => by cases hg; simp)
    intro o ho
    cases o with
    | none => exact Agree.ok trivial
    | some g =>
      have hg : g.length = 64 := ho _ rfl
      dsimp only
      unfold unblindRewind
      rw [H.commitParse confValue (confIsCommitment_len hcv)]
      cases hc : z.commitParse confValue with
      | none => exact Agree.ok trivial
      | some c =>
        dsimp only
        rw [H.rangeRewind nonce c rangeproof _ g hn (z.commitParse_len _ _ hc) hg]
        cases hw : z.rangeRewind nonce c rangeproof (if script'.length = 0 then none else some script') g with
        | none => exact Agree.ok trivial
        | some x =>
          obtain ⟨blind, amount, msg, n⟩ := x
          have hl := z.rangeRewind_len _ _ _ _ _ _ hw
          dsimp only at hl ⊢
          unfold unblindCheck
          split
          · exact Agree.ok trivial
          split
          · exact Agree.ok trivial
          rw [H.generateBlinded (msg.take 32) ((msg.drop 32).take 32) (by simp [hl.2.2]) (by simp [hl.2.2])]
          cases hg2 : z.generateBlinded (msg.take 32) ((msg.drop 32).take 32) with
          | none => exact Agree.ok trivial
          | some r =>
            dsimp only
            unfold unblindFinish
            rw [H.genSerialize g hg, H.genSerialize r (z.generateBlinded_len _ _ _ hg2)]
            exact Agree.same (fun _ _ => trivial)

/-- C62 for unblinding: with a secret key of 32 bytes, and whatever the fields and the proof of
the output. -/
theorem C62_unblind (h : HashFn) (m : MidFn) (y z : Zkp) (H : SameOnSized y z) (key confValue confAsset confNonce script rangeproof : Bytes)
    (hk : key.length = 32) :
    unblind ⟨h, m, y⟩ key confValue confAsset confNonce script rangeproof =
      unblind ⟨h, m, z⟩ key confValue confAsset confNonce script rangeproof :=
  same_unblind h m y z H key confValue confAsset confNonce script rangeproof hk

/-- A library that refuses seeds of other sizes than it reads. -/
def seedChecked : Zkp :=
  { Toy.zkp with surjInit := fun tags n k tag it seed => if seed.length = 32 then Toy.zkp.surjInit tags n k tag it seed else none }

theorem seedChecked_same : SameOnSized Toy.zkp seedChecked where
  generate _ _ := rfl
  generateBlinded _ _ _ _ := rfl
  genParse _ _ := rfl
  genSerialize _ _ := rfl
  commit _ _ _ _ _ _ := rfl
  commitSerialize _ _ := rfl
  commitParse _ _ := rfl
  blindSum _ _ _ _ _ _ _ _ _ _ _ _ := rfl
  rangeSign _ _ _ _ _ _ _ _ := rfl
  rangeRewind _ _ _ _ _ _ _ _ := rfl
  surjInit tags n k tag it seed _ _ _ hs := by
    show _ = if seed.length = 32 then _ else _
    rw [if_pos hs]
  surjGenerate _ _ _ _ _ _ _ _ _ _ _ _ := rfl
  surjVerify _ _ _ _ _ _ := rfl
  surjSerialize _ := rfl
  pubValid _ := rfl
  secValid _ _ := rfl
  pubOf _ _ := rfl
  ecdh _ _ _ := rfl

/-- One blinded input, two outputs to blind. -/
def bufTx : Tx := Toy.tx [(5, 3), (5, 5)]
def bufArgs (rand : Nat → Bytes) : BlindArgs := { Toy.args rand with assetKeys := [] }

theorem bufArgs_sizes (rand : Nat → Bytes) : ∀ d ∈ (bufArgs rand).descs, DescSizes d := by
  intro d hd
  simp only [bufArgs, Toy.args, List.mem_cons, List.not_mem_nil, or_false] at hd
  subst hd
  exact ⟨by decide, by decide, by decide⟩

/-- The seed of a surjection proof, core/__init__.py:1923, goes to the library unchecked. -/
theorem C62_blind_statement_false : ¬ C62_blind_statement := by
  intro h
  have := h Toy.hash Toy.mid Toy.zkp seedChecked seedChecked_same (bufArgs fun k => if k = 3 then [] else Toy.b32 (k + 5)) bufTx
    (bufArgs_sizes _)
  have e : (blindTransaction ⟨Toy.hash, Toy.mid, Toy.zkp⟩ (bufArgs fun k => if k = 3 then [] else Toy.b32 (k + 5)) bufTx).2.outWit 0 =
      (blindTransaction ⟨Toy.hash, Toy.mid, seedChecked⟩ (bufArgs fun k => if k = 3 then [] else Toy.b32 (k + 5)) bufTx).2.outWit 0 := by
    rw [this]
  revert e
  decide +kernel

-- both libraries blind both outputs
example : ∃ b a t', blindTransaction ⟨Toy.hash, Toy.mid, seedChecked⟩ (bufArgs fun k => Toy.b32 (k + 5)) bufTx = (.ok (.success 2 b a), t') := by
  rw [← C62_blind_partial Toy.hash Toy.mid Toy.zkp seedChecked seedChecked_same
    (bufArgs fun k => Toy.b32 (k + 5)) bufTx (bufArgs_sizes _) (fun k => beBytes_length 32 (k + 5))]
  exact success_of (by decide +kernel)

end Verif
