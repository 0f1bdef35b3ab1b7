import Verif.Spec.Balance
import Verif.Props.BlindDone
import Mathlib.Algebra.BigOperators.Finsupp.Basic
import Mathlib.Tactic.Abel
import Mathlib.Tactic.Module
/-
C34: blinding keeps a transaction balanced.
-/
namespace Verif

variable {z : Zkp} {M : Type} [AddCommGroup M] [Module Scalar M]

/-! ### Sums -/

theorem sum_modify {α : Type} (g : α → M) (f : α → α) (δ : M) : ∀ (l : List α) (j : Nat) (x : α), l[j]? = some x →
    g (f x) = g x + δ → ((l.modify j f).map g).sum = (l.map g).sum + δ
  | [], j, x, h, _ => by simp at h
  | y :: l, 0, x, h, hg => by
    simp at h
    subst h
    simp [hg]
    abel
  | y :: l, j + 1, x, h, hg => by
    have ih := sum_modify g f δ l j x (by simpa using h) hg
    simp only [List.modify_succ_cons, List.map_cons, List.sum_cons, ih]
    abel

/-- Per-asset totals decide the sum of amounts times generators. -/
theorem sum_of_totals (H : Bytes → M) {l m : List (Bytes × Nat)} (h : ∀ a, total a l = total a m) :
    (l.map fun x => (x.2 : Scalar) • H x.1).sum = (m.map fun x => (x.2 : Scalar) • H x.1).sum := by
  let F : (Bytes →₀ ℕ) →+ M := Finsupp.liftAddHom fun a =>
    { toFun := fun n => (n : Scalar) • H a, map_zero' := by simp, map_add' := by intro x y; simp [add_smul] }
  have hF : ∀ l : List (Bytes × Nat), (l.map fun x => (x.2 : Scalar) • H x.1).sum
      = F ((l.map fun x => Finsupp.single x.1 x.2).sum) := by
    intro l
    induction l with
    | nil => simp
    | cons x l ih =>
      simp only [List.map_cons, List.sum_cons, ih, map_add]
      congr 1
      simp [F]
  have hT : ∀ (l : List (Bytes × Nat)) (a : Bytes), (l.map fun x => Finsupp.single x.1 x.2).sum a = total a l := by
    intro l a
    induction l with
    | nil => simp [total]
    | cons x l ih =>
      simp only [List.map_cons, List.sum_cons, Finsupp.add_apply, ih, Finsupp.single_apply]
      unfold total
      rw [List.filter_cons]
      by_cases hx : x.1 = a <;> simp [hx]
  rw [hF, hF]
  congr 1
  ext a
  rw [hT, hT, h]

/-! ### Outputs -/

theorem scalar_zero32 : scalar zero32 = 0 := by
  have : beVal zero32 = 0 := by decide
  simp [scalar, this]

/-- The opening of a blinded output. -/
def OutData.opening (d : OutData) : Opening := ⟨twos 8 d.amount, d.assetblind, d.blind⟩
def IssData.opening (d : IssData) : Opening := ⟨twos 8 d.amount, zero32, d.blind⟩

theorem outPt_commitment (P : Pedersen z M) {o : TxOut} (h : IsValueCommitment o.nValue) : P.outPt o = P.comRead o.nValue := by
  obtain ⟨b, hb | hb, -⟩ := h <;> (unfold Pedersen.outPt; rw [hb]; rfl)

theorem issuedPt_commitment (P : Pedersen z M) {id c : Bytes} (h : IsValueCommitment c) : P.issuedPt id c = P.comRead c := by
  obtain ⟨b, hb | hb, -⟩ := h <;> (unfold Pedersen.issuedPt; rw [hb]; rfl)

theorem OutData.Made.outPt {C : Ctx} {d : OutData} (h : d.Made C) (P : Pedersen C.E.z M) :
    P.outPt (d.newOut d.out) = P.outPt d.out + d.opening.mask • P.G := by
  obtain ⟨v, hv, he⟩ := h.hidden
  rw [outPt_commitment P h.committed, P.commitSerialize _ _ hv.nValue, P.commit _ _ _ _ hv.commitment,
    P.generateBlinded _ _ _ hv.generator]
  unfold Pedersen.outPt
  rw [hv.explicitValue, hv.explicitAsset]
  simp only [Pedersen.assetPt, OutData.opening, Opening.mask, he]
  module

theorem outSum_run {C : Ctx} (P : Pedersen C.E.z M) : ∀ {ds : List OutData} {s : BS}, OutRun C s ds →
    (∀ d ∈ ds, d.j < s.tx.vout.length) →
    ((outsAfter s ds).tx.vout.map P.outPt).sum = (s.tx.vout.map P.outPt).sum + ((ds.map OutData.opening).map Opening.mask).sum • P.G
  | [], s, _, _ => by simp
  | d :: ds, s, hr, hl => by
    cases hr with
    | cons h1 h2 h3 h4 h5 =>
      have hv : (d.after s).tx.vout = s.tx.vout.modify d.j d.newOut := by
        unfold OutData.after OutData.newTx setOut setOutWit
        cases d.surj <;> rfl
      have hlen : (d.after s).tx.vout.length = s.tx.vout.length := by rw [hv, List.length_modify]
      have ih := outSum_run P h5 (fun e he => by rw [hlen]; exact hl e (List.mem_cons_of_mem _ he))
      have hj := hl d List.mem_cons_self
      have hx : s.tx.vout[d.j]? = some d.out := by
        rw [h4, List.getD_eq_getElem?_getD, List.getElem?_eq_getElem hj]
        rfl
      rw [outsAfter_cons, ih, hv, sum_modify P.outPt d.newOut _ _ _ _ hx (h1.outPt P)]
      simp only [List.map_cons, List.sum_cons, add_smul]
      abel

/-! ### Issuances -/

/-- Sum over inputs, the token flag given by position. -/
def Pedersen.issuedSum (P : Pedersen z M) (E : Env) (conf : Nat → Bool) (vin : List TxIn) (i : Nat := 0) : M :=
  ((vin.zipIdx i).map fun x => P.issuancePt E (conf x.2) x.1).sum

theorem issuedSum_modify (P : Pedersen z M) (E : Env) (conf : Nat → Bool) (f : TxIn → TxIn) (δ : M) :
    ∀ (l : List TxIn) (i j : Nat) (x : TxIn), l[j]? = some x →
      P.issuancePt E (conf (i + j)) (f x) = P.issuancePt E (conf (i + j)) x + δ →
      P.issuedSum E conf (l.modify j f) i = P.issuedSum E conf l i + δ
  | [], i, j, x, h, _ => by simp at h
  | y :: l, i, 0, x, h, hg => by
    simp at h
    subst h
    simp only [Nat.add_zero] at hg
    simp only [Pedersen.issuedSum, List.modify_zero_cons, List.zipIdx_cons, List.map_cons, List.sum_cons, hg]
    abel
  | y :: l, i, j + 1, x, h, hg => by
    have ih := issuedSum_modify P E conf f δ l (i + 1) j x (by simpa using h) (by
      rw [show i + 1 + j = i + (j + 1) by omega]; exact hg)
    simp only [Pedersen.issuedSum, List.modify_succ_cons, List.zipIdx_cons, List.map_cons, List.sum_cons] at ih ⊢
    rw [ih]
    abel

theorem issuedSum_of {P : Pedersen z M} {E : Env} {conf : Nat → Bool} : ∀ {l : List TxIn} {i : Nat},
    (∀ k x, l[k]? = some x → conf (i + k) = x.confidential) →
    P.issuedSum E conf l i = (l.map fun x => P.issuancePt E x.confidential x).sum
  | [], i, _ => by simp [Pedersen.issuedSum]
  | y :: l, i, h => by
    have ih := issuedSum_of (P := P) (E := E) (conf := conf) (l := l) (i := i + 1) (fun k x hk => by
      have := h (k + 1) x (by simpa using hk)
      rwa [show i + (k + 1) = i + 1 + k by omega] at this)
    have h0 : conf i = y.confidential := by simpa using h 0 y rfl
    simp only [Pedersen.issuedSum, List.zipIdx_cons, List.map_cons, List.sum_cons, h0] at ih ⊢
    rw [ih]

theorem pseudoId_eq {E : Env} {t : TxIn} {token : Bool} {a : Bytes} (hs : InputSizes t)
    (h : pseudoAsset E t token = .ok (some a)) : a = pseudoId E t token := by
  have hlen := issuanceEntropy_len (E := E) hs
  unfold pseudoAsset at h
  by_cases hz : AllZero t.assetIssuance.assetBlindingNonce
  · rw [if_pos (isNull32_iff.2 hz), entropy_eq hs hz] at h
    cases token
    · simp only [bind, Except.bind, calculateAsset, hlen, ne_eq, not_true_eq_false, if_false, pure, Except.pure,
        Bool.not_false, if_true] at h
      have h := Option.some.inj (Except.ok.inj h)
      rw [← h]; rfl
    · simp only [bind, Except.bind, calculateReissuanceToken, hlen, ne_eq, not_true_eq_false, if_false, pure, Except.pure,
        Bool.not_true, if_true] at h
      have h := Option.some.inj (Except.ok.inj h)
      rw [← h]; rfl
  · rw [if_neg (fun h => hz (isNull32_iff.1 h))] at h
    have he : issuanceEntropy E t = t.assetIssuance.assetEntropy := by unfold issuanceEntropy; rw [if_neg hz]
    cases token
    · simp only [bind, Except.bind, calculateAsset, hs.entropy, ne_eq, not_true_eq_false, if_false, pure, Except.pure,
        Bool.not_false, if_true] at h
      have h := Option.some.inj (Except.ok.inj h)
      rw [← h]
      simp only [pseudoId, assetId, he]; rfl
    · cases h

theorem IssData.Made.issuancePt {C : Ctx} {d : IssData} (h : d.Made C) (P : Pedersen C.E.z M) (hs : InputSizes d.txin) (conf : Bool)
    (hc : d.token = true → conf = true) :
    P.issuancePt C.E conf { d.txin with assetIssuance := d.txin.assetIssuance.setVal d.token d.confValue }
      = P.issuancePt C.E conf d.txin + d.opening.mask • P.G := by
  obtain ⟨v, hv, -, he⟩ := valueToAmount_ok h.amount
  obtain ⟨c1, c2, c3⟩ := createValueCommitment_ok.1 h.commit
  obtain ⟨g1, -, -⟩ := blindedAsset_ok.1 h.blindedAsset
  have hcom := valid_33 c3 (C.E.z.commitSerialize_len _ _ c2)
  have hid := pseudoId_eq hs h.asset
  have hpt : P.comRead d.confValue = (beVal v : Scalar) • P.H d.asset + d.opening.mask • P.G := by
    rw [P.commitSerialize _ _ c2, P.commit _ _ _ _ c1, P.generateBlinded _ _ _ g1]
    simp only [IssData.opening, Opening.mask, he, scalar_zero32]
    module
  cases ht : d.token
  · rw [ht] at hv hid
    change d.txin.assetIssuance.nAmount = 1 :: v at hv
    have e1 : P.issuancePt C.E conf { d.txin with assetIssuance := d.txin.assetIssuance.setVal false d.confValue }
        = P.issuedPt (assetId C.E d.txin) d.confValue + P.issuedPt (tokenId C.E conf d.txin) d.txin.assetIssuance.nInflationKeys := rfl
    have e2 : P.issuedPt (assetId C.E d.txin) d.txin.assetIssuance.nAmount = (beVal v : Scalar) • P.H d.asset := by
      rw [hv, hid]; rfl
    rw [e1, issuedPt_commitment P hcom, hpt]
    unfold Pedersen.issuancePt
    rw [e2]
    abel
  · rw [ht] at hv hid
    have hconf := hc ht
    subst hconf
    change d.txin.assetIssuance.nInflationKeys = 1 :: v at hv
    have e1 : P.issuancePt C.E true { d.txin with assetIssuance := d.txin.assetIssuance.setVal true d.confValue }
        = P.issuedPt (assetId C.E d.txin) d.txin.assetIssuance.nAmount + P.issuedPt (tokenId C.E true d.txin) d.confValue := rfl
    have e2 : P.issuedPt (tokenId C.E true d.txin) d.txin.assetIssuance.nInflationKeys = (beVal v : Scalar) • P.H d.asset := by
      rw [hv, hid]; rfl
    rw [e1, issuedPt_commitment P hcom, hpt]
    unfold Pedersen.issuancePt
    rw [e2]
    abel

theorem issuedSum_run {C : Ctx} (P : Pedersen C.E.z M) (conf : Nat → Bool) : ∀ {es : List IssEv} {s : BS}, IssRun C s es →
    (∀ x ∈ es.map IssEv.at, x.1 < s.tx.vin.length ∧ (x.2 = true → conf x.1 = true)) →
    (∀ t ∈ s.tx.vin, InputSizes t) →
    P.issuedSum C.E conf (issAfter s es).tx.vin = P.issuedSum C.E conf s.tx.vin
      + (((es.filterMap IssEv.data).map IssData.opening).map Opening.mask).sum • P.G
  | [], s, _, _, _ => by simp
  | .passed i t k as :: es, s, hr, hl, hs => by
    have ih := issuedSum_run P conf hr.tail (fun x hx => hl x (List.mem_cons_of_mem _ hx)) hs
    rw [issAfter_cons, ih]
    rfl
  | .made d :: es, s, hr, hl, hs => by
    cases hr with
    | made h1 h2 h3 h4 h5 h6 =>
      have hd := hl (d.i, d.token) List.mem_cons_self
      have hv : (d.after s).tx.vin = s.tx.vin.modify d.i
          (fun t => { t with assetIssuance := d.txin.assetIssuance.setVal d.token d.confValue }) := rfl
      have hx : s.tx.vin[d.i]? = some d.txin := by
        rw [h4, List.getD_eq_getElem?_getD, List.getElem?_eq_getElem hd.1]
        rfl
      have hsz : InputSizes d.txin := hs _ (List.mem_of_getElem? hx)
      have ih := issuedSum_run P conf h6 (fun x hx => by
        rw [hv, List.length_modify]
        exact hl x (List.mem_cons_of_mem _ hx)) (by
        intro t ht
        rw [hv] at ht
        obtain ⟨k, hk⟩ := List.mem_iff_getElem?.1 ht
        rw [List.getElem?_modify] at hk
        cases hy : s.tx.vin[k]? with
        | none => rw [hy] at hk; cases hk
        | some y =>
          rw [hy] at hk
          have hy' := hs y (List.mem_of_getElem? hy)
          simp only [Option.map_eq_map, Option.map_some, Option.some.injEq] at hk
          by_cases hik : d.i = k
          · rw [if_pos hik] at hk
            subst hk
            refine ⟨hy'.hash, hy'.index, ?_⟩
            show (d.txin.assetIssuance.setVal d.token d.confValue).assetEntropy.length = 32
            rw [← hsz.entropy]
            cases d.token <;> rfl
          · rw [if_neg hik] at hk
            subst hk
            exact hy')
      have hpt := h1.issuancePt P hsz (conf d.i) hd.2
      have hmod := issuedSum_modify P C.E conf
        (fun t => { t with assetIssuance := d.txin.assetIssuance.setVal d.token d.confValue }) (d.opening.mask • P.G)
        s.tx.vin 0 d.i d.txin hx (by rw [Nat.zero_add]; exact hpt)
      rw [issAfter_cons]
      have e : (IssEv.made d).after s = d.after s := rfl
      rw [e, ih, hv, hmod]
      have e2 : List.filterMap IssEv.data (.made d :: es) = d :: es.filterMap IssEv.data := rfl
      rw [e2]
      simp only [List.map_cons, List.sum_cons, add_smul]
      abel

/-! ### The last blinding factor -/

def Desc.opening (d : Desc) : Opening := ⟨twos 8 d.amount, d.assetBlindingFactor, d.blindingFactor⟩

theorem openings_append {v1 v2 : List Nat} {r1 r2 b1 b2 : List Bytes} (h1 : v1.length = r1.length) (h2 : r1.length = b1.length) :
    openings (v1 ++ v2) (r1 ++ r2) (b1 ++ b2) = openings v1 r1 b1 ++ openings v2 r2 b2 := by
  unfold openings
  rw [List.zip_append h2, List.zip_append (by simp [h1, h2]), List.map_append]

theorem openings_map {α : Type} (f : α → Nat) (g k : α → Bytes) (l : List α) :
    openings (l.map f) (l.map g) (l.map k) = l.map fun x => ⟨f x, g x, k x⟩ := by
  unfold openings
  rw [List.zip_map', List.zip_map', List.map_map]
  rfl

theorem blindSum_masks (P : Pedersen z M) {D : List Desc} {ms : List IssData} {os : List OutData} {v : Nat} {r rnd b : Bytes} {n m : Nat}
    (hn : n = D.length + ms.length + os.length + 1) (hm : m = D.length + ms.length)
    (h : z.blindSum (D.map (fun d => twos 8 d.amount) ++ (ms.map (fun d => twos 8 d.amount) ++ (os.map (fun d => twos 8 d.amount) ++ [v])))
      (D.map Desc.assetBlindingFactor ++ (ms.map (fun _ => zero32) ++ (os.map OutData.assetblind ++ [r])))
      (D.map Desc.blindingFactor ++ (ms.map IssData.blind ++ (os.map OutData.blind ++ [rnd]))) n m = some b) :
    ((D.map Desc.opening).map Opening.mask).sum + ((ms.map IssData.opening).map Opening.mask).sum
      = ((os.map OutData.opening).map Opening.mask).sum + (⟨v, r, b⟩ : Opening).mask := by
  have hb := P.blindSum _ _ _ _ _ _ (by simp; omega) (by simp; omega) (by simp; omega) (by omega) h
  have hd : (D.map Desc.blindingFactor ++ (ms.map IssData.blind ++ (os.map OutData.blind ++ [rnd]))).dropLast ++ [b]
      = D.map Desc.blindingFactor ++ (ms.map IssData.blind ++ (os.map OutData.blind ++ [b])) := by
    rw [← List.append_assoc, ← List.append_assoc, List.dropLast_concat]
    simp
  rw [hd, openings_append (by simp) (by simp), openings_append (by simp) (by simp), openings_append (by simp) (by simp),
    openings_map, openings_map, openings_map, ← List.append_assoc] at hb
  have ht : (D.map (fun x => (⟨twos 8 x.amount, x.assetBlindingFactor, x.blindingFactor⟩ : Opening)) ++
      ms.map (fun x => (⟨twos 8 x.amount, zero32, x.blind⟩ : Opening))).length = m := by simp [hm]
  rw [List.take_left' ht, List.drop_left' ht] at hb
  simp only [List.map_append, List.sum_append] at hb
  refine hb.trans ?_
  simp only [openings, List.zip_cons_cons, List.zip_nil_right, List.map_cons, List.map_nil, List.sum_cons, List.sum_nil, add_zero]
  rfl

theorem OutRun.last {C : Ctx} : ∀ {ds : List OutData} {d : OutData} {s : BS}, OutRun C s (ds ++ [d]) →
    OutRun C s ds ∧ d.Chose C (outsAfter s ds)
  | [], d, s, h => by
    cases h with
    | cons h1 h2 h3 h4 h5 => exact ⟨.nil s, h2⟩
  | e :: ds, d, s, h => by
    cases h with
    | cons h1 h2 h3 h4 h5 =>
      obtain ⟨k1, k2⟩ := OutRun.last h5
      exact ⟨.cons h1 h2 h3 h4 k1, k2⟩

theorem all_made : ∀ {es : List IssEv}, (es.filterMap IssEv.data).length = es.length →
    es = (es.filterMap IssEv.data).map IssEv.made
  | [], _ => rfl
  | .made d :: es, h => by
    have e : List.filterMap IssEv.data (.made d :: es) = d :: es.filterMap IssEv.data := rfl
    rw [e] at h ⊢
    rw [List.map_cons, ← all_made (by simpa using h)]
  | .passed i t k as :: es, h => by
    have e : List.filterMap IssEv.data (.passed i t k as :: es) = es.filterMap IssEv.data := rfl
    rw [e] at h
    have := List.length_filterMap_le IssEv.data es
    simp at h
    omega

theorem flatMap_made (ms : List IssData) : (ms.map IssEv.made).flatMap IssEv.amounts = ms.map IssData.amount := by
  induction ms with
  | nil => rfl
  | cons d ms ih => rw [List.map_cons, List.flatMap_cons, ih]; rfl

/-- All issuances with keys were blinded, and what the balancing step computed. -/
theorem last_masks {C : Ctx} (P : Pedersen C.E.z M) {tx : Tx} {es : List IssEv} {ds : List OutData} {amount : Int} {r rnd b : Bytes}
    (hnb : C.nBlindsIn = (C.A.descs.filter Desc.blinded).length)
    (hlen : (outsAfter (padOut (issAfter (firstState C.A tx) es)) ds).blinds.length
      = (outsAfter (padOut (issAfter (firstState C.A tx) es)) ds).attempts + C.nBlindsIn)
    (hsum : C.E.z.blindSum (((outsAfter (padOut (issAfter (firstState C.A tx) es)) ds).amounts ++ [amount]).map (twos 8))
      ((outsAfter (padOut (issAfter (firstState C.A tx) es)) ds).assetblinds ++ [r])
      ((outsAfter (padOut (issAfter (firstState C.A tx) es)) ds).blinds ++ [rnd])
      ((outsAfter (padOut (issAfter (firstState C.A tx) es)) ds).attempts + 1 + C.nBlindsIn)
      ((outsAfter (padOut (issAfter (firstState C.A tx) es)) ds).issAttempts + C.nBlindsIn) = some b) :
    (es.filterMap IssEv.data).length = es.length ∧
    (((C.A.descs.filter Desc.blinded).map Desc.opening).map Opening.mask).sum
      + (((es.filterMap IssEv.data).map IssData.opening).map Opening.mask).sum
      = ((ds.map OutData.opening).map Opening.mask).sum + (⟨twos 8 amount, r, b⟩ : Opening).mask := by
  obtain ⟨a1, a2, a3, a4, a5, a6, -⟩ := issAfter_lists es (firstState C.A tx)
  obtain ⟨b1, b2, b3, b4, b5, b6⟩ := outsAfter_lists ds (padOut (issAfter (firstState C.A tx) es))
  have e1 : (padOut (issAfter (firstState C.A tx) es)).attempts = es.length := by
    show (issAfter (firstState C.A tx) es).attempts = _
    rw [a1]; simp [firstState]
  have e2 : (padOut (issAfter (firstState C.A tx) es)).issAttempts = es.length := by
    show (issAfter (firstState C.A tx) es).issAttempts = _
    rw [a2]; simp [firstState]
  have e4 : (padOut (issAfter (firstState C.A tx) es)).blinds
      = (C.A.descs.filter Desc.blinded).map Desc.blindingFactor ++ (es.filterMap IssEv.data).map IssData.blind := a4
  have e5 : (padOut (issAfter (firstState C.A tx) es)).assetblinds
      = (C.A.descs.filter Desc.blinded).map Desc.assetBlindingFactor ++ (es.filterMap IssEv.data).map (fun _ => zero32) := a5
  have e6 : (padOut (issAfter (firstState C.A tx) es)).amounts
      = (C.A.descs.filter Desc.blinded).map Desc.amount ++ es.flatMap IssEv.amounts := a6
  rw [b1, b2, b4, b5, b6, e1, e2, e4, e5, e6] at hsum
  rw [b1, b4, e1, e4] at hlen
  simp only [List.length_append, List.length_map] at hlen
  have hmade : (es.filterMap IssEv.data).length = es.length := by omega
  refine ⟨hmade, ?_⟩
  have hes := all_made hmade
  have hfl : es.flatMap IssEv.amounts = (es.filterMap IssEv.data).map IssData.amount := by
    conv_lhs => rw [hes]
    exact flatMap_made _
  rw [hfl] at hsum
  simp only [List.map_append, List.map_map, List.append_assoc, List.map_cons, List.map_nil] at hsum
  exact blindSum_masks P (by omega) (by omega) hsum

/-! ### Sums over the whole transaction -/

theorem beVal_zeros : ∀ {b : Bytes}, b.any (· ≠ 0) = false → beVal b = 0 := by
  intro b h
  have hb : b = List.replicate b.length 0 := by
    rw [List.eq_replicate_iff]
    refine ⟨rfl, fun x hx => ?_⟩
    rw [List.any_eq_false] at h
    simpa using h x hx
  rw [hb]
  unfold beVal
  rw [List.reverse_replicate]
  induction b.length with
  | zero => rfl
  | succ n ih => rw [List.replicate_succ, leVal, ih]; rfl

theorem twos_toNat {a : Int} (h0 : 0 ≤ a) (h1 : a < 2 ^ 64) : twos 8 a = a.toNat := by
  unfold twos
  have : a % ((256 ^ 8 : Nat) : Int) = a := Int.emod_eq_of_lt h0 (by
    have : ((256 ^ 8 : Nat) : Int) = 2 ^ 64 := by norm_num
    rw [this]; exact h1)
  rw [this]

theorem spent_sum (P : Pedersen z M) : ∀ {descs : List Desc},
    (∀ d ∈ descs, d.blinded = true → 0 ≤ d.amount ∧ d.amount < 2 ^ 64) →
    (descs.map P.spentPt).sum = ((spentAmounts descs).map fun x => (x.2 : Scalar) • P.H x.1).sum
      + (((descs.filter Desc.blinded).map Desc.opening).map Opening.mask).sum • P.G
  | [], _ => by simp [spentAmounts]
  | d :: descs, h => by
    have ih := spent_sum P (descs := descs) (fun e he => h e (List.mem_cons_of_mem _ he))
    have hd := h d List.mem_cons_self
    have e : spentAmounts (d :: descs) = (d.asset, d.amount.toNat) :: spentAmounts descs := rfl
    rw [e, List.map_cons, List.sum_cons, ih, List.map_cons, List.sum_cons, List.filter_cons]
    by_cases hb : d.blinded = true
    · rw [if_pos hb, List.map_cons, List.map_cons, List.sum_cons]
      obtain ⟨h0, h1⟩ := hd hb
      unfold Pedersen.spentPt Desc.opening Opening.mask
      simp only [twos_toNat h0 h1]
      module
    · rw [if_neg hb]
      unfold Desc.blinded at hb
      simp only [Bool.or_eq_true, not_or, Bool.not_eq_true] at hb
      have s1 : scalar d.blindingFactor = 0 := by simp [scalar, beVal_zeros hb.1]
      have s2 : scalar d.assetBlindingFactor = 0 := by simp [scalar, beVal_zeros hb.2]
      unfold Pedersen.spentPt
      rw [s1, s2]
      module

/-- The token flag an input has after blinding: its issued amount is hidden already or is going
to be. -/
def confAfter (A : BlindArgs) (tx : Tx) (i : Nat) : Bool :=
  (A.assetKeys.getD i none).isSome || (tx.vin.getD i default).confidential

theorem confidential_commitment {t : TxIn} (h : IsValueCommitment t.assetIssuance.nAmount) : t.confidential = true := by
  obtain ⟨b, hb | hb, hl⟩ := h <;> simp [TxIn.confidential, hb, hl]

theorem confidential_iff {t : TxIn} : t.confidential = true ↔ IsValueCommitment t.assetIssuance.nAmount := by
  refine ⟨?_, confidential_commitment⟩
  unfold TxIn.confidential IsValueCommitment
  cases t.assetIssuance.nAmount with
  | nil => simp
  | cons x c =>
    intro h
    simp only [Bool.and_eq_true, Bool.or_eq_true, decide_eq_true_eq] at h
    exact ⟨c, by rcases h.1 with e | e <;> simp [e], h.2⟩

theorem IssData.Made.committed {C : Ctx} {d : IssData} (h : d.Made C) : IsValueCommitment d.confValue := by
  obtain ⟨-, c2, c3⟩ := createValueCommitment_ok.1 h.commit
  exact valid_33 c3 (C.E.z.commitSerialize_len _ _ c2)

theorem flags_after {C : Ctx} {tx : Tx} {es : List IssEv} (hr : IssRun C (firstState C.A tx) es)
    (hm : es.map IssEv.at = keyed C.A 0 tx.vin.length)
    (hmade : (es.filterMap IssEv.data).length = es.length) :
    ∀ k x, (issAfter (firstState C.A tx) es).tx.vin[k]? = some x → confAfter C.A tx k = x.confidential := by
  intro k x hx
  have hn : (es.map IssEv.at).Nodup := by rw [hm]; exact (keyed_nodup C.A _ 0).1
  by_cases hk : (k, false) ∈ es.map IssEv.at
  · obtain ⟨e, he, hek⟩ := List.mem_map.1 hk
    rw [all_made hmade] at he
    obtain ⟨d, hd, rfl⟩ := List.mem_map.1 he
    have he' : IssEv.made d ∈ es := by rw [all_made hmade]; exact he
    obtain ⟨g1, g2, g3⟩ := hr.event hn _ he'
    cases d with
    | mk i token key txin amount asset blind ca gen cv com proof =>
    obtain ⟨rfl, rfl⟩ := Prod.mk.inj hek
    have h1 := congrArg IssCell.val g3
    simp only [Tx.issCell, IssData.cell] at h1
    rw [hx] at h1
    have hc : x.assetIssuance.nAmount = cv := by
      simp only [Option.map_some] at h1
      cases hy : (firstState C.A tx).tx.vin[i]? with
      | none => rw [hy] at h1; cases h1
      | some y =>
        rw [hy] at h1
        exact Option.some.inj h1
    have hcom : IsValueCommitment cv := g1.committed
    rw [confidential_commitment (by rw [hc]; exact hcom)]
    have hkey : (C.A.assetKeys.getD i none).isSome = true := by
      have : keyAt C.A.assetKeys i = some key := g2
      rw [keyAt_getD] at this
      rw [this]; rfl
    unfold confAfter
    rw [hkey]; rfl
  · have hc := issCell_issAfter_none hr hk
    have h1 := congrArg IssCell.val hc
    simp only [Tx.issCell] at h1
    rw [hx] at h1
    cases hy : (firstState C.A tx).tx.vin[k]? with
    | none => rw [hy] at h1; cases h1
    | some y =>
      rw [hy] at h1
      have hv : x.assetIssuance.nAmount = y.assetIssuance.nAmount := Option.some.inj h1
      have hy' : tx.vin[k]? = some y := hy
      have hkl : k < tx.vin.length := (List.getElem?_eq_some_iff.1 hy').1
      have hkey : (C.A.assetKeys.getD k none).isSome = false := by
        rw [hm, mem_keyed] at hk
        have : ¬ (keyAt C.A.assetKeys k).isSome = true := fun h => hk ⟨hkl, h⟩
        rw [keyAt_getD] at this
        simpa using this
      unfold confAfter
      rw [hkey, Bool.false_or, List.getD_eq_getElem?_getD, hy', Option.getD_some]
      unfold TxIn.confidential
      rw [hv]

/-- Numbers of things with keys. -/
theorem keyed_count {A : BlindArgs} {tx : Tx} (hk : KeysFine A tx) :
    (keyed A 0 tx.vin.length).length = askedIssuances A.assetKeys tx.vin + askedIssuances A.tokenKeys tx.vin := by
  rw [← asked_issuances]
  congr 1
  symm
  rw [List.filter_eq_self]
  intro x hx
  obtain ⟨h1, h2⟩ := mem_keyed.1 hx
  rw [issKeys_key] at h2
  obtain ⟨key, hkey⟩ := Option.isSome_iff_exists.1 h2
  unfold issues
  rw [hk.issuing x.1 x.2 key h1 hkey]
  rfl

/-- What the descriptors open, with nothing hidden. -/
def Pedersen.plainPt (P : Pedersen z M) (descs : List Desc) : M :=
  ((spentAmounts descs).map fun x => (x.2 : Scalar) • P.H x.1).sum

/-- Everything that came of a run, in sums. -/
theorem sums_run {C : Ctx} (P : Pedersen C.E.z M) {tx : Tx} {es : List IssEv} {ds : List OutData} {rest : List (Bytes × Nat)} {μ : Scalar}
    (hk : KeysFine C.A tx) (hpos : ∀ d ∈ C.A.descs, d.blinded = true → 0 ≤ d.amount)
    (hsz : ∀ t ∈ tx.vin, InputSizes t) (hl : C.A.pubkeys.length ≤ tx.vout.length)
    (hi : IssRun C (firstState C.A tx) es) (him : es.map IssEv.at = keyed C.A 0 tx.vin.length)
    (ho : OutRun C (padOut (issAfter (firstState C.A tx) es)) ds)
    (hom : ds.map (fun d => (d.pk, d.j)) ++ rest = validKeys C.E.z 0 C.A.pubkeys)
    (hmade : (es.filterMap IssEv.data).length = es.length)
    (hmask : (((C.A.descs.filter Desc.blinded).map Desc.opening).map Opening.mask).sum
      + (((es.filterMap IssEv.data).map IssData.opening).map Opening.mask).sum
      = ((ds.map OutData.opening).map Opening.mask).sum + μ) (t' : Tx)
    (ht : t' = (outsAfter (padOut (issAfter (firstState C.A tx) es)) ds).tx) :
    (t'.vout.map P.outPt).sum + μ • P.G + P.plainPt C.A.descs + P.issuedSum C.E (confAfter C.A tx) tx.vin
      = (tx.vout.map P.outPt).sum + (C.A.descs.map P.spentPt).sum + (t'.vin.map fun i => P.issuancePt C.E i.confidential i).sum := by
  obtain ⟨-, -, -, -, -, -, -, -, i3, -⟩ := issAfter_lists es (firstState C.A tx)
  have hvo : (padOut (issAfter (firstState C.A tx) es)).tx.vout = tx.vout := i3
  have hmem : ∀ d ∈ ds, d.j < tx.vout.length := by
    intro d hd
    have : (d.pk, d.j) ∈ validKeys C.E.z 0 C.A.pubkeys := by
      rw [← hom]
      exact List.mem_append_left _ (List.mem_map_of_mem (f := fun d : OutData => (d.pk, d.j)) hd)
    have := (List.getElem?_eq_some_iff.1 (mem_validKeys.1 this).1).1
    dsimp only at this
    omega
  have h1 := outSum_run P ho (by rw [hvo]; exact hmem)
  rw [hvo] at h1
  have h2 := issuedSum_run P (confAfter C.A tx) hi (by
    intro x hx
    rw [him] at hx
    obtain ⟨x1, x2⟩ := mem_keyed.1 hx
    refine ⟨x1, fun htk => ?_⟩
    rw [htk, issKeys_key] at x2
    obtain ⟨key, hkey⟩ := Option.isSome_iff_exists.1 x2
    obtain ⟨key', hkey'⟩ := hk.tokens _ _ hkey
    have e : C.A.assetKeys.getD x.1 none = some key' := hkey'
    unfold confAfter
    rw [e]; rfl) hsz
  have hvi : ∀ (ds : List OutData) (s : BS), (outsAfter s ds).tx.vin = s.tx.vin := by
    intro ds
    induction ds with
    | nil => intro s; rfl
    | cons d ds ih =>
      intro s
      rw [outsAfter_cons, ih]
      unfold OutData.after OutData.newTx
      dsimp only
      cases d.surj <;> rfl
  have hvin : t'.vin = (issAfter (firstState C.A tx) es).tx.vin := by rw [ht, hvi]; rfl
  have h3 := issuedSum_of (P := P) (E := C.E) (conf := confAfter C.A tx) (l := t'.vin) (i := 0) (by
    intro k x hx
    rw [Nat.zero_add]
    rw [hvin] at hx
    exact flags_after hi him hmade k x hx)
  have h4 := spent_sum P (fun d hd hb => ⟨hpos d hd hb, hk.amounts d hd⟩)
  have hft : (firstState C.A tx).tx = tx := rfl
  rw [← h3, hvin, h2, h4, ht, h1, hft]
  have := congrArg (· • P.G) hmask
  simp only [add_smul] at this
  unfold Pedersen.plainPt
  have hμ : μ • P.G = (((C.A.descs.filter Desc.blinded).map Desc.opening).map Opening.mask).sum • P.G
      + (((es.filterMap IssEv.data).map IssData.opening).map Opening.mask).sum • P.G
      - ((ds.map OutData.opening).map Opening.mask).sum • P.G := by
    rw [this]; abel
  rw [hμ]
  abel

/-- Inputs that hide something have amounts that are not negative. -/
theorem Returned.nonneg {E : Env} {A : BlindArgs} {tx : Tx} {C : Ctx} (h : Returned E A tx C) :
    ∀ d ∈ A.descs, d.blinded = true → 0 ≤ d.amount := by
  intro d hd hb
  obtain ⟨i, hi, rfl⟩ := List.getElem_of_mem hd
  have hl := h.lengths.descs
  exact (h.inputs i _ _ (List.getElem?_eq_getElem (by omega)) (List.getElem?_eq_getElem hi)).amount hb

/-- The records of a call that hid every output it was asked to hide, there being one: everything was gone through, no issuance was
passed over, and the factors balance. -/
theorem full_run {E : Env} {A : BlindArgs} {tx tx' : Tx} {num bfs abfs} (P : Pedersen E.z M)
    (h : blindTransaction E A tx = (.ok (.success num bfs abfs), tx')) (hk : KeysFine A tx) (hone : ∃ j, A.pubkeys.getD j [] ≠ [])
    (hall : ∀ j, A.pubkeys.getD j [] ≠ [] → IsValueCommitment (tx'.vout.getD j {}).nValue) :
    ∃ C es ds, Returned E A tx C ∧ IssRun C (firstState C.A tx) es ∧ es.map IssEv.at = keyed C.A 0 tx.vin.length ∧
      OutRun C (padOut (issAfter (firstState C.A tx) es)) ds ∧ ds.map (fun d => (d.pk, d.j)) = validKeys C.E.z 0 C.A.pubkeys ∧
      tx' = (outsAfter (padOut (issAfter (firstState C.A tx) es)) ds).tx ∧ (es.filterMap IssEv.data).length = es.length ∧
      (((C.A.descs.filter Desc.blinded).map Desc.opening).map Opening.mask).sum
          + (((es.filterMap IssEv.data).map IssData.opening).map Opening.mask).sum
          = ((ds.map OutData.opening).map Opening.mask).sum := by
  obtain ⟨C, s', hR, hE, rfl, hres⟩ := blind_success h
  have hR' := hR
  obtain ⟨hRE, hRA, hRl, -, -, hRo, hRb, hRn⟩ := hR
  subst hRE hRA
  have hlenP : C.A.pubkeys.length ≤ (firstState C.A tx).tx.vout.length := hRl.pubkeys
  have hin : ∀ j, C.A.pubkeys.getD j [] ≠ [] → (C.A.pubkeys.getD j [], j) ∈ validKeys C.E.z 0 C.A.pubkeys := by
    intro j hj
    rw [mem_validKeys]
    have : C.A.pubkeys[j]? = some (C.A.pubkeys.getD j []) := by
      rw [List.getD_eq_getElem?_getD] at hj ⊢
      cases hx : C.A.pubkeys[j]? with
      | none => rw [hx] at hj; exact absurd rfl hj
      | some y => rfl
    exact ⟨this, fullyValid_iff.2 ⟨hj, (hRo j _ this hj).pubkey⟩⟩
  have hexp : ∀ j, C.A.pubkeys.getD j [] ≠ [] → ¬ IsValueCommitment (tx.vout.getD j {}).nValue := by
    intro j hj hc
    have hm := (mem_validKeys.1 (hin j hj)).1
    obtain ⟨b, hb, -⟩ := (hRo j _ hm hj).value
    obtain ⟨b', hb', -⟩ := hc
    rw [hb] at hb'
    rcases hb' with hb' | hb' <;> exact absurd (List.cons.inj hb').1 (by decide)
  obtain ⟨j0, hj0⟩ := hone
  cases hE with
  | issuance es x rest h1 h2 h3 h4 h5 h6 h7 =>
    exfalso
    obtain ⟨-, -, -, -, -, -, -, -, i3, -⟩ := issAfter_lists es (firstState C.A tx)
    have := hall j0 hj0
    rw [h4, i3] at this
    exact hexp j0 hj0 this
  | early es ds x rest amount h1 h2 h3 h4 h5 h6 h7 =>
    exfalso
    have hL := left_of_run h3 h4 hlenP (by simp [firstState]) (by simp [firstState])
    have hnd := validKeys_nodup C.E.z C.A.pubkeys 0
    rw [← h4] at hnd
    simp only [List.map_append, List.map_map, List.map_cons, List.nodup_append] at hnd
    have hnot : x.2 ∉ ds.map OutData.j := by
      intro hm
      exact hnd.2.2 x.2 hm x.2 (List.mem_cons_self) rfl
    have hxm : x ∈ validKeys C.E.z 0 C.A.pubkeys := by
      rw [← h4]; exact List.mem_append_right _ List.mem_cons_self
    have hx1 := mem_validKeys.1 hxm
    have hxne : C.A.pubkeys.getD x.2 [] ≠ [] := by
      rw [List.getD_eq_getElem?_getD, hx1.1]
      exact (fullyValid_iff.1 hx1.2).1
    obtain ⟨o1, -⟩ := hL.others x.2 hnot
    have := hall x.2 hxne
    rw [h7.frame.1, List.getD_eq_getElem?_getD, o1, ← List.getD_eq_getElem?_getD] at this
    exact hexp x.2 hxne this
  | full es ds h1 h2 h3 h4 h5 =>
    subst h5
    have hvk := validKeys_asked hRo
    have hes : es.length = askedIssuances C.A.assetKeys tx.vin + askedIssuances C.A.tokenKeys tx.vin := by
      rw [← keyed_count hk, ← h2, List.length_map]
    have hds : ds.length = askedOutputs C.A := by rw [← hvk, ← h4]; simp
    have htot : asked C.A tx = askedOutputs C.A + askedIssuances C.A.assetKeys tx.vin + askedIssuances C.A.tokenKeys tx.vin := rfl
    have hne : ds ≠ [] := by
      intro hd
      have := hin j0 hj0
      rw [← h4, hd] at this
      cases this
    have hsplit := List.dropLast_append_getLast hne
    have hlast := h3
    rw [← hsplit] at hlast
    obtain ⟨hr0, hch⟩ := hlast.last
    have hlen0 : ds.dropLast.length + 1 = ds.length := by
      have := congrArg List.length hsplit
      simpa using this
    obtain ⟨a1, -⟩ := issAfter_lists es (firstState C.A tx)
    obtain ⟨b1, -⟩ := outsAfter_lists ds.dropLast (padOut (issAfter (firstState C.A tx) es))
    have p1 : (padOut (issAfter (firstState C.A tx) es)).attempts = es.length := by
      show (issAfter (firstState C.A tx) es).attempts = _
      rw [a1]; simp [firstState]
    have hmm : (es.filterMap IssEv.data).length = es.length ∧
        (((C.A.descs.filter Desc.blinded).map Desc.opening).map Opening.mask).sum
          + (((es.filterMap IssEv.data).map IssData.opening).map Opening.mask).sum
          = ((ds.map OutData.opening).map Opening.mask).sum := by
      replace hch := hch.blind
      generalize hbl : (ds.getLast hne).blind = bl at hch
      cases hch with
      | random hn => exact absurd (by rw [b1, p1, hRn, htot]; omega) hn
      | balancing b g1 g2 g3 g4 g5 g6 =>
        obtain ⟨k1, k2⟩ := last_masks P hRb (by omega) g5
        refine ⟨k1, k2.trans ?_⟩
        conv_rhs => rw [← hsplit]
        simp only [List.map_append, List.sum_append, List.map_cons, List.map_nil, List.sum_cons, List.sum_nil, add_zero,
          OutData.opening, hbl]
    exact ⟨C, es, ds, hR', h1, h2, h3, h4, rfl, hmm.1, hmm.2⟩

/-- C34, without assuming anything about amounts: what blinding hides in the outputs it asked
for is what the spent outputs and the blinded issuances hide.  Outputs that were commitments
before may be there as well. -/
theorem C34_preserved {E : Env} {A : BlindArgs} {tx tx' : Tx} {num bfs abfs} (P : Pedersen E.z M)
    (h : blindTransaction E A tx = (.ok (.success num bfs abfs), tx')) (hsz : ∀ t ∈ tx.vin, InputSizes t)
    (hk : KeysFine A tx) (hone : ∃ j, A.pubkeys.getD j [] ≠ [])
    (hall : ∀ j, A.pubkeys.getD j [] ≠ [] → IsValueCommitment (tx'.vout.getD j {}).nValue) :
    (tx'.vout.map P.outPt).sum + P.plainPt A.descs + P.issuedSum E (confAfter A tx) tx.vin
      = (tx.vout.map P.outPt).sum + (A.descs.map P.spentPt).sum + (tx'.vin.map fun i => P.issuancePt E i.confidential i).sum := by
  obtain ⟨C, es, ds, hR, h1, h2, h3, h4, rfl, h5, h6⟩ := full_run P h hk hone hall
  have hpos := hR.nonneg
  obtain ⟨rfl, rfl, hl, -⟩ := hR
  have := sums_run P (rest := []) (μ := 0) hk hpos hsz hl.pubkeys h1 h2 h3 (by rw [List.append_nil]; exact h4) h5 (by rw [add_zero]; exact h6) _ rfl
  rw [zero_smul, add_zero] at this
  exact this

theorem plain_balance {E : Env} {A : BlindArgs} {tx : Tx} (P : Pedersen E.z M) (hb : AmountsBalance E A tx) :
    P.plainPt A.descs + P.issuedSum E (confAfter A tx) tx.vin = (tx.vout.map P.outPt).sum := by
  have h1 := sum_of_totals P.H hb.balance
  rw [List.map_append, List.sum_append] at h1
  have pt : ∀ (id v : Bytes), v = [] ∨ IsExplicitValue v → P.issuedPt id v = (amountOf v : Scalar) • P.H id := by
    intro id v hv
    rcases hv with rfl | ⟨b, rfl, -⟩
    · simp [Pedersen.issuedPt, amountOf]
    · rfl
  have cf : ∀ t ∈ tx.vin, t.confidential = false := by
    intro t ht
    unfold TxIn.confidential
    rcases (hb.issued t ht).1 with he | ⟨b, he, -⟩ <;> rw [he]
    rfl
  have hiss : P.issuedSum E (confAfter A tx) tx.vin = ((issuedAmounts E A tx).map fun x => (x.2 : Scalar) • P.H x.1).sum := by
    unfold Pedersen.issuedSum issuedAmounts
    have : ∀ l : List (TxIn × Nat), (∀ x ∈ l, x.1 ∈ tx.vin ∧ tx.vin[x.2]? = some x.1) →
        (l.map fun x => P.issuancePt E (confAfter A tx x.2) x.1).sum
        = ((l.flatMap fun x => [(assetId E x.1, amountOf x.1.assetIssuance.nAmount),
            (tokenId E (A.assetKeys.getD x.2 none).isSome x.1, amountOf x.1.assetIssuance.nInflationKeys)]).map
              fun x => (x.2 : Scalar) • P.H x.1).sum := by
      intro l
      induction l with
      | nil => intro _; simp
      | cons x l ih =>
        intro hx
        obtain ⟨hx1, hx2⟩ := hx x List.mem_cons_self
        rw [List.map_cons, List.sum_cons, ih (fun y hy => hx y (List.mem_cons_of_mem _ hy)), List.flatMap_cons, List.map_append,
          List.sum_append]
        congr 1
        obtain ⟨f1, f2⟩ := hb.issued x.1 hx1
        have hc : confAfter A tx x.2 = (A.assetKeys.getD x.2 none).isSome := by
          unfold confAfter
          rw [List.getD_eq_getElem?_getD (l := tx.vin), hx2, Option.getD_some, cf x.1 hx1, Bool.or_false]
        unfold Pedersen.issuancePt
        rw [pt _ _ f1, pt _ _ f2, hc]
        simp
    apply this
    intro x hx
    have := List.mem_zipIdx_iff_getElem?.1 hx
    exact ⟨List.mem_of_getElem? this, this⟩
  have hout : (tx.vout.map P.outPt).sum = ((outAmounts tx).map fun x => (x.2 : Scalar) • P.H x.1).sum := by
    unfold outAmounts
    rw [List.map_map]
    congr 1
    apply List.map_congr_left
    intro o ho
    obtain ⟨⟨v, hv, -⟩, ⟨a, ha, -⟩⟩ := hb.outputs o ho
    unfold Pedersen.outPt
    rw [hv]
    simp only [Function.comp, hv, ha]
    rfl
  rw [hiss, hout, ← h1]
  rfl

/-- C34.  If for every asset as much goes in as comes out and everything asked for was blinded,
the result balances in the commitment group. -/
theorem C34_balanced_partial {E : Env} {A : BlindArgs} {tx tx' : Tx} {num bfs abfs} (P : Pedersen E.z M)
    (h : blindTransaction E A tx = (.ok (.success num bfs abfs), tx')) (hsz : ∀ t ∈ tx.vin, InputSizes t)
    (hb : AmountsBalance E A tx) (hk : KeysFine A tx) (hone : ∃ j, A.pubkeys.getD j [] ≠ [])
    (hall : ∀ j, A.pubkeys.getD j [] ≠ [] → IsValueCommitment (tx'.vout.getD j {}).nValue) :
    Balanced P E A.descs tx' := by
  have h1 := C34_preserved P h hsz hk hone hall
  have h2 := plain_balance P hb
  unfold Balanced
  rw [add_assoc, h2, add_assoc, add_comm] at h1
  exact (add_left_cancel h1).symm

/-- C34, the zero case: if the last output was left as it is because its balancing factor came
out as zero, the result is off by the asset blinding factor drawn for it times its amount. -/
theorem C34_zero {E : Env} {A : BlindArgs} {tx tx' : Tx} {num bfs abfs} (P : Pedersen E.z M)
    (h : blindTransaction E A tx = (.ok (.success num bfs abfs), tx')) (hst : A.strict = true)
    (hsz : ∀ t ∈ tx.vin, InputSizes t) (hb : AmountsBalance E A tx) (hk : KeysFine A tx) (j : Nat)
    (hj : A.pubkeys.getD j [] ≠ []) (hu : Untouched tx tx' j) :
    ∃ k v, (tx.vout.getD j {}).nValue = 1 :: v ∧
      (A.descs.map P.spentPt).sum + (tx'.vin.map fun i => P.issuancePt E i.confidential i).sum
        = (tx'.vout.map P.outPt).sum + ((beVal v : Scalar) * scalar (A.rand k)) • P.G := by
  have h2 := plain_balance P hb
  obtain ⟨C, s', hR, hE, rfl, hres⟩ := blind_success h
  obtain ⟨rfl, rfl, rfl, hdone⟩ := result_success hres
  have hpos := hR.nonneg
  obtain ⟨hRE, hRA, hRl, -, -, hRo, hRb, hRn⟩ := hR
  subst hRE hRA
  have hdone := hdone hst
  have hlenP : C.A.pubkeys.length ≤ (firstState C.A tx).tx.vout.length := hRl.pubkeys
  have hvk := validKeys_asked hRo
  have hin : (C.A.pubkeys.getD j [], j) ∈ validKeys C.E.z 0 C.A.pubkeys := by
    rw [mem_validKeys]
    have : C.A.pubkeys[j]? = some (C.A.pubkeys.getD j []) := by
      rw [List.getD_eq_getElem?_getD] at hj ⊢
      cases hx : C.A.pubkeys[j]? with
      | none => rw [hx] at hj; exact absurd rfl hj
      | some y => rfl
    exact ⟨this, fullyValid_iff.2 ⟨hj, (hRo j _ this hj).pubkey⟩⟩
  have hjl : j < tx.vout.length := by
    have := (List.getElem?_eq_some_iff.1 (mem_validKeys.1 hin).1).1
    dsimp only at this
    exact Nat.lt_of_lt_of_le this hlenP
  obtain ⟨w, hw, -⟩ := (hb.outputs (tx.vout.getD j {}) (by
    rw [List.getD_eq_getElem?_getD, List.getElem?_eq_getElem hjl]; exact List.getElem_mem hjl)).1
  have hnotd : ∀ (ds : List OutData) (s' : BS), Left C (firstState C.A tx) s' ds → s'.tx.vout[j]? = tx.vout[j]? →
      ∀ d ∈ ds, d.j ≠ j := by
    intro ds s' hL he d hd hdj
    obtain ⟨m1, -, -, -⟩ := hL.made d hd
    obtain ⟨t1, -⟩ := hL.those d hd
    have hc : IsValueCommitment (s'.tx.vout.getD j {}).nValue := by rw [← hdj, t1]; exact m1.committed
    rw [List.getD_eq_getElem?_getD, he, ← List.getD_eq_getElem?_getD, hw] at hc
    obtain ⟨b', hb', -⟩ := hc
    rcases hb' with hb' | hb' <;> exact absurd (List.cons.inj hb').1 (by decide)
  have hes : ∀ es : List IssEv, es.map IssEv.at = keyed C.A 0 tx.vin.length →
      es.length = askedIssuances C.A.assetKeys tx.vin + askedIssuances C.A.tokenKeys tx.vin := by
    intro es he
    rw [← keyed_count hk, ← he, List.length_map]
  have htot : asked C.A tx = askedOutputs C.A + askedIssuances C.A.assetKeys tx.vin + askedIssuances C.A.tokenKeys tx.vin := rfl
  cases hE with
  | issuance es x rest h1 h2 h3 h4 h5 h6 h7 =>
    exfalso
    obtain ⟨a1, -, a3, -⟩ := issAfter_lists es (firstState C.A tx)
    have : (es.filterMap IssEv.data).length ≤ es.length := List.length_filterMap_le _ _
    have z1 : (firstState C.A tx).attempts = 0 := rfl
    have z2 : (firstState C.A tx).done = 0 := rfl
    omega
  | full es ds h1 h2 h3 h4 h5 =>
    exfalso
    subst h5
    have hL := left_of_run (rest := []) h3 (by rw [List.append_nil]; exact h4) hlenP (by simp [firstState]) (by simp [firstState])
    rw [← h4] at hin
    obtain ⟨d, hd, hdj⟩ := List.mem_map.1 hin
    exact hnotd ds _ hL hu.1 d hd (Prod.mk.inj hdj).2
  | early es ds x rest amount h1 h2' h3 h4 h5 h6 h7 =>
    have hL := left_of_run h3 h4 hlenP (by simp [firstState]) (by simp [firstState])
    obtain ⟨a1, -, a3, -⟩ := issAfter_lists es (firstState C.A tx)
    obtain ⟨b1, -, b3, -⟩ := outsAfter_lists ds (padOut (issAfter (firstState C.A tx) es))
    have z1 : (firstState C.A tx).attempts = 0 := rfl
    have z2 : (firstState C.A tx).done = 0 := rfl
    have p1 : (padOut (issAfter (firstState C.A tx) es)).attempts = (issAfter (firstState C.A tx) es).attempts := rfl
    have p2 : (padOut (issAfter (firstState C.A tx) es)).done = (issAfter (firstState C.A tx) es).done := rfl
    have hf : (ds.filter (·.surj.isSome)).length ≤ ds.length := List.length_filter_le _ _
    have hfe : (es.filterMap IssEv.data).length ≤ es.length := List.length_filterMap_le _ _
    have hds : ds.length + 1 + rest.length = askedOutputs C.A := by
      rw [← hvk, ← h4]; simp; omega
    have hes := hes es h2'
    cases h7 with
    | alone g1 g2 g3 =>
      exfalso
      have : (preBalance C (outsAfter (padOut (issAfter (firstState C.A tx) es)) ds) amount).done
        = (outsAfter (padOut (issAfter (firstState C.A tx) es)) ds).done := rfl
      omega
    | zero b g1 g2 g3 g4 g5 g6 =>
      change (outsAfter (padOut (issAfter (firstState C.A tx) es)) ds).done + 1 = _ at hdone
      have hrest : rest = [] := List.length_eq_zero_iff.1 (by omega)
      subst hrest
      obtain ⟨k1, k2⟩ := last_masks P hRb g3 g5
      have hx : x.2 = j := by
        rw [← h4] at hin
        rcases List.mem_append.1 hin with hin | hin
        · obtain ⟨d, hd, hdj⟩ := List.mem_map.1 hin
          exact absurd (Prod.mk.inj hdj).2 (hnotd ds _ hL hu.1 d hd)
        · rw [List.mem_singleton] at hin
          rw [← hin]
      have hval : (outsAfter (padOut (issAfter (firstState C.A tx) es)) ds).tx.vout.getD x.2 {} = tx.vout.getD j {} := by
        rw [hx, List.getD_eq_getElem?_getD, List.getD_eq_getElem?_getD]
        congr 1
        exact hu.1
      rw [hval] at h5
      obtain ⟨v, hv, hvl, hve⟩ := valueToAmount_ok h5
      refine ⟨(outsAfter (padOut (issAfter (firstState C.A tx) es)) ds).rnd + 1, v, hv, ?_⟩
      have hz : scalar b = 0 := by
        have : AllZero b := isNull32_iff.1 g6
        have hb0 : b.any (· ≠ 0) = false := by
          rw [List.any_eq_false]
          intro y hy
          simpa using this y hy
        simp [scalar, beVal_zeros hb0]
      have hs := sums_run P (rest := [x]) hk hpos hsz hRl.pubkeys h1 h2' h3 h4 k1 k2 _ rfl
      have hμ : (⟨twos 8 amount, C.A.rand ((outsAfter (padOut (issAfter (firstState C.A tx) es)) ds).rnd + 1), b⟩ : Opening).mask
          = (beVal v : Scalar) * scalar (C.A.rand ((outsAfter (padOut (issAfter (firstState C.A tx) es)) ds).rnd + 1)) := by
        unfold Opening.mask
        rw [hz, add_zero, hve]
      rw [hμ, add_assoc, h2, add_assoc (tx.vout.map P.outPt).sum, add_comm] at hs
      exact (add_left_cancel hs).symm

/-- C34, the full statement. -/
def C34_statement : Prop := ∀ (M : Type) [AddCommGroup M] [Module Scalar M] (E : Env) (A : BlindArgs) (tx tx' : Tx) (num : Nat)
    (bfs abfs : List Bytes) (P : Pedersen E.z M),
  blindTransaction E A tx = (.ok (.success num bfs abfs), tx') → A.strict = true → (∀ t ∈ tx.vin, InputSizes t) →
  (∀ d ∈ A.descs, 0 ≤ d.amount ∧ d.amount < 2 ^ 64) → AmountsBalance E A tx → (∃ j, A.pubkeys.getD j [] ≠ []) →
  Balanced P E A.descs tx'

/-- One blinded input, one output, and a key for an issuance that is not there. -/
def Toy.strayArgs : BlindArgs :=
  { descs := [⟨Toy.b32 5, 8, Toy.b32 3, Toy.b32 4⟩], pubkeys := [Toy.pub 3], assetKeys := [some (Toy.b32 8)],
    rand := fun k => Toy.b32 (k + 5) }

theorem Toy.sizes (outs : List (Nat × Nat)) (iss : Issuance) (h : iss.assetEntropy.length = 32) :
    ∀ t ∈ (Toy.tx outs iss).vin, InputSizes t := by
  intro t ht
  simp only [Toy.tx, List.mem_cons, List.not_mem_nil, or_false] at ht
  subst ht
  exact ⟨by show (Toy.b32 9).length = 32; simp [Toy.b32], by show (0 : Nat) < 2 ^ 32; decide, h⟩

theorem Toy.total_cons (a : Bytes) (x : Bytes × Nat) (l : List (Bytes × Nat)) :
    total a (x :: l) = (if x.1 = a then x.2 else 0) + total a l := by
  unfold total
  rw [List.filter_cons]
  by_cases h : x.1 = a <;> simp [h]

theorem Toy.stray_balance : AmountsBalance Toy.env Toy.strayArgs (Toy.tx [(5, 8)]) := by
  refine ⟨?_, ?_, ?_⟩
  · intro o ho
    simp only [Toy.tx, List.map_cons, List.map_nil, List.mem_cons, List.not_mem_nil, or_false] at ho
    subst ho
    exact ⟨⟨_, rfl, by simp⟩, ⟨_, rfl, by simp⟩⟩
  · intro i hi
    simp only [Toy.tx, List.mem_cons, List.not_mem_nil, or_false] at hi
    subst hi
    exact ⟨.inl rfl, .inl rfl⟩
  · intro a
    have e1 : spentAmounts Toy.strayArgs.descs = [(Toy.b32 5, 8)] := rfl
    have e2 : outAmounts (Toy.tx [(5, 8)]) = [(Toy.b32 5, 8)] := by decide
    have e3 : ∃ i t, issuedAmounts Toy.env Toy.strayArgs (Toy.tx [(5, 8)]) = [(i, 0), (t, 0)] := ⟨_, _, rfl⟩
    obtain ⟨i, t, e3⟩ := e3
    rw [e1, e2, e3]
    simp only [List.cons_append, List.nil_append, Toy.total_cons, ite_self]
    simp [total]

/-- C34 fails as stated: with a key for an input that issues nothing the last output is not
recognised as the last one and gets a random factor.  Strict success is reported. -/
theorem C34_statement_false : ¬ C34_statement := by
  intro h
  obtain ⟨b, a, t', hx⟩ := success_of (x := blindTransaction Toy.env Toy.strayArgs (Toy.tx [(5, 8)])) (n := 1) (by decide +kernel)
  have := h Scalar Toy.env Toy.strayArgs _ _ _ _ _ Toy.pedersen hx rfl (Toy.sizes _ _ (by decide)) (by decide) Toy.stray_balance
    ⟨0, by decide⟩
  rw [show t' = (blindTransaction Toy.env Toy.strayArgs (Toy.tx [(5, 8)])).2 by rw [hx]] at this
  revert this
  unfold Balanced
  decide +kernel

/-- A blinded input and an issuance, three outputs. -/
def Toy.issId : Bytes := assetId Toy.env { prevout := ⟨Toy.b32 9, 0⟩, assetIssuance := ⟨zero32, Toy.b32 7, Toy.amt 1, []⟩ }
def Toy.balTx : Tx := Toy.tx [(5, 3), (5, 5), (beVal Toy.issId, 1)] ⟨zero32, Toy.b32 7, Toy.amt 1, []⟩
def Toy.balArgs : BlindArgs := { Toy.args (fun k => Toy.b32 (k + 5)) with pubkeys := [Toy.pub 3, Toy.pub 4, Toy.pub 6] }

theorem Toy.bal_amounts : AmountsBalance Toy.env Toy.balArgs Toy.balTx := by
  refine ⟨?_, ?_, ?_⟩
  · intro o ho
    simp only [Toy.balTx, Toy.tx, List.map_cons, List.map_nil, List.mem_cons, List.not_mem_nil, or_false] at ho
    rcases ho with rfl | rfl | rfl <;>
      exact ⟨⟨beBytes 8 _, rfl, by simp⟩, ⟨beBytes 32 _, rfl, by simp⟩⟩
  · intro i hi
    simp only [Toy.balTx, Toy.tx, List.mem_cons, List.not_mem_nil, or_false] at hi
    subst hi
    exact ⟨.inr ⟨beBytes 8 _, rfl, by simp⟩, .inl rfl⟩
  · intro a
    have e1 : spentAmounts Toy.balArgs.descs = [(Toy.b32 5, 8)] := by decide +kernel
    have e2 : outAmounts Toy.balTx = [(Toy.b32 5, 3), (Toy.b32 5, 5), (Toy.issId, 1)] := by decide +kernel
    have e3 : issuedAmounts Toy.env Toy.balArgs Toy.balTx
        = [(Toy.issId, 1), (tokenId Toy.env true (Toy.balTx.vin.getD 0 default), 0)] := by decide +kernel
    rw [e1, e2, e3]
    simp only [List.cons_append, List.nil_append, Toy.total_cons, ite_self]
    split <;> omega

theorem Toy.bal_keys : KeysFine Toy.balArgs Toy.balTx := by
  refine ⟨?_, ?_, by decide⟩
  · intro i token key hi _
    have : i = 0 := by simpa [Toy.balTx, Toy.tx] using hi
    subst this
    decide +kernel
  · intro i key hkey
    simp [BlindArgs.issuanceKey, Toy.balArgs, Toy.args] at hkey

-- everything in it is blinded and the result balances
example : ∃ b a t', blindTransaction Toy.env Toy.balArgs Toy.balTx = (.ok (.success 4 b a), t') ∧
    (∀ j, Toy.balArgs.pubkeys.getD j [] ≠ [] → IsValueCommitment (t'.vout.getD j {}).nValue) ∧
    Balanced Toy.pedersen Toy.env Toy.balArgs.descs t' ∧ t' ≠ Toy.balTx := by
  obtain ⟨b, a, t', hx⟩ := success_of (x := blindTransaction Toy.env Toy.balArgs Toy.balTx) (n := 4) (by decide +kernel)
  have hsz : ∀ i ∈ Toy.balTx.vin, InputSizes i := by unfold Toy.balTx; exact Toy.sizes _ _ (by decide)
  have hch : (blindTransaction Toy.env Toy.balArgs Toy.balTx).2.vout[0]? ≠ Toy.balTx.vout[0]? ∧
      (blindTransaction Toy.env Toy.balArgs Toy.balTx).2.vout[1]? ≠ Toy.balTx.vout[1]? ∧
      (blindTransaction Toy.env Toy.balArgs Toy.balTx).2.vout[2]? ≠ Toy.balTx.vout[2]? := by decide +kernel
  rw [hx] at hch
  have hone : ∃ j, Toy.balArgs.pubkeys.getD j [] ≠ [] := ⟨0, by decide +kernel⟩
  have hst : Toy.balArgs.strict = true := by decide +kernel
  have hall : ∀ j, Toy.balArgs.pubkeys.getD j [] ≠ [] → IsValueCommitment (t'.vout.getD j {}).nValue := by
    intro j hj
    obtain ⟨-, -, h3⟩ := C33_strict hx hst hsz
    cases h3 j hj with
    | blinded hbl => exact hbl.committed
    | zero v _ hu =>
      exfalso
      have hlt : j < 3 := by
        refine Nat.lt_of_not_le fun h => hj ?_
        rw [List.getD_eq_getElem?_getD, List.getElem?_eq_none (by simpa [Toy.balArgs] using h)]
        rfl
      have : j = 0 ∨ j = 1 ∨ j = 2 := by omega
      rcases this with rfl | rfl | rfl
      · exact hch.1 hu.1
      · exact hch.2.1 hu.1
      · exact hch.2.2 hu.1
  have hne : t' ≠ Toy.balTx := fun e => hch.1 (congrArg (fun t : Tx => t.vout[0]?) e)
  have hbal := C34_balanced_partial Toy.pedersen hx hsz Toy.bal_amounts Toy.bal_keys hone hall
  exact ⟨b, a, t', hx, hall, hbal, hne⟩

-- the zero case occurs
example : let t := Toy.tx [(5, 3), (5, 5)]
    let A : BlindArgs := { Toy.args (fun k => Toy.b32 (if k = 0 then 2 else if k = 1 then 1 else 6)) with assetKeys := [] }
    ∃ b a t', blindTransaction Toy.env A t = (.ok (.success 2 b a), t') ∧ Untouched t t' 1 ∧
      ¬ Balanced Toy.pedersen Toy.env A.descs t' := by
  intro t A
  obtain ⟨b, a, t', h⟩ := success_of (x := blindTransaction Toy.env A t) (n := 2) (by decide +kernel)
  refine ⟨b, a, t', h, ?_, ?_⟩
  · rw [show t' = (blindTransaction Toy.env A t).2 by rw [h]]; exact ⟨by decide +kernel, by decide +kernel⟩
  · rw [show t' = (blindTransaction Toy.env A t).2 by rw [h]]
    unfold Balanced
    decide +kernel

end Verif
