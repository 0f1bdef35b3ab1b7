import Verif.BlindRun
import Verif.Props.BlindFail
/-
Whole blinding runs as lists of steps.
-/
namespace Verif

/-! ### Outputs -/

/-- Outputs blinded one after the other. -/
inductive OutRun (C : Ctx) : BS → List OutData → Prop
  | nil (s : BS) : OutRun C s []
  | cons {s : BS} {d : OutData} {ds : List OutData} : d.Made C → d.Chose C s → fullyValid C.E.z d.pk = true →
      d.out = s.tx.vout.getD d.j {} → OutRun C (d.after s) ds → OutRun C s (d :: ds)

/-- The state after a list of outputs was blinded. -/
def outsAfter (s : BS) (ds : List OutData) : BS := ds.foldl (fun s d => d.after s) s

@[simp] theorem outsAfter_nil (s : BS) : outsAfter s [] = s := rfl
@[simp] theorem outsAfter_cons (s : BS) (d ds) : outsAfter s (d :: ds) = outsAfter (d.after s) ds := rfl

/-- Entries of `output_pubkeys` that are acted on, with their indices. -/
def validKeys (z : Zkp) (j : Nat) (pks : List Bytes) : List (Bytes × Nat) :=
  (pks.zipIdx j).filter fun x => fullyValid z x.1

theorem outputLoop_ok {C : Ctx} : ∀ {pks : List Bytes} {j : Nat} {s s' : BS} {u : Unit}, outputLoop C j pks s = (.ok u, s') →
    ∃ ds, OutRun C s ds ∧ s' = outsAfter s ds ∧ ds.map (fun d => (d.pk, d.j)) = validKeys C.E.z j pks
  | [], j, s, s', u, h => by
    simp only [outputLoop] at h
    rw [BM.pure_ok] at h
    exact ⟨[], .nil s, h.2.symm, rfl⟩
  | pk :: rest, j, s, s', u, h => by
    simp only [outputLoop] at h
    replace h := BM.bind_ok.1 h
    obtain ⟨_, s1, h1, h⟩ := h
    obtain ⟨ds, hr, hs, hm⟩ := outputLoop_ok h
    unfold outputStep at h1
    by_cases hv : fullyValid C.E.z pk = true
    · rw [if_pos hv] at h1
      obtain ⟨d, hd, hc, rfl, rfl, ho, rfl⟩ := outputBlind_ok h1
      refine ⟨d :: ds, .cons hd hc hv ho hr, hs, ?_⟩
      simp only [List.map_cons, hm, validKeys, List.zipIdx_cons, List.filter_cons, hv, if_true]
    · rw [if_neg hv, BM.pure_ok] at h1
      obtain ⟨-, rfl⟩ := h1
      refine ⟨ds, hr, hs, ?_⟩
      simp only [hm, validKeys, List.zipIdx_cons, List.filter_cons, hv]
      rfl

theorem outputLoop_ret {C : Ctx} : ∀ {pks : List Bytes} {j : Nat} {s s' : BS} {r : BlindResult},
    outputLoop C j pks s = (.error (.ret r), s') →
    ∃ ds x rest amount, OutRun C s ds ∧ ds.map (fun d => (d.pk, d.j)) ++ x :: rest = validKeys C.E.z j pks ∧
      valueToAmount ((outsAfter s ds).tx.vout.getD x.2 {}).nValue = .ok amount ∧
      (C.A.rand ((outsAfter s ds).rnd + 1)).length = 32 ∧
      EarlyOut C (outsAfter s ds) amount s' ∧ r = blindingResult C s'
  | [], j, s, s', r, h => by
    simp only [outputLoop] at h
    exact (BM.pure_error.1 h).elim
  | pk :: rest, j, s, s', r, h => by
    simp only [outputLoop] at h
    replace h := BM.bind_error.1 h
    rcases h with h | ⟨_, s1, h1, h⟩
    · unfold outputStep at h
      by_cases hv : fullyValid C.E.z pk = true
      · rw [if_pos hv] at h
        obtain ⟨amount, ha, hl, he, hr⟩ := outputBlind_ret h
        refine ⟨[], (pk, j), validKeys C.E.z (j + 1) rest, amount, .nil s, ?_, ha, hl, he, hr⟩
        simp only [validKeys, List.zipIdx_cons, List.filter_cons, hv, if_true, List.map_nil, List.nil_append]
      · rw [if_neg hv] at h
        exact (BM.pure_error.1 h).elim
    · obtain ⟨ds, x, rest', amount, hr, hm, ha, hl, he, hres⟩ := outputLoop_ret h
      unfold outputStep at h1
      by_cases hv : fullyValid C.E.z pk = true
      · rw [if_pos hv] at h1
        obtain ⟨d, hd, hc, rfl, rfl, ho, rfl⟩ := outputBlind_ok h1
        refine ⟨d :: ds, x, rest', amount, .cons hd hc hv ho hr, ?_, ha, hl, he, hres⟩
        simp only [List.map_cons, List.cons_append, hm, validKeys, List.zipIdx_cons, List.filter_cons, hv, if_true]
      · rw [if_neg hv, BM.pure_ok] at h1
        obtain ⟨-, rfl⟩ := h1
        refine ⟨ds, x, rest', amount, hr, ?_, ha, hl, he, hres⟩
        simp only [hm, validKeys, List.zipIdx_cons, List.filter_cons, hv]
        rfl

/-! ### Issuances -/

/-- One pseudo-input with a key: blinded or passed over. -/
inductive IssEv
  | made (d : IssData)
  | passed (i : Nat) (token : Bool) (key : Bytes) (as : List Int)

def IssEv.at : IssEv → Nat × Bool
  | .made d => (d.i, d.token)
  | .passed i t _ _ => (i, t)

/-- The state after it. -/
def IssEv.after (s : BS) : IssEv → BS
  | .made d => d.after s
  | .passed _ _ _ as => { s with attempts := s.attempts + 1, issAttempts := s.issAttempts + 1, amounts := s.amounts ++ as }

def issAfter (s : BS) (es : List IssEv) : BS := es.foldl IssEv.after s

@[simp] theorem issAfter_nil (s : BS) : issAfter s [] = s := rfl
@[simp] theorem issAfter_cons (s : BS) (e es) : issAfter s (e :: es) = issAfter (e.after s) es := rfl

/-- Keys for issued amounts or for tokens. -/
def BlindArgs.issKeys (A : BlindArgs) (token : Bool) : List (Option Bytes) := if token then A.tokenKeys else A.assetKeys

inductive IssRun (C : Ctx) : BS → List IssEv → Prop
  | nil (s : BS) : IssRun C s []
  | made {s : BS} {d : IssData} {es : List IssEv} : d.Made C → s.attempts + 1 ≠ C.nToBlind →
      keyAt (C.A.issKeys d.token) d.i = some d.key → d.txin = s.tx.vin.getD d.i default → d.blind = C.A.rand s.rnd →
      IssRun C (d.after s) es → IssRun C s (.made d :: es)
  | passed {s : BS} {i token key as es} : PassedOver C (s.tx.vin.getD i default) token as →
      keyAt (C.A.issKeys token) i = some key → IssRun C ((IssEv.passed i token key as).after s) es →
      IssRun C s (.passed i token key as :: es)

/-- Pseudo-inputs with keys, in the order they are treated. -/
def keyed (A : BlindArgs) (i n : Nat) : List (Nat × Bool) :=
  ((List.range' i n).flatMap fun i => [(i, false), (i, true)]).filter fun x => (keyAt (A.issKeys x.2) x.1).isSome

theorem keyed_succ (A : BlindArgs) (i n : Nat) : keyed A i (n + 1) =
    (if (keyAt (A.issKeys false) i).isSome then [(i, false)] else []) ++
    ((if (keyAt (A.issKeys true) i).isSome then [(i, true)] else []) ++ keyed A (i + 1) n) := by
  unfold keyed
  rw [List.range'_succ, List.flatMap_cons, List.filter_append]
  rw [List.filter_cons, List.filter_cons, List.filter_nil]
  split <;> split <;> rfl

theorem issuanceStep_ok {C : Ctx} {i token s s'} {u : Unit} (h : issuanceStep C i token s = (.ok u, s')) :
    ∃ es, (∀ r, IssRun C s' r → IssRun C s (es ++ r)) ∧ s' = issAfter s es ∧
      es.map IssEv.at = if (keyAt (C.A.issKeys token) i).isSome then [(i, token)] else [] := by
  unfold issuanceStep at h
  change (match keyAt (C.A.issKeys token) i with | none => pure () | some key => issuancePseudo C i token key : BM Unit) s = _ at h
  cases hk : keyAt (C.A.issKeys token) i with
  | none =>
    rw [hk] at h
    dsimp only at h
    rw [BM.pure_ok] at h
    exact ⟨[], by rw [h.2]; exact fun r hr => hr, h.2.symm, rfl⟩
  | some key =>
    rw [hk] at h
    dsimp only at h
    rcases issuancePseudo_ok h with ⟨as, hp, rfl⟩ | ⟨d, hd, hn, rfl, rfl, rfl, ht, hb, rfl⟩
    · exact ⟨[.passed i token key as], fun r hr => .passed hp hk hr, rfl, rfl⟩
    · exact ⟨[.made d], fun r hr => .made hd hn hk ht hb hr, rfl, rfl⟩

theorem issuanceStep_ret {C : Ctx} {i token s s' r} (h : issuanceStep C i token s = (.error (.ret r), s')) :
    (keyAt (C.A.issKeys token) i).isSome = true ∧
    s.attempts + 1 = C.nToBlind ∧ s'.tx = s.tx ∧ s'.done = s.done ∧ s'.obf = s.obf ∧ s'.oabf = s.oabf ∧
      r = blindingResult C s' := by
  unfold issuanceStep at h
  change (match keyAt (C.A.issKeys token) i with | none => pure () | some key => issuancePseudo C i token key : BM Unit) s = _ at h
  cases hk : keyAt (C.A.issKeys token) i with
  | none =>
    rw [hk] at h
    dsimp only at h
    exact (BM.pure_error.1 h).elim
  | some key =>
    rw [hk] at h
    dsimp only at h
    exact ⟨rfl, issuancePseudo_ret h⟩

theorem issAfter_append (s : BS) (a b : List IssEv) : issAfter s (a ++ b) = issAfter (issAfter s a) b := by
  simp [issAfter, List.foldl_append]

theorem issuanceLoop_ok {C : Ctx} : ∀ {n i : Nat} {s s' : BS} {u : Unit}, issuanceLoop C i n s = (.ok u, s') →
    ∃ es, IssRun C s es ∧ s' = issAfter s es ∧ es.map IssEv.at = keyed C.A i n
  | 0, i, s, s', u, h => by
    simp only [issuanceLoop] at h
    rw [BM.pure_ok] at h
    exact ⟨[], .nil s, h.2.symm, rfl⟩
  | n + 1, i, s, s', u, h => by
    simp only [issuanceLoop] at h
    replace h := BM.bind_ok.1 h
    obtain ⟨_, s1, h1, h⟩ := h
    replace h := BM.bind_ok.1 h
    obtain ⟨_, s2, h2, h⟩ := h
    obtain ⟨e1, r1, q1, m1⟩ := issuanceStep_ok h1
    obtain ⟨e2, r2, q2, m2⟩ := issuanceStep_ok h2
    obtain ⟨e3, r3, q3, m3⟩ := issuanceLoop_ok h
    refine ⟨e1 ++ (e2 ++ e3), r1 _ (r2 _ r3), ?_, ?_⟩
    · rw [q3, q2, q1, issAfter_append, issAfter_append]
    · rw [List.map_append, List.map_append, m1, m2, m3, keyed_succ]

theorem issuanceLoop_ret {C : Ctx} : ∀ {n i : Nat} {s s' : BS} {r}, issuanceLoop C i n s = (.error (.ret r), s') →
    ∃ es x rest, IssRun C s es ∧ es.map IssEv.at ++ x :: rest = keyed C.A i n ∧
      (issAfter s es).attempts + 1 = C.nToBlind ∧ s'.tx = (issAfter s es).tx ∧ s'.done = (issAfter s es).done ∧
      s'.obf = s.obf ∧ s'.oabf = s.oabf ∧ r = blindingResult C s'
  | 0, i, s, s', r, h => by
    simp only [issuanceLoop] at h
    exact (BM.pure_error.1 h).elim
  | n + 1, i, s, s', r, h => by
    have obf : ∀ (es : List IssEv) (s : BS), (issAfter s es).obf = s.obf ∧ (issAfter s es).oabf = s.oabf := by
      intro es
      induction es with
      | nil => intro s; exact ⟨rfl, rfl⟩
      | cons e es ih => intro s; cases e <;> exact ih _
    simp only [issuanceLoop] at h
    replace h := BM.bind_error.1 h
    rcases h with h | ⟨_, s1, h1, h⟩
    · obtain ⟨hk, h1, h2, h3, h4, h5, h6⟩ := issuanceStep_ret h
      refine ⟨[], (i, false), (if (keyAt (C.A.issKeys true) i).isSome then [(i, true)] else []) ++ keyed C.A (i + 1) n, .nil s, ?_, h1, h2, h3, h4, h5, h6⟩
      rw [keyed_succ, if_pos hk]
      rfl
    obtain ⟨e1, r1, q1, m1⟩ := issuanceStep_ok h1
    replace h := BM.bind_error.1 h
    rcases h with h | ⟨_, s2, h2, h⟩
    · obtain ⟨hk, h1, h2, h3, h4, h5, h6⟩ := issuanceStep_ret h
      refine ⟨e1, (i, true), keyed C.A (i + 1) n, ?_, ?_, by rw [← q1]; exact h1, by rw [← q1]; exact h2,
        by rw [← q1]; exact h3, by rw [h4, q1, (obf e1 s).1], by rw [h5, q1, (obf e1 s).2], h6⟩
      · have := r1 [] (.nil _)
        rwa [List.append_nil] at this
      · rw [keyed_succ, if_pos hk, m1]
        rfl
    obtain ⟨e2, r2, q2, m2⟩ := issuanceStep_ok h2
    obtain ⟨e3, x, rest, r3, m3, h1, h2, h3, h4, h5, h6⟩ := issuanceLoop_ret h
    refine ⟨e1 ++ (e2 ++ e3), x, rest, r1 _ (r2 _ r3), ?_, ?_, ?_, ?_, ?_, ?_, h6⟩
    · rw [List.map_append, List.map_append, m1, m2, keyed_succ, ← m3]
      simp
    · rw [issAfter_append, issAfter_append, ← q1, ← q2]; exact h1
    · rw [issAfter_append, issAfter_append, ← q1, ← q2]; exact h2
    · rw [issAfter_append, issAfter_append, ← q1, ← q2]; exact h3
    · rw [h4, q2, (obf _ _).1, q1, (obf _ _).1]
    · rw [h5, q2, (obf _ _).2, q1, (obf _ _).2]

/-! ### A whole call -/

/-- Output witnesses are there for every output. -/
def padOut (s : BS) : BS :=
  { s with tx := { s.tx with wit := { s.tx.wit with vtxoutwit := padTo s.tx.wit.vtxoutwit s.tx.vout.length {} } } }

/-- How a call of `blind()` that returns a result ends after the checks. -/
inductive Ends (C : Ctx) (n : Nat) (s s' : BS) : Prop
  /-- an issuance was the last thing to blind -/
  | issuance (es : List IssEv) (x : Nat × Bool) (rest : List (Nat × Bool)) : IssRun C s es →
      es.map IssEv.at ++ x :: rest = keyed C.A 0 n → (issAfter s es).attempts + 1 = C.nToBlind →
      s'.tx = (issAfter s es).tx → s'.done = (issAfter s es).done → s'.obf = s.obf → s'.oabf = s.oabf → Ends C n s s'
  /-- an output returned early -/
  | early (es : List IssEv) (ds : List OutData) (x : Bytes × Nat) (rest : List (Bytes × Nat)) (amount : Int) :
      IssRun C s es → es.map IssEv.at = keyed C.A 0 n → OutRun C (padOut (issAfter s es)) ds →
      ds.map (fun d => (d.pk, d.j)) ++ x :: rest = validKeys C.E.z 0 C.A.pubkeys →
      valueToAmount ((outsAfter (padOut (issAfter s es)) ds).tx.vout.getD x.2 {}).nValue = .ok amount →
      (C.A.rand ((outsAfter (padOut (issAfter s es)) ds).rnd + 1)).length = 32 →
      EarlyOut C (outsAfter (padOut (issAfter s es)) ds) amount s' → Ends C n s s'
  /-- everything was gone through -/
  | full (es : List IssEv) (ds : List OutData) : IssRun C s es → es.map IssEv.at = keyed C.A 0 n →
      OutRun C (padOut (issAfter s es)) ds → ds.map (fun d => (d.pk, d.j)) = validKeys C.E.z 0 C.A.pubkeys →
      s' = outsAfter (padOut (issAfter s es)) ds → Ends C n s s'

theorem blindBody_ret {C : Ctx} {n s s' r} (h : blindBody C n s = (.error (.ret r), s')) :
    Ends C n s s' ∧ r = blindingResult C s' := by
  unfold blindBody at h
  replace h := BM.bind_error.1 h
  rcases h with h | ⟨_, s1, h1, h⟩
  · obtain ⟨es, x, rest, h1, h2, h3, h4, h5, h6, h7, h8⟩ := issuanceLoop_ret h
    exact ⟨.issuance es x rest h1 h2 h3 h4 h5 h6 h7, h8⟩
  obtain ⟨es, g1, rfl, g3⟩ := issuanceLoop_ok h1
  replace h := BM.bind_error.1 h
  rcases h with h | ⟨_, s2, h2, h⟩
  · exact (BM.modifyTx_error.1 h).elim
  rw [BM.modifyTx_ok] at h2
  change s2 = padOut (issAfter s es) at h2
  subst h2
  replace h := BM.bind_error.1 h
  rcases h with h | ⟨_, s3, h3, h⟩
  · obtain ⟨ds, x, rest, amount, h1, h2, h3, h4, h5, h6⟩ := outputLoop_ret h
    exact ⟨.early es ds x rest amount g1 g3 h1 h2 h3 h4 h5, h6⟩
  obtain ⟨ds, k1, rfl, k3⟩ := outputLoop_ok h3
  replace h := BM.finish_error.1 h
  obtain ⟨h, rfl⟩ := h
  cases h
  exact ⟨.full es ds g1 g3 k1 k3 rfl, rfl⟩

/-- What is known when `blind()` returns a result that is not a refusal by the checks. -/
structure Returned (E : Env) (A : BlindArgs) (tx : Tx) (C : Ctx) : Prop where
  env : C.E = E
  args : C.A = A
  lengths : LengthsFine A tx
  targets : surjTargets E A tx = .ok C.T
  inputs : ∀ i txin d, tx.vin[i]? = some txin → A.descs[i]? = some d → InputFine A tx.wit.vtxinwit i txin d
  outputs : ∀ j pk, A.pubkeys[j]? = some pk → pk ≠ [] → Blindable E.z tx j pk
  nBlindsIn : C.nBlindsIn = (A.descs.filter Desc.blinded).length
  nToBlind : C.nToBlind = asked A tx

/-- The state in which blinding starts. -/
def firstState (A : BlindArgs) (tx : Tx) : BS :=
  { tx
    blinds := (A.descs.filter Desc.blinded).map Desc.blindingFactor
    assetblinds := (A.descs.filter Desc.blinded).map Desc.assetBlindingFactor
    amounts := (A.descs.filter Desc.blinded).map Desc.amount
    obf := List.replicate tx.vout.length none
    oabf := List.replicate tx.vout.length none }

theorem blind_success {E : Env} {A : BlindArgs} {tx tx' : Tx} {num bfs abfs}
    (h : blindTransaction E A tx = (.ok (.success num bfs abfs), tx')) :
    ∃ C s', Returned E A tx C ∧ Ends C tx.vin.length (firstState A tx) s' ∧ tx' = s'.tx ∧
      BlindResult.success num bfs abfs = blindingResult C s' := by
  unfold blindTransaction at h
  cases hc : checks E A tx with
  | error e =>
    rw [hc] at h
    cases e with
    | raise e => simp at h
    | ret r =>
      exfalso
      simp only [Prod.mk.injEq, Except.ok.injEq] at h
      obtain ⟨rfl, -⟩ := h
      exact noSuccess_checks E A tx _ _ _ hc
  | ok p =>
    obtain ⟨T, c⟩ := p
    rw [hc] at h
    obtain ⟨h1, h2, h3, h4, rfl⟩ := checks_ok.1 hc
    dsimp only at h
    generalize hr : blindBody _ _ _ = r at h
    obtain ⟨r1, s'⟩ := r
    simp only [Prod.mk.injEq] at h
    obtain ⟨h, rfl⟩ := h
    cases r1 with
    | ok u => cases u; cases h
    | error e =>
      cases e with
      | raise e => cases h
      | ret r =>
        cases h
        obtain ⟨k1, k2⟩ := blindBody_ret hr
        exact ⟨_, s', ⟨rfl, rfl, h1, h2, h3, h4, rfl, rfl⟩, k1, rfl, k2⟩

end Verif
