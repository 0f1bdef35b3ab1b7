import Verif.Spec.Library
/-
C43: the native library is loaded once, with the path set before the first use.
-/
namespace Verif

theorem libRun_length (s : LibState) (ops : List LibOp) : (libRun s ops).length = ops.length := by
  induction ops generalizing s with
  | nil => rfl
  | cons op ops ih => simp [libRun, ih]

theorem libRun_get (s : LibState) (ops : List LibOp) (i : Nat) :
    (libRun s ops)[i]? = (ops[i]?).map fun op => (libStep (libState s (ops.take i)) op).1 := by
  induction ops generalizing s i with
  | nil => simp [libRun]
  | cons op ops ih =>
    cases i with
    | zero => simp [libRun, libState]
    | succ i =>
      simp only [libRun, List.getElem?_cons_succ, List.take_succ_cons]
      rw [ih]; rfl

theorem take_split {α} (l : List α) {m n : Nat} (h : m ≤ n) : l.take n = l.take m ++ (l.take n).drop m := by
  have := (List.take_append_drop m (l.take n)).symm
  rw [List.take_take, Nat.min_eq_left h] at this
  exact this

theorem libState_append (s : LibState) (a b : List LibOp) : libState s (a ++ b) = libState (libState s a) b := by
  simp [libState, List.foldl_append]

theorem libState_path (s : LibState) (ops : List LibOp) :
    (libState s ops).path = match lastSet ops with | some p => some p | none => s.path := by
  induction ops generalizing s with
  | nil => rfl
  | cons op ops ih =>
    have := ih (libStep s op).2
    change (libState (libStep s op).2 ops).path = _
    rw [this]
    cases hl : lastSet ops with
    | some p => simp [lastSet, hl]
    | none =>
      cases op with
      | setPath p f => cases f <;> simp [lastSet, hl, libStep]
      | getPath => simp [lastSet, hl, libStep]
      | get w =>
        simp only [lastSet, hl, libStep, getSecp]
        cases s.handle with
        | some h => rfl
        | none => cases loadHandle w s.path <;> rfl

theorem libStep_keeps {s : LibState} {h : LibHandle} (hs : s.handle = some h) (op : LibOp) :
    (libStep s op).2.handle = some h := by
  cases op with
  | setPath p f => cases f <;> simpa [libStep] using hs
  | getPath => exact hs
  | get w => simp only [libStep, getSecp, hs]

theorem libState_keeps {s : LibState} {h : LibHandle} (hs : s.handle = some h) (ops : List LibOp) :
    (libState s ops).handle = some h := by
  induction ops generalizing s with
  | nil => exact hs
  | cons op ops ih => exact ih (libStep_keeps hs op)

/-- A step that gives a handle leaves it stored. -/
theorem libStep_gave {s : LibState} {op : LibOp} {h : LibHandle} (hg : (libStep s op).1.out = .handle h) :
    (libStep s op).2.handle = some h := by
  cases op with
  | setPath p f => cases f <;> simp [libStep] at hg
  | getPath => simp [libStep] at hg
  | get w =>
    simp only [libStep, getSecp] at hg ⊢
    cases hh : s.handle with
    | some h' => rw [hh] at hg; simp only at hg ⊢; rw [hh]; cases hg; rfl
    | none =>
      rw [hh] at hg
      cases hl : loadHandle w s.path with
      | error e => rw [hl] at hg; cases hg
      | ok h' => rw [hl] at hg; cases hg; rfl

theorem gave_state {ops : List LibOp} {i : Nat} {h : LibHandle} {s : LibState} (hg : GaveAt (libRun s ops) i h) :
    (libState s (ops.take (i + 1))).handle = some h ∧ i < ops.length := by
  unfold GaveAt at hg
  rw [libRun_get] at hg
  cases ho : ops[i]? with
  | none => rw [ho] at hg; cases hg
  | some op =>
    rw [ho] at hg
    have hg' := Option.some.inj hg
    have hi := (List.getElem?_eq_some_iff.1 ho).1
    refine ⟨?_, hi⟩
    have he := (List.getElem?_eq_some_iff.1 ho).2
    rw [List.take_succ_eq_append_getElem hi, libState_append, he]
    exact libStep_gave hg'

/-- **C43** (path): every load uses the last path set to an existing file before it, and
the default if there is none. -/
theorem C43_path (ops : List LibOp) (i : Nat) (p : Option String) (h : LoadedAt (libRun {} ops) i p) :
    p = lastSet (ops.take i) := by
  unfold LoadedAt at h
  rw [libRun_get] at h
  cases ho : ops[i]? with
  | none => rw [ho] at h; cases h
  | some op =>
    rw [ho] at h
    have h' : (libStep (libState {} (ops.take i)) op).1.load = some p := h
    have hp := libState_path {} (ops.take i)
    have hp' : (libState {} (ops.take i)).path = lastSet (ops.take i) := by
      rw [hp]; cases lastSet (ops.take i) <;> rfl
    cases op with
    | setPath q f => cases f <;> simp [libStep] at h'
    | getPath => simp [libStep] at h'
    | get w =>
      simp only [libStep, getSecp] at h'
      cases hh : (libState {} (ops.take i)).handle with
      | some x => rw [hh] at h'; cases h'
      | none =>
        rw [hh] at h'
        cases hl : loadHandle w (libState {} (ops.take i)).path with
        | error e => rw [hl] at h'; rw [← hp']; exact (Option.some.inj h').symm
        | ok x => rw [hl] at h'; rw [← hp']; exact (Option.some.inj h').symm

/-- **C43** (same handle): once a caller was given a handle, every later request gives the
same one, and nothing is loaded again whatever the later calls are. -/
theorem C43_once (ops : List LibOp) (i j : Nat) (h : LibHandle) (hij : i < j) (hg : GaveAt (libRun {} ops) i h) :
    (AsksAt ops j → GaveAt (libRun {} ops) j h) ∧ ∀ p, ¬ LoadedAt (libRun {} ops) j p := by
  have hs : (libState {} (ops.take j)).handle = some h := by
    have hi := gave_state hg
    have : ops.take j = ops.take (i + 1) ++ (ops.take j).drop (i + 1) := take_split ops (by omega)
    rw [this, libState_append]
    exact libState_keeps hi.1 _
  constructor
  · rintro ⟨w, hw⟩
    unfold GaveAt
    rw [libRun_get, hw]
    simp [libStep, getSecp, hs]
  · intro p hl
    unfold LoadedAt at hl
    rw [libRun_get] at hl
    cases ho : ops[j]? with
    | none => rw [ho] at hl; cases hl
    | some op =>
      rw [ho] at hl
      have h' : (libStep (libState {} (ops.take j)) op).1.load = some p := hl
      cases op with
      | setPath q f => cases f <;> simp [libStep] at h'
      | getPath => simp [libStep] at h'
      | get w => simp [libStep, getSecp, hs] at h'

/-- Any two handles ever given are the same. -/
theorem C43_unique (ops : List LibOp) (i j : Nat) (h h' : LibHandle) (hi : GaveAt (libRun {} ops) i h)
    (hj : GaveAt (libRun {} ops) j h') : h = h' := by
  have key : ∀ a b x y, a < b → GaveAt (libRun {} ops) a x → GaveAt (libRun {} ops) b y → x = y := by
    intro a b x y hab ha hb
    obtain ⟨hsa, hla⟩ := gave_state ha
    obtain ⟨hsb, hlb⟩ := gave_state hb
    have : ops.take (b + 1) = ops.take (a + 1) ++ (ops.take (b + 1)).drop (a + 1) := take_split ops (by omega)
    rw [this, libState_append, libState_keeps hsa] at hsb
    exact Option.some.inj hsb
  rcases Nat.lt_trichotomy i j with hlt | heq | hgt
  · exact key _ _ _ _ hlt hi hj
  · subst heq
    have := hi.symm.trans hj
    cases this; rfl
  · exact (key _ _ _ _ hgt hj hi).symm

/-- **C43** (origin): a handle given at step `i` comes from a load at some step `k ≤ i`, from
the last path set before `k`, and no handle had been given before; confidential functions
are marked available exactly when the loaded library has them. -/
theorem C43_source (ops : List LibOp) (i : Nat) (h : LibHandle) (hg : GaveAt (libRun {} ops) i h) :
    ∃ k, k ≤ i ∧ GaveAt (libRun {} ops) k h ∧ LoadedAt (libRun {} ops) k (lastSet (ops.take k)) ∧
      (∃ w, ops[k]? = some (.get w) ∧ w.load (lastSet (ops.take k)) = .ok h.lib) ∧
      (∀ j h', j < k → ¬ GaveAt (libRun {} ops) j h') ∧
      (h.hasZkp = h.lib.hasRangeproof) ∧ (h.blindCtx.isSome = h.hasZkp) := by
  -- the first step that gave a handle
  induction i using Nat.strongRecOn with
  | _ i ih =>
    by_cases hex : ∃ j h', j < i ∧ GaveAt (libRun {} ops) j h'
    · obtain ⟨j, h', hj, hgj⟩ := hex
      have : h' = h := C43_unique ops j i h' h hgj hg
      subst this
      obtain ⟨k, hk, r⟩ := ih j hj hgj
      exact ⟨k, by omega, r⟩
    · have hno : ∀ j h', j < i → ¬ GaveAt (libRun {} ops) j h' := fun j h' hj hh => hex ⟨j, h', hj, hh⟩
      have hg' := hg
      unfold GaveAt at hg'
      rw [libRun_get] at hg'
      cases ho : ops[i]? with
      | none => rw [ho] at hg'; cases hg'
      | some op =>
        rw [ho] at hg'
        have hout : (libStep (libState {} (ops.take i)) op).1.out = .handle h := Option.some.inj hg'
        have hp : (libState {} (ops.take i)).path = lastSet (ops.take i) := by
          rw [libState_path]; cases lastSet (ops.take i) <;> rfl
        have hnone : (libState {} (ops.take i)).handle = none := by
          have gen : ∀ n, n ≤ i → (libState {} (ops.take n)).handle = none := by
            intro n hn
            induction n with
            | zero => simp [libState]
            | succ n ihn =>
              have ihn := ihn (by omega)
              have hlt : n < ops.length := by
                have := (List.getElem?_eq_some_iff.1 ho).1; omega
              rw [List.take_succ_eq_append_getElem hlt, libState_append]
              change (libStep (libState {} (ops.take n)) ops[n]).2.handle = none
              have hgn := hno n
              simp only [GaveAt, libRun_get, List.getElem?_eq_getElem hlt, Option.map_some] at hgn
              generalize libState {} (ops.take n) = t at *
              cases hop : ops[n] with
              | setPath q f => cases f <;> simpa [libStep] using ihn
              | getPath => simpa [libStep] using ihn
              | get w =>
                rw [hop] at hgn
                simp only [libStep, getSecp, ihn] at hgn ⊢
                cases hl : loadHandle w t.path with
                | error e => exact ihn
                | ok x => rw [hl] at hgn; exact absurd rfl (hgn x (by omega))
          exact gen i (Nat.le_refl i)
        cases op with
        | setPath q f => cases f <;> simp [libStep] at hout
        | getPath => simp [libStep] at hout
        | get w =>
          simp only [libStep, getSecp, hnone] at hout
          cases hl : loadHandle w (libState {} (ops.take i)).path with
          | error e => rw [hl] at hout; cases hout
          | ok x =>
            rw [hl] at hout
            cases hout
            have hload : LoadedAt (libRun {} ops) i (lastSet (ops.take i)) := by
              unfold LoadedAt
              rw [libRun_get, ho]
              rw [hp] at hl
              simp [libStep, getSecp, hnone, hl, hp]
            rw [hp] at hl
            unfold loadHandle at hl
            cases hw : w.load (lastSet (ops.take i)) with
            | error e => rw [hw] at hl; cases hl
            | ok lib =>
              rw [hw] at hl
              simp only at hl
              by_cases hz : lib.hasRangeproof = true
              · rw [if_pos hz] at hl
                cases hc : w.context lib with
                | error e => rw [hc] at hl; cases hl
                | ok c =>
                  rw [hc] at hl
                  cases hl
                  exact ⟨i, Nat.le_refl i, hg, hload, ⟨w, ho, hw⟩, hno, hz.symm, rfl⟩
              · rw [if_neg hz] at hl
                cases hl
                exact ⟨i, Nat.le_refl i, hg, hload, ⟨w, ho, hw⟩, hno, by simpa using hz, rfl⟩

/-- Setting a path is refused exactly when it is not a file; reading it back gives the last
accepted one. -/
theorem C43_setPath (ops : List LibOp) (i : Nat) (p : String) (f : Bool) (h : ops[i]? = some (.setPath p f)) :
    (libRun {} ops)[i]? = some ⟨if f then .done else .raised .valueError, none⟩ := by
  rw [libRun_get, h]; cases f <;> rfl

theorem C43_getPath (ops : List LibOp) (i : Nat) (h : ops[i]? = some .getPath) :
    (libRun {} ops)[i]? = some ⟨.path (lastSet (ops.take i)), none⟩ := by
  rw [libRun_get, h]
  have : (libState {} (ops.take i)).path = lastSet (ops.take i) := by
    rw [libState_path]; cases lastSet (ops.take i) <;> rfl
  simp [libStep, this]

/-- **C43**, at most one load, as stated: no two steps of a history load a library
successfully. -/
def C43_statement : Prop :=
  ∀ (ops : List LibOp) (i j : Nat) (p q : Option String) (w v : LibWorld),
    LoadedAt (libRun {} ops) i p → LoadedAt (libRun {} ops) j q → ops[i]? = some (.get w) → ops[j]? = some (.get v) →
    (w.load p).isOk = true → (v.load q).isOk = true → i = j

/-- It fails when the library loads but creating the blinding context raises: the next
call loads again, possibly from another path. -/
theorem C43_statement_false : ¬ C43_statement := by
  intro h
  let bad : LibWorld := ⟨fun _ => .ok ⟨0, true⟩, fun _ => .error .runtimeError⟩
  have := h [.get bad, .setPath "b" true, .get bad] 0 2 none (some "b") bad bad rfl rfl rfl rfl rfl rfl
  cases this

/-- What remains true: if no request raised, at most one step loads. -/
theorem C43_single_partial (ops : List LibOp) (i j : Nat) (p q : Option String)
    (hno : ∀ k e, AsksAt ops k → (libRun {} ops)[k]?.map (·.out) ≠ some (.raised e))
    (hi : LoadedAt (libRun {} ops) i p) (hj : LoadedAt (libRun {} ops) j q) : i = j := by
  have gave : ∀ k r, LoadedAt (libRun {} ops) k r → ∃ h, GaveAt (libRun {} ops) k h := by
    intro k r hk
    have hk' := hk
    unfold LoadedAt at hk'
    rw [libRun_get] at hk'
    cases ho : ops[k]? with
    | none => rw [ho] at hk'; cases hk'
    | some op =>
      rw [ho] at hk'
      have h' : (libStep (libState {} (ops.take k)) op).1.load = some r := hk'
      cases op with
      | setPath q f => cases f <;> simp [libStep] at h'
      | getPath => simp [libStep] at h'
      | get w =>
        have hn := fun e => hno k e ⟨w, ho⟩
        simp only [libRun_get, ho, Option.map_some] at hn
        unfold GaveAt
        simp only [libRun_get, ho, Option.map_some]
        simp only [libStep, getSecp] at hn ⊢
        cases hh : (libState {} (ops.take k)).handle with
        | some x => exact ⟨x, rfl⟩
        | none =>
          rw [hh] at hn
          cases hl : loadHandle w (libState {} (ops.take k)).path with
          | error e => rw [hl] at hn; exact absurd rfl (hn e)
          | ok x => exact ⟨x, rfl⟩
  rcases Nat.lt_trichotomy i j with hlt | heq | hgt
  · obtain ⟨h, hh⟩ := gave i p hi
    exact absurd hj ((C43_once ops i j h hlt hh).2 q)
  · exact heq
  · obtain ⟨h, hh⟩ := gave j q hj
    exact absurd hi ((C43_once ops j i h hgt hh).2 p)

/-- A history with a refused path, two accepted ones, a failed load, and settings after the
load. -/
example :
    let w : LibWorld := ⟨fun p => if p = some "b" then .ok ⟨7, true⟩ else .error .runtimeError, fun _ => .ok 3⟩
    let ops := [LibOp.setPath "a" true, .get w, .setPath "b" true, .setPath "c" false, .get w, .setPath "d" true, .get w, .getPath]
    GaveAt (libRun {} ops) 4 ⟨⟨7, true⟩, true, some 3⟩ ∧ LoadedAt (libRun {} ops) 1 (some "a") ∧
      LoadedAt (libRun {} ops) 4 (some "b") ∧ GaveAt (libRun {} ops) 6 ⟨⟨7, true⟩, true, some 3⟩ ∧
      lastSet (ops.take 7) = some "d" := by
  refine ⟨?_, ?_, ?_, ?_, ?_⟩ <;> first | (unfold GaveAt; decide) | (unfold LoadedAt; decide) | decide

end Verif
