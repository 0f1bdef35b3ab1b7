import Verif.Results
import Verif.BlindChecks
import Verif.Spec.Unblind
import Verif.Props.Unblind
/-
C44: the layout of arrays for the native library.  C45: result objects.
-/
namespace Verif

/-! ### C44 -/

/-- What the native library reads as item `i` of an array of items of `len` bytes. -/
def itemAt (buf : Bytes) (len i : Nat) : Bytes := (buf.drop (i * len)).take len

theorem flatten_length {data : List Bytes} {len : Nat} (h : ∀ d ∈ data, d.length = len) :
    data.flatten.length = len * data.length := by
  induction data with
  | nil => simp
  | cons d r ih =>
    rw [List.flatten_cons, List.length_append, ih fun x hx => h x (List.mem_cons_of_mem _ hx),
      h d (List.mem_cons_self ..), List.length_cons, Nat.mul_succ, Nat.add_comm]

theorem itemAt_flatten {data : List Bytes} {len : Nat} (h : ∀ d ∈ data, d.length = len) (i : Nat) (d : Bytes)
    (hi : data[i]? = some d) : itemAt data.flatten len i = d := by
  induction data generalizing i with
  | nil => simp at hi
  | cons x r ih =>
    have hx : x.length = len := h x (List.mem_cons_self ..)
    cases i with
    | zero =>
      simp only [List.getElem?_cons_zero, Option.some.injEq] at hi
      subst hi
      rw [itemAt, Nat.zero_mul, List.drop_zero, List.flatten_cons, ← hx, List.take_left]
    | succ i =>
      rw [List.getElem?_cons_succ] at hi
      have hr := ih (fun y hy => h y (List.mem_cons_of_mem _ hy)) i hi
      rw [itemAt, List.flatten_cons, Nat.succ_mul, Nat.add_comm, ← List.drop_drop, ← hx, List.drop_left, hx]
      exact hr

/-- **C44** (layout): for items of the expected size a returned buffer has exactly one slot
per item and slot `i` holds item `i`. -/
theorem C44_layout (data : List Bytes) (len : Nat) (b : Bytes) (h : buildAligned data len = .ok b)
    (hs : ∀ d ∈ data, d.length = len) :
    b.length = len * data.length ∧ ∀ i d, data[i]? = some d → itemAt b len i = d := by
  have hb : b = data.flatten := by
    unfold buildAligned at h
    repeat' split at h
    all_goals first | cases h; rfl | cases h
  subst hb
  exact ⟨flatten_length hs, fun i d hi => itemAt_flatten hs i d hi⟩

/-- **C44** (accepted): items of the expected size, a positive multiple of 32, are always
accepted. -/
theorem C44_accepts (data : List Bytes) (len : Nat) (h32 : len % 32 = 0) (hp : 0 < len)
    (hs : ∀ d ∈ data, d.length = len) : ∃ b, buildAligned data len = .ok b := by
  have hl := flatten_length hs
  refine ⟨data.flatten, ?_⟩
  unfold buildAligned
  rw [if_neg (by omega), if_neg (by omega), if_neg (by rw [hl]; simp), if_neg]
  rw [hl, Nat.mul_div_cancel_left _ hp]
  exact fun h => h rfl

/-- **C44** (what is refused): exactly the lists whose total length is not the expected
length times the number of items, and sizes that are not positive multiples of 32. -/
theorem C44_refuses (data : List Bytes) (len : Nat) :
    (∃ e, buildAligned data len = .error e) ↔
      len % 32 ≠ 0 ∨ len = 0 ∨ (data.map List.length).sum ≠ len * data.length := by
  have hsum : data.flatten.length = (data.map List.length).sum := by simp [List.length_flatten]
  unfold buildAligned
  rw [hsum]
  generalize (data.map List.length).sum = n
  by_cases h1 : len % 32 ≠ 0
  · rw [if_pos h1]; exact ⟨fun _ => .inl h1, fun _ => ⟨_, rfl⟩⟩
  rw [if_neg h1]
  by_cases h2 : len = 0
  · rw [if_pos h2]; exact ⟨fun _ => .inr (.inl h2), fun _ => ⟨_, rfl⟩⟩
  rw [if_neg h2]
  have hp : 0 < len := Nat.pos_of_ne_zero h2
  by_cases h3 : n % len ≠ 0
  · rw [if_pos h3]
    refine ⟨fun _ => .inr (.inr fun h => h3 ?_), fun _ => ⟨_, rfl⟩⟩
    rw [h]; simp
  rw [if_neg h3]
  have h3 : n % len = 0 := by omega
  have hn : len * (n / len) = n := by have := Nat.div_add_mod n len; omega
  by_cases h4 : n / len ≠ data.length
  · rw [if_pos h4]
    refine ⟨fun _ => .inr (.inr fun h => h4 ?_), fun _ => ⟨_, rfl⟩⟩
    rw [h, Nat.mul_div_cancel_left _ hp]
  · rw [if_neg h4]
    have h4 : n / len = data.length := by omega
    refine ⟨?_, ?_⟩
    · rintro ⟨e, he⟩; cases he
    · rintro (h | h | h)
      · exact absurd h (by omega)
      · exact absurd h h2
      · rw [h4] at hn; exact absurd hn.symm h

/-- **C44**, as stated: a returned buffer means that every item has the expected size. -/
def C44_statement : Prop :=
  ∀ (data : List Bytes) (len : Nat) (b : Bytes), buildAligned data len = .ok b → ∀ d ∈ data, d.length = len

/-- It fails: a short item followed by a long one passes, and the items are misplaced. -/
theorem C44_statement_false : ¬ C44_statement := by
  intro h
  have := h [List.replicate 31 1, List.replicate 33 2] 32 (List.replicate 31 1 ++ List.replicate 33 2) (by decide)
    (List.replicate 31 1) (by decide)
  revert this
  decide

/-- The first slot then holds a byte of the second item. -/
example : ∃ b, buildAligned [List.replicate 31 1, List.replicate 33 2] 32 = .ok b ∧
    itemAt b 32 0 ≠ List.replicate 31 1 ∧ itemAt b 32 0 = List.replicate 31 1 ++ [2] :=
  ⟨List.replicate 31 1 ++ List.replicate 33 2, by decide, by decide, by decide⟩

/-- Two items of the right size. -/
example : ∃ b, buildAligned [List.replicate 32 1, List.replicate 32 2] 32 = .ok b ∧ itemAt b 32 1 = List.replicate 32 2 :=
  ⟨List.replicate 32 1 ++ List.replicate 32 2, by decide, by decide⟩

/-! In blinding itself both arrays are made of items of the expected size. -/

/-- Filled slots have the sizes the native library expects. -/
def Targets.Sized (t : Targets) : Prop :=
  (∀ x, some x ∈ t.st → x.length = 32) ∧ ∀ g, some g ∈ t.gens → g.length = 64

theorem setAt_mem {α} {l l' : List α} {i : Nat} {x y : α} (h : setAt l i x = .ok l') (hy : y ∈ l') : y ∈ l ∨ y = x := by
  unfold setAt at h
  split at h
  · cases h; exact List.mem_or_eq_of_mem_set hy
  · cases h

theorem Targets.Sized.push {t t' : Targets} {a g b : Bytes} (ht : t.Sized) (ha : a.length = 32) (hg : g.length = 64)
    (h : t.push a g b = .ok t') : t'.Sized := by
  unfold Targets.push at h
  obtain ⟨gs, h1, h⟩ := exc_bind_ok.1 h
  obtain ⟨st, h2, h⟩ := exc_bind_ok.1 h
  cases h
  constructor
  · intro x hx
    rcases setAt_mem h2 hx with h | h
    · exact ht.1 x h
    · cases h; exact ha
  · intro x hx
    rcases setAt_mem h1 hx with h | h
    · exact ht.2 x h
    · cases h; exact hg

theorem pushIssued_sized {z : Zkp} {a : Bytes} {t t' : Targets} (ht : t.Sized) (ha : a.length = 32)
    (h : pushIssued z a t = .ok t') : t'.Sized := by
  unfold pushIssued at h
  obtain ⟨g, h1, h⟩ := exc_bind_ok.1 h
  exact ht.push ha (z.generate_len _ _ (orRuntime_ok.1 h1)) h

theorem calculateAsset_len {m : MidFn} {e a : Bytes} (h : calculateAsset m e = .ok a) : a.length = 32 := by
  unfold calculateAsset at h
  split at h
  · cases h
  · cases h; exact m.len _

theorem calculateToken_len {m : MidFn} {e a : Bytes} {c : Bool} (h : calculateReissuanceToken m e c = .ok a) :
    a.length = 32 := by
  unfold calculateReissuanceToken at h
  split at h
  · cases h
  · cases h; exact m.len _

theorem inputTargets_sized {E : Env} {A : BlindArgs} : ∀ {l : List (TxIn × Desc)} {i : Nat} {t t' : Targets} {tok : Option Bytes},
    (∀ x ∈ l, x.2.asset.length = 32) → t.Sized → (∀ k, tok = some k → k.length = 32) →
    inputTargets E A i l t tok = .ok t' → t'.Sized
  | [], i, t, t', tok, _, ht, _, h => by unfold inputTargets at h; cases h; exact ht
  | (txin, d) :: rest, i, t, t', tok, hl, ht, htok, h => by
    unfold inputTargets at h
    obtain ⟨g, hg, h⟩ := exc_bind_ok.1 h
    obtain ⟨t1, h1, h⟩ := exc_bind_ok.1 h
    obtain ⟨⟨t2, tok2⟩, h2, h⟩ := exc_bind_ok.1 h
    have hg64 : g.length = 64 := by
      unfold inputGenerator at hg
      repeat' split at hg
      all_goals first
        | (cases hg; done)
        | (rename_i hp; cases hg; exact E.z.genParse_len _ _ hp)
        | exact E.z.generateBlinded_len _ _ _ (orRuntime_ok.1 (raiseE_ok.1 hg))
    have s1 := ht.push (hl _ (List.mem_cons_self ..)) hg64 (raiseE_ok.1 h1)
    have key : t2.Sized ∧ ∀ k, tok2 = some k → k.length = 32 := by
      unfold issuanceTargets at h2
      split at h2
      · cases h2; exact ⟨s1, htok⟩
      split at h2
      · cases h2
      split at h2
      · cases h2
      obtain ⟨⟨a, tok3⟩, ha, h2⟩ := exc_bind_ok.1 h2
      have ha := raiseE_ok.1 ha
      have hids : a.length = 32 ∧ ∀ k, tok3 = some k → k.length = 32 := by
        unfold issuedAsset at ha
        split at ha
        · obtain ⟨e, -, ha⟩ := exc_bind_ok.1 ha
          obtain ⟨x, hx, ha⟩ := exc_bind_ok.1 ha
          obtain ⟨y, hy, ha⟩ := exc_bind_ok.1 ha
          cases ha
          exact ⟨calculateAsset_len hx, fun k hk => by cases hk; exact calculateToken_len hy⟩
        · obtain ⟨x, hx, ha⟩ := exc_bind_ok.1 ha
          cases ha
          exact ⟨calculateAsset_len hx, htok⟩
      obtain ⟨u, hu, h2⟩ := exc_bind_ok.1 h2
      obtain ⟨v, hv, h2⟩ := exc_bind_ok.1 h2
      cases h2
      have hu := raiseE_ok.1 hu
      have hv := raiseE_ok.1 hv
      have su : u.Sized := by
        split at hu
        · cases hu; exact s1
        · exact pushIssued_sized s1 hids.1 hu
      refine ⟨?_, hids.2⟩
      split at hv
      · cases hv; exact su
      · unfold pushToken at hv
        split at hv
        · cases hv
        · split at hv
          · cases hv
          · exact pushIssued_sized su (hids.2 _ rfl) hv
    exact inputTargets_sized (fun x hx => hl x (List.mem_cons_of_mem _ hx)) key.1 key.2 h

theorem auxTargets_sized {z : Zkp} : ∀ {k : Nat} {l : List Bytes} {t t' : Targets}, t.Sized → auxTargets z k l t = .ok t' → t'.Sized
  | _, [], t, t', ht, h => by unfold auxTargets at h; cases h; exact ht
  | _, ag :: rest, t, t', ht, h => by
    unfold auxTargets at h
    split at h
    · cases h
    · rename_i g hg
      obtain ⟨t1, h1, h⟩ := exc_bind_ok.1 h
      exact auxTargets_sized (ht.push rfl (z.genParse_len _ _ hg) (raiseE_ok.1 h1)) h

theorem filled_mem : ∀ {l : List (Option Bytes)} {r : List Bytes}, filled l = .ok r → ∀ x ∈ r, some x ∈ l
  | [], r, h, x, hx => by cases h; cases hx
  | none :: _, r, h, x, hx => by cases h
  | some y :: l, r, h, x, hx => by
    unfold filled at h
    obtain ⟨r', h1, h⟩ := exc_bind_ok.1 h
    cases h
    rcases List.mem_cons.1 hx with rfl | hx
    · exact List.mem_cons_self ..
    · exact List.mem_cons_of_mem _ (filled_mem h1 x hx)

/-- **C44** (in blinding): when the spent assets are 32 bytes, as `CAsset` guarantees, the two
arrays built for surjection proofs consist of items of the expected size, so they are
accepted and laid out item by item. -/
theorem C44_in_blinding (E : Env) (A : BlindArgs) (tx : Tx) (T : TargetLists) (hd : ∀ d ∈ A.descs, d.asset.length = 32)
    (h : surjTargets E A tx = .ok T) :
    (∃ b, buildAligned T.targets 32 = .ok b ∧ b.length = 32 * T.targets.length ∧
      ∀ i d, T.targets[i]? = some d → itemAt b 32 i = d) ∧
    (∃ b, buildAligned T.gens 64 = .ok b ∧ b.length = 64 * T.gens.length ∧
      ∀ i d, T.gens[i]? = some d → itemAt b 64 i = d) := by
  unfold surjTargets at h
  obtain ⟨t1, h1, h⟩ := exc_bind_ok.1 h
  obtain ⟨t2, h2, h⟩ := exc_bind_ok.1 h
  have h := raiseE_ok.1 h
  have s1 : t1.Sized := inputTargets_sized (fun x hx => hd x.2 (List.of_mem_zip hx).2)
    ⟨fun x hx => (by have := List.eq_of_mem_replicate hx; cases this),
     fun x hx => (by have := List.eq_of_mem_replicate hx; cases this)⟩ (fun k hk => by cases hk) h1
  have s2 := auxTargets_sized s1 h2
  have sizes : (∀ x ∈ T.targets, x.length = 32) ∧ ∀ g ∈ T.gens, g.length = 64 := by
    unfold trimTargets at h
    dsimp only at h
    split at h
    · cases h
    split at h
    · cases h
    split at h
    · cases h
    obtain ⟨st, hst, h⟩ := exc_bind_ok.1 h
    obtain ⟨gs, hgs, h⟩ := exc_bind_ok.1 h
    cases h
    exact ⟨fun x hx => s2.1 x (List.mem_of_mem_take (filled_mem hst x hx)),
      fun x hx => s2.2 x (List.mem_of_mem_take (filled_mem hgs x hx))⟩
  obtain ⟨b, hb⟩ := C44_accepts T.targets 32 (by decide) (by decide) sizes.1
  obtain ⟨c, hc⟩ := C44_accepts T.gens 64 (by decide) (by decide) sizes.2
  exact ⟨⟨b, hb, C44_layout _ _ _ hb sizes.1⟩, ⟨c, hc, C44_layout _ _ _ hc sizes.2⟩⟩

/-! ### C45 -/

theorem strTruth_iff (s : String) : strTruth s = true ↔ s ≠ "" := by
  unfold strTruth
  simp [bne_iff_ne, String.length_eq_zero_iff]

/-- The objects that the constructors of the four classes return. -/
inductive Made : ResultObj → Prop
  | blindingFailure {m r} : blindingFailureNew m = .ok r → Made r
  | unblindingFailure {m r} : unblindingFailureNew m = .ok r → Made r
  | blindingSuccess {n bf abf r} : blindingSuccessNew n bf abf = .ok r → Made r
  | unblindingSuccess {a n bf abf r} : unblindingSuccessNew a n bf abf = .ok r → Made r

/-- An object of one of the two failure classes. -/
def ResultObj.IsFailure (r : ResultObj) : Prop := (∃ m, r = .blindingFailure m) ∨ ∃ m, r = .unblindingFailure m

theorem failureInit_ok {a : PyArg} {m : String} : failureInit a = .ok m ↔ a = .str m ∧ m ≠ "" := by
  cases a with
  | other => simp [failureInit]
  | str s =>
    unfold failureInit
    by_cases h : strTruth s = true
    · simp only [h, if_true, Except.ok.injEq, PyArg.str.injEq]
      exact ⟨fun e => ⟨e, e ▸ (strTruth_iff s).1 h⟩, fun e => e.1⟩
    · simp only [h, if_false, PyArg.str.injEq, reduceCtorEq, false_iff, not_and, Decidable.not_not, Bool.false_eq_true]
      intro e
      rw [strTruth_iff] at h
      exact e ▸ Decidable.not_not.1 h

/-- **C45** (ok): `ok` is true exactly when `error` is the empty string. -/
theorem C45_ok (r : ResultObj) : r.ok = true ↔ r.error = "" := by
  unfold ResultObj.ok
  by_cases h : strTruth r.error = true
  · simp [h, (strTruth_iff _).1 h]
  · have := mt (strTruth_iff r.error).2 h
    rw [if_neg h]
    simp [Decidable.not_not.1 this]

/-- **C45** (classes): among constructed objects the failures are exactly those that are not
`ok`, and they carry a non-empty message. -/
theorem C45_class (r : ResultObj) (h : Made r) : (r.IsFailure ↔ r.ok = false) ∧ (r.IsFailure → r.error ≠ "") := by
  have hsucc : ∀ r : ResultObj, ¬ r.IsFailure → r.error = "" := by
    intro r hr
    cases r with
    | blindingFailure m => exact absurd (.inl ⟨m, rfl⟩) hr
    | unblindingFailure m => exact absurd (.inr ⟨m, rfl⟩) hr
    | blindingSuccess => rfl
    | unblindingSuccess => rfl
  have hfail : r.IsFailure → r.error ≠ "" := by
    rintro (⟨m, rfl⟩ | ⟨m, rfl⟩)
    · cases h with
      | @blindingFailure a _ h =>
        unfold blindingFailureNew at h
        cases hf : failureInit a with
        | error e => rw [hf] at h; cases h
        | ok x => rw [hf] at h; cases h; exact (failureInit_ok.1 hf).2
      | @unblindingFailure a _ h =>
        unfold unblindingFailureNew at h
        cases hf : failureInit a with
        | error e => rw [hf] at h; cases h
        | ok x => rw [hf] at h; cases h
      | blindingSuccess h => cases h
      | unblindingSuccess h => unfold unblindingSuccessNew at h; split at h <;> cases h
    · cases h with
      | @unblindingFailure a _ h =>
        unfold unblindingFailureNew at h
        cases hf : failureInit a with
        | error e => rw [hf] at h; cases h
        | ok x => rw [hf] at h; cases h; exact (failureInit_ok.1 hf).2
      | @blindingFailure a _ h =>
        unfold blindingFailureNew at h
        cases hf : failureInit a with
        | error e => rw [hf] at h; cases h
        | ok x => rw [hf] at h; cases h
      | blindingSuccess h => cases h
      | unblindingSuccess h => unfold unblindingSuccessNew at h; split at h <;> cases h
  refine ⟨⟨fun hf => ?_, fun ho => ?_⟩, hfail⟩
  · rw [← Bool.not_eq_true, C45_ok]; exact hfail hf
  · refine Classical.byContradiction fun hn => ?_
    rw [(C45_ok r).2 (hsucc r hn)] at ho
    cases ho

/-- **C45** (constructors): a failure can be made of every non-empty string and of nothing
else. -/
theorem C45_failure_new (a : PyArg) :
    ((∃ r, blindingFailureNew a = .ok r) ↔ ∃ m, a = .str m ∧ m ≠ "") ∧
    ((∃ r, unblindingFailureNew a = .ok r) ↔ ∃ m, a = .str m ∧ m ≠ "") := by
  unfold blindingFailureNew unblindingFailureNew
  cases hf : failureInit a with
  | error e =>
    have : ¬ ∃ m, a = .str m ∧ m ≠ "" := by
      rintro ⟨m, hm⟩; rw [failureInit_ok.2 hm] at hf; cases hf
    simp [Except.map, this]
  | ok m => simp [Except.map]; exact ⟨m, failureInit_ok.1 hf⟩

/-- **C45** (constructors): successes keep what they are given; an unblinded amount has to be in range, so
negative ones are refused too. -/
theorem C45_success_new (asset : Bytes) (amount : Int) (bf abf : Bytes) (r : ResultObj) :
    (unblindingSuccessNew asset amount bf abf = .ok r ↔
      (0 ≤ amount ∧ amount ≤ 21 * 10 ^ 14) ∧ r = .unblindingSuccess asset amount bf abf) ∧
    ∀ num bfs abfs, blindingSuccessNew num bfs abfs = .ok r ↔ r = .blindingSuccess num bfs abfs := by
  refine ⟨?_, fun num bfs abfs => ?_⟩
  · have hm : moneyRangeInt amount = true ↔ 0 ≤ amount ∧ amount ≤ 21 * 10 ^ 14 := by
      simp [moneyRangeInt]
    unfold unblindingSuccessNew
    by_cases h : moneyRangeInt amount = true
    · rw [if_pos h]
      simp only [Except.ok.injEq, hm.1 h, true_and, and_self, eq_comm]
    · rw [if_neg h]
      exact ⟨(fun e => by cases e), fun e => absurd (hm.2 e.1) h⟩
  · unfold blindingSuccessNew
    simp only [Except.ok.injEq, eq_comm]

example : unblindingSuccessNew [] (-1) [] [] = .error .assertion := by decide
example : ∃ r, unblindingSuccessNew [] 2100000000000000 [] [] = .ok r := ⟨_, ((C45_success_new _ _ _ _ _).1).2 ⟨by decide, rfl⟩⟩

/-- **C45** (bool): using any result as a truth value raises `TypeError`. -/
theorem C45_bool (r : ResultObj) : r.truth = .error .typeError := rfl

/-- Failures returned by a computation have a text. -/
def Talks {α} (x : Except Stop α) : Prop := ∀ m, x = .error (.ret (.failure m)) → m ≠ ""

theorem Talks.ok {α} (a : α) : Talks (.ok a : Except Stop α) := fun _ h => nomatch h
theorem Talks.failure {α} (m : String) (h : m ≠ "") : Talks (.error (.ret (.failure m)) : Except Stop α) :=
  fun _ e => by cases e; exact h
theorem Talks.raised {α} (e : PyErr) : Talks (.error (.raise e) : Except Stop α) := fun _ h => by cases h
theorem Talks.raiseE {α} (x : Except PyErr α) : Talks (raiseE x) := by
  cases x <;> intro m h <;> simp [Verif.raiseE, Except.mapError] at h
theorem Talks.bind {α β} {x : Except Stop α} {f : α → Except Stop β} (hx : Talks x) (hf : ∀ a, Talks (f a)) :
    Talks (x >>= f) := by
  intro m h
  rcases exc_bind_error.1 h with h | ⟨y, _, h⟩
  · exact hx m h
  · exact hf y m h

theorem talks_inputTargets (E : Env) (A : BlindArgs) : ∀ l i t tok, Talks (inputTargets E A i l t tok)
  | [], _, _, _ => .ok _
  | (txin, d) :: rest, i, t, tok => by
    unfold inputTargets
    refine .bind ?_ fun g => .bind (.raiseE _) fun t => .bind ?_ fun p => ?_
    · unfold inputGenerator
      repeat' split
      all_goals first | exact .raised _ | exact .ok _ | exact .raiseE _ | exact .failure _ (by simp)
    · unfold issuanceTargets
      split
      · exact .ok _
      · split
        · exact .failure _ (by decide)
        · split
          · exact .failure _ (by decide)
          · refine .bind (.raiseE _) fun q => ?_
            obtain ⟨a, tk⟩ := q
            exact .bind (.raiseE _) fun t => .bind (.raiseE _) fun t => .ok _
    · obtain ⟨t, tok⟩ := p
      exact talks_inputTargets E A rest _ _ _

theorem talks_auxTargets (z : Zkp) : ∀ n l t, Talks (auxTargets z n l t)
  | _, [], _ => .ok _
  | n, ag :: rest, t => by
    unfold auxTargets
    split
    · exact .failure _ (by simp)
    · exact .bind (.raiseE _) fun t => talks_auxTargets z (n + 1) rest t

theorem talks_countInputs (A : BlindArgs) (w : List TxInWitness) : ∀ l i c, Talks (countInputs A w i l c)
  | [], _, _ => .ok _
  | (txin, d) :: rest, i, c => by
    have h1 : ∀ i d c, Talks (countBlinded i d c) := by
      intro i d c; unfold countBlinded
      repeat' split
      all_goals first | exact .ok _ | exact .failure _ (by simp)
    have h2 : ∀ i b k v p c, Talks (countIssuance i b k v p c) := by
      intro i b k v p c; unfold countIssuance
      repeat' split
      all_goals first | exact .ok _ | exact .failure _ (by unfold notExplicit; split <;> simp) | exact .failure _ (by cases b <;> decide)
    unfold countInputs
    refine .bind (h1 _ _ _) fun c => ?_
    dsimp only
    split
    · exact .bind (.ok _) fun c => talks_countInputs A w rest _ _
    · exact .bind (h2 _ _ _ _ _ _) fun c => .bind (h2 _ _ _ _ _ _) fun c => talks_countInputs A w rest _ _

theorem talks_countOutputs (z : Zkp) (tx : Tx) : ∀ l j c, Talks (countOutputs z tx j l c)
  | [], _, _ => .ok _
  | pk :: rest, j, c => by
    unfold countOutputs
    refine .bind ?_ fun c => talks_countOutputs z tx rest _ _
    unfold countOutput validKeyFor
    repeat' split
    all_goals first | exact .ok _ | exact .failure _ (by simp)

theorem talks_checks (E : Env) (A : BlindArgs) (tx : Tx) : Talks (checks E A tx) := by
  unfold checks surjTargets
  exact .bind (.raiseE _) fun _ =>
    .bind (.bind (talks_inputTargets _ _ _ _ _ _) fun _ => .bind (talks_auxTargets _ _ _ _) fun _ => .raiseE _)
      fun _ => .bind (talks_countInputs _ _ _ _ _) fun _ => .bind (talks_countOutputs _ _ _ _ _) fun _ => .ok _

/-- The same for the blinding loops. -/
def BTalks {α} (x : BM α) : Prop := ∀ s, Talks (x s).1

theorem BTalks.pure {α} (a : α) : BTalks (Pure.pure a : BM α) := fun _ => .ok _
theorem BTalks.get : BTalks BM.get := fun _ => .ok _
theorem BTalks.modify (f) : BTalks (BM.modify f) := fun _ => .ok _
theorem BTalks.modifyTx (f) : BTalks (BM.modifyTx f) := fun _ => .ok _
theorem BTalks.lift {α} (x : Except PyErr α) : BTalks (BM.lift x) := fun _ => .raiseE x
theorem BTalks.rand (A) : BTalks (BM.rand A) := fun _ => .ok _
theorem BTalks.bind {α β} {x : BM α} {f : α → BM β} (hx : BTalks x) (hf : ∀ a, BTalks (f a)) : BTalks (x >>= f) := by
  intro s m h
  have hx := hx s
  change (match x s with | (.ok a, s) => f a s | (.error e, s) => (.error e, s) : Except Stop β × BS).1 = _ at h
  generalize hr : x s = r at h hx
  obtain ⟨r, s'⟩ := r
  cases r with
  | ok a => exact hf a s' m h
  | error e => cases h; exact hx m rfl
theorem BTalks.finish {α} (C : Ctx) : BTalks (BM.finish C : BM α) := by
  refine .bind .get fun s => ?_
  intro s' m h
  cases hb : blindingResult C s with
  | success a b c => simp [BM.stop, hb] at h
  | failure m' =>
    simp only [BM.stop, hb, Except.error.injEq, Stop.ret.injEq, BlindResult.failure.injEq] at h
    subst h
    unfold blindingResult at hb
    split at hb
    · cases hb; simp
    · cases hb

theorem btalks_issuanceStep (C : Ctx) (i : Nat) (token : Bool) : BTalks (issuanceStep C i token) := by
  unfold issuanceStep
  split
  · exact .pure _
  · unfold issuancePseudo
    refine .bind (.modify _) fun _ => .bind .get fun s => ?_
    dsimp only
    generalize (if token = true then (s.tx.vin.getD i default).assetIssuance.nInflationKeys
      else (s.tx.vin.getD i default).assetIssuance.nAmount) = v
    split
    · exact .pure _
    · refine .bind (.lift _) fun amount => .bind (.modify _) fun _ => .bind (.lift _) fun o => ?_
      split
      · exact .pure _
      · refine .bind (.rand _) fun r => .bind (.lift _) fun b => .bind (.modify _) fun _ => .bind .get fun s => ?_
        split
        · exact .finish C
        · unfold blindPseudo
          refine .bind (.modifyTx _) fun _ => .bind (.lift _) fun p => ?_
          obtain ⟨_, gen⟩ := p
          refine .bind (.lift _) fun p => ?_
          obtain ⟨cv, cm⟩ := p
          exact .bind .get fun s => .bind (.modifyTx _) fun _ => .bind (.lift _) fun _ => .bind (.lift _) fun _ =>
            .bind (.modifyTx _) fun _ => .modify _

theorem btalks_issuanceLoop (C : Ctx) : ∀ n i, BTalks (issuanceLoop C i n)
  | 0, _ => .pure _
  | n + 1, i => .bind (btalks_issuanceStep C i false) fun _ => .bind (btalks_issuanceStep C i true) fun _ =>
      btalks_issuanceLoop C n (i + 1)

theorem btalks_balanceIfLast (C : Ctx) : BTalks (balanceIfLast C) := by
  unfold balanceIfLast
  refine .bind .get fun s => ?_
  split
  · unfold balance
    refine .bind .get fun s => ?_
    split
    · exact .finish C
    · split
      · exact .lift _
      · split
        · exact .lift _
        · refine .bind (.lift _) fun last => .bind (.modify _) fun _ => ?_
          split
          · exact .bind (.modify _) fun _ => .finish C
          · exact .pure _
  · exact .pure _

theorem btalks_outputStep (C : Ctx) (j : Nat) (pk : Bytes) : BTalks (outputStep C j pk) := by
  unfold outputStep
  split
  · unfold outputBlind
    refine .bind (.modify _) fun _ => .bind .get fun s => .bind (.lift _) fun _ => .bind (.lift _) fun _ =>
      .bind (.modify _) fun _ => .bind (.rand _) fun _ => .bind (.lift _) fun _ => .bind (.modify _) fun _ =>
      .bind (.rand _) fun _ => .bind (.lift _) fun _ => .bind (.modify _) fun _ =>
      .bind (btalks_balanceIfLast C) fun _ => .bind .get fun s => ?_
    unfold commitOutput
    refine .bind (.modify _) fun _ => .bind (.lift _) fun p => ?_
    obtain ⟨ca, gen⟩ := p
    refine .bind (.modifyTx _) fun _ => .bind (.lift _) fun p => ?_
    obtain ⟨cv, cm⟩ := p
    refine .bind (.modifyTx _) fun _ => .bind (.rand _) fun _ => .bind (.lift _) fun p => ?_
    obtain ⟨nonce, eph⟩ := p
    refine .bind (.lift _) fun _ => .bind (.modifyTx _) fun _ => .bind (.lift _) fun _ => .bind (.rand _) fun _ =>
      .bind (.lift _) fun o => ?_
    split
    · exact .pure _
    · split
      · exact .pure _
      · exact .bind (.modifyTx _) fun _ => .modify _
  · exact .pure _

theorem btalks_outputLoop (C : Ctx) : ∀ l j, BTalks (outputLoop C j l)
  | [], _ => .pure _
  | pk :: rest, j => .bind (btalks_outputStep C j pk) fun _ => btalks_outputLoop C rest (j + 1)

/-- Every failure that blinding returns has a message. -/
theorem blind_failure_text (E : Env) (A : BlindArgs) (tx : Tx) (m : String)
    (h : (blindTransaction E A tx).1 = .ok (.failure m)) : m ≠ "" := by
  have hc := talks_checks E A tx
  unfold blindTransaction at h
  cases hk : checks E A tx with
  | error e =>
    rw [hk] at h hc
    cases e with
    | raise e => cases h
    | ret r => cases h; exact hc m rfl
  | ok p =>
    obtain ⟨T, c⟩ := p
    rw [hk] at h
    simp only at h
    have hb : BTalks (blindBody ⟨E, A, T, c.nBlindsIn, c.nToBlind⟩ tx.vin.length) :=
      .bind (btalks_issuanceLoop _ _ _) fun _ => .bind (.modifyTx _) fun _ => .bind (btalks_outputLoop _ _ _) fun _ => .finish _
    have hb := hb (startState tx c)
    generalize (blindBody ⟨E, A, T, c.nBlindsIn, c.nToBlind⟩ tx.vin.length (startState tx c)).1 = r at h hb
    cases r with
    | ok u => cases h
    | error e =>
      cases e with
      | raise e => cases h
      | ret r => cases h; exact hb m rfl

/-- **C45** (blinding): whatever blinding returns is a result object whose constructor
accepts its arguments; it is `ok` exactly when it is a success. -/
theorem C45_blind (E : Env) (A : BlindArgs) (tx : Tx) (r : BlindResult) (h : (blindTransaction E A tx).1 = .ok r) :
    ∃ o, r.obj = .ok o ∧ Made o ∧ (o.ok = true ↔ ∃ n bf abf, r = .success n bf abf) := by
  cases r with
  | success n bf abf =>
    exact ⟨.blindingSuccess n bf abf, rfl, .blindingSuccess rfl, fun _ => ⟨n, bf, abf, rfl⟩, fun _ => rfl⟩
  | failure m =>
    have hm := blind_failure_text E A tx m h
    have ho : blindingFailureNew (.str m) = .ok (.blindingFailure m) := by
      unfold blindingFailureNew; rw [failureInit_ok.2 ⟨rfl, hm⟩]; rfl
    refine ⟨_, ho, .blindingFailure ho, fun hk => absurd ((C45_ok _).1 hk) hm, ?_⟩
    rintro ⟨n, bf, abf, hh⟩; cases hh

theorem unblind_failure_text (E : Env) (key cv ca cn script proof : Bytes) (m : String)
    (h : unblind E key cv ca cn script proof = .ok (.failure m)) : m ≠ "" := by
  unfold unblind at h
  split at h
  · cases h; decide
  obtain ⟨o, -, h⟩ := exc_bind_ok.1 h
  cases o with
  | none => cases h; decide
  | some p =>
    obtain ⟨nonce, scr⟩ := p
    simp only [unblindWith] at h
    split at h
    · cases h; decide
    obtain ⟨g, -, h⟩ := exc_bind_ok.1 h
    cases g with
    | none => cases h; unfold noGenerator; split <;> decide
    | some g =>
      simp only [unblindRewind] at h
      split at h
      · cases h; decide
      split at h
      · cases h; decide
      unfold unblindCheck at h
      split at h
      · cases h; decide
      split at h
      · cases h; decide
      split at h
      · cases h; decide
      unfold unblindFinish at h
      obtain ⟨a, -, h⟩ := exc_bind_ok.1 h
      obtain ⟨b, -, h⟩ := exc_bind_ok.1 h
      split at h
      · cases h; decide
      · obtain ⟨_, -, h⟩ := exc_bind_ok.1 h
        obtain ⟨_, -, h⟩ := exc_bind_ok.1 h
        obtain ⟨_, -, h⟩ := exc_bind_ok.1 h
        cases h

/-- **C45** (unblinding): the same for unblinding; in particular the range check in the
constructor of a success never fails. -/
theorem C45_unblind (E : Env) (key cv ca cn script proof : Bytes) (r : UnblindResult)
    (h : unblind E key cv ca cn script proof = .ok r) :
    ∃ o, r.obj = .ok o ∧ Made o ∧ (o.ok = true ↔ ∃ a n bf abf, r = .success a n bf abf) := by
  cases r with
  | success a n bf abf =>
    have hn := ((C37_success_iff ..).1 h).money
    have ho : unblindingSuccessNew a n bf abf = .ok (.unblindingSuccess a n bf abf) := by
      unfold unblindingSuccessNew
      rw [if_pos]
      simp only [moneyRangeInt, Bool.and_eq_true, decide_eq_true_eq]
      omega
    exact ⟨_, ho, .unblindingSuccess ho, fun _ => ⟨a, n, bf, abf, rfl⟩, fun _ => rfl⟩
  | failure m =>
    have hm := unblind_failure_text E key cv ca cn script proof m h
    have ho : unblindingFailureNew (.str m) = .ok (.unblindingFailure m) := by
      unfold unblindingFailureNew; rw [failureInit_ok.2 ⟨rfl, hm⟩]; rfl
    refine ⟨_, ho, .unblindingFailure ho, fun hk => absurd ((C45_ok _).1 hk) hm, ?_⟩
    rintro ⟨a, n, bf, abf, hh⟩; cases hh

/-- Objects of both kinds. -/
example : Made (.blindingFailure "output is a fee output") ∧ Made (.unblindingSuccess (List.replicate 32 1) 5 zero32 zero32) ∧
    unblindingSuccessNew [] (-1) [] [] = .error .assertion ∧ blindingFailureNew (.str "") = .error .assertion ∧
    (ResultObj.blindingFailure "output is a fee output").ok = false :=
  ⟨.blindingFailure (m := .str "output is a fee output") (by decide),
    .unblindingSuccess (a := List.replicate 32 1) (n := 5) (bf := zero32) (abf := zero32) (by decide), by decide, by decide, by decide⟩

end Verif
