import Verif.Spec.Ffi
/-
C91: calls of the native library are made as its prototypes say, and are about the values the rest of the model hands over.
-/
namespace Verif.Ffi
open Spec.Ffi

/-! ### Declarations -/

/-- The declared argument types are those of the prototypes: as many, and each the parameter at its place. -/
theorem C91_declared (f : Fn) : FitsAll (argtypes f) (params f) := by
  cases f <;> simp [argtypes, params, FitsAll, Fits]

/-- What is claimed of the results. -/
def C91_results_statement : Prop := ∀ f, FitsRet (restype f) (ret f)

/-- `secp256k1_surjectionproof_serialized_size` returns `size_t`, and is declared to return `c_int`. -/
theorem C91_results_statement_false : ¬ C91_results_statement := fun h => by simpa [restype, ret, FitsRet] using h .surjSize

/-- It is the only one. -/
theorem C91_results_partial (f : Fn) (h : f ≠ .surjSize) : FitsRet (restype f) (ret f) := by
  cases f <;> simp_all [restype, ret, FitsRet]

/-- The size comes back as it is, if it is smaller than 2³¹; else another number comes back. -/
theorem C91_size (n : Nat) : result .surjSize n = some (n : Int) ↔ n < 2 ^ 31 := by
  unfold result restype untwos
  simp only [Option.some.injEq]
  constructor
  · intro h
    split at h <;> omega
  · intro h
    rw [if_pos (by omega)]
    omega

/-! ### Conversions -/

theorem twos_nat {k n : Nat} (h : n < 256 ^ k) : twos k (n : Int) = n := by
  unfold twos
  rw [Int.emod_eq_of_lt (by omega) (by exact_mod_cast h)]
  omega

theorem twos8_nat {n : Nat} (h : small n) : twos 8 (n : Int) = n := by
  unfold small at h
  exact twos_nat (by omega)

theorem inRangeS4 (v : Int) : inRangeS 4 v ↔ -2 ^ 31 ≤ v ∧ v < 2 ^ 31 := by
  unfold inRangeS
  constructor <;> intro h <;> constructor <;> omega

theorem untwos4_iff (v : Int) : untwos 4 (twos 4 v) = v ↔ -2 ^ 31 ≤ v ∧ v < 2 ^ 31 := by
  rw [← inRangeS4]
  exact ⟨fun h => h ▸ untwos_inRange (twos_lt 4 v), untwos_twos⟩

theorem untwos_mod (v : Int) : ∃ k : Int, untwos 4 (twos 4 v) = v + k * 2 ^ 32 := by
  have h0 : (0 : Int) ≤ v % (256 ^ 4 : Nat) := Int.emod_nonneg _ (by decide)
  have h1 := Int.emod_add_mul_ediv v (256 ^ 4 : Nat)
  unfold untwos twos
  split
  · exact ⟨-(v / (256 ^ 4 : Nat)), by omega⟩
  · exact ⟨-(v / (256 ^ 4 : Nat)) - 1, by omega⟩

theorem peek_all {b : Bytes} {n : Nat} {w : Bool} (h : b.length = n) : peek n (.mem b w) = some b := by
  unfold peek
  subst h
  simp

theorem room_fresh (n : Nat) : Room n (.mem (List.replicate n 0) true) := by simp [Room]

theorem readOpt_script (script : Bytes) :
    (simple .charp (scriptArg script)).bind (readOpt script.length) = some (if script.length = 0 then none else some script) := by
  unfold scriptArg
  split
  · simp [simple, readOpt, *]
  · simp [simple, readOpt, peek]

/-! ### Calls -/

theorem mapM_map {α β γ} {f : α → β} {g : β → Option γ} (k : α → γ) (l : List α) (h : ∀ a, g (f a) = some (k a)) :
    (l.map f).mapM g = some (l.map k) := by
  induction l with
  | nil => rfl
  | cons a l ih => simp [List.mapM_cons, h, ih]

theorem mapM_peek {w : Bool} {l : List Bytes} (h : ∀ b ∈ l, b.length = 32) : (l.map fun b => CArg.mem b w).mapM (peek 32) = some l := by
  induction l with
  | nil => rfl
  | cons a l ih =>
    simp only [List.mem_cons, forall_eq_or_imp] at h
    simp [List.mapM_cons, ih h.2, peek_all h.1]

theorem convert_blindSum (amounts : List Int) (assetblinds blinds : List Bytes) (total inputs : Nat) :
    convert .blindSum (Site.blindSum amounts assetblinds blinds total inputs).args =
      .ok [.obj .context, .vec (amounts.map fun v => .num (twos 8 v)), .vec (assetblinds.map fun b => .mem b false),
        .vec (blinds.dropLast.map (fun b => .mem b false) ++ [CArg.mem (blinds.getLastD []) true]), .num (twos 8 total), .num (twos 8 inputs)] := by
  have e1 : (amounts.map PyArg.int).mapM (simple .u64) = some (amounts.map fun v => .num (twos 8 v)) := mapM_map _ _ (fun _ => rfl)
  have e2 : ∀ l : List Bytes, (l.map PyArg.bytes).mapM (simple .charp) = some (l.map fun b => .mem b false) := fun _ => mapM_map _ _ (fun _ => rfl)
  have e3 : (blinds.dropLast.map PyArg.bytes ++ [PyArg.buffer (blinds.getLastD [])]).mapM (simple .charp) =
      some (blinds.dropLast.map (fun b => .mem b false) ++ [CArg.mem (blinds.getLastD []) true]) := by
    rw [List.mapM_append, e2]
    rfl
  simp only [Site.args, convert, argtypes, convertFrom, fromParam, ctx, e1, e2, e3, simple, Except.map, if_true, Option.map_some]
  rfl

theorem reaches_blindSum {amounts : List Int} {assetblinds blinds : List Bytes} {total inputs : Nat}
    (h : Typed (.blindSum amounts assetblinds blinds total inputs)) : Reaches (.blindSum amounts assetblinds blinds total inputs) := by
  obtain ⟨h1, h2, h3, h4, h5, h6, h7⟩ := h
  refine ⟨_, convert_blindSum _ _ _ _ _, ?_⟩
  have hne : blinds ≠ [] := by
    intro e
    subst e
    simp at h3
    omega
  have e0 : small inputs := by unfold small at *; omega
  have e1 : (amounts.map fun v => CArg.num (twos 8 v)).mapM num = some (amounts.map (twos 8)) := mapM_map _ _ (fun _ => rfl)
  have e2 := mapM_peek (w := false) h6
  have e3 : (blinds.dropLast.map (fun b => CArg.mem b false) ++ [CArg.mem (blinds.getLastD []) true]).mapM (peek 32) = some blinds := by
    rw [List.mapM_append, mapM_peek (fun b hb => h7 b (List.dropLast_subset _ hb))]
    have hl : blinds.getLastD [] = blinds.getLast hne := by
      rw [List.getLastD_eq_getLast?, List.getLast?_eq_some_getLast hne]
      rfl
    rw [hl]
    have := peek_all (w := true) (h7 _ (List.getLast_mem hne))
    simp [List.mapM_cons, this, List.dropLast_concat_getLast]
  have e4 : Room 32 (.mem (blinds.getLastD []) true) := by
    have hl : blinds.getLastD [] = blinds.getLast hne := by
      rw [List.getLastD_eq_getLast?, List.getLast?_eq_some_getLast hne]
      rfl
    rw [hl]
    exact ⟨Nat.le_of_eq (h7 _ (List.getLast_mem hne)).symm, rfl⟩
  have l1 : (amounts.map fun v => CArg.num (twos 8 v)).length = total := by simp [h1]
  have l2 : (assetblinds.map fun b => CArg.mem b false).length = total := by simp [h2]
  have l3 : (blinds.dropLast.map (fun b => CArg.mem b false) ++ [CArg.mem (blinds.getLastD []) true]).length = total := by
    simp [h3]
    omega
  have hi : ∀ l : List CArg, l.length = total → items total (.vec l) = some l := by
    intro l hl
    unfold items
    subst hl
    simp
  simp only [Site.fn, seen, twos8_nat h5, twos8_nat e0, hi _ l1, hi _ l2, hi _ l3, num, meant, guard, h4, if_true, Option.bind_eq_bind, Option.bind_some, e1, e2, e3,
    List.getLast?_append, List.getLast?_singleton, Option.some_or, e4, Option.pure_def]

theorem reaches {s : Site} {c : List CArg} (h1 : convert s.fn s.args = .ok c) (h2 : seen s.fn c = some (meant s)) : Reaches s := ⟨c, h1, h2⟩

theorem take_all {b : Bytes} {n : Nat} (h : b.length = n) : b.take n = b := by rw [← h]; simp

local macro "seeing" : tactic => `(tactic| simp_all [Site.fn, seen, meant, Room, peek, guard, var, num, twos8_nat, BytesLike.data, take_all])

/-- What the library sees of a range proof to be signed. -/
theorem sign_seen {e b : Option Int} {blind nonce : Bytes} {amount : Int} {script c gen asset assetblind : Bytes}
    (h : Typed (.rangeSign e b blind nonce amount script c gen asset assetblind)) :
    ∃ l, convert .rangeproofSign (Site.rangeSign e b blind nonce amount script c gen asset assetblind).args = .ok l ∧
      seen .rangeproofSign l = some (.rangeproofSign { rangeproofArgs e b blind nonce amount script c gen asset assetblind with
        exp := untwos 4 (twos 4 (e.getD CT_EXPONENT)), bits := untwos 4 (twos 4 (b.getD CT_BITS)) }) := by
  obtain ⟨h1, h2, h3, h4, h5, h6, h7⟩ := h
  have hm : twos 8 (if isUnspendable script then 0 else 1) = if isUnspendable script then 0 else 1 := by split <;> rfl
  have hl : small (asset ++ assetblind).length := by simp [h5, h6, small]
  by_cases hs : script.length = 0
  · refine ⟨[.obj .context, .mem (List.replicate 5134 0) true, .var .size 5134, .num (twos 8 (if isUnspendable script then 0 else 1)),
      .mem c false, .mem blind false, .mem nonce false, .num (twos 4 (e.getD CT_EXPONENT)), .num (twos 4 (b.getD CT_BITS)),
      .num (twos 8 amount), .mem (asset ++ assetblind) false, .num (twos 8 (asset ++ assetblind).length), .null, .num (twos 8 script.length),
      .mem gen false], ?_, ?_⟩
    · rw [Site.args, show scriptArg script = .none from if_pos hs]
      rfl
    · rw [hm, twos8_nat hl, twos8_nat h7]
      have hr := room_fresh 5134
      have ha := peek_all (w := false) (b := asset ++ assetblind) rfl
      rw [List.length_append] at ha
      generalize CArg.mem (List.replicate 5134 0) true = buf at hr
      simp [seen, num, var, guard, hr, peek_all h1, peek_all h2, peek_all h3, peek_all h4, ha, readOpt, hs, rangeproofArgs]
  · refine ⟨[.obj .context, .mem (List.replicate 5134 0) true, .var .size 5134, .num (twos 8 (if isUnspendable script then 0 else 1)),
      .mem c false, .mem blind false, .mem nonce false, .num (twos 4 (e.getD CT_EXPONENT)), .num (twos 4 (b.getD CT_BITS)),
      .num (twos 8 amount), .mem (asset ++ assetblind) false, .num (twos 8 (asset ++ assetblind).length), .mem script false,
      .num (twos 8 script.length), .mem gen false], ?_, ?_⟩
    · rw [Site.args, show scriptArg script = .bytes script from if_neg hs]
      rfl
    · rw [hm, twos8_nat hl, twos8_nat h7]
      have hr := room_fresh 5134
      have ha := peek_all (w := false) (b := asset ++ assetblind) rfl
      have hc := peek_all (w := false) (b := script) rfl
      rw [List.length_append] at ha
      generalize CArg.mem (List.replicate 5134 0) true = buf at hr
      simp [seen, num, var, guard, hr, peek_all h1, peek_all h2, peek_all h3, peek_all h4, ha, hc, readOpt, hs, rangeproofArgs]

theorem isInt_iff (e : Option Int) (d : Int) (hd : -2 ^ 31 ≤ d ∧ d < 2 ^ 31) : untwos 4 (twos 4 (e.getD d)) = e.getD d ↔ isInt e := by
  rw [untwos4_iff]
  cases e with
  | none => exact iff_of_true hd trivial
  | some v => exact Iff.rfl

/-- **C91, exactly**: a call whose values have the sizes the checks before it ensure is made, keeps to the memory it was given, and is
about the values it is meant to be about, if and only if what may be `bytes` or `bytearray` is `bytes`, and the numbers of the caller fit a
C `int`. -/
theorem C91_exact (s : Site) (h : Typed s) : Reaches s ↔ Fine s := by
  cases s with
  | generate asset =>
    have h : asset.length = 32 := h
    refine iff_of_true (reaches rfl ?_) trivial
    seeing
  | genSerialize gen =>
    have h : gen.length = 64 := h
    refine iff_of_true (reaches rfl ?_) trivial
    seeing
  | info proof =>
    cases proof with
    | bytes b =>
      have h : small b.length := h
      refine iff_of_true (reaches rfl ?_) trivial
      seeing
    | bytearray b => exact iff_of_false (fun ⟨c, h, _⟩ => by cases h) (fun h => h)
  | auxParse g =>
    cases g with
    | bytes b =>
      have h : b.length = 33 := h
      refine iff_of_true (reaches rfl ?_) trivial
      seeing
    | bytearray b => exact iff_of_false (fun ⟨c, h, _⟩ => by cases h) (fun h => h)
  | genParse c =>
    have h : c.length = 33 := h
    refine iff_of_true (reaches rfl ?_) trivial
    seeing
  | generateBlinded asset blind =>
    obtain ⟨h1, h2⟩ := h
    refine iff_of_true (reaches rfl ?_) trivial
    seeing
  | blindSum amounts assetblinds blinds total inputs => exact iff_of_true (reaches_blindSum h) trivial
  | commit blind amount gen =>
    obtain ⟨h1, h2⟩ := h
    refine iff_of_true (reaches rfl ?_) trivial
    seeing
  | commitSerialize c =>
    have h : c.length = 64 := h
    refine iff_of_true (reaches rfl ?_) trivial
    seeing
  | surjInit tags n asset seed =>
    obtain ⟨h1, h2, h3, h4⟩ := h
    refine iff_of_true (reaches rfl ?_) trivial
    have h5 : small (min 3 n) := by unfold small at *; omega
    have h6 : twos 8 100 = 100 := by decide
    have h7 := twos8_nat h5
    seeing
  | surjGenerate eph n gen idx i o =>
    obtain ⟨h1, h2, h3, h4, h5, h6⟩ := h
    refine iff_of_true (reaches rfl ?_) trivial
    seeing
  | surjVerify eph n gen =>
    obtain ⟨h1, h2, h3⟩ := h
    refine iff_of_true (reaches rfl ?_) trivial
    seeing
  | surjSize => exact iff_of_true (reaches rfl rfl) trivial
  | surjSerialize size =>
    refine iff_of_true (reaches rfl ?_) trivial
    seeing
  | surjDestroy => exact iff_of_true (reaches rfl rfl) trivial
  | commitParse c =>
    have h : c.length = 33 := h
    refine iff_of_true (reaches rfl ?_) trivial
    seeing
  | rewind nonce c proof script gen =>
    cases proof with
    | bytes p =>
      obtain ⟨h1, h2, h3, h4, h5⟩ := h
      have h3 : small p.length := h3
      refine iff_of_true ?_ trivial
      by_cases hs : script.length = 0
      · refine ⟨[.obj .context, .mem (List.replicate 32 0) true, .var .u64 0, .mem (List.replicate 4096 0) true, .var .size 64, .mem nonce false,
          .var .u64 0, .var .u64 0, .mem c true, .mem p false, .num (twos 8 p.length), .null, .num (twos 8 script.length), .mem gen true], ?_, ?_⟩
        · rw [Site.fn, Site.args, show scriptArg script = .none from if_pos hs]
          rfl
        · rw [twos8_nat h3, twos8_nat h4]
          have hr := room_fresh 4096
          have hp := peek_all (w := false) (b := p) rfl
          have hb := room_fresh 32
          generalize CArg.mem (List.replicate 4096 0) true = buf at hr
          generalize CArg.mem (List.replicate 32 0) true = buf' at hb
          simp [Site.fn, seen, num, var, guard, hr, hb, peek_all h1, peek_all h2, peek_all h5, hp, readOpt, hs, meant, BytesLike.data]
      · refine ⟨[.obj .context, .mem (List.replicate 32 0) true, .var .u64 0, .mem (List.replicate 4096 0) true, .var .size 64, .mem nonce false,
          .var .u64 0, .var .u64 0, .mem c true, .mem p false, .num (twos 8 p.length), .mem script false, .num (twos 8 script.length), .mem gen true], ?_, ?_⟩
        · rw [Site.fn, Site.args, show scriptArg script = .bytes script from if_neg hs]
          rfl
        · rw [twos8_nat h3, twos8_nat h4]
          have hr := room_fresh 4096
          have hp := peek_all (w := false) (b := p) rfl
          have hc := peek_all (w := false) (b := script) rfl
          have hb := room_fresh 32
          generalize CArg.mem (List.replicate 4096 0) true = buf at hr
          generalize CArg.mem (List.replicate 32 0) true = buf' at hb
          simp [Site.fn, seen, num, var, guard, hr, hb, peek_all h1, peek_all h2, peek_all h5, hp, hc, readOpt, hs, meant, BytesLike.data]
    | bytearray p => exact iff_of_false (fun ⟨c, h, _⟩ => by cases h) (fun h => h)
  | rangeSign e b blind nonce amount script c gen asset assetblind =>
    obtain ⟨l, hl, hs⟩ := sign_seen h
    have he := isInt_iff e CT_EXPONENT (by decide)
    have hb := isInt_iff b CT_BITS (by decide)
    show _ ↔ isInt e ∧ isInt b
    rw [← he, ← hb]
    constructor
    · rintro ⟨l', hl', hs'⟩
      change convert .rangeproofSign _ = _ at hl'
      rw [hl] at hl'
      cases hl'
      change seen .rangeproofSign _ = _ at hs'
      rw [hs] at hs'
      simp only [meant, Option.some.injEq, Seen.rangeproofSign.injEq] at hs'
      have h1 := congrArg RangeproofArgs.exp hs'
      have h2 := congrArg RangeproofArgs.bits hs'
      exact ⟨h1, h2⟩
    · rintro ⟨h1, h2⟩
      refine ⟨l, hl, ?_⟩
      show seen .rangeproofSign l = _
      rw [hs, h1, h2]
      rfl

/-- What is claimed of the calls. -/
def C91_statement : Prop := ∀ s, Typed s → Reaches s

/-- `unblind_confidential_pair` takes range proofs that are `bytearray`s (core/__init__.py:1995), and then cannot hand them over. -/
theorem C91_statement_false : ¬ C91_statement := fun h =>
  (C91_exact (.rewind (List.replicate 32 1) (List.replicate 64 2) (.bytearray [3]) [] (List.replicate 64 4))
    (by simp [Typed, BytesLike.data, small])).1 (h _ (by simp [Typed, BytesLike.data, small]))

/-- The three places: ctypes raises `ArgumentError`, naming the argument. -/
theorem C91_refused (b nonce c script gen : Bytes) :
    convert .rangeproofRewind (Site.rewind nonce c (.bytearray b) script gen).args = .error (.argument 10) ∧
      convert .rangeproofInfo (Site.info (.bytearray b)).args = .error (.argument 6) ∧
      convert .generatorParse (Site.auxParse (.bytearray b)).args = .error (.argument 3) := ⟨rfl, rfl, rfl⟩

/-- An exponent or a number of bits outside C's `int` is another one to the library, without an error. -/
theorem C91_wraps {e b : Option Int} {blind nonce : Bytes} {amount : Int} {script c gen asset assetblind : Bytes}
    (h : Typed (.rangeSign e b blind nonce amount script c gen asset assetblind)) :
    ∃ l a, convert .rangeproofSign (Site.rangeSign e b blind nonce amount script c gen asset assetblind).args = .ok l ∧
      seen .rangeproofSign l = some (.rangeproofSign a) ∧
      (∃ k : Int, a.exp = e.getD CT_EXPONENT + k * 2 ^ 32) ∧ (∃ k : Int, a.bits = b.getD CT_BITS + k * 2 ^ 32) ∧
      { rangeproofArgs e b blind nonce amount script c gen asset assetblind with exp := a.exp, bits := a.bits } = a := by
  obtain ⟨l, hl, hs⟩ := sign_seen h
  refine ⟨l, _, hl, hs, ?_, ?_, rfl⟩
  · exact untwos_mod _
  · exact untwos_mod _

-- a site of each kind of claim
example : Typed (.rangeSign none (some 36) (List.replicate 32 1) (List.replicate 32 2) 5 [0x51] (List.replicate 64 3) (List.replicate 64 4)
    (List.replicate 32 5) (List.replicate 32 6)) := by simp [Typed, small]
example : Fine (.rangeSign none (some 36) (List.replicate 32 1) (List.replicate 32 2) 5 [0x51] (List.replicate 64 3) (List.replicate 64 4)
    (List.replicate 32 5) (List.replicate 32 6)) := by simp [Fine, isInt]
example : Typed (.blindSum [5, 7] [List.replicate 32 1, List.replicate 32 2] [List.replicate 32 3, List.replicate 32 4] 2 1) := by
  simp [Typed, small]

end Verif.Ffi
