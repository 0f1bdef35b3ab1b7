import Verif.Props.Ffi
import Verif.Props.Buffers
/-
C91 for whole runs: blinding and unblinding with every call of the library made through ctypes, as the C functions see it.
-/
namespace Verif.Ffi
open Spec.Ffi

/-- A call through ctypes: what the C function sees goes to `k`; a call that is refused or breaks the contract gives nothing.  `lens` are
lengths and counts of objects; Python has no objects of 2⁶³ or more elements, so that case does not occur and is left as it is without ctypes. -/
def viaCall {α} (lens : List Nat) (f : Fn) (args : List PyArg) (direct : Option α) (k : Seen → Option α) : Option α :=
  if ∀ n ∈ lens, n < 2 ^ 63 then
    match convert f args with
    | .error _ => none
    | .ok c => (seen f c).bind k
  else direct

theorem viaCall_some {α} {lens : List Nat} {f : Fn} {args : List PyArg} {direct : Option α} {k : Seen → Option α} {a : α}
    (h : viaCall lens f args direct k = some a) : direct = some a ∨ ∃ x, k x = some a := by
  unfold viaCall at h
  split at h
  · split at h
    · cases h
    · obtain ⟨x, _, hx⟩ := Option.bind_eq_some_iff.1 h
      exact .inr ⟨x, hx⟩
  · exact .inl h

theorem viaCall_eq {α} {lens : List Nat} {s : Site} {direct : Option α} {k : Seen → Option α}
    (h : (∀ n ∈ lens, n < 2 ^ 63) → Reaches s) (hk : (∀ n ∈ lens, n < 2 ^ 63) → k (meant s) = direct) :
    viaCall lens s.fn s.args direct k = direct := by
  unfold viaCall
  split
  · rename_i hl
    obtain ⟨c, h1, h2⟩ := h hl
    rw [h1]
    show (seen s.fn c).bind k = direct
    rw [h2]
    exact hk hl
  · rfl

/-- `extra_commit` as an argument. -/
def extraArg : Option Bytes → PyArg
  | none => .none
  | some b => .bytes b

/-- The arguments of `secp256k1_rangeproof_sign`, core/__init__.py:1878-1887, by their meaning. -/
def signArgs (a : RangeproofArgs) : List PyArg :=
  [ctx, fresh 5134, .byref .size 5134, .int a.minValue, .bytes a.commit, .bytes a.blind, .bytes a.nonce, .int a.exp, .int a.bits, .int a.value,
    .bytes a.message, .int a.message.length, extraArg a.extraCommit, .int (a.extraCommit.getD []).length, .bytes a.gen]

theorem twos_twos (k : Nat) (v : Int) : twos k (twos k v : Nat) = twos k v := twos_nat (twos_lt k v)

/-- They are those of the call made. -/
theorem sign_same (e b : Option Int) (blind nonce : Bytes) (amount : Int) (script c gen asset assetblind : Bytes) :
    convert .rangeproofSign (Site.rangeSign e b blind nonce amount script c gen asset assetblind).args =
      convert .rangeproofSign (signArgs (rangeproofArgs e b blind nonce amount script c gen asset assetblind)) := by
  have hm : ((if isUnspendable script = true then 0 else 1 : Nat) : Int) = if isUnspendable script = true then 0 else 1 := by split <;> rfl
  by_cases hs : script.length = 0
  · rw [Site.args, show scriptArg script = .none from if_pos hs, signArgs]
    simp only [rangeproofArgs, hs, if_true, extraArg, hm, Option.getD_none, List.length_nil]
    simp only [convert, argtypes, convertFrom, fromParam, simple, ctx, fresh, twos_twos]
    rfl
  · rw [Site.args, show scriptArg script = .bytes script from if_neg hs, signArgs]
    simp only [rangeproofArgs, hs, if_false, extraArg, hm, Option.getD_some]
    simp only [convert, argtypes, convertFrom, fromParam, simple, ctx, fresh, twos_twos]
    rfl

/-- The arguments of `secp256k1_rangeproof_rewind`, core/__init__.py:2059-2068, by their meaning. -/
def rewindArgs (nonce c p : Bytes) (e : Option Bytes) (g : Bytes) : List PyArg :=
  [ctx, fresh 32, .byref .u64 0, fresh 4096, .byref .size 64, .bytes nonce, .byref .u64 0, .byref .u64 0, .buffer c, .bytes p,
    .int p.length, extraArg e, .int (e.getD []).length, .buffer g]

/-- They are those of the call made. -/
theorem rewind_same (nonce c p script g : Bytes) :
    (Site.rewind nonce c (.bytes p) script g).args = rewindArgs nonce c p (if script.length = 0 then none else some script) g := by
  unfold rewindArgs
  rw [Site.args]
  by_cases hs : script.length = 0
  · rw [show scriptArg script = .none from if_pos hs, if_pos hs, hs]
    rfl
  · rw [show scriptArg script = .bytes script from if_neg hs, if_neg hs]
    rfl

/-- The arguments of `secp256k1_surjectionproof_allocate_initialized`, core/__init__.py:1931-1936, by their meaning. -/
def initArgs (tags : Bytes) (n k : Nat) (tag : Bytes) (it : Nat) (seed : Bytes) : List PyArg :=
  [ctx, .byref .voidp 0, .byref .size 0, .bytes tags, .int n, .int k, .bytes tag, .int it, .bytes seed]

/-- They are those of the call made. -/
theorem init_same (tags : Bytes) (n : Nat) (asset seed : Bytes) :
    (Site.surjInit tags n asset seed).args = initArgs tags n (min 3 n) asset 100 seed := rfl

theorem rewind_through {nonce c p : Bytes} {e : Option Bytes} {g : Bytes} (h1 : nonce.length = 32) (h2 : c.length = 64) (h3 : g.length = 64)
    (h4 : small p.length) (h5 : small (e.getD []).length) :
    ∃ l, convert .rangeproofRewind (rewindArgs nonce c p e g) = .ok l ∧ seen .rangeproofRewind l = some (.rangeproofRewind nonce c p e g) := by
  have hr := room_fresh 4096
  have hb := room_fresh 32
  have hp := peek_all (w := false) (b := p) rfl
  cases e with
  | none =>
    refine ⟨[.obj .context, .mem (List.replicate 32 0) true, .var .u64 0, .mem (List.replicate 4096 0) true, .var .size 64, .mem nonce false,
      .var .u64 0, .var .u64 0, .mem c true, .mem p false, .num (twos 8 p.length), .null, .num (twos 8 0), .mem g true], rfl, ?_⟩
    rw [twos8_nat h4, show twos 8 0 = 0 from by decide]
    generalize CArg.mem (List.replicate 4096 0) true = buf at hr
    generalize CArg.mem (List.replicate 32 0) true = buf' at hb
    simp [seen, num, var, guard, hr, hb, peek_all h1, peek_all h2, peek_all h3, hp, readOpt]
  | some x =>
    refine ⟨[.obj .context, .mem (List.replicate 32 0) true, .var .u64 0, .mem (List.replicate 4096 0) true, .var .size 64, .mem nonce false,
      .var .u64 0, .var .u64 0, .mem c true, .mem p false, .num (twos 8 p.length), .mem x false, .num (twos 8 x.length), .mem g true], rfl, ?_⟩
    have hx := peek_all (w := false) (b := x) rfl
    rw [twos8_nat h4, show twos 8 (x.length : Int) = x.length from twos8_nat h5]
    generalize CArg.mem (List.replicate 4096 0) true = buf at hr
    generalize CArg.mem (List.replicate 32 0) true = buf' at hb
    simp [seen, num, var, guard, hr, hb, peek_all h1, peek_all h2, peek_all h3, hp, hx, readOpt]

theorem init_through {tags : Bytes} {n k : Nat} {tag : Bytes} {it : Nat} {seed : Bytes} (h1 : tags.length = 32 * n) (h2 : k ≤ n)
    (h3 : tag.length = 32) (h4 : seed.length = 32) (h5 : small n) (h6 : small it) :
    ∃ l, convert .surjInit (initArgs tags n k tag it seed) = .ok l ∧ seen .surjInit l = some (.surjInit tags n k tag it seed) := by
  have h7 : small k := by unfold small at *; omega
  refine ⟨[.obj .context, .var .voidp 0, .var .size 0, .mem tags false, .num (twos 8 n), .num (twos 8 k), .mem tag false, .num (twos 8 it),
    .mem seed false], rfl, ?_⟩
  rw [twos8_nat h5, twos8_nat h6, twos8_nat h7]
  simp [seen, num, var, peek_all h1, peek_all h3, peek_all h4]

/-- The library, called through ctypes. -/
def through (z : Zkp) : Zkp where
  generate a := viaCall [] (Site.generate a).fn (Site.generate a).args (z.generate a)
    fun | .generatorGenerate k => z.generate k | _ => none
  generateBlinded a r := viaCall [] (Site.generateBlinded a r).fn (Site.generateBlinded a r).args (z.generateBlinded a r)
    fun | .generatorGenerateBlinded k b => z.generateBlinded k b | _ => none
  genParse b := viaCall [] (Site.genParse b).fn (Site.genParse b).args (z.genParse b)
    fun | .generatorParse b => z.genParse b | _ => none
  genSerialize g := viaCall [] (Site.genSerialize g).fn (Site.genSerialize g).args (z.genSerialize g)
    fun | .generatorSerialize g => z.genSerialize g | _ => none
  commit b v g := viaCall [] (Site.commit b v g).fn (Site.commit b v g).args (z.commit b v g)
    fun | .pedersenCommit b v g => z.commit b v g | _ => none
  commitSerialize c := viaCall [] (Site.commitSerialize c).fn (Site.commitSerialize c).args (z.commitSerialize c)
    fun | .commitmentSerialize c => z.commitSerialize c | _ => none
  commitParse b := viaCall [] (Site.commitParse b).fn (Site.commitParse b).args (z.commitParse b)
    fun | .commitmentParse b => z.commitParse b | _ => none
  blindSum vs rs bs n m := viaCall [n] (Site.blindSum (vs.map Int.ofNat) rs bs n m).fn (Site.blindSum (vs.map Int.ofNat) rs bs n m).args
    (z.blindSum vs rs bs n m) fun | .blindSum vs rs bs n m => z.blindSum vs rs bs n m | _ => none
  rangeSign a := viaCall [a.message.length, (a.extraCommit.getD []).length] .rangeproofSign (signArgs a) (z.rangeSign a)
    fun | .rangeproofSign a => z.rangeSign a | _ => none
  rangeRewind nonce c p e g := viaCall [p.length, (e.getD []).length] .rangeproofRewind (rewindArgs nonce c p e g) (z.rangeRewind nonce c p e g)
    fun | .rangeproofRewind n c p e g => z.rangeRewind n c p e g | _ => none
  surjInit tags n k tag it seed := viaCall [n, it] .surjInit (initArgs tags n k tag it seed) (z.surjInit tags n k tag it seed)
    fun | .surjInit tags n k tag it seed => z.surjInit tags n k tag it seed | _ => none
  surjGenerate p eph n g i b b' := viaCall [n] (Site.surjGenerate eph n g i b b').fn (Site.surjGenerate eph n g i b b').args
    (z.surjGenerate p eph n g i b b') fun | .surjGenerate eph n g i b b' => z.surjGenerate p eph n g i b b' | _ => none
  surjVerify p eph n g := (viaCall [n] (Site.surjVerify eph n g).fn (Site.surjVerify eph n g).args (some (z.surjVerify p eph n g))
    fun | .surjVerify eph n g => some (z.surjVerify p eph n g) | _ => none).getD false
  surjSerialize p :=
    match z.surjSerialize p with
    | none => none
    | some s =>
      match result .surjSize s.length with
      | some (.ofNat n) => viaCall [n] (Site.surjSerialize n).fn (Site.surjSerialize n).args (some s)
        fun | .surjSerialize room => if room = s.length then some s else none | _ => none
      | _ => none
  pubValid := z.pubValid
  secValid := z.secValid
  pubOf := z.pubOf
  ecdh := z.ecdh
  generate_len a g h := by
    rcases viaCall_some h with h | ⟨x, h⟩
    · exact z.generate_len _ _ h
    · cases x <;> first | exact z.generate_len _ _ h | cases h
  generateBlinded_len a r g h := by
    rcases viaCall_some h with h | ⟨x, h⟩
    · exact z.generateBlinded_len _ _ _ h
    · cases x <;> first | exact z.generateBlinded_len _ _ _ h | cases h
  genParse_len b g h := by
    rcases viaCall_some h with h | ⟨x, h⟩
    · exact z.genParse_len _ _ h
    · cases x <;> first | exact z.genParse_len _ _ h | cases h
  genSerialize_len g b h := by
    rcases viaCall_some h with h | ⟨x, h⟩
    · exact z.genSerialize_len _ _ h
    · cases x <;> first | exact z.genSerialize_len _ _ h | cases h
  commit_len b v g c h := by
    rcases viaCall_some h with h | ⟨x, h⟩
    · exact z.commit_len _ _ _ _ h
    · cases x <;> first | exact z.commit_len _ _ _ _ h | cases h
  commitSerialize_len c b h := by
    rcases viaCall_some h with h | ⟨x, h⟩
    · exact z.commitSerialize_len _ _ h
    · cases x <;> first | exact z.commitSerialize_len _ _ h | cases h
  commitParse_len b c h := by
    rcases viaCall_some h with h | ⟨x, h⟩
    · exact z.commitParse_len _ _ h
    · cases x <;> first | exact z.commitParse_len _ _ h | cases h
  blindSum_len v r b t i x h := by
    rcases viaCall_some h with h | ⟨y, h⟩
    · exact z.blindSum_len _ _ _ _ _ _ h
    · cases y <;> first | exact z.blindSum_len _ _ _ _ _ _ h | cases h
  rangeRewind_len n c p e g x h := by
    rcases viaCall_some h with h | ⟨y, h⟩
    · exact z.rangeRewind_len _ _ _ _ _ _ h
    · cases y <;> first | exact z.rangeRewind_len _ _ _ _ _ _ h | cases h

/-- Exponents and numbers of bits that a C `int` holds. -/
def IntArgs (a : RangeproofArgs) : Prop := (-2 ^ 31 ≤ a.exp ∧ a.exp < 2 ^ 31) ∧ -2 ^ 31 ≤ a.bits ∧ a.bits < 2 ^ 31

theorem sign_through (a : RangeproofArgs) (hi : IntArgs a) (h1 : a.minValue < 2 ^ 64) (h2 : a.commit.length = 64) (h3 : a.blind.length = 32)
    (h4 : a.nonce.length = 32) (h5 : a.value < 2 ^ 64) (h6 : a.gen.length = 64) (h7 : small a.message.length)
    (h8 : small (a.extraCommit.getD []).length) :
    ∃ c, convert .rangeproofSign (signArgs a) = .ok c ∧ seen .rangeproofSign c = some (.rangeproofSign a) := by
  have hr := room_fresh 5134
  have ha := peek_all (w := false) (b := a.message) rfl
  have he := (untwos4_iff a.exp).2 hi.1
  have hb := (untwos4_iff a.bits).2 hi.2
  have hv : twos 8 (a.value : Int) = a.value := twos_nat (by omega)
  have hm : twos 8 (a.minValue : Int) = a.minValue := twos_nat (by omega)
  obtain ⟨mv, c, b, n, e, bits, v, msg, x, g⟩ := a
  dsimp only at *
  cases x with
  | none =>
    refine ⟨[.obj .context, .mem (List.replicate 5134 0) true, .var .size 5134, .num (twos 8 mv), .mem c false, .mem b false, .mem n false,
      .num (twos 4 e), .num (twos 4 bits), .num (twos 8 v), .mem msg false, .num (twos 8 msg.length), .null, .num (twos 8 0), .mem g false], rfl, ?_⟩
    rw [hm, hv, twos8_nat h7, show twos 8 0 = 0 from by decide]
    generalize CArg.mem (List.replicate 5134 0) true = buf at hr
    simp [seen, num, var, guard, hr, peek_all h2, peek_all h3, peek_all h4, peek_all h6, ha, readOpt, he, hb]
  | some x =>
    refine ⟨[.obj .context, .mem (List.replicate 5134 0) true, .var .size 5134, .num (twos 8 mv), .mem c false, .mem b false, .mem n false,
      .num (twos 4 e), .num (twos 4 bits), .num (twos 8 v), .mem msg false, .num (twos 8 msg.length), .mem x false, .num (twos 8 x.length),
      .mem g false], rfl, ?_⟩
    have hx := peek_all (w := false) (b := x) rfl
    rw [hm, hv, twos8_nat h7, show twos 8 (x.length : Int) = x.length from twos8_nat h8]
    generalize CArg.mem (List.replicate 5134 0) true = buf at hr
    simp [seen, num, var, guard, hr, peek_all h2, peek_all h3, peek_all h4, peek_all h6, ha, hx, readOpt, he, hb]

/-- With buffers of the sizes the library reads, and surjection proofs below 2 GB, ctypes changes nothing. -/
theorem through_same (z : Zkp) (hz : ∀ p s, z.surjSerialize p = some s → s.length < 2 ^ 31) : SameOnSizedFor IntArgs (through z) z where
  generate a ha := by
    dsimp only [through]
    exact viaCall_eq (s := .generate a) (fun _ => (C91_exact (.generate a) ha).2 trivial) (fun _ => rfl)
  generateBlinded a r ha hr := by
    dsimp only [through]
    exact viaCall_eq (s := .generateBlinded a r) (fun _ => (C91_exact (.generateBlinded a r) ⟨ha, hr⟩).2 trivial) (fun _ => rfl)
  genParse b hb := by
    dsimp only [through]
    exact viaCall_eq (s := .genParse b) (fun _ => (C91_exact (.genParse b) hb).2 trivial) (fun _ => rfl)
  genSerialize g hg := by
    dsimp only [through]
    exact viaCall_eq (s := .genSerialize g) (fun _ => (C91_exact (.genSerialize g) hg).2 trivial) (fun _ => rfl)
  commit b v g hb hv hg := by
    dsimp only [through]
    refine viaCall_eq (s := .commit b v g) (fun _ => (C91_exact (.commit b v g) ⟨hb, hg⟩).2 trivial) (fun _ => ?_)
    show z.commit b (twos 8 v) g = _
    rw [twos_nat (by omega)]
  commitSerialize c hc := by
    dsimp only [through]
    exact viaCall_eq (s := .commitSerialize c) (fun _ => (C91_exact (.commitSerialize c) hc).2 trivial) (fun _ => rfl)
  commitParse b hb := by
    dsimp only [through]
    exact viaCall_eq (s := .commitParse b) (fun _ => (C91_exact (.commitParse b) hb).2 trivial) (fun _ => rfl)
  blindSum vs rs bs n m h1 h2 h3 h4 h5 h6 h7 := by
    dsimp only [through]
    refine viaCall_eq (s := .blindSum (vs.map Int.ofNat) rs bs n m)
      (fun hl => (C91_exact (.blindSum (vs.map Int.ofNat) rs bs n m) ⟨by simpa using h1, h2, h3, h7, hl n (by simp), h5, h6⟩).2 trivial) (fun _ => ?_)
    show z.blindSum ((vs.map Int.ofNat).map (twos 8)) rs bs n m = _
    have e : (vs.map Int.ofNat).map (twos 8) = vs := by
      rw [List.map_map]
      conv => rhs; rw [← List.map_id vs]
      exact List.map_congr_left fun v hv => twos_nat (k := 8) (by have := h4 v hv; omega)
    rw [e]
  rangeSign a hi h1 h2 h3 h4 h5 h6 := by
    dsimp only [through]
    unfold viaCall
    split
    · rename_i hl
      obtain ⟨c, e1, e2⟩ := sign_through a hi h1 h2 h3 h4 h5 h6 (hl _ (by simp)) (hl _ (by simp))
      rw [e1]
      show (seen _ c).bind _ = _
      rw [e2]
      rfl
    · rfl
  rangeRewind nonce c p e g h1 h2 h3 := by
    dsimp only [through]
    unfold viaCall
    split
    · rename_i hl
      obtain ⟨c, e1, e2⟩ := rewind_through (e := e) h1 h2 h3 (hl p.length (by simp)) (hl _ (by simp))
      rw [e1]
      show (seen _ c).bind _ = _
      rw [e2]
      rfl
    · rfl
  surjInit tags n k tag it seed h1 h2 h3 h4 := by
    dsimp only [through]
    unfold viaCall
    split
    · rename_i hl
      obtain ⟨c, e1, e2⟩ := init_through h1 h2 h3 h4 (hl n (by simp)) (hl it (by simp))
      rw [e1]
      show (seen _ c).bind _ = _
      rw [e2]
      rfl
    · rfl
  surjGenerate p eph n g i b b' h1 h2 h3 h4 h5 := by
    dsimp only [through]
    exact viaCall_eq (s := .surjGenerate eph n g i b b') (fun hl => (C91_exact (.surjGenerate eph n g i b b') ⟨h1, hl n (by simp), h2, h3, h4, h5⟩).2 trivial) (fun _ => rfl)
  surjVerify p eph n g h1 h2 := by
    dsimp only [through]
    exact congrArg (Option.getD · false) (viaCall_eq (s := .surjVerify eph n g) (direct := some (z.surjVerify p eph n g))
      (fun hl => (C91_exact (.surjVerify eph n g) ⟨h1, hl n (by simp), h2⟩).2 trivial) (fun _ => rfl))
  surjSerialize p := by
    dsimp only [through]
    cases hs : z.surjSerialize p with
    | none => rfl
    | some s =>
      dsimp only
      have hl := hz p s hs
      rw [(C91_size s.length).2 hl]
      dsimp only [through]
      exact viaCall_eq (s := .surjSerialize s.length) (fun h => (C91_exact (.surjSerialize s.length) (h _ (by simp))).2 trivial) (fun _ => if_pos rfl)
  pubValid _ := rfl
  secValid _ _ := rfl
  pubOf _ _ := rfl
  ecdh _ _ _ := rfl

/-- C91 for blinding: calling the library through ctypes changes nothing, for parameters of the range proofs that fit a C `int`, a random source
that gives 32 bytes, descriptors as their classes make them, and proofs below 2 GB. -/
theorem C91_blind (h : HashFn) (m : MidFn) (z : Zkp) (hz : ∀ p s, z.surjSerialize p = some s → s.length < 2 ^ 31) (A : BlindArgs) (tx : Tx)
    (he : isInt A.ctExponent) (hb : isInt A.ctBits) (hd : ∀ d ∈ A.descs, DescSizes d) (hr : ∀ k, (A.rand k).length = 32) :
    blindTransaction ⟨h, m, through z⟩ A tx = blindTransaction ⟨h, m, z⟩ A tx := by
  refine same_blind h m (through z) z (through_same z hz) A tx ?_ hd hr
  intro a h1 h2
  unfold IntArgs
  rw [h1, h2]
  refine ⟨?_, ?_⟩
  · cases hx : A.ctExponent with
    | none => decide
    | some v => rw [hx] at he; exact he
  · cases hx : A.ctBits with
    | none => decide
    | some v => rw [hx] at hb; exact hb

/-- C91 for unblinding with a proof that is `bytes`. -/
theorem C91_unblind (h : HashFn) (m : MidFn) (z : Zkp) (hz : ∀ p s, z.surjSerialize p = some s → s.length < 2 ^ 31)
    (key confValue confAsset confNonce script rangeproof : Bytes) (hk : key.length = 32) :
    unblind ⟨h, m, through z⟩ key confValue confAsset confNonce script rangeproof =
      unblind ⟨h, m, z⟩ key confValue confAsset confNonce script rangeproof :=
  same_unblind h m (through z) z (through_same z hz) key confValue confAsset confNonce script rangeproof hk

/-- Otherwise the exponent and the number of bits are taken as 32-bit numbers: 2³² + 52 bits are 52. -/
theorem C91_bits (z : Zkp) (a : RangeproofArgs) (h1 : a.minValue < 2 ^ 64) (h2 : a.commit.length = 64) (h3 : a.blind.length = 32)
    (h4 : a.nonce.length = 32) (h5 : a.value < 2 ^ 64) (h6 : a.gen.length = 64) (h7 : small a.message.length)
    (h8 : small (a.extraCommit.getD []).length) :
    (through z).rangeSign a = z.rangeSign { a with exp := untwos 4 (twos 4 a.exp), bits := untwos 4 (twos 4 a.bits) } := by
  have e : convert .rangeproofSign (signArgs a) =
      convert .rangeproofSign (signArgs { a with exp := untwos 4 (twos 4 a.exp), bits := untwos 4 (twos 4 a.bits) }) := by
    have w : ∀ v, simple .int (.int (untwos 4 (twos 4 v))) = simple .int (.int v) := by
      intro v
      show some (CArg.num (twos 4 (untwos 4 (twos 4 v)))) = some (CArg.num (twos 4 v))
      rw [twos_untwos (twos_lt 4 v)]
    simp only [signArgs, convert, argtypes, convertFrom, fromParam, w]
    rfl
  obtain ⟨c, e1, e2⟩ := sign_through { a with exp := untwos 4 (twos 4 a.exp), bits := untwos 4 (twos 4 a.bits) }
    ⟨(inRangeS4 _).1 (untwos_inRange (twos_lt 4 _)), (inRangeS4 _).1 (untwos_inRange (twos_lt 4 _))⟩ h1 h2 h3 h4 h5 h6 h7 h8
  dsimp only [through]
  unfold viaCall
  rw [if_pos (by
    intro n hn
    simp only [List.mem_cons, List.not_mem_nil, or_false] at hn
    rcases hn with rfl | rfl
    · exact h7
    · exact h8), e, e1]
  show (seen _ c).bind _ = _
  rw [e2]
  rfl

theorem toy_small (p s : Bytes) (h : Toy.zkp.surjSerialize p = some s) : s.length < 2 ^ 31 := by
  change (if p.length ≤ 8258 then some p else none) = some s at h
  split at h
  · cases h
    omega
  · cases h

-- the toy library keeps the promise, and two outputs are blinded through ctypes
example : ∃ b a t', blindTransaction ⟨Toy.hash, Toy.mid, through Toy.zkp⟩ (bufArgs fun k => Toy.b32 (k + 5)) bufTx = (.ok (.success 2 b a), t') := by
  rw [C91_blind Toy.hash Toy.mid Toy.zkp toy_small (bufArgs fun k => Toy.b32 (k + 5)) bufTx trivial trivial (bufArgs_sizes _)
    (fun k => beBytes_length 32 (k + 5))]
  exact success_of (by decide +kernel)

end Verif.Ffi
