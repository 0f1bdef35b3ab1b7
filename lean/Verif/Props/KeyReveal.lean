import Verif.Props.CrossSwap
import Verif.Spec.Ecdsa
import Mathlib.Data.ZMod.Basic
import Mathlib.Tactic.Ring
import Mathlib.Tactic.LinearCombination
/-
C66: what the claim of the Elements side reveals to Alice.
-/
namespace Verif
open Verif.CrossSwap Verif.Spec Verif.Spec.Interp

theorem beVal_zero_cons (t : Bytes) : beVal (0 :: t) = beVal t := by
  have h : ∀ (l : Bytes), leVal (l ++ [0]) = leVal l := by
    intro l
    induction l with
    | nil => rfl
    | cons b l ih => simp only [List.cons_append, leVal, ih]
  simp only [beVal, List.reverse_cons, h]

theorem beVal_lstrip0 : ∀ b : Bytes, beVal (lstrip0 b) = beVal b
  | [] => rfl
  | b :: t => by
    unfold lstrip0
    split
    · rename_i h; subst h; rw [beVal_lstrip0 t, beVal_zero_cons]
    · rfl

theorem beVal_rBytes {r : Nat} (h : r < secpN) : beVal (rBytes r) = r := by
  rw [rBytes, beVal_lstrip0, beVal_beBytes_of_lt]
  exact Nat.lt_trans h (by unfold secpN; decide)

instance : NeZero secpN := ⟨by unfold secpN; decide⟩

theorem candidate_cast (k m rInv : Nat) (s : Int) :
    ((candidate secpN k m rInv s : Nat) : Scalar) = ((s : Scalar) * k - m) * rInv := by
  unfold candidate
  rw [ZMod.natCast_mod, Nat.cast_mul]
  congr 1
  have h : 0 ≤ (s * k - m) % (secpN : Int) := Int.emod_nonneg _ (by unfold secpN; decide)
  have : ((((s * k - m) % (secpN : Int)).toNat : Nat) : Scalar) = (((s * k - m) % (secpN : Int) : Int) : Scalar) := by
    rw [← Int.cast_natCast, Int.toNat_of_nonneg h]
  rw [this, ZMod.intCast_mod]
  push_cast
  rfl

theorem candidate_lt (k m rInv : Nat) (s : Int) : candidate secpN k m rInv s < secpN :=
  Nat.mod_lt _ (by unfold secpN; decide)

theorem cast_eq_of_lt {a b : Nat} (ha : a < secpN) (hb : b < secpN) (h : (a : Scalar) = b) : a = b := by
  have := congrArg ZMod.val h
  rwa [ZMod.val_natCast, ZMod.val_natCast, Nat.mod_eq_of_lt ha, Nat.mod_eq_of_lt hb] at this

section
variable {M : Type} [AddCommGroup M] [Module Scalar M]

theorem Spec.Curve.inj (C : Curve M) {a b : Scalar} (h : a • C.G = b • C.G) : a = b := by
  have : (a - b) • C.G = 0 := by rw [sub_smul, h, sub_self]
  exact sub_eq_zero.1 (C.order _ this)

/-- A signature with the known `r` determines the key up to the sign of `s`. -/
theorem key_of_signature (C : Curve M) {k r m s q : Nat} (hk : KnownNonce C k r)
    (hv : Verify C ((q : Scalar) • C.G) m r s) :
    (m : Scalar) + r * q = k * s ∨ (m : Scalar) + r * q = -(k * s) := by
  obtain ⟨_, _, _, _, w, hw, hx⟩ := hv
  have e : (w * m) • C.G + (w * r) • ((q : Scalar) • C.G) = (w * (m + r * q)) • C.G := by
    rw [smul_smul, ← add_smul]; congr 1; ring
  rw [e] at hx
  rcases hk.only _ hx with h | h
  · left
    have := C.inj h
    calc (m : Scalar) + r * q = (w * s) * (m + r * q) := by rw [hw, one_mul]
      _ = (w * (m + r * q)) * s := by ring
      _ = k * s := by rw [this]
  · right
    rw [← neg_smul] at h
    have := C.inj h
    calc (m : Scalar) + r * q = (w * s) * (m + r * q) := by rw [hw, one_mul]
      _ = (w * (m + r * q)) * s := by ring
      _ = -(k * s) := by rw [this]; ring

/-- The other way round. -/
theorem signature_of_key (C : Curve M) {k r m s q : Nat} {w : Scalar} (hr : 0 < r) (hr' : r < secpN) (hs : 0 < s)
    (hs' : s < secpN) (hw : w * s = 1) (hx : C.x ((k : Scalar) • C.G) % secpN = r)
    (h : (m : Scalar) + r * q = k * s) : Verify C ((q : Scalar) • C.G) m r s := by
  refine ⟨hr, hr', hs, hs', w, hw, ?_⟩
  have e : (w * m) • C.G + (w * r) • ((q : Scalar) • C.G) = (w * (m + r * q)) • C.G := by
    rw [smul_smul, ← add_smul]; congr 1; ring
  rw [e, h]
  have : w * (k * s) = k := by rw [show w * ((k : Scalar) * s) = (w * s) * k by ring, hw, one_mul]
  rw [this, hx]

end


theorem scriptNext_data {d : Bytes} (t : Bytes) (h : d.length < 65536) :
    ∃ o, scriptNext (pushData d ++ t) = .ok (o, some d, t) ∧ (o = 0 ↔ d = []) := by
  unfold pushData
  split
  · rename_i h1
    have e : (UInt8.ofNat d.length).toNat = d.length := by rw [UInt8.toNat_ofNat']; omega
    refine ⟨UInt8.ofNat d.length, ?_, ?_⟩
    · rw [List.cons_append, scriptNext, if_neg, if_pos]
      · rw [scriptData, e, if_neg (by simp), List.take_left, List.drop_left]
      · rw [UInt8.lt_iff_toNat_lt, e]; exact h1
      · rw [gt_iff_lt, UInt8.lt_iff_toNat_lt, e]
        have : OP_PUSHDATA4.toNat = 78 := rfl
        omega
    · rw [← UInt8.toNat_inj, e]
      exact List.length_eq_zero_iff
  split
  · rename_i h1 h2
    refine ⟨0x4c, ?_, ⟨fun h => absurd h (by decide), fun h => by subst h; simp at h1⟩⟩
    rw [List.cons_append, scriptNext, if_neg (by decide), if_neg (by decide), if_pos (by rfl), List.append_assoc,
      if_neg (by simp), List.take_append_of_le_length (by simp), List.drop_append_of_le_length (by simp),
      List.take_of_length_le (by simp), List.drop_of_length_le (by simp), leVal_leBytes_of_lt (by omega), List.nil_append,
      scriptData, if_neg (by simp), List.take_left, List.drop_left]
  · rename_i h1 h2
    refine ⟨0x4d, ?_, ⟨fun h => absurd h (by decide), fun h => by subst h; simp at h1⟩⟩
    rw [List.cons_append, scriptNext, if_neg (by decide), if_neg (by decide), if_neg (by decide), if_pos (by rfl), List.append_assoc,
      if_neg (by simp; omega), List.take_append_of_le_length (by simp), List.drop_append_of_le_length (by simp),
      List.take_of_length_le (by simp), List.drop_of_length_le (by simp), leVal_leBytes_of_lt (by omega), List.nil_append,
      scriptData, if_neg (by simp), List.take_left, List.drop_left]

theorem nextItem_data {d : Bytes} (t : Bytes) (h : d.length < 65536) :
    nextItem (pushData d ++ t) = .ok (if d = [] then .num 0 else .data d, t) := by
  obtain ⟨o, e, ho⟩ := scriptNext_data t h
  unfold nextItem
  rw [e]
  by_cases hd : d = []
  · rw [if_pos hd]
    show (if o = 0 then _ else _) = _
    rw [if_pos (ho.2 hd)]; rfl
  · rw [if_neg hd]
    show (if o = 0 then _ else _) = _
    rw [if_neg (fun hh => hd (ho.1 hh))]; rfl

/-- What Alice reads from an unlocking script of two pushes and more. -/
theorem revealedS_data {d e : Bytes} (t : Bytes) (hd : d.length < 65536) (he : e.length < 65536) :
    revealedS (pushData d ++ (pushData e ++ t)) =
      if e = [] then .error (.raise .typeError)
      else if e.drop 2 = [] then .error .die else .ok (beVal (e.drop 2)) := by
  unfold revealedS
  rw [nextItem_data _ hd]
  dsimp only
  rw [nextItem_data _ he]
  by_cases h : e = []
  · rw [if_pos h, if_pos h]
  · rw [if_neg h, if_neg h]

theorem pushStack_five {a b d e : Bytes} (ha : a.length ≤ 520) (hb : b.length ≤ 520) (hd : d.length ≤ 520)
    (he : e.length < 65536) :
    pushStack (script [.data a, .data b, .data d, .num 1, .data e]) = some (e :: [[1], d, b, a]) := by
  unfold pushStack
  simp only [script_cons, script_nil]
  simp only [show ∀ d, (Elem.data d).bytes = pushData d from fun _ => rfl]
  rw [parse_data _ (by omega), parse_data _ (by omega),
    parse_data _ (by omega), parse_num _ (by decide) (by decide), parse_data _ he, parse_nil]
  rfl

theorem not_refund {c : Interp.Ctx} (h : c.sequence = eltSequence true) {n p st} : ¬ TimedRefund c n p st :=
  C65_early c n p st (.inr (.inl h))

section
variable {M : Type} [AddCommGroup M] [Module Scalar M]

/-- The loop finds the key if it is one of the two candidates, unless the first is zero. -/
theorem tryCandidates_finds (C : Curve M) {pub : Nat → Option Bytes} (hp : PubOf C pub) {q a b : Nat} (hq : 0 < q)
    (hqn : q < secpN) (ha : a < secpN) (h : a = q ∨ (a ≠ 0 ∧ b = q)) :
    tryCandidates pub (C.enc ((q : Scalar) • C.G)) [a, b] = .ok q := by
  rcases h with rfl | ⟨h0, rfl⟩
  · rw [tryCandidates, hp.1 _ hq hqn]
    dsimp only
    rw [if_pos rfl]
  · rw [tryCandidates, hp.1 _ (by omega) ha]
    dsimp only
    by_cases he : C.enc ((a : Scalar) • C.G) = C.enc ((b : Scalar) • C.G)
    · rw [if_pos he, cast_eq_of_lt ha hqn (C.inj (C.encInj _ _ he))]
    · rw [if_neg he, tryCandidates, hp.1 _ hq hqn]
      dsimp only
      rw [if_pos rfl]

/-- A signature that starts as the example's do: `r` is in its place, and what follows are the two
bytes that are skipped and the bytes of `s`. -/
theorem der_split {r r' s : Nat} {L : UInt8} {sfx : Bytes}
    (h : Der ([0x30, L, 0x02, UInt8.ofNat (rBytes r).length] ++ rBytes r ++ sfx) r' s) :
    DerInt r' (rBytes r) ∧ ∃ S, DerInt s S ∧ sfx = [0x02, UInt8.ofNat S.length] ++ S := by
  obtain ⟨R, S, hR, hS, e⟩ := h
  have hl := length_rBytes r
  have hRl := hR.2.1
  simp only [List.cons_append, List.nil_append, List.cons.injEq, true_and, List.append_assoc] at e
  obtain ⟨_, e1, e2⟩ := e
  have e1 := congrArg UInt8.toNat e1
  rw [UInt8.toNat_ofNat', UInt8.toNat_ofNat'] at e1
  obtain ⟨e3, e4⟩ := List.append_inj e2 (by omega)
  exact ⟨e3 ▸ hR, S, hS, by rw [e4]; rfl⟩

/-- **C66.** Key recovery.  If the claim of the Elements side has the shape Bob's code gives it (its
signature part starts with the four bytes 30, length, 02, length of `r`) and a node accepts it, then
Alice computes the secret of the key that was to be revealed, for every key but one.  The full claim
`C66_statement` is false: see `C66_hidden`, `C66_zero`, `C66_buried`. -/
theorem C66_recovers_partial (C : Curve M) (k r m rInv q : Nat) (pub : Nat → Option Bytes) (c : Interp.Ctx)
    (buyerPub sellerPub sig sfx : Bytes) (L : UInt8)
    (hk : KnownNonce C k r) (hp : PubOf C pub) (hc : ChecksData C m c) (hi : rInv * r % secpN = 1)
    (hq : 0 < q) (hqn : q < secpN) (hkey : (r * q + 2 * m) % secpN ≠ 0)
    (hlp : (C.enc ((q : Scalar) • C.G)).length ≤ 520) (hlb : buyerPub.length ≤ 520) (hls : sellerPub.length ≤ 520)
    (hl1 : sig.length ≤ 520) (hl2 : sfx.length ≤ 520) (hseq : c.sequence = eltSequence true)
    (h : SpendsP2SH c (eltContract r (C.enc ((q : Scalar) • C.G)) buyerPub sellerPub)
      (script [.data sig, .data sfx, .data [0x30, L, 0x02, UInt8.ofNat (rBytes r).length], .num 1,
        .data (eltContract r (C.enc ((q : Scalar) • C.G)) buyerPub sellerPub)])) :
    recoverKey pub secpN k m rInv (C.enc ((q : Scalar) • C.G))
      (script [.data sig, .data sfx, .data [0x30, L, 0x02, UInt8.ofNat (rBytes r).length], .num 1,
        .data (eltContract r (C.enc ((q : Scalar) • C.G)) buyerPub sellerPub)]) = .ok q := by
  have hlc := length_eltContract r hlp hlb hls
  obtain ⟨st, hst, hacc⟩ := h
  rw [pushStack_five hl1 hl2 (by simp) hlc] at hst
  cases hst
  rcases (C65_elements c r _ _ _ hlp hlb hls _).1 hacc with hcl | hcl
  swap
  · exact absurd hcl (not_refund hseq)
  obtain ⟨_, _, _, _, _, e, _, _, hd, _⟩ := hcl
  cases e
  obtain ⟨Q, r', s, hQ, hder, hv⟩ := (hc _ _).1 hd
  have hQ := C.encInj _ _ hQ
  subst hQ
  obtain ⟨hR, S, hS, rfl⟩ := der_split hder
  have hr' : r' = r := by rw [← hR.1, beVal_rBytes hk.lt]
  subst hr'
  have hSne : S ≠ [] := by
    obtain ⟨_, _, _, _, e, _⟩ := hS; rw [e]; exact List.cons_ne_nil _ _
  unfold recoverKey
  rw [script_cons, script_cons, show ∀ d, (Elem.data d).bytes = pushData d from fun _ => rfl,
    show ∀ d, (Elem.data d).bytes = pushData d from fun _ => rfl, revealedS_data _ (by omega) (by omega)]
  rw [if_neg (by simp), if_neg (by simpa using hSne)]
  show tryCandidates _ _ [candidate _ _ _ _ (-((beVal S : Nat) : Int)), candidate _ _ _ _ ((beVal S : Nat) : Int)] = _
  rw [hS.1]
  have hi' : (rInv : Scalar) * r' = 1 := by
    have := congrArg (Nat.cast (R := Scalar)) hi
    rwa [ZMod.natCast_mod, Nat.cast_mul, Nat.cast_one] at this
  refine tryCandidates_finds C hp hq hqn (candidate_lt _ _ _ _) ?_
  rcases key_of_signature C hk hv with e | e
  · right
    constructor
    · intro h0
      apply hkey
      have h1 := candidate_cast k m rInv (-(s : Int))
      rw [h0] at h1
      push_cast at h1
      have h2 : (-(s : Scalar) * k - m) = 0 := by
        calc (-(s : Scalar) * k - m) = ((-(s : Scalar) * k - m) * rInv) * r' := by rw [mul_assoc, hi', mul_one]
          _ = 0 := by rw [← h1, zero_mul]
      have h3 : ((r' * q + 2 * m : Nat) : Scalar) = 0 := by
        push_cast
        linear_combination e - h2
      have := (ZMod.natCast_eq_zero_iff _ _).1 h3
      exact Nat.mod_eq_zero_of_dvd this
    · apply cast_eq_of_lt (candidate_lt _ _ _ _) hqn
      rw [candidate_cast]
      push_cast
      linear_combination (-(rInv : Scalar)) * e + (q : Scalar) * hi'
  · left
    apply cast_eq_of_lt (candidate_lt _ _ _ _) hqn
    rw [candidate_cast]
    push_cast
    linear_combination (-(rInv : Scalar)) * e + (q : Scalar) * hi'

/-- **C66.** The full claim: whatever unlocking script a node accepts in an input that is not a
refund, Alice computes the key from it. -/
def C66_statement : Prop :=
  ∀ (M : Type) [AddCommGroup M] [Module Scalar M] (C : Curve M) (k r m rInv q : Nat) (pub : Nat → Option Bytes)
    (c : Interp.Ctx) (buyerPub sellerPub scriptSig : Bytes),
    KnownNonce C k r → PubOf C pub → ChecksData C m c → rInv * r % secpN = 1 → 0 < q → q < secpN →
    (C.enc ((q : Scalar) • C.G)).length ≤ 520 → buyerPub.length ≤ 520 → sellerPub.length ≤ 520 →
    c.sequence = eltSequence true →
    SpendsP2SH c (eltContract r (C.enc ((q : Scalar) • C.G)) buyerPub sellerPub) scriptSig →
    recoverKey pub secpN k m rInv (C.enc ((q : Scalar) • C.G)) scriptSig = .ok q

theorem pushStack_append {d : Bytes} (t : Bytes) (h : d.length < 65536) :
    pushStack (pushData d ++ t) = (pushStack t).map (· ++ [d]) := by
  unfold pushStack
  rw [parse_data t h]
  cases parse t with
  | none => rfl
  | some ops =>
    simp only [Option.map_some, Option.bind_some, List.mapM_cons, Op.data?]
    cases ops.mapM Op.data? with
    | none => rfl
    | some l => simp

/-- Anything may lie at the bottom of the stack. -/
theorem accepts_more {c : Interp.Ctx} {r : Nat} {p b s : Bytes} (hp : p.length ≤ 520) (hb : b.length ≤ 520)
    (hs : s.length ≤ 520) {st : List Bytes} (l : List Bytes) (h : Accepts c (eltContract r p b s) st) :
    Accepts c (eltContract r p b s) (st ++ l) := by
  rw [C65_elements c r _ _ _ hp hb hs] at h ⊢
  rcases h with ⟨x1, x2, x3, x4, x5, rfl, h⟩ | ⟨x1, x2, x3, rfl, h⟩
  · exact .inl ⟨x1, x2, x3, x4, x5 ++ l, rfl, h⟩
  · exact .inr ⟨x1, x2, x3 ++ l, rfl, h⟩

/-- **C66.** Two more pushes in front of an accepted unlocking script: the node accepts it as well, and
Alice gives up. -/
theorem C66_buried (c : Interp.Ctx) (r : Nat) (p b s scriptSig : Bytes) (pub : Nat → Option Bytes)
    (n k m rInv : Nat) (target : Bytes) (hp : p.length ≤ 520) (hb : b.length ≤ 520)
    (hs : s.length ≤ 520) (h : SpendsP2SH c (eltContract r p b s) scriptSig) :
    SpendsP2SH c (eltContract r p b s) (script [.data [0], .data [0]] ++ scriptSig) ∧
    recoverKey pub n k m rInv target (script [.data [0], .data [0]] ++ scriptSig) = .error .die := by
  have e : script [.data [0], .data [0]] ++ scriptSig = pushData [0] ++ (pushData [0] ++ scriptSig) := rfl
  rw [e]
  constructor
  · obtain ⟨st, h1, h2⟩ := h
    refine ⟨st ++ [[0], [0]], ?_, accepts_more hp hb hs _ h2⟩
    rw [pushStack_append _ (by decide), pushStack_append _ (by decide), h1]
    simp
  · unfold recoverKey
    rw [revealedS_data _ (by decide) (by decide)]
    rfl

/-- **C66.** The nonce need not be the known one.  For every nonce with an invertible `r'` there is a key
for which the fixed part sits in the place of `s`: the node accepts the claim, which was signed with that
nonce, and Alice finds no number in it. -/
theorem C66_hidden (C : Curve M) (k r m rInv n' r' r'Inv : Nat) (R' : Bytes) (pub : Nat → Option Bytes)
    (c : Interp.Ctx) (buyerPub sellerPub sig target : Bytes) (hc : ChecksData C m c) (hr : 0 < r) (hrn : r < secpN)
    (hi : rInv * r % secpN = 1) (hr' : 0 < r') (hrn' : r' < secpN) (hi' : r'Inv * r' % secpN = 1)
    (hx : C.x ((n' : Scalar) • C.G) % secpN = r') (hR : DerInt r (rBytes r)) (hR' : DerInt r' R')
    (hlp : ∀ P, (C.enc P).length ≤ 520) (hlb : buyerPub.length ≤ 520) (hls : sellerPub.length ≤ 520)
    (hl1 : sig.length ≤ 520) (hg : c.checkSig sig buyerPub = true) :
    ∃ q, q < secpN ∧
      let contract := eltContract r (C.enc ((q : Scalar) • C.G)) buyerPub sellerPub
      let ss := script [.data sig, .data [], .data ([0x30, UInt8.ofNat (4 + R'.length + (rBytes r).length), 0x02,
        UInt8.ofNat R'.length] ++ R' ++ [0x02, UInt8.ofNat (rBytes r).length]), .num 1, .data contract]
      SpendsP2SH c contract ss ∧
      recoverKey pub secpN k m rInv target ss = .error (.raise .typeError) := by
  have inv : ∀ {a b : Nat}, a * b % secpN = 1 → (a : Scalar) * b = 1 := by
    intro a b h
    have := congrArg (Nat.cast (R := Scalar)) h
    rwa [ZMod.natCast_mod, Nat.cast_mul, Nat.cast_one] at this
  have hi := inv hi
  have hi' := inv hi'
  refine ⟨(((n' : Scalar) * r - m) * r'Inv).val, ZMod.val_lt _, ?_⟩
  have hR'l := hR'.2.1
  have hRl := hR.2.1
  intro contract ss
  constructor
  · refine ⟨_, pushStack_five hl1 (by simp) ?_ (length_eltContract r (hlp _) hlb hls), ?_⟩
    · simp only [List.length_append, List.length_cons, List.length_nil]; omega
    refine (C65_elements c r _ _ _ (hlp _) hlb hls _).2 (.inl ⟨_, _, _, _, _, rfl, rfl, ?_, ?_, hg⟩)
    · simp only [List.length_append, List.length_cons, List.length_nil]; omega
    · refine (hc _ _).2 ⟨_, r', r, rfl, ⟨R', rBytes r, hR', hR, by simp⟩, ?_⟩
      refine signature_of_key C hr' hrn' hr hrn hi hx ?_
      rw [ZMod.natCast_zmod_val]
      linear_combination ((n' : Scalar) * r - m) * hi'
  · unfold recoverKey
    show (revealedS (pushData sig ++ (pushData [] ++ _))) >>= _ = _
    rw [revealedS_data _ (by omega) (by decide)]
    rfl

/-- **C66.** The one key for which an honest claim is enough to stop Alice: its first candidate is zero,
which is no secret key, and the exception is not caught.  Bob can choose it, because Alice sends the
blinding key before Bob chooses the contract key. -/
theorem C66_zero (C : Curve M) (k r m rInv q s : Nat) (w : Scalar) (S : Bytes) (pub : Nat → Option Bytes)
    (c : Interp.Ctx) (buyerPub sellerPub sig target : Bytes) (hk : KnownNonce C k r) (hp : PubOf C pub)
    (hc : ChecksData C m c)
    (hkey : (r * q + 2 * m) % secpN = 0) (hs : 0 < s) (hsn : s < secpN) (hw : w * s = 1)
    (heq : (m : Scalar) + r * q = k * s) (hR : DerInt r (rBytes r)) (hS : DerInt s S)
    (hlp : (C.enc ((q : Scalar) • C.G)).length ≤ 520) (hlb : buyerPub.length ≤ 520) (hls : sellerPub.length ≤ 520)
    (hl1 : sig.length ≤ 520) (hg : c.checkSig sig buyerPub = true) :
    let contract := eltContract r (C.enc ((q : Scalar) • C.G)) buyerPub sellerPub
    ∃ ss, revealScriptSig contract sig ([0x30, UInt8.ofNat (4 + (rBytes r).length + S.length), 0x02,
        UInt8.ofNat (rBytes r).length] ++ rBytes r ++ [0x02, UInt8.ofNat S.length] ++ S) r = .ok ss ∧
      SpendsP2SH c contract ss ∧
      recoverKey pub secpN k m rInv target ss = .error (.raise .valueError) := by
  intro contract
  have hRl := hR.2.1
  have hSl := hS.2.1
  have hlc := length_eltContract r hlp hlb hls
  have hSne : S ≠ [] := by
    obtain ⟨_, _, _, _, e, _⟩ := hS; rw [e]; exact List.cons_ne_nil _ _
  have hv := signature_of_key (q := q) (m := m) C hk.pos hk.lt hs hsn hw
    (by rw [hk.x, Nat.mod_eq_of_lt hk.lt]) heq
  have hss : revealScriptSig contract sig ([0x30, UInt8.ofNat (4 + (rBytes r).length + S.length), 0x02,
        UInt8.ofNat (rBytes r).length] ++ rBytes r ++ [0x02, UInt8.ofNat S.length] ++ S) r =
      .ok (script [.data sig, .data ([0x02, UInt8.ofNat S.length] ++ S), .data [0x30,
        UInt8.ofNat (4 + (rBytes r).length + S.length), 0x02, UInt8.ofNat (rBytes r).length], .num 1, .data contract]) := by
    unfold revealScriptSig
    dsimp only
    rw [if_neg, if_neg]
    · congr 6
      · rw [List.append_assoc, List.append_assoc, List.drop_append, List.drop_of_length_le (by simp)]
        simp
    · simp
    · simp only [List.cons_append, List.nil_append, List.getElem?_cons_succ, List.getElem?_cons_zero, Option.map_some,
        UInt8.toNat_ofNat', ne_eq, Option.some.injEq, Decidable.not_not]
      omega
  refine ⟨_, hss, ?_, ?_⟩
  · refine (C65_unlock c r _ _ _ sig hlp hlb hls hl1).1 _ _ ?_ ?_ hg hss
    · simp only [List.length_append, List.length_cons, List.length_nil]; omega
    · exact (hc _ _).2 ⟨_, r, s, rfl, ⟨rBytes r, S, hR, hS, rfl⟩, hv⟩
  · unfold recoverKey
    show (revealedS (pushData sig ++ (pushData _ ++ _))) >>= _ = _
    rw [revealedS_data _ (by omega) (by simp only [List.length_append, List.length_cons, List.length_nil]; omega)]
    rw [if_neg (by simp), if_neg (by simpa using hSne)]
    show tryCandidates _ _ [candidate _ _ _ _ (-((beVal S : Nat) : Int)), candidate _ _ _ _ ((beVal S : Nat) : Int)] = _
    rw [hS.1]
    have h0 : candidate secpN k m rInv (-(s : Int)) = 0 := by
      apply cast_eq_of_lt (candidate_lt _ _ _ _) (by unfold secpN; decide)
      rw [candidate_cast]
      have hk0 : ((r * q + 2 * m : Nat) : Scalar) = 0 :=
        (ZMod.natCast_eq_zero_iff _ _).2 (Nat.dvd_of_mod_eq_zero hkey)
      push_cast at hk0 ⊢
      linear_combination (rInv : Scalar) * heq - (rInv : Scalar) * hk0
    rw [h0, tryCandidates, hp.2]

/-- **C66.** With the recovered key Alice has the secret of the key in the Bitcoin-side contract: the sum of
Bob's contract key and their own. -/
theorem C66_claim (C : Curve M) (pub : Nat → Option Bytes) (hp : PubOf C pub) (q b a : Nat) (P : M)
    (hb : b < secpN) (hq : (q : Scalar) • C.G = P + (b : Scalar) • C.G)
    (hP : P ≠ 0) (hPA : P + (a : Scalar) • C.G ≠ 0) :
    ∃ d, claimKey secpN q b a = .ok d ∧ pub d = some (C.enc (P + (a : Scalar) • C.G)) := by
  have e1 : (((q + (secpN - b)) % secpN : Nat) : Scalar) • C.G = P := by
    rw [ZMod.natCast_mod, Nat.cast_add, Nat.cast_sub (Nat.le_of_lt hb), ZMod.natCast_self, zero_sub, add_smul,
      neg_smul, hq, add_neg_cancel_right]
  have e2 : ((((q + (secpN - b)) % secpN + a) % secpN : Nat) : Scalar) • C.G = P + (a : Scalar) • C.G := by
    rw [ZMod.natCast_mod, Nat.cast_add, add_smul, e1]
  have hpos : 0 < secpN := by unfold secpN; decide
  have n1 : (q + (secpN - b)) % secpN ≠ 0 := fun h => hP (by rw [← e1, h, Nat.cast_zero, zero_smul])
  have n2 : ((q + (secpN - b)) % secpN + a) % secpN ≠ 0 := fun h => hPA (by rw [← e2, h, Nat.cast_zero, zero_smul])
  refine ⟨((q + (secpN - b)) % secpN + a) % secpN, ?_, ?_⟩
  · unfold claimKey
    dsimp only
    rw [if_neg n1, if_neg n2]
  · rw [hp.1 _ (Nat.pos_of_ne_zero n2) (Nat.mod_lt _ hpos), e2]

end

namespace C66Toy

/-- Half the order, rounded down. -/
def half : Nat := (secpN - 1) / 2
theorem secpN_eq : secpN = 2 * half + 1 := by decide +kernel

/-- The additive group of the scalars with the smaller of the two representatives as x-coordinate. -/
def x (P : Scalar) : Nat := if P.val ≤ half then P.val else secpN - P.val

def curve : Curve Scalar where
  G := 1
  x := x
  enc P := 2 :: beBytes 32 P.val
  order := by intro a h; simpa using h
  encInj := by
    intro P Q h
    have := congrArg beVal (List.cons.inj h).2
    have hlt : ∀ P : Scalar, P.val < 256 ^ 32 := fun P => Nat.lt_trans (ZMod.val_lt P) (by unfold secpN; decide)
    rw [beVal_beBytes_of_lt (hlt P), beVal_beBytes_of_lt (hlt Q)] at this
    exact ZMod.val_injective _ this

/-- The example's nonce. -/
def k : Nat := (secpN + 1) / 2
theorem k_eq : k = half + 1 := by decide +kernel

theorem val_k : ((k : Nat) : Scalar).val = half + 1 := by
  rw [ZMod.val_natCast, k_eq, Nat.mod_eq_of_lt]
  have := secpN_eq
  have : 0 < half := by decide +kernel
  omega

theorem known : KnownNonce curve k half := by
  have hn := secpN_eq
  have hpos : 0 < half := by decide +kernel
  have hG : ((k : Nat) : Scalar) • curve.G = ((k : Nat) : Scalar) := mul_one _
  refine ⟨hpos, by omega, ?_, ?_, ?_⟩
  · rw [hG]
    show x ((k : Nat) : Scalar) = half
    rw [x, val_k, if_neg (by omega)]; omega
  · intro P
    show x (-P) = x P
    have hP := ZMod.val_lt P
    have h0 : P.val = 0 ↔ P = 0 := ZMod.val_eq_zero P
    rw [x, x, ZMod.neg_val]
    split <;> split <;> split <;> simp_all <;> omega
  · intro P h
    rw [hG]
    have hP := ZMod.val_lt P
    change x P % secpN = half at h
    have h1 : x P = half := by
      rw [← h, Nat.mod_eq_of_lt]; unfold x; split <;> omega
    unfold x at h1
    split at h1
    · right
      apply ZMod.val_injective
      rw [ZMod.neg_val, if_neg, val_k]
      · omega
      · intro h; have := val_k; rw [h, ZMod.val_zero] at this; omega
    · left
      apply ZMod.val_injective
      rw [val_k]; omega

def pub (e : Nat) : Option Bytes := if e = 0 then none else some (curve.enc ((e : Scalar) • curve.G))
theorem pubOf : PubOf curve pub := ⟨fun e h _ => by rw [pub, if_neg (by omega)], rfl⟩

open Classical in
/-- A node in which the digest of the message is 1 and an input signature is the public key itself. -/
noncomputable def ctx : Interp.Ctx :=
  ⟨fun s p => s == p, fun sig _ pub => decide (∃ Q r s, curve.enc Q = pub ∧ Der sig r s ∧ Verify curve Q 1 r s),
    id, 2, eltSequence true⟩
theorem checks : ChecksData curve 1 ctx := by
  intro sig pub
  simp only [ctx, decide_eq_true_eq]

theorem derHalf : DerInt half (rBytes half) := by
  refine ⟨beVal_rBytes (by rw [secpN_eq]; omega), by decide +kernel, 0x7f, (rBytes half).tail, by decide +kernel,
    by decide, fun h => absurd h (by decide)⟩

theorem derOne : DerInt 1 [1] := ⟨rfl, by decide, 1, [], rfl, by decide, fun h => absurd h (by decide)⟩

theorem inv : (secpN - 2) * half % secpN = 1 := by decide +kernel

theorem lenEnc (P : Scalar) : (curve.enc P).length ≤ 520 := by
  show (2 :: beBytes 32 P.val : Bytes).length ≤ 520
  simp

/-- An honest claim for the key 1: its `s` is 1. -/
theorem accepted : SpendsP2SH ctx (eltContract half (curve.enc (((1 : Nat) : Scalar) • curve.G)) [5] [6])
    (script [.data [5], .data ([0x02, 1] ++ [1]), .data [0x30, 37, 0x02, UInt8.ofNat (rBytes half).length], .num 1,
      .data (eltContract half (curve.enc (((1 : Nat) : Scalar) • curve.G)) [5] [6])]) := by
  refine ⟨_, pushStack_five (by decide) (by decide) (by decide) (length_eltContract half (lenEnc _) (by decide) (by decide)), ?_⟩
  refine (C65_elements ctx half _ _ _ (lenEnc _) (by decide) (by decide) _).2 (.inl ⟨_, _, _, _, _, rfl, rfl, ?_, ?_, ?_⟩)
  · decide +kernel
  · refine (checks _ _).2 ⟨_, half, 1, rfl, ⟨rBytes half, [1], derHalf, derOne, by decide +kernel⟩, ?_⟩
    refine signature_of_key (k := k) (w := 1) curve known.pos known.lt (by decide) (by unfold secpN; decide) (by simp)
      (by rw [known.x, Nat.mod_eq_of_lt known.lt]) ?_
    rw [k_eq]; push_cast; ring
  · rfl

/-- The hypotheses of `C66_recovers_partial` are met. -/
example : recoverKey pub secpN k 1 (secpN - 2) (curve.enc (((1 : Nat) : Scalar) • curve.G))
    (script [.data [5], .data ([0x02, 1] ++ [1]), .data [0x30, 37, 0x02, UInt8.ofNat (rBytes half).length], .num 1,
      .data (eltContract half (curve.enc (((1 : Nat) : Scalar) • curve.G)) [5] [6])]) = .ok 1 :=
  C66_recovers_partial curve k half 1 (secpN - 2) 1 pub ctx [5] [6] [5] _ 37 known pubOf checks inv (by decide)
    (by unfold secpN; decide) (by decide +kernel) (lenEnc _) (by decide) (by decide) (by decide) (by decide) rfl accepted

/-- Those of `C66_hidden`: the nonce 1. -/
example := C66_hidden curve k half 1 (secpN - 2) 1 1 1 [1] pub ctx [5] [6] [5] [] checks known.pos known.lt inv
  (by decide) (by unfold secpN; decide) (by decide +kernel) (by
    show x (((1 : Nat) : Scalar) * 1) % secpN = 1
    rw [mul_one, x, ZMod.val_natCast, Nat.mod_eq_of_lt (by unfold secpN; decide), if_pos (by decide +kernel)]
    decide +kernel) derHalf derOne lenEnc (by decide) (by decide) (by decide) rfl

/-- Those of `C66_zero`: the key 4, for which `s` is -2. -/
example := C66_zero curve k half 1 (secpN - 2) 4 (secpN - 2) (half : Scalar) (0 :: beBytes 32 (secpN - 2)) pub ctx [5] [6] [5] []
  known pubOf checks (by decide +kernel) (by unfold secpN; decide) (by unfold secpN; decide) (by
    rw [← Nat.cast_mul, mul_comm, ← ZMod.natCast_mod, inv, Nat.cast_one]) (by
    rw [← Nat.cast_mul, ← Nat.cast_mul, ← Nat.cast_add, ← ZMod.natCast_mod, ← ZMod.natCast_mod (k * _)]
    congr 1) derHalf
  (by
    refine ⟨by rw [beVal_zero_cons, beVal_beBytes_of_lt (by unfold secpN; decide)], by simp, 0, _, rfl, by decide, ?_⟩
    intro _ h' t' e
    have : (beBytes 32 (secpN - 2)).head? = some 0xff := by decide +kernel
    rw [e] at this
    cases this; decide) (lenEnc _) (by decide) (by decide) (by decide) rfl

end C66Toy

/-- **C66.** The full claim is false. -/
theorem C66_statement_false : ¬ C66_statement := by
  intro h
  obtain ⟨h1, h2⟩ := C66_buried C66Toy.ctx C66Toy.half _ [5] [6] _ C66Toy.pub secpN C66Toy.k 1 (secpN - 2)
    (C66Toy.curve.enc (((1 : Nat) : Scalar) • C66Toy.curve.G)) (C66Toy.lenEnc _) (by decide) (by decide) C66Toy.accepted
  have := h _ C66Toy.curve C66Toy.k C66Toy.half 1 (secpN - 2) 1 C66Toy.pub C66Toy.ctx [5] [6] _ C66Toy.known C66Toy.pubOf
    C66Toy.checks C66Toy.inv (by decide) (by unfold secpN; decide) (C66Toy.lenEnc _) (by decide) (by decide) rfl h1
  rw [h2] at this
  cases this

end Verif
