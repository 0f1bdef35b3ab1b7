import Verif.Spec.Zkp
import Mathlib.Tactic.Ring
import Mathlib.Tactic.NormNum
import Mathlib.Data.ZMod.Basic
/-
A toy library that keeps every promise of `Spec.Zkp`: points are scalars, the base point is
1, proofs contain their secrets.  It serves as witness that the promises are consistent and
for concrete runs.
-/
namespace Verif
namespace Toy

/-- Number of a string as a scalar. -/
def num (b : Bytes) : Nat := beVal b % secpN

/-- A generator object: a mark, then the scalar. -/
def encGen (x : Nat) : Bytes := List.replicate 31 0 ++ [1] ++ beBytes 32 x
def encCom (x : Nat) : Bytes := List.replicate 32 0 ++ beBytes 32 x
def decPt (g : Bytes) : Nat := beVal (g.drop 32)

def genSer (g : Bytes) : Option Bytes :=
  if g.length = 64 ∧ g.take 32 = List.replicate 31 0 ++ [1] then some (10 :: g.drop 32)
  else if g.length = 64 then some (11 :: g.drop 32) else none

def lastBlind (vs : List Nat) (rs bs : List Bytes) (nInputs : Nat) : Nat :=
  let ms := (vs.zip (rs.zip bs.dropLast)).map fun x => x.1 * num x.2.1 + num x.2.2
  let last := vs.getLastD 0 * num (rs.getLastD [])
  ((ms.take nInputs).sum + (secpN - ((ms.drop nInputs).sum + last) % secpN)) % secpN

def proofOf (a : RangeproofArgs) : Bytes := 1 :: (a.blind ++ beBytes 8 a.value ++ a.message)

def rewind (p : Bytes) : Option (Bytes × Nat × Bytes × Nat) :=
  if p.length = 105 then
    some ((p.drop 1).take 32, beVal ((p.drop 33).take 8), p.drop 41 ++ List.replicate 4032 0, 64)
  else none

/-- Position of a tag in concatenated 32-byte tags. -/
def findTag (tag : Bytes) : Nat → Bytes → Option Nat
  | 0, _ => none
  | n + 1, tags => if tags.take 32 = tag then some 0 else (findTag tag n (tags.drop 32)).map (· + 1)

def zkp : Zkp where
  generate a := some (encGen (num a))
  generateBlinded a r := some (encGen ((num a + num r) % secpN))
  genParse s := if s.length = 33 ∧ s.head? = some 10 then some (List.replicate 31 0 ++ [1] ++ s.drop 1) else none
  genSerialize := genSer
  commit b v g := some (encCom ((v * decPt g + num b) % secpN))
  commitSerialize c := if c.length = 64 then some (8 :: c.drop 32) else none
  commitParse s := if s.length = 33 ∧ s.head? = some 8 then some (List.replicate 32 0 ++ s.drop 1) else none
  blindSum vs rs bs _ nInputs := some (beBytes 32 (lastBlind vs rs bs nInputs))
  rangeSign a := if (proofOf a).length ≤ 5134 then some (proofOf a) else none
  rangeRewind _ c p _ g := (rewind p).filter fun x => c == encCom ((x.2.1 * decPt g + num x.1) % secpN)
  surjInit tags n _ tag _ _ := (findTag tag n tags).map fun i => ([1], i)
  surjGenerate p _ _ _ _ _ _ := some p
  surjVerify _ _ _ _ := true
  surjSerialize p := if p.length ≤ 8258 then some p else none
  pubValid pk := pk.length == 33 && pk.head? == some 2
  secValid k := k.length == 32
  pubOf k := 2 :: k
  ecdh k pk := some (beBytes 32 (num k * num (pk.drop 1) % secpN))
  generate_len a g h := by cases h; simp [encGen]
  generateBlinded_len a r g h := by cases h; simp [encGen]
  genParse_len s g h := by
    split at h
    · cases h; simp; omega
    · cases h
  genSerialize_len g b h := by
    unfold genSer at h
    split at h
    · cases h; simp; omega
    · split at h
      · cases h; simp; omega
      · cases h
  commit_len b v g c h := by cases h; simp [encCom]
  commitSerialize_len c b h := by
    split at h
    · cases h; simp; omega
    · cases h
  commitParse_len s c h := by
    split at h
    · cases h; simp; omega
    · cases h
  blindSum_len v r b t i x h := by cases h; simp
  rangeRewind_len n c p e g x h := by
    replace h := (Option.filter_eq_some_iff.1 h).1
    unfold rewind at h
    split at h
    · rename_i hl
      cases h
      refine ⟨by simp; omega, ?_, by simp only [List.length_append, List.length_drop, List.length_replicate]; omega⟩
      have := beVal_lt ((p.drop 33).take 8)
      have hlen : ((p.drop 33).take 8).length = 8 := by simp; omega
      rw [hlen] at this
      exact this
    · cases h

theorem secpN_lt : secpN < 256 ^ 32 := by unfold secpN; norm_num
theorem secpN_pos : 0 < secpN := by unfold secpN; norm_num

theorem formats : Formats zkp where
  genPrefix g s h := by
    simp only [zkp, genSer] at h
    split at h
    · cases h; exact .inl rfl
    · split at h
      · cases h; exact .inr rfl
      · cases h
  comPrefix c s h := by
    simp only [zkp] at h
    split at h
    · cases h; exact .inl rfl
    · cases h
  proof a p h := by
    simp only [zkp] at h
    split at h
    · cases h; simp [proofOf]
    · cases h
  genParse g s h hg := by
    obtain ⟨a, r, hg⟩ := hg
    cases hg
    simp only [zkp, genSer] at h
    rw [if_pos (by simp [encGen])] at h
    cases h
    simp [zkp, encGen]
  comParse c s h hc := by
    obtain ⟨b, v, g, hc⟩ := hc
    cases hc
    simp only [zkp] at h
    rw [if_pos (by simp [encCom])] at h
    cases h
    simp [zkp, encCom]
  genCanonical s g h := by
    simp only [zkp] at h
    split at h
    · rename_i hs
      cases h
      obtain ⟨hl, hh⟩ := hs
      cases s with
      | nil => simp at hl
      | cons x t =>
        simp at hh hl
        subst hh
        simp [zkp, genSer, hl]
    · cases h
  zeroGen a r g s hg hs := by
    cases hg
    simp only [zkp, genSer] at hs
    rw [if_pos (by simp [encGen])] at hs
    cases hs
    simp only [zkp, genSer]
    rw [if_neg (by decide), if_pos (by decide)]
    simp

theorem rewinds : Rewinds zkp where
  rewind a p cs c gs g hp hm hb hv hcom hcs hcp hgs hgp := by
    simp only [zkp] at hp
    split at hp
    case isFalse => cases hp
    cases hp
    refine ⟨a.message ++ List.replicate 4032 0, ?_, by rw [List.take_append_of_le_length (by omega), List.take_of_length_le (by omega)]⟩
    have hc : c = encCom ((a.value * decPt a.gen + num a.blind) % secpN) := by
      have hcom : some (encCom ((a.value * decPt a.gen + num a.blind) % secpN)) = some a.commit := hcom
      rw [← Option.some.inj hcom] at hcs
      simp only [zkp] at hcs
      rw [if_pos (by simp [encCom])] at hcs
      cases hcs
      simp only [zkp] at hcp
      rw [if_pos (by simp [encCom])] at hcp
      cases hcp
      simp [encCom]
    have hg : decPt g = decPt a.gen := by
      have hd : gs.drop 1 = a.gen.drop 32 := by
        simp only [zkp, genSer] at hgs
        split at hgs
        · cases hgs; rfl
        · split at hgs
          · cases hgs; rfl
          · cases hgs
      simp only [zkp] at hgp
      split at hgp
      · cases hgp
        unfold decPt
        rw [List.drop_left' (by simp), hd]
      · cases hgp
    show (rewind (proofOf a)).filter _ = _
    rw [Option.filter_eq_some_iff]
    refine ⟨?_, by simp [hc, hg]⟩
    have hl : (proofOf a).length = 105 := by simp [proofOf]; omega
    rw [rewind, if_pos hl]
    have h1 : (proofOf a).drop 1 = a.blind ++ (beBytes 8 a.value ++ a.message) := by simp [proofOf]
    have h2 : (proofOf a).drop 33 = beBytes 8 a.value ++ a.message := by
      rw [show (33 : Nat) = 1 + 32 from rfl, ← List.drop_drop, h1, List.drop_left' hb]
    have h3 : (proofOf a).drop 41 = a.message := by
      rw [show (41 : Nat) = 33 + 8 from rfl, ← List.drop_drop, h2, List.drop_left' (by simp)]
    rw [h1, h2, h3, List.take_left' hb, List.take_left' (by simp), beVal_beBytes_of_lt (by simpa using hv)]
  pubValid k h := by simp [zkp] at h ⊢; exact h
  ecdh k l _ _ := by simp [zkp, Nat.mul_comm]

theorem wireSizes : WireSizes zkp where
  rangeSize a p h := by
    simp only [zkp] at h
    split at h
    · cases h; assumption
    · cases h
  surjSize p s h := by
    simp only [zkp] at h
    split at h
    · cases h; assumption
    · cases h
  pubPrefix k h := .inl rfl

theorem num_cast (b : Bytes) : ((num b : Nat) : Scalar) = scalar b := by
  unfold num scalar
  exact ZMod.natCast_mod _ _

theorem num_lt (b : Bytes) : num b < 256 ^ 32 := lt_trans (Nat.mod_lt _ secpN_pos) secpN_lt
theorem mod_lt' (x : Nat) : x % secpN < 256 ^ 32 := lt_trans (Nat.mod_lt _ secpN_pos) secpN_lt

theorem decPt_encGen (x : Nat) (h : x < 256 ^ 32) : decPt (encGen x) = x := by
  unfold decPt encGen
  rw [List.drop_left' (by simp), beVal_beBytes_of_lt h]
theorem decPt_encCom (x : Nat) (h : x < 256 ^ 32) : decPt (encCom x) = x := by
  unfold decPt encCom
  rw [List.drop_left' (by simp), beVal_beBytes_of_lt h]

theorem openings_concat {vs rs bs} (v : Nat) (r b : Bytes) (h1 : vs.length = bs.length) (h2 : rs.length = bs.length) :
    openings (vs ++ [v]) (rs ++ [r]) (bs ++ [b]) = openings vs rs bs ++ [⟨v, r, b⟩] := by
  unfold openings
  rw [List.zip_append (by omega), List.zip_append (by simp; omega)]
  simp

theorem cast_sub_mod (a b : Nat) :
    (((a + (secpN - b % secpN)) % secpN : Nat) : Scalar) = (a : Scalar) - (b : Scalar) := by
  rw [ZMod.natCast_mod, Nat.cast_add, Nat.cast_sub (le_of_lt (Nat.mod_lt _ secpN_pos)), ZMod.natCast_mod]
  rw [ZMod.natCast_self]
  ring

theorem sum_masks : ∀ (l : List (Nat × Bytes × Bytes)),
    (((l.map fun x => x.1 * num x.2.1 + num x.2.2).sum : Nat) : Scalar)
      = ((l.map fun x => (⟨x.1, x.2.1, x.2.2⟩ : Opening)).map Opening.mask).sum
  | [] => by simp
  | x :: l => by
    have ih := sum_masks l
    simp only [List.map_cons, List.sum_cons, Nat.cast_add, Nat.cast_mul, num_cast, ih]
    rfl

theorem lastBlind_spec (vs : List Nat) (rs bs : List Bytes) (n k : Nat) (hv : vs.length = n) (hr : rs.length = n)
    (hb : bs.length = n) (hk : k < n) :
    (((openings vs rs (bs.dropLast ++ [beBytes 32 (lastBlind vs rs bs k)])).take k).map Opening.mask).sum
      = (((openings vs rs (bs.dropLast ++ [beBytes 32 (lastBlind vs rs bs k)])).drop k).map Opening.mask).sum := by
  rcases List.eq_nil_or_concat vs with rfl | ⟨vs, v, rfl⟩
  · simp at hv; omega
  rcases List.eq_nil_or_concat rs with rfl | ⟨rs, r, rfl⟩
  · simp at hr; omega
  rcases List.eq_nil_or_concat bs with rfl | ⟨bs, b, rfl⟩
  · simp at hb; omega
  simp only [List.concat_eq_append, List.dropLast_concat, List.length_append, List.length_singleton] at *
  have hx : scalar (beBytes 32 (lastBlind (vs ++ [v]) (rs ++ [r]) (bs ++ [b]) k))
      = (((openings vs rs bs).take k).map Opening.mask).sum
        - ((((openings vs rs bs).drop k).map Opening.mask).sum + (v : Scalar) * scalar r) := by
    unfold scalar lastBlind
    rw [beVal_beBytes_of_lt (mod_lt' _)]
    have hz : (vs ++ [v]).zip ((rs ++ [r]).zip (bs ++ [b]).dropLast) = vs.zip (rs.zip bs) := by
      rw [List.dropLast_concat]
      have h1 : (rs ++ [r]).zip bs = rs.zip bs := by
        have := List.zip_append (l₁ := rs) (r₁ := [r]) (l₂ := bs) (r₂ := []) (by omega)
        simpa using this
      rw [h1]
      have := List.zip_append (l₁ := vs) (r₁ := [v]) (l₂ := rs.zip bs) (r₂ := []) (by simp; omega)
      simpa using this
    rw [hz, cast_sub_mod]
    simp only [List.getLastD_concat, Nat.cast_add, Nat.cast_mul, num_cast]
    rw [← List.map_take, ← List.map_drop, sum_masks, sum_masks]
    unfold openings
    rw [List.map_take, List.map_drop]
    rfl
  rw [openings_concat v r _ (by omega) (by omega)]
  have hl : (openings vs rs bs).length = bs.length := by simp [openings]; omega
  rw [List.take_append_of_le_length (by omega), List.drop_append_of_le_length (by omega), List.map_append,
    List.sum_append]
  simp only [List.map_cons, List.map_nil, List.sum_cons, List.sum_nil, Opening.mask, hx]
  ring

/-- The toy library does Pedersen commitments in the group of scalars. -/
def pedersen : Pedersen zkp Scalar where
  G := 1
  H a := scalar a
  genPt g := (decPt g : Scalar)
  genRead s := (beVal (s.drop 1) : Scalar)
  comPt c := (decPt c : Scalar)
  comRead s := (beVal (s.drop 1) : Scalar)
  generate a g h := by
    cases h
    rw [decPt_encGen _ (num_lt a), num_cast]
  generateBlinded a r g h := by
    cases h
    rw [decPt_encGen _ (mod_lt' _), ZMod.natCast_mod, Nat.cast_add, num_cast, num_cast]
    simp
  commit b v g c h := by
    cases h
    rw [decPt_encCom _ (mod_lt' _), ZMod.natCast_mod, Nat.cast_add, Nat.cast_mul, num_cast]
    simp
  genSerialize g s h := by
    simp only [zkp, genSer] at h
    split at h
    · cases h; rfl
    · split at h
      · cases h; rfl
      · cases h
  commitSerialize c s h := by
    simp only [zkp] at h
    split at h
    · cases h; rfl
    · cases h
  blindSum vs rs bs n k x h1 h2 h3 h4 h := by
    cases h
    exact lastBlind_spec vs rs bs n k h1 h2 h3 h4

theorem rewindSound : RewindSound pedersen := by
  intro nonce cs c proof extra g b v msg n hcp h
  have h2 : (c == encCom ((v * decPt g + num b) % secpN)) = true := (Option.filter_eq_some_iff.1 h).2
  have hc : c = encCom ((v * decPt g + num b) % secpN) := by simpa using h2
  simp only [zkp] at hcp
  split at hcp
  · rename_i hs
    have e : List.replicate 32 0 ++ cs.drop 1 = c := Option.some.inj hcp
    have hd : cs.drop 1 = c.drop 32 := by rw [← e, List.drop_left' (by simp)]
    show ((beVal (cs.drop 1) : Nat) : Scalar) = (v : Scalar) • ((decPt g : Nat) : Scalar) + scalar b • (1 : Scalar)
    rw [hd, hc]
    have : beVal ((encCom ((v * decPt g + num b) % secpN)).drop 32) = (v * decPt g + num b) % secpN :=
      decPt_encCom _ (mod_lt' _)
    rw [this, ZMod.natCast_mod, Nat.cast_add, Nat.cast_mul, num_cast]
    simp
  · cases hcp

end Toy
end Verif

namespace Verif
namespace Toy

/-- Toy hash functions. -/
def hash : HashFn := ⟨fun x => beBytes 32 (beVal x), fun _ => by simp⟩
def mid : MidFn := ⟨fun x => beBytes 32 (beVal (x.take 32) + beVal (x.drop 32)), fun _ => by simp⟩
def env : Env := ⟨hash, mid, zkp⟩

/-- Small numbers as 32 bytes, as amounts and as pubkeys. -/
def b32 (n : Nat) : Bytes := beBytes 32 n
def amt (n : Nat) : Bytes := 1 :: beBytes 8 n
def ast (n : Nat) : Bytes := 1 :: beBytes 32 n
def pub (n : Nat) : Bytes := 2 :: beBytes 32 n

/-- A transaction with one input and outputs of the given assets and amounts. -/
def tx (outs : List (Nat × Nat)) (iss : Issuance := {}) : Tx :=
  ⟨2, [{ prevout := ⟨b32 9, 0⟩, assetIssuance := iss }],
    outs.map fun o => { nAsset := ast o.1, nValue := amt o.2, scriptPubKey := [0x51] }, 0, {}⟩

end Toy
end Verif
