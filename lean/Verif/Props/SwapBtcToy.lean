import Verif.Props.SwapBtc
import Verif.Props.SwapSpendToy
/-
C77 holds of something: a swap that goes through, and a reclaim.
-/
namespace Verif.SwapBtc.Toy
open Verif Spec CrossSwap SwapSpend Verif.Toy SwapSpend.Toy

/-- As in C76, with all sums of public keys. -/
def W2 : World := { W with addPubs := fun a b =>
  if (beVal (a.drop 1) + beVal (b.drop 1)) % secpN = 0 then .error .valueError else .ok (2 :: b32 ((beVal (a.drop 1) + beVal (b.drop 1)) % secpN)) }

/-- The digest of message 01 is 1; other hashes keep the last 32 bytes. -/
def B : Btc where
  sha256 b := if b = [1] then b32 1 else (b.reverse ++ List.replicate 32 0).take 32
  sighash s _ _ _ _ := s
  serialize t := if t.vin.length = 1 then .ok [] else .error .valueError
  pub := C66Toy.pub
  k := C66Toy.k
  rInv := secpN - 2
  order := secpN

theorem hash (b : Bytes) : (B.sha256 b).length = 32 := by
  simp only [B]
  split
  · simp [b32]
  · simp

theorem keySizes2 : KeySizes env W2 where
  pub := keySizes.pub
  sum a b p h := by
    simp only [W2] at h
    split at h
    · cases h
    · cases h; simp [b32]
  sig := keySizes.sig
  reveal := keySizes.reveal
  hash := keySizes.hash

theorem adds2 : Adds env W2 := by
  intro a b k h
  have h' : W.addKeys a b = .ok k := h
  simp only [W] at h'
  split at h'
  · rename_i hab
    obtain ⟨rfl, rfl⟩ := hab
    cases h'
    exact ⟨by decide, by decide +kernel⟩
  · cases h'

theorem addPubs_enc (P Q : Scalar) : W2.addPubs (C66Toy.curve.enc P) (C66Toy.curve.enc Q) =
    if P + Q = 0 then .error .valueError else .ok (C66Toy.curve.enc (P + Q)) := by
  have hlt : ∀ P : Scalar, beVal (beBytes 32 P.val) = P.val :=
    fun P => beVal_beBytes_of_lt (Nat.lt_trans (ZMod.val_lt P) (by unfold secpN; decide))
  have he : ∀ P, C66Toy.curve.enc P = 2 :: beBytes 32 P.val := fun _ => rfl
  simp only [W2, he, List.drop_succ_cons, List.drop_zero, hlt, ← ZMod.val_add]
  simp only [ZMod.val_eq_zero]
  rfl

theorem onCurve : OnCurve C66Toy.curve env W2 where
  pub e h0 h1 := by
    refine ⟨?_, ?_⟩
    · show (List.length (beBytes 32 e) == 32) = true
      simp
    · show 2 :: beBytes 32 e = 2 :: beBytes 32 ((e : Scalar) • (1 : Scalar)).val
      rw [smul_eq_mul, mul_one, ZMod.val_natCast, Nat.mod_eq_of_lt h1]
  add P Q p h := by
    rw [addPubs_enc] at h
    split at h
    · cases h
    · rename_i hne
      cases h
      exact ⟨hne, rfl⟩
  sum P Q h := by rw [addPubs_enc, if_neg h]

theorem isKey {n : Nat} (h0 : 0 < n) (h1 : n < secpN) : IsKey (b32 n) := by
  have : beVal (b32 n) = n := beVal_beBytes_of_lt (Nat.lt_trans h1 (by unfold secpN; decide))
  exact ⟨by simp [b32], by omega, by omega⟩

def x : AliceBtc := ⟨b32 11, 2 :: b32 12, [0x51]⟩
def y : BobBtc := ⟨b32 12, 2 :: b32 11, [0x52]⟩
def btcDeposit (v : Int) : BtcTx := { vin := [], vout := [⟨5, [0x51]⟩, ⟨v, p2wsh B (btcContract (2 :: b32 9) (2 :: b32 12))⟩], witness := [] }

/-- Alice accepts the deposit with six confirmations, not with five, and not another amount. -/
example : aliceChecks env W2 B alice x 6 (btcDeposit 101000000) = .ok 1 := by decide +kernel
example : aliceChecks env W2 B alice x 5 (btcDeposit 101000000) = .error .die := by decide +kernel
example : aliceChecks env W2 B alice x 6 (btcDeposit 101000001) = .error .die := by decide +kernel
example : FirstPays ([0x00, 0x20] ++ B.sha256 (btcContract (2 :: b32 9) (2 :: b32 12))) 101000000 (btcDeposit 101000000).vout 1 := by
  obtain ⟨-, p, hp, -, h⟩ := (C77_checks (E := env) (W := W2) (a := alice) (x := x) hash).1
    (by decide +kernel : aliceChecks env W2 B alice x 6 (btcDeposit 101000000) = .ok 1)
  have : W2.addPubs alice.contractPub (env.z.pubOf x.key) = .ok (2 :: b32 9) := by decide +kernel
  rw [this] at hp
  cases hp
  exact h

theorem claims2 : ∃ t, bobClaim env W2 bob (b32 8) 2 (deposit 101000000) = .ok t := made_of (by decide +kernel)

/-- The swap goes through: Bob claims the asset, and from that claim Alice claims the bitcoins, which the node accepts. -/
theorem swapped : ∃ t t' c, bobClaim env W2 bob (b32 8) 2 (deposit 101000000) = .ok t ∧
    aliceClaim env W2 B alice x (b32 8) t (b32 21) 1 = .ok t' ∧ BtcSwept [0x51] (b32 21) 1 0xffffffff t' ∧
    SpendsP2WSH B c (B.sha256 (btcContract (2 :: b32 9) (2 :: b32 12))) (t'.witness.getD 0 []) := by
  obtain ⟨t, ht⟩ := claims2
  obtain ⟨-, p, n, o, bf, abf, h1, -, h3, -⟩ := C76_claim wireSizes formats rewinds keySizes2 SpendAddr.Toy.confDst_ok ht
  have hp : W2.addPubs (env.z.pubOf bob.contractKey) (env.z.pubOf bob.blindingKey) = .ok (2 :: b32 1) := by decide +kernel
  have hc : ∀ c, Checks env W2 c t (ctx 0xffffffff) := fun c =>
    let k : Checks env W c t (ctx 0xffffffff) := SwapSpend.Toy.checks h3.rest.1 (sequence_of h3)
    ⟨k.version, k.sequence, k.sig, k.data⟩
  have hN : (12 : Nat) < secpN := by unfold secpN; decide
  obtain ⟨t', h⟩ := C77_honest (C := C66Toy.curve) (a := alice) (x := x) (b := bob) (B := B) (btcTxid := b32 21) (n := 1) (c := ctx 0xffffffff)
    onCurve adds2 C66Toy.pubOf rfl keySizes2 C66Toy.known C66Toy.inv
    (by rw [show beVal (B.sha256 [1]) = 1 by decide +kernel]; exact checksData _)
    (isKey (by unfold secpN; decide) (by unfold secpN; decide)) (isKey (by decide) (by omega)) (isKey (by decide) (by omega))
    (isKey (by decide) (by omega)) (isKey (by decide) (by omega)) (by decide +kernel) rfl (by decide +kernel) (by decide +kernel)
    (by decide +kernel) (by decide +kernel) (by decide) (by decide)
    (by
      intro t hs
      refine ⟨[], ?_⟩
      show (if t.vin.length = 1 then _ else _) = _
      rw [hs.1]; rfl) hp (hc _) ht
  obtain ⟨g1, p', g2, g3⟩ := C77_claim (C := C66Toy.curve) (P := ((secpN - 2 : Nat) : Scalar) • C66Toy.curve.G) onCurve C66Toy.pubOf rfl keySizes2
    (isKey (by decide) (by omega)) (isKey (by decide) (by omega))
    (onCurve.pub (secpN - 2) (by unfold secpN; decide) (by unfold secpN; decide)).2 (by decide) h
  have : W2.addPubs alice.contractPub (env.z.pubOf x.key) = .ok (2 :: b32 9) := by decide +kernel
  rw [this] at g2
  cases g2
  refine ⟨t, t', ctx 0xffffffff, ht, h, g1, g3 _ ⟨?_, ?_, ?_⟩⟩
  · rw [g1.2.2.1]; rfl
  · intro i hi
    rw [g1.1] at hi
    cases hi
    rfl
  · intro key _
    show ((2 :: key).take 80 ++ [1] == (2 :: key).take 80 ++ [1]) = true
    simp

def listed : List JsonOut := [⟨0, none⟩, ⟨3, some [[0x51]]⟩, ⟨4, some [[0x51], p2wsh B (btcContract (2 :: b32 9) (2 :: b32 12))]⟩]

theorem isListed : FirstListed ([0x00, 0x20] ++ B.sha256 (btcContract (2 :: b32 9) (2 :: b32 12))) listed 4 := by
  rw [← p2wsh_eq hash, ← findJson_ok]
  decide +kernel

/-- Bob's reclaim, accepted under its lock. -/
example : ∃ t c, bobReclaim env W2 B bob y (b32 21) listed = .ok t ∧ BtcSwept [0x52] (b32 21) 4 15 t ∧
    SpendsP2WSH B c (B.sha256 (btcContract (2 :: b32 9) (2 :: b32 12))) (t.witness.getD 0 []) := by
  have hp : W2.addPubs (env.z.pubOf bob.contractKey) y.alicePub = .ok (2 :: b32 9) := by decide +kernel
  obtain ⟨t, h⟩ := C77_reclaim_goes (E := env) (W := W2) (B := B) (b := bob) (x := y) (txid := b32 21) hash keySizes2 (by decide) hp isListed (by decide) (by decide)
    (by
      intro t hs
      refine ⟨[], ?_⟩
      show (if t.vin.length = 1 then _ else _) = _
      rw [hs.1]; rfl)
  obtain ⟨p, n, g0, g1, g2, g3, g4⟩ := C77_reclaim hash keySizes2 (by decide) h
  rw [hp] at g0
  cases g0
  have hn : n = 4 := by
    have a := findJson_ok.2 g1
    have b := findJson_ok.2 isListed
    change findJson ([0x00, 0x20] ++ B.sha256 (btcContract (2 :: b32 9) (2 :: b32 12))) listed = _ at a
    rw [b] at a
    cases a
    rfl
  subst hn
  refine ⟨t, ctx 15, h, g2, g4 _ ⟨?_, ?_, ?_⟩⟩
  · rw [g2.2.2.1]; rfl
  · intro i hi
    rw [g2.1] at hi
    cases hi
    rfl
  · intro key _
    show ((2 :: key).take 80 ++ [1] == (2 :: key).take 80 ++ [1]) = true
    simp

end Verif.SwapBtc.Toy
