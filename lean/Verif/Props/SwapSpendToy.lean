import Verif.Props.SwapSpend
/-
C76 holds of something: a deposit, its claim and its reclaim.
-/
namespace Verif.SwapSpend.Toy
open Verif Spec CrossSwap SpendAddr Verif.Toy

/-- A hash that keeps the last twenty bytes, signatures that show the public key, one sum of keys, the
nonce of C66. -/
def W : World where
  hash160 b := (b.reverse ++ List.replicate 20 0).take 20
  sign k _ := (2 :: k).take 80
  addKeys a b := if a = b32 (secpN - 2) ∧ b = b32 3 then .ok (b32 1) else .error .valueError
  addPubs a b := if a = 2 :: b32 (secpN - 2) ∧ b = 2 :: b32 3 then .ok (2 :: b32 1) else .error .valueError
  revealSign _ := [0x30, 37, 0x02, 32] ++ beBytes 32 C66Toy.half ++ [0x02, 1, 1]
  r := C66Toy.half
  asset := b32 5

theorem keySizes : KeySizes env W where
  pub k h := by
    have h : (k.length == 32) = true := h
    have h : k.length = 32 := by simpa using h
    show (2 :: k).length ≤ 65
    simp [h]
  sum a b p h := by
    simp only [W] at h
    split at h
    · cases h; decide
    · cases h
  sig k d := by
    show ((2 :: k).take 80).length ≤ 80
    rw [List.length_take]
    exact Nat.min_le_left _ _
  reveal k := by simp [W]
  hash b := by simp [W]

theorem adds : Adds env W := by
  intro a b k h
  simp only [W] at h ⊢
  split at h
  · rename_i hab
    obtain ⟨rfl, rfl⟩ := hab
    cases h
    exact ⟨by decide, rfl⟩
  · cases h

def bob : Bob := ⟨b32 (secpN - 2), b32 3, b32 6, 2 :: b32 7, SpendAddr.Toy.confDst, b32 30, fun k => b32 (k % 1000 + 40)⟩
def alice : Alice := ⟨b32 7, b32 3, 2 :: b32 (secpN - 2), 2 :: b32 6, SpendAddr.Toy.confDst, b32 30, fun k => b32 (k % 1000 + 40)⟩
def contract : Bytes := eltContract C66Toy.half (2 :: b32 1) (2 :: b32 6) (2 :: b32 7)

/-- The deposit: so much to the contract, hidden, and another output. -/
@[irreducible] def deposit (v : Nat) : Tx :=
  (blindTransaction env { descs := [⟨b32 5, v + 3, b32 3, b32 4⟩], pubkeys := [Verif.Toy.pub 4, Verif.Toy.pub 3, []], rand := fun k => b32 (k + 5) }
    ⟨2, [{ prevout := ⟨b32 9, 0⟩ }], [{ nAsset := ast 5, nValue := amt 2, scriptPubKey := [0x51] },
      { nAsset := ast 5, nValue := amt v, scriptPubKey := p2sh W contract }, { nAsset := ast 5, nValue := amt 1 }], 0, ⟨[{}], [{}, {}, {}]⟩⟩).2

/-- The transaction, if there is one. -/
def made (x : Except CrossSwap.Stop Tx) : Option Tx := match x with | .ok t => some t | _ => none

theorem made_of {x : Except CrossSwap.Stop Tx} (h : (made x).isSome = true) : ∃ t, x = .ok t := by
  unfold made at h
  split at h
  · exact ⟨_, rfl⟩
  · cases h

theorem claims : ∃ t, bobClaim env W bob (b32 8) 2 (deposit 101000000) = .ok t := made_of (by decide +kernel)
theorem reclaims : ∃ t, aliceReclaim env W alice (b32 8) (deposit 101000000) = .ok t := made_of (by decide +kernel)

/-- Not with one confirmation, and not another amount. -/
example (t : Tx) : bobClaim env W bob (b32 8) 1 (deposit 101000000) ≠ .ok t := by
  intro h
  have : made (bobClaim env W bob (b32 8) 1 (deposit 101000000)) = none := by decide +kernel
  rw [h] at this
  cases this
example (t : Tx) : bobClaim env W bob (b32 8) 2 (deposit 101000001) ≠ .ok t := by
  intro h
  have : made (bobClaim env W bob (b32 8) 2 (deposit 101000001)) = none := by decide +kernel
  rw [h] at this
  cases this

open Classical in
/-- A node that takes the signatures of `W`. -/
noncomputable def ctx (sequence : Nat) : Interp.Ctx :=
  ⟨fun s p => s == p.take 80 ++ [1], fun sig _ pub => decide (∃ Q r s, C66Toy.curve.enc Q = pub ∧ Der sig r s ∧ Verify C66Toy.curve Q 1 r s),
    id, 2, sequence⟩

theorem checksData (q : Nat) : ChecksData C66Toy.curve 1 (ctx q) := by
  intro sig pub
  simp only [ctx, decide_eq_true_eq]

theorem enc_one : C66Toy.curve.enc (((1 : Nat) : Scalar) • C66Toy.curve.G) = 2 :: b32 1 := by
  show 2 :: beBytes 32 (((1 : Nat) : Scalar) • (1 : Scalar)).val = _
  rw [smul_eq_mul, mul_one, ZMod.val_natCast, Nat.mod_eq_of_lt (by unfold secpN; decide)]
  rfl

theorem rBytes_half : rBytes C66Toy.half = beBytes 32 C66Toy.half := by decide +kernel

theorem revealed : (ctx q).checkData (W.revealSign k) [1] (2 :: b32 1) = true := by
  refine (checksData q _ _).2 ⟨((1 : Nat) : Scalar) • C66Toy.curve.G, C66Toy.half, 1, enc_one, ⟨rBytes C66Toy.half, [1], C66Toy.derHalf, C66Toy.derOne, ?_⟩, ?_⟩
  · rw [rBytes_half]
    show [0x30, 37, 0x02, 32] ++ _ ++ _ = _
    simp
  · refine signature_of_key (k := C66Toy.k) (w := 1) C66Toy.curve C66Toy.known.pos C66Toy.known.lt (by decide) (by unfold secpN; decide) (by simp)
      (by rw [C66Toy.known.x, Nat.mod_eq_of_lt C66Toy.known.lt]) ?_
    rw [C66Toy.k_eq]; push_cast; ring

theorem checks {c : Bytes} {q : Nat} {t : Tx} (hv : t.nVersion = 2) (hs : ∀ i, t.vin[0]? = some i → i.nSequence = q) :
    Checks env W c t (ctx q) where
  version := hv
  sequence := hs
  sig key digest _ _ := by
    show ((2 :: key).take 80 ++ [1] == (2 :: key).take 80 ++ [1]) = true
    simp
  data a b key h := by
    simp only [W] at h
    split at h
    · cases h
      exact revealed
    · cases h

theorem sequence_of {asset id : Bytes} {d : Addr} {n q : Nat} {t : Tx} (h : Swept asset d id n q t) (i : TxIn) (hi : t.vin[0]? = some i) :
    i.nSequence = q := by
  have := congrArg (fun l => l[0]?) h.input
  simp only [List.getElem?_map, hi] at this
  exact (Prod.mk.inj (Prod.mk.inj (Option.some.inj this)).2).1

/-- All of C76 for the claim: it is accepted, and tells Alice the key, 1. -/
example : ∃ t c, bobClaim env W bob (b32 8) 2 (deposit 101000000) = .ok t ∧
    Interp.SpendsP2SH c contract (t.vin.getD 0 default).scriptSig ∧
    recoverKey C66Toy.pub secpN C66Toy.k 1 (secpN - 2) (2 :: b32 1) (t.vin.getD 0 default).scriptSig = .ok 1 := by
  obtain ⟨t, ht⟩ := claims
  obtain ⟨-, p, n, o, bf, abf, h1, -, h3, -⟩ := C76_claim wireSizes formats rewinds keySizes SpendAddr.Toy.confDst_ok ht
  have hc : ∀ c, Checks env W c t (ctx 0xffffffff) := fun c => checks h3.rest.1 (sequence_of h3)
  obtain ⟨p', n', o', g1, -, -, -, g2⟩ := C76_claim_unlocks keySizes adds (by decide) ht
  have hp : p' = 2 :: b32 1 := by
    have : W.addPubs (env.z.pubOf bob.contractKey) (env.z.pubOf bob.blindingKey) = .ok (2 :: b32 1) := rfl
    rw [this] at g1
    cases g1
    rfl
  subst hp
  refine ⟨t, ctx 0xffffffff, ht, g2 _ (hc _), ?_⟩
  have := C76_reveals (C := C66Toy.curve) (k := C66Toy.k) (m := 1) (rInv := secpN - 2) (q := 1) (pub := C66Toy.pub) (c := ctx 0xffffffff)
    keySizes adds (by decide) C66Toy.known C66Toy.pubOf (checksData _) C66Toy.inv (by decide) (by unfold secpN; decide)
    (by decide +kernel) (by rw [enc_one]; rfl) (hc _) ht
  rwa [enc_one] at this

/-- And for the reclaim. -/
example : ∃ t c, aliceReclaim env W alice (b32 8) (deposit 101000000) = .ok t ∧
    Interp.SpendsP2SH c contract (t.vin.getD 0 default).scriptSig := by
  obtain ⟨t, ht⟩ := reclaims
  obtain ⟨p, n, o, amount, bf, abf, h1, -, h3, -⟩ := C76_reclaim wireSizes formats rewinds keySizes SpendAddr.Toy.confDst_ok ht
  have hc : ∀ c, Checks env W c t (ctx 10) := fun c => checks h3.rest.1 (sequence_of h3)
  obtain ⟨p', n', o', g1, -, -, -, g2⟩ := C76_reclaim_unlocks keySizes (by decide) ht
  have hp : p' = 2 :: b32 1 := by
    have : W.addPubs alice.contractPub (env.z.pubOf alice.blindingKey) = .ok (2 :: b32 1) := rfl
    rw [this] at g1
    cases g1
    rfl
  subst hp
  exact ⟨t, ctx 10, ht, g2 _ (hc _)⟩

/-- The condition on the amount is needed: a deposit of one unit more is reclaimed, not balanced. -/
theorem unbalanced : ∃ t o, aliceReclaim env W alice (b32 8) (deposit 101000001) = .ok t ∧
    FirstTo (p2sh W contract) (deposit 101000001).vout 1 o ∧ ¬ SpendsBalanced pedersen env [o] t := by
  obtain ⟨t, ht⟩ : ∃ t, aliceReclaim env W alice (b32 8) (deposit 101000001) = .ok t := made_of (by decide +kernel)
  refine ⟨t, ((deposit 101000001).vout.getD 1 {}), ht, ⟨by decide +kernel, by decide +kernel, ?_⟩, ?_⟩
  · intro m p hm hp
    have : m = 0 := by omega
    subst this
    have : (deposit 101000001).vout[0]?.map TxOut.scriptPubKey = some [0x51] := by decide +kernel
    rw [hp] at this
    have e : p.scriptPubKey = [0x51] := Option.some.inj this
    rw [e]
    decide +kernel
  · have : t = (match aliceReclaim env W alice (b32 8) (deposit 101000001) with | .ok t => t | _ => default) := by rw [ht]
    rw [this]
    unfold SpendsBalanced
    decide +kernel

end Verif.SwapSpend.Toy
