import Verif.Props.SwapHonestRun
import Verif.Props.SwapRunToy
/-
C98 holds of something.
-/
namespace Verif.SwapPair.Toy
open Verif Spec Spec.Cross CrossSwap SwapSpend SwapBtc SwapRun Verif.Toy SwapSpend.Toy SwapBtc.Toy SwapRun.Toy

/-- Bob's claim. -/
@[irreducible] def claimTx : Tx := match bobClaim env W2 SwapSpend.Toy.bob (b32 8) 2 (deposit 101000000) with | .ok t => t | .error _ => deposit 0

/-- Alice pays in the first block, Bob claims in the second. -/
def scene : Scene where
  K := { K with passes := 5 }
  N := verifier
  o := o
  ob := ob
  elt id := if id = b32 8 then deposit 101000000 else claimTx
  btc _ := btcDeposit 101000000
  eltId := b32 8
  btcId := b32 21
  claimId := b32 9
  chain := [(b32 40, [⟨b32 8, []⟩]), (b32 41, [⟨b32 7, [b32 6]⟩, ⟨b32 9, [b32 8]⟩])]
  paidAt := 0
  claimedAt := 1
  place := 1

theorem deposit_wf : WFTx (deposit 101000000) := (C05_roundtrip _).1 ⟨bytesOf (deposit 101000000), by decide +kernel, by decide +kernel⟩

theorem elt_deposit : scene.elt scene.eltId = deposit 101000000 := by decide +kernel
theorem elt_claim : scene.elt scene.claimId = claimTx := by
  show (if b32 9 = b32 8 then deposit 101000000 else claimTx) = claimTx
  rw [if_neg (by decide)]

theorem asset_contract {c : Bytes} (h : AssetContract scene.K scene.o scene.ob c) : c = contract := by
  obtain ⟨p, h1, rfl⟩ := h
  have : scene.K.W.addPubs (scene.K.E.z.pubOf scene.ob.contractKey) (scene.K.E.z.pubOf scene.o.blindingKey) = .ok (2 :: b32 1) := by decide +kernel
  rw [this] at h1
  cases h1
  rfl

theorem coin_contract {c : Bytes} (h : CoinContract scene.K scene.o scene.ob c) : c = btcContract (2 :: b32 9) (2 :: b32 12) := by
  obtain ⟨p, h1, rfl⟩ := h
  have : scene.K.W.addPubs (scene.K.E.z.pubOf scene.ob.contractKey) (scene.K.E.z.pubOf scene.o.btcKey) = .ok (2 :: b32 9) := by decide +kernel
  rw [this] at h1
  cases h1
  rfl

theorem first_pays : FirstPays ([0x00, 0x20] ++ B.sha256 (btcContract (2 :: b32 9) (2 :: b32 12))) 101000000 (btcDeposit 101000000).vout 1 := by
  obtain ⟨-, p, hp, -, h⟩ := (C77_checks (E := env) (W := W2) (a := SwapSpend.Toy.alice) (x := x) hash).1
    (by decide +kernel : aliceChecks env W2 B SwapSpend.Toy.alice x 6 (btcDeposit 101000000) = .ok 1)
  have : W2.addPubs SwapSpend.Toy.alice.contractPub (env.z.pubOf x.key) = .ok (2 :: b32 9) := by decide +kernel
  rw [this] at hp
  cases hp
  exact h

theorem claim_of {m : Int} {t : Tx} (h : bobClaim env W2 SwapSpend.Toy.bob (b32 8) m (deposit 101000000) = .ok t) : claimTx = t := by
  have hm := (C76_claim wireSizes formats rewinds keySizes2 SpendAddr.Toy.confDst_ok h).1
  have h2 : bobClaim env W2 SwapSpend.Toy.bob (b32 8) 2 (deposit 101000000) = .ok t := by
    unfold bobClaim at h ⊢
    simp only [if_neg (show ¬ m < 2 by omega)] at h
    simp only [if_neg (show ¬ (2 : Int) < 2 by omega)]
    exact h
  unfold claimTx
  rw [h2]

theorem answers : Spec.Answers scene.chain scene.paidAt 2 ⟨1, some (b32 40), fun h =>
    if h = b32 40 then some ⟨[⟨b32 8, []⟩], some (b32 41)⟩ else if h = b32 41 then some ⟨[⟨b32 7, [b32 6]⟩, ⟨b32 9, [b32 8]⟩], none⟩ else none⟩ where
  le := by decide
  deposit := rfl
  known k h ts hk e := by
    match k, e with
    | 0, e => cases e; rfl
    | 1, e =>
      cases e
      dsimp only
      rw [if_neg (by decide)]
      rfl
    | k + 2, e => omega
  unknown k h ts hk e := by
    match k, e with
    | 0, e => omega
    | 1, e => omega
    | k + 2, e => cases e

theorem first : FirstSpends scene.chain scene.paidAt scene.eltId scene.claimedAt scene.place scene.claimId := by
  refine ⟨⟨by decide, b32 41, _, _, rfl, rfl, rfl, by decide⟩, ?_⟩
  rintro c' p' id' (h | ⟨rfl, h⟩)
  · have : c' = 0 := by
      have : c' < 1 := h
      omega
    subst this
    rintro ⟨-, h, ts, t, e1, e2, -, e4⟩
    cases e1
    cases p' with
    | zero => cases e2; cases e4
    | succ p => cases e2
  · have : p' = 0 := by
      have : p' < 1 := h
      omega
    subst this
    rintro ⟨-, h, ts, t, e1, e2, -, e4⟩
    cases e1
    cases e2
    exact absurd e4 (by decide)

theorem honest : scene.Honest C66Toy.curve pedersen Verif.Toy.Good (fun _ => True) where
  wire := wireSizes
  formats := formats
  rewinds := rewinds
  exact := rewindExact
  works := works _ _
  keeps := Verif.Toy.keeps
  sizes := keySizes2
  hash := hash
  addrA := SpendAddr.Toy.confDst_ok
  addrB := SpendAddr.Toy.confDst_ok
  curve := onCurve
  adds := adds2
  pub := C66Toy.pubOf
  order := rfl
  nonce := C66Toy.known
  inverse := C66Toy.inv
  keys k hk := by
    have hN : (12 : Nat) < secpN := by unfold secpN; decide
    have hk : k ∈ [b32 3, b32 11, b32 7, b32 (secpN - 2), b32 6, b32 12] := hk
    simp only [List.mem_cons, List.not_mem_nil, or_false] at hk
    rcases hk with rfl | rfl | rfl | rfl | rfl | rfl
    · exact isKey (by decide) (by omega)
    · exact isKey (by decide) (by omega)
    · exact isKey (by decide) (by omega)
    · exact isKey (by unfold secpN; decide) (by unfold secpN; decide)
    · exact isKey (by decide) (by omega)
    · exact isKey (by decide) (by omega)
  sumElt := by decide +kernel
  sumBtc := by decide +kernel
  found := by decide +kernel
  reveals := ⟨⟨b32 1, 1, rfl, revealSign_der (k := b32 1)⟩, C66Toy.known.lt, no_sign⟩
  paysBtc c hc := by
    rw [coin_contract hc]
    exact ⟨by decide, ⟨[], rfl⟩, 1, by decide, first_pays⟩
  paysElt := by
    refine ⟨bf, b32 10, ⟨usable.asset, usable.address, usable.secrets, usable.source, usable.balance⟩, fun c hc => ?_⟩
    rw [asset_contract hc]
    unfold Scene.PaysElt
    rw [elt_deposit]
    refine ⟨by decide, deposit_wf, 1, deposited, by decide, deposit_opens.first, deposit_opens.witness, by decide, fun key _ hk => ?_⟩
    have : key = b32 3 := (List.cons.inj hk).2
    rw [this]
    exact deposit_opens.opens
  written n t _ hs := by
    refine ⟨[], ?_⟩
    show (if t.vin.length = 1 then _ else _) = _
    rw [hs.1]; rfl
  claim m t h := by
    rw [elt_deposit] at h
    refine ⟨elt_claim.trans (claim_of h), fun k _ => ⟨ctx 0xffffffff, ?_, ?_⟩⟩
    · obtain ⟨-, p, n, o, bf, abf, h1, -, h3, -⟩ := C76_claim wireSizes formats rewinds keySizes2 SpendAddr.Toy.confDst_ok h
      let k : Checks env W k t (ctx 0xffffffff) := SwapSpend.Toy.checks h3.rest.1 (sequence_of h3)
      exact ⟨k.version, k.sequence, k.sig, k.data⟩
    · rw [show beVal (scene.K.B.sha256 [1]) = 1 by decide +kernel]
      exact checksData _
  first := first
  inTime := ⟨_, by decide, answers⟩
  patience := by decide

/-- So there is a swap. -/
example : ∃ s, HonestRun scene.node scene.start s ∧ s.alice.proc = .over .done ∧ s.bob.proc = .over .done ∧
    Swapped scene.K scene.o scene.ob s.alice.trace s.bob.trace := C98_swaps honest

end Verif.SwapPair.Toy
