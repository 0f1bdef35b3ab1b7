import Verif.Props.AssetHonest
import Verif.Props.AssetSwapToy
import Verif.Props.NodeToy
/-
C95: somebody for whom the swap comes about.
-/
namespace Verif.AssetSwap
open Verif Spec CrossSwap SpendAddr
namespace Toy
open Verif.Toy

theorem allWorks : AllWorks env W Good (fun _ => True) where
  zkp := works 0 52
  formats := formats
  rewinds := rewinds
  wire := wireSizes
  verify := fun _ _ _ _ _ _ _ _ _ => rfl
  hash := sizes.hash
  signature := sizes.signature
  pub := sizes.pub

/-- An output to the key `n`. -/
def lock (n : Nat) : Kind → Bytes
  | .p2sh => W.hash160 ([0, 0x14] ++ W.hash160 (env.z.pubOf (b32 n)))
  | _ => W.hash160 (env.z.pubOf (b32 n))

def owned (n asset amount : Nat) (kind : Kind) : Utxo :=
  let d : Desc := ⟨b32 asset, amount, b32 3, b32 4⟩
  ⟨⟨b32 (n + 9), n⟩, b32 asset, amount, b32 3, b32 4, some (coin d).nValue, some (coin d).nAsset, b32 n, ⟨.elements, kind, false, lock n kind⟩⟩

/-- The output of its transaction. -/
def ownedOut (n asset amount : Nat) (kind : Kind) : TxOut :=
  { coin ⟨b32 asset, amount, b32 3, b32 4⟩ with
    scriptPubKey := match kind with
      | .p2pkh => [0x76, 0xa9, 0x14] ++ lock n kind ++ [0x88, 0xac]
      | .p2sh => [0xa9, 0x14] ++ lock n kind ++ [0x87]
      | _ => [0, 0x14] ++ lock n kind }

theorem owned_ok {n asset amount : Nat} {kind : Kind} (hk : kind = .p2pkh ∨ kind = .p2wpkh ∨ kind = .p2sh) (hn : n < 1000) (ha : 0 < asset ∧ asset < 1000) (hm : 0 < amount ∧ amount ≤ 1000000) :
    Owned env W (fun _ => True) (owned n asset amount kind) (ownedOut n asset amount kind) where
  amount := by show (1 : Int) ≤ (amount : Int) ∧ (amount : Int) ≤ _; omega
  prevout := ⟨by simp [owned, b32], by show n < _; omega⟩
  key := ⟨by simp [owned, b32], by simp [owned, env, zkp, b32]⟩
  asset := ⟨trivial, by simp [owned, b32], by
    intro h
    have : beVal (b32 asset) = 0 := by
      have : b32 asset = List.replicate 32 0 := List.eq_replicate_iff.2 ⟨by simp [b32], h⟩
      rw [this]; decide +kernel
    rw [b32, beVal_beBytes_of_lt (by omega)] at this
    omega⟩
  factors := ⟨by simp [owned, b32], by simp [owned, b32], by show ¬ AllZero (b32 4); decide +kernel⟩
  opens := ⟨(coin_spent ⟨b32 asset, amount, b32 3, b32 4⟩).opened⟩
  hidden := ⟨⟨_, .inl rfl, by simp⟩, ⟨_, .inl rfl, by simp⟩⟩
  commitments := ⟨rfl, rfl⟩
  locked := by
    rcases hk with rfl | rfl | rfl
    · exact ⟨rfl, .p2pkh⟩
    · exact ⟨rfl, .p2wpkh⟩
    · exact ⟨rfl, .p2sh⟩

theorem receives (k h : Nat) : Receives env (addr k h) (b32 k) where
  conf := rfl
  size := by simp [addr, Verif.Toy.pub]; rfl
  secret := by simp [env, zkp, b32]
  pub := by
    show (Verif.Toy.pub k ++ beBytes 20 h).take 33 = _
    simp [Verif.Toy.pub, env, zkp, b32]

def honestAlice : Alice :=
  { asset1 := owned 1 5 30 .p2pkh, asset2 := owned 2 6 40 .p2wpkh, fee := owned 3 7 30000 .p2sh, feeAsset := b32 7
    dst := addr 21 1, bkey := b32 21, change := addr 22 1, rand := fun k => b32 (k % 1000 + 5) }
def honestBob : Bob := ⟨owned 4 8 50 .p2wpkh, fun k => b32 (k % 1000 + 40)⟩

theorem good_b32 {n : Nat} (h0 : 0 < n) (h : n < 10000) : Good (b32 n) := by
  refine ⟨by simp [b32], ?_⟩
  intro hz
  have : beVal (b32 n) = 0 := by
    have : b32 n = List.replicate 32 0 := List.eq_replicate_iff.2 ⟨by simp [b32], hz⟩
    rw [this]; decide +kernel
  rw [b32, beVal_beBytes_of_lt (by omega)] at this
  omega

theorem b32_ne {n m : Nat} (h : n < 10000) (h' : m < 10000) (hn : n ≠ m) : b32 n ≠ b32 m := by
  intro e
  have := congrArg beVal e
  rw [b32, b32, beVal_beBytes_of_lt (by omega), beVal_beBytes_of_lt (by omega)] at this
  exact hn this

theorem selects_of {assets : List Bytes} {asset seed : Bytes} (h : (zkp.surjInit assets.flatten assets.length (min 3 assets.length) asset 100 seed).isSome = true) :
    Selects zkp assets asset seed := by
  obtain ⟨⟨x, y⟩, e⟩ := Option.isSome_iff_exists.1 h
  exact ⟨x, y, e⟩

theorem honest : HonestSwap env W Good (fun _ => True) honestAlice honestBob (addr 31 2, b32 31) (addr 32 3, b32 32)
    [ownedOut 4 8 50 .p2wpkh, ownedOut 1 5 30 .p2pkh, ownedOut 2 6 40 .p2wpkh, ownedOut 3 7 30000 .p2sh] where
  owned := .cons (owned_ok (by decide) (by decide) (by decide) (by decide)) (.cons (owned_ok (by decide) (by decide) (by decide) (by decide))
    (.cons (owned_ok (by decide) (by decide) (by decide) (by decide)) (.cons (owned_ok (by decide) (by decide) (by decide) (by decide)) .nil)))
  fee := ⟨rfl, by show (20000 : Int) ≤ 30000; decide⟩
  dst := receives 21 1
  change := ⟨_, receives 22 1⟩
  receives := ⟨receives 31 2, receives 32 3⟩
  bobLucky := {
    random := by
      intro k
      refine ⟨good_b32 (by omega) (by omega), ?_⟩
      intro u hu
      rw [List.mem_singleton.1 hu]
      exact b32_ne (by decide) (by omega) (by omega)
    selects := selects_of (by decide +kernel)
    balance := by
      exact ⟨_, rfl, ⟨by simp, by decide +kernel⟩⟩ }
  aliceLucky := {
    random := by
      intro k
      refine ⟨good_b32 (by omega) (by omega), ?_⟩
      intro u hu
      simp only [Alice.utxos, honestAlice, List.mem_cons, List.not_mem_nil, or_false] at hu
      rcases hu with rfl | rfl | rfl <;> exact b32_ne (by decide) (by omega) (by omega)
    selects := by
      rintro (_ | _ | _ | k) u hu
      · cases hu; exact selects_of (by decide +kernel)
      · cases hu; exact selects_of (by decide +kernel)
      · cases hu; exact selects_of (by decide +kernel)
      · cases hu
    balance := by
      exact ⟨_, rfl, ⟨by simp, by decide +kernel⟩⟩ }

end Toy

/- These two swap, and the network accepts it. -/
example : ∃ t', Swaps Toy.env Toy.W Toy.honestAlice Toy.honestBob (Toy.addr 31 2, Toy.b32 31) (Toy.addr 32 3, Toy.b32 32) t' ∧
    verifyAmounts Toy.env Toy.verifier [Toy.ownedOut 4 8 50 .p2wpkh, Toy.ownedOut 1 5 30 .p2pkh, Toy.ownedOut 2 6 40 .p2wpkh, Toy.ownedOut 3 7 30000 .p2sh]
      (fillWitness t') = true := by
  obtain ⟨p, t, t', h1, -, h2, -, h3, -, h⟩ := C95_made Toy.allWorks Toy.honest
  exact ⟨t', h, C95_accepted Toy.keeps Toy.allWorks Toy.honest h1 h2 h3⟩

end Verif.AssetSwap
