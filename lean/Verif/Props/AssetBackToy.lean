import Verif.Props.AssetBack
import Verif.Props.AssetHonestToy
import Verif.Props.AssetRunToy
/-
C97: somebody who takes everything back.
-/
namespace Verif.AssetRun
open Verif Spec Spec.Assets AssetSwap AssetSwap.Toy
namespace Toy
open Verif.Toy

def backKit : Kit := ⟨env, W, b32 7, fun k => b32 (k % 1000 + 5), fun k => b32 (k % 1000 + 5)⟩

def backUtxos : List Utxo := [owned 1 5 30 .p2pkh, owned 2 6 40 .p2wpkh, owned 3 7 30000 .p2sh]

/-- Bob's part. -/
def bobPart : Bytes :=
  bytesOf (bobStart env honestBob (addr 21 1) [(ownedOut 1 5 30 .p2pkh).nAsset, (ownedOut 2 6 40 .p2wpkh).nAsset, (ownedOut 3 7 30000 .p2sh).nAsset])

/-- Bob says nothing in the end, and Alice's node accepts nothing. -/
def silent : Environment := fun t q =>
  match q with
  | .send _ => .ok ()
  | .recv 5 => .ok none
  | .recv _ =>
    match waits t with
    | 0 => .ok (some (⟨.waitTxid, .bytes (b32 13)⟩ : Msg))
    | 1 => .ok (some (⟨.offer, .offer ⟨b32 8, 50⟩⟩ : Msg))
    | 2 => .ok (some (⟨.partialTx, .bytes bobPart⟩ : Msg))
    | 3 => .ok (some (⟨.addresses, .addresses [addr 31 2, addr 32 3] (ownedOut 4 8 50 .p2wpkh).nAsset⟩ : Msg))
    | _ => .ok none
  | .issue => if Assets.issues t = 0 then .ok (b32 5) else if Assets.issues t = 1 then .ok (b32 6) else .error .rpc
  | .unspent _ _ id =>
    if id = b32 5 then .ok [owned 1 5 30 .p2pkh] else if id = b32 6 then .ok [owned 2 6 40 .p2wpkh] else if id = b32 7 then .ok [owned 3 7 30000 .p2sh]
    else .ok []
  | .key a => .ok (b32 (match a.kind with | .p2pkh => 1 | .p2wpkh => 2 | _ => 3))
  | .newAddr => .ok (addr 21 1, b32 21)
  | .generate => .ok ()
  | .tx _ => .ok (some 1)
  | .balance _ => .ok 50
  | .publish _ => .error .rpc

theorem silentSemi : (participant silent (alice backKit)).2.any isSemi = true := by decide +kernel

theorem backLucky : BackLucky env Good (b32 7) (fun k => b32 (k % 1000 + 5)) backUtxos where
  random := by
    intro k
    refine ⟨good_b32 (by omega) (by omega), ?_⟩
    intro u hu
    simp only [backUtxos, List.mem_cons, List.not_mem_nil, or_false] at hu
    rcases hu with rfl | rfl | rfl <;> exact b32_ne (by decide) (by omega) (by omega)
  selects := by
    rintro (_ | _ | _ | k) u hu
    · cases hu; exact selects_of (by decide +kernel)
    · cases hu; exact selects_of (by decide +kernel)
    · cases hu; exact selects_of (by decide +kernel)
    · cases hu
  balance := by
    exact ⟨_, rfl, ⟨by simp, by decide +kernel⟩⟩

theorem silent5 (t : List Event) (n m : Nat) : silent t (.unspent n m (b32 5)) = .ok [owned 1 5 30 .p2pkh] := by
  simp only [silent, if_true]

theorem silent6 (t : List Event) (n m : Nat) : silent t (.unspent n m (b32 6)) = .ok [owned 2 6 40 .p2wpkh] := by
  simp only [silent, if_neg (show b32 6 ≠ b32 5 by decide +kernel), if_true]

theorem silent7 (t : List Event) (n m : Nat) : silent t (.unspent n m (b32 7)) = .ok [owned 3 7 30000 .p2sh] := by
  simp only [silent, if_neg (show b32 7 ≠ b32 5 by decide +kernel), if_neg (show b32 7 ≠ b32 6 by decide +kernel), if_true]

theorem silent_began {t : List Event} {a : Alice} (hf : From silent t) (h : AliceBegan backKit t a) : a.utxos = backUtxos := by
  obtain ⟨id1, v1, k1, id2, v2, k2, l, v3, k3, kc, ⟨s, rfl⟩, h1, h2, h3, h4, -⟩ := h
  have e1 := hf [] _ _ _ rfl
  change Except.ok (b32 5) = _ at e1
  cases e1
  have e2 := hf [_] (.unspent 0 0 (b32 5)) _ _ rfl
  rw [silent5] at e2
  cases e2
  have e3 := hf [_, _] _ _ _ rfl
  change Except.ok (b32 1) = _ at e3
  cases e3
  have e4 := hf [_, _, _] _ _ _ rfl
  change Except.ok (b32 6) = _ at e4
  cases e4
  have e5 := hf [_, _, _, _] (.unspent 0 0 (b32 6)) _ _ rfl
  rw [silent6] at e5
  cases e5
  have e6 := hf [_, _, _, _, _] _ _ _ rfl
  change Except.ok (b32 2) = _ at e6
  cases e6
  have e7 := hf [_, _, _, _, _, _] (.unspent 1 9999999 (b32 7)) _ _ rfl
  rw [silent7] at e7
  cases e7
  have := List.mem_singleton.1 h4.1
  subst this
  have e8 := hf [_, _, _, _, _, _, _] _ _ _ rfl
  change Except.ok (b32 3) = _ at e8
  cases e8
  rw [Alice.utxos, h1, h2, h3]
  rfl

theorem issue_before {w : Environment} {t : List Event} {id : Bytes} (hf : From w t) (h : Answered t .issue id) :
    ∃ pre, Assets.issues pre < Assets.issues t ∧ w pre .issue = .ok id := by
  obtain ⟨pre, post, e⟩ := List.append_of_mem h
  refine ⟨pre, ?_, hf pre _ _ post e⟩
  rw [e]
  simp [Assets.issues, List.countP_append, List.countP_cons]

theorem ownNode : OwnNode backKit Good (fun _ => True) silent where
  works := allWorks
  issue t id hf h := by
    simp only [silent] at h
    split at h
    · rename_i h0
      cases h
      refine ⟨by show b32 5 ≠ b32 7; decide +kernel, fun ha => ?_⟩
      obtain ⟨pre, hl, -⟩ := issue_before hf ha
      omega
    · split at h
      · rename_i h0 h1
        cases h
        refine ⟨by show b32 6 ≠ b32 7; decide +kernel, fun ha => ?_⟩
        obtain ⟨pre, hl, he⟩ := issue_before hf ha
        simp only [silent, if_pos (show Assets.issues pre = 0 by omega)] at he
        have : b32 5 = b32 6 := Except.ok.inj he
        exact absurd this (by decide +kernel)
      · cases h
  owned t n m asset l u h hu := by
    simp only [silent] at h
    split at h
    · rename_i ha
      subst ha
      cases h
      rw [List.mem_singleton.1 hu]
      exact ⟨b32 1, _, owned_ok (n := 1) (asset := 5) (amount := 30) (kind := .p2pkh) (by decide) (by decide) (by decide) (by decide), fun t' k hk => by cases hk; rfl⟩
    · split at h
      · rename_i ha
        subst ha
        cases h
        rw [List.mem_singleton.1 hu]
        exact ⟨b32 2, _, owned_ok (n := 2) (asset := 6) (amount := 40) (kind := .p2wpkh) (by decide) (by decide) (by decide) (by decide), fun t' k hk => by cases hk; rfl⟩
      · split at h
        · rename_i ha
          subst ha
          cases h
          rw [List.mem_singleton.1 hu]
          exact ⟨b32 3, _, owned_ok (n := 3) (asset := 7) (amount := 30000) (kind := .p2sh) (by decide) (by decide) (by decide) (by decide), fun t' k hk => by cases hk; rfl⟩
        · cases h
          cases hu
  keys t x k h := by
    cases h
    simp [b32]
  addr t := ⟨_, rfl, receives 21 1⟩
  lucky t a hf h := by
    rw [silent_began hf h]
    exact backLucky

end Toy

/- The node refuses the transaction that gives back everything, but it was given to it. -/
example : TookBack Toy.backKit Verif.Toy.verifier (participant Toy.silent (alice Toy.backKit)).2 := by
  rcases C97_back Verif.Toy.keeps Toy.ownNode (fun t m h => by simp [Toy.silent] at h) (Toy.sent_of Toy.silentSemi) with ⟨b, id, h⟩ | h
  · obtain ⟨pre, h⟩ := (participant_from _ _).answered h
    cases h
  · exact h

end Verif.AssetRun
