import Verif.Props.SwapLimits
import Verif.Props.SwapRunToy
/-
C99 holds of something, and Bob can make Alice pay for bitcoins that nobody can claim.
-/
namespace Verif.SwapRun.Toy
open Verif Spec CrossSwap SwapSpend SwapBtc SwapRun Verif.Toy SwapSpend.Toy SwapBtc.Toy

def otherPay : Event → Bool
  | .did (.payElt s _ _) (.ok (id : Bytes)) => id ≠ b32 8 || s ≠ [0xa9, 0x14] ++ K.W.hash160 contract ++ [0x87]
  | .did (.payBtc s _) (.ok (id : Bytes)) => id ≠ b32 21 || s ≠ [0x00, 0x20] ++ K.B.sha256 (btcContract (2 :: b32 9) (2 :: b32 12))
  | _ => false

theorem deposit_read : deserializeTx depositHex = .ok (deposit 101000000) := by decide +kernel

/-- Alice's own node. -/
theorem ownElt : OwnElt K Verif.Toy.Good (fun _ => True) o (toAlice (some 6) (some 11)) ([0xa9, 0x14] ++ K.W.hash160 contract ++ [0x87]) (b32 8)
    (deposit 101000000) 1 deposited bf (b32 10) where
  size := by decide
  index := by decide
  first := deposit_opens.first
  witness := deposit_opens.witness
  opens := deposit_opens.opens
  usable := ⟨usable.asset, usable.address, usable.secrets, usable.source, usable.balance⟩
  shown t := ⟨⟨some 11, depositHex, []⟩, by simp [toAlice, node], by simp, deposit_read⟩

/-- Bob does nothing: Alice gets the asset back. -/
example : ∃ id n c a, Event.did (.sendElt c) a ∈ (participant (toAlice (some 6) (some 11)) (alice K o)).2 ∧ Swept K.W.asset o.dst id n 10 c := by
  obtain ⟨s, id, tx, n, out, bf, abf, contract, c, a, -, -, -, h1, h2, -⟩ := C99_alice (w := toAlice (some 6) (some 11)) fit (works _ _) rewindExact
    Verif.Toy.keeps (by decide) (fun _ => rfl) (fun s id h => by
      have h1 := none_of (p := otherPay) (by decide +kernel) h
      simp [otherPay] at h1
      obtain ⟨rfl, rfl⟩ := h1
      exact ⟨_, _, _, _, _, ownElt⟩) (.inl (by decide +kernel))
    (((C79_alice_ends fit).2.2 (.inl (by decide +kernel))).1 (by
      obtain ⟨e, he, h⟩ := any_of (p := fun | .wished => true | _ => false)
        (by decide +kernel : (participant (toAlice (some 6) (some 11)) (alice K o)).2.any _ = true)
      cases e with
      | did => cases h
      | wished => exact he))
  exact ⟨id, n, c, a, h1, h2⟩

theorem ownBtc : OwnBtc K ob (toBob (some 15) (some 1)) ([0x00, 0x20] ++ K.B.sha256 (btcContract (2 :: b32 9) (2 :: b32 12))) (b32 21) 4 where
  size := by decide
  index := by decide
  shown t := ⟨_, rfl, by simp, isListed⟩
  written t hs := by
    refine ⟨[], ?_⟩
    show (if t.vin.length = 1 then _ else _) = _
    rw [hs.1]; rfl

/-- Alice does nothing: Bob gets the bitcoins back. -/
example : ∃ id n c a, Event.did (.sendBtc c) a ∈ (participant (toBob (some 15) (some 1)) (bob K ob)).2 ∧ BtcSwept ob.btcDst id n 15 c := by
  obtain ⟨s, id, n, contract, c, a, -, -, -, h1, h2, -⟩ := C99_bob (w := toBob (some 15) (some 1)) fitBob (by decide) (fun _ => rfl)
    (fun s id h => by
      have h1 := none_of (p := otherPay) (by decide +kernel) h
      simp [otherPay] at h1
      obtain ⟨rfl, rfl⟩ := h1
      exact ⟨4, ownBtc⟩) (.inl (by decide +kernel))
    (((C79_bob_ends fitBob).2.2 (.inl (by decide +kernel))).1 (by
      obtain ⟨e, he, h⟩ := any_of (p := fun | .wished => true | _ => false)
        (by decide +kernel : (participant (toBob (some 15) (some 1)) (bob K ob)).2.any _ = true)
      cases e with
      | did => cases h
      | wished => exact he))
  exact ⟨id, n, c, a, h1, h2⟩

/-- What Bob says is a public key. -/
def longKey : Bytes := List.replicate 600 2

/-- Bob's deposit, to a contract with that. -/
def longDeposit : BtcTx := { vin := [], vout := [⟨101000000, p2wsh B (btcContract (2 :: b32 9) longKey)⟩], witness := [] }
def longKit : Kit := { K with parseBtc := fun _ => .ok longDeposit }

def longWorld : Environment := fun t q => match q with
  | .recv => .ok (some (if received t = 0 then ⟨.pubkeys, [2 :: b32 (secpN - 2), 2 :: b32 6, longKey]⟩ else ⟨.btcTxid, [b32 21]⟩ : Msg))
  | q => node (some 6) q

def hasKeys : Event → Bool
  | .did .recv (.ok (some (m : Msg))) => m.kind = .pubkeys && m.data = [2 :: b32 (secpN - 2), 2 :: b32 6, longKey]
  | _ => false

def isPaidElt : Event → Bool
  | .did (.payElt _ _ _) (.ok _) => true
  | _ => false

theorem longPaid : ∃ s q x id, Answered (participant longWorld (alice longKit o)).2 (.payElt s q x) id := by
  obtain ⟨e, he, h⟩ := any_of (p := isPaidElt) (by decide +kernel : (participant longWorld (alice longKit o)).2.any _ = true)
  obtain ⟨q, a⟩ | _ := e
  · cases q with
    | payElt s p x =>
      cases a with
      | ok id => exact ⟨s, p, x, id, he⟩
      | error => cases h
    | _ => cases h
  · cases h

theorem longReceived : Received (participant longWorld (alice longKit o)).2 .pubkeys [2 :: b32 (secpN - 2), 2 :: b32 6, longKey] := by
  obtain ⟨e, he, h⟩ := any_of (p := hasKeys) (by decide +kernel : (participant longWorld (alice longKit o)).2.any _ = true)
  obtain ⟨q, a⟩ | _ := e
  · cases q with
    | recv =>
      match a, h with
      | .ok (some ⟨k, d⟩), h =>
        simp [hasKeys] at h
        obtain ⟨rfl, rfl⟩ := h
        exact he
    | _ => cases h
  · cases h

end Verif.SwapRun.Toy

namespace Verif.SwapRun
open Verif Spec CrossSwap SwapRun.Toy Verif.Toy

/-- **C99.** It does not hold: lines 178-217 take what Bob sends as the key of Bob's branch of the contract.  The address of the contract can be
made, the deposit is as agreed and Alice pays, but no node will let the bitcoins go: the contract has a push of 600 bytes. -/
theorem C99_statement_false : ¬ C99_statement := by
  intro h
  have := h longKit o longWorld ⟨wireSizes, formats, rewinds, SwapBtc.Toy.keySizes2, SwapBtc.Toy.hash, SpendAddr.Toy.confDst_ok⟩ _ _ _ (2 :: b32 9) longPaid
    longReceived (by decide +kernel)
  have := ((C99_coins (by decide +kernel)).1 this).2
  exact absurd this (by decide +kernel)

end Verif.SwapRun
