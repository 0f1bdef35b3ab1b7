import Verif.Spec.SwapSpend
import Verif.SwapBtc
/-
What the Bitcoin side of the cross-chain swap is supposed to give.
-/
namespace Verif.Spec
open Verif Interp SwapSpend SwapBtc

/-- Output `n` is the first one with that script, and carries `v`. -/
def FirstPays (spk : Bytes) (v : Int) (vout : List BtcOut) (n : Nat) : Prop :=
  vout[n]? = some ⟨v, spk⟩ ∧ ∀ m o, m < n → vout[m]? = some o → o.scriptPubKey ≠ spk

/-- A witness unlocks the hash of a script: its last item is the script, which leaves exactly a true value
when it runs on the others (BIP 141).  Items are at most 520 bytes. -/
def SpendsP2WSH (B : Btc) (c : Interp.Ctx) (program : Bytes) (witness : List Bytes) : Prop :=
  ∃ st redeem ops v, witness = st ++ [redeem] ∧ B.sha256 redeem = program ∧ (∀ i ∈ st, i.length ≤ 520) ∧
    parse redeem = some ops ∧ run c ops [] st.reverse = some [v] ∧ truth v = true

/-- A node that checks the only input of `t`, which spends 1.01 at the hash of a script: it knows version and sequence
number of `t`, and accepts what the keys sign of `t` without its witness, with the script that was hashed. -/
structure BtcChecks (E : Env) (W : SwapSpend.World) (B : Btc) (redeem : Bytes) (t : BtcTx) (c : Interp.Ctx) : Prop where
  version : c.version = t.nVersion
  sequence : ∀ i, t.vin[0]? = some i → i.nSequence = c.sequence
  sig : ∀ key, E.z.secValid key = true →
    c.checkSig (W.sign key (B.sighash redeem { t with witness := [[]] } 0 1 101000000) ++ [1]) (E.z.pubOf key) = true

/-- `t` spends output `n` of `txid` alone and pays 1 to `dst`, leaving the fee of 0.01. -/
def BtcSwept (dst txid : Bytes) (n sequence : Nat) (t : BtcTx) : Prop :=
  t.vin = [⟨⟨txid, n⟩, [], sequence⟩] ∧ t.vout = [⟨100000000, dst⟩] ∧ t.nVersion = 2 ∧ t.nLockTime = 0 ∧ t.witness.length = 1

variable {M : Type} [AddCommGroup M] [Module Scalar M]

/-- Keys and public keys are those of the curve. -/
structure OnCurve (C : Curve M) (E : Env) (W : SwapSpend.World) : Prop where
  pub : ∀ e, 0 < e → e < secpN → E.z.secValid (beBytes 32 e) = true ∧ E.z.pubOf (beBytes 32 e) = C.enc ((e : Scalar) • C.G)
  add : ∀ P Q p, W.addPubs (C.enc P) (C.enc Q) = .ok p → P + Q ≠ 0 ∧ p = C.enc (P + Q)
  sum : ∀ P Q, P + Q ≠ 0 → W.addPubs (C.enc P) (C.enc Q) = .ok (C.enc (P + Q))

/-- A secret key. -/
def IsKey (k : Bytes) : Prop := k.length = 32 ∧ 0 < beVal k ∧ beVal k < secpN

/-- `n` is the number of the first output in the node's description that has an address with that script. -/
def FirstListed (spk : Bytes) (outs : List JsonOut) (n : Nat) : Prop :=
  ∃ (k : Nat) (o : JsonOut), outs[k]? = some o ∧ o.n = n ∧ (∃ l, o.addresses = some l ∧ spk ∈ l) ∧
    ∀ (m : Nat) (p : JsonOut), m < k → outs[m]? = some p → ∀ l, p.addresses = some l → spk ∉ l

/-- The first input that spends an output of `txid` by a script that ends with the contract. -/
def FirstReveal (txid contract : Bytes) (vin : List TxIn) (scriptSig : Bytes) : Prop :=
  ∃ (k : Nat) (i : TxIn), vin[k]? = some i ∧ i.scriptSig = scriptSig ∧ i.prevout.hash = txid ∧ contract <:+ scriptSig ∧
    ∀ (m : Nat) (j : TxIn), m < k → vin[m]? = some j → ¬ (j.prevout.hash = txid ∧ contract <:+ j.scriptSig)

end Verif.Spec
