import Verif.Spec.SpendAddr
import Verif.Spec.Ecdsa
import Verif.Spec.BlindGoes
import Verif.SwapSpend
/-
What spending the Elements side of the cross-chain swap is supposed to give.
-/
namespace Verif.Spec
open Verif Interp SwapSpend

/-- `o`, output `n` of the deposit `tx`, is the first one to the contract, and the blinding key opens it
to `amount` of the agreed asset. -/
structure Deposit (E : Env) (W : SwapSpend.World) (key contract : Bytes) (tx : Tx) (n : Nat) (o : TxOut) (amount : Nat)
    (bf abf : Bytes) : Prop where
  first : FirstTo ([0xa9, 0x14] ++ W.hash160 contract ++ [0x87]) tx.vout n o
  witness : n < tx.wit.vtxoutwit.length
  opens : unblind E key o.nValue o.nAsset o.nNonce o.scriptPubKey (tx.outWit n).rangeproof = .ok (.success W.asset amount bf abf)

/-- `t` spends output `n` of `txid` alone, and pays 1 to the address, hidden, 0 to nobody and 0.01 as the
fee, of the agreed asset. -/
structure Swept (asset : Bytes) (dst : Addr) (txid : Bytes) (n sequence : Nat) (t : Tx) : Prop where
  input : t.vin.map (fun i => (i.prevout, i.nSequence, i.assetIssuance, i.isPegin)) = [(⟨txid, n⟩, sequence, {}, false)]
  scripts : ∃ s, dst.toScriptPubKey = .ok s ∧ t.vout.map TxOut.scriptPubKey = [s, [0x6a], []]
  hidden : IsValueCommitment (t.vout.getD 0 {}).nValue ∧ (t.outWit 0).rangeproof ≠ [] ∧ (t.outWit 0).surjectionproof ≠ []
  fee : t.vout[2]? = some { nValue := 1 :: beBytes 8 1000000, nAsset := 1 :: asset }
  rest : t.nVersion = 2 ∧ t.nLockTime = 0
  written : ∃ b, serializeTx t = .ok b

/-- A node that checks the only input of `t`, which spends an output to a script hash: it knows version
and sequence number of `t`, and accepts what the keys sign of `t` as it is with the script that was hashed. -/
structure Checks (E : Env) (W : SwapSpend.World) (redeem : Bytes) (t : Tx) (c : Interp.Ctx) : Prop where
  version : t.nVersion = c.version
  sequence : ∀ i, t.vin[0]? = some i → i.nSequence = c.sequence
  sig : ∀ key digest, E.z.secValid key = true → sighashBase E.h redeem t 0 1 = .ok (digest, false) →
    c.checkSig (W.sign key digest ++ [1]) (E.z.pubOf key) = true
  data : ∀ a b key, W.addKeys a b = .ok key → c.checkData (W.revealSign key) [1] (E.z.pubOf key) = true

/-- Keys and public keys add up alike, and sums of keys are keys. -/
def Adds (E : Env) (W : SwapSpend.World) : Prop := ∀ a b k, W.addKeys a b = .ok k →
  E.z.secValid k = true ∧ W.addPubs (E.z.pubOf a) (E.z.pubOf b) = .ok (E.z.pubOf k)

/-- Sizes of signatures and public keys. -/
structure KeySizes (E : Env) (W : SwapSpend.World) : Prop where
  pub : ∀ k, E.z.secValid k = true → (E.z.pubOf k).length ≤ 65
  sum : ∀ a b p, W.addPubs a b = .ok p → p.length ≤ 65
  sig : ∀ k d, (W.sign k d).length ≤ 80
  reveal : ∀ k, (W.revealSign k).length ≤ 80
  hash : ∀ b, (W.hash160 b).length = 20

/-- What a spend takes besides the deposit, which opens with `bf` and `abf`: an address that can be blinded
for, and usable secrets (see `Works`). -/
structure Usable (E : Env) (W : SwapSpend.World) (Good Asset : Bytes → Prop) (dst : Addr) (dummy : Bytes) (rand : Nat → Bytes)
    (bf abf : Bytes) : Prop where
  asset : Asset W.asset ∧ ¬ AllZero W.asset
  address : dst.conf = true ∧ E.z.pubValid dst.blindingPubkey = true ∧
    (dst.blindingPubkey.head? = some 2 ∨ dst.blindingPubkey.head? = some 3)
  secrets : Good dummy ∧ Good bf ∧ ∀ k, Good (rand k) ∧ abf ≠ rand k
  /-- the deposit is found as the source of the asset -/
  source : ∀ seed, ∃ h i, E.z.surjInit W.asset 1 1 W.asset 100 seed = some (h, i)
  /-- the factor that balances the spend is usable too -/
  balance : ∃ b, E.z.blindSum [101000000, 100000000, 0] [abf, rand 1, rand 5] [bf, rand 0, rand 4] 3 1 = some b ∧ Good b

/-- The key that is revealed signs with the known nonce, whose `r` takes no sign byte in signatures. -/
def Reveals (W : SwapSpend.World) (ck bk : Bytes) : Prop :=
  (∃ q s, W.addKeys ck bk = .ok q ∧ Der (W.revealSign q) W.r s) ∧ W.r < secpN ∧ ∀ R, DerInt W.r R → R.head? ≠ some 0

end Verif.Spec
