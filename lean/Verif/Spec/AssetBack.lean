import Verif.Spec.AssetHonest
import Verif.Spec.AssetRun
/-
When Alice of examples/asset-atomic-swap.py can take everything back, whatever Bob does.
-/
namespace Verif.Spec
open Verif Interp AssetSwap

/-- Nothing goes wrong by chance when these outputs are taken back.  Four strings are drawn for each of the new outputs. -/
structure BackLucky (E : Env) (Good : Bytes → Prop) (feeAsset : Bytes) (rand : Nat → Bytes) (us : List Utxo) : Prop where
  random : Lucky Good rand us
  selects : ∀ k u, us[k]? = some u → Selects E.z (us.map Utxo.asset) u.asset (rand (4 * k + 3))
  balance : ∃ x, E.z.blindSum
    (us.map (fun u => u.amount.toNat) ++ us.map fun u => (claimed feeAsset u).toNat)
    (us.map Utxo.assetBlinder ++ (List.range us.length).map fun k => rand (4 * k + 1))
    (us.map Utxo.blinder ++ (List.range us.length).map fun k => rand (4 * k)) (2 * us.length) us.length = some x ∧ Good x

/-- There are outputs of different assets to take back, one of which can pay the fee. -/
structure Backable (E : Env) (W : World) (Asset : Bytes → Prop) (feeAsset : Bytes) (us : List Utxo) (spent : List TxOut) : Prop where
  owned : List.Forall₂ (Owned E W Asset) us spent
  distinct : (us.map Utxo.asset).Nodup
  fee : ∃ u ∈ us, u.asset = feeAsset ∧ 20000 ≤ u.amount
  count : us.length < 2 ^ 20

/-- The transaction gives back everything: it spends the outputs, with the signatures of the owner, and what was there of each
asset is found with the key of the new address, without the fee. -/
structure GivesBack (E : Env) (W : World) (feeAsset : Bytes) (addrs : Nat → Addr) (us : List Utxo) (t : Tx) : Prop where
  claims : Claims E W feeAsset addrs us t
  pays : ∀ k u key, us[k]? = some u → Receives E (addrs k) key → Finds E key t k u.asset (claimed feeAsset u)
  hidden : ∀ k, k < us.length → IsValueCommitment (t.vout.getD k {}).nValue
  /-- what is written is what is read -/
  wire : WFTx t

namespace Assets
open AssetRun

/-- Alice's own node and luck are all right.  Nothing is said about messages, nor about what the node says to transactions. -/
structure OwnNode (K : Kit) (Good Asset : Bytes → Prop) (w : Environment) : Prop where
  works : AllWorks K.E K.W Good Asset
  /-- what is issued is a new asset -/
  issue : ∀ t id, From w t → w t .issue = .ok id → id ≠ K.feeAsset ∧ ¬ Answered t .issue id
  /-- what it says about outputs, with the key it has for the address, is right -/
  owned : ∀ t n m asset l u, w t (.unspent n m asset) = .ok l → u ∈ l →
    ∃ key o, Owned K.E K.W Asset (keyed u asset key) o ∧ ∀ t' k, w t' (.key u.addr) = .ok k → k = key
  keys : ∀ t x k, w t (.key x) = .ok k → k.length = 32
  addr : ∀ t, ∃ x : Addr × Bytes, w t .newAddr = .ok x ∧ Receives K.E x.1 x.2
  lucky : ∀ t a, From w t → AliceBegan K t a → BackLucky K.E Good K.feeAsset K.rand2 a.utxos

/-- Alice gave a transaction to the node that gives back everything, to addresses of that node, and that the network accepts as long as the
outputs are not spent. -/
def TookBack (K : Kit) (N : Verifier) (t : List Event) : Prop :=
  ∃ pre b r post a addrs c spent, t = pre ++ Event.did (.publish b) r :: post ∧ AliceBegan K t a ∧
    (∀ k, k < 3 → ∃ key, Answered t .newAddr (addrs k, key)) ∧
    List.Forall₂ (SpentAs K.E.z) spent (a.utxos.map told) ∧ serializeTx c = .ok b ∧ GivesBack K.E K.W K.feeAsset addrs a.utxos c ∧
    verifyAmounts K.E N spent (fillWitness c) = true

end Assets
end Verif.Spec
