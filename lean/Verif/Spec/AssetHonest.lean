import Verif.Spec.AssetSwap
import Verif.Spec.BlindGoes
import Verif.Spec.Node
/-
When the asset swap of examples/asset-atomic-swap.py has to come about: both have what they offer, the library and the
script check work, and nobody is out of luck.
-/
namespace Verif.Spec
open Verif Interp AssetSwap

/-- The script with which nodes lock an output of this kind for a key. -/
inductive KeyScript (hash160 : Bytes → Bytes) (pub : Bytes) : Kind → Bytes → Prop
  | p2pkh : KeyScript hash160 pub .p2pkh ([0x76, 0xa9, 0x14] ++ hash160 pub ++ [0x88, 0xac])
  | p2wpkh : KeyScript hash160 pub .p2wpkh ([0, 0x14] ++ hash160 pub)
  | p2sh : KeyScript hash160 pub .p2sh ([0xa9, 0x14] ++ hash160 ([0, 0x14] ++ hash160 pub) ++ [0x87])

/-- `VerifyScript` accepts what is signed by the owner in the way nodes expect. -/
def VerifyWorks (E : Env) (W : World) : Prop :=
  ∀ key value kind spk t i, E.z.secValid key = true → KeyScript W.hash160 (E.z.pubOf key) kind spk →
    Unlocked E.h W.hash160 W.sign key (E.z.pubOf key) value t i kind → W.verify spk value t i = .ok ()

/-- `o` is a hidden output of a transaction, and `u` is what the wallet that owns it says about it. -/
structure Owned (E : Env) (W : World) (Asset : Bytes → Prop) (u : Utxo) (o : TxOut) : Prop where
  amount : 1 ≤ u.amount ∧ u.amount ≤ 21 * 10 ^ 14
  prevout : u.prevout.hash.length = 32 ∧ u.prevout.n < 2 ^ 30
  key : u.key.length = 32 ∧ E.z.secValid u.key = true
  asset : Asset u.asset ∧ u.asset.length = 32 ∧ ¬ AllZero u.asset
  factors : u.blinder.length = 32 ∧ u.assetBlinder.length = 32 ∧ ¬ AllZero u.assetBlinder
  opens : SpentAs E.z o (told u)
  hidden : IsAssetCommitment o.nAsset ∧ IsValueCommitment o.nValue
  commitments : u.assetCommitment = some o.nAsset ∧ u.amountCommitment = some o.nValue
  locked : u.addr.toScriptPubKey = .ok o.scriptPubKey ∧ KeyScript W.hash160 (E.z.pubOf u.key) u.addr.kind o.scriptPubKey

/-- A confidential address and its blinding key. -/
structure Receives (E : Env) (x : Addr) (key : Bytes) : Prop where
  conf : x.conf = true
  size : x.payload.length = x.kind.dataLen + 33
  secret : E.z.secValid key = true
  pub : x.blindingPubkey = E.z.pubOf key

/-- A surjection proof can be begun: among the assets one is selected that is `asset`. -/
def Selects (z : Zkp) (assets : List Bytes) (asset seed : Bytes) : Prop :=
  ∃ h i, z.surjInit assets.flatten assets.length (min 3 assets.length) asset 100 seed = some (h, i)

/-- What is drawn at random is usable, and not the asset blinding factor of an input. -/
def Lucky (Good : Bytes → Prop) (rand : Nat → Bytes) (us : List Utxo) : Prop :=
  ∀ k, Good (rand k) ∧ ∀ u ∈ us, u.assetBlinder ≠ rand k

/-- Four strings are drawn for each output: its factor, the factor of its asset, a key, and the seed of the selection. -/
structure BobLucky (E : Env) (Good : Bytes → Prop) (b : Bob) : Prop where
  random : Lucky Good b.rand [b.utxo]
  /-- Alice's assets are unknown to Bob -/
  selects : Selects E.z [b.utxo.asset, zero32, zero32, zero32] b.utxo.asset (b.rand 3)
  balance : ∃ x, E.z.blindSum [b.utxo.amount.toNat, b.utxo.amount.toNat] [b.utxo.assetBlinder, b.rand 1] [b.utxo.blinder, b.rand 0] 2 1 = some x ∧ Good x

structure AliceLucky (E : Env) (Good : Bytes → Prop) (a : Alice) : Prop where
  random : Lucky Good a.rand a.utxos
  /-- Bob's asset is unknown to Alice -/
  selects : ∀ k u, a.utxos[k]? = some u → Selects E.z [zero32, a.asset1.asset, a.asset2.asset, a.fee.asset] u.asset (a.rand (4 * k + 3))
  balance : ∃ x, E.z.blindSum
    [a.asset1.amount.toNat, a.asset2.amount.toNat, a.fee.amount.toNat, a.asset1.amount.toNat, a.asset2.amount.toNat, (a.fee.amount - 10000).toNat]
    [a.asset1.assetBlinder, a.asset2.assetBlinder, a.fee.assetBlinder, a.rand 1, a.rand 5, a.rand 9]
    [a.asset1.blinder, a.asset2.blinder, a.fee.blinder, a.rand 0, a.rand 4, a.rand 8] 6 3 = some x ∧ Good x

/-- Both have what they offer, and addresses to receive. -/
structure HonestSwap (E : Env) (W : World) (Good Asset : Bytes → Prop) (a : Alice) (b : Bob) (x1 x2 : Addr × Bytes) (spent : List TxOut) : Prop where
  owned : List.Forall₂ (Owned E W Asset) (b.utxo :: a.utxos) spent
  fee : a.fee.asset = a.feeAsset ∧ 20000 ≤ a.fee.amount
  dst : Receives E a.dst a.bkey
  change : ∃ k, Receives E a.change k
  receives : Receives E x1.1 x1.2 ∧ Receives E x2.1 x2.2
  bobLucky : BobLucky E Good b
  aliceLucky : AliceLucky E Good a

/-- The transaction that swaps: it spends what both have, with their signatures, and pays to each what the other had,
the change to Alice, and the fee. -/
structure Swaps (E : Env) (W : World) (a : Alice) (b : Bob) (x1 x2 : Addr × Bytes) (t : Tx) : Prop where
  inputs : t.vin.map inputView = (b.utxo :: a.utxos).map plainView
  signed : ∀ k u, (b.utxo :: a.utxos)[k]? = some u → Spends E W u t k
  scripts : ∃ s s1 s2 s3, a.dst.toScriptPubKey = .ok s ∧ x1.1.toScriptPubKey = .ok s1 ∧ x2.1.toScriptPubKey = .ok s2 ∧
    a.change.toScriptPubKey = .ok s3 ∧ t.vout.map TxOut.scriptPubKey = [s, s1, s2, s3, []]
  alice : Finds E a.bkey t 0 b.utxo.asset b.utxo.amount
  bob : Finds E x1.2 t 1 a.asset1.asset a.asset1.amount ∧ Finds E x2.2 t 2 a.asset2.asset a.asset2.amount
  change : ∀ k, Receives E a.change k → Finds E k t 3 a.feeAsset (a.fee.amount - 10000)
  fee : t.vout[4]? = some { nValue := 1 :: beBytes 8 10000, nAsset := 1 :: a.feeAsset }
  hidden : ∀ j < 4, IsValueCommitment (t.vout.getD j {}).nValue
  /-- what is written is what is read -/
  wire : WFTx t

/-- The library and the script check work. -/
structure AllWorks (E : Env) (W : World) (Good Asset : Bytes → Prop) : Prop where
  zkp : Works E.z Good Asset 0 52
  formats : Formats E.z
  rewinds : Rewinds E.z
  wire : WireSizes E.z
  verify : VerifyWorks E W
  hash : ∀ b, (W.hash160 b).length = 20
  signature : ∀ k d, (W.sign k d).length ≤ 72
  pub : ∀ k : Bytes, k.length = 32 → (E.z.pubOf k).length ≤ 33

end Verif.Spec
