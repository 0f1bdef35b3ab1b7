import Verif.Spec.WireTx
import Verif.Spec.Interp
import Verif.Spec.Joint
import Verif.Spec.Unblind
import Verif.AssetSwap
/-
What examples/asset-atomic-swap.py is supposed to do.
-/
namespace Verif.Spec
open Verif Interp

/-- The script a signature for a public key hash is made for. -/
def keyHashCode (hash160 : Bytes → Bytes) (pub : Bytes) : Bytes := [0x76, 0xa9, 0x14] ++ hash160 pub ++ [0x88, 0xac]

/-- Input `i` of `t` spends an output for `pub`, of amount `value`, with a signature by `key` of `t`
itself, whole, in the way nodes expect for that kind of address. -/
inductive Unlocked (h : HashFn) (hash160 : Bytes → Bytes) (sign : (key digest : Bytes) → Bytes) (key pub value : Bytes)
    (t : Tx) (i : Nat) : Kind → Prop
  /-- signature and key are pushed, the key last -/
  | p2pkh (x : TxIn) (digest : Bytes) : t.vin[i]? = some x → sighashBase h (keyHashCode hash160 pub) t i 1 = .ok (digest, false) →
      pushStack x.scriptSig = some [pub, sign key digest ++ [1]] → Unlocked h hash160 sign key pub value t i .p2pkh
  /-- nothing is pushed, signature and key are the witness -/
  | p2wpkh (x : TxIn) (digest : Bytes) : t.vin[i]? = some x → sighashV0 h (keyHashCode hash160 pub) t i 1 (some value) = .ok digest →
      x.scriptSig = [] → (t.inWit i).scriptWitness = [sign key digest ++ [1], pub] →
      Unlocked h hash160 sign key pub value t i .p2wpkh
  /-- the witness program is pushed -/
  | p2sh (x : TxIn) (digest inner : Bytes) : t.vin[i]? = some x →
      sighashV0 h (keyHashCode hash160 pub) t i 1 (some value) = .ok digest →
      pushStack x.scriptSig = some [inner] → witnessProgram inner = some (0, hash160 pub) →
      (t.inWit i).scriptWitness = [sign key digest ++ [1], pub] →
      Unlocked h hash160 sign key pub value t i .p2sh

open AssetSwap

/-- The amount of an output as its transaction has it: the commitment, or the explicit amount. -/
def Amount (u : Utxo) (value : Bytes) : Prop :=
  u.amountCommitment = some value ∨ (u.amountCommitment = none ∧ value = 1 :: beBytes 8 u.amount.toNat)

/-- What the node told about an output: asset, amount, factor of the amount, factor of the asset. -/
def told (u : Utxo) : Desc where
  asset := u.asset
  amount := u.amount
  blindingFactor := u.blinder
  assetBlindingFactor := u.assetBlinder

/-- The script an output is locked with: that of its address, for script hash addresses that of the
witness program for the key, which the address is taken to be of. -/
inductive LockedBy (hash160 : Bytes → Bytes) (pub : Bytes) (addr : Addr) : Bytes → Prop
  | address (s : Bytes) : addr.kind = .p2pkh ∨ addr.kind = .p2wpkh → addr.toScriptPubKey = .ok s → LockedBy hash160 pub addr s
  | nested : addr.kind = .p2sh → LockedBy hash160 pub addr ([0xa9, 0x14] ++ hash160 ([0, 0x14] ++ hash160 pub) ++ [0x87])

/-- Input `i` of `t` spends `u` as nodes expect. -/
def Spends (E : Env) (W : World) (u : Utxo) (t : Tx) (i : Nat) : Prop :=
  ∃ value, Amount u value ∧ Unlocked E.h W.hash160 W.sign u.key (E.z.pubOf u.key) value t i u.addr.kind

/-- Everything about an input but its unlocking script. -/
def inputView (i : TxIn) : OutPoint × Nat × Issuance × Bool := (i.prevout, i.nSequence, i.assetIssuance, i.isPegin)

/-- An input that spends an output and does nothing else. -/
def plainView (u : Utxo) : OutPoint × Nat × Issuance × Bool := (u.prevout, 0xffffffff, {}, false)

/-- The holder of `key` finds this asset and amount in output `j`. -/
def Finds (E : Env) (key : Bytes) (t : Tx) (j : Nat) (asset : Bytes) (amount : Int) : Prop :=
  ∃ (n : Nat) (bf abf : Bytes), (n : Int) = amount ∧ Opens E key (t.vout.getD j {}).nValue (t.vout.getD j {}).nAsset
    (t.vout.getD j {}).nNonce (t.vout.getD j {}).scriptPubKey (t.outWit j).rangeproof asset n bf abf

/-- What was there is still there but for the unlocking scripts and witnesses of some inputs. -/
structure SameBut (these : Nat → Prop) (t t' : Tx) : Prop where
  version : t'.nVersion = t.nVersion
  lockTime : t'.nLockTime = t.nLockTime
  inputs : t'.vin.map inputView = t.vin.map inputView
  outputs : t'.vout = t.vout
  outputWitness : t'.wit.vtxoutwit = t.wit.vtxoutwit
  others : ∀ i : Nat, ¬ these i → t'.vin[i]? = t.vin[i]? ∧ t'.inWit i = t.inWit i

/-- What Alice sends to Bob: Bob's input and output, followed by Alice's three inputs and four
outputs, Alice's inputs signed. -/
structure AliceSends (E : Env) (W : World) (a : Alice) (offer : Offer) (p : Tx) (bob1 bob2 : Addr) (t : Tx) : Prop where
  inputs : ∃ i, p.vin = [i] ∧ t.vin.map inputView = inputView i :: [a.asset1, a.asset2, a.fee].map plainView
  /-- the first output is Bob's, as it was -/
  outputs : ∃ o s1 s2 s3, p.vout = [o] ∧ bob1.toScriptPubKey = .ok s1 ∧ bob2.toScriptPubKey = .ok s2 ∧ a.change.toScriptPubKey = .ok s3 ∧
    t.vout.map TxOut.scriptPubKey = [o.scriptPubKey, s1, s2, s3, []] ∧ t.vout[0]? = some o ∧ t.outWit 0 = p.outWit 0
  /-- Alice gets what Bob offered -/
  gets : Finds E a.bkey t 0 offer.asset offer.amount
  fee : t.vout[4]? = some { nValue := 1 :: beBytes 8 10000, nAsset := 1 :: a.feeAsset }
  rest : t.nVersion = p.nVersion ∧ t.nLockTime = p.nLockTime
  bobInput : ∀ i, p.vin = [i] → t.vin.head?.map TxIn.scriptSig = some i.scriptSig ∧ (t.inWit 0).scriptWitness = (p.inWit 0).scriptWitness
  signed : Spends E W a.asset1 t 1 ∧ Spends E W a.asset2 t 2 ∧ Spends E W a.fee t 3
  /-- what Bob reads is what Alice wrote, if that was so for what came from Bob -/
  wire : WireSizes E.z → (∀ u ∈ a.utxos, u.prevout.n < 2 ^ 30) → WFTx p → WFTx t

/-- What Bob starts with: one input and one output, to Alice's address. -/
structure BobBegins (E : Env) (b : Bob) (alice : Addr) (p : Tx) : Prop where
  inputs : p.vin = [{ prevout := b.utxo.prevout }]
  outputs : ∃ s, alice.toScriptPubKey = .ok s ∧ p.vout.map TxOut.scriptPubKey = [s]
  rest : p.nVersion = 2 ∧ p.nLockTime = 0
  /-- Alice finds what was offered, unless blinding left it for all to see -/
  pays : ∀ key, E.z.secValid key = true → alice.blindingPubkey = E.z.pubOf key →
    Finds E key p 0 b.utxo.asset b.utxo.amount ∨
    ((p.vout.getD 0 {}).nValue = 1 :: beBytes 8 b.utxo.amount.toNat ∧ (p.vout.getD 0 {}).nAsset = 1 :: b.utxo.asset)
  /-- what Alice reads is what Bob wrote -/
  wire : WireSizes E.z → b.utxo.prevout.n < 2 ^ 30 → WFTx p

/-- Fee outputs have no script and hide nothing. -/
def LastIsFee (vout : List TxOut) : Prop :=
  ∃ o, vout.getLast? = some o ∧ o.scriptPubKey = [] ∧ IsExplicitValue o.nValue ∧ IsExplicitAsset o.nAsset

/-- What Bob sends: what came from Alice, with the first input signed. -/
structure BobSends (E : Env) (W : World) (b : Bob) (offers : List (Offer × Bytes)) (semi t : Tx) : Prop where
  count : t.vout.length = offers.length + 3
  fee : LastIsFee t.vout
  /-- Bob gets what Alice offered -/
  gets : ∀ n f key, offers[n]? = some (f, key) → Finds E key t (n + 1) f.asset f.amount
  same : SameBut (· = 0) semi t
  signed : Spends E W b.utxo t 0
  /-- what Alice reads is what Bob wrote, if that was so for what came from Alice -/
  wire : WFTx semi → WFTx t

/-- What is claimed back of an output. -/
def claimed (feeAsset : Bytes) (u : Utxo) : Int := if u.asset = feeAsset then u.amount - 10000 else u.amount

/-- The transaction that takes the funds back: to a new address for each, and the fee. -/
structure Claims (E : Env) (W : World) (feeAsset : Bytes) (addrs : Nat → Addr) (us : List Utxo) (t : Tx) : Prop where
  inputs : t.vin.map inputView = us.map plainView
  signed : ∀ k u, us[k]? = some u → Spends E W u t k
  /-- no two of the same asset -/
  distinct : (us.map Utxo.asset).Nodup
  enough : ∀ u ∈ us, u.asset = feeAsset → 20000 ≤ u.amount
  count : t.vout.length = us.length + 1
  scripts : ∀ k, k < us.length → (addrs k).toScriptPubKey = .ok (t.vout.getD k {}).scriptPubKey
  fee : t.vout[us.length]? = some { nValue := 1 :: beBytes 8 10000, nAsset := 1 :: feeAsset }
  rest : t.nVersion = 2 ∧ t.nLockTime = 0

end Verif.Spec
