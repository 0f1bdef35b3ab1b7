import Verif.UnblindEx
import Verif.Spec.Unblind
/-
What the unblinding example should tell about an output.
-/
namespace Verif.UnblindEx
open Verif

/-- Addresses come from scripts of the selected chain, and pay to them. -/
def AddressesFine (W : World) : Prop :=
  ∀ s a, W.address s = .ok a → a.chain = W.chain ∧ a.conf = false ∧ a.payload.length = a.kind.dataLen ∧ a.toScriptPubKey = .ok s

/-- The library does not fail for no reason: objects can be written, valid keys agree. -/
structure Steady (z : Zkp) : Prop where
  written : ∀ g, g.length = 64 → ∃ s, z.genSerialize g = some s
  agree : ∀ k pk, z.secValid k = true → z.pubValid pk = true → ∃ s, z.ecdh k pk = some s

/-- The key is one: its pubkey is a compressed one. -/
structure GoodKey (z : Zkp) (key : Bytes) : Prop where
  valid : z.secValid key = true
  pub : z.pubValid (z.pubOf key) = true
  size : (z.pubOf key).length = 33

/-- What the proof tells by itself. -/
inductive InfoTold (W : World) (tx : Tx) (proof : Bytes) : List Line → Prop
  | nothing : W.info proof = none ∨ tx.wit.isNull = true → InfoTold W tx proof []
  | told (e m : Int) (lo hi : Nat) : W.info proof = some (e, m, lo, hi) → tx.wit.isNull = false →
      InfoTold W tx proof [.exponent e, .bits m, .minimum lo, .maximum hi]

/-- The right lines about output `n`. -/
inductive Told (E : Env) (W : World) (key : Bytes) (tx : Tx) (n : Nat) (o : TxOut) : List Line → Prop
  | fee (v a : Bytes) : o.nValue = 1 :: v → v.length = 8 → o.nAsset = 1 :: a → a.length = 32 → o.scriptPubKey = [] →
      beVal v ≤ 21 * 10 ^ 14 → Told E W key tx n o [.fee n, .amount (beVal v), .asset a, .empty]
  | explicit (v a : Bytes) (ad : Addr) : o.nValue = 1 :: v → v.length = 8 → o.nAsset = 1 :: a → a.length = 32 →
      o.scriptPubKey ≠ [] → W.address o.scriptPubKey = .ok ad → beVal v ≤ 21 * 10 ^ 14 →
      Told E W key tx n o [.explicit n, .destination ad, .amount (beVal v), .asset a, .empty]
  /-- the key opens it: address with and without the key, and what is inside -/
  | opened (w : TxOutWitness) (asset : Bytes) (amount : Nat) (bf abf : Bytes) (ad ca : Addr) :
      tx.wit.vtxoutwit[n]? = some w →
      Opens E key o.nValue o.nAsset o.nNonce o.scriptPubKey w.rangeproof asset amount bf abf →
      W.address o.scriptPubKey = .ok ad →
      ca.conf = true → ca.kind = ad.kind → ca.chain = ad.chain → ca.payload = E.z.pubOf key ++ ad.payload →
      Told E W key tx n o [.unblinded n, .destinations, .confidential ca, .unconfidential ad, .amount amount, .blindingFactor bf,
        .asset asset, .assetBlindingFactor abf, .empty]
  /-- the key does not open it -/
  | closed (w : TxOutWitness) (error : String) (ad : Addr) (ls : List Line) : ¬ IsExplicitValue o.nValue →
      tx.wit.vtxoutwit[n]? = some w → error ≠ "" →
      (∀ asset amount bf abf, ¬ Opens E key o.nValue o.nAsset o.nNonce o.scriptPubKey w.rangeproof asset amount bf abf) →
      W.address o.scriptPubKey = .ok ad → InfoTold W tx w.rangeproof ls →
      Told E W key tx n o (.cannot n error :: .destination ad :: (ls ++ [.empty]))

/-- Outputs the script is able to tell about: an explicit amount that is not too large, of an explicit asset, to an
address or to the miners; or a hidden one with a witness to an address. -/
def Reportable (W : World) (tx : Tx) (n : Nat) (o : TxOut) : Prop :=
  (∃ v, o.nValue = 1 :: v ∧ v.length = 8 ∧ beVal v ≤ 21 * 10 ^ 14 ∧ IsExplicitAsset o.nAsset ∧
    (o.scriptPubKey = [] ∨ ∃ ad, W.address o.scriptPubKey = .ok ad)) ∨
  (¬ IsExplicitValue o.nValue ∧ n < tx.wit.vtxoutwit.length ∧ ∃ ad, W.address o.scriptPubKey = .ok ad)

end Verif.UnblindEx
