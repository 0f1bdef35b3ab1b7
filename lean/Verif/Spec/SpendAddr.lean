import Verif.Spec.Interp
import Verif.Spec.Spend
import Verif.SpendAddr
/-
What examples/spend-to-confidential-address.py is supposed to print.
-/
namespace Verif.Spec
open Verif Interp

/-- `o` is output `n`, and the first one with that script. -/
def FirstTo (spk : Bytes) (vout : List TxOut) (n : Nat) (o : TxOut) : Prop :=
  vout[n]? = some o ∧ o.scriptPubKey = spk ∧ ∀ m p, m < n → vout[m]? = some p → p.scriptPubKey ≠ spk

/-- Fee outputs have no script and hide nothing. -/
def IsFeeOut (o : TxOut) : Prop := o.scriptPubKey = [] ∧ IsExplicitValue o.nValue ∧ IsExplicitAsset o.nAsset

/-- `f` is the last fee output, and all fee outputs have one asset. -/
def LastFee (vout : List TxOut) (f : TxOut) : Prop :=
  (∃ i : Nat, vout[i]? = some f ∧ ∀ j o, i < j → vout[j]? = some o → ¬ IsFeeOut o) ∧ IsFeeOut f ∧
    ∀ o ∈ vout, IsFeeOut o → o.nAsset = f.nAsset

/-- Explicit amounts are at most what eight bytes with a sign can hold. -/
def AmountsSigned (vout : List TxOut) : Prop := ∀ o ∈ vout, ∀ v, o.nValue = 1 :: v → beVal v < 2 ^ 63

/-- The only input of `t` spends an output with script `spk` and amount `value` the way nodes expect
of a witness program within a script hash: the unlocking script reveals a program for the hash of the
public key, and the witness is that key with a signature of `t` itself, whole, by the key. -/
structure SignedNested (h : HashFn) (hash160 : Bytes → Bytes) (sign : (key digest : Bytes) → Bytes) (key pub spk value : Bytes)
    (t : Tx) : Prop where
  reveals : ∃ inner i, t.vin = [i] ∧ pushStack i.scriptSig = some [inner] ∧ spk = [0xa9, 0x14] ++ hash160 inner ++ [0x87] ∧
    IsP2SH spk ∧ witnessProgram inner = some (0, hash160 pub)
  signature : ∃ digest, sighashV0 h ([0x76, 0xa9, 0x14] ++ hash160 pub ++ [0x88, 0xac]) t 0 1 (some value) = .ok digest ∧
    (t.inWit 0).scriptWitness = [sign key digest ++ [1], pub]

open SpendAddr in
/-- The printed transaction `t` spends `o`, output `n` of the transaction that was read, of which `d`
is known, pays `fee` as the fee output `f` of that transaction did, and the rest to the address. -/
structure Printed (E : Env) (W : World) (a : Args) (n : Nat) (o f : TxOut) (d : Desc) (fee : Nat) (t : Tx) : Prop where
  known : DescribedBy E o (a.inputTx.outWit n) d
  feeOut : LastFee a.inputTx.vout f
  feeAmount : amountOf f.nValue = fee
  enough : 2 * fee ≤ d.amount.toNat
  input : ∃ id, txid E.h a.inputTx = .ok id ∧
    t.vin.map (fun i => (i.prevout, i.nSequence, i.assetIssuance, i.isPegin)) = [(⟨id, n⟩, 0xffffffff, {}, false)]
  /-- one more output, that nobody can spend, if a hidden output goes to a plain address -/
  scripts : ∃ s, a.dst.toScriptPubKey = .ok s ∧
    (a.dst.conf = true ∨ IsExplicitValue o.nValue → t.vout.map TxOut.scriptPubKey = [s, []]) ∧
    (a.dst.conf = false → ¬ IsExplicitValue o.nValue → t.vout.map TxOut.scriptPubKey = [s, [], [0x6a]])
  feePaid : t.vout[1]? = some { nValue := f.nValue, nAsset := f.nAsset }
  /-- to a plain address the amount is public -/
  plain : a.dst.conf = false → (t.vout.getD 0 {}).nValue = 1 :: beBytes 8 (d.amount.toNat - fee) ∧
    (t.vout.getD 0 {}).nAsset = 1 :: d.asset
  rest : t.nVersion = 2 ∧ t.nLockTime = 0
  written : ∃ b, serializeTx t = .ok b

end Verif.Spec
