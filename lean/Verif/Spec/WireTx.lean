import Verif.Types
import Verif.Spec.Wire
/-
Wire grammar of Elements transactions, as relations.  `strict = false` is what a
reader must accept, `strict = true` is the one canonical form a writer produces:
shortest compact sizes, flag byte 0 or 1, no explicit all-null issuance.
-/
namespace Verif.Spec

/-- Length prefix: any compact size, or only the shortest. -/
def Len (strict : Bool) : Nat → Bytes → Prop := if strict then VarIntMin else VarIntEnc

/-- A confidential field: absent (`c = []`, written as a zero byte), explicit
(marker 1) or a 33-byte commitment with one of two markers. -/
def FieldEnc (explicitLen : Nat) (a b : UInt8) (c w : Bytes) : Prop :=
  (c = [] ∧ w = [0]) ∨
  (w = c ∧ c.length = explicitLen ∧ c.head? = some 1) ∨
  (w = c ∧ c.length = 33 ∧ (c.head? = some a ∨ c.head? = some b))

def ValueEnc : Bytes → Bytes → Prop := FieldEnc 9 8 9
def AssetEnc : Bytes → Bytes → Prop := FieldEnc 33 10 11
def NonceEnc : Bytes → Bytes → Prop := FieldEnc 33 2 3

/-- Raw 32 bytes. -/
def RawEnc (k : Nat) (x w : Bytes) : Prop := w = x ∧ x.length = k

/-- Neither an amount nor inflation keys. -/
def NoIssue (i : Issuance) : Prop := i.nAmount = [] ∧ i.nInflationKeys = []

def IssuanceEnc (i : Issuance) (w : Bytes) : Prop :=
  ∃ n e a k, RawEnc 32 i.assetBlindingNonce n ∧ RawEnc 32 i.assetEntropy e ∧
    ValueEnc i.nAmount a ∧ ValueEnc i.nInflationKeys k ∧ w = n ++ e ++ a ++ k

/-- Index field on the wire and the issuance bytes at the end of an input. -/
inductive IndexEnc (strict : Bool) : TxIn → Nat → Bytes → Prop
  /-- the all-ones index: no flags, no issuance -/
  | coinbase {i : TxIn} : i.prevout.n = 4294967295 → i.isPegin = false → i.assetIssuance = {} →
      IndexEnc strict i 4294967295 []
  /-- no issuance -/
  | plain {i : TxIn} : i.prevout.n < 1073741824 → i.assetIssuance = {} →
      IndexEnc strict i (i.prevout.n + if i.isPegin then 1073741824 else 0) []
  /-- issuance attached -/
  | issue {i : TxIn} {w : Bytes} : i.prevout.n < 1073741824 → IssuanceEnc i.assetIssuance w →
      (strict = true → ¬ NoIssue i.assetIssuance) →
      ¬ (i.prevout.n = 1073741823 ∧ i.isPegin = true) →
      IndexEnc strict i (i.prevout.n + 2147483648 + if i.isPegin then 1073741824 else 0) w

def TxInEnc (strict : Bool) (i : TxIn) (w : Bytes) : Prop :=
  ∃ n h x s q t, IndexEnc strict i n t ∧ RawEnc 32 i.prevout.hash h ∧ UIntEnc 4 n x ∧
    BytesEnc (Len strict) i.scriptSig s ∧ UIntEnc 4 i.nSequence q ∧ w = h ++ x ++ s ++ q ++ t

def TxOutEnc (strict : Bool) (o : TxOut) (w : Bytes) : Prop :=
  ∃ a v n s, AssetEnc o.nAsset a ∧ ValueEnc o.nValue v ∧ NonceEnc o.nNonce n ∧
    BytesEnc (Len strict) o.scriptPubKey s ∧ w = a ++ v ++ n ++ s

def StackEnc (strict : Bool) : List Bytes → Bytes → Prop :=
  VecEnc (Len strict) (BytesEnc (Len strict))

def TxInWitnessEnc (strict : Bool) (x : TxInWitness) (w : Bytes) : Prop :=
  ∃ a k s p, BytesEnc (Len strict) x.issuanceAmountRangeproof a ∧
    BytesEnc (Len strict) x.inflationKeysRangeproof k ∧
    StackEnc strict x.scriptWitness s ∧ StackEnc strict x.peginWitness p ∧ w = a ++ k ++ s ++ p

def TxOutWitnessEnc (strict : Bool) (x : TxOutWitness) (w : Bytes) : Prop :=
  ∃ s r, BytesEnc (Len strict) x.surjectionproof s ∧ BytesEnc (Len strict) x.rangeproof r ∧ w = s ++ r

/-- All witnesses empty. -/
def NoWitness (w : TxWitness) : Prop :=
  (∀ x ∈ w.vtxinwit, x = {}) ∧ (∀ x ∈ w.vtxoutwit, x = {})

/-- Inputs, outputs, lock time. -/
def BodyEnc (strict : Bool) (tx : Tx) (w : Bytes) : Prop :=
  ∃ i o l, VecEnc (Len strict) (TxInEnc strict) tx.vin i ∧
    VecEnc (Len strict) (TxOutEnc strict) tx.vout o ∧ UIntEnc 4 tx.nLockTime l ∧ w = i ++ o ++ l

/-- What follows the body. -/
def WitnessEnc (strict : Bool) (tx : Tx) (w : Bytes) : Prop :=
  ∃ i o, SeqEnc (TxInWitnessEnc strict) tx.wit.vtxinwit i ∧
    SeqEnc (TxOutWitnessEnc strict) tx.wit.vtxoutwit o ∧ w = i ++ o

inductive TxEnc (strict : Bool) : Tx → Bytes → Prop
  /-- flag byte 1: witnesses follow and are not all empty -/
  | extended {tx : Tx} {v b x : Bytes} : SIntEnc 4 tx.nVersion v → BodyEnc strict tx b →
      WitnessEnc strict tx x →
      tx.wit.vtxinwit.length = tx.vin.length → tx.wit.vtxoutwit.length = tx.vout.length →
      ¬ NoWitness tx.wit → TxEnc strict tx (v ++ [1] ++ b ++ x)
  /-- any other flag byte (0 in the canonical form): no witnesses -/
  | basic {tx : Tx} {v b : Bytes} {flag : UInt8} : SIntEnc 4 tx.nVersion v → BodyEnc strict tx b →
      flag ≠ 1 → (strict = true → flag = 0) →
      tx.wit.vtxinwit.length = tx.vin.length → tx.wit.vtxoutwit.length = tx.vout.length →
      NoWitness tx.wit → TxEnc strict tx (v ++ [flag] ++ b)

/-! ### Transactions that survive a round trip -/

def ValidField (explicitLen : Nat) (a b : UInt8) (c : Bytes) : Prop :=
  c = [] ∨ (c.length = explicitLen ∧ c.head? = some 1) ∨
    (c.length = 33 ∧ (c.head? = some a ∨ c.head? = some b))

structure WFIssuance (i : Issuance) : Prop where
  nonce : i.assetBlindingNonce.length = 32
  entropy : i.assetEntropy.length = 32
  amount : ValidField 9 8 9 i.nAmount
  keys : ValidField 9 8 9 i.nInflationKeys
  /-- nothing is hidden in an issuance that issues nothing -/
  null : NoIssue i → i = {}

structure WFIn (i : TxIn) : Prop where
  hash : i.prevout.hash.length = 32
  script : i.scriptSig.length ≤ maxItem
  seq : i.nSequence < 4294967296
  iss : WFIssuance i.assetIssuance
  /-- either a coinbase-style input, without peg-in or issuance, or a 30-bit index -/
  index : (i.prevout.n = 4294967295 ∧ i.isPegin = false ∧ NoIssue i.assetIssuance) ∨
    (i.prevout.n < 1073741824 ∧
      ¬ (i.prevout.n = 1073741823 ∧ i.isPegin = true ∧ ¬ NoIssue i.assetIssuance))

structure WFOut (o : TxOut) : Prop where
  asset : ValidField 33 10 11 o.nAsset
  value : ValidField 9 8 9 o.nValue
  nonce : ValidField 33 2 3 o.nNonce
  script : o.scriptPubKey.length ≤ maxItem

def WFStack (s : List Bytes) : Prop := s.length < 18446744073709551616 ∧ ∀ x ∈ s, x.length ≤ maxItem

structure WFInWitness (w : TxInWitness) : Prop where
  amount : w.issuanceAmountRangeproof.length ≤ maxItem
  keys : w.inflationKeysRangeproof.length ≤ maxItem
  script : WFStack w.scriptWitness
  pegin : WFStack w.peginWitness

structure WFOutWitness (w : TxOutWitness) : Prop where
  surj : w.surjectionproof.length ≤ maxItem
  range : w.rangeproof.length ≤ maxItem

/-- Field ranges under which a transaction is representable on the wire. -/
structure WFTx (tx : Tx) : Prop where
  version : -2147483648 ≤ tx.nVersion ∧ tx.nVersion < 2147483648
  locktime : tx.nLockTime < 4294967296
  nin : tx.vin.length < 18446744073709551616
  nout : tx.vout.length < 18446744073709551616
  vin : ∀ i ∈ tx.vin, WFIn i
  vout : ∀ o ∈ tx.vout, WFOut o
  witin : tx.wit.vtxinwit.length = tx.vin.length
  witout : tx.wit.vtxoutwit.length = tx.vout.length
  vtxinwit : ∀ w ∈ tx.wit.vtxinwit, WFInWitness w
  vtxoutwit : ∀ w ∈ tx.wit.vtxoutwit, WFOutWitness w

/-- The same issuance with hidden data of a non-issuance dropped. -/
def normIssuance (i : Issuance) : Issuance :=
  if i.nAmount = [] ∧ i.nInflationKeys = [] then {} else i

/-- The transaction with hidden data of non-issuances dropped. -/
def normTx (tx : Tx) : Tx :=
  { tx with vin := tx.vin.map fun i => { i with assetIssuance := normIssuance i.assetIssuance } }

end Verif.Spec
