import Verif.Blech32
import Verif.Tx
/-
`wallet.py` and `blech32.py`: confidential addresses.

The class hierarchy is a table: a concrete address class is a chain, one of five kinds, and
whether it is confidential.  python-bitcointx's class dispatch maps a general class to the class
of the chain parameters selected at the time of the call (`dispatcher_mapped_list`, and attribute
access on the general class); the selected chain is the argument `cur`.  `CPubKey.is_fullyvalid`
is a predicate of the caller.
-/
namespace Verif

/-- The chains of `ElementsParams` and `ElementsLiquidV1Params`, elementstx/__init__.py:23-45. -/
inductive Chain | elements | liquid
  deriving DecidableEq, Repr

inductive Kind | p2pkh | p2wpkh | p2sh | p2wsh | p2tr
  deriving DecidableEq, Repr

/-- `CBase58…` against `CBech32…`/`CBlech32…` classes, wallet.py:318-378 and 420-479. -/
def Kind.segwit : Kind → Bool
  | .p2pkh | .p2sh => false
  | _ => true

/-- Payload length of the unconfidential classes (python-bitcointx wallet.py). -/
def Kind.dataLen : Kind → Nat
  | .p2pkh | .p2sh | .p2wpkh => 20
  | .p2wsh | .p2tr => 32

/-- `_data_length` of the confidential classes, wallet.py:243-268. -/
def Kind.confLen : Kind → Nat
  | .p2sh => 20 + 33
  | .p2pkh => 20 + 33
  | .p2wsh => 32 + 33
  | .p2tr => 32 + 33
  | .p2wpkh => 20 + 33

/-- `blech32_witness_version`, wallet.py:254, 261, 268 (-1 where none is given, blech32.py:46). -/
def Kind.witver : Kind → Int
  | .p2wsh => 0
  | .p2tr => 1
  | .p2wpkh => 0
  | _ => -1

/-- An address object: its class and the bytes it is. -/
structure Addr where
  chain : Chain
  kind : Kind
  conf : Bool
  payload : Bytes
  deriving DecidableEq, Repr

/-- `blech32_hrp`, wallet.py:315 and 417. -/
def Chain.blechHrp : Chain → PyStr
  | .elements => "el".toList.map Char.toNat
  | .liquid => "lq".toList.map Char.toNat

/-- `bech32_hrp`, wallet.py:310 and 412. -/
def Chain.bechHrp : Chain → PyStr
  | .elements => "ert".toList.map Char.toNat
  | .liquid => "ex".toList.map Char.toNat

/-- `base58_prefix`, wallet.py:319, 323, 341, 350, 421, 425, 442, 451. -/
def base58Prefix : Chain → Kind → Bool → Bytes
  | .elements, .p2sh, false => [75]
  | .elements, .p2pkh, false => [235]
  | .elements, .p2pkh, true => [4, 235]
  | .elements, .p2sh, true => [4, 75]
  | .liquid, .p2sh, false => [39]
  | .liquid, .p2pkh, false => [57]
  | .liquid, .p2pkh, true => [12, 57]
  | .liquid, .p2sh, true => [12, 39]
  | _, _, _ => []

/-- Length every instance of a class has: `CBlech32DataDispatched.__init__`, wallet.py:210-216, and
its base58 and bech32 counterparts in python-bitcointx. -/
def classLen (kind : Kind) (conf : Bool) : Nat := if conf then kind.confLen else kind.dataLen

/-- `from_bytes` of a concrete class, blech32.py:107-135 with wallet.py:210-216. -/
def addrFromBytes (chain : Chain) (kind : Kind) (conf : Bool) (payload : Bytes) : Except PyErr Addr :=
  if payload.length ≠ classLen kind conf then .error .typeError
  else .ok ⟨chain, kind, conf, payload⟩

/-- The class `from_unconfidential` is called on, after dispatch: the chain's general class
(wallet.py:295, 397), its base58 or blech32 class (303, 313, 405, 415), or a concrete one. -/
inductive ConfClass
  | general (c : Chain)
  | base58 (c : Chain)
  | blech32 (c : Chain)
  | exact (c : Chain) (k : Kind)
  deriving DecidableEq, Repr

def ConfClass.chain : ConfClass → Chain
  | .general c => c
  | .base58 c => c
  | .blech32 c => c
  | .exact c _ => c

/-- `issubclass(cls, (conf_cls, chain_specific_conf_cls))`: only a concrete class of the kind is. -/
def ConfClass.below (cls : ConfClass) (k : Kind) : Bool :=
  match cls with
  | .exact _ k' => k' == k
  | _ => false

/-- `issubclass(chain_specific_conf_cls, cls)`, for the class of kind `k` of the chain `cur`. -/
def ConfClass.above (cls : ConfClass) (cur : Chain) (k : Kind) : Bool :=
  match cls with
  | .general c => c == cur
  | .base58 c => c == cur && !k.segwit
  | .blech32 c => c == cur && k.segwit
  | .exact c k' => c == cur && k' == k

/-- The loop over `clsmap`, wallet.py:100-126.  `isinstance(adr, unconf_cls)` also holds for
confidential addresses of the kind, because of the `register` calls (wallet.py:345 etc.). -/
def fromUnconfLoop (cur : Chain) (cls : ConfClass) (adr : Addr) (pub : Bytes) : List Kind → Except PyErr Addr
  | [] => .error .address
  | k :: ks =>
    if adr.kind = k ∧ (cls.below k ∨ cls.above cur k) then addrFromBytes cur k true (pub ++ adr.payload)
    else if cls.below k then .error .typeError
    else fromUnconfLoop cur cls adr pub ks

/-- `clsmap`, wallet.py:100-106. -/
def clsmap : List Kind := [.p2pkh, .p2wpkh, .p2sh, .p2wsh, .p2tr]

/-- `CCoinConfidentialAddress.from_unconfidential`, wallet.py:72-130.  The metaclass is one per
chain, so comparing metaclasses (line 94) compares chains. -/
def fromUnconfidential (fullyValid : Bytes → Bool) (cur : Chain) (cls : ConfClass) (adr : Addr) (pub : Bytes) :
    Except PyErr Addr :=
  if !fullyValid pub then .error .valueError
  else if cls.chain ≠ adr.chain then .error .typeError
  else fromUnconfLoop cur cls adr pub clsmap

/-- `to_unconfidential`, wallet.py:132-141; `_unconfidential_address_class` is the class of the
same chain and kind (lines 342, 351, 359, 367, 375, 443, 452, 460, 468, 476). -/
def Addr.toUnconfidential (a : Addr) : Except PyErr Addr :=
  addrFromBytes a.chain a.kind false (a.payload.drop 33)

/-- `blinding_pubkey`, wallet.py:144-147. -/
def Addr.blindingPubkey (a : Addr) : Bytes := a.payload.take 33

/-- `to_scriptPubKey` of the unconfidential classes (python-bitcointx wallet.py). -/
def scriptOf : Kind → Bytes → Bytes
  | .p2pkh, h => [0x76, 0xa9, 0x14] ++ h ++ [0x88, 0xac]
  | .p2sh, h => [0xa9, 0x14] ++ h ++ [0x87]
  | .p2wpkh, h => [0x00, 0x14] ++ h
  | .p2wsh, h => [0x00, 0x20] ++ h
  | .p2tr, h => [0x51, 0x20] ++ h

/-- `to_scriptPubKey`, wallet.py:157-158 for confidential addresses. -/
def Addr.toScriptPubKey (a : Addr) : Except PyErr Bytes :=
  if a.conf then do
    let u ← a.toUnconfidential
    return scriptOf u.kind u.payload
  else .ok (scriptOf a.kind a.payload)

/-! ### Strings -/

/-- `blech32_match_progam_and_version`, blech32.py:77-105, on concrete candidates of the chain. -/
def blechMatch (chain : Chain) (candidates : List Kind) (data : Bytes) (witver : Nat) : Except PyErr Addr :=
  match candidates with
  | [] => .error .blech32Unexpected
  | k :: ks =>
    if data.length = k.confLen ∧ (witver : Int) = k.witver then addrFromBytes chain k true data
    else blechMatch chain ks data witver

/-- `CBlech32Data.__new__`, blech32.py:49-59. -/
def blechNew (chain : Chain) (candidates : List Kind) (s : PyStr) : Except PyErr Addr :=
  match blechDecode chain.blechHrp s with
  | none => .error .blech32
  | some (witver, data) => blechMatch chain candidates data witver

/-- `CBlech32Data.__str__`, blech32.py:145-152. -/
def Addr.blechStr (a : Addr) : Except PyErr PyStr := do
  match ← blechEncode a.chain.blechHrp a.kind.witver.toNat a.payload with
  | none => throw .assertion
  | some s => return s

/-- Reading a base58 address string after the checksum has been verified and removed
(python-bitcointx base58.py): the first candidate class whose prefix the data begins with. -/
def base58Match (candidates : List (Chain × Kind × Bool)) (data : Bytes) : Except PyErr Addr :=
  match candidates with
  | [] => .error .address
  | (c, k, conf) :: rest =>
    if data.take (base58Prefix c k conf).length = base58Prefix c k conf then
      addrFromBytes c k conf (data.drop (base58Prefix c k conf).length)
    else base58Match rest data

/-! ### Output sizes -/

/-- `CCoinConfidentialAddress.get_output_size`, wallet.py:168-185; it is a class method, so the
class branch is always taken. -/
def confOutputSize (chain : Chain) (kind : Kind) : Except PyErr Nat := do
  let inst ← addrFromBytes chain kind true (List.replicate kind.confLen 0)
  let spk ← inst.toScriptPubKey
  let dummy : Bytes := List.replicate 33 0
  let s ← serTxOut { scriptPubKey := spk, nValue := dummy, nAsset := dummy, nNonce := dummy }
  return s.length

/-- `CElementsAddressBase.get_output_size`, wallet.py:273-288; `CConfidentialValue(0)` is the
explicit amount 0. -/
def plainOutputSize (chain : Chain) (kind : Kind) : Except PyErr Nat := do
  let inst ← addrFromBytes chain kind false (List.replicate kind.dataLen 0)
  let spk ← inst.toScriptPubKey
  let v ← valueFromAmount 0
  let s ← serTxOut { scriptPubKey := spk, nValue := v }
  return s.length

end Verif
