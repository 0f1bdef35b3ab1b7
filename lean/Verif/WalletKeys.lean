import Verif.Wallet
/-
Redeem scripts of confidential addresses and the base58 prefixes of keys, wallet.py.
-/
namespace Verif

/-- `to_redeemScript` of the unconfidential classes (python-bitcointx wallet.py): the script whose
spending is signed for.  For hashes of scripts it is not known. -/
def plainRedeem : Kind → Bytes → Except PyErr Bytes
  | .p2pkh, h => .ok (scriptOf .p2pkh h)
  | .p2wpkh, h => .ok (scriptOf .p2pkh h)
  | .p2sh, _ => .error .notImplemented
  | .p2wsh, _ => .error .notImplemented
  | .p2tr, _ => .error .notImplemented

/-- `to_redeemScript`, wallet.py:160-161 for confidential addresses. -/
def Addr.toRedeemScript (a : Addr) : Except PyErr Bytes :=
  if a.conf then do
    let u ← a.toUnconfidential
    u.toScriptPubKey
  else plainRedeem a.kind a.payload

/-- `from_scriptPubKey` of confidential addresses, wallet.py:163-165. -/
def confFromScriptPubKey (_ : Bytes) : Except PyErr Addr := .error .address

/-- Base58 classes: addresses, `CElementsKey` and `CElementsLiquidV1Key`, extended keys. -/
inductive B58Class
  | addr (c : Chain) (k : Kind) (conf : Bool)
  | key (c : Chain)
  | extPub (c : Chain)
  | extKey (c : Chain)
  deriving DecidableEq, Repr

/-- `base58_prefix`, wallet.py:381-390 and 483-492, and of the address classes. -/
def B58Class.pre : B58Class → Bytes
  | .addr c k conf => base58Prefix c k conf
  | .key .elements => [239]
  | .key .liquid => [239]
  | .extPub .elements => [0x04, 0x35, 0x87, 0xCF]
  | .extKey .elements => [0x04, 0x35, 0x83, 0x94]
  | .extPub .liquid => [0x04, 0x88, 0xB2, 0x1E]
  | .extKey .liquid => [0x04, 0x88, 0xAD, 0xE4]

end Verif
