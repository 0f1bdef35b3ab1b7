import Verif.Wallet
import Verif.Spec.AddrText
/-
Text of addresses: reading a string as an address of a class, and writing it.

Base58 and the address classes' common ancestors are of python-bitcointx, which is not in the repository: base58.py and wallet.py of that project
are followed here.  The hash of the checksum is a parameter, and so is its codec for segwit addresses without blinding key.
-/
namespace Verif.AddrText
open Verif

/-- `B58_DIGITS`, python-bitcointx base58.py. -/
def B58_DIGITS : PyStr := "123456789ABCDEFGHJKLMNPQRSTUVWXYZabcdefghijkmnopqrstuvwxyz".toList.map Char.toNat

/-- `while n > 0: n, r = divmod(n, 58); res.append(r)`. -/
def divLoop (base n : Nat) : List Nat := if h : 0 < n ∧ 1 < base then n % base :: divLoop base (n / base) else []
termination_by n
decreasing_by exact Nat.div_lt_self h.1 h.2

/-- The number of leading items that are `c`: `for x in l: if x == c: pad += 1 else: break`. -/
def padOf (c : Nat) : List Nat → Nat
  | [] => 0
  | x :: l => if x = c then padOf c l + 1 else 0

/-- `encode`, python-bitcointx base58.py. -/
def b58Encode (b : Bytes) : PyStr :=
  let n := beVal b
  let res := ((divLoop 58 n).map fun r => B58_DIGITS.getD r 0).reverse
  List.replicate (padOf 0 (b.map UInt8.toNat)) (B58_DIGITS.getD 0 0) ++ res

/-- `n = n * 58 + B58_DIGITS.index(c)`, for the characters. -/
def b58Number : PyStr → Nat → Except PyErr Nat
  | [], n => .ok n
  | c :: s, n => if c ∈ B58_DIGITS then b58Number s (n * 58 + B58_DIGITS.idxOf c) else .error .address

/-- `unhexlify` of `'%x' % n` with an even number of digits. -/
def unhex (n : Nat) : Bytes := if n = 0 then [0] else ((divLoop 256 n).map UInt8.ofNat).reverse

/-- `decode`, python-bitcointx base58.py. -/
def b58Decode (s : PyStr) : Except PyErr Bytes :=
  if s = [] then .ok []
  else do
    let n ← b58Number s 0
    return List.replicate (padOf (B58_DIGITS.getD 0 0) s.dropLast) 0 ++ unhex n

/-- `CBase58Data.__new__`, python-bitcointx base58.py, for the candidates of a class. -/
def b58New (H : Bytes → Bytes) (candidates : List (Chain × Kind × Bool)) (s : PyStr) : Except PyErr Addr := do
  let k ← b58Decode s
  if k.length < 4 then throw .address
  let data := k.take (k.length - 4)
  if k.drop (k.length - 4) ≠ (H data).take 4 then throw .address
  base58Match candidates data

/-- `CBase58Data.__str__`. -/
def Addr.b58Str (H : Bytes → Bytes) (a : Addr) : PyStr :=
  let vs := base58Prefix a.chain a.kind a.conf ++ a.payload
  b58Encode (vs ++ (H vs).take 4)

/-- `CBech32Data.__new__` of a class of a chain: `bech32_hrp`, wallet.py:310 and 412, version and length of the class. -/
def bechNew (S : Spec.SegwitCodec) (c : Chain) (k : Kind) (s : PyStr) : Except PyErr Addr :=
  match S.decode c.bechHrp s with
  | none => .error .address
  | some (v, p) => if (v : Int) = k.witver ∧ p.length = k.dataLen then addrFromBytes c k false p else .error .address

/-- A string as an address of one class: the classes of wallet.py:318-378 and 420-479. -/
def addrNew (H : Bytes → Bytes) (S : Spec.SegwitCodec) (x : Chain × Kind × Bool) (s : PyStr) : Except PyErr Addr :=
  match x with
  | (c, k, conf) =>
    if k.segwit then if conf then blechNew c [k] s else bechNew S c k s
    else b58New H [(c, k, conf)] s

/-- `str()` of an address. -/
def addrStr (H : Bytes → Bytes) (S : Spec.SegwitCodec) (a : Addr) : Except PyErr PyStr :=
  if a.kind.segwit then if a.conf then a.blechStr else .ok (S.encode a.chain.bechHrp a.kind.witver.toNat a.payload)
  else .ok (Addr.b58Str H a)

/-- `CCoinAddress.__new__`, python-bitcointx wallet.py: the classes one after the other; an encoding error leads to the next, anything else is
raised. -/
def addrParse (H : Bytes → Bytes) (S : Spec.SegwitCodec) : List (Chain × Kind × Bool) → PyStr → Except PyErr Addr
  | [], _ => .error .address
  | x :: xs, s => match addrNew H S x s with
    | .ok a => .ok a
    | .error .address | .error .blech32 | .error .blech32Unexpected => addrParse H S xs s
    | .error e => .error e

end Verif.AddrText
