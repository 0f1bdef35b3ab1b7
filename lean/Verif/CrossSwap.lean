import Verif.Script
/-
The contracts of examples/confidential-cross-chain-atomic-swap.py and the recovery of the key
from the transaction that claims the Elements side.
-/
namespace Verif.CrossSwap
open Verif

/-- What the list given to `CScript(...)` may hold: an opcode, a small integer, data. -/
inductive Elem
  | op (o : UInt8)
  | num (n : Nat)
  | data (b : Bytes)

/-- `CScriptOp.encode_op_pushdata` (python-bitcointx) for data of less than 65536 bytes. -/
def pushData (d : Bytes) : Bytes :=
  if d.length < 0x4c then UInt8.ofNat d.length :: d
  else if d.length ≤ 0xff then 0x4c :: (leBytes 1 d.length ++ d)
  else 0x4d :: (leBytes 2 d.length ++ d)

/-- `CScript.__coerce_instance` (python-bitcointx): integers up to 16 have their own opcode.  The
contracts use 1, 10 and 15 only. -/
def Elem.bytes : Elem → Bytes
  | .op o => [o]
  | .num n => if n = 0 then [0] else [UInt8.ofNat (0x50 + n)]
  | .data b => pushData b

/-- `CScript([...])`. -/
def script (l : List Elem) : Bytes := (l.map Elem.bytes).flatten

/-- `bitcoin_contract_timeout`, examples/confidential-cross-chain-atomic-swap.py:103. -/
def bitcoinTimeout : Nat := 15
/-- `elements_contract_timeout`, line 104. -/
def elementsTimeout : Nat := 10

/-- `lstrip(b'\x00')`. -/
def lstrip0 : Bytes → Bytes
  | [] => []
  | b :: t => if b = 0 then lstrip0 t else b :: t

/-- `ecdsa.util.number_to_string(r, order).lstrip(b'\x00')`, lines 438 and 731. -/
def rBytes (r : Nat) : Bytes := lstrip0 (beBytes 32 r)

/-- `make_elt_cntract`, lines 435-467.  `r` is what `get_known_k_r` gives (lines 763-771). -/
def eltContract (r : Nat) (revealPub buyerPub sellerPub : Bytes) : Bytes :=
  script [.op 0x63, .data (rBytes r), .op 0x7e, .op 0x7c, .op 0x7e, .num 1, .data revealPub, .op 0xc2,
    .data buyerPub, .op 0x67, .num elementsTimeout, .op 0xb2, .op 0x75, .data sellerPub, .op 0x68, .op 0xac]

/-- `make_btc_contract`, lines 470-479. -/
def btcContract (buyerPub sellerPub : Bytes) : Bytes :=
  script [.op 0x63, .data buyerPub, .op 0x67, .num bitcoinTimeout, .op 0xb2, .op 0x75, .data sellerPub,
    .op 0x68, .op 0xac]

/-- The unlocking script of the reveal branch, `prepare_elt_spend_reveal_branch`, lines 722-760:
the reveal signature is cut before and after its `r`. -/
def revealScriptSig (contract spendSig revealSig : Bytes) (r : Nat) : Except PyErr Bytes :=
  let rb := rBytes r
  if (revealSig[3]?).map UInt8.toNat ≠ some rb.length then .error .assertion            -- 747
  else if (revealSig.drop 4).take rb.length ≠ rb then .error .assertion                  -- 748
  else .ok (script [.data spendSig, .data (revealSig.drop (4 + rb.length)), .data (revealSig.take 4),
    .num 1, .data contract])

/-- The unlocking script of the timeout branch, lines 712-717. -/
def timeoutScriptSig (contract spendSig : Bytes) : Bytes :=
  script [.data spendSig, .op 0, .data contract]

/-- The witness of a Bitcoin-side spend without the script itself, lines 614-618 and 632: last item
on top. -/
def btcStack (spendSig : Bytes) (branch : Bool) : List Bytes := [if branch then [1] else [], spendSig]

/-- `nSequence` of a Bitcoin-side spend, lines 614-618; the default is 0xffffffff. -/
def btcSequence (branch : Bool) : Nat := if branch then 0xffffffff else bitcoinTimeout
/-- `nSequence` of an Elements-side spend, lines 694-697. -/
def eltSequence (branch : Bool) : Nat := if branch then 0xffffffff else elementsTimeout

/-- One item of `iter(script)` (python-bitcointx `CScript.__iter__`): data, a small integer, or
another opcode. -/
inductive Item
  | data (b : Bytes)
  | num (n : Nat)
  | op (o : UInt8)

/-- `next(...)` on that iterator. -/
def nextItem (s : Bytes) : Except PyErr (Item × Bytes) := do
  let (o, d, rest) ← scriptNext s
  if o = 0 then return (.num 0, rest)
  else match d with
    | some d => return (.data d, rest)
    | none =>
      if 81 ≤ o.toNat ∧ o.toNat ≤ 96 then return (.num (o.toNat - 80), rest)
      else return (.op o, rest)

/-- How a participant function stops early: `die(...)`, or an exception it does not catch. -/
inductive Stop
  | die
  | raise (e : PyErr)
  deriving DecidableEq

/-- `sig_s`, lines 256-262: the first item is skipped, the second is cut after two bytes and read as
a big-endian number.  An empty string is not a number (`ValueError`), integers cannot be sliced. -/
def revealedS (scriptSig : Bytes) : Except Stop Nat :=
  match nextItem scriptSig with
  | .error e => .error (.raise e)
  | .ok (_, s) =>
    match nextItem s with
    | .error .stopIteration => .error .die
    | .error e => .error (.raise e)
    | .ok (.data d, _) => if d.drop 2 = [] then .error .die else .ok (beVal (d.drop 2))
    | .ok (_, _) => .error (.raise .typeError)

/-- One candidate, line 270.  `%` of Python is never negative. -/
def candidate (order k mhash rInv : Nat) (s : Int) : Nat :=
  ((s * k - mhash) % order).toNat * rInv % order

/-- The loop of lines 269-280.  `pub` is the public key of a secret number, `none` where
`CKey.from_secret_bytes` raises `ValueError`. -/
def tryCandidates (pub : Nat → Option Bytes) (target : Bytes) : List Nat → Except Stop Nat
  | [] => .error .die
  | e :: es =>
    match pub e with
    | none => .error (.raise .valueError)
    | some p => if p = target then .ok e else tryCandidates pub target es

/-- Alice's recovery of the key from the unlocking script, lines 256-280.  `rInv` is what
`inverse_mod(r, order)` gives. -/
def recoverKey (pub : Nat → Option Bytes) (order k mhash rInv : Nat) (target scriptSig : Bytes) : Except Stop Nat := do
  let s ← revealedS scriptSig
  tryCandidates pub target [candidate order k mhash rInv (-(s : Int)), candidate order k mhash rInv (s : Int)]

/-- The key Alice signs the Bitcoin claim with, lines 283-285: `CKey.sub` and `CKey.add` of
python-bitcointx work modulo the order and raise `ValueError` when the result is zero. -/
def claimKey (order recovered blinding btc : Nat) : Except Stop Nat :=
  let contract := (recovered + (order - blinding)) % order
  if contract = 0 then .error (.raise .valueError)
  else
    let combined := (contract + btc) % order
    if combined = 0 then .error (.raise .valueError) else .ok combined

end Verif.CrossSwap
