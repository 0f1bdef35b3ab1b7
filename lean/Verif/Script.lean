import Verif.Tx
/-
Scripts: iteration, unspendable scripts, peg-out data (core/script.py) and the
python-bitcointx script iterator they rely on.
-/
namespace Verif

def OP_PUSHDATA1 : UInt8 := 0x4c
def OP_PUSHDATA2 : UInt8 := 0x4d
def OP_PUSHDATA4 : UInt8 := 0x4e
def OP_RETURN : UInt8 := 0x6a
def OP_CODESEPARATOR : UInt8 := 0xab

/-- Tail of `CScript.raw_iter` (python-bitcointx): `n` bytes of data, or
`CScriptTruncatedPushDataError` (a `CScriptInvalidError`). -/
def scriptData (op : UInt8) (n : Nat) (t : Bytes) : Except PyErr (UInt8 × Option Bytes × Bytes) :=
  if t.length < n then .error .scriptInvalid
  else .ok (op, some (t.take n), t.drop n)

/-- One step of `CScript.raw_iter` (python-bitcointx): opcode, pushed data if the opcode
is a push, remaining script.  The end of the script is `StopIteration`. -/
def scriptNext : Bytes → Except PyErr (UInt8 × Option Bytes × Bytes)
  | [] => .error .stopIteration
  | op :: t =>
    if op > OP_PUSHDATA4 then .ok (op, none, t)
    else if op < OP_PUSHDATA1 then scriptData op op.toNat t
    else if op = OP_PUSHDATA1 then
      if t.length < 1 then .error .scriptInvalid
      else scriptData op (leVal (t.take 1)) (t.drop 1)
    else if op = OP_PUSHDATA2 then
      if t.length < 2 then .error .scriptInvalid
      else scriptData op (leVal (t.take 2)) (t.drop 2)
    else
      if t.length < 4 then .error .scriptInvalid
      else scriptData op (leVal (t.take 4)) (t.drop 4)

/-- `CScript.is_unspendable` (python-bitcointx): starts with OP_RETURN. -/
def baseIsUnspendable (s : Bytes) : Bool := decide (s.length > 0) && s.head? == some OP_RETURN

/-- `CElementsScript.is_unspendable`, core/script.py:388-391. -/
def isUnspendable (s : Bytes) : Bool := if s.length == 0 then true else baseIsUnspendable s

/-- Body of the `try` in `get_pegout_data`, core/script.py:460-486. -/
def pegoutBody (s : Bytes) : Except PyErr (Option (Bytes × Bytes)) := do
  let (op, _, s) ← scriptNext s
  if op ≠ OP_RETURN then return none
  else
    let (_, data, s) ← scriptNext s
    match data with
    | none => return none
    | some genesis =>
      if genesis.length ≠ 32 then return none
      else
        let (_, data, _) ← scriptNext s
        match data with
        | none => return none
        | some spk => if spk.length = 0 then return none else return some (genesis, spk)

/-- `get_pegout_data`, core/script.py:459-494. -/
def getPegoutData (s : Bytes) : Except PyErr (Option (Bytes × Bytes)) :=
  match pegoutBody s with
  | .ok r => .ok r
  | .error .scriptInvalid => .ok none
  | .error .stopIteration => .ok none
  | .error e => .error e

/-- `is_pegout`, core/script.py:497-498. -/
def isPegout (s : Bytes) : Except PyErr Bool := (getPegoutData s).map Option.isSome

/-- `FindAndDelete(script, CScript([OP_CODESEPARATOR]))` (python-bitcointx): copies the
script operation by operation, leaving out those that start with the separator byte; an
undecodable operation raises.  `fuel` bounds the number of operations. -/
def dropSeparators : Nat → Bytes → Except PyErr Bytes
  | 0, _ => .ok []
  | fuel + 1, s =>
    match scriptNext s with
    | .error .stopIteration => .ok []
    | .error e => .error e
    | .ok (op, _, rest) => do
      let r ← dropSeparators fuel rest
      return (if op = OP_CODESEPARATOR then [] else s.take (s.length - rest.length)) ++ r

/-- The script code signed in legacy signature hashes. -/
def legacyScriptCode (s : Bytes) : Except PyErr Bytes := dropSeparators (s.length + 1) s

end Verif
