import Verif.Script
/-
The opcodes Elements adds to Bitcoin's (core/script.py:46-101) and the scripts made from them.
-/
namespace Verif.Opcodes
open Verif

/-- `OP_... = CScriptOp(0x..)`, core/script.py:46-101, in the order of the file. -/
def table : List (String × UInt8) :=
  [("OP_DETERMINISTICRANDOM", 0xc1),                -- 46
   ("OP_CHECKSIGFROMSTACK", 0xc1),                  -- 47
   ("OP_CHECKSIGFROMSTACKVERIFY", 0xc2),            -- 48
   ("OP_SUBSTR_LAZY", 0xc3),                        -- 50
   ("OP_SHA256INITIALIZE", 0xc4),                   -- 53
   ("OP_SHA256UPDATE", 0xc5),
   ("OP_SHA256FINALIZE", 0xc6),
   ("OP_INSPECTINPUTOUTPOINT", 0xc7),               -- 60
   ("OP_INSPECTINPUTASSET", 0xc8),
   ("OP_INSPECTINPUTVALUE", 0xc9),
   ("OP_INSPECTINPUTSCRIPTPUBKEY", 0xca),
   ("OP_INSPECTINPUTSEQUENCE", 0xcb),
   ("OP_INSPECTINPUTISSUANCE", 0xcc),
   ("OP_PUSHCURRENTINPUTINDEX", 0xcd),              -- 68
   ("OP_INSPECTOUTPUTASSET", 0xce),                 -- 71
   ("OP_INSPECTOUTPUTVALUE", 0xcf),
   ("OP_INSPECTOUTPUTNONCE", 0xd0),
   ("OP_INSPECTOUTPUTSCRIPTPUBKEY", 0xd1),
   ("OP_INSPECTVERSION", 0xd2),                     -- 77
   ("OP_INSPECTLOCKTIME", 0xd3),
   ("OP_INSPECTNUMINPUTS", 0xd4),
   ("OP_INSPECTNUMOUTPUTS", 0xd5),
   ("OP_TXWEIGHT", 0xd6),
   ("OP_ADD64", 0xd7),                              -- 84
   ("OP_SUB64", 0xd8),
   ("OP_MUL64", 0xd9),
   ("OP_DIV64", 0xda),
   ("OP_NEG64", 0xdb),
   ("OP_LESSTHAN64", 0xdc),
   ("OP_LESSTHANOREQUAL64", 0xdd),
   ("OP_GREATERTHAN64", 0xde),
   ("OP_GREATERTHANOREQUAL64", 0xdf),
   ("OP_SCRIPTNUMTOLE64", 0xe0),                    -- 95
   ("OP_LE64TOSCRIPTNUM", 0xe1),
   ("OP_LE32TOLE64", 0xe2),
   ("OP_ECMULSCALARVERIFY", 0xe3),                  -- 100
   ("OP_TWEAKVERIFY", 0xe4)]

/-- The value of a name of the module; a name that is not there is an `AttributeError`. -/
def value (name : String) : Option UInt8 := table.lookup name

/-- What a script is written with: an opcode named in core/script.py, an opcode of Bitcoin,
data. -/
inductive Item
  | named (name : String)
  | bitcoin (o : UInt8)
  | data (d : Bytes)
  deriving DecidableEq, Repr

/-- `CScriptOp.encode_op_pushdata` (python-bitcointx). -/
def encodeOpPushdata (d : Bytes) : Except PyErr Bytes :=
  if d.length < 0x4c then .ok (UInt8.ofNat d.length :: d)
  else if d.length ≤ 0xff then .ok (0x4c :: (leBytes 1 d.length ++ d))
  else if d.length ≤ 0xffff then .ok (0x4d :: (leBytes 2 d.length ++ d))
  else if d.length ≤ 0xffffffff then .ok (0x4e :: (leBytes 4 d.length ++ d))
  else .error .valueError

/-- `CScript.__coerce_instance` (python-bitcointx). -/
def Item.bytes : Item → Except PyErr Bytes
  | .named n => match value n with
    | some o => .ok [o]
    | none => .error .attributeError
  | .bitcoin o => .ok [o]
  | .data d => encodeOpPushdata d

/-- `CElementsScript([...])`: the items one after the other. -/
def build : List Item → Except PyErr Bytes
  | [] => .ok []
  | i :: l => do
    let b ← i.bytes
    let r ← build l
    return b ++ r

/-- What `CScript.raw_iter` (python-bitcointx) gives until the end of the script, opcode and data.
Every operation takes a byte, so `fuel` larger than the length is enough. -/
def rawIter : Nat → Bytes → Except PyErr (List (UInt8 × Option Bytes))
  | 0, _ => .ok []
  | fuel + 1, s =>
    match scriptNext s with
    | .error .stopIteration => .ok []
    | .error e => .error e
    | .ok (op, d, rest) => do
      let r ← rawIter fuel rest
      return (op, d) :: r

/-- All of `raw_iter`. -/
def operations (s : Bytes) : Except PyErr (List (UInt8 × Option Bytes)) := rawIter (s.length + 1) s

end Verif.Opcodes
