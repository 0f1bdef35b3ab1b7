import Verif.Spec.Push
/-
How an Elements node reads a script written with the opcodes of its own: the table of
`script/script.h` of the reference client, and the programs a script can stand for.
-/
namespace Verif.Spec.Opcodes
open Verif

/-- The names of the opcodes Elements has above those of Bitcoin, from 0xc0 on, in order. -/
def names : List String :=
  ["OP_DETERMINISTICRANDOM", "OP_CHECKSIGFROMSTACK", "OP_CHECKSIGFROMSTACKVERIFY", "OP_SUBSTR_LAZY",
   "OP_SHA256INITIALIZE", "OP_SHA256UPDATE", "OP_SHA256FINALIZE",
   "OP_INSPECTINPUTOUTPOINT", "OP_INSPECTINPUTASSET", "OP_INSPECTINPUTVALUE",
   "OP_INSPECTINPUTSCRIPTPUBKEY", "OP_INSPECTINPUTSEQUENCE", "OP_INSPECTINPUTISSUANCE",
   "OP_PUSHCURRENTINPUTINDEX", "OP_INSPECTOUTPUTASSET", "OP_INSPECTOUTPUTVALUE",
   "OP_INSPECTOUTPUTNONCE", "OP_INSPECTOUTPUTSCRIPTPUBKEY",
   "OP_INSPECTVERSION", "OP_INSPECTLOCKTIME", "OP_INSPECTNUMINPUTS", "OP_INSPECTNUMOUTPUTS", "OP_TXWEIGHT",
   "OP_ADD64", "OP_SUB64", "OP_MUL64", "OP_DIV64", "OP_NEG64",
   "OP_LESSTHAN64", "OP_LESSTHANOREQUAL64", "OP_GREATERTHAN64", "OP_GREATERTHANOREQUAL64",
   "OP_SCRIPTNUMTOLE64", "OP_LE64TOSCRIPTNUM", "OP_LE32TOLE64",
   "OP_ECMULSCALARVERIFY", "OP_TWEAKVERIFY"]

/-- The node takes the byte `o` for the opcode `name`. -/
def Means (o : UInt8) (name : String) : Prop := ∃ i, names[i]? = some name ∧ o.toNat = 0xc0 + i

/-- An opcode of Bitcoin that is no push: from OP_1NEGATE to OP_CHECKSIGADD. -/
def Plain (o : UInt8) : Prop := 0x4f ≤ o.toNat ∧ o.toNat ≤ 0xba

/-- What a step of a script does: an opcode of Elements, one of Bitcoin, or a push of data. -/
inductive Step
  | elements (name : String)
  | bitcoin (o : UInt8)
  | push (d : Bytes)
  deriving DecidableEq

/-- The node reads the script as these steps. -/
inductive ReadAs : List Step → Bytes → Prop
  | nil : ReadAs [] []
  | elements {n o p s} : Means o n → ReadAs p s → ReadAs (.elements n :: p) (o :: s)
  | bitcoin {o p s} : Plain o → ReadAs p s → ReadAs (.bitcoin o :: p) (o :: s)
  | push {d w p s} : PushEnc d w → ReadAs p s → ReadAs (.push d :: p) (w ++ s)

/-- What a script iterator says about a step. -/
def Shows : Step → UInt8 × Option Bytes → Prop
  | .elements n, r => Means r.1 n ∧ r.2 = none
  | .bitcoin o, r => r = (o, none)
  | .push d, r => r.2 = some d

/-- An operation with its bytes: an opcode above those of pushes, or a push in any of the four encodings. -/
def Wrote : UInt8 × Option Bytes → Bytes → Prop
  | (op, none), w => w = [op] ∧ 0x4e < op.toNat
  | (op, some d), w => PushEnc d w ∧ w.head? = some op

end Verif.Spec.Opcodes
