import Verif.Bytes
/-
What a node does with a script: the rules of the Bitcoin and Elements script interpreter for
the opcodes used by the contracts of examples/confidential-cross-chain-atomic-swap.py and by the
output scripts of addresses.  This is the environment the code runs against, not part of it, so it
is written as a specification.
Opcodes outside the fragment make a script fail.  Size and count limits other than the 520-byte
limit on stack elements are left out.
-/
namespace Verif.Spec.Interp
open Verif

/-- A parsed script operation: a push of data, or any other opcode. -/
inductive Op
  | push (d : Bytes)
  | code (o : UInt8)
  deriving DecidableEq, Repr

/-- Splits off `n` bytes of data. -/
def takeData (n : Nat) (t : Bytes) : Option (Op × Bytes) :=
  if t.length < n then none else some (.push (t.take n), t.drop n)

/-- The operation at the front of a non-empty script. -/
def opAt (o : UInt8) (t : Bytes) : Option (Op × Bytes) :=
  if o.toNat ≤ 75 then takeData o.toNat t
  else if o.toNat = 76 then if t.length < 1 then none else takeData (leVal (t.take 1)) (t.drop 1)
  else if o.toNat = 77 then if t.length < 2 then none else takeData (leVal (t.take 2)) (t.drop 2)
  else if o.toNat = 78 then if t.length < 4 then none else takeData (leVal (t.take 4)) (t.drop 4)
  else if 81 ≤ o.toNat ∧ o.toNat ≤ 96 then some (.push [o - 80], t)
  else some (.code o, t)

/-- All operations of a script, `none` if a push is truncated.  Every operation is at least one
byte long, so `fuel = length` is enough. -/
def parseFuel : Nat → Bytes → Option (List Op)
  | _, [] => some []
  | 0, _ :: _ => none
  | fuel + 1, o :: t => do
    let (op, rest) ← opAt o t
    return op :: (← parseFuel fuel rest)

def parse (s : Bytes) : Option (List Op) := parseFuel s.length s

/-- `CastToBool`: zero, in any length and with either sign, is false. -/
def truth : Bytes → Bool
  | [] => false
  | [b] => b != 0 && b != 0x80
  | b :: t => b != 0 || truth t

/-- What a script can ask about the transaction that is being checked. -/
structure Ctx where
  /-- the signature is good for the public key and this transaction input -/
  checkSig : (sig pub : Bytes) → Bool
  /-- the signature is good for the public key and the given data -/
  checkData : (sig data pub : Bytes) → Bool
  /-- RIPEMD-160 of SHA-256 -/
  hash160 : Bytes → Bytes
  /-- transaction version -/
  version : Nat
  /-- sequence number of the input -/
  sequence : Nat

/-- BIP 112 for a relative lock of `n` blocks, `n < 2 ^ 16`. -/
def relLock (c : Ctx) (n : Nat) : Bool :=
  decide (2 ≤ c.version) && !c.sequence.testBit 31 && !c.sequence.testBit 22 &&
    decide (n ≤ c.sequence % 2 ^ 16)

/-- A non-negative one-byte script number. -/
def smallNum : Bytes → Option Nat
  | [] => some 0
  | [b] => if b.toNat < 128 then some b.toNat else none
  | _ => none

/-- An opcode other than a push and the three conditionals.  The head of the list is the top of the
stack. -/
def step (c : Ctx) (o : UInt8) (st : List Bytes) : Option (List Bytes) :=
  match o.toNat, st with
  | 0x75, _ :: t => some t                                                      -- OP_DROP
  | 0x76, a :: t => some (a :: a :: t)                                          -- OP_DUP
  | 0xa9, a :: t => some (c.hash160 a :: t)                                     -- OP_HASH160
  | 0x87, a :: b :: t => some ((if a = b then [1] else []) :: t)                -- OP_EQUAL
  | 0x88, a :: b :: t => if a = b then some t else none                         -- OP_EQUALVERIFY
  | 0x7c, a :: b :: t => some (b :: a :: t)                                     -- OP_SWAP
  | 0x7e, a :: b :: t => if (b ++ a).length ≤ 520 then some ((b ++ a) :: t) else none -- OP_CAT
  | 0xb2, a :: t => (smallNum a).bind fun n => if relLock c n then some (a :: t) else none
                                                                                -- OP_CHECKSEQUENCEVERIFY
  | 0xac, p :: s :: t => some ((if c.checkSig s p then [1] else []) :: t)       -- OP_CHECKSIG
  | 0xc2, p :: d :: s :: t => if c.checkData s d p then some t else none        -- OP_CHECKSIGFROMSTACKVERIFY
  | _, _ => none

/-- Runs operations; `cs` holds the conditions of the open branches. -/
def run (c : Ctx) : List Op → List Bool → List Bytes → Option (List Bytes)
  | [], [], st => some st
  | [], _ :: _, _ => none
  | .push d :: ops, cs, st => run c ops cs (if cs.all id then d :: st else st)
  | .code o :: ops, cs, st =>
    if o = 0x63 then                                                            -- OP_IF
      if cs.all id then
        match st with
        | [] => none
        | v :: t => run c ops (truth v :: cs) t
      else run c ops (false :: cs) st
    else if o = 0x67 then                                                       -- OP_ELSE
      match cs with
      | [] => none
      | b :: bs => run c ops ((!b) :: bs) st
    else if o = 0x68 then                                                       -- OP_ENDIF
      match cs with
      | [] => none
      | _ :: bs => run c ops bs st
    else if cs.all id then
      match step c o st with
      | none => none
      | some st' => run c ops cs st'
    else run c ops cs st

/-- The script succeeds on this initial stack. -/
def Accepts (c : Ctx) (script : Bytes) (st : List Bytes) : Prop :=
  ∃ ops v t, parse script = some ops ∧ run c ops [] st = some (v :: t) ∧ truth v = true

/-- The version and program of a segregated witness output, BIP 141. -/
def witnessProgram : Bytes → Option (Nat × Bytes)
  | o :: n :: p =>
    if (o.toNat = 0 ∨ 81 ≤ o.toNat ∧ o.toNat ≤ 96) ∧ n.toNat = p.length ∧ 2 ≤ p.length ∧ p.length ≤ 40 then
      some (if o.toNat = 0 then 0 else o.toNat - 80, p)
    else none
  | _ => none

/-- The outputs BIP 16 applies to. -/
def IsP2SH (s : Bytes) : Prop := s.length = 23 ∧ s.take 2 = [0xa9, 0x14] ∧ s.getLast? = some 0x87

/-- What a push pushes. -/
def Op.data? : Op → Option Bytes
  | .push d => some d
  | .code _ => none

/-- The stack left by a script of pushes, last push on top. -/
def pushStack (script : Bytes) : Option (List Bytes) :=
  (parse script).bind fun ops => (ops.mapM Op.data?).map List.reverse

/-- Spending a pay-to-script-hash output whose script hashes to the right value: the unlocking
script is pushes only, and the last push is the script to run on the others. -/
def SpendsP2SH (c : Ctx) (redeem scriptSig : Bytes) : Prop :=
  ∃ st, pushStack scriptSig = some (redeem :: st) ∧ Accepts c redeem st

end Verif.Spec.Interp
