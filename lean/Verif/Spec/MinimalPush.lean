import Verif.Spec.Interp
/-
C104: the rule of nodes, for transactions they pass on, that data is pushed in the shortest way (BIP 62, rule 3; MINIMALDATA).
-/
namespace Verif.Spec.Interp
open Verif

/-- One byte for which there is an opcode: 1 to 16, and -1. -/
def OwnOpcode (d : Bytes) : Prop := ∃ b, d = [b] ∧ (1 ≤ b.toNat ∧ b.toNat ≤ 16 ∨ b = 0x81)

/-- The shortest way to push data. -/
def shortestPush : Bytes → Bytes
  | [] => [0x00]
  | [b] => if 1 ≤ b.toNat ∧ b.toNat ≤ 16 then [0x50 + b] else if b = 0x81 then [0x4f] else [0x01, b]
  | a :: b :: t =>
    let d := a :: b :: t
    if d.length ≤ 75 then leBytes 1 d.length ++ d
    else if d.length < 2 ^ 8 then 0x4c :: leBytes 1 d.length ++ d
    else if d.length < 2 ^ 16 then 0x4d :: leBytes 2 d.length ++ d
    else 0x4e :: leBytes 4 d.length ++ d

def Op.shortest : Op → Bytes
  | .push d => shortestPush d
  | .code o => [o]

/-- All pushes of a script are the shortest. -/
def MinimalPushes (script : Bytes) : Prop := ∃ ops, parse script = some ops ∧ script = (ops.map Op.shortest).flatten

end Verif.Spec.Interp
