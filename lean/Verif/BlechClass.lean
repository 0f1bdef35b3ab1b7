import Verif.Blech32
/-
`CBlech32Data` (blech32.py) and `CBlech32DataDispatched` (wallet.py:207-230): data of any hierarchy of classes.

A class is what the code reads of it.  `dispatcher_mapped_list` of python-bitcointx is the list of classes given with
it.  That the metaclass of python-bitcointx sends an attribute of a general class to the class of the selected chain is left out:
the class is the one selected.
-/
namespace Verif.BlechClass
open Verif

/-- A class: whether it is a `CBlech32DataDispatched`; `blech32_hrp` (`none`: declared without a value, blech32.py:45; `some none`: `None`);
`blech32_witness_version` (-1 by default, blech32.py:46); `_data_length` (`none`: declared without a value, blech32.py:47, wallet.py:237); and the
classes it is dispatched to.  `id` tells classes apart. -/
inductive Cls
  | mk (id : Nat) (dispatched : Bool) (hrp : Option (Option PyStr)) (witver : Int) (dataLen : Option Nat) (mapped : List Cls)

def Cls.id : Cls → Nat | .mk i _ _ _ _ _ => i
def Cls.dispatched : Cls → Bool | .mk _ d _ _ _ _ => d
def Cls.hrp : Cls → Option (Option PyStr) | .mk _ _ h _ _ _ => h
def Cls.witver : Cls → Int | .mk _ _ _ w _ _ => w
def Cls.dataLen : Cls → Option Nat | .mk _ _ _ _ n _ => n
def Cls.mapped : Cls → List Cls | .mk _ _ _ _ _ m => m

/-- An instance: its class, the bytes it is, and `self.blech32_witness_version`. -/
structure Obj where
  cls : Cls
  data : Bytes
  witver : Int

/-- `__init__`: nothing for `CBlech32Data`, blech32.py:61-67; wallet.py:209-216 otherwise. -/
def Cls.init (c : Cls) (data : Bytes) : Except PyErr Unit :=
  if c.dispatched then
    if c.witver < 0 then .error .typeError
    else match c.dataLen with
      | none => .error .attributeError
      | some n => if data.length ≠ n then .error .typeError else .ok ()
  else .ok ()

/-- The version `from_bytes` goes by, blech32.py:112-123. -/
def Cls.version (c : Cls) (witver : Option Int) : Except PyErr Int :=
  match witver with
  | none => if c.witver < 0 then .error .valueError else .ok c.witver
  | some w =>
    if w < 0 then .error .valueError
    else if c.witver ≥ 0 ∧ w ≠ c.witver then .error .valueError
    else .ok w

/-- `from_bytes`, blech32.py:107-135. -/
def Cls.fromBytes (c : Cls) (data : Bytes) (witver : Option Int) : Except PyErr Obj := do
  let w ← c.version witver
  if ¬ (0 ≤ w ∧ w ≤ 16) then throw .valueError
  c.init data
  return ⟨c, data, if c.witver < 0 then w else c.witver⟩

/-- No candidate was taken, blech32.py:96-105: with one candidate the message names `cls._data_length`. -/
def Cls.unexpected (c : Cls) (candidates : Nat) : PyErr :=
  if candidates = 1 ∧ c.dataLen = none then .attributeError else .blech32Unexpected

/-- A candidate with a version, blech32.py:93-94. -/
def Cls.tryExact (k : Cls) (data : Bytes) (witver : Nat) : Except PyErr (Option Obj) :=
  match k.dataLen with
  | none => .error .attributeError
  | some n => if data.length = n ∧ (witver : Int) = k.witver then (k.fromBytes data (some witver)).map some else .ok none

/-- What is raised when no candidate was taken. -/
def Cls.orRaise (c : Cls) (candidates : Nat) : Except PyErr (Option Obj) → Except PyErr Obj
  | .ok (some o) => .ok o
  | .ok none => .error (c.unexpected candidates)
  | .error e => .error e

mutual
/-- `blech32_match_progam_and_version`, blech32.py:77-105, with `blech32_get_match_candidates`, blech32.py:69-74 and wallet.py:218-230. -/
def Cls.matchProg : Cls → Bytes → Nat → Except PyErr Obj
  | .mk i false h w n m, data, witver =>
    let c := Cls.mk i false h w n m
    if w ≥ 0 then c.orRaise 1 (c.tryExact data witver) else c.fromBytes data (some witver)
  | .mk i true h w n [], data, witver =>
    let c := Cls.mk i true h w n []
    if w < 0 then .error .typeError else c.orRaise 1 (c.tryExact data witver)
  | .mk i true h w n (k :: ks), data, witver =>
    (Cls.mk i true h w n (k :: ks)).orRaise (ks.length + 1) (tryAll (k :: ks) data witver)

/-- The loop over the candidates, blech32.py:86-94. -/
def tryAll : List Cls → Bytes → Nat → Except PyErr (Option Obj)
  | [], _, _ => .ok none
  | k :: ks, data, witver =>
    if k.witver < 0 then
      match k.matchProg data witver with
      | .ok o => .ok (some o)
      | .error .blech32Unexpected => tryAll ks data witver
      | .error e => .error e
    else
      match k.tryExact data witver with
      | .ok (some o) => .ok (some o)
      | .ok none => tryAll ks data witver
      | .error e => .error e
end

/-- `__new__`, blech32.py:49-59. -/
def Cls.new (c : Cls) (s : PyStr) : Except PyErr Obj :=
  match c.hrp with
  | none => .error .attributeError
  | some none => .error .typeError
  | some (some h) =>
    match blechDecode h s with
    | none => .error .blech32
    | some (witver, data) => c.matchProg data witver

/-- `__str__`, blech32.py:145-152. -/
def Obj.str (o : Obj) : Except PyErr PyStr :=
  match o.cls.hrp with
  | none => .error .attributeError
  | some none => .error .typeError
  | some (some h) =>
    match blechEncode h o.witver.toNat o.data with
    | .error e => .error e
    | .ok none => .error .assertion
    | .ok (some s) => .ok s

end Verif.BlechClass
