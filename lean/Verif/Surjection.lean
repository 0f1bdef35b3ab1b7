import Verif.Blind
/-
`generate_surjectionproof`, core/__init__.py:1910-1975, together with the calls it makes on the
proof object, which lives in memory of the native library.
-/
namespace Verif

/-- Calls of the library that allocate, use or free the proof object. -/
inductive HandleOp
  /-- `secp256k1_surjectionproof_allocate_initialized`; whether it returned a proof object -/
  | allocate (ok : Bool)
  | generate
  | verify
  | size
  | serialize
  | destroy
  deriving DecidableEq, Repr

/-- Inside `try`, core/__init__.py:1942-1971.  Arguments are evaluated before the call; a
serialization of another length than announced is `none` of `surjSerialize`. -/
def proofBody (z : Zkp) (gens blinders : List Bytes) (assetblind gen proof : Bytes) (idx : Nat) :
    Except PyErr Bytes × List HandleOp :=
  match buildAligned gens 64 with
  | .error e => (.error e, [])
  | .ok eph =>
    match blinders[idx]? with
    | none => (.error .indexError, [])
    | some inBlind =>
      match z.surjGenerate proof eph gens.length gen idx inBlind assetblind with
      | none => (.error .runtimeError, [.generate])
      | some proof =>
        if !z.surjVerify proof eph gens.length gen then (.error .runtimeError, [.generate, .verify])
        else
          match z.surjSerialize proof with
          | none => (.error .assertion, [.generate, .verify, .size, .serialize])
          | some s => (.ok s, [.generate, .verify, .size, .serialize])

/-- `generate_surjectionproof`, core/__init__.py:1910-1975, after `_rand_func(32)`: the result
and the calls made.  `finally` frees the object whether or not `try` raised. -/
def generateSurjectionproof (z : Zkp) (targets gens blinders : List Bytes) (assetblind gen asset seed : Bytes) :
    Except PyErr (Option Bytes) × List HandleOp :=
  match buildAligned targets 32 with
  | .error e => (.error e, [])
  | .ok tags =>
    match z.surjInit tags targets.length (min 3 targets.length) asset 100 seed with
    | none => (.ok none, [.allocate false])
    | some (proof, idx) =>
      let r := proofBody z gens blinders assetblind gen proof idx
      (r.1.map some, .allocate true :: (r.2 ++ [.destroy]))

end Verif
