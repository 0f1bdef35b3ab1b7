import Verif.Blech32
import Verif.Spec.AddrText
/-
Text of segwit addresses without blinding key: `segwit_addr.py` of python-bitcointx, which is not in the repository.  It is the
reference code of BIP 173 and BIP 350; `liquid_addr.py` was made from it, and differs in what is defined again here.
-/
namespace Verif.Bech
open Verif

/-- `BECH32M_CONST`, python-bitcointx segwit_addr.py. -/
def BECH32_CONST : Nat := 1
def BECH32M_CONST : Nat := 0x2bc830a3

/-- The generator of `bech32_polymod`. -/
def generator : List Nat := [0x3b6a57b2, 0x26508e6d, 0x1ea119fa, 0x3d4233dd, 0x2a1462b3]

/-- One step of the loop of `bech32_polymod`; thirty bits instead of sixty. -/
def polymodStep (chk value : Nat) : Nat :=
  let top := chk >>> 25
  let chk := ((chk &&& 0x1ffffff) <<< 5) ^^^ value
  (List.range 5).foldl (fun c i => c ^^^ (if (top >>> i) &&& 1 ≠ 0 then generator.getD i 0 else 0)) chk

/-- `bech32_polymod`. -/
def polymod (values : List Nat) : Nat := values.foldl polymodStep 1

/-- `bech32_verify_checksum`. -/
def verifyChecksum (hrp : PyStr) (data : List Nat) : Option Encoding :=
  let check := polymod (hrpExpand hrp ++ data)
  if check = BECH32_CONST then some .bech32
  else if check = BECH32M_CONST then some .bech32m
  else none

/-- `bech32_create_checksum`: six symbols instead of twelve. -/
def createChecksum (e : Encoding) (hrp : PyStr) (data : List Nat) : List Nat :=
  let values := hrpExpand hrp ++ data
  let const := if e = .bech32m then BECH32M_CONST else BECH32_CONST
  let p := polymod (values ++ List.replicate 6 0) ^^^ const
  (List.range 6).map fun i => (p >>> (5 * (5 - i))) &&& 31

/-- `bech32_encode`. -/
def bech32Encode (e : Encoding) (hrp : PyStr) (data : List Nat) : Except PyErr PyStr := do
  let combined := data ++ createChecksum e hrp data
  let cs ← combined.mapM charsetAt
  return hrp ++ [49] ++ cs

/-- `bech32_decode`: at most ninety characters instead of a thousand. -/
def bech32Decode (bech : PyStr) : Option (Encoding × PyStr × List Nat) :=
  if bech.any (fun x => decide (x < 33) || decide (x > 126)) || (lower bech != bech && upper bech != bech) then none
  else
    let bech := lower bech
    let pos := rfind 49 bech
    if pos < 1 ∨ pos + 7 > bech.length ∨ bech.length > 90 then none
    else
      let p := pos.toNat
      if !(bech.drop (p + 1)).all (CHARSET.contains ·) then none
      else
        let hrp := bech.take p
        let data := (bech.drop (p + 1)).map (CHARSET.idxOf ·)
        match verifyChecksum hrp data with
        | none => none
        | some e => some (e, hrp, data.take (data.length - 6))

/-- `decode`: programs of 2 to 40 bytes, no pubkey before them. -/
def bechDecode (hrp : PyStr) (addr : PyStr) : Option (Nat × Bytes) :=
  match bech32Decode addr with
  | none => none
  | some (e, hrpgot, data) =>
    if hrpgot ≠ hrp then none
    else match convertbits ((data.drop 1).map (fun (n : Nat) => (n : Int))) 5 8 false with
      | none => none
      | some decoded =>
        if decoded.length < 2 ∨ decoded.length > 40 then none
        else
          let v := data.headD 0
          if v > 16 then none
          else if v = 0 ∧ decoded.length ≠ 20 ∧ decoded.length ≠ 32 then none
          else if (v = 0 ∧ e ≠ .bech32) ∨ (v ≠ 0 ∧ e ≠ .bech32m) then none
          else some (v, decoded.map UInt8.ofNat)

/-- `encode`. -/
def bechEncode (hrp : PyStr) (witver : Nat) (witprog : Bytes) : Except PyErr (Option PyStr) :=
  let e := if witver = 0 then Encoding.bech32 else .bech32m
  match convertbits (witprog.map fun b => (b.toNat : Int)) 8 5 true with
  | none => .ok none
  | some decoded => do
    let ret ← bech32Encode e hrp (witver :: decoded)
    return if bechDecode hrp ret = none then none else some ret

/-- Both as used by `CBech32Data`: what cannot be encoded is never asked for (C88). -/
def codec : Spec.SegwitCodec where
  encode hrp v p := match bechEncode hrp v p with
    | .ok (some s) => s
    | _ => []
  decode := bechDecode

end Verif.Bech
