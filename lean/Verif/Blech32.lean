import Verif.Bytes
/-
`liquid_addr.py`.  A Python `str` is the list of its code points.  The witness version and
the values fed to the checksum are natural numbers: `CBlech32Data.from_bytes`
(blech32.py:119-128) only lets versions 0..16 through.
-/
namespace Verif

abbrev PyStr := List Nat

/-- `CHARSET`, liquid_addr.py:30. -/
def CHARSET : PyStr := "qpzry9x8gf2tvdw0s3jn54khce6mua7l".toList.map Char.toNat

/-- liquid_addr.py:33-34. -/
def BECH32_CONST : Nat := 1
def BECH32M_CONST : Nat := 0x455972a3350f7a1

/-- `Encoding`, liquid_addr.py:37-40. -/
inductive Encoding | bech32 | bech32m
  deriving DecidableEq, Repr

/-- liquid_addr.py:45. -/
def generator : List Nat := [0x7d52fba40bd886, 0x5e8dbf1a03950c, 0x1c3a3c74072a18, 0x385d72fa0e5139, 0x7093e5a608865b]

/-- One step of the loop of `blech32_polymod`, liquid_addr.py:48-51. -/
def polymodStep (chk value : Nat) : Nat :=
  let top := chk >>> 55
  let chk := ((chk &&& 0x7fffffffffffff) <<< 5) ^^^ value
  (List.range 5).foldl (fun c i => c ^^^ (if (top >>> i) &&& 1 ≠ 0 then generator.getD i 0 else 0)) chk

/-- `blech32_polymod`, liquid_addr.py:43-52. -/
def polymod (values : List Nat) : Nat := values.foldl polymodStep 1

/-- `blech32_hrp_expand`, liquid_addr.py:55-57. -/
def hrpExpand (hrp : PyStr) : List Nat := hrp.map (· >>> 5) ++ [0] ++ hrp.map (· &&& 31)

/-- `blech32_verify_checksum`, liquid_addr.py:60-68. -/
def verifyChecksum (hrp : PyStr) (data : List Nat) : Option Encoding :=
  let check := polymod (hrpExpand hrp ++ data)
  if check = BECH32_CONST then some .bech32
  else if check = BECH32M_CONST then some .bech32m
  else none

/-- `blech32_create_checksum`, liquid_addr.py:71-77. -/
def createChecksum (e : Encoding) (hrp : PyStr) (data : List Nat) : List Nat :=
  let values := hrpExpand hrp ++ data
  let const := if e = .bech32m then BECH32M_CONST else BECH32_CONST
  let p := polymod (values ++ List.replicate 12 0) ^^^ const
  (List.range 12).map fun i => (p >>> (5 * (11 - i))) &&& 31

/-- `CHARSET[d]`. -/
def charsetAt (d : Nat) : Except PyErr Nat :=
  match CHARSET[d]? with
  | some c => .ok c
  | none => .error .indexError

/-- `blech32_encode`, liquid_addr.py:81-84. -/
def blech32Encode (e : Encoding) (hrp : PyStr) (data : List Nat) : Except PyErr PyStr := do
  let combined := data ++ createChecksum e hrp data
  let cs ← combined.mapM charsetAt
  return hrp ++ [49] ++ cs

/-- `str.lower` and `str.upper` on ASCII; the code only calls them after having refused
every character outside 33..126. -/
def lowerChar (c : Nat) : Nat := if 65 ≤ c ∧ c ≤ 90 then c + 32 else c
def upperChar (c : Nat) : Nat := if 97 ≤ c ∧ c ≤ 122 then c - 32 else c
def lower (s : PyStr) : PyStr := s.map lowerChar
def upper (s : PyStr) : PyStr := s.map upperChar

/-- `s.rfind(c)`: the last index of `c`, or -1. -/
def rfind (c : Nat) (s : PyStr) : Int :=
  match s.reverse.findIdx? (· == c) with
  | some k => (s.length : Int) - 1 - k
  | none => -1

/-- `blech32_decode`, liquid_addr.py:87-103. -/
def blech32Decode (bech : PyStr) : Option (Encoding × PyStr × List Nat) :=
  if bech.any (fun x => decide (x < 33) || decide (x > 126)) || (lower bech != bech && upper bech != bech) then none
  else
    let bech := lower bech
    let pos := rfind 49 bech
    if pos < 1 ∨ pos + 13 > bech.length ∨ bech.length > 1000 then none
    else
      let p := pos.toNat
      if !(bech.drop (p + 1)).all (CHARSET.contains ·) then none
      else
        let hrp := bech.take p
        let data := (bech.drop (p + 1)).map (CHARSET.idxOf ·)
        match verifyChecksum hrp data with
        | none => none
        | some e => some (e, hrp, data.take (data.length - 12))

/-- The inner loop of `convertbits`, liquid_addr.py:119-121. -/
def drain (tobits acc : Nat) (bits : Nat) (ret : List Nat) : Nat × List Nat :=
  if h : 0 < tobits ∧ tobits ≤ bits then
    drain tobits acc (bits - tobits) (ret ++ [(acc >>> (bits - tobits)) &&& ((1 <<< tobits) - 1)])
  else (bits, ret)
termination_by bits

/-- The outer loop of `convertbits`, liquid_addr.py:114-121: accumulator, number of pending
bits, output. -/
def convertLoop (frombits tobits : Nat) : List Int → Nat → Nat → List Nat → Option (Nat × Nat × List Nat)
  | [], acc, bits, ret => some (acc, bits, ret)
  | value :: data, acc, bits, ret =>
    if value < 0 ∨ value.toNat >>> frombits ≠ 0 then none
    else
      let acc := ((acc <<< frombits) ||| value.toNat) &&& ((1 <<< (frombits + tobits - 1)) - 1)
      let r := drain tobits acc (bits + frombits) ret
      convertLoop frombits tobits data acc r.1 r.2

/-- `convertbits`, liquid_addr.py:106-127.  `tobits` is positive (the loop of the code does
not end otherwise). -/
def convertbits (data : List Int) (frombits tobits : Nat) (pad : Bool) : Option (List Nat) :=
  match convertLoop frombits tobits data 0 0 [] with
  | none => none
  | some (acc, bits, ret) =>
    let maxv := (1 <<< tobits) - 1
    if pad then
      some (if bits ≠ 0 then ret ++ [(acc <<< (tobits - bits)) &&& maxv] else ret)
    else if bits ≥ frombits ∨ (acc <<< (tobits - bits)) &&& maxv ≠ 0 then none
    else some ret

/-- `decode`, liquid_addr.py:130-148. -/
def blechDecode (hrp : PyStr) (addr : PyStr) : Option (Nat × Bytes) :=
  match blech32Decode addr with
  | none => none
  | some (e, hrpgot, data) =>
    if hrpgot ≠ hrp then none
    else match convertbits ((data.drop 1).map (fun (n : Nat) => (n : Int))) 5 8 false with
      | none => none
      | some decoded =>
        if decoded.length < 2 ∨ decoded.length > 40 + 33 then none
        else
          let v := data.headD 0
          if v > 16 then none
          else if v = 0 ∧ decoded.length ≠ 20 + 33 ∧ decoded.length ≠ 32 + 33 then none
          else if (v = 0 ∧ e ≠ .bech32) ∨ (v ≠ 0 ∧ e ≠ .bech32m) then none
          else some (v, decoded.map UInt8.ofNat)

/-- `encode`, liquid_addr.py:151-160. -/
def blechEncode (hrp : PyStr) (witver : Nat) (witprog : Bytes) : Except PyErr (Option PyStr) :=
  let e := if witver = 0 then Encoding.bech32 else .bech32m
  match convertbits (witprog.map fun b => (b.toNat : Int)) 8 5 true with
  | none => .ok none
  | some decoded => do
    let ret ← blech32Encode e hrp (witver :: decoded)
    return if blechDecode hrp ret = none then none else some ret

end Verif
