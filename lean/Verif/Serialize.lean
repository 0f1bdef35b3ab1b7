import Verif.Bytes
/-
The parts of `bitcointx.core.serialize` (python-bitcointx 1.1.x, not in /repo) the
code relies on: `ser_read`, `VarIntSerializer`, `BytesSerializer`,
`VectorSerializer`, `Serializable.deserialize`.
-/
namespace Verif

/-- A reader of a `BytesIO`: returns a value and the bytes not yet read, or raises. -/
abbrev P (α : Type) := StateT Bytes (Except PyErr) α

/-- `MAX_SIZE` of `bitcointx.core.serialize`. -/
def MAX_SIZE : Nat := 0x02000000

/-- `ser_read(f, n)`: exactly `n` bytes, `SerializationError` if `n > MAX_SIZE`,
`SerializationTruncationError` if the stream is too short. -/
def serRead (n : Nat) : P Bytes := fun s =>
  if n > MAX_SIZE then .error .serialization
  else if s.length < n then .error .truncation
  else .ok (s.take n, s.drop n)

/-- Raise inside a reader. -/
def P.raise {α : Type} (e : PyErr) : P α := fun _ => .error e

/-- `struct.unpack` of an unsigned little-endian integer of `k` bytes read from the stream. -/
def readU (k : Nat) : P Nat := do
  let b ← serRead k
  return leVal b

/-- `struct.unpack` of a signed little-endian integer of `k` bytes read from the stream. -/
def readS (k : Nat) : P Int := do
  let b ← serRead k
  return untwos k (leVal b)

/-- `VarIntSerializer.stream_deserialize`.  There is no check that the shortest
form was used. -/
def readVarInt : P Nat := do
  let r ← readU 1
  if r < 0xfd then return r
  else if r = 0xfd then readU 2
  else if r = 0xfe then readU 4
  else readU 8

/-- `VarIntSerializer.stream_serialize` for a non-negative argument. -/
def serVarInt (i : Nat) : Except PyErr Bytes :=
  if i < 0xfd then .ok [UInt8.ofNat i]
  else if i ≤ 0xffff then .ok (0xfd :: leBytes 2 i)
  else if i ≤ 0xffffffff then .ok (0xfe :: leBytes 4 i)
  else (packU 8 i).map (0xff :: ·)

/-- `BytesSerializer.stream_deserialize`. -/
def readVarBytes : P Bytes := do
  let n ← readVarInt
  serRead n

/-- `BytesSerializer.stream_serialize`. -/
def serVarBytes (b : Bytes) : Except PyErr Bytes := do
  let l ← serVarInt b.length
  return l ++ b

/-- Read `n` items in a row (`for i in range(n): ...`). -/
def readN {α : Type} (p : P α) : Nat → P (List α)
  | 0 => return []
  | n + 1 => do
    let x ← p
    let xs ← readN p n
    return x :: xs

/-- `VectorSerializer.stream_deserialize`. -/
def readVec {α : Type} (p : P α) : P (List α) := do
  let n ← readVarInt
  readN p n

/-- Serialize items in a row. -/
def serN {α : Type} (f : α → Except PyErr Bytes) : List α → Except PyErr Bytes
  | [] => .ok []
  | x :: xs => do
    let a ← f x
    let b ← serN f xs
    return a ++ b

/-- `VectorSerializer.stream_serialize`. -/
def serVec {α : Type} (f : α → Except PyErr Bytes) (xs : List α) : Except PyErr Bytes := do
  let l ← serVarInt xs.length
  let b ← serN f xs
  return l ++ b

/-- `Serializable.deserialize(buf)`: the whole buffer must be consumed, otherwise
`DeserializationExtraDataError`. -/
def deserializeAll {α : Type} (p : P α) (buf : Bytes) : Except PyErr α :=
  match p buf with
  | .error e => .error e
  | .ok (a, []) => .ok a
  | .ok (_, _ :: _) => .error .extraData

end Verif
