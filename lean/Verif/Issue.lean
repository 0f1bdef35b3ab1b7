import Verif.Hash
/-
Asset entropy, asset and token ids, derivation of blinding keys.
-/
namespace Verif

/-- The SHA256 compression function from the initial state, as computed by
`CSHA256().Write(a).Write(b).Midstate()` on 64 bytes (python-bitcointx): an arbitrary
function with 32-byte outputs. -/
structure MidFn where
  fn : Bytes → Bytes
  len : ∀ x, (fn x).length = 32

/-- `generate_asset_entropy`, core/__init__.py:1737-1746.  `prevout.GetHash()` is the double
hash of the serialized outpoint (python-bitcointx), which carries no flag bits. -/
def generateAssetEntropy (h : HashFn) (m : MidFn) (prevout : OutPoint) (contracthash : Bytes) : Except PyErr Bytes := do
  if contracthash.length ≠ 32 then throw .assertion
  let o ← serOutPoint prevout
  return m.fn (h.dbl o ++ contracthash)

/-- `Uint256.from_int(n).data` for a small number (python-bitcointx, little endian). -/
def uint256Small (n : UInt8) : Bytes := n :: List.replicate 31 0

/-- `calculate_asset`, core/__init__.py:1749-1755. -/
def calculateAsset (m : MidFn) (entropy : Bytes) : Except PyErr Bytes :=
  if entropy.length ≠ 32 then .error .valueError else .ok (m.fn (entropy ++ uint256Small 0))

/-- `calculate_reissuance_token`, core/__init__.py:1758-1770. -/
def calculateReissuanceToken (m : MidFn) (entropy : Bytes) (isConfidential : Bool) : Except PyErr Bytes :=
  if entropy.length ≠ 32 then .error .valueError
  else
    let k := if isConfidential then uint256Small 2 else uint256Small 1
    .ok (m.fn (entropy ++ k))

/-- Python `hmac.new(key, msg, sha256).digest()`, key at most 64 bytes (RFC 2104). -/
def hmacPad (key : Bytes) (b : UInt8) : Bytes :=
  (key ++ List.replicate (64 - key.length) 0).map (· ^^^ b)
def hmacSha256 (h : HashFn) (key msg : Bytes) : Bytes :=
  h.fn (hmacPad key 0x5c ++ h.fn (hmacPad key 0x36 ++ msg))

/-- The `script` argument of `derive_blinding_key`. -/
inductive ScriptArg
  /-- a `CElementsScript` -/
  | elements (s : Bytes)
  /-- a `CScript` of another chain -/
  | foreign (s : Bytes)
  /-- plain `bytes` or `bytearray` -/
  | bytes (s : Bytes)
  /-- anything else -/
  | other
  deriving DecidableEq, Repr

/-- `CKey(secret)` (python-bitcointx): refuses secrets the curve library refuses. -/
def ckeyNew (validKey : Bytes → Bool) (b : Bytes) : Except PyErr Bytes :=
  if b.length ≠ 32 then .error .valueError else if validKey b then .ok b else .error .valueError

/-- `derive_blinding_key`, core/__init__.py:2120-2133. -/
def deriveBlindingKey (h : HashFn) (validKey : Bytes → Bool) (secret : Bytes) : ScriptArg → Except PyErr Bytes
  | .foreign _ => .error .typeError
  | .other => .error .typeError
  | .elements s => ckeyNew validKey (hmacSha256 h secret s)
  | .bytes s => ckeyNew validKey (hmacSha256 h secret s)

end Verif
