import Verif.Blind
import Mathlib.Algebra.Module.Basic
import Mathlib.Algebra.BigOperators.Group.List.Basic
import Mathlib.Data.ZMod.Defs
/-
What libsecp256k1-zkp promises.  Only the theorems about balance and about unblinding what
was blinded use these; everything else holds for an arbitrary library.
-/
namespace Verif

/-- The order of secp256k1. -/
def secpN : Nat := 0xFFFFFFFFFFFFFFFFFFFFFFFFFFFFFFFEBAAEDCE6AF48A03BBFD25E8CD0364141

/-- The scalars. -/
abbrev Scalar := ZMod secpN

/-- A 32-byte blinding factor as a scalar. -/
def scalar (b : Bytes) : Scalar := (beVal b : Scalar)

/-- Value, generator blind and value blind of one commitment. -/
structure Opening where
  value : Nat
  genBlind : Bytes
  blind : Bytes
  deriving DecidableEq

/-- The multiple of `G` in `value • (H + genBlind • G) + blind • G`. -/
def Opening.mask (o : Opening) : Scalar := (o.value : Scalar) * scalar o.genBlind + scalar o.blind

/-- Openings from the three parallel arrays handed to the library. -/
def openings (vs : List Nat) (rs bs : List Bytes) : List Opening :=
  (vs.zip (rs.zip bs)).map fun x => ⟨x.1, x.2.1, x.2.2⟩

/-- Pedersen commitments with blinded generators in a group `M`. -/
structure Pedersen (z : Zkp) (M : Type) [AddCommGroup M] [Module Scalar M] where
  /-- base point -/
  G : M
  /-- generator of an asset -/
  H : Bytes → M
  /-- point of a 64-byte generator object, of its 33-byte serialization -/
  genPt : Bytes → M
  genRead : Bytes → M
  /-- point of a 64-byte commitment object, of its 33-byte serialization -/
  comPt : Bytes → M
  comRead : Bytes → M
  generate : ∀ a g, z.generate a = some g → genPt g = H a
  generateBlinded : ∀ a r g, z.generateBlinded a r = some g → genPt g = H a + scalar r • G
  commit : ∀ b v g c, z.commit b v g = some c → comPt c = (v : Scalar) • genPt g + scalar b • G
  genSerialize : ∀ g s, z.genSerialize g = some s → genRead s = genPt g
  commitSerialize : ∀ c s, z.commitSerialize c = some s → comRead s = comPt c
  /-- the last blinding factor returned makes inputs and outputs balance -/
  blindSum : ∀ vs rs bs nTotal nInputs x, vs.length = nTotal → rs.length = nTotal → bs.length = nTotal →
    nInputs < nTotal → z.blindSum vs rs bs nTotal nInputs = some x →
    (((openings vs rs (bs.dropLast ++ [x])).take nInputs).map Opening.mask).sum
      = (((openings vs rs (bs.dropLast ++ [x])).drop nInputs).map Opening.mask).sum

/-- Rewinding tells the truth: it recomputes the commitment from what it found in the proof, so
amount and factor open the commitment that was parsed. -/
def RewindSound {z : Zkp} {M : Type} [AddCommGroup M] [Module Scalar M] (P : Pedersen z M) : Prop :=
  ∀ nonce cs c proof extra g b v msg n, z.commitParse cs = some c →
    z.rangeRewind nonce c proof extra g = some (b, v, msg, n) →
    P.comRead cs = (v : Scalar) • P.genPt g + scalar b • P.G

/-- Formats: serialized generators and commitments have their own prefixes, proofs are not
empty, and reading back what was written gives an equivalent object. -/
structure Formats (z : Zkp) : Prop where
  genPrefix : ∀ g s, z.genSerialize g = some s → s.head? = some 10 ∨ s.head? = some 11
  comPrefix : ∀ c s, z.commitSerialize c = some s → s.head? = some 8 ∨ s.head? = some 9
  proof : ∀ a p, z.rangeSign a = some p → p ≠ []
  /-- a serialized generator or commitment can be parsed -/
  genParse : ∀ g s, z.genSerialize g = some s → (∃ a r, z.generateBlinded a r = some g) → ∃ g', z.genParse s = some g'
  comParse : ∀ c s, z.commitSerialize c = some s → (∃ b v g, z.commit b v g = some c) → ∃ c', z.commitParse s = some c'
  /-- serializing a parsed generator gives the bytes it was parsed from -/
  genCanonical : ∀ s g, z.genParse s = some g → z.genSerialize g = some s
  /-- the all-zero buffer is not a generator: it serializes to nothing a generator does -/
  zeroGen : ∀ a r g s, z.generateBlinded a r = some g → z.genSerialize g = some s →
    z.genSerialize (List.replicate 64 0) ≠ some s

/-- Sizes and prefixes that matter on the wire: a rangeproof fits the buffer the code hands
over (5134 bytes, core/__init__.py:1855), a serialized surjection proof has at most the size the
library documents (8258 bytes), a compressed pubkey starts with 2 or 3. -/
structure WireSizes (z : Zkp) : Prop where
  rangeSize : ∀ a p, z.rangeSign a = some p → p.length ≤ 5134
  surjSize : ∀ p s, z.surjSerialize p = some s → s.length ≤ 8258
  pubPrefix : ∀ k, z.secValid k = true → (z.pubOf k).head? = some 2 ∨ (z.pubOf k).head? = some 3

/-- Rangeproofs can be rewound and key agreement is symmetric. -/
structure Rewinds (z : Zkp) : Prop where
  /-- of a proof for a commitment with its opening -/
  rewind : ∀ a p cs c gs g, z.rangeSign a = some p → a.message.length = 64 → a.blind.length = 32 → a.value < 2 ^ 64 →
    z.commit a.blind a.value a.gen = some a.commit →
    z.commitSerialize a.commit = some cs → z.commitParse cs = some c →
    z.genSerialize a.gen = some gs → z.genParse gs = some g →
    ∃ msg, z.rangeRewind a.nonce c p a.extraCommit g = some (a.blind, a.value, msg, 64) ∧ msg.take 64 = a.message
  pubValid : ∀ k, z.secValid k = true → z.pubValid (z.pubOf k) = true
  ecdh : ∀ k l, z.secValid k = true → z.secValid l = true → z.ecdh k (z.pubOf l) = z.ecdh l (z.pubOf k)

end Verif
