import Verif.Blind
/-
Which arguments a function of the native library may read completely, given that C functions
take pointers without sizes.  From include/secp256k1_generator.h, secp256k1_rangeproof.h and
secp256k1_surjectionproof.h of libsecp256k1-zkp, from memory; the prototypes agree with
core/secp256k1.py:80-198.
-/
namespace Verif

/-- All of 32 bytes. -/
def All32 (l : List Bytes) : Prop := ∀ x ∈ l, x.length = 32

/-- Two libraries that agree whenever every buffer has the size the library reads, every array
has as many elements as announced, and every index lies in its array.  They may differ on all
other calls: there the C function would read or write past the end of a buffer.  `P` says which
range proofs are asked for. -/
structure SameOnSizedFor (P : RangeproofArgs → Prop) (y z : Zkp) : Prop where
  /-- key32 -/
  generate : ∀ a, a.length = 32 → y.generate a = z.generate a
  /-- key32, blind32 -/
  generateBlinded : ∀ a r, a.length = 32 → r.length = 32 → y.generateBlinded a r = z.generateBlinded a r
  genParse : ∀ b, b.length = 33 → y.genParse b = z.genParse b
  genSerialize : ∀ g, g.length = 64 → y.genSerialize g = z.genSerialize g
  /-- blind32, uint64, generator object -/
  commit : ∀ b v g, b.length = 32 → v < 2 ^ 64 → g.length = 64 → y.commit b v g = z.commit b v g
  commitSerialize : ∀ c, c.length = 64 → y.commitSerialize c = z.commitSerialize c
  commitParse : ∀ b, b.length = 33 → y.commitParse b = z.commitParse b
  /-- three arrays of `n` elements, the last two of pointers to 32 bytes; the last blinding
  factor is of an output -/
  blindSum : ∀ vs rs bs n m, vs.length = n → rs.length = n → bs.length = n → (∀ v ∈ vs, v < 2 ^ 64) → All32 rs →
    All32 bs → m < n → y.blindSum vs rs bs n m = z.blindSum vs rs bs n m
  /-- message and extra commitment come with their sizes -/
  rangeSign : ∀ a : RangeproofArgs, P a → a.minValue < 2 ^ 64 → a.commit.length = 64 → a.blind.length = 32 →
    a.nonce.length = 32 → a.value < 2 ^ 64 → a.gen.length = 64 → y.rangeSign a = z.rangeSign a
  rangeRewind : ∀ nonce c p e g, nonce.length = 32 → c.length = 64 → g.length = 64 →
    y.rangeRewind nonce c p e g = z.rangeRewind nonce c p e g
  /-- `n` tags of 32 bytes, at most that many to use, a tag, a seed -/
  surjInit : ∀ tags n k tag it seed, tags.length = 32 * n → k ≤ n → tag.length = 32 → seed.length = 32 →
    y.surjInit tags n k tag it seed = z.surjInit tags n k tag it seed
  /-- `n` generator objects, a generator object, an index among them, two blinding factors -/
  surjGenerate : ∀ p eph n g i b b', eph.length = 64 * n → g.length = 64 → i < n → b.length = 32 → b'.length = 32 →
    y.surjGenerate p eph n g i b b' = z.surjGenerate p eph n g i b b'
  surjVerify : ∀ p eph n g, eph.length = 64 * n → g.length = 64 → y.surjVerify p eph n g = z.surjVerify p eph n g
  surjSerialize : ∀ p, y.surjSerialize p = z.surjSerialize p
  /-- comes with its size -/
  pubValid : ∀ pk, y.pubValid pk = z.pubValid pk
  secValid : ∀ k, k.length = 32 → y.secValid k = z.secValid k
  pubOf : ∀ k, k.length = 32 → y.pubOf k = z.pubOf k
  ecdh : ∀ k pk, k.length = 32 → y.ecdh k pk = z.ecdh k pk

/-- For whatever range proof. -/
abbrev SameOnSized (y z : Zkp) : Prop := SameOnSizedFor (fun _ => True) y z

/-- Sizes that the classes of the members of a descriptor guarantee (`CAsset`, `Uint256`),
core/__init__.py:85-89. -/
structure DescSizes (d : Desc) : Prop where
  asset : d.asset.length = 32
  blindingFactor : d.blindingFactor.length = 32
  assetBlindingFactor : d.assetBlindingFactor.length = 32

end Verif
