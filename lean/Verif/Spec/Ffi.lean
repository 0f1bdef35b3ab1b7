import Verif.Ffi
/-
The C side, from the headers of libsecp256k1-zkp (include/secp256k1.h, secp256k1_generator.h, secp256k1_rangeproof.h,
secp256k1_surjectionproof.h): the prototypes, and what each function takes from the memory it is given.
-/
namespace Verif.Spec.Ffi
open Verif.Ffi

/-! ### Prototypes -/

/-- Types of C parameters on a 64-bit machine. -/
inductive Param
  /-- pointer to an object of the library -/
  | object
  /-- pointer to such a pointer, written to -/
  | objectOut
  /-- pointer to bytes, or to a structure that is an array of bytes -/
  | bytes
  | bytesOut
  /-- pointer to `int`, written to -/
  | intOut
  | u64Out
  /-- `size_t *`, read or written -/
  | sizeRef
  /-- `const uint64_t *` -/
  | u64s
  /-- pointer to pointers to bytes -/
  | byteses
  | int
  | uint
  | size
  | u64
  deriving DecidableEq, Repr

/-- Parameters by prototype. -/
def params : Fn → List Param
  -- int secp256k1_rangeproof_info(ctx, int *exp, int *mantissa, uint64_t *min_value, uint64_t *max_value, const unsigned char *proof, size_t plen)
  | .rangeproofInfo => [.object, .intOut, .intOut, .u64Out, .u64Out, .bytes, .size]
  -- int secp256k1_generator_parse(ctx, secp256k1_generator *gen, const unsigned char *input)
  | .generatorParse => [.object, .bytesOut, .bytes]
  -- int secp256k1_generator_generate(ctx, secp256k1_generator *gen, const unsigned char *key32)
  | .generatorGenerate => [.object, .bytesOut, .bytes]
  -- int secp256k1_generator_generate_blinded(ctx, secp256k1_generator *gen, const unsigned char *key32, const unsigned char *blind32)
  | .generatorGenerateBlinded => [.object, .bytesOut, .bytes, .bytes]
  -- int secp256k1_generator_serialize(ctx, unsigned char *output, const secp256k1_generator *gen)
  | .generatorSerialize => [.object, .bytesOut, .bytes]
  -- int secp256k1_pedersen_commit(ctx, secp256k1_pedersen_commitment *commit, const unsigned char *blind, uint64_t value, const secp256k1_generator *gen)
  | .pedersenCommit => [.object, .bytesOut, .bytes, .u64, .bytes]
  -- int secp256k1_pedersen_commitment_serialize(ctx, unsigned char *output, const secp256k1_pedersen_commitment *commit)
  | .commitmentSerialize => [.object, .bytesOut, .bytes]
  -- int secp256k1_pedersen_commitment_parse(ctx, secp256k1_pedersen_commitment *commit, const unsigned char *input)
  | .commitmentParse => [.object, .bytesOut, .bytes]
  -- int secp256k1_pedersen_blind_generator_blind_sum(ctx, const uint64_t *value, const unsigned char *const *generator_blind,
  --   unsigned char *const *blinding_factor, size_t n_total, size_t n_inputs)
  | .blindSum => [.object, .u64s, .byteses, .byteses, .size, .size]
  -- int secp256k1_rangeproof_sign(ctx, unsigned char *proof, size_t *plen, uint64_t min_value, const secp256k1_pedersen_commitment *commit,
  --   const unsigned char *blind, const unsigned char *nonce, int exp, int min_bits, uint64_t value, const unsigned char *message,
  --   size_t msg_len, const unsigned char *extra_commit, size_t extra_commit_len, const secp256k1_generator *gen)
  | .rangeproofSign => [.object, .bytesOut, .sizeRef, .u64, .bytes, .bytes, .bytes, .int, .int, .u64, .bytes, .size, .bytes, .size, .bytes]
  -- int secp256k1_rangeproof_rewind(ctx, unsigned char *blind_out, uint64_t *value_out, unsigned char *message_out, size_t *outlen,
  --   const unsigned char *nonce, uint64_t *min_value, uint64_t *max_value, const secp256k1_pedersen_commitment *commit,
  --   const unsigned char *proof, size_t plen, const unsigned char *extra_commit, size_t extra_commit_len, const secp256k1_generator *gen)
  | .rangeproofRewind =>
    [.object, .bytesOut, .u64Out, .bytesOut, .sizeRef, .bytes, .u64Out, .u64Out, .bytes, .bytes, .size, .bytes, .size, .bytes]
  -- int secp256k1_surjectionproof_allocate_initialized(ctx, secp256k1_surjectionproof **proof_out_p, size_t *input_index,
  --   const secp256k1_fixed_asset_tag *fixed_input_tags, const size_t n_input_tags, const size_t n_input_tags_to_use,
  --   const secp256k1_fixed_asset_tag *fixed_output_tag, const size_t n_max_iterations, const unsigned char *random_seed32)
  | .surjInit => [.object, .objectOut, .sizeRef, .bytes, .size, .size, .bytes, .size, .bytes]
  -- void secp256k1_surjectionproof_destroy(secp256k1_surjectionproof *proof)
  | .surjDestroy => [.object]
  -- int secp256k1_surjectionproof_generate(ctx, secp256k1_surjectionproof *proof, const secp256k1_generator *ephemeral_input_tags,
  --   size_t n_ephemeral_input_tags, const secp256k1_generator *ephemeral_output_tag, size_t input_index,
  --   const unsigned char *input_blinding_key, const unsigned char *output_blinding_key)
  | .surjGenerate => [.object, .object, .bytes, .size, .bytes, .size, .bytes, .bytes]
  -- int secp256k1_surjectionproof_verify(ctx, const secp256k1_surjectionproof *proof, const secp256k1_generator *ephemeral_input_tags,
  --   size_t n_ephemeral_input_tags, const secp256k1_generator *ephemeral_output_tag)
  | .surjVerify => [.object, .object, .bytes, .size, .bytes]
  -- size_t secp256k1_surjectionproof_serialized_size(ctx, const secp256k1_surjectionproof *proof)
  | .surjSize => [.object, .object]
  -- int secp256k1_ec_pubkey_serialize(ctx, unsigned char *output, size_t *outputlen, const secp256k1_pubkey *pubkey, unsigned int flags)
  | .pubkeySerialize => [.object, .bytesOut, .sizeRef, .bytes, .uint]
  -- int secp256k1_surjectionproof_serialize(ctx, unsigned char *output, size_t *outputlen, const secp256k1_surjectionproof *proof)
  | .surjSerialize => [.object, .bytesOut, .sizeRef, .object]

/-- Results by prototype: nothing, `int` or `size_t`. -/
inductive Ret
  | nothing | int | size
  deriving DecidableEq, Repr

def ret : Fn → Ret
  | .surjDestroy => .nothing
  | .surjSize => .size
  | _ => .int

/-- The declared type puts on the stack what the parameter is: the same size, and the same thing pointed to. -/
def Fits : CTy → Param → Prop
  | .voidp, .object => True
  | .ptr .voidp, .objectOut => True
  | .charp, .bytes => True
  | .charp, .bytesOut => True
  | .ptr .int, .intOut => True
  | .ptr .u64, .u64Out => True
  | .ptr .u64, .u64s => True
  | .ptr .size, .sizeRef => True
  | .ptr .charp, .byteses => True
  | .int, .int => True
  | .uint, .uint => True
  | .size, .size => True
  | .u64, .u64 => True
  | _, _ => False

/-- As many, each at its place. -/
def FitsAll (ts : List CTy) (ps : List Param) : Prop := ts.length = ps.length ∧ ∀ x ∈ ts.zip ps, Fits x.1 x.2

def FitsRet : Option CTy → Ret → Prop
  | none, .nothing => True
  | some .int, .int => True
  | some .size, .size => True
  | _, _ => False

/-! ### What a function takes from its arguments -/

/-- The values a call is about. -/
inductive Seen
  | rangeproofInfo (proof : Bytes)
  | generatorParse (b : Bytes)
  | generatorGenerate (key : Bytes)
  | generatorGenerateBlinded (key blind : Bytes)
  | generatorSerialize (gen : Bytes)
  | pedersenCommit (blind : Bytes) (value : Nat) (gen : Bytes)
  | commitmentSerialize (commit : Bytes)
  | commitmentParse (b : Bytes)
  | blindSum (values : List Nat) (generatorBlinds blinds : List Bytes) (total inputs : Nat)
  | rangeproofSign (a : RangeproofArgs)
  | rangeproofRewind (nonce commit proof : Bytes) (extra : Option Bytes) (gen : Bytes)
  | surjInit (tags : Bytes) (n use : Nat) (tag : Bytes) (iterations : Nat) (seed : Bytes)
  | surjDestroy
  | surjGenerate (tags : Bytes) (n : Nat) (tag : Bytes) (index : Nat) (inputBlind outputBlind : Bytes)
  | surjVerify (tags : Bytes) (n : Nat) (tag : Bytes)
  | surjSize
  | surjSerialize (room : Nat)
  deriving DecidableEq

/-- Reading `n` bytes behind a pointer; `none` if there are fewer. -/
def peek (n : Nat) : CArg → Option Bytes
  | .mem b _ => if n ≤ b.length then some (b.take n) else none
  | _ => none

/-- Reading `n` bytes where a null pointer stands for no data. -/
def readOpt (n : Nat) : CArg → Option (Option Bytes)
  | .null => if n = 0 then some none else none
  | a => (peek n a).map some

/-- There is room for `n` bytes, in memory that may be written. -/
def Room (n : Nat) : CArg → Prop
  | .mem b w => n ≤ b.length ∧ w = true
  | _ => False

instance (n : Nat) (a : CArg) : Decidable (Room n a) := by
  cases a <;> unfold Room <;> infer_instance

/-- A variable of that type, with its content. -/
def var (t : CTy) : CArg → Option Nat
  | .var u v => if t = u then some v else none
  | _ => none

def num : CArg → Option Nat
  | .num n => some n
  | _ => none

/-- The first `n` elements of an array. -/
def items (n : Nat) : CArg → Option (List CArg)
  | .vec l => if n ≤ l.length then some (l.take n) else none
  | _ => none

/-- What a call is about, or `none` if it breaks the contract: memory too short, constant memory written, something else pointed to. -/
def seen : Fn → List CArg → Option Seen
  | .rangeproofInfo, [.obj .context, exp, mantissa, lo, hi, proof, plen] => do
    let _ ← var .int exp
    let _ ← var .int mantissa
    let _ ← var .u64 lo
    let _ ← var .u64 hi
    let p ← peek (← num plen) proof
    some (.rangeproofInfo p)
  | .generatorParse, [.obj .context, gen, input] => do
    guard (Room 64 gen)
    some (.generatorParse (← peek 33 input))
  | .generatorGenerate, [.obj .context, gen, key] => do
    guard (Room 64 gen)
    some (.generatorGenerate (← peek 32 key))
  | .generatorGenerateBlinded, [.obj .context, gen, key, blind] => do
    guard (Room 64 gen)
    some (.generatorGenerateBlinded (← peek 32 key) (← peek 32 blind))
  | .generatorSerialize, [.obj .context, output, gen] => do
    guard (Room 33 output)
    some (.generatorSerialize (← peek 64 gen))
  | .pedersenCommit, [.obj .context, commit, blind, value, gen] => do
    guard (Room 64 commit)
    some (.pedersenCommit (← peek 32 blind) (← num value) (← peek 64 gen))
  | .commitmentSerialize, [.obj .context, output, commit] => do
    guard (Room 33 output)
    some (.commitmentSerialize (← peek 64 commit))
  | .commitmentParse, [.obj .context, commit, input] => do
    guard (Room 64 commit)
    some (.commitmentParse (← peek 33 input))
  | .blindSum, [.obj .context, value, generatorBlind, blindingFactor, nTotal, nInputs] => do
    let n ← num nTotal
    let m ← num nInputs
    -- "n_total: must be nonzero"; the last blinding factor, which must not be one of an input, is written to
    guard (m < n)
    let values ← (← items n value).mapM num
    let gbs ← (← items n generatorBlind).mapM (peek 32)
    let bs ← items n blindingFactor
    guard (Room 32 (← bs.getLast?))
    some (.blindSum values gbs (← bs.mapM (peek 32)) n m)
  | .rangeproofSign, [.obj .context, proof, plen, minValue, commit, blind, nonce, exp, minBits, value, message, msgLen, extra, extraLen, gen] => do
    guard (Room (← var .size plen) proof)
    -- "proof: 5134 bytes" are enough for every proof
    guard (5134 ≤ (← var .size plen))
    some (.rangeproofSign
      { minValue := ← num minValue
        commit := ← peek 64 commit
        blind := ← peek 32 blind
        nonce := ← peek 32 nonce
        exp := untwos 4 (← num exp)
        bits := untwos 4 (← num minBits)
        value := ← num value
        message := ← peek (← num msgLen) message
        extraCommit := ← readOpt (← num extraLen) extra
        gen := ← peek 64 gen })
  | .rangeproofRewind, [.obj .context, blindOut, valueOut, messageOut, outLen, nonce, lo, hi, commit, proof, plen, extra, extraLen, gen] => do
    guard (Room 32 blindOut)
    let _ ← var .u64 valueOut
    -- "message_out: pointer to a 4096-byte array"; what comes out fits in *outlen
    guard (Room 4096 messageOut)
    guard ((← var .size outLen) ≤ 4096)
    let _ ← var .u64 lo
    let _ ← var .u64 hi
    some (.rangeproofRewind (← peek 32 nonce) (← peek 64 commit) (← peek (← num plen) proof) (← readOpt (← num extraLen) extra) (← peek 64 gen))
  | .surjInit, [.obj .context, proofOut, inputIndex, tags, n, use, tag, iterations, seed] => do
    let _ ← var .voidp proofOut
    let _ ← var .size inputIndex
    some (.surjInit (← peek (32 * (← num n)) tags) (← num n) (← num use) (← peek 32 tag) (← num iterations) (← peek 32 seed))
  | .surjDestroy, [.obj .proof] => some .surjDestroy
  | .surjGenerate, [.obj .context, .obj .proof, tags, n, tag, index, inputBlind, outputBlind] => do
    some (.surjGenerate (← peek (64 * (← num n)) tags) (← num n) (← peek 64 tag) (← num index) (← peek 32 inputBlind) (← peek 32 outputBlind))
  | .surjVerify, [.obj .context, .obj .proof, tags, n, tag] => do
    some (.surjVerify (← peek (64 * (← num n)) tags) (← num n) (← peek 64 tag))
  | .surjSize, [.obj .context, .obj .proof] => some .surjSize
  | .surjSerialize, [.obj .context, output, outputLen, .obj .proof] => do
    let n ← var .size outputLen
    guard (Room n output)
    some (.surjSerialize n)
  | _, _ => none

/-! ### What a call is meant to be about -/

/-- The values the rest of the model hands to the library at that place. -/
def meant : Site → Seen
  | .generate asset => .generatorGenerate asset
  | .genSerialize gen => .generatorSerialize gen
  | .info proof => .rangeproofInfo proof.data
  | .auxParse g => .generatorParse g.data
  | .genParse c => .generatorParse c
  | .generateBlinded asset blind => .generatorGenerateBlinded asset blind
  | .blindSum amounts assetblinds blinds total inputs => .blindSum (amounts.map (twos 8)) assetblinds blinds total inputs
  | .commit blind amount gen => .pedersenCommit blind (twos 8 amount) gen
  | .commitSerialize c => .commitmentSerialize c
  | .rangeSign e b blind nonce amount script commit gen asset assetblind =>
    .rangeproofSign (rangeproofArgs e b blind nonce amount script commit gen asset assetblind)
  | .surjInit tags n asset seed => .surjInit tags n (min 3 n) asset 100 seed
  | .surjGenerate eph n gen idx inBlind assetblind => .surjGenerate eph n gen idx inBlind assetblind
  | .surjVerify eph n gen => .surjVerify eph n gen
  | .surjSize => .surjSize
  | .surjSerialize size => .surjSerialize size
  | .surjDestroy => .surjDestroy
  | .commitParse c => .commitmentParse c
  | .rewind nonce commit proof script gen =>
    .rangeproofRewind nonce commit proof.data (if script.length = 0 then none else some script) gen

/-- No Python object is larger than that. -/
def small (n : Nat) : Prop := n < 2 ^ 63

/-- The values are as the checks before the call leave them: fields of the sizes of their classes, buffers as the library filled them. -/
def Typed : Site → Prop
  | .generate asset => asset.length = 32
  | .genSerialize gen => gen.length = 64
  | .info proof => small proof.data.length
  | .auxParse g => g.data.length = 33
  | .genParse c => c.length = 33
  | .generateBlinded asset blind => asset.length = 32 ∧ blind.length = 32
  | .blindSum amounts assetblinds blinds total inputs =>
    amounts.length = total ∧ assetblinds.length = total ∧ blinds.length = total ∧ inputs < total ∧ small total ∧
      (∀ b ∈ assetblinds, b.length = 32) ∧ ∀ b ∈ blinds, b.length = 32
  | .commit blind _ gen => blind.length = 32 ∧ gen.length = 64
  | .commitSerialize c => c.length = 64
  | .rangeSign _ _ blind nonce _ script commit gen asset assetblind =>
    blind.length = 32 ∧ nonce.length = 32 ∧ commit.length = 64 ∧ gen.length = 64 ∧ asset.length = 32 ∧ assetblind.length = 32 ∧
      small script.length
  | .surjInit tags n asset seed => tags.length = 32 * n ∧ small n ∧ asset.length = 32 ∧ seed.length = 32
  | .surjGenerate eph n gen idx inBlind assetblind =>
    eph.length = 64 * n ∧ small n ∧ gen.length = 64 ∧ idx < n ∧ inBlind.length = 32 ∧ assetblind.length = 32
  | .surjVerify eph n gen => eph.length = 64 * n ∧ small n ∧ gen.length = 64
  | .surjSize => True
  | .surjSerialize size => small size
  | .surjDestroy => True
  | .commitParse c => c.length = 33
  | .rewind nonce commit proof script gen =>
    nonce.length = 32 ∧ commit.length = 64 ∧ small proof.data.length ∧ small script.length ∧ gen.length = 64

/-- The call is made, keeps the contract and is about what it is meant to be about. -/
def Reaches (s : Site) : Prop := ∃ c, convert s.fn s.args = .ok c ∧ seen s.fn c = some (meant s)

/-- An exponent or number of bits that a C `int` can hold. -/
def isInt : Option Int → Prop
  | none => True
  | some v => -2 ^ 31 ≤ v ∧ v < 2 ^ 31

/-- The calls that reach the library as meant: what may be `bytes` or `bytearray` is `bytes`, and numbers given by the caller fit. -/
def Fine : Site → Prop
  | .info (.bytearray _) => False
  | .auxParse (.bytearray _) => False
  | .rewind _ _ (.bytearray _) _ _ => False
  | .rangeSign e b _ _ _ _ _ _ _ _ => isInt e ∧ isInt b
  | _ => True

end Verif.Spec.Ffi
