import Verif.Blind
/-
The calls of the native library: the declarations of core/secp256k1.py:80-198, what ctypes makes of Python arguments, and every call
that core/__init__.py makes.

The rules of ctypes are those of `from_param` of the types declared (CPython's Modules/_ctypes), for the arguments that occur.
-/
namespace Verif.Ffi

/-- The functions declared, core/secp256k1.py:81-198. -/
inductive Fn
  | rangeproofInfo
  | generatorParse
  | generatorGenerate
  | generatorGenerateBlinded
  | generatorSerialize
  | pedersenCommit
  | commitmentSerialize
  | commitmentParse
  | blindSum
  | rangeproofSign
  | rangeproofRewind
  | surjInit
  | surjDestroy
  | surjGenerate
  | surjVerify
  | surjSize
  | pubkeySerialize
  | surjSerialize
  deriving DecidableEq, Repr

/-- The ctypes types in the declarations: `c_void_p`, `c_char_p`, `c_int`, `c_uint`, `c_size_t`, `c_uint64`, `POINTER(…)`. -/
inductive CTy
  | voidp | charp | int | uint | size | u64
  | ptr (t : CTy)
  deriving DecidableEq, Repr

/-- `argtypes`, core/secp256k1.py:82-198. -/
def argtypes : Fn → List CTy
  | .rangeproofInfo => [.voidp, .ptr .int, .ptr .int, .ptr .u64, .ptr .u64, .charp, .size]
  | .generatorParse => [.voidp, .charp, .charp]
  | .generatorGenerate => [.voidp, .charp, .charp]
  | .generatorGenerateBlinded => [.voidp, .charp, .charp, .charp]
  | .generatorSerialize => [.voidp, .charp, .charp]
  | .pedersenCommit => [.voidp, .charp, .charp, .u64, .charp]
  | .commitmentSerialize => [.voidp, .charp, .charp]
  | .commitmentParse => [.voidp, .charp, .charp]
  | .blindSum => [.voidp, .ptr .u64, .ptr .charp, .ptr .charp, .size, .size]
  | .rangeproofSign => [.voidp, .charp, .ptr .size, .u64, .charp, .charp, .charp, .int, .int, .u64, .charp, .size, .charp, .size, .charp]
  | .rangeproofRewind => [.voidp, .charp, .ptr .u64, .charp, .ptr .size, .charp, .ptr .u64, .ptr .u64, .charp, .charp, .size, .charp, .size, .charp]
  | .surjInit => [.voidp, .ptr .voidp, .ptr .size, .charp, .size, .size, .charp, .size, .charp]
  | .surjDestroy => [.voidp]
  | .surjGenerate => [.voidp, .voidp, .charp, .size, .charp, .size, .charp, .charp]
  | .surjVerify => [.voidp, .voidp, .charp, .size, .charp]
  | .surjSize => [.voidp, .voidp]
  | .pubkeySerialize => [.voidp, .charp, .ptr .size, .charp, .uint]
  | .surjSerialize => [.voidp, .charp, .ptr .size, .voidp]

/-- `restype`, core/secp256k1.py:81-192; `None` for the one that returns nothing. -/
def restype : Fn → Option CTy
  | .surjDestroy => none
  | _ => some .int

/-- Objects of the library. -/
inductive Handle
  | context
  | proof
  deriving DecidableEq, Repr

/-- Python arguments. -/
inductive PyArg
  | none
  /-- `secp256k1.ctx.blind`, or the `c_void_p` the library has filled in -/
  | handle (h : Handle)
  /-- `bytes` and its subclasses -/
  | bytes (b : Bytes)
  | bytearray (b : Bytes)
  /-- `create_string_buffer(n)`, with what it holds -/
  | buffer (b : Bytes)
  | int (v : Int)
  /-- an instance of a ctypes number -/
  | inst (t : CTy) (v : Nat)
  /-- `byref` of such an instance -/
  | byref (t : CTy) (v : Nat)
  /-- `(t * n)(…)` -/
  | array (t : CTy) (items : List PyArg)

/-- What the C function gets. -/
inductive CArg
  | null
  | obj (h : Handle)
  /-- a pointer to bytes; those of a `bytes` object must not be written to -/
  | mem (b : Bytes) (writable : Bool)
  | num (n : Nat)
  /-- a pointer to a variable -/
  | var (t : CTy) (v : Nat)
  /-- a pointer to an array -/
  | vec (items : List CArg)

/-- `from_param` of the types that are not `POINTER`s. -/
def simple : CTy → PyArg → Option CArg
  | .voidp, .none => some .null
  | .voidp, .handle h => some (.obj h)
  | .voidp, .bytes b => some (.mem b false)
  | .voidp, .buffer b => some (.mem b true)
  | .charp, .none => some .null
  | .charp, .bytes b => some (.mem b false)
  | .charp, .buffer b => some (.mem b true)
  | .int, .int v => some (.num (twos 4 v))
  | .int, .inst .int v => some (.num v)
  | .uint, .int v => some (.num (twos 4 v))
  | .uint, .inst .uint v => some (.num v)
  | .size, .int v => some (.num (twos 8 v))
  | .size, .inst .size v => some (.num v)
  | .u64, .int v => some (.num (twos 8 v))
  | .u64, .inst .u64 v => some (.num v)
  | _, _ => none

/-- `from_param`; arrays are of the type pointed to. -/
def fromParam : CTy → PyArg → Option CArg
  | .ptr _, .none => some .null
  | .ptr t, .byref u v => if t = u then some (.var t v) else none
  | .ptr t, .inst u v => if t = u then some (.var t v) else none
  | .ptr t, .array u items => if t = u then (items.mapM (simple t)).map .vec else none
  | .ptr _, _ => none
  | t, a => simple t a

/-- Why ctypes does not make a call. -/
inductive Refused
  /-- `TypeError`: this function takes at least … arguments -/
  | tooFew
  /-- `ArgumentError`: argument … -/
  | argument (i : Nat)
  deriving DecidableEq, Repr

/-- The arguments one after the other, counted from `i`. -/
def convertFrom : Nat → List CTy → List PyArg → Except Refused (List CArg)
  | _, [], _ => .ok []
  | _, _ :: _, [] => .error .tooFew
  | i, t :: ts, a :: as =>
    match fromParam t a with
    | none => .error (.argument i)
    | some c => (convertFrom (i + 1) ts as).map (c :: ·)

/-- A call: the count of the arguments is looked at first.  More arguments than declared do not occur. -/
def convert (f : Fn) (args : List PyArg) : Except Refused (List CArg) :=
  if args.length < (argtypes f).length then .error .tooFew else convertFrom 1 (argtypes f) args

/-- What Python gets when the C function returns the unsigned number `n`: of a `c_int`, the lowest 32 bits, signed. -/
def result (f : Fn) (n : Nat) : Option Int :=
  match restype f with
  | some .int => some (untwos 4 (n % 256 ^ 4))
  | some _ => some n
  | none => none

/-! ### The calls made -/

/-- `create_string_buffer(n)`. -/
def fresh (n : Nat) : PyArg := .buffer (List.replicate n 0)

def ctx : PyArg := .handle .context

/-- `bytes` or `bytearray`, as `Union[bytes, bytearray]` has it. -/
inductive BytesLike
  | bytes (b : Bytes)
  | bytearray (b : Bytes)
  deriving DecidableEq, Repr

def BytesLike.data : BytesLike → Bytes
  | .bytes b => b
  | .bytearray b => b

def BytesLike.arg : BytesLike → PyArg
  | .bytes b => .bytes b
  | .bytearray b => .bytearray b

/-- The places in core/__init__.py where the library is called, with the values there. -/
inductive Site
  /-- `CAsset.to_comm_secp256k1itment`, 314-315, 1367-1368, 1383-1384, 2037-2038 -/
  | generate (asset : Bytes)
  /-- 319-320, 1787-1788, 2098-2099, 2104-2105: `gen` was filled in by the library -/
  | genSerialize (gen : Bytes)
  /-- `get_rangeproof_info`, 582-587 -/
  | info (proof : BytesLike)
  /-- `auxiliary_generators[i]`, 1318-1319 and 1398-1400 -/
  | auxParse (g : BytesLike)
  /-- `confAsset.commitment`, 2030-2031 -/
  | genParse (c : Bytes)
  /-- 1330-1333, 1781-1782, 2086-2087 -/
  | generateBlinded (asset blind : Bytes)
  /-- 1629-1668; `blinds` before the last one is made a buffer -/
  | blindSum (amounts : List Int) (assetblinds blinds : List Bytes) (total inputs : Nat)
  /-- 1803-1804 -/
  | commit (blind : Bytes) (amount : Int) (gen : Bytes)
  /-- 1809-1810 -/
  | commitSerialize (commit : Bytes)
  /-- 1878-1887 -/
  | rangeSign (ctExponent ctBits : Option Int) (blind nonce : Bytes) (amount : Int) (script commit gen asset assetblind : Bytes)
  /-- 1931-1936, with what `build_aligned_data_array` gave -/
  | surjInit (tags : Bytes) (targets : Nat) (asset seed : Bytes)
  /-- 1946-1949; `idx` was filled in by the library -/
  | surjGenerate (eph : Bytes) (gens : Nat) (gen : Bytes) (idx : Nat) (inBlind assetblind : Bytes)
  /-- 1956-1958 -/
  | surjVerify (eph : Bytes) (gens : Nat) (gen : Bytes)
  /-- 1965-1966 -/
  | surjSize
  /-- 1967-1970; `size` is what `surjectionproof_serialized_size` returned -/
  | surjSerialize (size : Nat)
  /-- 1973 -/
  | surjDestroy
  /-- 2046-2047 -/
  | commitParse (c : Bytes)
  /-- 2059-2068; `nonce` is a digest or a secret key -/
  | rewind (nonce commit : Bytes) (proof : BytesLike) (script gen : Bytes)

/-- The function called. -/
def Site.fn : Site → Fn
  | .generate _ => .generatorGenerate
  | .genSerialize _ => .generatorSerialize
  | .info _ => .rangeproofInfo
  | .auxParse _ => .generatorParse
  | .genParse _ => .generatorParse
  | .generateBlinded _ _ => .generatorGenerateBlinded
  | .blindSum _ _ _ _ _ => .blindSum
  | .commit _ _ _ => .pedersenCommit
  | .commitSerialize _ => .commitmentSerialize
  | .rangeSign _ _ _ _ _ _ _ _ _ _ => .rangeproofSign
  | .surjInit _ _ _ _ => .surjInit
  | .surjGenerate _ _ _ _ _ _ => .surjGenerate
  | .surjVerify _ _ _ => .surjVerify
  | .surjSize => .surjSize
  | .surjSerialize _ => .surjSerialize
  | .surjDestroy => .surjDestroy
  | .commitParse _ => .commitmentParse
  | .rewind _ _ _ _ _ => .rangeproofRewind

/-- `None if len(script) == 0 else script`, 1884, and `script or None`, 2067. -/
def scriptArg (script : Bytes) : PyArg := if script.length = 0 then .none else .bytes script

/-- The arguments, in the order of the call. -/
def Site.args : Site → List PyArg
  | .generate asset => [ctx, fresh 64, .bytes asset]
  | .genSerialize gen => [ctx, fresh 33, .buffer gen]
  | .info proof => [ctx, .byref .int 0, .byref .int 0, .byref .u64 0, .byref .u64 0, proof.arg, .int proof.data.length]
  | .auxParse g => [ctx, fresh 64, g.arg]
  | .genParse c => [ctx, fresh 64, .bytes c]
  | .generateBlinded asset blind => [ctx, fresh 64, .bytes asset, .bytes blind]
  | .blindSum amounts assetblinds blinds total inputs =>
    [ctx, .array .u64 (amounts.map .int), .array .charp (assetblinds.map .bytes),
      .array .charp (blinds.dropLast.map .bytes ++ [.buffer (blinds.getLastD [])]), .int total, .int inputs]
  | .commit blind amount gen => [ctx, fresh 64, .bytes blind, .int amount, .bytes gen]
  | .commitSerialize c => [ctx, fresh 33, .buffer c]
  | .rangeSign ctExponent ctBits blind nonce amount script c gen asset assetblind =>
    [ctx, fresh 5134, .byref .size 5134, .int (if isUnspendable script then 0 else 1), .bytes c, .bytes blind, .bytes nonce,
      .int (ctExponent.getD CT_EXPONENT), .int (ctBits.getD CT_BITS), .int amount, .bytes (asset ++ assetblind),
      .int (asset ++ assetblind).length, scriptArg script, .int script.length, .bytes gen]
  | .surjInit tags targets asset seed =>
    [ctx, .byref .voidp 0, .byref .size 0, .bytes tags, .int targets, .int (min 3 targets : Nat), .bytes asset, .int 100, .bytes seed]
  | .surjGenerate eph gens gen idx inBlind assetblind =>
    [ctx, .handle .proof, .bytes eph, .int gens, .bytes gen, .inst .size idx, .bytes inBlind, .bytes assetblind]
  | .surjVerify eph gens gen => [ctx, .handle .proof, .bytes eph, .int gens, .bytes gen]
  | .surjSize => [ctx, .handle .proof]
  | .surjSerialize size => [ctx, fresh size, .byref .size size, .handle .proof]
  | .surjDestroy => [.handle .proof]
  | .commitParse c => [ctx, fresh 64, .bytes c]
  | .rewind nonce c proof script gen =>
    [ctx, fresh 32, .byref .u64 0, fresh 4096, .byref .size 64, .bytes nonce, .byref .u64 0, .byref .u64 0, .buffer c, proof.arg,
      .int proof.data.length, scriptArg script, .int script.length, .buffer gen]

end Verif.Ffi
