import Verif.Issue
import Verif.Script
/-
Blinding and unblinding, core/__init__.py:1159-2117.

libsecp256k1-zkp is an arbitrary structure `Zkp` of deterministic functions; `none` is
the return value 0.  The only facts built in are the sizes of the buffers the code
allocates for results.  `_rand_func` is the sequence of its results.  Argument type
checks (`ensure_isinstance`) are the Lean types.  Message texts are abbreviated.
-/
namespace Verif

/-- Arguments of `secp256k1_rangeproof_sign`, core/__init__.py:1878-1887. -/
structure RangeproofArgs where
  minValue : Nat
  commit : Bytes
  blind : Bytes
  nonce : Bytes
  exp : Int
  bits : Int
  value : Nat
  message : Bytes
  extraCommit : Option Bytes
  gen : Bytes
  deriving DecidableEq, Repr

/-- The functions of the native library that blinding uses (core/secp256k1.py:80-198)
and the key operations of python-bitcointx.  Surjection proof handles are opaque. -/
structure Zkp where
  /-- `secp256k1_generator_generate` -/
  generate : Bytes → Option Bytes
  /-- `secp256k1_generator_generate_blinded` -/
  generateBlinded : Bytes → Bytes → Option Bytes
  genParse : Bytes → Option Bytes
  genSerialize : Bytes → Option Bytes
  /-- `secp256k1_pedersen_commit`: blind, value, generator -/
  commit : Bytes → Nat → Bytes → Option Bytes
  commitSerialize : Bytes → Option Bytes
  commitParse : Bytes → Option Bytes
  /-- `secp256k1_pedersen_blind_generator_blind_sum`: values, generator blinds, blinds,
  `n_total`, `n_inputs`; the result is the new last blind -/
  blindSum : List Nat → List Bytes → List Bytes → Nat → Nat → Option Bytes
  rangeSign : RangeproofArgs → Option Bytes
  /-- `secp256k1_rangeproof_rewind`: nonce, commitment, proof, extra commit, generator;
  gives blind, value, the 4096-byte message buffer and the message size -/
  rangeRewind : Bytes → Bytes → Bytes → Option Bytes → Bytes → Option (Bytes × Nat × Bytes × Nat)
  /-- `secp256k1_surjectionproof_allocate_initialized`: tags, their number, number to
  use, output tag, iterations, seed; gives the handle and the input index -/
  surjInit : Bytes → Nat → Nat → Bytes → Nat → Bytes → Option (Bytes × Nat)
  /-- handle, ephemeral tags, number, output tag, index, input blind, output blind -/
  surjGenerate : Bytes → Bytes → Nat → Bytes → Nat → Bytes → Bytes → Option Bytes
  surjVerify : Bytes → Bytes → Nat → Bytes → Bool
  /-- `secp256k1_surjectionproof_serialize`; `none` if the length written differs from
  the announced one -/
  surjSerialize : Bytes → Option Bytes
  /-- `CPubKey.is_fullyvalid` on a non-empty key -/
  pubValid : Bytes → Bool
  secValid : Bytes → Bool
  /-- `CKey.pub` -/
  pubOf : Bytes → Bytes
  /-- `CKey.ECDH` -/
  ecdh : Bytes → Bytes → Option Bytes
  generate_len : ∀ a g, generate a = some g → g.length = 64
  generateBlinded_len : ∀ a r g, generateBlinded a r = some g → g.length = 64
  genParse_len : ∀ b g, genParse b = some g → g.length = 64
  genSerialize_len : ∀ g b, genSerialize g = some b → b.length = 33
  commit_len : ∀ b v g c, commit b v g = some c → c.length = 64
  commitSerialize_len : ∀ c b, commitSerialize c = some b → b.length = 33
  commitParse_len : ∀ b c, commitParse b = some c → c.length = 64
  blindSum_len : ∀ v r b t i x, blindSum v r b t i = some x → x.length = 32
  rangeRewind_len : ∀ n c p e g x, rangeRewind n c p e g = some x →
    x.1.length = 32 ∧ x.2.1 < 2 ^ 64 ∧ x.2.2.1.length = 4096

/-- What the code calls outside itself. -/
structure Env where
  h : HashFn
  m : MidFn
  z : Zkp

/-- `BlindingInputDescriptor`, core/__init__.py:85-89. -/
structure Desc where
  asset : Bytes
  amount : Int
  blindingFactor : Bytes
  assetBlindingFactor : Bytes
  deriving DecidableEq, Repr

/-- Arguments of `blind_transaction` other than the transaction,
core/__init__.py:1184-1194.  Keys are their secret bytes; `rand k` is the result of the
`k`-th call of `_rand_func`. -/
structure BlindArgs where
  descs : List Desc
  pubkeys : List Bytes
  assetKeys : List (Option Bytes) := []
  tokenKeys : List (Option Bytes) := []
  auxGens : List Bytes := []
  ctExponent : Option Int := none
  ctBits : Option Int := none
  strict : Bool := true
  rand : Nat → Bytes

/-- `BlindingSuccess` / `BlindingFailure`, core/__init__.py:134-160. -/
inductive BlindResult
  | success (num : Nat) (blindingFactors assetBlindingFactors : List Bytes)
  | failure (msg : String)
  deriving DecidableEq, Repr

/-- How a function ends early: an exception or a `return`. -/
inductive Stop
  | raise (e : PyErr)
  | ret (r : BlindResult)
  deriving DecidableEq, Repr

def raiseE {α} (e : Except PyErr α) : Except Stop α := e.mapError .raise

/-- A library call whose failure raises `RuntimeError`. -/
def orRuntime {α} : Option α → Except PyErr α
  | some x => .ok x
  | none => .error .runtimeError

/-- `Uint256(data)` (python-bitcointx). -/
def uint256New (b : Bytes) : Except PyErr Bytes := if b.length = 32 then .ok b else .error .valueError
/-- `Uint256.is_null`. -/
def isNull32 (b : Bytes) : Bool := b.all (· == 0)

/-- `CPubKey.is_fullyvalid` (python-bitcointx): false for the empty key. -/
def fullyValid (z : Zkp) (pk : Bytes) : Bool := pk.length != 0 && z.pubValid pk

/-- `len(keys) > i and keys[i] is not None`, then `keys[i]`. -/
def keyAt (ks : List (Option Bytes)) (i : Nat) : Option Bytes := (ks[i]?).join

/-! ### Helpers of blinding -/

/-- `build_aligned_data_array`, core/secp256k1.py:201-211. -/
def buildAligned (data : List Bytes) (len : Nat) : Except PyErr Bytes :=
  if len % 32 ≠ 0 then .error .assertion
  else if len = 0 then .error .zeroDivision
  else if data.flatten.length % len ≠ 0 then .error .assertion
  else if data.flatten.length / len ≠ data.length then .error .assertion
  else .ok data.flatten

/-- `blinded_asset`, core/__init__.py:1773-1796. -/
def blindedAsset (z : Zkp) (asset assetblind : Bytes) : Except PyErr (Bytes × Bytes) := do
  let gen ← orRuntime (z.generateBlinded asset assetblind)
  let ser ← orRuntime (z.genSerialize gen)
  let confAsset ← confNew assetKind ser
  if !confIsValid assetKind confAsset then throw .assertion
  return (confAsset, gen)

/-- `create_value_commitment`, core/__init__.py:1799-1818; `amount` becomes a `c_uint64`. -/
def createValueCommitment (z : Zkp) (blind gen : Bytes) (amount : Int) : Except PyErr (Bytes × Bytes) := do
  let commit ← orRuntime (z.commit blind (twos 8 amount) gen)
  let ser ← orRuntime (z.commitSerialize commit)
  let confValue ← confNew valueKind ser
  if !confIsValid valueKind confValue then throw .assertion
  return (confValue, commit)

/-- `CT_EXPONENT`, `CT_BITS`, core/__init__.py:199-200. -/
def CT_EXPONENT : Int := 0
def CT_BITS : Int := 52

/-- What `generate_rangeproof` signs, core/__init__.py:1850-1887. -/
def rangeproofArgs (ctExponent ctBits : Option Int) (blind nonce : Bytes) (amount : Int)
    (script commit gen asset assetblind : Bytes) : RangeproofArgs :=
  { minValue := if isUnspendable script then 0 else 1
    commit, blind, nonce
    exp := ctExponent.getD CT_EXPONENT
    bits := ctBits.getD CT_BITS
    value := twos 8 amount
    message := asset ++ assetblind
    extraCommit := if script.length = 0 then none else some script
    gen }

/-- `generate_rangeproof`, core/__init__.py:1821-1893.  `blind` and `assetblind` are the
last elements of the two lists. -/
def generateRangeproof (z : Zkp) (ctExponent ctBits : Option Int) (blind nonce : Bytes) (amount : Int)
    (script commit gen asset assetblind : Bytes) : Except PyErr Bytes :=
  if commit.length ≠ 64 then .error .valueError
  else if gen.length ≠ 64 then .error .valueError
  else orRuntime (z.rangeSign (rangeproofArgs ctExponent ctBits blind nonce amount script commit gen asset assetblind))

/-- `generate_output_rangeproof_nonce`, core/__init__.py:1896-1907; `seed` is the result of
`_rand_func(32)`. -/
def outputNonce (E : Env) (pk seed : Bytes) : Except PyErr (Bytes × Bytes) := do
  let key ← ckeyNew E.z.secValid seed
  let eph := E.z.pubOf key
  if eph.length ≠ committedSize then throw .assertion
  let s ← orRuntime (E.z.ecdh key pk)
  return (E.h.fn s, eph)

/-- `generate_surjectionproof`, core/__init__.py:1910-1975, after `_rand_func(32)`. -/
def surjectionProof (z : Zkp) (targets gens blinders : List Bytes) (assetblind gen asset seed : Bytes) :
    Except PyErr (Option Bytes) := do
  let tags ← buildAligned targets 32
  match z.surjInit tags targets.length (min 3 targets.length) asset 100 seed with
  | none => return none
  | some (proof, idx) =>
    let eph ← buildAligned gens 64
    match blinders[idx]? with
    | none => throw .indexError
    | some inBlind =>
      let proof ← orRuntime (z.surjGenerate proof eph gens.length gen idx inBlind assetblind)
      if !z.surjVerify proof eph gens.length gen then throw .runtimeError
      match z.surjSerialize proof with
      | none => throw .assertion
      | some s => return some s

/-! ### Checks before anything is changed -/

/-- Length checks on the arguments, core/__init__.py:1206-1223 and 1269-1283. -/
def checkArgs (A : BlindArgs) (tx : Tx) : Except PyErr Unit :=
  if !decide (tx.vout.length ≥ A.pubkeys.length) then .error .valueError
  else if !decide (tx.vin.length ≥ A.assetKeys.length) then .error .valueError
  else if !decide (tx.vin.length ≥ A.tokenKeys.length) then .error .valueError
  else if tx.vin.length ≠ A.descs.length then .error .valueError
  else if A.auxGens ≠ [] then
    if !decide (A.auxGens.length ≥ tx.vin.length) then .error .valueError
    else if A.auxGens.any (·.length != 33) then .error .valueError
    else .ok ()
  else .ok ()

/-- `num_targets`, core/__init__.py:1265-1287. -/
def numTargets (A : BlindArgs) (tx : Tx) : Nat :=
  tx.vin.length * 3 + if A.auxGens ≠ [] then A.auxGens.length - tx.vin.length else 0

/-- `surjectionTargets`, `targetAssetGenerators`, `targetAssetBlinders`, `totalTargets`,
core/__init__.py:1298-1307. -/
structure Targets where
  st : List (Option Bytes)
  gens : List (Option Bytes)
  blinders : List Bytes
  total : Nat
  deriving DecidableEq, Repr

/-- `l[i] = x`. -/
def setAt {α} (l : List α) (i : Nat) (x : α) : Except PyErr (List α) :=
  if i < l.length then .ok (l.set i x) else .error .indexError

/-- Recording one target, e.g. core/__init__.py:1338-1341. -/
def Targets.push (t : Targets) (asset gen blinder : Bytes) : Except PyErr Targets := do
  let gens ← setAt t.gens t.total (some gen)
  let st ← setAt t.st t.total (some asset)
  return ⟨st, gens, t.blinders ++ [blinder], t.total + 1⟩

/-- The generator of input `i`, core/__init__.py:1313-1336. -/
def inputGenerator (z : Zkp) (A : BlindArgs) (i : Nat) (d : Desc) : Except Stop Bytes :=
  if isNull32 d.asset then
    if A.auxGens ≠ [] then
      match A.auxGens[i]? with
      | none => .error (.raise .indexError)
      | some ag =>
        match z.genParse ag with
        | some g => .ok g
        | none => .error (.ret (.failure s!"auxiliary generator {i} is not valid"))
    else .error (.ret (.failure s!"input asset {i} is empty, but auxiliary_generators was not supplied"))
  else raiseE (orRuntime (z.generateBlinded d.asset d.assetBlindingFactor))

/-- Issued asset of an input and the value of the variable `token` after it,
core/__init__.py:1354-1362. -/
def issuedAsset (E : Env) (A : BlindArgs) (i : Nat) (txin : TxIn) (token : Option Bytes) :
    Except PyErr (Bytes × Option Bytes) :=
  if isNull32 txin.assetIssuance.assetBlindingNonce then do
    let entropy ← generateAssetEntropy E.h E.m txin.prevout txin.assetIssuance.assetEntropy
    let asset ← calculateAsset E.m entropy
    let tok ← calculateReissuanceToken E.m entropy (keyAt A.tokenKeys i).isSome
    return (asset, some tok)
  else do
    let asset ← calculateAsset E.m txin.assetIssuance.assetEntropy
    return (asset, token)

/-- Target for an issuance, core/__init__.py:1364-1377 and 1381-1390. -/
def pushIssued (z : Zkp) (asset : Bytes) (t : Targets) : Except PyErr Targets := do
  let g ← orRuntime (z.generate asset)
  t.push asset g zero32

/-- The token target, core/__init__.py:1379-1390.  `token` is a local variable that only a
new issuance assigns. -/
def pushToken (z : Zkp) (token : Option Bytes) (t : Targets) : Except PyErr Targets :=
  match token with
  | none => .error .unboundLocal
  | some tok => if isNull32 tok then .error .assertion else pushIssued z tok t

/-- Issuance targets of one input, core/__init__.py:1343-1390. -/
def issuanceTargets (E : Env) (A : BlindArgs) (i : Nat) (txin : TxIn) (t : Targets) (token : Option Bytes) :
    Except Stop (Targets × Option Bytes) :=
  if txin.assetIssuance.isNull then .ok (t, token)
  else if confIsCommitment valueKind txin.assetIssuance.nAmount then
    .error (.ret (.failure "issuance is not empty, but nAmount is a commitment"))
  else if confIsCommitment valueKind txin.assetIssuance.nInflationKeys then
    .error (.ret (.failure "issuance is not empty, but nInflationKeys is a commitment"))
  else do
    let (asset, token) ← raiseE (issuedAsset E A i txin token)
    let t ← raiseE (if confIsNull txin.assetIssuance.nAmount then .ok t else pushIssued E.z asset t)
    let t ← raiseE (if confIsNull txin.assetIssuance.nInflationKeys then .ok t else pushToken E.z token t)
    return (t, token)

/-- The loop over inputs, core/__init__.py:1311-1390. -/
def inputTargets (E : Env) (A : BlindArgs) : Nat → List (TxIn × Desc) → Targets → Option Bytes → Except Stop Targets
  | _, [], t, _ => .ok t
  | i, (txin, d) :: rest, t, token => do
    let g ← inputGenerator E.z A i d
    let t ← raiseE (t.push d.asset g d.assetBlindingFactor)
    let (t, token) ← issuanceTargets E A i txin t token
    inputTargets E A (i + 1) rest t token

/-- Additional auxiliary generators from the `n`th on, core/__init__.py:1392-1409. -/
def auxTargets (z : Zkp) : Nat → List Bytes → Targets → Except Stop Targets
  | _, [], t => .ok t
  | n, ag :: rest, t => do
    match z.genParse ag with
    | none => .error (.ret (.failure s!"auxiliary generator {n} is not valid"))
    | some g =>
      let t ← raiseE (t.push zero32 g zero32)
      auxTargets z (n + 1) rest t

/-- `for x in l: assert x is not None; r.append(x)`, core/__init__.py:1416-1424. -/
def filled : List (Option Bytes) → Except PyErr (List Bytes)
  | [] => .ok []
  | none :: _ => .error .assertion
  | some x :: r => do return x :: (← filled r)

/-- Targets, generators and blinders used for every surjection proof. -/
structure TargetLists where
  targets : List Bytes
  gens : List Bytes
  blinders : List Bytes
  deriving DecidableEq, Repr

/-- Trimming the preallocated lists, core/__init__.py:1411-1424. -/
def trimTargets (t : Targets) : Except PyErr TargetLists := do
  if t.total ≠ t.blinders.length then throw .assertion
  if !(t.st.drop t.total).all (·.isNone) then throw .assertion
  if !(t.gens.drop t.total).all (·.isNone) then throw .assertion
  let targets ← filled (t.st.take t.total)
  let gens ← filled (t.gens.take t.total)
  return ⟨targets, gens, t.blinders⟩

/-- Surjection proof preparation, core/__init__.py:1295-1424. -/
def surjTargets (E : Env) (A : BlindArgs) (tx : Tx) : Except Stop TargetLists := do
  let n := numTargets A tx
  let t ← inputTargets E A 0 (tx.vin.zip A.descs) ⟨List.replicate n none, List.replicate n none, [], 0⟩ none
  let t ← auxTargets E.z tx.vin.length (A.auxGens.drop tx.vin.length) t
  raiseE (trimTargets t)

/-- `blinds`, `assetblinds`, `amounts_to_blind`, `nBlindsIn`, `nToBlind` after the loops
over inputs and outputs. -/
structure Counts where
  blinds : List Bytes := []
  assetblinds : List Bytes := []
  amounts : List Int := []
  nBlindsIn : Nat := 0
  nToBlind : Nat := 0
  deriving DecidableEq, Repr

/-- Own blinded inputs, core/__init__.py:1434-1446. -/
def countBlinded (i : Nat) (d : Desc) (c : Counts) : Except Stop Counts :=
  if !isNull32 d.blindingFactor || !isNull32 d.assetBlindingFactor then
    if d.amount < 0 then .error (.ret (.failure
      s!"input blinding factors (or asset blinding factors) for input {i} is not empty, but amount specified for this input is negative"))
    else .ok { c with
      blinds := c.blinds ++ [d.blindingFactor]
      assetblinds := c.assetblinds ++ [d.assetBlindingFactor]
      amounts := c.amounts ++ [d.amount]
      nBlindsIn := c.nBlindsIn + 1 }
  else .ok c

/-- Texts of lines 1455-1456 and 1469-1470 of core/__init__.py. -/
def notExplicit (i : Nat) (token : Bool) : String :=
  if token then s!"blind_issuance_token_keys is specified for input {i}, but issuance.nInflationKeys is not explicit"
  else s!"blind_issuance_asset_keys is specified for input {i}, but issuance.nAmount is not explicit"

/-- Texts of lines 1463-1464 and 1476-1477 of core/__init__.py; nothing is put in for `%d`. -/
def inPlace (token : Bool) : String :=
  if token then "blind_issuance_token_keys is specified for input %d, but inflationKeysRangeproof is already in place"
  else "blind_issuance_asset_keys is specified for input %d, but issuanceAmountRangeproof is already in place"

/-- One issuance pseudo-input, core/__init__.py:1452-1464 and 1466-1477. -/
def countIssuance (i : Nat) (token : Bool) (key : Option Bytes) (value proof : Bytes) (c : Counts) : Except Stop Counts :=
  if key.isSome then
    if !confIsExplicit valueKind value then .error (.ret (.failure (notExplicit i token)))
    else if proof.length = 0 then .ok { c with nToBlind := c.nToBlind + 1 }
    else .error (.ret (.failure (inPlace token)))
  else .ok c

/-- The loop over inputs, core/__init__.py:1433-1477.  A missing input witness counts as
one with empty proofs. -/
def countInputs (A : BlindArgs) (wit : List TxInWitness) : Nat → List (TxIn × Desc) → Counts → Except Stop Counts
  | _, [], c => .ok c
  | i, (txin, d) :: rest, c => do
    let c ← countBlinded i d c
    let w := (wit[i]?).getD {}
    let c ← if txin.assetIssuance.isNull then .ok c else do
      let c ← countIssuance i false (keyAt A.assetKeys i) txin.assetIssuance.nAmount w.issuanceAmountRangeproof c
      countIssuance i true (keyAt A.tokenKeys i) txin.assetIssuance.nInflationKeys w.inflationKeysRangeproof c
    countInputs A wit (i + 1) rest c

/-- Common beginning of the texts of lines 1486-1500 of core/__init__.py. -/
def validKeyFor (j : Nat) : String := s!"valid blinding pubkey specified for output {j}, but "

/-- Output `j`, core/__init__.py:1479-1502; `wit` is its witness if there is one. -/
def countOutput (z : Zkp) (j : Nat) (pk : Bytes) (out : TxOut) (wit : Option TxOutWitness) (c : Counts) : Except Stop Counts :=
  if pk.length = 0 then .ok c
  else if !fullyValid z pk then .error (.ret (.failure s!"blinding pubkey for output {j} is not valid"))
  else if !confIsExplicit valueKind out.nValue then .error (.ret (.failure (validKeyFor j ++ "nValue for this output is not explicit")))
  else if !confIsExplicit assetKind out.nAsset then .error (.ret (.failure (validKeyFor j ++ "nAsset for this output is not explicit")))
  else if wit.any (fun w => !w.isNull) then .error (.ret (.failure (validKeyFor j ++ "txout witness for this output is already in place")))
  else if out.isFee then .error (.ret (.failure (validKeyFor j ++ "this output is a fee output")))
  else .ok { c with nToBlind := c.nToBlind + 1 }

/-- The loop over output pubkeys, core/__init__.py:1479-1502. -/
def countOutputs (z : Zkp) (tx : Tx) : Nat → List Bytes → Counts → Except Stop Counts
  | _, [], c => .ok c
  | j, pk :: rest, c => do
    let c ← countOutput z j pk (tx.vout.getD j {}) tx.wit.vtxoutwit[j]? c
    countOutputs z tx (j + 1) rest c

/-- Everything before the first change, core/__init__.py:1206-1502. -/
def checks (E : Env) (A : BlindArgs) (tx : Tx) : Except Stop (TargetLists × Counts) := do
  raiseE (checkArgs A tx)
  let t ← surjTargets E A tx
  let c ← countInputs A tx.wit.vtxinwit 0 (tx.vin.zip A.descs) {}
  let c ← countOutputs E.z tx 0 A.pubkeys c
  return (t, c)

/-! ### Blinding proper -/

/-- The transaction and the local variables while blinding. -/
structure BS where
  tx : Tx
  /-- `nBlindAttempts` -/
  attempts : Nat := 0
  /-- `nIssuanceBlindAttempts` -/
  issAttempts : Nat := 0
  /-- `nSuccessfullyBlinded` -/
  done : Nat := 0
  blinds : List Bytes
  assetblinds : List Bytes
  amounts : List Int
  /-- calls of `_rand_func` so far -/
  rnd : Nat := 0
  /-- `output_blinding_factors` -/
  obf : List (Option Bytes)
  /-- `output_asset_blinding_factors` -/
  oabf : List (Option Bytes)
  deriving DecidableEq, Repr

/-- Computations that change the state and may stop; the state is kept when they do. -/
def BM (α : Type) := BS → Except Stop α × BS

instance : Monad BM where
  pure a := fun s => (.ok a, s)
  bind m f := fun s =>
    match m s with
    | (.ok a, s) => f a s
    | (.error e, s) => (.error e, s)

def BM.get : BM BS := fun s => (.ok s, s)
def BM.modify (f : BS → BS) : BM Unit := fun s => (.ok (), f s)
def BM.lift {α} (e : Except PyErr α) : BM α := fun s => (raiseE e, s)
def BM.stop {α} (r : BlindResult) : BM α := fun s => (.error (.ret r), s)
/-- `_rand_func(32)` -/
def BM.rand (A : BlindArgs) : BM Bytes := fun s => (.ok (A.rand s.rnd), { s with rnd := s.rnd + 1 })

/-- What the blinding loops read but do not change. -/
structure Ctx where
  E : Env
  A : BlindArgs
  T : TargetLists
  nBlindsIn : Nat
  nToBlind : Nat

/-- `blinding_result`, core/__init__.py:1244-1263. -/
def blindingResult (C : Ctx) (s : BS) : BlindResult :=
  if C.A.strict && s.done != C.nToBlind then .failure
    s!"blinded {s.done} outputs/issuances, but should have blinded {C.nToBlind} (this check can be turned off with is_blind_success_strict=False)"
  else .success s.done (s.obf.map (·.getD zero32)) (s.oabf.map (·.getD zero32))

/-- `return blinding_result()`. -/
def BM.finish {α} (C : Ctx) : BM α := do
  let s ← BM.get
  BM.stop (blindingResult C s)

/-- Asset of an issuance pseudo-input; `none` is the `continue` for a reissuance,
core/__init__.py:1532-1545. -/
def pseudoAsset (E : Env) (txin : TxIn) (token : Bool) : Except PyErr (Option Bytes) :=
  if isNull32 txin.assetIssuance.assetBlindingNonce then do
    let entropy ← generateAssetEntropy E.h E.m txin.prevout txin.assetIssuance.assetEntropy
    let a ← if !token then calculateAsset E.m entropy else calculateReissuanceToken E.m entropy true
    return some a
  else if !token then do
    let a ← calculateAsset E.m txin.assetIssuance.assetEntropy
    return some a
  else return none

/-- `while len(tx.wit.vtxinwit) <= nIn: append(...)`, core/__init__.py:1557-1558. -/
def padTo {α} (l : List α) (n : Nat) (x : α) : List α := l ++ List.replicate (n - l.length) x

def setIssuance (nIn : Nat) (i : Issuance) (tx : Tx) : Tx :=
  { tx with vin := tx.vin.modify nIn (fun t => { t with assetIssuance := i }) }
def setInWit (nIn : Nat) (f : TxInWitness → TxInWitness) (tx : Tx) : Tx :=
  { tx with wit := { tx.wit with vtxinwit := tx.wit.vtxinwit.modify nIn f } }
def setOut (nOut : Nat) (f : TxOut → TxOut) (tx : Tx) : Tx := { tx with vout := tx.vout.modify nOut f }
def setOutWit (nOut : Nat) (f : TxOutWitness → TxOutWitness) (tx : Tx) : Tx :=
  { tx with wit := { tx.wit with vtxoutwit := tx.wit.vtxoutwit.modify nOut f } }

def BM.modifyTx (f : Tx → Tx) : BM Unit := BM.modify fun s => { s with tx := f s.tx }

/-- Committing to an issuance amount, core/__init__.py:1557-1606. -/
def blindPseudo (C : Ctx) (nIn : Nat) (token : Bool) (key : Bytes) (amount : Int) (asset blind : Bytes) : BM Unit := do
  BM.modifyTx fun tx => { tx with wit := { tx.wit with vtxinwit := padTo tx.wit.vtxinwit (nIn + 1) {} } }
  let (_, gen) ← BM.lift (blindedAsset C.E.z asset zero32)
  let (confValue, commit) ← BM.lift (createValueCommitment C.E.z blind gen amount)
  let s ← BM.get
  let issuance := (s.tx.vin.getD nIn default).assetIssuance
  BM.modifyTx (setIssuance nIn
    (if token then { issuance with nInflationKeys := confValue } else { issuance with nAmount := confValue }))
  let nonce ← BM.lift (uint256New key)
  let proof ← BM.lift
    (generateRangeproof C.E.z C.A.ctExponent C.A.ctBits blind nonce amount [] commit gen asset zero32)
  BM.modifyTx (setInWit nIn fun w =>
    if token then { w with inflationKeysRangeproof := proof } else { w with issuanceAmountRangeproof := proof })
  BM.modify fun s => { s with done := s.done + 1 }

/-- One issuance pseudo-input with key, core/__init__.py:1516-1606. -/
def issuancePseudo (C : Ctx) (nIn : Nat) (token : Bool) (key : Bytes) : BM Unit := do
  BM.modify fun s => { s with attempts := s.attempts + 1, issAttempts := s.issAttempts + 1 }
  let s ← BM.get
  let txin := s.tx.vin.getD nIn default
  let explicitValue := if token then txin.assetIssuance.nInflationKeys else txin.assetIssuance.nAmount
  if confIsNull explicitValue then return
  else do
    let amount ← BM.lift (valueToAmount explicitValue)
    BM.modify fun s => { s with amounts := s.amounts ++ [amount] }
    match ← BM.lift (pseudoAsset C.E txin token) with
    | none => return
    | some asset => do
      let r ← BM.rand C.A
      let blind ← BM.lift (uint256New r)
      BM.modify fun s => { s with blinds := s.blinds ++ [blind], assetblinds := s.assetblinds ++ [zero32] }
      let s ← BM.get
      if s.attempts = C.nToBlind then BM.finish C
      else blindPseudo C nIn token key amount asset blind

/-- One pseudo-input, core/__init__.py:1506-1516. -/
def issuanceStep (C : Ctx) (nIn : Nat) (token : Bool) : BM Unit :=
  match keyAt (if token then C.A.tokenKeys else C.A.assetKeys) nIn with
  | none => pure ()
  | some key => issuancePseudo C nIn token key

/-- The loop over inputs from `i` for `n` more, core/__init__.py:1505-1606. -/
def issuanceLoop (C : Ctx) : Nat → Nat → BM Unit
  | _, 0 => pure ()
  | i, n + 1 => do
    issuanceStep C i false
    issuanceStep C i true
    issuanceLoop C (i + 1) n

/-- Computing the last blinding factor so that everything sums to zero,
core/__init__.py:1632-1692.  The hash comparison around the library call cannot fail here:
the library function is pure. -/
def balance (C : Ctx) : BM Unit := do
  let s ← BM.get
  if s.attempts = 1 ∧ C.nBlindsIn = 0 then BM.finish C
  else if s.blinds.length ≠ s.attempts + C.nBlindsIn then BM.lift (.error .assertion)
  else if s.amounts.length ≠ s.blinds.length then BM.lift (.error .assertion)
  else do
    let last ← BM.lift (orRuntime (C.E.z.blindSum (s.amounts.map (twos 8)) s.assetblinds s.blinds
      (s.attempts + C.nBlindsIn) (s.issAttempts + C.nBlindsIn)))
    BM.modify fun s => { s with blinds := s.blinds.dropLast ++ [last] }
    if isNull32 last then do
      BM.modify fun s => { s with done := s.done + 1 }
      BM.finish C
    else return

/-- The balancing of the last output, core/__init__.py:1626-1692. -/
def balanceIfLast (C : Ctx) : BM Unit := do
  let s ← BM.get
  if s.attempts = C.nToBlind then balance C else return

/-- Committing to an output, core/__init__.py:1694-1732. -/
def commitOutput (C : Ctx) (nOut : Nat) (pk : Bytes) (script : Bytes) (amount : Int) (asset blind assetblind : Bytes) :
    BM Unit := do
  BM.modify fun s => { s with obf := s.obf.set nOut (some blind), oabf := s.oabf.set nOut (some assetblind) }
  let (confAsset, gen) ← BM.lift (blindedAsset C.E.z asset assetblind)
  BM.modifyTx (setOut nOut fun o => { o with nAsset := confAsset })
  let (confValue, commit) ← BM.lift (createValueCommitment C.E.z blind gen amount)
  BM.modifyTx (setOut nOut fun o => { o with nValue := confValue })
  let seed ← BM.rand C.A
  let (nonce, eph) ← BM.lift (outputNonce C.E pk seed)
  let confNonce ← BM.lift (confNew nonceKind eph)
  BM.modifyTx (setOut nOut fun o => { o with nNonce := confNonce })
  let rangeproof ← BM.lift
    (generateRangeproof C.E.z C.A.ctExponent C.A.ctBits blind nonce amount script commit gen asset assetblind)
  let seed ← BM.rand C.A
  match ← BM.lift (surjectionProof C.E.z C.T.targets C.T.gens C.T.blinders assetblind gen asset seed) with
  | none => return
  | some proof =>
    if proof.length = 0 then return
    else do
      BM.modifyTx (setOutWit nOut fun _ => { rangeproof, surjectionproof := proof })
      BM.modify fun s => { s with done := s.done + 1 }

/-- One output with a valid pubkey, core/__init__.py:1615-1732. -/
def outputBlind (C : Ctx) (nOut : Nat) (pk : Bytes) : BM Unit := do
  BM.modify fun s => { s with attempts := s.attempts + 1 }
  let s ← BM.get
  let out := s.tx.vout.getD nOut {}
  let amount ← BM.lift (valueToAmount out.nValue)
  let asset ← BM.lift (assetToAsset out.nAsset)
  BM.modify fun s => { s with amounts := s.amounts ++ [amount] }
  let r ← BM.rand C.A
  let blind ← BM.lift (uint256New r)
  BM.modify fun s => { s with blinds := s.blinds ++ [blind] }
  let r ← BM.rand C.A
  let assetblind ← BM.lift (uint256New r)
  BM.modify fun s => { s with assetblinds := s.assetblinds ++ [assetblind] }
  balanceIfLast C
  let s ← BM.get
  commitOutput C nOut pk out.scriptPubKey amount asset (s.blinds.getLastD []) (s.assetblinds.getLastD [])

/-- One entry of `output_pubkeys`, core/__init__.py:1614-1732. -/
def outputStep (C : Ctx) (nOut : Nat) (pk : Bytes) : BM Unit :=
  if fullyValid C.E.z pk then outputBlind C nOut pk else pure ()

/-- The loop over output pubkeys, core/__init__.py:1614-1732. -/
def outputLoop (C : Ctx) : Nat → List Bytes → BM Unit
  | _, [] => pure ()
  | j, pk :: rest => do
    outputStep C j pk
    outputLoop C (j + 1) rest

/-- Everything from the first change on, core/__init__.py:1504-1734. -/
def blindBody (C : Ctx) (nIn : Nat) : BM Unit := do
  issuanceLoop C 0 nIn
  BM.modifyTx fun tx => { tx with wit := { tx.wit with vtxoutwit := padTo tx.wit.vtxoutwit tx.vout.length {} } }
  outputLoop C 0 C.A.pubkeys
  BM.finish C

/-- State at the start of the blinding loops. -/
def startState (tx : Tx) (c : Counts) : BS :=
  { tx, blinds := c.blinds, assetblinds := c.assetblinds, amounts := c.amounts
    obf := List.replicate tx.vout.length none, oabf := List.replicate tx.vout.length none }

/-- How a run of `BM` ends as a Python call: every run of `blindBody` stops. -/
def endOf : Except Stop Unit → Except PyErr BlindResult
  | .error (.raise e) => .error e
  | .error (.ret r) => .ok r
  | .ok () => .error .runtimeError

/-- `blind_transaction`, core/__init__.py:1184-1734: what is returned or raised, and the
transaction afterwards. -/
def blindTransaction (E : Env) (A : BlindArgs) (tx : Tx) : Except PyErr BlindResult × Tx :=
  match checks E A tx with
  | .error (.raise e) => (.error e, tx)
  | .error (.ret r) => (.ok r, tx)
  | .ok (T, c) =>
    let r := blindBody ⟨E, A, T, c.nBlindsIn, c.nToBlind⟩ tx.vin.length (startState tx c)
    (endOf r.1, r.2.tx)

/-! ### Unblinding -/

/-- `UnblindingSuccess` / `UnblindingFailure`, core/__init__.py:163-186. -/
inductive UnblindResult
  | success (asset : Bytes) (amount : Nat) (blindingFactor assetBlindingFactor : Bytes)
  | failure (msg : String)
  deriving DecidableEq, Repr

/-- `MoneyRange` with the default `MAX_MONEY` (python-bitcointx). -/
def moneyRange (n : Nat) : Bool := n ≤ 2100000000000000

/-- Nonce and committed script, core/__init__.py:2004-2016. -/
def unblindNonce (E : Env) (key confNonce script : Bytes) : Except PyErr (Option (Bytes × Bytes)) :=
  if confNonce.length > 0 then
    if !fullyValid E.z confNonce then .ok none
    else do
      let s ← orRuntime (E.z.ecdh key confNonce)
      return some (E.h.fn s, script)
  else .ok (some (key, []))

/-- The generator of the output, core/__init__.py:2027-2042; without either kind of
asset the buffer keeps its zeros. -/
def observedGen (z : Zkp) (confAsset : Bytes) : Except PyErr (Option Bytes) :=
  if confIsCommitment assetKind confAsset then .ok (z.genParse confAsset)
  else if confIsExplicit assetKind confAsset then do
    let a ← assetToAsset confAsset
    return z.generate a
  else .ok (some (List.replicate 64 0))

/-- Comparing generators and building the result, core/__init__.py:2095-2117. -/
def unblindFinish (z : Zkp) (observed recalculated blind : Bytes) (amount : Nat) (assetType assetBlinder : Bytes) :
    Except PyErr UnblindResult := do
  let o ← orRuntime (z.genSerialize observed)
  let d ← orRuntime (z.genSerialize recalculated)
  if o ≠ d then
    return .failure "generator recalculated after rangeproof rewind does not match generator presented in asset commitment"
  else do
    let bf ← uint256New blind
    let a ← assetNew assetType
    let abf ← uint256New assetBlinder
    return .success a amount bf abf

/-- After the rewind, core/__init__.py:2069-2117. -/
def unblindCheck (z : Zkp) (observed blind : Bytes) (amount : Nat) (msg : Bytes) (msgSize : Nat) :
    Except PyErr UnblindResult :=
  if !moneyRange amount then .ok (.failure "resulting amount after rangeproof rewind is outside MoneyRange")
  else if msgSize ≠ 64 then .ok (.failure "resulting message after rangeproof rewind is not 64 bytes in size")
  else
    match z.generateBlinded (msg.take 32) ((msg.drop 32).take 32) with
    | none => .ok (.failure
      "unable to recalculate a generator from asset type and asset blinder resulted from rangeproof rewind")
    | some recalculated => unblindFinish z observed recalculated blind amount (msg.take 32) ((msg.drop 32).take 32)

/-- With the generator of the output at hand, core/__init__.py:2046-2117. -/
def unblindRewind (z : Zkp) (nonce script confValue rangeproof observed : Bytes) : Except PyErr UnblindResult :=
  match z.commitParse confValue with
  | none => .ok (.failure "cannot parse value commitment as Pedersen commitment")
  | some commit =>
    match z.rangeRewind nonce commit rangeproof (if script.length = 0 then none else some script) observed with
    | none => .ok (.failure "unable to rewind rangeproof")
    | some (blind, amount, msg, msgSize) => unblindCheck z observed blind amount msg msgSize

/-- Texts of lines 2035 and 2042 of core/__init__.py. -/
def noGenerator (confAsset : Bytes) : String :=
  if confIsCommitment assetKind confAsset then "cannot parse asset commitment as a generator"
  else "unable to create a generator out of asset explicit data"

/-- With the nonce at hand, core/__init__.py:2018-2117. -/
def unblindWith (z : Zkp) (nonce script confValue confAsset rangeproof : Bytes) : Except PyErr UnblindResult :=
  if !confIsCommitment valueKind confValue then .ok (.failure "value is not a commitment")
  else do
    match ← observedGen z confAsset with
    | none => return .failure (noGenerator confAsset)
    | some observed => unblindRewind z nonce script confValue rangeproof observed

/-- `unblind_confidential_pair`, core/__init__.py:1978-2117. -/
def unblind (E : Env) (key confValue confAsset confNonce script rangeproof : Bytes) : Except PyErr UnblindResult :=
  if rangeproof.length = 0 then .ok (.failure "rangeproof is empty")
  else do
    match ← unblindNonce E key confNonce script with
    | none => return .failure "nNonce.commitment is not a valid pubkey"
    | some (nonce, script) => unblindWith E.z nonce script confValue confAsset rangeproof

end Verif
