import Verif.Spec.Balance
import Verif.Spec.BlindWire
import Verif.Spec.BlindGoes
/-
How the network checks the amounts of a transaction: `VerifyAmounts` of the Elements node
(confidential_validation.cpp), written down independently of the code in /repo, which has nothing
of the kind.  What the node calls in libsecp256k1-zkp is shared with the blinding code (`Zkp`) or
belongs to verification only (`Verifier`).
-/
namespace Verif

/-- What a field of an output may be: absent, plain, committed to, or none of these. -/
inductive FieldSort
  | null
  | explicit (b : Bytes)
  | commitment
  | invalid
  deriving DecidableEq

/-- `IsNull`, `IsExplicit`, `IsCommitment` of a field with `size` plain bytes and two prefixes for
commitments. -/
def fieldSort (size : Nat) (p q : UInt8) : Bytes → FieldSort
  | [] => .null
  | x :: b =>
    if x = 1 ∧ b.length = size then .explicit b
    else if (x = p ∨ x = q) ∧ b.length = 32 then .commitment
    else .invalid

def valueSort : Bytes → FieldSort := fieldSort 8 8 9
def assetSort : Bytes → FieldSort := fieldSort 32 10 11
def nonceSort : Bytes → FieldSort := fieldSort 32 2 3

/-- `CScript::IsUnspendable` in Elements: empty, OP_RETURN first, or too long. -/
def nodeUnspendable (script : Bytes) : Bool := script == [] || script.head? == some 0x6a || decide (10000 < script.length)

/-- The part of the library that only verifies. -/
structure Verifier where
  /-- `secp256k1_rangeproof_verify`: commitment, proof, extra commit, generator; gives the least
  amount the proof allows -/
  rangeVerify : Bytes → Bytes → Option Bytes → Bytes → Option Nat
  /-- `secp256k1_surjectionproof_parse` -/
  surjParse : Bytes → Option Bytes
  /-- `secp256k1_pedersen_verify_tally` -/
  tally : List Bytes → List Bytes → Bool
  /-- longest rangeproof of an output that is looked at -/
  proofLimit : Nat

section
variable (z : Zkp) (N : Verifier)

/-- The generator of an asset field. -/
def assetGen (c : Bytes) : Option Bytes :=
  match assetSort c with
  | .explicit a => z.generate a
  | .commitment => z.genParse c
  | _ => none

/-- The commitment a spent amount stands for. -/
def spentCom (gen c : Bytes) : Option Bytes :=
  match valueSort c with
  | .explicit v => if 0 < beVal v ∧ beVal v ≤ maxMoney then z.commit zero32 (beVal v) gen else none
  | .commitment => z.commitParse c
  | _ => none

/-- `CRangeCheck`: zero amounts are allowed only where nothing can be spent. -/
def rangeCheck (value asset proof script : Bytes) : Bool :=
  !proof.isEmpty &&
    match z.commitParse value, z.genParse asset with
    | some c, some g =>
      match N.rangeVerify c proof (if script = [] then none else some script) g with
      | some m => m != 0 || nodeUnspendable script
      | none => false
    | _, _ => false

/-- `VerifyIssuanceAmount`: generator and commitment of an issued amount. -/
def issuedCom (id value proof : Bytes) : Option (Bytes × Bytes) :=
  match z.generate id with
  | none => none
  | some g =>
    match valueSort value with
    | .explicit v =>
      if 0 < beVal v ∧ beVal v ≤ maxMoney ∧ proof = [] then (z.commit zero32 (beVal v) g).map fun c => (g, c) else none
    | .commitment =>
      match z.genSerialize g with
      | some s => if rangeCheck z N value s proof [] then (z.commitParse value).map fun c => (g, c) else none
      | none => none
    | _ => none

/-- An issued amount that is there needs the witness of the input. -/
def issuedList (id value : Bytes) (proof : Option Bytes) : Option (List (Bytes × Bytes)) :=
  if value = [] then some []
  else
    match proof with
    | none => none
    | some p => (issuedCom z N id value p).map fun x => [x]

/-- What an output adds to the right side: a commitment, or nothing if it is zero and cannot be
spent. -/
def outputCom (o : TxOut) : Option (List Bytes) :=
  if nonceSort o.nNonce = .invalid then none
  else
    match assetGen z o.nAsset with
    | none => none
    | some g =>
      match valueSort o.nValue with
      | .explicit v =>
        if maxMoney < beVal v then none
        else if beVal v = 0 then if nodeUnspendable o.scriptPubKey then some [] else none
        else (z.commit zero32 (beVal v) g).map fun c => [c]
      | .commitment => (z.commitParse o.nValue).map fun c => [c]
      | _ => none

/-- The rangeproof of an output: none for a plain amount. -/
def outputRange (o : TxOut) (w : Option TxOutWitness) : Bool :=
  match valueSort o.nValue with
  | .explicit _ =>
    match w with
    | none => true
    | some w => w.rangeproof.isEmpty
  | _ =>
    let asset := match assetSort o.nAsset with
      | .explicit a => (z.generate a).bind z.genSerialize
      | _ => some o.nAsset
    match w, asset with
    | some w, some a => decide (w.rangeproof.length ≤ N.proofLimit) && rangeCheck z N o.nValue a w.rangeproof o.scriptPubKey
    | _, _ => false

/-- The surjection proof of an output with respect to the generators of all inputs: none for a
plain asset. -/
def outputSurjection (gens : List Bytes) (o : TxOut) (w : Option TxOutWitness) : Bool :=
  match assetSort o.nAsset with
  | .explicit _ =>
    match w with
    | none => true
    | some w => w.surjectionproof.isEmpty
  | _ =>
    match w, z.genParse o.nAsset with
    | some w, some g =>
      match N.surjParse w.surjectionproof with
      | some h => z.surjVerify h gens.flatten gens.length g
      | none => false
    | _, _ => false

end

/-- What an input adds to the left side, with generators: the spent output, what is issued, and
the tokens issued, which only a new issuance may do. -/
def inputComs (E : Env) (N : Verifier) (spent : TxOut) (t : TxIn) (w : Option TxInWitness) : Option (List (Bytes × Bytes)) :=
  match assetGen E.z spent.nAsset with
  | none => none
  | some g =>
    match spentCom E.z g spent.nValue with
    | none => none
    | some c =>
      match issuedList E.z N (assetId E t) t.assetIssuance.nAmount (w.map TxInWitness.issuanceAmountRangeproof) with
      | none => none
      | some l1 =>
        if t.assetIssuance.nInflationKeys ≠ [] ∧ ¬ AllZero t.assetIssuance.assetBlindingNonce then none
        else
          match issuedList E.z N (tokenId E t.confidential t) t.assetIssuance.nInflationKeys
            (w.map TxInWitness.inflationKeysRangeproof) with
          | none => none
          | some l2 => some ((g, c) :: (l1 ++ l2))

/-- `VerifyAmounts`: `spent` are the outputs the inputs spend. -/
def verifyAmounts (E : Env) (N : Verifier) (spent : List TxOut) (t : Tx) : Bool :=
  let ins := fun i => inputComs E N (spent.getD i {}) (t.vin.getD i default) t.wit.vtxinwit[i]?
  let outs := fun j => outputCom E.z (t.vout.getD j {})
  let left := (List.range t.vin.length).flatMap fun i => (ins i).getD []
  let right := (List.range t.vout.length).flatMap fun j => (outs j).getD []
  spent.length == t.vin.length &&
  (List.range t.vin.length).all (fun i => (ins i).isSome) &&
  (List.range t.vout.length).all (fun j => (outs j).isSome) &&
  N.tally (left.map Prod.snd) right &&
  (List.range t.vout.length).all (fun j => outputRange E.z N (t.vout.getD j {}) t.wit.vtxoutwit[j]?) &&
  (List.range t.vout.length).all (fun j => outputSurjection E.z N (left.map Prod.fst) (t.vout.getD j {}) t.wit.vtxoutwit[j]?)

/-- What the library promises a verifier about what it made. -/
structure Verifier.Keeps (N : Verifier) {z : Zkp} {M : Type} [AddCommGroup M] [Module Scalar M] (P : Pedersen z M) : Prop where
  /-- every 32 bytes are an asset, whose generator can be written -/
  generates : ∀ a, a.length = 32 → ∃ g s, z.generate a = some g ∧ z.genSerialize g = some s
  /-- blinding by nothing does nothing -/
  plain : ∀ a, z.generateBlinded a zero32 = z.generate a
  /-- a non-zero amount can be committed to without a factor -/
  commits : ∀ a r g v, z.generateBlinded a r = some g → 0 < v → v ≤ maxMoney → ∃ c, z.commit zero32 v g = some c
  /-- what is written can be read back -/
  genBack : ∀ a r g s, z.generateBlinded a r = some g → z.genSerialize g = some s → z.genParse s = some g
  comBack : ∀ b v g c s, z.commit b v g = some c → z.commitSerialize c = some s → z.commitParse s = some c
  /-- a rangeproof made for a commitment with its opening passes, and keeps its lower bound away from zero -/
  range : ∀ a p, z.rangeSign a = some p → a.message.length = 64 → a.blind.length = 32 → a.value < 2 ^ 64 →
    z.commit a.blind a.value a.gen = some a.commit →
    ∃ m, N.rangeVerify a.commit p a.extraCommit a.gen = some m ∧ (0 < a.minValue → 0 < m)
  /-- 52 bits make no proof that is too long -/
  small : ∀ a p, z.rangeSign a = some p → a.bits ≤ 52 → a.value ≤ maxMoney → p.length ≤ N.proofLimit
  /-- a surjection proof read back verifies as before -/
  surjection : ∀ h s, z.surjSerialize h = some s → ∃ h', N.surjParse s = some h' ∧
    ∀ gens n g, z.surjVerify h gens n g = true → z.surjVerify h' gens n g = true
  /-- the sums of commitments are compared -/
  tally : ∀ l r, (∀ c ∈ l ++ r, ∃ b v g, z.commit b v g = some c) →
    (N.tally l r = true ↔ (l.map P.comPt).sum = (r.map P.comPt).sum)

/-- The descriptor opens the spent output. -/
structure SpentAs (z : Zkp) (o : TxOut) (d : Desc) : Prop where
  opened : ∃ g, z.generateBlinded d.asset d.assetBlindingFactor = some g ∧
    ((∃ a, o.nAsset = 1 :: a ∧ a.length = 32 ∧ z.generate a = some g) ∨ z.genSerialize g = some o.nAsset) ∧
    ((∃ v, o.nValue = 1 :: v ∧ v.length = 8 ∧ d.blindingFactor = zero32 ∧ d.amount = beVal v ∧ 0 < beVal v ∧ beVal v ≤ maxMoney) ∨
      (∃ c, z.commit d.blindingFactor d.amount.toNat g = some c ∧ z.commitSerialize c = some o.nValue))

/-- An output the network accepts as it is, as far as it is not hidden: not zero unless nobody can spend
it, and without proofs. -/
def PlainFine (t : Tx) (j : Nat) : Prop :=
  (0 < amountOf (t.vout.getD j {}).nValue ∨ Unspendable (t.vout.getD j {}).scriptPubKey) ∧
    nonceSort (t.vout.getD j {}).nNonce ≠ .invalid ∧ t.outWit j = {}

/-- A transaction that is to be blinded, and the arguments, as the network can accept it: the
descriptors open what is spent, amounts are in range, tokens are issued only by new issuances and
with both keys or none, and what is not to be blinded is plain and carries no proofs. -/
structure Ready (E : Env) (A : BlindArgs) (spent : List TxOut) (t : Tx) : Prop where
  spent : List.Forall₂ (SpentAs E.z) spent A.descs
  /-- no input of somebody else, no auxiliary generators beyond the inputs -/
  own : ∀ d ∈ A.descs, ¬ AllZero d.asset
  aux : A.auxGens.length ≤ t.vin.length
  bits : A.ctBits.getD 52 ≤ 52
  issued : ∀ (i : Nat) (token : Bool), i < t.vin.length → (t.vin.getD i default).issued token ≠ [] →
    IsExplicitValue ((t.vin.getD i default).issued token) ∧ amountOf ((t.vin.getD i default).issued token) ≤ maxMoney ∧
    (A.issuanceKey i token = none → 0 < amountOf ((t.vin.getD i default).issued token) ∧ (t.inWit i).issuedProof token = [])
  tokens : ∀ i, i < t.vin.length → (t.vin.getD i default).assetIssuance.nInflationKeys ≠ [] →
    AllZero (t.vin.getD i default).assetIssuance.assetBlindingNonce ∧
    (A.issuanceKey i false).isSome = (A.issuanceKey i true).isSome
  outputs : ∀ j, j < t.vout.length → IsExplicitValue (t.vout.getD j {}).nValue ∧ IsExplicitAsset (t.vout.getD j {}).nAsset ∧
    amountOf (t.vout.getD j {}).nValue ≤ maxMoney ∧
    (A.pubkeys.getD j [] = [] → PlainFine t j)

end Verif
