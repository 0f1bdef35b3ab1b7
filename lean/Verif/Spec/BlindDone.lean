import Verif.Spec.Targets
/-
What a successfully blinded transaction looks like.
-/
namespace Verif

/-- `o'` hides amount and asset of `o` under the factors `bf` and `abf`. -/
structure HiddenBy (z : Zkp) (o o' : TxOut) (bf abf : Bytes) (asset v gen com : Bytes) : Prop where
  /-- amount and asset were explicit -/
  explicitAsset : o.nAsset = 1 :: asset
  asset_len : asset.length = 32
  explicitValue : o.nValue = 1 :: v
  value_len : v.length = 8
  /-- the asset commitment -/
  generator : z.generateBlinded asset abf = some gen
  nAsset : z.genSerialize gen = some o'.nAsset
  /-- the amount commitment -/
  commitment : z.commit bf (beVal v) gen = some com
  nValue : z.commitSerialize com = some o'.nValue
  /-- factors are 32 bytes -/
  bf_len : bf.length = 32
  abf_len : abf.length = 32

/-- Scripts that can never be spent: empty, or starting with OP_RETURN. -/
def Unspendable (script : Bytes) : Prop := script = [] ∨ script.head? = some 0x6a

instance (s : Bytes) : Decidable (Unspendable s) := inferInstanceAs (Decidable (_ ∨ _))

/-- What the rangeproof of an amount hidden under `bf` claims and carries. -/
structure ProofOf (A : BlindArgs) (script asset v gen com bf abf nonce : Bytes) (a : RangeproofArgs) : Prop where
  minValue : a.minValue = if Unspendable script then 0 else 1
  commit_eq : a.commit = com
  blind_eq : a.blind = bf
  nonce_eq : a.nonce = nonce
  exp_eq : a.exp = A.ctExponent.getD 0
  bits_eq : a.bits = A.ctBits.getD 52
  value_eq : a.value = beVal v
  /-- asset and asset blinding factor travel in the proof -/
  message_eq : a.message = asset ++ abf
  /-- the script is committed to -/
  extra_eq : a.extraCommit = if script = [] then none else some script
  gen_eq : a.gen = gen

/-- Output `j` went from explicit to hidden, with all proofs. -/
structure Blinded (E : Env) (A : BlindArgs) (t t' : Tx) (j : Nat) (bf abf : Bytes) : Prop where
  /-- a commitment to the amount -/
  committed : IsValueCommitment (t'.vout.getD j {}).nValue
  hidden : ∃ asset v gen com seed x a p, HiddenBy E.z (t.vout.getD j {}) (t'.vout.getD j {}) bf abf asset v gen com ∧
    /- the nonce of the output is an ephemeral key, the secret shared with the recipient goes into the proof -/
    E.z.secValid seed = true ∧ (t'.vout.getD j {}).nNonce = E.z.pubOf seed ∧ (E.z.pubOf seed).length = 33 ∧
    E.z.ecdh seed (A.pubkeys.getD j []) = some x ∧
    ProofOf A (t.vout.getD j {}).scriptPubKey asset v gen com bf abf (E.h.fn x) a ∧
    E.z.rangeSign a = some p ∧ (t'.outWit j).rangeproof = p
  surjection : (t'.outWit j).surjectionproof ≠ []

/-- Output `j` stayed as it was, with its witness. -/
def Untouched (t t' : Tx) (j : Nat) : Prop := t'.vout[j]? = t.vout[j]? ∧ t'.outWit j = t.outWit j

/-- The issued amount, or the number of tokens, of an input. -/
def TxIn.issued (t : TxIn) (token : Bool) : Bytes :=
  match token with
  | false => t.assetIssuance.nAmount
  | true => t.assetIssuance.nInflationKeys

/-- The proof for it. -/
def TxInWitness.issuedProof (w : TxInWitness) (token : Bool) : Bytes :=
  match token with
  | false => w.issuanceAmountRangeproof
  | true => w.inflationKeysRangeproof

/-- The id of what is issued. -/
def pseudoId (E : Env) (txin : TxIn) (token : Bool) : Bytes :=
  match token with
  | false => assetId E txin
  | true => tokenId E true txin

/-- The key given for blinding it. -/
def BlindArgs.issuanceKey (A : BlindArgs) (i : Nat) (token : Bool) : Option Bytes :=
  match token with
  | false => A.assetKeys.getD i none
  | true => A.tokenKeys.getD i none

/-- An issued amount went from explicit to hidden, with its proof.  Its asset stays public. -/
structure IssuanceBlinded (E : Env) (A : BlindArgs) (t t' : Tx) (i : Nat) (token : Bool) (key : Bytes) : Prop where
  committed : IsValueCommitment ((t'.vin.getD i default).issued token)
  hidden : ∃ v gen com bf a p, (t.vin.getD i default).issued token = 1 :: v ∧ v.length = 8 ∧ bf.length = 32 ∧
    E.z.generateBlinded (pseudoId E (t.vin.getD i default) token) (List.replicate 32 0) = some gen ∧
    E.z.commit bf (beVal v) gen = some com ∧ E.z.commitSerialize com = some ((t'.vin.getD i default).issued token) ∧
    ProofOf A [] (pseudoId E (t.vin.getD i default) token) v gen com bf (List.replicate 32 0) key a ∧
    E.z.rangeSign a = some p ∧ (t'.inWit i).issuedProof token = p

/-- Output `j` is the last one to be blinded. -/
def LastAsked (A : BlindArgs) (j : Nat) : Prop :=
  A.pubkeys.getD j [] ≠ [] ∧ ∀ k, j < k → A.pubkeys.getD k [] = []

end Verif
