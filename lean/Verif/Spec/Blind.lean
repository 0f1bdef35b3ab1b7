import Verif.Blind
/-
What blinding is supposed to do to a transaction.
-/
namespace Verif

/-- The parts of an input that blinding never concerns. -/
def TxIn.fixed (i : TxIn) : OutPoint × Bytes × Nat × Bool × Bytes × Bytes :=
  (i.prevout, i.scriptSig, i.nSequence, i.isPegin, i.assetIssuance.assetBlindingNonce, i.assetIssuance.assetEntropy)

/-- The witness of input `i`; a missing one counts as empty. -/
def Tx.inWit (t : Tx) (i : Nat) : TxInWitness := (t.wit.vtxinwit[i]?).getD {}
/-- The witness of output `j`; a missing one counts as empty. -/
def Tx.outWit (t : Tx) (j : Nat) : TxOutWitness := (t.wit.vtxoutwit[j]?).getD {}

/-- `t'` differs from `t` only where the arguments ask for blinding. -/
structure OnlyAsked (A : BlindArgs) (t t' : Tx) : Prop where
  version : t'.nVersion = t.nVersion
  lockTime : t'.nLockTime = t.nLockTime
  /-- same inputs in the same order up to issuance amounts -/
  inputs : t'.vin.map TxIn.fixed = t.vin.map TxIn.fixed
  /-- no asset key: the issued amount stays -/
  amount : ∀ i : Nat, (∀ k, A.assetKeys[i]? ≠ some (some k)) →
    t'.vin[i]?.map (fun x : TxIn => x.assetIssuance.nAmount) = t.vin[i]?.map (fun x : TxIn => x.assetIssuance.nAmount)
  /-- no token key: the number of tokens stays -/
  tokens : ∀ i : Nat, (∀ k, A.tokenKeys[i]? ≠ some (some k)) →
    t'.vin[i]?.map (fun x : TxIn => x.assetIssuance.nInflationKeys) = t.vin[i]?.map (fun x : TxIn => x.assetIssuance.nInflationKeys)
  /-- same outputs in the same order up to amounts, assets and nonces -/
  scripts : t'.vout.map TxOut.scriptPubKey = t.vout.map TxOut.scriptPubKey
  /-- no pubkey: the output stays -/
  outputs : ∀ j : Nat, A.pubkeys.getD j [] = [] → t'.vout[j]? = t.vout[j]?
  scriptWitness : ∀ i : Nat, (t'.inWit i).scriptWitness = (t.inWit i).scriptWitness
  peginWitness : ∀ i : Nat, (t'.inWit i).peginWitness = (t.inWit i).peginWitness
  amountProof : ∀ i : Nat, (∀ k, A.assetKeys[i]? ≠ some (some k)) →
    (t'.inWit i).issuanceAmountRangeproof = (t.inWit i).issuanceAmountRangeproof
  tokensProof : ∀ i : Nat, (∀ k, A.tokenKeys[i]? ≠ some (some k)) →
    (t'.inWit i).inflationKeysRangeproof = (t.inWit i).inflationKeysRangeproof
  outputWitness : ∀ j : Nat, A.pubkeys.getD j [] = [] → t'.outWit j = t.outWit j

theorem OnlyAsked.refl (A : BlindArgs) (t : Tx) : OnlyAsked A t t :=
  ⟨rfl, rfl, rfl, fun _ _ => rfl, fun _ _ => rfl, rfl, fun _ _ => rfl, fun _ => rfl, fun _ => rfl,
    fun _ _ => rfl, fun _ _ => rfl, fun _ _ => rfl⟩

theorem OnlyAsked.trans {A : BlindArgs} {t1 t2 t3 : Tx} (h : OnlyAsked A t1 t2) (g : OnlyAsked A t2 t3) :
    OnlyAsked A t1 t3 :=
  ⟨g.version.trans h.version, g.lockTime.trans h.lockTime, g.inputs.trans h.inputs,
    fun i hi => (g.amount i hi).trans (h.amount i hi), fun i hi => (g.tokens i hi).trans (h.tokens i hi),
    g.scripts.trans h.scripts, fun j hj => (g.outputs j hj).trans (h.outputs j hj),
    fun i => (g.scriptWitness i).trans (h.scriptWitness i), fun i => (g.peginWitness i).trans (h.peginWitness i),
    fun i hi => (g.amountProof i hi).trans (h.amountProof i hi),
    fun i hi => (g.tokensProof i hi).trans (h.tokensProof i hi),
    fun j hj => (g.outputWitness j hj).trans (h.outputWitness j hj)⟩

/-- Outputs asked to be blinded: those with a non-empty pubkey. -/
def askedOutputs (A : BlindArgs) : Nat := (A.pubkeys.filter (· ≠ [])).length

/-- Issued amounts (or tokens) asked to be blinded: inputs that issue something and have a
key. -/
def askedIssuances (keys : List (Option Bytes)) (vin : List TxIn) (from_ : Nat := 0) : Nat :=
  ((vin.zipIdx from_).filter fun x => !x.1.assetIssuance.isNull && (keys.getD x.2 none).isSome).length

/-- Everything asked to be blinded. -/
def asked (A : BlindArgs) (tx : Tx) : Nat :=
  askedOutputs A + askedIssuances A.assetKeys tx.vin + askedIssuances A.tokenKeys tx.vin

/-- Explicit amount: marker 1 and eight bytes. -/
def IsExplicitValue (c : Bytes) : Prop := ∃ b, c = 1 :: b ∧ b.length = 8
/-- Explicit asset: marker 1 and 32 bytes. -/
def IsExplicitAsset (c : Bytes) : Prop := ∃ b, c = 1 :: b ∧ b.length = 32
/-- Value commitment: 33 bytes, the first of which is 8 or 9. -/
def IsValueCommitment (c : Bytes) : Prop := ∃ b, (c = 8 :: b ∨ c = 9 :: b) ∧ b.length = 32
/-- Asset commitment: 33 bytes, the first of which is 10 or 11. -/
def IsAssetCommitment (c : Bytes) : Prop := ∃ b, (c = 10 :: b ∨ c = 11 :: b) ∧ b.length = 32

/-- Output `j` can be blinded to `pk`. -/
structure Blindable (z : Zkp) (tx : Tx) (j : Nat) (pk : Bytes) : Prop where
  pubkey : z.pubValid pk = true
  value : IsExplicitValue (tx.vout.getD j {}).nValue
  asset : IsExplicitAsset (tx.vout.getD j {}).nAsset
  noWitness : tx.outWit j = {}
  /-- not a fee output -/
  script : (tx.vout.getD j {}).scriptPubKey ≠ []

/-- The descriptor of an input whose blinding factors take part in balancing. -/
def Desc.blinded (d : Desc) : Bool := d.blindingFactor.any (· ≠ 0) || d.assetBlindingFactor.any (· ≠ 0)

/-- Input `i` with its descriptor is acceptable. -/
structure InputFine (A : BlindArgs) (wit : List TxInWitness) (i : Nat) (txin : TxIn) (d : Desc) : Prop where
  amount : d.blinded = true → 0 ≤ d.amount
  assetKey : ∀ k, txin.assetIssuance.isNull = false → A.assetKeys[i]? = some (some k) →
    IsExplicitValue txin.assetIssuance.nAmount ∧ ((wit[i]?).getD {}).issuanceAmountRangeproof = []
  tokenKey : ∀ k, txin.assetIssuance.isNull = false → A.tokenKeys[i]? = some (some k) →
    IsExplicitValue txin.assetIssuance.nInflationKeys ∧ ((wit[i]?).getD {}).inflationKeysRangeproof = []

/-- Argument lists of acceptable lengths. -/
structure LengthsFine (A : BlindArgs) (tx : Tx) : Prop where
  pubkeys : A.pubkeys.length ≤ tx.vout.length
  assetKeys : A.assetKeys.length ≤ tx.vin.length
  tokenKeys : A.tokenKeys.length ≤ tx.vin.length
  descs : A.descs.length = tx.vin.length
  aux : A.auxGens ≠ [] → tx.vin.length ≤ A.auxGens.length ∧ ∀ g ∈ A.auxGens, g.length = 33

end Verif
