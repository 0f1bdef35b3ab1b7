import Verif.Spec.Surjection
import Verif.Spec.TargetsCoded
import Verif.Spec.Buffers
/-
When blinding has to succeed: what the library does for usable secrets, and what a request that makes
sense looks like.
-/
namespace Verif

/-- Amounts there can be of an asset. -/
def maxMoney : Nat := 21 * 10 ^ 14

/-- A library that works: it does not fail for arguments within its limits.  `Good` and `Asset` are the
secrets and the assets in play; no library works for all of them, as for every asset there is a factor that
takes its generator to infinity.  `exp` and `bits` are the parameters of rangeproofs. -/
structure Works (z : Zkp) (Good Asset : Bytes → Prop) (exp bits : Int) : Prop where
  secret : ∀ b, Good b → b.length = 32 ∧ ¬ AllZero b
  generator : ∀ a r, a.length = 32 → (Asset a ∧ Good r) ∨ r = List.replicate 32 0 →
    ∃ g s, z.generateBlinded a r = some g ∧ z.genSerialize g = some s
  commitment : ∀ a r g b v, z.generateBlinded a r = some g → (Asset a ∧ Good r) ∨ r = List.replicate 32 0 → Good b →
    v ≤ maxMoney → ∃ c s, z.commit b v g = some c ∧ z.commitSerialize c = some s
  key : ∀ k, Good k → z.secValid k = true ∧ (z.pubOf k).length = 33
  agree : ∀ k pk, Good k → z.pubValid pk = true → ∃ s, z.ecdh k pk = some s
  /-- an amount that is not below the announced minimum, with 64 bytes of message -/
  range : ∀ a : RangeproofArgs, a.exp = exp → a.bits = bits → a.minValue ≤ 1 → a.minValue ≤ a.value → a.value ≤ maxMoney →
    Good a.blind → a.nonce.length = 32 → a.message.length = 64 → z.commit a.blind a.value a.gen = some a.commit →
    ∃ p, z.rangeSign a = some p
  /-- once a target was selected, which has the asset, a proof can be made if its factor is known and
  another one than that of the output -/
  surjection : ∀ (L : List Target) asset r gen seed h i, (∀ t ∈ L, t.asset.length = 32 ∧ t.gen.length = 64) →
    z.surjInit (L.map Target.asset).flatten L.length (min 3 L.length) asset 100 seed = some (h, i) → Asset asset → Good r →
    z.generateBlinded asset r = some gen →
    ∃ t, L[i]? = some t ∧ t.asset = asset ∧ (KnownTarget z t → t.blinder ≠ r →
      ∃ h' p, z.surjGenerate h (L.map Target.gen).flatten L.length gen i t.blinder r = some h' ∧
        z.surjVerify h' (L.map Target.gen).flatten L.length gen = true ∧ z.surjSerialize h' = some p ∧ p ≠ [])

/-- Issued amounts and numbers of tokens that are to be blinded, in order. -/
def issuancesAsked (A : BlindArgs) (tx : Tx) : List (Nat × Bool) :=
  ((List.range tx.vin.length).flatMap fun i => [(i, false), (i, true)]).filter fun x => (A.issuanceKey x.1 x.2).isSome

/-- Indices of outputs that are to be blinded, in order. -/
def outputsAsked (A : BlindArgs) : List Nat := (A.pubkeys.zipIdx.filter fun x => x.1 ≠ []).map Prod.snd

/-- The number an explicit amount stands for. -/
def plainAmount (c : Bytes) : Nat := beVal (c.drop 1)

/-- All amounts that take part: of blinded inputs, issued ones, of outputs. -/
def sumAmounts (A : BlindArgs) (tx : Tx) : List Nat :=
  (A.descs.filter Desc.blinded).map (fun d => d.amount.toNat)
    ++ (issuancesAsked A tx).map (fun x => plainAmount ((tx.vin.getD x.1 default).issued x.2))
    ++ (outputsAsked A).map fun j => plainAmount (tx.vout.getD j {}).nValue

/-- Their asset blinding factors.  Issuances have none and take one random string each, an output takes
four, the second of which is this factor. -/
def sumAssetFactors (A : BlindArgs) (tx : Tx) : List Bytes :=
  (A.descs.filter Desc.blinded).map Desc.assetBlindingFactor
    ++ List.replicate (issuancesAsked A tx).length (List.replicate 32 0)
    ++ (List.range (outputsAsked A).length).map fun k => A.rand ((issuancesAsked A tx).length + 4 * k + 1)

/-- Their blinding factors, the last of which will be replaced. -/
def sumFactors (A : BlindArgs) (tx : Tx) : List Bytes :=
  (A.descs.filter Desc.blinded).map Desc.blindingFactor
    ++ (List.range (issuancesAsked A tx).length).map A.rand
    ++ (List.range (outputsAsked A).length).map fun k => A.rand ((issuancesAsked A tx).length + 4 * k)

/-- A request that makes sense. -/
structure Sensible (E : Env) (Good Asset : Bytes → Prop) (A : BlindArgs) (tx : Tx) : Prop where
  lengths : LengthsFine A tx
  sizes : ∀ txin ∈ tx.vin, InputSizes txin
  descs : ∀ d ∈ A.descs, DescSizes d ∧ d.amount ≤ maxMoney
  inputs : ∀ i txin d, tx.vin[i]? = some txin → A.descs[i]? = some d → InputFine A tx.wit.vtxinwit i txin d
  /-- issued amounts to be blinded are there, and tokens are not reissued ones -/
  issuances : ∀ i txin token key, tx.vin[i]? = some txin → A.issuanceKey i token = some key → key.length = 32 ∧
    (∃ v, txin.issued token = 1 :: v ∧ v.length = 8 ∧ beVal v ≤ maxMoney) ∧
    (token = true → AllZero txin.assetIssuance.assetBlindingNonce)
  /-- outputs to be blinded are explicit, without witness, not fees, not of amount zero unless unspendable -/
  outputs : ∀ j pk, A.pubkeys[j]? = some pk → pk ≠ [] → Blindable E.z tx j pk ∧
    plainAmount (tx.vout.getD j {}).nValue ≤ maxMoney ∧
    (¬ Unspendable (tx.vout.getD j {}).scriptPubKey → 1 ≤ plainAmount (tx.vout.getD j {}).nValue)
  /-- their assets come from somewhere, and a target for them is selected -/
  assets : ∃ L, IsCodedTargets E A tx L ∧ ∀ k j, (outputsAsked A)[k]? = some j →
    ∃ a h i, (tx.vout.getD j {}).nAsset = 1 :: a ∧ Asset a ∧ ¬ AllZero a ∧
      E.z.surjInit (L.map Target.asset).flatten L.length (min 3 L.length) a 100
        (A.rand ((issuancesAsked A tx).length + 4 * k + 3)) = some (h, i)
  /-- secrets are usable, and not those of the inputs -/
  random : ∀ k, Good (A.rand k) ∧ ∀ d ∈ A.descs, d.assetBlindingFactor ≠ A.rand k
  /-- an output is there to take up the difference of the factors -/
  output : outputsAsked A ≠ []
  notAlone : (issuancesAsked A tx).length + (outputsAsked A).length = 1 → ∃ d ∈ A.descs, d.blinded = true
  /-- which is usable too -/
  balance : ∃ b, E.z.blindSum (sumAmounts A tx) (sumAssetFactors A tx) (sumFactors A tx) (sumAmounts A tx).length
      ((sumAmounts A tx).length - (outputsAsked A).length) = some b ∧ Good b

end Verif
