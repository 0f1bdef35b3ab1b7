import Verif.Spec.Blind
/-
The assets a blinded output may be derived from.
-/
namespace Verif

/-- An asset with its generator and the factor that blinds the generator. -/
structure Target where
  asset : Bytes
  gen : Bytes
  blinder : Bytes
  deriving DecidableEq, Repr

/-- All bytes are zero. -/
def AllZero (b : Bytes) : Prop := ∀ x ∈ b, x = 0

instance (b : Bytes) : Decidable (AllZero b) := inferInstanceAs (Decidable (∀ x ∈ b, x = 0))

/-- Entropy of the issuance of an input: hashed from the outpoint and the contract hash for a
new issuance, given for a reissuance. -/
def issuanceEntropy (E : Env) (txin : TxIn) : Bytes :=
  if AllZero txin.assetIssuance.assetBlindingNonce then
    E.m.fn (E.h.fn (E.h.fn (txin.prevout.hash ++ leBytes 4 txin.prevout.n)) ++ txin.assetIssuance.assetEntropy)
  else txin.assetIssuance.assetEntropy

/-- The asset issued. -/
def assetId (E : Env) (txin : TxIn) : Bytes := E.m.fn (issuanceEntropy E txin ++ List.replicate 32 0)
/-- The token issued. -/
def tokenId (E : Env) (confidential : Bool) (txin : TxIn) : Bytes :=
  E.m.fn (issuanceEntropy E txin ++ (if confidential then 2 else 1) :: List.replicate 31 0)

/-- The asset spent by input `i`. -/
inductive SpentTarget (z : Zkp) (A : BlindArgs) (i : Nat) (d : Desc) : Target → Prop
  | own (g : Bytes) : ¬ AllZero d.asset → z.generateBlinded d.asset d.assetBlindingFactor = some g →
      SpentTarget z A i d ⟨d.asset, g, d.assetBlindingFactor⟩
  | foreign (ag g : Bytes) : AllZero d.asset → A.auxGens[i]? = some ag → z.genParse ag = some g →
      SpentTarget z A i d ⟨d.asset, g, d.assetBlindingFactor⟩

/-- The asset `id`, unblinded, if `amount` of it is issued. -/
inductive IssuedTarget (z : Zkp) (id amount : Bytes) : List Target → Prop
  | none : amount = [] → IssuedTarget z id amount []
  | some (g : Bytes) : amount ≠ [] → z.generate id = some g → IssuedTarget z id amount [⟨id, g, List.replicate 32 0⟩]

/-- The targets of input `i`: what it spends, the asset it issues and the token it issues, which
is a confidential one if the token amount is to be blinded. -/
structure InputTargets (E : Env) (A : BlindArgs) (i : Nat) (txin : TxIn) (d : Desc) (l : List Target) : Prop where
  parts : ∃ t l1 l2, l = t :: (l1 ++ l2) ∧ SpentTarget E.z A i d t ∧
    IssuedTarget E.z (assetId E txin) txin.assetIssuance.nAmount l1 ∧
    IssuedTarget E.z (tokenId E (A.tokenKeys.getD i none).isSome txin) txin.assetIssuance.nInflationKeys l2
  /-- issued amounts are not blinded yet -/
  amount : ¬ IsValueCommitment txin.assetIssuance.nAmount
  keys : ¬ IsValueCommitment txin.assetIssuance.nInflationKeys
  /-- a token id of zeros is refused -/
  token : txin.assetIssuance.nInflationKeys ≠ [] → ¬ AllZero (tokenId E (A.tokenKeys.getD i none).isSome txin)

inductive TargetsFrom (E : Env) (A : BlindArgs) : Nat → List (TxIn × Desc) → List Target → Prop
  | nil (i : Nat) : TargetsFrom E A i [] []
  | cons {i txin d r l L} : InputTargets E A i txin d l → TargetsFrom E A (i + 1) r L →
      TargetsFrom E A i ((txin, d) :: r) (l ++ L)

/-- Generators of which nothing else is known. -/
inductive AuxTargets (z : Zkp) : List Bytes → List Target → Prop
  | nil : AuxTargets z [] []
  | cons {ag g r L} : z.genParse ag = some g → AuxTargets z r L →
      AuxTargets z (ag :: r) (⟨List.replicate 32 0, g, List.replicate 32 0⟩ :: L)

/-- Input by input, then the auxiliary generators beyond the inputs. -/
def IsTargets (E : Env) (A : BlindArgs) (tx : Tx) (L : List Target) : Prop :=
  ∃ L1 L2, TargetsFrom E A 0 (tx.vin.zip A.descs) L1 ∧ AuxTargets E.z (A.auxGens.drop tx.vin.length) L2 ∧ L = L1 ++ L2

/-- Inputs with fields of the right sizes. -/
structure InputSizes (txin : TxIn) : Prop where
  hash : txin.prevout.hash.length = 32
  index : txin.prevout.n < 2 ^ 32
  entropy : txin.assetIssuance.assetEntropy.length = 32

end Verif
