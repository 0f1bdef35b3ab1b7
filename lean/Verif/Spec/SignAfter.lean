import Verif.Spec.Blind
import Verif.Spec.SighashBase
import Verif.Spec.SighashTap
/-
Signatures and blinding: what a signature covers, and what blinding was asked to hide.
-/
namespace Verif.Spec

/-- A signature of input `idx` with hash type `ht` covers output `j`. -/
def CoversOut (ht idx j : Nat) : Prop := OutAll ht ∨ OutSingle ht ∧ j = idx
/-- ... and the issuance of input `i`. -/
def CoversIn (ht idx i : Nat) : Prop := ¬ AnyoneCanPay ht ∨ i = idx

/-- Nothing that the signature covers is to be hidden. -/
structure Spares (A : BlindArgs) (ht idx : Nat) : Prop where
  outputs : ∀ j, CoversOut ht idx j → A.pubkeys.getD j [] = []
  amounts : ∀ i, CoversIn ht idx i → ∀ k, A.assetKeys[i]? ≠ some (some k)
  tokens : ∀ i, CoversIn ht idx i → ∀ k, A.tokenKeys[i]? ≠ some (some k)

/-- Something that the signature covers is no longer what it was: an output, or an issuance. -/
def Hit (ht idx : Nat) (t t' : Tx) : Prop :=
  (∃ j, CoversOut ht idx j ∧ t'.vout[j]? ≠ t.vout[j]?) ∨
  ∃ i, CoversIn ht idx i ∧ t'.vin[i]?.map (·.assetIssuance) ≠ t.vin[i]?.map (·.assetIssuance)

/-- The strings hashed for the two legacy signatures collide. -/
def LegacyCollision (h : HashFn) (script : Bytes) (t t' : Tx) (idx ht : Nat) : Prop :=
  ∃ code x y, StripSep script code ∧ LegacyPreimage code t idx ht x ∧ LegacyPreimage code t' idx ht y ∧ DblCollAt h.fn x y

/-- The same of a taproot signature, which covers proofs too. -/
structure TapSpares (A : BlindArgs) (c : TapCall) : Prop where
  outputs : ∀ j, c.all ∨ c.single ∧ j = c.idx → A.pubkeys.getD j [] = []
  amounts : ∀ i, ¬ c.acp ∨ i = c.idx → ∀ k, A.assetKeys[i]? ≠ some (some k)
  tokens : ∀ i, ¬ c.acp ∨ i = c.idx → ∀ k, A.tokenKeys[i]? ≠ some (some k)

end Verif.Spec
