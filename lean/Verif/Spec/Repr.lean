import Verif.Repr
/-
Objects with a printed form, which of them read back, and what is left of an issuance in print.
-/
namespace Verif.Spec

/-- The objects whose printed form is a call of their constructor. -/
inductive Obj
  | value (c : Bytes)
  | asset (c : Bytes)
  | nonce (c : Bytes)
  | issuance (i : Issuance)
  | inWit (w : TxInWitness)
  | outWit (w : TxOutWitness)
  | txWit (w : TxWitness)

/-- The object can be constructed: its fields have passed the checks of their constructors. -/
def Obj.Made : Obj → Prop
  | .value c => confNew valueKind c = .ok c
  | .asset c => confNew assetKind c = .ok c
  | .nonce c => confNew nonceKind c = .ok c
  | .issuance i => i.assetBlindingNonce.length = 32 ∧ i.assetEntropy.length = 32 ∧
      confNew valueKind i.nAmount = .ok i.nAmount ∧ confNew valueKind i.nInflationKeys = .ok i.nInflationKeys
  | _ => True

/-- `repr(o)`. -/
def Obj.repr : Obj → Except PyErr PyExpr
  | .value c => valueText .repr c
  | .asset c => assetText .repr c
  | .nonce c => .ok (nonceText .repr c)
  | .issuance i => issuanceText .repr i
  | .inWit w => .ok (inWitText w)
  | .outWit w => .ok (outWitText w)
  | .txWit w => .ok (txWitText w)

/-- The object as a Python value. -/
def Obj.val : Obj → PyVal
  | .value c => .cvalue c
  | .asset c => .casset c
  | .nonce c => .cnonce c
  | .issuance i => .issuance i
  | .inWit w => .inWit w
  | .outWit w => .outWit w
  | .txWit w => .txWit w

/-- The objects that read back: all but explicit assets and issuances with anything in them. -/
def Obj.ReadsBack : Obj → Prop
  | .asset c => ¬ ∃ a, c = 1 :: a ∧ a.length = 32
  | .issuance i => i = ⟨List.replicate 32 0, List.replicate 32 0, [], []⟩
  | _ => True

/-- The parts of an issuance that are there: 32-byte numbers that are not zero, then values that
are not null. -/
def presentParts (i : Issuance) : List (Bytes ⊕ Bytes) :=
  (if i.assetBlindingNonce = List.replicate 32 0 then [] else [.inl i.assetBlindingNonce]) ++
  (if i.assetEntropy = List.replicate 32 0 then [] else [.inl i.assetEntropy]) ++
  (if i.nAmount = [] then [] else [.inr i.nAmount]) ++
  (if i.nInflationKeys = [] then [] else [.inr i.nInflationKeys])

/-- An input that can be constructed. -/
def InMade (i : TxIn) : Prop :=
  i.prevout.hash.length = 32 ∧ i.prevout.n ≤ 0xffffffff ∧ i.nSequence ≤ 0xffffffff ∧ (Obj.issuance i.assetIssuance).Made

end Verif.Spec
