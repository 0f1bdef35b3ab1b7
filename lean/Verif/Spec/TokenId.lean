import Verif.Spec.Balance
/-
Which reissuance token an issuance makes.
-/
namespace Verif

/-- The token the network credits an issuance with: it looks at the issued amount of the
transaction it is given. -/
def networkToken (E : Env) (t : Tx) (i : Nat) : Bytes :=
  tokenId E (t.vin.getD i default).confidential (t.vin.getD i default)

/-- Input `i` issues tokens, and what blinding did is about the token the network sees: outputs
may be derived from that token, and a hidden number of tokens is committed to with its
generator. -/
structure TokenAgrees (E : Env) (A : BlindArgs) (t t' : Tx) (i : Nat) : Prop where
  target : ∀ L, IsTargets E A t L → ∃ x ∈ L, x.asset = networkToken E t' i
  committed : IsValueCommitment (t'.vin.getD i default).assetIssuance.nInflationKeys →
    ∃ v gen com bf, (t.vin.getD i default).assetIssuance.nInflationKeys = 1 :: v ∧
      E.z.generateBlinded (networkToken E t' i) (List.replicate 32 0) = some gen ∧
      E.z.commit bf (beVal v) gen = some com ∧
      E.z.commitSerialize com = some (t'.vin.getD i default).assetIssuance.nInflationKeys

end Verif
