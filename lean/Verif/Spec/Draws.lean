import Verif.Spec.BlindDone
/-
Randomness is used once.
-/
namespace Verif

/-- What one result of `_rand_func` is for. -/
inductive Use
  /-- blinding factor of an issued amount, or of the number of tokens -/
  | issuance (i : Nat) (token : Bool)
  /-- blinding factor of the amount of an output -/
  | value (j : Nat)
  /-- blinding factor of the asset of an output -/
  | asset (j : Nat)
  /-- ephemeral key of an output -/
  | ephemeral (j : Nat)
  /-- seed of the surjection proof of an output -/
  | surjection (j : Nat)
  deriving DecidableEq, Repr

/-- `uses[k]` is what the `k`-th result of `_rand_func` was used for.  As `uses` is a list, each
result has one use, and as it has no duplicates, each use has its own result. -/
structure DrawnOnce (E : Env) (A : BlindArgs) (tx tx' : Tx) (bfs abfs : List Bytes) (uses : List Use) : Prop where
  nodup : uses.Nodup
  /-- at most two draws per input and four per output -/
  count : uses.length ≤ 2 * tx.vin.length + 4 * tx.vout.length
  asset : ∀ j, ¬ Untouched tx tx' j → ∃ k, uses[k]? = some (.asset j) ∧ abfs[j]? = some (A.rand k)
  ephemeral : ∀ j, ¬ Untouched tx tx' j → ∃ k, uses[k]? = some (.ephemeral j) ∧ E.z.secValid (A.rand k) = true ∧
    (tx'.vout.getD j {}).nNonce = E.z.pubOf (A.rand k)
  /-- one factor is replaced by the balancing one -/
  value : ∃ last, ∀ j, ¬ Untouched tx tx' j → ∃ k, uses[k]? = some (.value j) ∧
    (bfs[j]? = some (A.rand k) ∨
      j = last ∧ ∃ vs rs bs n m b, E.z.blindSum vs rs (bs ++ [A.rand k]) n m = some b ∧ bfs[j]? = some b)
  surjection : ∀ j, tx'.outWit j ≠ tx.outWit j → ∃ k tags n m asset handle idx, uses[k]? = some (.surjection j) ∧
    E.z.surjInit tags n m asset 100 (A.rand k) = some (handle, idx)
  issuance : ∀ i token, (tx'.vin.getD i default).issued token ≠ (tx.vin.getD i default).issued token →
    ∃ k v gen com, uses[k]? = some (.issuance i token) ∧ (tx.vin.getD i default).issued token = 1 :: v ∧
      E.z.commit (A.rand k) (beVal v) gen = some com ∧
      E.z.commitSerialize com = some ((tx'.vin.getD i default).issued token)

end Verif
