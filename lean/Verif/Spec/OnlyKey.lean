import Verif.Spec.Zkp
import Verif.Blind
/-
What the library promises about keys that are not the right ones.  secp256k1-zkp keeps this up
to events of negligible probability only; as with hashes, the model leaves no room for them.
-/
namespace Verif

/-- Only the right secrets open a proof. -/
structure Keyed (z : Zkp) : Prop where
  /-- a rangeproof is rewound only with the nonce and the extra data it was signed with -/
  sealed : ∀ a p n c e g x, z.rangeSign a = some p → z.rangeRewind n c p e g = some x → n = a.nonce ∧ e = a.extraCommit
  /-- two keys that share the same secret with a third have the same pubkey -/
  apart : ∀ k l m s, z.secValid k = true → z.secValid l = true → z.secValid m = true →
    z.ecdh k (z.pubOf m) = some s → z.ecdh l (z.pubOf m) = some s → z.pubOf k = z.pubOf l

/-- The secrets that two keys share with a third are different and have the same hash. -/
def Clash (E : Env) (k l pk : Bytes) : Prop :=
  ∃ s t, E.z.ecdh k pk = some s ∧ E.z.ecdh l pk = some t ∧ s ≠ t ∧ E.h.fn s = E.h.fn t

end Verif
