import Verif.Spec.Zkp
import Verif.Spec.Interp
/-
ECDSA on a group of prime order, and the strict DER encoding of signatures.
-/
namespace Verif.Spec
open Verif

/-- A cyclic group of order `secpN` with x-coordinates and an injective encoding of points. -/
structure Curve (M : Type) [AddCommGroup M] [Module Scalar M] where
  G : M
  x : M → Nat
  enc : M → Bytes
  order : ∀ a : Scalar, a • G = 0 → a = 0
  encInj : ∀ P Q, enc P = enc Q → P = Q

variable {M : Type} [AddCommGroup M] [Module Scalar M]

/-- `r`, `s` is a signature of the digest `m` under the public point `Q`. -/
def Verify (C : Curve M) (Q : M) (m r s : Nat) : Prop :=
  0 < r ∧ r < secpN ∧ 0 < s ∧ s < secpN ∧
    ∃ w : Scalar, w * s = 1 ∧ C.x ((w * m) • C.G + (w * r) • Q) % secpN = r

/-- A non-negative DER integer: no superfluous zero byte, top bit clear. -/
def DerInt (v : Nat) (b : Bytes) : Prop :=
  beVal b = v ∧ b.length ≤ 33 ∧ ∃ h t, b = h :: t ∧ h.toNat < 128 ∧
    (h = 0 → ∀ h' t', t = h' :: t' → 128 ≤ h'.toNat)

/-- A strictly encoded DER signature, without a hash type byte. -/
def Der (sig : Bytes) (r s : Nat) : Prop :=
  ∃ R S, DerInt r R ∧ DerInt s S ∧
    sig = [0x30, UInt8.ofNat (4 + R.length + S.length), 0x02, UInt8.ofNat R.length] ++ R ++
      [0x02, UInt8.ofNat S.length] ++ S

/-- The node checks signatures on stack data: digest `m` of the message 01, encoded points. -/
def ChecksData (C : Curve M) (m : Nat) (c : Interp.Ctx) : Prop :=
  ∀ sig pub, c.checkData sig [1] pub = true ↔ ∃ Q r s, C.enc Q = pub ∧ Der sig r s ∧ Verify C Q m r s

/-- `k` is the known nonce and `r` the x-coordinate of its point, which no other point has but the
negative one. -/
structure KnownNonce (C : Curve M) (k r : Nat) : Prop where
  pos : 0 < r
  lt : r < secpN
  x : C.x ((k : Scalar) • C.G) = r
  neg : ∀ P, C.x (-P) = C.x P
  only : ∀ P, C.x P % secpN = r → P = (k : Scalar) • C.G ∨ P = -((k : Scalar) • C.G)

/-- Secret numbers and public keys: the secret has to be between 1 and the order. -/
def PubOf (C : Curve M) (pub : Nat → Option Bytes) : Prop :=
  (∀ e, 0 < e → e < secpN → pub e = some (C.enc ((e : Scalar) • C.G))) ∧ pub 0 = none

end Verif.Spec
