import Verif.Issue
import Verif.SighashLemmas
import Verif.Spec.Collision
/-
C41, C42.
-/
namespace Verif
open Spec

/-- The three ids an issuance gives rise to. -/
inductive IdKind | asset | explicitToken | confidentialToken
  deriving DecidableEq, Repr

/-- The id of the given kind, obtained through the public functions. -/
def issuedId (h : HashFn) (m : MidFn) (k : IdKind) (prevout : OutPoint) (contract : Bytes) : Except PyErr Bytes := do
  let e ← generateAssetEntropy h m prevout contract
  match k with
  | .asset => calculateAsset m e
  | .explicitToken => calculateReissuanceToken m e false
  | .confidentialToken => calculateReissuanceToken m e true

theorem entropy_ok {h : HashFn} {m : MidFn} {p : OutPoint} {c e : Bytes} (he : generateAssetEntropy h m p c = .ok e) :
    c.length = 32 ∧ ∃ o, serOutPoint p = .ok o ∧ e = m.fn (h.dbl o ++ c) := by
  unfold generateAssetEntropy at he
  by_cases hc : c.length = 32
  · simp only [hc, ne_eq, not_true, if_false, Except.bind_ok, Except.pure_ok] at he
    obtain ⟨o, ho, rfl⟩ := he
    exact ⟨hc, o, ho, rfl⟩
  · simp only [ne_eq, hc, not_false_eq_true, if_true] at he
    cases he

/-- The last 32 bytes hashed for each kind of id. -/
def kindSalt : IdKind → Bytes
  | .asset => uint256Small 0
  | .explicitToken => uint256Small 1
  | .confidentialToken => uint256Small 2

theorem issuedId_ok {h : HashFn} {m : MidFn} {k : IdKind} {p : OutPoint} {c x : Bytes} (hx : issuedId h m k p c = .ok x) :
    ∃ e, generateAssetEntropy h m p c = .ok e ∧ x = m.fn (e ++ kindSalt k) := by
  unfold issuedId at hx
  simp only [Except.bind_ok] at hx
  obtain ⟨e, he, hx⟩ := hx
  refine ⟨e, he, ?_⟩
  have hl : e.length = 32 := by
    obtain ⟨_, o, _, rfl⟩ := entropy_ok he
    exact m.len _
  cases k <;> simp only [calculateAsset, calculateReissuanceToken, hl, ne_eq, not_true, if_false] at hx <;>
    exact (Except.ok.inj hx).symm

/-- C41: two ids of different kinds, outpoints or contract hashes differ, or a collision is
exhibited at one of the three places where something is hashed. -/
theorem C41_ids_separated (h : HashFn) (m : MidFn) (k k' : IdKind) (p p' : OutPoint) (c c' : Bytes) (x : Bytes)
    (h1 : issuedId h m k p c = .ok x) (h2 : issuedId h m k' p' c' = .ok x) :
    (k = k' ∧ p = p' ∧ c = c') ∨
    ∃ e e' o o', generateAssetEntropy h m p c = .ok e ∧ generateAssetEntropy h m p' c' = .ok e' ∧
      serOutPoint p = .ok o ∧ serOutPoint p' = .ok o' ∧
      (CollAt m.fn (e ++ kindSalt k) (e' ++ kindSalt k') ∨ CollAt m.fn (h.dbl o ++ c) (h.dbl o' ++ c') ∨
        DblCollAt h.fn o o') := by
  obtain ⟨e, he, rfl⟩ := issuedId_ok h1
  obtain ⟨e', he', hx⟩ := issuedId_ok h2
  obtain ⟨hc, o, ho, hee⟩ := entropy_ok he
  obtain ⟨hc', o', ho', hee'⟩ := entropy_ok he'
  by_cases a1 : e ++ kindSalt k = e' ++ kindSalt k'
  · obtain ⟨b1, b2⟩ := append_split a1 (by rw [hee, hee', m.len, m.len])
    have hk : k = k' := by cases k <;> cases k' <;> first | rfl | (exact absurd b2 (by decide))
    rw [hee, hee'] at b1
    by_cases a2 : h.dbl o ++ c = h.dbl o' ++ c'
    · obtain ⟨b3, b4⟩ := append_split a2 (by simp [HashFn.dbl, h.len])
      rcases dbl_inj_or b3 with b5 | b5
      · subst b5
        exact Or.inl ⟨hk, serOutPoint_inj ho ho', b4⟩
      · exact Or.inr ⟨e, e', o, o', he, he', ho, ho', Or.inr (Or.inr b5)⟩
    · exact Or.inr ⟨e, e', o, o', he, he', ho, ho', Or.inr (Or.inl ⟨a2, b1⟩)⟩
  · exact Or.inr ⟨e, e', o, o', he, he', ho, ho', Or.inl ⟨a1, hx⟩⟩

/-- C41: every outpoint and 32-byte contract hash has all three ids; other contract hashes are
refused. -/
theorem C41_ids_exist (h : HashFn) (m : MidFn) (k : IdKind) (p : OutPoint) (c : Bytes)
    (hp : p.hash.length = 32) (hn : p.n < 4294967296) :
    (∃ x, issuedId h m k p c = .ok x ∧ x.length = 32) ↔ c.length = 32 := by
  constructor
  · rintro ⟨x, hx, _⟩
    obtain ⟨e, he, _⟩ := issuedId_ok hx
    exact (entropy_ok he).1
  · intro hc
    have : ∃ o, serOutPoint p = .ok o := by
      unfold serOutPoint
      rw [packU_ok.2 ⟨by omega, rfl⟩]
      simp only [hp, ne_eq, not_true, if_false]
      exact ⟨_, rfl⟩
    obtain ⟨o, ho⟩ := this
    unfold issuedId generateAssetEntropy
    simp only [hc, ne_eq, not_true, if_false, ho]
    cases k
    · exact ⟨m.fn (m.fn (h.dbl o ++ c) ++ kindSalt .asset), by
        simp [bind, Except.bind, pure, Except.pure, calculateAsset, m.len, kindSalt], m.len _⟩
    · exact ⟨m.fn (m.fn (h.dbl o ++ c) ++ kindSalt .explicitToken), by
        simp [bind, Except.bind, pure, Except.pure, calculateReissuanceToken, m.len, kindSalt], m.len _⟩
    · exact ⟨m.fn (m.fn (h.dbl o ++ c) ++ kindSalt .confidentialToken), by
        simp [bind, Except.bind, pure, Except.pure, calculateReissuanceToken, m.len, kindSalt], m.len _⟩

/-- C41: the ids as the network computes them.  The entropy is one compression of the double
hash of the outpoint and the contract hash, and the ids are one compression of the entropy and
the number 0, 1 or 2. -/
theorem C41_formula (h : HashFn) (m : MidFn) (p : OutPoint) (c : Bytes)
    (hp : p.hash.length = 32) (hn : p.n < 2 ^ 32) (hc : c.length = 32) :
    ∃ e, e = m.fn (h.fn (h.fn (p.hash ++ leBytes 4 p.n)) ++ c) ∧
      generateAssetEntropy h m p c = .ok e ∧
      calculateAsset m e = .ok (m.fn (e ++ List.replicate 32 0)) ∧
      calculateReissuanceToken m e false = .ok (m.fn (e ++ 1 :: List.replicate 31 0)) ∧
      calculateReissuanceToken m e true = .ok (m.fn (e ++ 2 :: List.replicate 31 0)) := by
  refine ⟨_, rfl, ?_, ?_, ?_, ?_⟩
  · unfold generateAssetEntropy serOutPoint
    rw [packU_ok.2 ⟨by omega, rfl⟩]
    simp [hp, hc, bind, Except.bind, pure, Except.pure, HashFn.dbl]
  all_goals simp [calculateAsset, calculateReissuanceToken, m.len, uint256Small, List.replicate_succ]

/-- C41: entropies that are not 32 bytes have no ids. -/
theorem C41_entropy_size (m : MidFn) (e : Bytes) (b : Bool) (he : e.length ≠ 32) :
    calculateAsset m e = .error .valueError ∧ calculateReissuanceToken m e b = .error .valueError := by
  simp [calculateAsset, calculateReissuanceToken, he]

/-- Non-vacuity: a hash and a compression function for which the ids of the sample differ. -/
example : ∃ (h : HashFn) (m : MidFn) (x y : Bytes), issuedId h m .asset ⟨List.replicate 32 5, 3⟩ (List.replicate 32 1) = .ok x ∧
    issuedId h m .confidentialToken ⟨List.replicate 32 5, 3⟩ (List.replicate 32 1) = .ok y ∧ x ≠ y :=
  ⟨⟨fun x => (x ++ List.replicate 32 0).take 32, fun x => by simp⟩,
   ⟨fun x => (x.drop 32 ++ List.replicate 32 0).take 32, fun x => by simp⟩, _, _, rfl, rfl, by decide⟩

/-- The bytes of an acceptable script argument. -/
def ScriptArg.accepted : ScriptArg → Option Bytes
  | .elements s => some s
  | .bytes s => some s
  | _ => none

/-- The two strings hashed by HMAC. -/
def hmacInner (secret s : Bytes) : Bytes := hmacPad secret 0x36 ++ s
def hmacOuter (h : HashFn) (secret s : Bytes) : Bytes := hmacPad secret 0x5c ++ h.fn (hmacInner secret s)

theorem deriveBlindingKey_ok {h : HashFn} {v : Bytes → Bool} {secret : Bytes} {a : ScriptArg} {k : Bytes}
    (e : deriveBlindingKey h v secret a = .ok k) :
    ∃ s, a.accepted = some s ∧ k = h.fn (hmacOuter h secret s) ∧ v k = true := by
  have key : ∀ s, ckeyNew v (hmacSha256 h secret s) = .ok k → k = h.fn (hmacOuter h secret s) ∧ v k = true := by
    intro s e
    unfold ckeyNew at e
    split at e
    · cases e
    · split at e
      · rename_i hv
        cases e
        exact ⟨rfl, hv⟩
      · cases e
  cases a with
  | foreign s => cases e
  | other => cases e
  | elements s => exact ⟨s, rfl, key s e⟩
  | bytes s => exact ⟨s, rfl, key s e⟩

/-- C42: a script object of another chain, and anything that is not a byte string, is refused. -/
theorem C42_foreign_refused (h : HashFn) (v : Bytes → Bool) (secret : Bytes) (a : ScriptArg) (ha : a.accepted = none) :
    deriveBlindingKey h v secret a = .error .typeError := by
  cases a <;> first | rfl | cases ha

/-- C42: only the secret and the bytes of the script matter. -/
theorem C42_deterministic (h : HashFn) (v : Bytes → Bool) (secret : Bytes) (a b : ScriptArg) (s : Bytes)
    (ha : a.accepted = some s) (hb : b.accepted = some s) :
    deriveBlindingKey h v secret a = deriveBlindingKey h v secret b := by
  cases a <;> cases ha <;> cases b <;> cases hb <;> rfl

theorem xor_cancel {x y b : UInt8} (h : x ^^^ b = y ^^^ b) : x = y := by
  have : (x ^^^ b) ^^^ b = (y ^^^ b) ^^^ b := by rw [h]
  rwa [UInt8.xor_assoc, UInt8.xor_assoc, UInt8.xor_self, UInt8.xor_zero, UInt8.xor_zero] at this

theorem hmacPad_inj {a b : Bytes} {x : UInt8} (hl : a.length = b.length) (h : hmacPad a x = hmacPad b x) : a = b := by
  unfold hmacPad at h
  have := List.map_inj_right (f := fun y : UInt8 => y ^^^ x) (fun u v huv => xor_cancel huv) |>.1 h
  exact (append_split this hl).1

theorem hmacPad_len {a : Bytes} {x : UInt8} (h : a.length = 32) : (hmacPad a x).length = 64 := by
  simp [hmacPad, h]

/-- C42: keys derived from different scripts or different 32-byte secrets differ, unless one of
the two hash applications of HMAC collides. -/
theorem C42_script_specific (h : HashFn) (v : Bytes → Bool) (secret secret' : Bytes) (a b : ScriptArg) (k : Bytes)
    (hs : secret.length = 32) (hs' : secret'.length = 32)
    (h1 : deriveBlindingKey h v secret a = .ok k) (h2 : deriveBlindingKey h v secret' b = .ok k) :
    (secret = secret' ∧ a.accepted = b.accepted) ∨
    ∃ s t, a.accepted = some s ∧ b.accepted = some t ∧
      (CollAt h.fn (hmacInner secret s) (hmacInner secret' t) ∨ CollAt h.fn (hmacOuter h secret s) (hmacOuter h secret' t)) := by
  obtain ⟨s, ha, e1, _⟩ := deriveBlindingKey_ok h1
  obtain ⟨t, hb, e2, _⟩ := deriveBlindingKey_ok h2
  by_cases c1 : hmacOuter h secret s = hmacOuter h secret' t
  · obtain ⟨c2, c3⟩ := append_split c1 (by rw [hmacPad_len hs, hmacPad_len hs'])
    have hsec := hmacPad_inj (by rw [hs, hs']) c2
    by_cases c4 : hmacInner secret s = hmacInner secret' t
    · obtain ⟨_, c5⟩ := append_split c4 (by rw [hmacPad_len hs, hmacPad_len hs'])
      exact Or.inl ⟨hsec, by rw [ha, hb, c5]⟩
    · exact Or.inr ⟨s, t, ha, hb, Or.inl ⟨c4, c3⟩⟩
  · exact Or.inr ⟨s, t, ha, hb, Or.inr ⟨c1, e1.symm.trans e2⟩⟩

/-- C42: a key comes out exactly when the HMAC is a valid secret key, and it is that HMAC. -/
theorem C42_key_iff (h : HashFn) (v : Bytes → Bool) (secret k : Bytes) (a : ScriptArg) (s : Bytes) (ha : a.accepted = some s) :
    deriveBlindingKey h v secret a = .ok k ↔
      k = h.fn ((secret ++ List.replicate (64 - secret.length) 0).map (· ^^^ 0x5c) ++
        h.fn ((secret ++ List.replicate (64 - secret.length) 0).map (· ^^^ 0x36) ++ s)) ∧ v k = true := by
  constructor
  · intro e
    obtain ⟨t, hb, e1, e2⟩ := deriveBlindingKey_ok e
    rw [ha] at hb
    cases hb
    exact ⟨e1, e2⟩
  · rintro ⟨rfl, hv⟩
    have : ckeyNew v (hmacSha256 h secret s) = .ok (hmacSha256 h secret s) := by
      unfold ckeyNew
      rw [if_neg (by simp [hmacSha256, h.len]), if_pos (show v (hmacSha256 h secret s) = true from hv)]
    cases a <;> cases ha <;> exact this

/-- Non-vacuity: two scripts with different keys. -/
example : ∃ (h : HashFn) (x y : Bytes), deriveBlindingKey h (fun _ => true) (List.replicate 32 1) (.elements [0x51]) = .ok x ∧
    deriveBlindingKey h (fun _ => true) (List.replicate 32 1) (.bytes [0x52]) = .ok y ∧ x ≠ y :=
  ⟨⟨fun x => (x.drop 64 ++ List.replicate 32 0).take 32, fun x => by simp⟩, _, _, rfl, rfl, by decide⟩

end Verif
