import Verif.Props.Wallet
/-
C28, whatever chain is selected: when a confidential address is made, and when it is one of the address given.
-/
namespace Verif
open Spec

theorem loop_other (cur : Chain) (cls : ConfClass) (adr : Addr) (pub : Bytes) (hc : cls.chain ≠ cur) :
    fromUnconfLoop cur cls adr pub clsmap =
      match cls with
      | .exact _ k => if adr.kind = k then addrFromBytes cur adr.kind true (pub ++ adr.payload) else .error .typeError
      | _ => .error .address := by
  obtain ⟨c, k, f, p⟩ := adr
  cases cls with
  | general d =>
    have hc : d ≠ cur := hc
    cases k <;> simp [hc, fromUnconfLoop, clsmap, ConfClass.below, ConfClass.above, ConfClass.chain]
  | base58 d =>
    have hc : d ≠ cur := hc
    cases k <;> simp [hc, fromUnconfLoop, clsmap, ConfClass.below, ConfClass.above, ConfClass.chain]
  | blech32 d =>
    have hc : d ≠ cur := hc
    cases k <;> simp [hc, fromUnconfLoop, clsmap, ConfClass.below, ConfClass.above, ConfClass.chain]
  | exact d k' =>
    cases k <;> cases k' <;> simp_all [fromUnconfLoop, clsmap, ConfClass.below, ConfClass.above, ConfClass.chain]

/-- C28: which arguments are accepted, whatever chain is selected: classes of the other chain are refused as they should be, except
for those of a single kind. -/
theorem C28_made_iff (fv : Bytes → Bool) (hfv : KeyLens fv) (cur : Chain) (cls : ConfClass) (adr : Addr) (pub : Bytes)
    (hadr : AddrOk adr) :
    (∃ ca, fromUnconfidential fv cur cls adr pub = .ok ca) ↔
      fv pub = true ∧ pub.length = 33 ∧ adr.chain = cls.chain ∧ adr.conf = false ∧ Accepts cls adr.kind ∧
        (cls.chain = cur ∨ ∃ c k, cls = .exact c k) := by
  by_cases hc : cls.chain = cur
  · subst hc
    rw [C28_iff_partial fv hfv cls adr pub hadr]
    constructor
    · rintro ⟨a, b, c, d, e⟩; exact ⟨a, b, c, d, e, .inl rfl⟩
    · rintro ⟨a, b, c, d, e, _⟩; exact ⟨a, b, c, d, e⟩
  · constructor
    · rintro ⟨ca, h⟩
      obtain ⟨a1, a2, a3, a4, _⟩ := C28_sound fv hfv cur cls adr pub ca hadr h
      rw [fromUnconfidential, if_neg (by simp [a1]), if_neg (by simpa using a3), loop_other _ _ _ _ hc] at h
      cases cls with
      | general c => cases h
      | base58 c => cases h
      | blech32 c => cases h
      | exact c k =>
        by_cases hk : adr.kind = k
        · exact ⟨a1, a2, a3.symm, a4, hk.symm, .inr ⟨c, k, rfl⟩⟩
        · simp only [if_neg hk] at h; cases h
    · rintro ⟨a1, a2, a3, a4, a5, a6⟩
      obtain ⟨c, k, rfl⟩ := a6.resolve_left hc
      have hk : adr.kind = k := Eq.symm a5
      refine ⟨⟨cur, adr.kind, true, pub ++ adr.payload⟩, ?_⟩
      rw [fromUnconfidential, if_neg (by simp [a1]), if_neg (by simpa using a3.symm), loop_other _ _ _ _ hc]
      simp only [if_pos hk]
      rw [addrFromBytes_iff]
      refine ⟨rfl, ?_⟩
      simp only [AddrOk, a4, if_true, List.length_append] at hadr ⊢
      rw [if_neg (by simp)] at hadr
      omega

/-- C28, exactly: what was made turns back into the address given if and only if the chain of the address is the one selected. -/
theorem C28_exact (fv : Bytes → Bool) (hfv : KeyLens fv) (cur : Chain) (cls : ConfClass) (adr : Addr) (pub : Bytes)
    (ca : Addr) (hadr : AddrOk adr) (h : fromUnconfidential fv cur cls adr pub = .ok ca) :
    ca.toUnconfidential = .ok adr ↔ cur = adr.chain := by
  obtain ⟨-, -, -, -, -, -, -, -, -, hch, hb⟩ := C28_sound fv hfv cur cls adr pub ca hadr h
  refine ⟨fun hu => ?_, hb⟩
  rw [Addr.toUnconfidential, addrFromBytes_iff] at hu
  rw [← hch, hu.1]

/-- Both cases occur with one class. -/
example (cur : Chain) : ∃ ca, fromUnconfidential (fun p => p.length == 33) cur (.exact .liquid .p2pkh)
    ⟨.liquid, .p2pkh, false, List.replicate 20 7⟩ (List.replicate 33 2) = .ok ca ∧
    (ca.toUnconfidential = .ok ⟨.liquid, .p2pkh, false, List.replicate 20 7⟩ ↔ cur = .liquid) := by
  obtain ⟨ca, h⟩ := (C28_made_iff (fun p => p.length == 33) (fun p hp => .inl (by simpa using hp)) cur (.exact .liquid .p2pkh)
    ⟨.liquid, .p2pkh, false, List.replicate 20 7⟩ (List.replicate 33 2) (by rfl)).2
    ⟨by rfl, by rfl, rfl, rfl, rfl, .inr ⟨_, _, rfl⟩⟩
  exact ⟨ca, h, C28_exact _ (fun p hp => .inl (by simpa using hp)) _ _ _ _ ca (by rfl) h⟩

/-- A general class of the other chain is refused. -/
example (pub : Bytes) (adr : Addr) (ha : AddrOk adr) :
    ¬ ∃ ca, fromUnconfidential (fun p => p.length == 33) .elements (.general .liquid) adr pub = .ok ca := by
  rw [C28_made_iff (fun p => p.length == 33) (fun p hp => .inl (by simpa using hp)) _ _ _ _ ha]
  rintro ⟨-, -, -, -, -, h | ⟨_, _, h⟩⟩ <;> cases h

end Verif
