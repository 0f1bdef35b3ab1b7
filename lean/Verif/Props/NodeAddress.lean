import Verif.Props.AddrTextToy
import Verif.Spec.NodeAddress
/-
C106: an address names the same script and the same blinding pubkey to a node.
-/
namespace Verif.AddrText
open Spec

/-- The chain of the node, by the name the chain has here (elementstx/__init__.py:23-45). -/
def nodeOf : Chain → NodeChain
  | .elements => .regtest
  | .liquid => .liquidv1

/-- The pubkey to blind for. -/
def Addr.blindFor (a : Addr) : Option Bytes := if a.conf then some a.blindingPubkey else none

variable {H : Bytes → Bytes} {S : SegwitCodec}

/-- C106.  What a class of a chain reads from a text is what a node of the chain reads from it. -/
theorem C106_same (hH : ∀ x, (H x).length = 32) (x : Chain × Kind × Bool) (s : PyStr) (a : Addr) (h : addrNew H S x s = .ok a) :
    ∃ script, a.toScriptPubKey = .ok script ∧ NodeReads H S.decode blechDecode (nodeOf x.1) s script (Addr.blindFor a) := by
  obtain ⟨c, k, f⟩ := x
  have split : ∀ {p : Bytes} {n : Nat}, p.length = n + 33 → p = p.take 33 ++ p.drop 33 ∧ (p.take 33).length = 33 ∧ (p.drop 33).length = n := by
    intro p n h
    exact ⟨(List.take_append_drop 33 p).symm, by simp; omega, by simp; omega⟩
  rw [addrNew] at h
  by_cases hk : k.segwit = true
  · rw [if_pos hk] at h
    cases f with
    | true =>
      rw [if_pos rfl, blechNew] at h
      cases hd : blechDecode c.blechHrp s with
      | none => rw [hd] at h; cases h
      | some r =>
        obtain ⟨v, d⟩ := r
        rw [hd] at h
        obtain ⟨rfl, h2, h3, rfl, h5, h6⟩ := blechMatch_sound c [k] d v a h
        obtain ⟨c, k', f, p⟩ := a
        simp only [List.mem_singleton] at h2 h3 h6 hd
        subst h2 h3
        simp only [AddrOk, if_true] at h5
        obtain ⟨e, e1, e2⟩ := split h5
        have hd' : blechDecode ((nodeOf c).blech.map Char.toNat) s = some (v, p.take 33 ++ p.drop 33) := by
          rw [← e]; cases c <;> exact hd
        have := NodeReads.blindedSegwit (H := H) (bech := S.decode) v _ _ hd' e1 (by
          cases k' <;> simp [Kind.segwit] at hk <;> simp [Kind.witver] at h6 <;> simp [NamedProg, e2, Kind.dataLen] <;> omega)
        refine ⟨_, ?_, this⟩
        simp only [Addr.toScriptPubKey, Addr.toUnconfidential, if_true]
        cases k' <;> simp [Kind.segwit] at hk <;> simp [Kind.witver] at h6 <;> subst h6 <;>
          simp [addrFromBytes, classLen, Kind.dataLen, e2, witnessScript, scriptOf] <;> rfl
    | false =>
      rw [if_neg (by decide), bechNew] at h
      cases hd : S.decode c.bechHrp s with
      | none => rw [hd] at h; cases h
      | some r =>
        obtain ⟨v, d⟩ := r
        rw [hd] at h
        dsimp only at h
        split at h
        · rename_i hv
          obtain ⟨rfl, -⟩ := (addrFromBytes_iff ..).1 h
          have hd' : S.decode ((nodeOf c).bech.map Char.toNat) s = some (v, d) := by cases c <;> exact hd
          have := NodeReads.segwit (H := H) (blech := blechDecode) v _ hd' (by
            cases k <;> simp [Kind.segwit] at hk <;> simp [Kind.witver, Kind.dataLen] at hv <;> simp [NamedProg, hv])
          refine ⟨_, ?_, this⟩
          obtain ⟨h6, e2⟩ := hv
          cases k <;> simp [Kind.segwit] at hk <;> simp [Kind.witver] at h6 <;> subst h6 <;>
            simp [Addr.toScriptPubKey, Kind.dataLen, e2, witnessScript, scriptOf]
        · cases h
  · rw [if_neg hk] at h
    obtain ⟨h1, h2, h3⟩ := (C88_base58 hH [(c, k, f)] (by simpa [IsBase58] using base58_kind.1 (by simpa using hk)) s a).1 h
    obtain ⟨c', k', f', p⟩ := a
    simp only [clsOf, List.mem_singleton, Prod.mk.injEq] at h1
    obtain ⟨rfl, rfl, rfl⟩ := h1
    cases f' with
    | true =>
      simp only [AddrOk, if_true] at h2
      obtain ⟨e, e1, e2⟩ := split h2
      simp only at h3
      rw [e] at h3
      cases k' <;> simp [Kind.segwit] at hk
      · exact ⟨_, by simp [Addr.toScriptPubKey, Addr.toUnconfidential, addrFromBytes, classLen, e2]; rfl,
          .blindedPubkey _ _ e1 e2 (by cases c' <;> exact h3)⟩
      · exact ⟨_, by simp [Addr.toScriptPubKey, Addr.toUnconfidential, addrFromBytes, classLen, e2]; rfl,
          .blindedScript _ _ e1 e2 (by cases c' <;> exact h3)⟩
    | false =>
      cases k' <;> simp [Kind.segwit] at hk
      · exact ⟨_, rfl, .pubkey _ h2 (by cases c' <;> exact h3)⟩
      · exact ⟨_, rfl, .script _ h2 (by cases c' <;> exact h3)⟩

/-- C106, the other way: what a node of a chain reads, one of the classes of the chain reads as well. -/
theorem C106_all (hH : ∀ x, (H x).length = 32) (c : Chain) (s : PyStr) (script : Bytes) (key : Option Bytes)
    (h : NodeReads H S.decode blechDecode (nodeOf c) s script key) :
    ∃ k conf a, addrNew H S (c, k, conf) s = .ok a ∧ a.toScriptPubKey = .ok script ∧ Addr.blindFor a = key := by
  have split : ∀ {k h : Bytes}, k.length = 33 → (k ++ h).drop 33 = h ∧ (k ++ h).take 33 = k :=
    fun hk => ⟨List.drop_left' hk, List.take_left' hk⟩
  cases h with
  | pubkey h hl hb =>
    refine ⟨.p2pkh, false, ⟨c, .p2pkh, false, h⟩, ?_, rfl, rfl⟩
    refine (C88_base58 hH [(c, .p2pkh, false)] (by simp [IsBase58]) s _).2 ⟨by simp [clsOf], hl, ?_⟩
    cases c <;> exact hb
  | script h hl hb =>
    refine ⟨.p2sh, false, ⟨c, .p2sh, false, h⟩, ?_, rfl, rfl⟩
    refine (C88_base58 hH [(c, .p2sh, false)] (by simp [IsBase58]) s _).2 ⟨by simp [clsOf], hl, ?_⟩
    cases c <;> exact hb
  | blindedPubkey k h hk hl hb =>
    refine ⟨.p2pkh, true, ⟨c, .p2pkh, true, k ++ h⟩, ?_, ?_, ?_⟩
    · refine (C88_base58 hH [(c, .p2pkh, true)] (by simp [IsBase58]) s _).2 ⟨by simp [clsOf], by simp [AddrOk, hk, hl, Kind.dataLen], ?_⟩
      cases c <;> exact hb
    · simp only [Addr.toScriptPubKey, Addr.toUnconfidential, (split hk).1, if_true]
      rw [addrFromBytes, if_neg (by rw [hl]; decide)]; rfl
    · simp [Addr.blindFor, Addr.blindingPubkey, (split hk).2]
  | blindedScript k h hk hl hb =>
    refine ⟨.p2sh, true, ⟨c, .p2sh, true, k ++ h⟩, ?_, ?_, ?_⟩
    · refine (C88_base58 hH [(c, .p2sh, true)] (by simp [IsBase58]) s _).2 ⟨by simp [clsOf], by simp [AddrOk, hk, hl, Kind.dataLen], ?_⟩
      cases c <;> exact hb
    · simp only [Addr.toScriptPubKey, Addr.toUnconfidential, (split hk).1, if_true]
      rw [addrFromBytes, if_neg (by rw [hl]; decide)]; rfl
    · simp [Addr.blindFor, Addr.blindingPubkey, (split hk).2]
  | segwit v p hb hp =>
    have hc : S.decode c.bechHrp s = some (v, p) := by cases c <;> exact hb
    obtain ⟨rfl, hl | hl⟩ | ⟨rfl, hl⟩ := hp
    · exact ⟨.p2wpkh, false, ⟨c, .p2wpkh, false, p⟩, by simp [addrNew, Kind.segwit, bechNew, hc, Kind.witver, Kind.dataLen, hl, addrFromBytes, classLen],
        by simp [Addr.toScriptPubKey, scriptOf, witnessScript, hl], rfl⟩
    · exact ⟨.p2wsh, false, ⟨c, .p2wsh, false, p⟩, by simp [addrNew, Kind.segwit, bechNew, hc, Kind.witver, Kind.dataLen, hl, addrFromBytes, classLen],
        by simp [Addr.toScriptPubKey, scriptOf, witnessScript, hl], rfl⟩
    · exact ⟨.p2tr, false, ⟨c, .p2tr, false, p⟩, by simp [addrNew, Kind.segwit, bechNew, hc, Kind.witver, Kind.dataLen, hl, addrFromBytes, classLen],
        by simp [Addr.toScriptPubKey, scriptOf, witnessScript, hl], rfl⟩
  | blindedSegwit v k p hb hk hp =>
    have hc : blechDecode c.blechHrp s = some (v, k ++ p) := by cases c <;> exact hb
    have hd : (k ++ p).length = 33 + p.length := by simp [hk]
    have hs := split (h := p) hk
    obtain ⟨rfl, hl | hl⟩ | ⟨rfl, hl⟩ := hp <;> rw [hl] at hd
    · exact ⟨.p2wpkh, true, ⟨c, .p2wpkh, true, k ++ p⟩,
        by simp [addrNew, Kind.segwit, blechNew, hc, blechMatch, Kind.witver, Kind.confLen, hk, hl, addrFromBytes, classLen],
        by simp [Addr.toScriptPubKey, Addr.toUnconfidential, hs.1, addrFromBytes, classLen, Kind.dataLen, scriptOf, witnessScript, hl],
        by simp [Addr.blindFor, Addr.blindingPubkey, hs.2]⟩
    · exact ⟨.p2wsh, true, ⟨c, .p2wsh, true, k ++ p⟩,
        by simp [addrNew, Kind.segwit, blechNew, hc, blechMatch, Kind.witver, Kind.confLen, hk, hl, addrFromBytes, classLen],
        by simp [Addr.toScriptPubKey, Addr.toUnconfidential, hs.1, addrFromBytes, classLen, Kind.dataLen, scriptOf, witnessScript, hl],
        by simp [Addr.blindFor, Addr.blindingPubkey, hs.2]⟩
    · exact ⟨.p2tr, true, ⟨c, .p2tr, true, k ++ p⟩,
        by simp [addrNew, Kind.segwit, blechNew, hc, blechMatch, Kind.witver, Kind.confLen, hk, hl, addrFromBytes, classLen],
        by simp [Addr.toScriptPubKey, Addr.toUnconfidential, hs.1, addrFromBytes, classLen, Kind.dataLen, scriptOf, witnessScript, hl],
        by simp [Addr.blindFor, Addr.blindingPubkey, hs.2]⟩

/-- C106, of what is printed: a node of its chain takes the text of an address as what it is. -/
theorem C106_printed (hH : ∀ x, (H x).length = 32) (hS : S.Standard lower) (a : Addr) (ha : AddrOk a) :
    ∃ s script, addrStr H S a = .ok s ∧ a.toScriptPubKey = .ok script ∧
      NodeReads H S.decode blechDecode (nodeOf a.chain) s script (Addr.blindFor a) := by
  obtain ⟨s, hs⟩ := addrStr_ok (H := H) (S := S) ha
  obtain ⟨script, h1, h2⟩ := C106_same hH (clsOf a) s a (addrNew_str hH hS ha hs)
  exact ⟨s, script, hs, h1, h2⟩

/-- C106, one meaning: nodes that read a text are of one chain, and read one script and one pubkey. -/
theorem C106_one (hH : ∀ x, (H x).length = 32) (hS : S.Standard lower) (c c' : Chain) (s : PyStr) (script script' : Bytes) (key key' : Option Bytes)
    (h : NodeReads H S.decode blechDecode (nodeOf c) s script key) (h' : NodeReads H S.decode blechDecode (nodeOf c') s script' key') :
    c = c' ∧ script = script' ∧ key = key' := by
  obtain ⟨k, f, a, h1, h2, h3⟩ := C106_all hH c s script key h
  obtain ⟨k', f', a', h1', h2', h3'⟩ := C106_all hH c' s script' key' h'
  have p : addrParse H S [(c, k, f)] s = .ok a := by rw [addrParse, h1]
  have p' : addrParse H S [(c', k', f')] s = .ok a' := by rw [addrParse, h1']
  have e := C88_one hH hS _ _ s a a' p p'
  have m := (C88_prints hH hS _ s a p).1
  have m' := (C88_prints hH hS _ s a' p').1
  subst e
  rw [List.mem_singleton] at m m'
  have := m.symm.trans m'
  simp only [Prod.mk.injEq] at this
  exact ⟨this.1, Except.ok.inj (h2.symm.trans h2'), h3.symm.trans h3'⟩

/-! An address of each sort, and the script a node reads from its text. -/
namespace Toy

example : ∃ s, NodeReads hash codec.decode blechDecode .liquidv1 s ([0x76, 0xa9, 20] ++ List.replicate 20 7 ++ [0x88, 0xac]) none := by
  obtain ⟨s, script, -, h, g⟩ := C106_printed hash_len standard plain rfl
  cases h
  exact ⟨s, g⟩
example : ∃ s, NodeReads hash codec.decode blechDecode .liquidv1 s ([0xa9, 20] ++ List.replicate 20 2 ++ [0x87]) (some (List.replicate 33 2)) := by
  obtain ⟨s, script, -, h, g⟩ := C106_printed hash_len standard conf rfl
  have : script = [0xa9, 20] ++ List.replicate 20 2 ++ [0x87] := by cases h; rfl
  subst this
  exact ⟨s, g⟩
example : ∃ s, NodeReads hash codec.decode blechDecode .liquidv1 s (witnessScript 1 (List.replicate 32 2)) (some (List.replicate 33 2)) := by
  obtain ⟨s, script, -, h, g⟩ := C106_printed hash_len standard blech rfl
  have : script = witnessScript 1 (List.replicate 32 2) := by cases h; rfl
  subst this
  exact ⟨s, g⟩

end Toy
end Verif.AddrText
