import Verif.ChainParams
import Verif.Spec.ChainParams
/-
C82: where the chains keep their data.
-/
namespace Verif.ChainParams
open Verif Verif.Spec.ChainParams

theorem splitSlash_free {a : List Char} (h : '/' ∉ a) : splitSlash a = [a] := by
  induction a with
  | nil => rfl
  | cons c t ih =>
    rw [List.mem_cons, not_or] at h
    rw [splitSlash, if_neg (fun e => h.1 e.symm), ih h.2]

theorem splitSlash_slash {a b : List Char} (h : '/' ∉ a) : splitSlash (a ++ '/' :: b) = a :: splitSlash b := by
  induction a with
  | nil => simp [splitSlash]
  | cons c t ih =>
    rw [List.mem_cons, not_or] at h
    rw [List.cons_append, splitSlash, if_neg (fun e => h.1 e.symm), ih h.2]

/-- C82: the data of a chain is kept under the name of its network, and this is the network id. -/
theorem C82_datadir (c : Class) (name coin : List Char) (net : Option (List Char)) (h : Names name coin net)
    (hc : c = .liquidV1 → net ≠ none) :
    datadirExtraName c name = .ok (network coin net) ∧ networkId c name = .ok (network coin net) := by
  have key : datadirExtraName c name = .ok (network coin net) := by
    cases net with
    | none =>
      cases c with
      | liquidV1 => exact absurd rfl (hc rfl)
      | elements =>
        obtain ⟨rfl, hf⟩ := h
        simp [datadirExtraName, splitSlash_free hf, network]
    | some n =>
      obtain ⟨rfl, h1, h2⟩ := h
      cases c <;> simp [datadirExtraName, splitSlash_slash h1, splitSlash_free h2, network]
  exact ⟨key, key⟩

/-- C82: a Liquid chain needs a name that says the network. -/
theorem C82_liquid_named (name coin : List Char) (h : Names name coin none) :
    datadirExtraName .liquidV1 name = .error .indexError := by
  obtain ⟨rfl, hf⟩ := h
  simp [datadirExtraName, splitSlash_free hf]

/-- C82: chains of one coin share a data directory, or a network id, only if they are the same
network. -/
theorem C82_apart (c d : Class) (n m coin : List Char) (a b : Option (List Char)) (ha : Names n coin a)
    (hb : Names m coin b) (hc : c = .liquidV1 → a ≠ none) (hd : d = .liquidV1 → b ≠ none) :
    (datadirExtraName c n = datadirExtraName d m ↔ network coin a = network coin b) ∧
    (networkId c n = networkId d m ↔ network coin a = network coin b) := by
  obtain ⟨h1, h2⟩ := C82_datadir c n coin a ha hc
  obtain ⟨h3, h4⟩ := C82_datadir d m coin b hb hd
  rw [h1, h2, h3, h4]
  simp

/-- C82: the names a class is registered with all stand for one network, and the two classes have
different ones and different ports. -/
theorem C82_registered (c : Class) : ∃ x : List Char,
    (∀ s ∈ registered c, datadirExtraName c s.toList = .ok x ∧ networkId c s.toList = .ok x) ∧
    ∀ d, d ≠ c → rpcPort d ≠ rpcPort c ∧ ∀ s ∈ registered d, datadirExtraName d s.toList ≠ .ok x := by
  cases c with
  | elements => exact ⟨"elementsregtest".toList, by decide +kernel, by rintro (_ | _) h <;> first | exact absurd rfl h | decide +kernel⟩
  | liquidV1 => exact ⟨"liquidv1".toList, by decide +kernel, by rintro (_ | _) h <;> first | exact absurd rfl h | decide +kernel⟩

example : Names "elements/mychain".toList "elements".toList (some "mychain".toList) := by
  refine ⟨rfl, ?_, ?_⟩ <;> decide +kernel
example : datadirExtraName .elements "elements/mychain".toList = .ok "mychain".toList := by decide +kernel
example : Names "elements".toList "elements".toList none := ⟨rfl, by decide +kernel⟩

end Verif.ChainParams
