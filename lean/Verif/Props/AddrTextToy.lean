import Verif.Props.AddrText
/-
C88 speaks of something: a codec, and texts.
-/
namespace Verif.AddrText.Toy
open Verif Spec AddrText

/-- Segwit text with a checksum of no worth. -/
def encode (hrp : List Nat) (v : Nat) (p : Bytes) : List Nat :=
  hrp ++ 49 :: (((v % 32) :: progSyms p) ++ List.replicate 6 0).map symChar

open Classical in
/-- Reading it. -/
noncomputable def codec : SegwitCodec where
  encode := encode
  decode hrp s := if h : ∃ x : Nat × Bytes, UsualProg x.1 x.2 ∧ encode hrp x.1 x.2 = lower s then some h.choose else none

theorem syms_lt (v : Nat) (p : Bytes) : ∀ x ∈ ((v % 32) :: progSyms p) ++ List.replicate 6 0, x < 32 := by
  intro x hx
  rw [List.mem_append, List.mem_cons] at hx
  rcases hx with (rfl | hx) | hx
  · omega
  · exact (progSyms_spec p).1 x hx
  · rw [List.eq_of_mem_replicate hx]
    omega

theorem encode_inj {hrp : List Nat} {v v' : Nat} {p p' : Bytes} (hv : v ≤ 16) (hv' : v' ≤ 16) (h : encode hrp v p = encode hrp v' p') :
    v = v' ∧ p = p' := by
  obtain ⟨-, e⟩ := text_inj (syms_lt v p) (syms_lt v' p') h
  obtain ⟨e, -⟩ := List.append_inj' e rfl
  simp only [List.cons.injEq] at e
  refine ⟨by omega, ?_⟩
  have h1 := (convert_back (progSyms p) p).2 ⟨(progSyms_spec p).1, rfl⟩
  have h2 := (convert_back (progSyms p) p').2 ⟨(progSyms_spec p).1, e.2⟩
  exact toNat_map_inj (Option.some.inj (h1.symm.trans h2))

theorem standard : codec.Standard lower where
  reads hrp v p hh hu := by
    have hlow : lower (encode hrp v p) = encode hrp v p := by
      rw [lower_eq_self]
      intro c hc
      rw [encode, List.mem_append, List.mem_cons] at hc
      rcases hc with hc | rfl | hc
      · have := hh.2.2 c hc
        omega
      · omega
      · exact (symChars_fine _ (syms_lt v p) c hc).2.2
    have hx : ∃ x : Nat × Bytes, UsualProg x.1 x.2 ∧ encode hrp x.1 x.2 = lower (encode hrp v p) := ⟨(v, p), hu, hlow.symm⟩
    simp only [codec, dif_pos hx]
    obtain ⟨h1, h2⟩ := hx.choose_spec
    obtain ⟨e1, e2⟩ := encode_inj h1.1 hu.1 (h2.trans hlow)
    exact congrArg some (Prod.ext e1 e2)
  writes hrp s v p h := by
    simp only [codec] at h
    split at h
    · rename_i hx
      have e := Option.some.inj h
      have h2 := hx.choose_spec.2
      rw [e] at h2
      exact h2
    · cases h
  looks hrp v p _ _ := ⟨_, rfl, by simp [progSyms_length]; omega⟩

/-- A hash. -/
def hash (b : Bytes) : Bytes := beBytes 32 (beVal b * 7 + 3)
theorem hash_len (b : Bytes) : (hash b).length = 32 := by simp [hash, beBytes, leBytes]

def text (s : String) : PyStr := s.toList.map Char.toNat

/-- Leading zeros are kept. -/
example : b58Encode [0, 0, 40, 127, 180, 205] = text "11233QC4" := by decide +kernel
example : b58Decode (text "11233QC4") = .ok [0, 0, 40, 127, 180, 205] := by decide +kernel
example : b58Encode [0, 0, 0] = text "111" ∧ b58Decode (text "111") = .ok [0, 0, 0] := by decide +kernel
/-- `0`, `O`, `I` and `l` are not letters of base58. -/
example : b58Decode (text "1l2") = .error .address := by decide +kernel

/-- An address of Liquid of each sort. -/
def plain : Addr := ⟨.liquid, .p2pkh, false, List.replicate 20 7⟩
def conf : Addr := ⟨.liquid, .p2sh, true, List.replicate 53 2⟩
def segwit : Addr := ⟨.liquid, .p2wpkh, false, List.replicate 20 255⟩
def blech : Addr := ⟨.liquid, .p2tr, true, List.replicate 65 2⟩

/-- `C88_reads` for them: by all classes of both chains. -/
def all : List (Chain × Kind × Bool) := [.elements, .liquid].flatMap fun c => [.p2pkh, .p2wpkh, .p2sh, .p2wsh, .p2tr].flatMap fun k => [(c, k, false), (c, k, true)]

example : ∃ s, addrStr hash codec plain = .ok s ∧ addrParse hash codec all s = .ok plain :=
  let ⟨s, h1, h2⟩ := C88_reads hash_len standard plain rfl
  ⟨s, h1, h2 (fun h => by cases h) all (by decide)⟩
example : ∃ s, addrStr hash codec conf = .ok s ∧ addrParse hash codec all s = .ok conf :=
  let ⟨s, h1, h2⟩ := C88_reads hash_len standard conf rfl
  ⟨s, h1, h2 (fun h => by cases h) all (by decide)⟩
example : ∃ s, addrStr hash codec blech = .ok s ∧ addrParse hash codec all s = .ok blech :=
  let ⟨s, h1, h2⟩ := C88_reads hash_len standard blech rfl
  ⟨s, h1, h2 (fun _ h => by cases h) all (by decide)⟩
/-- And for a bech32 text, which is not base58: it has an `0` or `l`. -/
example : ∃ s, addrStr hash codec segwit = .ok s ∧ addrParse hash codec all s = .ok segwit :=
  let ⟨s, h1, h2⟩ := C88_reads hash_len standard segwit rfl
  ⟨s, h1, h2 (fun _ _ d hb => by
    have e : s = encode Chain.liquid.bechHrp 0 (List.replicate 20 255) := (Except.ok.inj h1).symm
    have := (C88_decode s _).2 hb
    rw [e] at this
    revert this
    rw [encode, ← ((convert_back (List.replicate 32 31) (List.replicate 20 255)).1 (by decide +kernel)).2,
      show b58Decode _ = .error .address by decide +kernel]
    intro h
    cases h) all (by decide)⟩

end Verif.AddrText.Toy
