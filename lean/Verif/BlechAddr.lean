import Verif.BlechLemmas
import Verif.Spec.Blech
/-
`decode` and `encode` of `liquid_addr.py` as one canonical text per version and program.
-/
namespace Verif
open Spec

/-- The 5-bit symbols of a program. -/
def progSyms (prog : Bytes) : List Nat :=
  (convertbits (prog.map fun b => (b.toNat : Int)) 8 5 true).getD []

theorem bytes_inRange (prog : Bytes) : InRange 8 (prog.map fun b => (b.toNat : Int)) := by
  intro v hv
  rw [List.mem_map] at hv
  obtain ⟨b, _, rfl⟩ := hv
  exact ⟨Int.natCast_nonneg _, by rw [Int.toNat_natCast]; exact b.toNat_lt⟩

theorem map_toNat_cast (l : List Nat) : (l.map fun (n : Nat) => (n : Int)).map Int.toNat = l := by
  rw [List.map_map]
  calc _ = l.map id := List.map_congr_left fun n _ => Int.toNat_natCast n
    _ = l := List.map_id l

theorem bytes_toNat (prog : Bytes) :
    (prog.map fun b => (b.toNat : Int)).map Int.toNat = prog.map UInt8.toNat := by
  rw [List.map_map]; rfl

theorem convert_pad_some (f t : Nat) (data : List Int) (h : InRange f data) :
    ∃ r, convertbits data f t true = some r := by
  rw [convertbits]
  cases hc : convertLoop f t data 0 0 [] with
  | none => rw [convertLoop_none] at hc; exact absurd h hc
  | some p => exact ⟨_, rfl⟩

theorem convert_prog (prog : Bytes) :
    convertbits (prog.map fun b => (b.toNat : Int)) 8 5 true = some (progSyms prog) := by
  obtain ⟨r, hr⟩ := convert_pad_some 8 5 _ (bytes_inRange prog)
  rw [progSyms, hr]; rfl

theorem progSyms_spec (prog : Bytes) : (∀ v ∈ progSyms prog, v < 32) ∧
    ∃ z, z < 5 ∧ bitString 5 (progSyms prog) = bitString 8 (prog.map UInt8.toNat) ++ List.replicate z false := by
  have h := (convertbits_pad_iff 8 5 (by omega) _ _).1 (convert_prog prog)
  rw [bytes_toNat] at h
  exact h.2

theorem progSyms_length (prog : Bytes) : (progSyms prog).length = (8 * prog.length + 4) / 5 := by
  obtain ⟨_, z, hz, h⟩ := progSyms_spec prog
  have := congrArg List.length h
  simp only [List.length_append, length_bitString, List.length_replicate, List.length_map] at this
  omega

/-- Reading back symbols gives the program exactly when they are its symbols. -/
theorem convert_back (l : List Nat) (prog : Bytes) :
    convertbits (l.map fun (n : Nat) => (n : Int)) 5 8 false = some (prog.map UInt8.toNat)
      ↔ (∀ v ∈ l, v < 32) ∧ l = progSyms prog := by
  rw [convertbits_nopad_iff 5 8 (by omega), map_toNat_cast]
  obtain ⟨p1, z, hz, hb⟩ := progSyms_spec prog
  have hin : InRange 5 (l.map fun (n : Nat) => (n : Int)) ↔ ∀ v ∈ l, v < 32 := by
    simp only [InRange, List.forall_mem_map, Int.toNat_natCast]
    exact ⟨fun h v hv => (h v hv).2, fun h v hv => ⟨Int.natCast_nonneg v, h v hv⟩⟩
  have hbytes : ∀ r ∈ prog.map UInt8.toNat, r < 2 ^ 8 := by
    intro r hr
    rw [List.mem_map] at hr
    obtain ⟨b, _, rfl⟩ := hr
    exact b.toNat_lt
  rw [hin]
  constructor
  · rintro ⟨hl, _, z', hz1, hz2, he⟩
    refine ⟨hl, ?_⟩
    have l1 := congrArg List.length he
    have l2 := congrArg List.length hb
    simp only [List.length_append, length_bitString, List.length_replicate, List.length_map] at l1 l2
    have : z = z' := by omega
    subst this
    exact bitString_inj 5 _ _ hl p1 (by omega) (by rw [he, hb])
  · rintro ⟨hl, rfl⟩
    exact ⟨hl, hbytes, z, by omega, hz, hb⟩

theorem ofNat_toNat_map (l : List Nat) (h : ∀ r ∈ l, r < 2 ^ 8) :
    (l.map UInt8.ofNat).map UInt8.toNat = l := by
  rw [List.map_map]
  calc _ = l.map id := List.map_congr_left fun n hn => by
        have := h n hn
        simp only [Function.comp_apply, UInt8.toNat_ofNat', id]
        omega
    _ = l := List.map_id l

def encOf (v : Nat) : Encoding := if v = 0 then .bech32 else .bech32m

/-- The canonical text of a version and program. -/
def blechText (hrp : PyStr) (v : Nat) (prog : Bytes) : PyStr :=
  hrp ++ 49 :: ((v :: progSyms prog) ++ createChecksum (encOf v) hrp (v :: progSyms prog)).map symChar

theorem createChecksum_length (e : Encoding) (hrp : PyStr) (data : List Nat) :
    (createChecksum e hrp data).length = 12 := by
  rw [createChecksum_eq, digits12_length]

theorem createChecksum_lt (e : Encoding) (hrp : PyStr) (data : List Nat) :
    ∀ v ∈ createChecksum e hrp data, v < 32 := by
  rw [createChecksum_eq]; exact digits12_lt _

theorem blechText_length (hrp : PyStr) (v : Nat) (prog : Bytes) :
    (blechText hrp v prog).length = hrp.length + 14 + (8 * prog.length + 4) / 5 := by
  simp only [blechText, List.length_append, List.length_cons, List.length_map, createChecksum_length,
    progSyms_length]
  omega

/-- The text splits in a single way. -/
theorem text_inj {h h' : PyStr} {d d' : List Nat} (hd : ∀ v ∈ d, v < 32) (hd' : ∀ v ∈ d', v < 32)
    (he : h ++ 49 :: d.map symChar = h' ++ 49 :: d'.map symChar) : h = h' ∧ d = d' := by
  have nomem : ∀ d : List Nat, (∀ v ∈ d, v < 32) → 49 ∉ d.map symChar := by
    intro t ht hm
    rw [List.mem_map] at hm
    obtain ⟨x, hx, hx2⟩ := hm
    exact (charset_facts _ (symChar_mem x (ht x hx))).2.2.1 hx2
  have r1 := rfind_split (a := h) (nomem d hd)
  have r2 := rfind_split (a := h') (nomem d' hd')
  rw [he, r2] at r1
  obtain ⟨e1, e2⟩ := List.append_inj he (by omega)
  refine ⟨e1, ?_⟩
  rw [List.cons.injEq] at e2
  have e3 := congrArg (List.map (CHARSET.idxOf ·)) e2.2
  have hm : ∀ d : List Nat, (∀ v ∈ d, v < 32) → (d.map symChar).map (CHARSET.idxOf ·) = d := by
    intro d hd
    rw [List.map_map]
    calc _ = d.map id := List.map_congr_left fun x hx => idxOf_symChar x (hd x hx)
      _ = d := List.map_id d
  rwa [hm d hd, hm d' hd'] at e3

theorem blechDecode_iff (hrp s : PyStr) (v : Nat) (prog : Bytes) :
    blechDecode hrp s = some (v, prog) ↔
      TextOk s ∧ hrp ≠ [] ∧ ProgOk v prog.length ∧ lower s = blechText hrp v prog := by
  rw [blechDecode]
  constructor
  · intro h
    cases hd : blech32Decode s with
    | none => rw [hd] at h; cases h
    | some r =>
      obtain ⟨e, hg, data⟩ := r
      rw [hd] at h
      dsimp only at h
      rw [blech32Decode_iff] at hd
      obtain ⟨ht, hne, hlt, hs⟩ := hd
      by_cases hh : hg ≠ hrp
      · rw [if_pos hh] at h; cases h
      · rw [if_neg hh] at h
        rw [ne_eq, Decidable.not_not] at hh
        subst hh
        cases hc : convertbits ((data.drop 1).map (fun (n : Nat) => (n : Int))) 5 8 false with
        | none => rw [hc] at h; cases h
        | some dec =>
          rw [hc] at h
          dsimp only at h
          by_cases c1 : dec.length < 2 ∨ dec.length > 40 + 33
          · rw [if_pos c1] at h; cases h
          · rw [if_neg c1] at h
            by_cases c2 : data.headD 0 > 16
            · rw [if_pos c2] at h; cases h
            · rw [if_neg c2] at h
              by_cases c3 : data.headD 0 = 0 ∧ dec.length ≠ 20 + 33 ∧ dec.length ≠ 32 + 33
              · rw [if_pos c3] at h; cases h
              · rw [if_neg c3] at h
                by_cases c4 : (data.headD 0 = 0 ∧ e ≠ .bech32) ∨ (data.headD 0 ≠ 0 ∧ e ≠ .bech32m)
                · rw [if_pos c4] at h; cases h
                · rw [if_neg c4, Option.some.injEq, Prod.mk.injEq] at h
                  obtain ⟨hv, hp⟩ := h
                  have hr := ((convertbits_nopad_iff 5 8 (by omega) _ _).1 hc).2.1
                  have hdec : dec = prog.map UInt8.toNat := by rw [← hp, ofNat_toNat_map dec hr]
                  rw [hdec, convert_back] at hc
                  have hlen : prog.length = dec.length := by rw [hdec, List.length_map]
                  -- the data part is not empty, as the program is not
                  cases data with
                  | nil =>
                    exfalso
                    have := hc.2
                    rw [List.drop_nil] at this
                    have h0 := progSyms_length prog
                    rw [← this] at h0
                    simp only [List.length_nil] at h0
                    omega
                  | cons a data =>
                    rw [List.headD_cons] at hv c2 c3 c4
                    subst hv
                    rw [List.drop_succ_cons, List.drop_zero] at hc
                    have hE : e = encOf a := by
                      rw [encOf]
                      by_cases ha : a = 0
                      · rw [if_pos ha]
                        by_contra hne'
                        exact c4 (Or.inl ⟨ha, hne'⟩)
                      · rw [if_neg ha]
                        by_contra hne'
                        exact c4 (Or.inr ⟨ha, hne'⟩)
                    refine ⟨ht, hne, ⟨by omega, by omega, by omega, ?_⟩, ?_⟩
                    · intro ha
                      by_contra hn
                      exact c3 ⟨ha, by omega, by omega⟩
                    · rw [blechText, hs, ← hc.2, hE]
  · rintro ⟨ht, hne, ⟨p1, p2, p3, p4⟩, hs⟩
    have hlt : ∀ x ∈ v :: progSyms prog, x < 32 := by
      intro x hx
      rcases List.mem_cons.1 hx with rfl | hx
      · omega
      · exact (progSyms_spec prog).1 x hx
    rw [(blech32Decode_iff s (encOf v) hrp (v :: progSyms prog)).2 ⟨ht, hne, hlt, hs⟩]
    dsimp only
    rw [if_neg (fun h => h rfl), List.drop_succ_cons, List.drop_zero,
      (convert_back _ prog).2 ⟨(progSyms_spec prog).1, rfl⟩]
    dsimp only
    rw [List.length_map, if_neg (by omega), List.headD_cons, if_neg (by omega),
      if_neg (by rintro ⟨h0, h1, h2⟩; have := p4 h0; omega), if_neg]
    · congr 2
      rw [List.map_map]
      calc _ = prog.map id := List.map_congr_left fun b _ => UInt8.ofNat_toNat
        _ = prog := List.map_id prog
    · rw [encOf]
      rintro (⟨h0, h1⟩ | ⟨h0, h1⟩)
      · rw [if_pos h0] at h1; exact h1 rfl
      · rw [if_neg h0] at h1; exact h1 rfl

theorem lowerChar_self {c : Nat} (h : ¬ (65 ≤ c ∧ c ≤ 90)) : lowerChar c = c := if_neg h

theorem lowerChar_eq_self {c : Nat} : lowerChar c = c ↔ ¬ (65 ≤ c ∧ c ≤ 90) := by
  rw [lowerChar]
  split <;> omega

theorem lower_eq_self (s : PyStr) : lower s = s ↔ ∀ c ∈ s, ¬ (65 ≤ c ∧ c ≤ 90) := by
  rw [lower]
  conv => lhs; rhs; rw [← List.map_id s]
  rw [List.map_inj_left]
  simp only [id, lowerChar_eq_self]

theorem lower_lower (s : PyStr) : lower (lower s) = lower s := by
  rw [lower_eq_self]
  intro c hc
  rw [lower, List.mem_map] at hc
  obtain ⟨d, _, rfl⟩ := hc
  rw [lowerChar]
  split <;> omega

theorem symChars_fine (d : List Nat) (hd : ∀ v ∈ d, v < 32) :
    ∀ c ∈ d.map symChar, 33 ≤ c ∧ c ≤ 126 ∧ ¬ (65 ≤ c ∧ c ≤ 90) := by
  intro c hc
  rw [List.mem_map] at hc
  obtain ⟨x, hx, rfl⟩ := hc
  obtain ⟨_, _, _, h1, h2, h3⟩ := charset_facts _ (symChar_mem x (hd x hx))
  exact ⟨h2, h3, lowerChar_eq_self.1 h1⟩

theorem textSyms_lt (hrp : PyStr) (v : Nat) (hv : v < 32) (prog : Bytes) :
    ∀ x ∈ (v :: progSyms prog) ++ createChecksum (encOf v) hrp (v :: progSyms prog), x < 32 := by
  intro x hx
  rw [List.mem_append, List.mem_cons] at hx
  rcases hx with (rfl | hx) | hx
  · exact hv
  · exact (progSyms_spec prog).1 x hx
  · exact createChecksum_lt _ _ _ x hx

/-- The canonical text passes the character checks exactly with a proper human readable part. -/
theorem text_ok_iff (hrp : PyStr) (v : Nat) (hv : v < 32) (prog : Bytes) :
    (TextOk (blechText hrp v prog) ∧ hrp ≠ [] ∧ lower (blechText hrp v prog) = blechText hrp v prog)
      ↔ HrpOk hrp ∧ hrp.length + 14 + (8 * prog.length + 4) / 5 ≤ 1000 := by
  have hc := symChars_fine _ (textSyms_lt hrp v hv prog)
  constructor
  · rintro ⟨⟨h1, _, h3⟩, hne, hl⟩
    rw [lower_eq_self] at hl
    rw [blechText_length] at h3
    refine ⟨⟨hne, fun c hc => ?_⟩, h3⟩
    have m : c ∈ blechText hrp v prog := List.mem_append_left _ hc
    exact ⟨(h1 c m).1, (h1 c m).2, hl c m⟩
  · rintro ⟨⟨hne, hh⟩, hl⟩
    have key : ∀ c ∈ blechText hrp v prog, 33 ≤ c ∧ c ≤ 126 ∧ ¬ (65 ≤ c ∧ c ≤ 90) := by
      intro c hm
      rw [blechText, List.mem_append, List.mem_cons] at hm
      rcases hm with hm | rfl | hm
      · exact hh c hm
      · omega
      · exact hc c hm
    have hlow := (lower_eq_self _).2 fun c hm => (key c hm).2.2
    exact ⟨⟨fun c hm => ⟨(key c hm).1, (key c hm).2.1⟩, Or.inl hlow, by rw [blechText_length]; exact hl⟩,
      hne, hlow⟩

theorem blechEncode_eq (hrp : PyStr) (v : Nat) (prog : Bytes) :
    blechEncode hrp v prog =
      if v < 32 then
        .ok (if blechDecode hrp (blechText hrp v prog) = none then none else some (blechText hrp v prog))
      else .error .indexError := by
  rw [blechEncode]
  rw [convert_prog]
  dsimp only
  rw [blech32Encode]
  by_cases hv : v < 32
  · rw [if_pos hv]
    have := mapM_charsetAt _ (textSyms_lt hrp v hv prog)
    rw [encOf] at this
    rw [this]
    show Except.ok _ = _
    rw [blechText, encOf]
    simp
  · rw [if_neg hv, List.cons_append, mapM_charsetAt_err _ _ (by omega)]
    rfl

theorem blechEncode_iff (hrp : PyStr) (v : Nat) (prog : Bytes) (s : PyStr) :
    blechEncode hrp v prog = .ok (some s) ↔
      s = blechText hrp v prog ∧ HrpOk hrp ∧ ProgOk v prog.length
      ∧ hrp.length + 14 + (8 * prog.length + 4) / 5 ≤ 1000 := by
  rw [blechEncode_eq]
  by_cases hv : v < 32
  · rw [if_pos hv, Except.ok.injEq]
    by_cases hd : blechDecode hrp (blechText hrp v prog) = none
    · rw [if_pos hd]
      constructor
      · intro h; cases h
      · rintro ⟨_, h1, h2, h3⟩
        obtain ⟨t1, t2, t3⟩ := (text_ok_iff hrp v hv prog).2 ⟨h1, h3⟩
        have := (blechDecode_iff hrp _ v prog).2 ⟨t1, t2, h2, t3⟩
        rw [hd] at this; cases this
    · rw [if_neg hd, Option.some.injEq]
      constructor
      · rintro rfl
        cases hd2 : blechDecode hrp (blechText hrp v prog) with
        | none => exact absurd hd2 hd
        | some r =>
          obtain ⟨v', prog'⟩ := r
          rw [blechDecode_iff] at hd2
          obtain ⟨h1, h2, h3, h4⟩ := hd2
          -- lower case of our text splits the same way
          have hlow : lower (blechText hrp v prog)
              = lower hrp ++ 49 :: ((v :: progSyms prog) ++ createChecksum (encOf v) hrp (v :: progSyms prog)).map symChar := by
            have hc := symChars_fine _ (textSyms_lt hrp v hv prog)
            have e := (lower_eq_self _).2 fun c hm => (hc c hm).2.2
            rw [blechText, lower, List.map_append, List.map_cons]
            rw [lower] at e
            rw [e]; rfl
          have hv' : v' < 32 := by have := h3.1; omega
          have h4' := h4
          rw [hlow, blechText] at h4'
          obtain ⟨e1, e2⟩ := text_inj (textSyms_lt hrp v hv prog) (textSyms_lt hrp v' hv' prog') h4'
          obtain ⟨e3, e4⟩ := List.append_inj' e2 (by rw [createChecksum_length, createChecksum_length])
          rw [List.cons.injEq] at e3
          -- programs with equal symbols are equal
          have hprog : prog = prog' := by
            have a := (convert_back (progSyms prog) prog).2 ⟨(progSyms_spec prog).1, rfl⟩
            have b := (convert_back (progSyms prog) prog').2 ⟨(progSyms_spec prog).1, e3.2⟩
            rw [a, Option.some.injEq] at b
            have := congrArg (List.map UInt8.ofNat) b
            rw [List.map_map, List.map_map] at this
            have hid : ∀ l : Bytes, l.map (UInt8.ofNat ∘ UInt8.toNat) = l := by
              intro l
              calc _ = l.map id := List.map_congr_left fun b _ => UInt8.ofNat_toNat
                _ = l := List.map_id l
            rwa [hid, hid] at this
          obtain ⟨rfl, _⟩ := e3
          subst hprog
          obtain ⟨t1, t2⟩ := (text_ok_iff hrp v hv prog).1 ⟨h1, h2, h4⟩
          exact ⟨rfl, t1, h3, t2⟩
      · rintro ⟨h, _⟩; exact h.symm
  · rw [if_neg hv]
    constructor
    · intro h; cases h
    · rintro ⟨_, _, ⟨h1, _⟩, _⟩; omega

end Verif
