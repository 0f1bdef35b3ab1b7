import Verif.Bech32
import Verif.BlechAddr
import Verif.Props.AddrText
/-
C88: the codec of segwit addresses without blinding key keeps what BIP 173 and BIP 350 promise.  The proofs are those for `liquid_addr.py`,
with the other numbers.
-/
namespace Verif.Bech
open Verif Spec AddrText

/-! ### The checksum register -/

def gterm (i c : Nat) : Nat := if (c >>> 25 >>> i) &&& 1 ≠ 0 then generator.getD i 0 else 0

def stepT (c : Nat) : Nat :=
  ((c &&& 0x1ffffff) <<< 5) ^^^ gterm 0 c ^^^ gterm 1 c ^^^ gterm 2 c ^^^ gterm 3 c ^^^ gterm 4 c

theorem polymodStep_eq (c v : Nat) : polymodStep c v = stepT c ^^^ v := by
  have : polymodStep c v = (((c &&& 0x1ffffff) <<< 5) ^^^ v) ^^^ gterm 0 c ^^^ gterm 1 c ^^^ gterm 2 c
      ^^^ gterm 3 c ^^^ gterm 4 c := rfl
  rw [this, stepT]
  ac_rfl

theorem gterm_xor (i a b : Nat) : gterm i (a ^^^ b) = gterm i a ^^^ gterm i b := by
  simp only [gterm, Nat.shiftRight_xor_distrib, Nat.and_xor_distrib_right]
  have h : ∀ x : Nat, x &&& 1 = 0 ∨ x &&& 1 = 1 := by
    intro x; rw [Nat.and_one_is_mod]; omega
  rcases h (a >>> 25 >>> i) with h1 | h1 <;> rcases h (b >>> 25 >>> i) with h2 | h2 <;> rw [h1, h2] <;> simp

theorem stepT_xor (a b : Nat) : stepT (a ^^^ b) = stepT a ^^^ stepT b := by
  simp only [stepT, gterm_xor, Nat.and_xor_distrib_right, Nat.shiftLeft_xor_distrib]
  ac_rfl

theorem stepT_lt (c : Nat) : stepT c < 2 ^ 30 := by
  have hg : ∀ i < 5, gterm i c < 2 ^ 30 := by
    intro i hi
    simp only [gterm]
    split
    · exact (by decide +kernel : ∀ i < 5, generator.getD i 0 < 2 ^ 30) i hi
    · decide
  have h0 : (c &&& 0x1ffffff) <<< 5 < 2 ^ 30 := by
    have : c &&& 0x1ffffff ≤ 0x1ffffff := Nat.and_le_right
    rw [Nat.shiftLeft_eq]; omega
  exact Nat.xor_lt_two_pow (Nat.xor_lt_two_pow (Nat.xor_lt_two_pow (Nat.xor_lt_two_pow
    (Nat.xor_lt_two_pow h0 (hg 0 (by omega))) (hg 1 (by omega))) (hg 2 (by omega))) (hg 3 (by omega)))
    (hg 4 (by omega))

theorem stepT_small (c : Nat) (h : c < 2 ^ 25) : stepT c = c * 32 := by
  have h0 : c >>> 25 = 0 := by
    rw [Nat.shiftRight_eq_div_pow]; exact Nat.div_eq_of_lt h
  have hg : ∀ i, gterm i c = 0 := by
    intro i; simp [gterm, h0]
  have hm : c &&& 0x1ffffff = c := by
    have := Nat.and_two_pow_sub_one_eq_mod c 25
    rw [show (2 ^ 25 - 1 : Nat) = 0x1ffffff from rfl] at this
    rw [this, Nat.mod_eq_of_lt h]
  simp [stepT, hg, hm, Nat.shiftLeft_eq]

def run (c : Nat) (vs : List Nat) : Nat := vs.foldl polymodStep c

theorem run_append (c : Nat) (a b : List Nat) : run c (a ++ b) = run (run c a) b := by
  simp [run, List.foldl_append]

theorem polymod_append (a b : List Nat) : polymod (a ++ b) = run (polymod a) b := run_append 1 a b

/-- The register is affine in its start and in its inputs. -/
theorem run_zip (u v : List Nat) (a b : Nat) (h : u.length = v.length) :
    run (a ^^^ b) (List.zipWith (· ^^^ ·) u v) = run a u ^^^ run b v := by
  induction u generalizing v a b with
  | nil => cases v with
    | nil => rfl
    | cons _ _ => simp at h
  | cons x u ih =>
    cases v with
    | nil => simp at h
    | cons y v =>
      have hs : polymodStep (a ^^^ b) (x ^^^ y) = polymodStep a x ^^^ polymodStep b y := by
        simp only [polymodStep_eq, stepT_xor]; ac_rfl
      show run (polymodStep (a ^^^ b) (x ^^^ y)) _ = _
      rw [hs]
      exact ih v _ _ (by simpa using h)

theorem run_split (c : Nat) (cs : List Nat) :
    run c cs = run c (List.replicate cs.length 0) ^^^ run 0 cs := by
  have h := run_zip (List.replicate cs.length 0) cs c 0 (by simp)
  rw [Nat.xor_zero] at h
  rw [← h]
  congr 1
  clear h
  induction cs with
  | nil => rfl
  | cons a l ih => simp [List.replicate_succ, ← ih]

/-- Six symbols from a zero register are just stored. -/
theorem run_zero (cs : List Nat) (hl : cs.length ≤ 6) (hv : ∀ v ∈ cs, v < 32) : run 0 cs = num 5 cs := by
  induction cs using List.reverseRecOn with
  | nil => rfl
  | append_singleton l a ih =>
    rw [List.length_append, List.length_singleton] at hl
    have hv' : ∀ v ∈ l, v < 32 := fun v hm => hv v (by simp [hm])
    have hlt : num 5 l < 2 ^ 25 := Nat.lt_of_lt_of_le (num_lt 5 l hv')
      (Nat.pow_le_pow_right (by omega) (by omega))
    rw [run_append, ih (by omega) hv', num_append]
    show polymodStep (num 5 l) a = _
    rw [polymodStep_eq, stepT_small _ hlt, xor_digit _ _ (hv a (by simp))]
    rfl

theorem run_zeros_lt (c n : Nat) (hn : 0 < n) : run c (List.replicate n 0) < 2 ^ 30 := by
  obtain ⟨k, rfl⟩ : ∃ k, n = k + 1 := ⟨n - 1, by omega⟩
  rw [List.replicate_succ', run_append]
  show polymodStep _ 0 < _
  rw [polymodStep_eq, Nat.xor_zero]
  exact stepT_lt _

/-- The six base 32 digits of a number. -/
def digits6 (p : Nat) : List Nat := (List.range 6).map fun i => (p >>> (5 * (5 - i))) &&& 31

theorem digits6_length (p : Nat) : (digits6 p).length = 6 := by simp [digits6]

theorem digits6_lt (p : Nat) : ∀ v ∈ digits6 p, v < 32 := by
  intro v hv
  simp only [digits6, List.mem_map] at hv
  obtain ⟨i, _, rfl⟩ := hv
  have : ∀ x : Nat, x &&& 31 ≤ 31 := fun _ => Nat.and_le_right
  have := this (p >>> (5 * (5 - i)))
  omega

theorem num_digits6 (p : Nat) (hp : p < 2 ^ 30) : num 5 (digits6 p) = p := by
  rw [digits6, num_digs 6 p, Nat.mod_eq_of_lt hp]

def encConst (e : Encoding) : Nat := if e = .bech32m then BECH32M_CONST else BECH32_CONST

theorem encConst_lt (e : Encoding) : encConst e < 2 ^ 30 := by cases e <;> decide +kernel

theorem encConst_inj {e f : Encoding} (h : encConst e = encConst f) : e = f := by
  cases e <;> cases f <;> first | rfl | exact absurd h (by decide +kernel)

theorem createChecksum_eq (e : Encoding) (hrp : PyStr) (data : List Nat) :
    createChecksum e hrp data
      = digits6 (polymod ((hrpExpand hrp ++ data) ++ List.replicate 6 0) ^^^ encConst e) := rfl

/-- The six symbols that make the register end at the constant are the created checksum,
and no others. -/
theorem checksum_iff (e : Encoding) (hrp : PyStr) (data cs : List Nat) :
    (cs.length = 6 ∧ (∀ v ∈ cs, v < 32) ∧ polymod (hrpExpand hrp ++ (data ++ cs)) = encConst e)
      ↔ cs = createChecksum e hrp data := by
  have hz : polymod ((hrpExpand hrp ++ data) ++ List.replicate 6 0) < 2 ^ 30 := by
    rw [polymod_append]; exact run_zeros_lt _ 6 (by omega)
  have hp := Nat.xor_lt_two_pow hz (encConst_lt e)
  have key : ∀ cs : List Nat, cs.length = 6 → (∀ v ∈ cs, v < 32) →
      polymod (hrpExpand hrp ++ (data ++ cs))
        = polymod ((hrpExpand hrp ++ data) ++ List.replicate 6 0) ^^^ num 5 cs := by
    intro cs hl hv
    rw [← List.append_assoc, polymod_append _ cs, run_split, hl, run_zero cs (by omega) hv,
      polymod_append _ (List.replicate 6 0)]
  rw [createChecksum_eq]
  constructor
  · rintro ⟨hl, hv, h⟩
    rw [key cs hl hv] at h
    apply num_inj 5 _ _ hv (digits6_lt _) (by rw [hl, digits6_length])
    rw [num_digits6 _ hp, ← h, ← Nat.xor_assoc, Nat.xor_self, Nat.zero_xor]
  · rintro rfl
    refine ⟨digits6_length _, digits6_lt _, ?_⟩
    rw [key _ (digits6_length _) (digits6_lt _), num_digits6 _ hp, ← Nat.xor_assoc, Nat.xor_self,
      Nat.zero_xor]

theorem verifyChecksum_iff (hrp : PyStr) (data : List Nat) (e : Encoding) :
    verifyChecksum hrp data = some e ↔ polymod (hrpExpand hrp ++ data) = encConst e := by
  rw [verifyChecksum]
  have h1 : encConst .bech32 = BECH32_CONST := rfl
  have h2 : encConst .bech32m = BECH32M_CONST := rfl
  have h3 : BECH32_CONST ≠ BECH32M_CONST := by decide +kernel
  by_cases ha : polymod (hrpExpand hrp ++ data) = BECH32_CONST
  · rw [if_pos ha, ha]
    cases e
    · simp [h1]
    · simp only [Option.some.injEq, h2]
      exact ⟨(fun h => nomatch h), fun h => absurd h h3⟩
  · rw [if_neg ha]
    by_cases hb : polymod (hrpExpand hrp ++ data) = BECH32M_CONST
    · rw [if_pos hb, hb]
      cases e
      · simp only [Option.some.injEq, h1]
        exact ⟨(fun h => nomatch h), fun h => absurd h.symm h3⟩
      · simp [h2]
    · rw [if_neg hb]
      cases e
      · simpa [h1] using ha
      · simpa [h2] using hb

/-! ### Text -/

/-- Printable, not mixed case, at most ninety characters. -/
def TextOk (s : PyStr) : Prop :=
  (∀ c ∈ s, 33 ≤ c ∧ c ≤ 126) ∧ (lower s = s ∨ upper s = s) ∧ s.length ≤ 90

/-- `bech32_decode` accepts exactly the strings of this shape. -/
theorem bech32Decode_iff (s : PyStr) (e : Encoding) (hrp : PyStr) (data : List Nat) :
    bech32Decode s = some (e, hrp, data) ↔
      TextOk s ∧ hrp ≠ [] ∧ (∀ v ∈ data, v < 32)
      ∧ lower s = hrp ++ 49 :: (data ++ createChecksum e hrp data).map symChar := by
  rw [bech32Decode]
  by_cases h1 : s.any (fun x => decide (x < 33) || decide (x > 126)) || (lower s != s && upper s != s)
  · rw [if_pos h1]
    constructor
    · intro h; cases h
    · rintro ⟨⟨hp, hc, _⟩, _⟩
      exfalso
      rw [Bool.or_eq_true, Bool.and_eq_true, List.any_eq_true] at h1
      rcases h1 with ⟨x, hx, hx2⟩ | ⟨ha, hb⟩
      · have := hp x hx
        simp only [Bool.or_eq_true, decide_eq_true_eq] at hx2
        omega
      · rw [bne_iff_ne] at ha hb
        rcases hc with hc | hc
        · exact ha hc
        · exact hb hc
  · rw [if_neg h1]
    have hp : ∀ c ∈ s, 33 ≤ c ∧ c ≤ 126 := by
      intro c hc
      rw [Bool.or_eq_true, List.any_eq_true] at h1
      by_contra hn
      apply h1; left
      refine ⟨c, hc, ?_⟩
      simp only [Bool.or_eq_true, decide_eq_true_eq]
      omega
    have hcase : lower s = s ∨ upper s = s := by
      by_contra hn
      rw [not_or] at hn
      apply h1
      simp [hn.1, hn.2]
    dsimp only
    have hshape : ∀ (h : PyStr) (t : List Nat), (∀ v ∈ t, v < 32) → 49 ∉ t.map symChar := by
      intro _ t ht hm
      rw [List.mem_map] at hm
      obtain ⟨d, hd, hd2⟩ := hm
      exact (charset_facts _ (symChar_mem d (ht d hd))).2.2.1 hd2
    constructor
    · intro h
      by_cases h2 : rfind 49 (lower s) < 1 ∨ rfind 49 (lower s) + 7 > (lower s).length ∨ (lower s).length > 90
      · rw [if_pos h2] at h; cases h
      · rw [if_neg h2] at h
        by_cases hm : 49 ∈ lower s
        · obtain ⟨a, b, hab, hb⟩ := split_last hm
          rw [hab] at h h2
          rw [rfind_split hb] at h h2
          rw [Int.toNat_natCast] at h
          rw [List.length_append, List.length_cons] at h2
          have hdrop : (a ++ 49 :: b).drop (a.length + 1) = b := by
            rw [show a ++ 49 :: b = (a ++ [49]) ++ b by simp]
            exact List.drop_left' (by simp)
          have htake : (a ++ 49 :: b).take a.length = a := List.take_left' rfl
          rw [hdrop, htake] at h
          by_cases h3 : (!b.all (CHARSET.contains ·)) = true
          · rw [if_pos h3] at h; cases h
          · rw [if_neg h3] at h
            have hbm : ∀ c ∈ b, c ∈ CHARSET := by
              rw [Bool.not_eq_true, Bool.not_eq_false', List.all_eq_true] at h3
              intro c hc
              have := h3 c hc
              simpa using this
            cases hv : verifyChecksum a (b.map (CHARSET.idxOf ·)) with
            | none => rw [hv] at h; cases h
            | some e' =>
              rw [hv] at h
              simp only [Option.some.injEq, Prod.mk.injEq] at h
              obtain ⟨rfl, rfl, hdata⟩ := h
              rw [verifyChecksum_iff] at hv
              have hall : ∀ v ∈ b.map (CHARSET.idxOf ·), v < 32 := by
                intro v hv
                rw [List.mem_map] at hv
                obtain ⟨c, hc, rfl⟩ := hv
                exact (charset_facts c (hbm c hc)).2.1
              have hsplit : b.map (CHARSET.idxOf ·) = data ++ (b.map (CHARSET.idxOf ·)).drop ((b.map (CHARSET.idxOf ·)).length - 6) := by
                rw [← hdata]; exact (List.take_append_drop _ _).symm
              have hcs := (checksum_iff e' a data ((b.map (CHARSET.idxOf ·)).drop ((b.map (CHARSET.idxOf ·)).length - 6))).1
                ⟨by rw [List.length_drop, List.length_map]; omega,
                 fun v hv => hall v (List.mem_of_mem_drop hv), by rw [← hsplit]; exact hv⟩
              rw [hcs] at hsplit
              refine ⟨⟨hp, hcase, ?_⟩, ?_, ?_, ?_⟩
              · rw [← length_lower, hab, List.length_append, List.length_cons]; omega
              · rintro rfl; simp at h2
              · intro v hv
                exact hall v (by rw [hsplit]; simp [hv])
              · rw [hab, ← hsplit, List.map_map]
                congr 2
                have : ∀ l : List Nat, (∀ c ∈ l, c ∈ CHARSET) → l.map (symChar ∘ (CHARSET.idxOf ·)) = l := by
                  intro l hl
                  calc _ = l.map id := List.map_congr_left fun c hc => (charset_facts c (hl c hc)).1
                    _ = l := List.map_id l
                exact (this b hbm).symm
        · rw [rfind_none hm] at h2
          exact absurd (Or.inl (by omega)) h2
    · rintro ⟨⟨_, _, hlen⟩, hne, hd, hs⟩
      obtain ⟨c1, c2, c3⟩ := (checksum_iff e hrp data _).2 rfl
      have hall : ∀ v ∈ data ++ createChecksum e hrp data, v < 32 := by
        intro v hv
        rw [List.mem_append] at hv
        rcases hv with hv | hv
        · exact hd v hv
        · exact c2 v hv
      have hb := hshape hrp _ hall
      have hpos : 0 < hrp.length := List.length_pos_iff.2 hne
      rw [if_neg, hs, rfind_split hb, Int.toNat_natCast]
      · have hdrop : ∀ b : PyStr, (hrp ++ 49 :: b).drop (hrp.length + 1) = b := by
          intro b
          rw [show hrp ++ 49 :: b = (hrp ++ [49]) ++ b by simp]
          exact List.drop_left' (by simp)
        have htake : ∀ b : PyStr, (hrp ++ 49 :: b).take hrp.length = hrp := fun b => List.take_left' rfl
        rw [hdrop, htake]
        rw [if_neg]
        · have hmap : ((data ++ createChecksum e hrp data).map symChar).map (CHARSET.idxOf ·)
              = data ++ createChecksum e hrp data := by
            rw [List.map_map]
            calc _ = (data ++ createChecksum e hrp data).map id :=
                  List.map_congr_left fun d hd => idxOf_symChar d (hall d hd)
              _ = _ := List.map_id _
          rw [hmap, (verifyChecksum_iff hrp _ e).2 c3]
          simp only [List.length_append, c1]
          rw [show data.length + 6 - 6 = data.length by omega, List.take_left' rfl]
        · rw [Bool.not_eq_true, Bool.not_eq_false', List.all_eq_true]
          intro c hc
          rw [List.mem_map] at hc
          obtain ⟨d, hd, rfl⟩ := hc
          have := symChar_mem d (hall d hd)
          simpa using this
      · have hl2 : (lower s).length ≤ 90 := by rw [length_lower]; exact hlen
        rw [hs] at hl2 ⊢
        rw [rfind_split hb]
        simp only [List.length_append, List.length_cons, List.length_map, c1] at hl2 ⊢
        omega

/-! ### Programs -/

/-- Versions and sizes of programs of BIP 141. -/
structure ProgOk (v len : Nat) : Prop where
  version : v ≤ 16
  least : 2 ≤ len
  most : len ≤ 40
  zero : v = 0 → len = 20 ∨ len = 32

/-- The canonical text of a version and program. -/
def bechText (hrp : PyStr) (v : Nat) (prog : Bytes) : PyStr :=
  hrp ++ 49 :: ((v :: progSyms prog) ++ createChecksum (encOf v) hrp (v :: progSyms prog)).map symChar

theorem createChecksum_length (e : Encoding) (hrp : PyStr) (data : List Nat) :
    (createChecksum e hrp data).length = 6 := by
  rw [createChecksum_eq, digits6_length]

theorem createChecksum_lt (e : Encoding) (hrp : PyStr) (data : List Nat) :
    ∀ v ∈ createChecksum e hrp data, v < 32 := by
  rw [createChecksum_eq]; exact digits6_lt _

theorem bechText_length (hrp : PyStr) (v : Nat) (prog : Bytes) :
    (bechText hrp v prog).length = hrp.length + 8 + (8 * prog.length + 4) / 5 := by
  simp only [bechText, List.length_append, List.length_cons, List.length_map, createChecksum_length,
    progSyms_length]
  omega

theorem bechDecode_iff (hrp s : PyStr) (v : Nat) (prog : Bytes) :
    bechDecode hrp s = some (v, prog) ↔
      TextOk s ∧ hrp ≠ [] ∧ ProgOk v prog.length ∧ lower s = bechText hrp v prog := by
  rw [bechDecode]
  constructor
  · intro h
    cases hd : bech32Decode s with
    | none => rw [hd] at h; cases h
    | some r =>
      obtain ⟨e, hg, data⟩ := r
      rw [hd] at h
      dsimp only at h
      rw [bech32Decode_iff] at hd
      obtain ⟨ht, hne, hlt, hs⟩ := hd
      by_cases hh : hg ≠ hrp
      · rw [if_pos hh] at h; cases h
      · rw [if_neg hh] at h
        rw [ne_eq, Decidable.not_not] at hh
        subst hh
        cases hc : convertbits ((data.drop 1).map (fun (n : Nat) => (n : Int))) 5 8 false with
        | none => rw [hc] at h; cases h
        | some dec =>
          rw [hc] at h
          dsimp only at h
          by_cases c1 : dec.length < 2 ∨ dec.length > 40
          · rw [if_pos c1] at h; cases h
          · rw [if_neg c1] at h
            by_cases c2 : data.headD 0 > 16
            · rw [if_pos c2] at h; cases h
            · rw [if_neg c2] at h
              by_cases c3 : data.headD 0 = 0 ∧ dec.length ≠ 20 ∧ dec.length ≠ 32
              · rw [if_pos c3] at h; cases h
              · rw [if_neg c3] at h
                by_cases c4 : (data.headD 0 = 0 ∧ e ≠ .bech32) ∨ (data.headD 0 ≠ 0 ∧ e ≠ .bech32m)
                · rw [if_pos c4] at h; cases h
                · rw [if_neg c4, Option.some.injEq, Prod.mk.injEq] at h
                  obtain ⟨hv, hp⟩ := h
                  have hr := ((convertbits_nopad_iff 5 8 (by omega) _ _).1 hc).2.1
                  have hdec : dec = prog.map UInt8.toNat := by rw [← hp, ofNat_toNat_map dec hr]
                  rw [hdec, convert_back] at hc
                  have hlen : prog.length = dec.length := by rw [hdec, List.length_map]
                  -- the data part is not empty, as the program is not
                  cases data with
                  | nil =>
                    exfalso
                    have := hc.2
                    rw [List.drop_nil] at this
                    have h0 := progSyms_length prog
                    rw [← this] at h0
                    simp only [List.length_nil] at h0
                    omega
                  | cons a data =>
                    rw [List.headD_cons] at hv c2 c3 c4
                    subst hv
                    rw [List.drop_succ_cons, List.drop_zero] at hc
                    have hE : e = encOf a := by
                      rw [encOf]
                      by_cases ha : a = 0
                      · rw [if_pos ha]
                        by_contra hne'
                        exact c4 (Or.inl ⟨ha, hne'⟩)
                      · rw [if_neg ha]
                        by_contra hne'
                        exact c4 (Or.inr ⟨ha, hne'⟩)
                    refine ⟨ht, hne, ⟨by omega, by omega, by omega, ?_⟩, ?_⟩
                    · intro ha
                      by_contra hn
                      exact c3 ⟨ha, by omega, by omega⟩
                    · rw [bechText, hs, ← hc.2, hE]
  · rintro ⟨ht, hne, ⟨p1, p2, p3, p4⟩, hs⟩
    have hlt : ∀ x ∈ v :: progSyms prog, x < 32 := by
      intro x hx
      rcases List.mem_cons.1 hx with rfl | hx
      · omega
      · exact (progSyms_spec prog).1 x hx
    rw [(bech32Decode_iff s (encOf v) hrp (v :: progSyms prog)).2 ⟨ht, hne, hlt, hs⟩]
    dsimp only
    rw [if_neg (fun h => h rfl), List.drop_succ_cons, List.drop_zero,
      (convert_back _ prog).2 ⟨(progSyms_spec prog).1, rfl⟩]
    dsimp only
    rw [List.length_map, if_neg (by omega), List.headD_cons, if_neg (by omega),
      if_neg (by rintro ⟨h0, h1, h2⟩; have := p4 h0; omega), if_neg]
    · congr 2
      rw [List.map_map]
      calc _ = prog.map id := List.map_congr_left fun b _ => UInt8.ofNat_toNat
        _ = prog := List.map_id prog
    · rw [encOf]
      rintro (⟨h0, h1⟩ | ⟨h0, h1⟩)
      · rw [if_pos h0] at h1; exact h1 rfl
      · rw [if_neg h0] at h1; exact h1 rfl

theorem textSyms_lt (hrp : PyStr) (v : Nat) (hv : v < 32) (prog : Bytes) :
    ∀ x ∈ (v :: progSyms prog) ++ createChecksum (encOf v) hrp (v :: progSyms prog), x < 32 := by
  intro x hx
  rw [List.mem_append, List.mem_cons] at hx
  rcases hx with (rfl | hx) | hx
  · exact hv
  · exact (progSyms_spec prog).1 x hx
  · exact createChecksum_lt _ _ _ x hx

/-- The canonical text passes the character checks exactly with a proper human readable part. -/
theorem text_ok_iff (hrp : PyStr) (v : Nat) (hv : v < 32) (prog : Bytes) :
    (TextOk (bechText hrp v prog) ∧ hrp ≠ [] ∧ lower (bechText hrp v prog) = bechText hrp v prog)
      ↔ HrpOk hrp ∧ hrp.length + 8 + (8 * prog.length + 4) / 5 ≤ 90 := by
  have hc := symChars_fine _ (textSyms_lt hrp v hv prog)
  constructor
  · rintro ⟨⟨h1, _, h3⟩, hne, hl⟩
    rw [lower_eq_self] at hl
    rw [bechText_length] at h3
    refine ⟨⟨hne, fun c hc => ?_⟩, h3⟩
    have m : c ∈ bechText hrp v prog := List.mem_append_left _ hc
    exact ⟨(h1 c m).1, (h1 c m).2, hl c m⟩
  · rintro ⟨⟨hne, hh⟩, hl⟩
    have key : ∀ c ∈ bechText hrp v prog, 33 ≤ c ∧ c ≤ 126 ∧ ¬ (65 ≤ c ∧ c ≤ 90) := by
      intro c hm
      rw [bechText, List.mem_append, List.mem_cons] at hm
      rcases hm with hm | rfl | hm
      · exact hh c hm
      · omega
      · exact hc c hm
    have hlow := (lower_eq_self _).2 fun c hm => (key c hm).2.2
    exact ⟨⟨fun c hm => ⟨(key c hm).1, (key c hm).2.1⟩, Or.inl hlow, by rw [bechText_length]; exact hl⟩,
      hne, hlow⟩

theorem bechEncode_eq (hrp : PyStr) (v : Nat) (prog : Bytes) :
    bechEncode hrp v prog =
      if v < 32 then
        .ok (if bechDecode hrp (bechText hrp v prog) = none then none else some (bechText hrp v prog))
      else .error .indexError := by
  rw [bechEncode]
  rw [convert_prog]
  dsimp only
  rw [bech32Encode]
  by_cases hv : v < 32
  · rw [if_pos hv]
    have := mapM_charsetAt _ (textSyms_lt hrp v hv prog)
    rw [encOf] at this
    rw [this]
    show Except.ok _ = _
    rw [bechText, encOf]
    simp
  · rw [if_neg hv, List.cons_append, mapM_charsetAt_err _ _ (by omega)]
    rfl

theorem bechEncode_iff (hrp : PyStr) (v : Nat) (prog : Bytes) (s : PyStr) :
    bechEncode hrp v prog = .ok (some s) ↔
      s = bechText hrp v prog ∧ HrpOk hrp ∧ ProgOk v prog.length
      ∧ hrp.length + 8 + (8 * prog.length + 4) / 5 ≤ 90 := by
  rw [bechEncode_eq]
  by_cases hv : v < 32
  · rw [if_pos hv, Except.ok.injEq]
    by_cases hd : bechDecode hrp (bechText hrp v prog) = none
    · rw [if_pos hd]
      constructor
      · intro h; cases h
      · rintro ⟨_, h1, h2, h3⟩
        obtain ⟨t1, t2, t3⟩ := (text_ok_iff hrp v hv prog).2 ⟨h1, h3⟩
        have := (bechDecode_iff hrp _ v prog).2 ⟨t1, t2, h2, t3⟩
        rw [hd] at this; cases this
    · rw [if_neg hd, Option.some.injEq]
      constructor
      · rintro rfl
        cases hd2 : bechDecode hrp (bechText hrp v prog) with
        | none => exact absurd hd2 hd
        | some r =>
          obtain ⟨v', prog'⟩ := r
          rw [bechDecode_iff] at hd2
          obtain ⟨h1, h2, h3, h4⟩ := hd2
          -- lower case of our text splits the same way
          have hlow : lower (bechText hrp v prog)
              = lower hrp ++ 49 :: ((v :: progSyms prog) ++ createChecksum (encOf v) hrp (v :: progSyms prog)).map symChar := by
            have hc := symChars_fine _ (textSyms_lt hrp v hv prog)
            have e := (lower_eq_self _).2 fun c hm => (hc c hm).2.2
            rw [bechText, lower, List.map_append, List.map_cons]
            rw [lower] at e
            rw [e]; rfl
          have hv' : v' < 32 := by have := h3.1; omega
          have h4' := h4
          rw [hlow, bechText] at h4'
          obtain ⟨e1, e2⟩ := text_inj (textSyms_lt hrp v hv prog) (textSyms_lt hrp v' hv' prog') h4'
          obtain ⟨e3, e4⟩ := List.append_inj' e2 (by rw [createChecksum_length, createChecksum_length])
          rw [List.cons.injEq] at e3
          -- programs with equal symbols are equal
          have hprog : prog = prog' := by
            have a := (convert_back (progSyms prog) prog).2 ⟨(progSyms_spec prog).1, rfl⟩
            have b := (convert_back (progSyms prog) prog').2 ⟨(progSyms_spec prog).1, e3.2⟩
            rw [a, Option.some.injEq] at b
            have := congrArg (List.map UInt8.ofNat) b
            rw [List.map_map, List.map_map] at this
            have hid : ∀ l : Bytes, l.map (UInt8.ofNat ∘ UInt8.toNat) = l := by
              intro l
              calc _ = l.map id := List.map_congr_left fun b _ => UInt8.ofNat_toNat
                _ = l := List.map_id l
            rwa [hid, hid] at this
          obtain ⟨rfl, _⟩ := e3
          subst hprog
          obtain ⟨t1, t2⟩ := (text_ok_iff hrp v hv prog).1 ⟨h1, h2, h4⟩
          exact ⟨rfl, t1, h3, t2⟩
      · rintro ⟨h, _⟩; exact h.symm
  · rw [if_neg hv]
    constructor
    · intro h; cases h
    · rintro ⟨_, _, ⟨h1, _⟩, _⟩; omega

/-! ### C88 -/

theorem lower_lower (s : PyStr) : lower (lower s) = lower s := by
  rw [lower_eq_self]
  intro c hc
  rw [lower, List.mem_map] at hc
  obtain ⟨x, -, rfl⟩ := hc
  rw [lowerChar]
  split <;> omega

/-- **C88.** The codec of python-bitcointx keeps what BIP 173 and BIP 350 promise. -/
theorem C88_standard : codec.Standard lower := by
  have enc : ∀ hrp v p, HrpOk hrp → ProgOk v p.length → hrp.length + 8 + (8 * p.length + 4) / 5 ≤ 90 → codec.encode hrp v p = bechText hrp v p := by
    intro hrp v p h1 h2 h3
    show (match bechEncode hrp v p with | .ok (some s) => s | _ => []) = _
    rw [(bechEncode_iff hrp v p _).2 ⟨rfl, h1, h2, h3⟩]
  have small : ∀ {hrp v} {p : Bytes}, SmallHrp hrp → UsualProg v p → HrpOk hrp ∧ ProgOk v p.length ∧ hrp.length + 8 + (8 * p.length + 4) / 5 ≤ 90 := by
    intro hrp v p ⟨h1, h2, h3⟩ ⟨h4, h5⟩
    refine ⟨⟨h1, fun c hc => ?_⟩, ⟨h4, by omega, by omega, by omega⟩, by omega⟩
    have := h3 c hc
    omega
  refine ⟨fun hrp v p h1 h2 => ?_, fun hrp s v p h => ?_, fun hrp v p h1 h2 => ?_⟩
  · obtain ⟨a, b, c⟩ := small h1 h2
    rw [enc _ _ _ a b c]
    obtain ⟨t1, t2, t3⟩ := (text_ok_iff hrp v (by have := b.1; omega) p).2 ⟨a, c⟩
    exact (bechDecode_iff hrp _ v p).2 ⟨t1, t2, b, t3⟩
  · obtain ⟨⟨h1, -, h3⟩, hne, hp, e⟩ := (bechDecode_iff hrp s v p).1 h
    have hl := bechText_length hrp v p
    rw [← e, length_lower] at hl
    rw [enc _ _ _ ⟨hne, fun c hc => ?_⟩ hp (by omega), e]
    have m : c ∈ lower s := by rw [e]; exact List.mem_append_left _ hc
    have q := (lower_eq_self (lower s)).1 (lower_lower s) c m
    rw [lower, List.mem_map] at m
    obtain ⟨x, hx, rfl⟩ := m
    have := h1 x hx
    refine ⟨?_, ?_, q⟩ <;> rw [lowerChar] <;> split <;> omega
  · obtain ⟨a, b, c⟩ := small h1 h2
    rw [enc _ _ _ a b c]
    exact ⟨_, rfl, by simp only [List.length_map, List.length_append, List.length_cons, createChecksum_length, progSyms_length]; omega⟩

/-- **C88.** With base58, blech32 and bech32 as they are, and any hash of 32 bytes: whatever is read is an address and its text is what was read,
different addresses have different texts, a text is read in one way, and every address is read from its text. -/
theorem C88_all {H : Bytes → Bytes} (hH : ∀ x, (H x).length = 32) :
    (∀ l s a, addrParse H codec l s = .ok a → clsOf a ∈ l ∧ AddrOk a ∧ addrStr H codec a = .ok (if a.kind.segwit then lower s else s)) ∧
    (∀ a a' s, AddrOk a → AddrOk a' → addrStr H codec a = .ok s → addrStr H codec a' = .ok s → a = a') ∧
    (∀ l l' s a a', addrParse H codec l s = .ok a → addrParse H codec l' s = .ok a' → a = a') ∧
    (∀ a, AddrOk a → ∃ s, addrStr H codec a = .ok s ∧
      ((a.kind.segwit = true → a.conf = false → ∀ d, ¬ Base58 s (d ++ (H d).take 4)) → ∀ l, clsOf a ∈ l → addrParse H codec l s = .ok a)) :=
  ⟨fun l s a h => C88_prints hH C88_standard l s a h, fun a a' s h h' => C88_apart hH C88_standard a a' h h' s,
    fun l l' s a a' => C88_one hH C88_standard l l' s a a', fun a h => C88_reads hH C88_standard a h⟩

/-- Two addresses of BIP 173 and BIP 350. -/
def str (s : String) : PyStr := s.toList.map Char.toNat

def vector0 : Bytes := [0x75, 0x1e, 0x76, 0xe8, 0x19, 0x91, 0x96, 0xd4, 0x54, 0x94, 0x1c, 0x45, 0xd1, 0xb3, 0xa3, 0x23, 0xf1, 0x43, 0x3b, 0xd6]

def vector1 : Bytes := [0x79, 0xbe, 0x66, 0x7e, 0xf9, 0xdc, 0xbb, 0xac, 0x55, 0xa0, 0x62, 0x95, 0xce, 0x87, 0x0b, 0x07,
  0x02, 0x9b, 0xfc, 0xdb, 0x2d, 0xce, 0x28, 0xd9, 0x59, 0xf2, 0x81, 0x5b, 0x16, 0xf8, 0x17, 0x98]

example : bechDecode (str "bc") (str "BC1QW508D6QEJXTDG4Y5R3ZARVARY0C5XW7KV8F3T4") = some (0, vector0) := by decide +kernel

example : bechDecode (str "bc") (str "bc1p0xlxvlhemja6c4dqv22uapctqupfhlxm9h8z3k2e72q4k9hcz7vqzk5jj0") = some (1, vector1) := by decide +kernel

example : bechEncode (str "bc") 0 vector0 = .ok (some (str "bc1qw508d6qejxtdg4y5r3zarvary0c5xw7kv8f3t4")) := by decide +kernel

end Verif.Bech
