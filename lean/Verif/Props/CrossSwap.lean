import Verif.CrossSwapLemmas
import Verif.Spec.CrossSwap
/-
C65: who can spend the two contracts of the cross-chain swap example, and when.
-/
namespace Verif
open Verif.CrossSwap Verif.Spec Verif.Spec.Interp

theorem length_lstrip0 : ∀ b : Bytes, (lstrip0 b).length ≤ b.length
  | [] => Nat.le_refl _
  | b :: t => by
    unfold lstrip0
    split
    · have := length_lstrip0 t; simp only [List.length_cons]; omega
    · exact Nat.le_refl _

theorem length_rBytes (r : Nat) : (rBytes r).length ≤ 32 := by
  have := length_lstrip0 (beBytes 32 r)
  simpa [rBytes] using this

theorem parse_eltContract (r : Nat) {p b s : Bytes} (hp : p.length ≤ 520) (hb : b.length ≤ 520)
    (hs : s.length ≤ 520) : parse (eltContract r p b s) = some [.code 0x63, .push (rBytes r), .code 0x7e,
      .code 0x7c, .code 0x7e, .push [1], .push p, .code 0xc2, .push b, .code 0x67, .push [10], .code 0xb2,
      .code 0x75, .push s, .code 0x68, .code 0xac] := by
  have hr := length_rBytes r
  unfold eltContract
  simp only [script_cons, script_nil]
  simp only [show ∀ o, (Elem.op o).bytes = [o] from fun _ => rfl, show ∀ d, (Elem.data d).bytes = pushData d from
    fun _ => rfl, List.singleton_append]
  rw [parse_op _ (by decide), parse_data _ (by omega), parse_op _ (by decide), parse_op _ (by decide),
    parse_op _ (by decide), parse_num _ (by decide) (by decide), parse_data _ (by omega), parse_op _ (by decide),
    parse_data _ (by omega), parse_op _ (by decide), parse_num _ (by decide) (by decide), parse_op _ (by decide),
    parse_op _ (by decide), parse_data _ (by omega), parse_op _ (by decide), parse_op _ (by decide), parse_nil]
  rfl

theorem parse_btcContract {b s : Bytes} (hb : b.length ≤ 520)
    (hs : s.length ≤ 520) : parse (btcContract b s) = some [.code 0x63, .push b, .code 0x67, .push [15], .code 0xb2,
      .code 0x75, .push s, .code 0x68, .code 0xac] := by
  unfold btcContract
  simp only [script_cons, script_nil]
  simp only [show ∀ o, (Elem.op o).bytes = [o] from fun _ => rfl, show ∀ d, (Elem.data d).bytes = pushData d from
    fun _ => rfl, List.singleton_append]
  rw [parse_op _ (by decide), parse_data _ (by omega), parse_op _ (by decide),
    parse_num _ (by decide) (by decide), parse_op _ (by decide),
    parse_op _ (by decide), parse_data _ (by omega), parse_op _ (by decide), parse_op _ (by decide), parse_nil]
  rfl

theorem relLock_iff (c : Ctx) (n : Nat) : relLock c n = true ↔ 2 ≤ c.version ∧ c.sequence.testBit 31 = false ∧
    c.sequence.testBit 22 = false ∧ n ≤ c.sequence % 2 ^ 16 := by
  simp [relLock, and_assoc]

section steps
variable (c : Ctx) (a b d : Bytes) (t : List Bytes) (ops : List Op) (cs : List Bool)

theorem step_drop : step c 0x75 (a :: t) = some t := rfl
theorem step_drop0 : step c 0x75 [] = none := rfl
theorem step_swap : step c 0x7c (a :: b :: t) = some (b :: a :: t) := rfl
theorem step_swap1 : step c 0x7c [a] = none := rfl
theorem step_cat : step c 0x7e (a :: b :: t) = if (b ++ a).length ≤ 520 then some ((b ++ a) :: t) else none := rfl
theorem step_cat1 : step c 0x7e [a] = none := rfl
theorem step_csv : step c 0xb2 (a :: t) =
    (smallNum a).bind fun n => if relLock c n then some (a :: t) else none := rfl
theorem step_check : step c 0xac (a :: b :: t) = some ((if c.checkSig b a then [1] else []) :: t) := rfl
theorem step_check1 : step c 0xac [a] = none := rfl
theorem step_data : step c 0xc2 (a :: b :: d :: t) = if c.checkData d b a then some t else none := rfl

theorem run_on (h : cs.all id = true) : run c (.push d :: ops) cs t = run c ops cs (d :: t) := by
  rw [run, if_pos h]
theorem run_off (h : cs.all id = false) : run c (.push d :: ops) cs t = run c ops cs t := by
  rw [run, if_neg (by rw [h]; decide)]
theorem run_if : run c (.code 0x63 :: ops) [] (a :: t) = run c ops [truth a] t := by
  rw [run.eq_def]; dsimp only; rw [if_pos rfl, if_pos (by rfl)]
theorem run_else (x : Bool) : run c (.code 0x67 :: ops) (x :: cs) t = run c ops ((!x) :: cs) t := by
  rw [run.eq_def]; dsimp only; rw [if_neg (by decide), if_pos rfl]
theorem run_endif (x : Bool) : run c (.code 0x68 :: ops) (x :: cs) t = run c ops cs t := by
  rw [run.eq_def]; dsimp only; rw [if_neg (by decide), if_neg (by decide), if_pos rfl]
theorem run_code {o : UInt8} (h : cs.all id = true) (h1 : o ≠ 0x63) (h2 : o ≠ 0x67) (h3 : o ≠ 0x68) :
    run c (.code o :: ops) cs t = (step c o t).bind (run c ops cs) := by
  rw [run.eq_def]; dsimp only; rw [if_neg h1, if_neg h2, if_neg h3, if_pos h]
  cases step c o t <;> rfl
theorem run_skip {o : UInt8} (h : cs.all id = false) (h1 : o ≠ 0x63) (h2 : o ≠ 0x67) (h3 : o ≠ 0x68) :
    run c (.code o :: ops) cs t = run c ops cs t := by
  rw [run.eq_def]; dsimp only; rw [if_neg h1, if_neg h2, if_neg h3, if_neg (by rw [h]; decide)]
theorem run_end : run c [] [] t = some t := rfl

/-- The end of both contracts. -/
theorem run_tail (n : UInt8) (hn : n.toNat < 128) :
    run c [.push [n], .code 0xb2, .code 0x75, .push d, .code 0x68, .code 0xac] [true] t =
      match t with
      | [] => none
      | g :: t => if relLock c n.toNat then some ((if c.checkSig g d then [1] else []) :: t) else none := by
  rw [run_on _ _ _ _ _ rfl, run_code _ _ _ _ rfl (by decide) (by decide) (by decide), step_csv]
  have : smallNum [n] = some n.toNat := by simp [smallNum, hn]
  rw [this, Option.bind_some]
  by_cases hl : relLock c n.toNat = true
  · rw [if_pos hl, Option.bind_some, run_code _ _ _ _ rfl (by decide) (by decide) (by decide), step_drop, Option.bind_some,
      run_on _ _ _ _ _ rfl, run_endif, run_code _ _ _ _ rfl (by decide) (by decide) (by decide)]
    cases t with
    | nil => rw [step_check1]; rfl
    | cons g t => rw [step_check, Option.bind_some, run_end]; dsimp only; rw [if_pos hl]
  · rw [if_neg hl]
    cases t with
    | nil => rfl
    | cons g t => dsimp only; rw [if_neg hl]; rfl

theorem run_tail_off (n : UInt8) :
    run c [.push [n], .code 0xb2, .code 0x75, .push d, .code 0x68, .code 0xac] [false] (a :: t) =
      match t with
      | [] => none
      | g :: t => some ((if c.checkSig g a then [1] else []) :: t) := by
  rw [run_off _ _ _ _ _ rfl, run_skip _ _ _ _ rfl (by decide) (by decide) (by decide),
    run_skip _ _ _ _ rfl (by decide) (by decide) (by decide), run_off _ _ _ _ _ rfl, run_endif,
    run_code _ _ _ _ rfl (by decide) (by decide) (by decide)]
  cases t with
  | nil => rw [step_check1]; rfl
  | cons g t => rw [step_check]; rfl

end steps

theorem checked {c : Ctx} {g p v : Bytes} {t u : List Bytes}
    (h : some ((if c.checkSig g p then ([1] : Bytes) else []) :: t) = some (v :: u)) (hv : truth v = true) :
    c.checkSig g p = true := by
  by_cases hg : c.checkSig g p = true
  · exact hg
  · rw [if_neg hg] at h
    cases h; cases hv

/-- **C65.** The Elements-side contract: whatever is on the stack, in whatever transaction, the
script succeeds exactly for a claim by the buyer that carries a signature with the fixed middle
part by the key to be revealed, or for a refund to the seller under a relative lock of ten
blocks. -/
theorem C65_elements (c : Ctx) (r : Nat) (revealPub buyerPub sellerPub : Bytes) (hp : revealPub.length ≤ 520)
    (hb : buyerPub.length ≤ 520) (hs : sellerPub.length ≤ 520) (st : List Bytes) :
    Accepts c (eltContract r revealPub buyerPub sellerPub) st ↔
      RevealClaim c (rBytes r) revealPub buyerPub st ∨ TimedRefund c 10 sellerPub st := by
  unfold Accepts
  rw [parse_eltContract r hp hb hs]
  have key : ∀ cond st, run c [.code 0x63, .push (rBytes r), .code 0x7e,
      .code 0x7c, .code 0x7e, .push [1], .push revealPub, .code 0xc2, .push buyerPub, .code 0x67, .push [10], .code 0xb2,
      .code 0x75, .push sellerPub, .code 0x68, .code 0xac] [] (cond :: st) =
      if truth cond then
        match st with
        | a :: b :: d :: st => if (a ++ rBytes r ++ b).length ≤ 520 then
            if c.checkData (a ++ rBytes r ++ b) [1] revealPub then
              some ((if c.checkSig d buyerPub then [1] else []) :: st) else none else none
        | [a, b] => none
        | _ => none
      else
        match st with
        | [] => none
        | g :: t => if relLock c 10 then some ((if c.checkSig g sellerPub then [1] else []) :: t) else none := by
    intro cond st
    rw [run_if]
    cases truth cond with
    | true =>
      rw [if_pos rfl, run_on _ _ _ _ _ rfl, run_code _ _ _ _ rfl (by decide) (by decide) (by decide)]
      match st with
      | [] => rw [step_cat1]; rfl
      | [a] =>
        rw [step_cat]
        split
        · rw [Option.bind_some, run_code _ _ _ _ rfl (by decide) (by decide) (by decide), step_swap1]; rfl
        · rfl
      | a :: b :: st =>
        rw [step_cat]
        by_cases h1 : (a ++ rBytes r).length ≤ 520
        · rw [if_pos h1, Option.bind_some, run_code _ _ _ _ rfl (by decide) (by decide) (by decide), step_swap,
            Option.bind_some, run_code _ _ _ _ rfl (by decide) (by decide) (by decide), step_cat]
          by_cases h2 : (a ++ rBytes r ++ b).length ≤ 520
          · rw [if_pos h2, Option.bind_some, run_on _ _ _ _ _ rfl, run_on _ _ _ _ _ rfl,
              run_code _ _ _ _ rfl (by decide) (by decide) (by decide), step_data]
            by_cases h3 : c.checkData (a ++ rBytes r ++ b) [1] revealPub = true
            · rw [if_pos h3, Option.bind_some, run_on _ _ _ _ _ rfl, run_else]
              rw [show (!true) = false from rfl, run_tail_off]
              match st with
              | [] => rfl
              | d :: st => dsimp only; rw [if_pos h2, if_pos h3]
            · rw [if_neg h3]
              match st with
              | [] => rfl
              | d :: st => dsimp only; rw [if_pos h2, if_neg h3]; rfl
          · rw [if_neg h2]
            match st with
            | [] => rfl
            | d :: st => dsimp only; rw [if_neg h2]; rfl
        · rw [if_neg h1]
          have h2 : ¬ (a ++ rBytes r ++ b).length ≤ 520 := by
            simp only [List.length_append] at h1 ⊢; omega
          match st with
          | [] => rfl
          | d :: st => dsimp only; rw [if_neg h2]; rfl
    | false =>
      rw [if_neg (by decide), run_off _ _ _ _ _ rfl]
      repeat rw [run_skip _ _ _ _ rfl (by decide) (by decide) (by decide)]
      rw [run_off _ _ _ _ _ rfl, run_off _ _ _ _ _ rfl, run_skip _ _ _ _ rfl (by decide) (by decide) (by decide),
        run_off _ _ _ _ _ rfl, run_else]
      rw [show (!false) = true from rfl, run_tail c sellerPub st 10 (by decide)]
      rfl
  constructor
  · rintro ⟨ops, v, t, ho, hr, hv⟩
    cases ho
    match st, hr with
    | [], hr => simp [run] at hr
    | cond :: st, hr =>
      rw [key] at hr
      cases hc : truth cond with
      | true =>
        left
        rw [hc, if_pos rfl] at hr
        match st, hr with
        | [], hr => cases hr
        | [a], hr => cases hr
        | [a, b], hr => cases hr
        | a :: b :: d :: st, hr =>
          dsimp only at hr
          split at hr
          · rename_i h1
            split at hr
            · rename_i h2
              exact ⟨cond, a, b, d, st, rfl, hc, h1, h2, checked hr hv⟩
            · cases hr
          · cases hr
      | false =>
        right
        rw [hc, if_neg (by decide)] at hr
        match st, hr with
        | [], hr => cases hr
        | a :: st, hr =>
          dsimp only at hr
          split at hr
          · rename_i h1
            exact ⟨cond, a, st, rfl, hc, checked hr hv, (relLock_iff _ _).1 h1⟩
          · cases hr
  · rintro (⟨cond, a, b, d, st, rfl, hc, hl, hd, hg⟩ | ⟨cond, a, st, rfl, hc, hg, hl⟩)
    · refine ⟨_, [1], st, rfl, ?_, rfl⟩
      rw [key, if_pos hc]
      dsimp only
      rw [if_pos hl, if_pos hd, if_pos hg]
    · refine ⟨_, [1], st, rfl, ?_, rfl⟩
      rw [← relLock_iff] at hl
      rw [key, hc, if_neg (by decide)]
      dsimp only
      rw [if_pos hl, if_pos hg]

/-- **C65.** The Bitcoin-side contract: the script succeeds exactly for a signature by the combined
key, or for a refund to the seller under a relative lock of fifteen blocks. -/
theorem C65_bitcoin (c : Ctx) (buyerPub sellerPub : Bytes)
    (hb : buyerPub.length ≤ 520) (hs : sellerPub.length ≤ 520) (st : List Bytes) :
    Accepts c (btcContract buyerPub sellerPub) st ↔
      KeyClaim c buyerPub st ∨ TimedRefund c 15 sellerPub st := by
  unfold Accepts
  rw [parse_btcContract hb hs]
  have key : ∀ cond st, run c [.code 0x63, .push buyerPub, .code 0x67, .push [15], .code 0xb2,
      .code 0x75, .push sellerPub, .code 0x68, .code 0xac] [] (cond :: st) =
      if truth cond then
        match st with
        | [] => none
        | d :: st => some ((if c.checkSig d buyerPub then [1] else []) :: st)
      else
        match st with
        | [] => none
        | g :: t => if relLock c 15 then some ((if c.checkSig g sellerPub then [1] else []) :: t) else none := by
    intro cond st
    rw [run_if]
    cases truth cond with
    | true =>
      rw [if_pos rfl, run_on _ _ _ _ _ rfl, run_else, show (!true) = false from rfl, run_tail_off]
    | false =>
      rw [if_neg (by decide), run_off _ _ _ _ _ rfl, run_else]
      rw [show (!false) = true from rfl, run_tail c sellerPub st 15 (by decide)]
      rfl
  constructor
  · rintro ⟨ops, v, t, ho, hr, hv⟩
    cases ho
    match st, hr with
    | [], hr => simp [run] at hr
    | cond :: st, hr =>
      rw [key] at hr
      cases hc : truth cond with
      | true =>
        left
        rw [hc, if_pos rfl] at hr
        match st, hr with
        | [], hr => cases hr
        | d :: st, hr => exact ⟨cond, d, st, rfl, hc, checked hr hv⟩
      | false =>
        right
        rw [hc, if_neg (by decide)] at hr
        match st, hr with
        | [], hr => cases hr
        | a :: st, hr =>
          dsimp only at hr
          split at hr
          · rename_i h1
            exact ⟨cond, a, st, rfl, hc, checked hr hv, (relLock_iff _ _).1 h1⟩
          · cases hr
  · rintro (⟨cond, d, st, rfl, hc, hg⟩ | ⟨cond, a, st, rfl, hc, hg, hl⟩)
    · refine ⟨_, [1], st, rfl, ?_, rfl⟩
      rw [key, if_pos hc]
      dsimp only
      rw [if_pos hg]
    · refine ⟨_, [1], st, rfl, ?_, rfl⟩
      rw [← relLock_iff] at hl
      rw [key, hc, if_neg (by decide)]
      dsimp only
      rw [if_pos hl, if_pos hg]

theorem length_pushData (d : Bytes) : (pushData d).length ≤ d.length + 3 := by
  unfold pushData
  split
  · simp
  split <;> simp <;> omega

theorem length_eltContract (r : Nat) {p b s : Bytes} (hp : p.length ≤ 520) (hb : b.length ≤ 520)
    (hs : s.length ≤ 520) : (eltContract r p b s).length < 65536 := by
  have h1 := length_pushData p
  have h2 := length_pushData b
  have h3 := length_pushData s
  have h4 := length_pushData (rBytes r)
  have h5 := length_rBytes r
  unfold eltContract
  simp only [script_cons, script_nil, Elem.bytes, List.length_append, List.length_cons, List.length_nil]
  repeat rw [if_neg (by decide)]
  simp only [List.length_cons, List.length_nil]
  omega

/-- **C65.** The unlocking scripts made by the example work: the claim with a signature that the
node accepts for message 01, and the refund in a version-2 transaction with the sequence number the
example sets. -/
theorem C65_unlock (c : Ctx) (r : Nat) (revealPub buyerPub sellerPub sig : Bytes) (hp : revealPub.length ≤ 520)
    (hb : buyerPub.length ≤ 520) (hs : sellerPub.length ≤ 520) (hl : sig.length ≤ 520) :
    (∀ revealSig ss, revealSig.length ≤ 520 → c.checkData revealSig [1] revealPub = true →
      c.checkSig sig buyerPub = true →
      revealScriptSig (eltContract r revealPub buyerPub sellerPub) sig revealSig r = .ok ss →
      SpendsP2SH c (eltContract r revealPub buyerPub sellerPub) ss) ∧
    (c.checkSig sig sellerPub = true → 2 ≤ c.version → c.sequence = eltSequence false →
      SpendsP2SH c (eltContract r revealPub buyerPub sellerPub)
        (timeoutScriptSig (eltContract r revealPub buyerPub sellerPub) sig)) := by
  have hk := length_eltContract r hp hb hs
  constructor
  · intro rs ss hrs hd hg h
    unfold revealScriptSig at h
    dsimp only at h
    split at h
    · cases h
    split at h
    · cases h
    rename_i h1 h2
    cases h
    have h2 := Decidable.not_not.1 h2
    refine ⟨[[1], rs.take 4, rs.drop (4 + (rBytes r).length), sig], ?_, ?_⟩
    · unfold pushStack
      simp only [script_cons, script_nil]
      simp only [show ∀ d, (Elem.data d).bytes = pushData d from fun _ => rfl]
      rw [parse_data _ (by omega), parse_data _ (by simp only [List.length_drop]; omega),
        parse_data _ (by simp only [List.length_take]; omega), parse_num _ (by decide) (by decide), parse_data _ hk, parse_nil]
      rfl
    · refine (C65_elements c r _ _ _ hp hb hs _).2 (.inl ⟨_, _, _, _, _, rfl, rfl, ?_⟩)
      have e : rs.take 4 ++ rBytes r ++ rs.drop (4 + (rBytes r).length) = rs := by
        have e1 := List.take_append_drop 4 rs
        have e2 := List.take_append_drop (rBytes r).length (rs.drop 4)
        rw [h2, List.drop_drop] at e2
        rw [List.append_assoc, e2, e1]
      rw [e]
      exact ⟨hrs, hd, hg⟩
  · intro hg hv hq
    refine ⟨[[], sig], ?_, ?_⟩
    · unfold pushStack timeoutScriptSig
      simp only [script_cons, script_nil]
      simp only [show ∀ d, (Elem.data d).bytes = pushData d from fun _ => rfl]
      rw [parse_data _ (by omega), show (Elem.op 0).bytes = pushData [] from rfl, parse_data _ (by decide), parse_data _ hk, parse_nil]
      rfl
    · refine (C65_elements c r _ _ _ hp hb hs _).2 (.inr ⟨_, _, _, rfl, rfl, hg, hv, ?_⟩)
      rw [hq]
      decide

/-- **C65.** The same on the Bitcoin side, for the witness the example makes. -/
theorem C65_witness (c : Ctx) (buyerPub sellerPub sig : Bytes) (hb : buyerPub.length ≤ 520)
    (hs : sellerPub.length ≤ 520) :
    (c.checkSig sig buyerPub = true → Accepts c (btcContract buyerPub sellerPub) (btcStack sig true)) ∧
    (c.checkSig sig sellerPub = true → 2 ≤ c.version → c.sequence = btcSequence false →
      Accepts c (btcContract buyerPub sellerPub) (btcStack sig false)) := by
  constructor
  · intro hg
    exact (C65_bitcoin c _ _ hb hs _).2 (.inl ⟨_, _, _, rfl, rfl, hg⟩)
  · intro hg hv hq
    refine (C65_bitcoin c _ _ hb hs _).2 (.inr ⟨_, _, _, rfl, rfl, hg, hv, ?_⟩)
    rw [hq]
    decide

/-- **C65.** A claim made with the default sequence number cannot go through the refund branch, and
neither contract can be refunded by an input whose lock is shorter than the timeout. -/
theorem C65_early (c : Ctx) (n : Nat) (sellerPub : Bytes) (st : List Bytes)
    (h : c.sequence < n ∨ c.sequence = eltSequence true ∨ c.sequence = btcSequence true) :
    ¬ TimedRefund c n sellerPub st := by
  rintro ⟨_, _, _, _, _, _, _, h31, _, hn⟩
  rcases h with h | h | h
  · have := Nat.mod_le c.sequence (2 ^ 16)
    omega
  · rw [h] at h31; exact absurd h31 (by decide)
  · rw [h] at h31; exact absurd h31 (by decide)

namespace C65Example

/-- A node that accepts a signature equal to the public key, and for data the signature 30 .. -/
def ctx (seq : Nat) : Ctx := ⟨fun s p => s == p, fun s d p => s == p ++ d, id, 2, seq⟩

/-- Claim, refund in time, refund too early, and a claim with a wrong middle part. -/
example : Accepts (ctx 0xffffffff) (eltContract 0x3b78 [7, 0x3b, 0x78] [5] [6]) [[1], [7], [1], [5]] ∧
    Accepts (ctx 10) (eltContract 0x3b78 [7, 0x3b, 0x78] [5] [6]) [[], [6]] ∧
    ¬ Accepts (ctx 9) (eltContract 0x3b78 [7, 0x3b, 0x78] [5] [6]) [[], [6]] ∧
    ¬ Accepts (ctx 0xffffffff) (eltContract 0x3b79 [7, 0x3b, 0x78] [5] [6]) [[1], [7], [1], [5]] := by
  simp only [C65_elements _ _ [7, 0x3b, 0x78] [5] [6] (by decide) (by decide) (by decide)]
  refine ⟨.inl ⟨_, _, _, _, _, rfl, by decide⟩, .inr ⟨_, _, _, rfl, by decide⟩, ?_, ?_⟩
  · rintro (⟨_, _, _, _, _, h, _⟩ | ⟨_, _, _, h, h'⟩)
    · cases h
    · cases h; exact absurd h' (by decide)
  · rintro (⟨_, _, _, _, _, h, h'⟩ | ⟨_, _, _, h, h'⟩)
    · cases h; exact absurd h' (by decide)
    · cases h; exact absurd h' (by decide)

end C65Example

end Verif
