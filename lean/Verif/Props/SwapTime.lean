import Verif.SwapTime
import Mathlib.Data.List.Induction
/-
C67: can Bob end up with both deposits of the cross-chain swap?
-/
namespace Verif
open Verif.SwapTime

namespace SwapTime

theorem run_snoc (p : Params) (ms : List Move) (m : Move) : run p (ms ++ [m]) = round p (run p ms) m := by
  simp [run]

def idle : Move := ⟨false, false, false⟩

/-- Bob has both deposits. -/
def BobHasBoth (s : State) : Prop := s.btcBy = some .bob ∧ ∃ n, s.eltBy = some (.bob, n)

end SwapTime

/-- **C67.** The full claim: whatever Bob does, they never get both deposits. -/
def C67_statement : Prop := ∀ ms, ¬ BobHasBoth (run code ms)

theorem run_idle (p : Params) : ∀ n, n ≤ p.recvRounds → run p (List.replicate n idle) = ⟨n, none, none, none, .waitTxid n⟩
  | 0, _ => rfl
  | n + 1, h => by
    rw [List.replicate_succ', run_snoc, run_idle p n (by omega)]
    simp [round, alice, idle, show n < p.recvRounds by omega]

/-- **C67.** Alice asks for a minimum of confirmations but for no maximum.  Bob keeps the message back
until the Bitcoin deposit can be refunded, then takes both: for every choice of the timeouts. -/
theorem C67_late (p : Params) (h1 : p.fundConf ≤ p.btcTimeout) (h2 : p.btcTimeout ≤ p.recvRounds) :
    BobHasBoth (run p (List.replicate p.btcTimeout idle ++ [⟨true, false, true⟩] ++ [⟨false, true, false⟩])) := by
  rw [run_snoc, run_snoc, run_idle p _ h2]
  simp [round, alice, Nat.not_lt.2 h1, BobHasBoth]

/-- Quiet rounds after Alice has paid. -/
theorem run_funded (p : Params) (ms : List Move) (b : Nat) (h : run p ms = ⟨b, some 1, none, none, .waitElt⟩) :
    ∀ j, j < p.eltTimeout →
      run p (ms ++ List.replicate j idle) = ⟨b + j, some (1 + j), none, none, if j ≤ 1 then .waitElt else .watch⟩
  | 0, _ => by simp [h]
  | j + 1, hj => by
    rw [List.replicate_succ', ← List.append_assoc, run_snoc, run_funded p ms b h j (by omega)]
    match j with
    | 0 => simp [round, alice, idle]
    | 1 => simp [round, alice, idle]
    | j + 2 =>
      simp [round, alice, idle, show ¬ p.eltTimeout < 1 + (j + 2) by omega]
      omega

theorem run_dead (p : Params) (ms : List Move) (b c n : Nat) (h : run p ms = ⟨b, some c, none, some (.bob, n), .dead⟩) :
    ∀ j, run p (ms ++ List.replicate j idle) = ⟨b + j, some (c + j), none, some (.bob, n + j), .dead⟩
  | 0 => by simp [h]
  | j + 1 => by
    rw [List.replicate_succ', ← List.append_assoc, run_snoc, run_dead p ms b c n h j]
    simp [round, alice, idle]
    omega

/-- **C67.** Alice looks at the confirmations before they look at the block.  A claim that gets into the
block in which the Elements deposit has one confirmation more than the timeout is never seen: Alice
tries a refund, which fails, and stops.  Bob has both after the Bitcoin timeout, for every choice of
the timeouts. -/
theorem C67_last (p : Params) (h1 : p.fundConf ≤ p.recvRounds) (h2 : 2 ≤ p.eltTimeout) :
    let ms := List.replicate p.fundConf idle ++ [⟨true, false, false⟩] ++ List.replicate (p.eltTimeout - 1) idle ++
      [⟨false, true, false⟩] ++ [idle] ++ List.replicate p.btcTimeout idle ++ [⟨false, false, true⟩]
    BobHasBoth (run p ms) ∧ (run p ms).phase = .dead := by
  have e1 : run p (List.replicate p.fundConf idle ++ [⟨true, false, false⟩]) =
      ⟨p.fundConf + 1, some 1, none, none, .waitElt⟩ := by
    rw [run_snoc, run_idle p _ h1]
    simp [round, alice]
  have e2 := run_funded p _ _ e1 (p.eltTimeout - 1) (by omega)
  have e3 : run p (List.replicate p.fundConf idle ++ [⟨true, false, false⟩] ++ List.replicate (p.eltTimeout - 1) idle ++
      [⟨false, true, false⟩] ++ [idle]) =
      ⟨p.fundConf + 1 + (p.eltTimeout - 1) + 1 + 1, some (p.eltTimeout + 2), none, some (.bob, 2), .dead⟩ := by
    rw [run_snoc, run_snoc, e2]
    by_cases h3 : p.eltTimeout - 1 ≤ 1
    · have : p.eltTimeout = 2 := by omega
      simp [round, alice, idle, this]
    · simp [round, alice, idle, h3, show ¬ p.eltTimeout < 1 + (p.eltTimeout - 1) by omega,
        show p.eltTimeout < 1 + (p.eltTimeout - 1) + 1 by omega]
      omega
  have e4 := run_dead p _ _ _ _ e3 p.btcTimeout
  intro ms
  show BobHasBoth (run p (_ ++ [_])) ∧ (run p (_ ++ [_])).phase = .dead
  rw [run_snoc, e4]
  simp [round, alice, BobHasBoth]

/-- **C67.** The full claim is false. -/
theorem C67_statement_false : ¬ C67_statement :=
  fun h => h _ (C67_late code (by decide) (by decide))

/-- Every claim Bob gets confirmed comes in time: before the Elements deposit has as many confirmations as
its lock has blocks, and five blocks before the Bitcoin deposit can be refunded. -/
def Timely (p : Params) (ms : List Move) : Prop :=
  ∀ pre m post, ms = pre ++ m :: post → m.claim = true → (run p pre).eltBy = none →
    (run p pre).elt.getD 0 < p.eltTimeout ∧ (run p pre).btc + 5 ≤ p.btcTimeout

/-- Nobody has spent the Bitcoin deposit, or Bob has after the timeout. -/
def Unclaimed (p : Params) (s : State) : Prop :=
  s.btcBy = none ∨ (s.btcBy = some .bob ∧ p.btcTimeout < s.btc)

/-- Bob has the Elements deposit, and for `k` more rounds cannot take the other. -/
def Caught (p : Params) (k : Nat) (s : State) : Prop :=
  s.btcBy = none ∧ s.btc + k < p.btcTimeout

/-- What holds after every timely run. -/
def Good (p : Params) (s : State) : Prop :=
  match s.phase with
  | .waitTxid _ => s.elt = none ∧ s.eltBy = none ∧ Unclaimed p s
  | .waitElt =>
    (s.elt = some 1 ∨ s.elt = some 2) ∧ ((s.eltBy = none ∧ Unclaimed p s) ∨
      ∃ n, s.eltBy = some (.bob, n) ∧ 1 ≤ n ∧ n ≤ s.elt.getD 0 ∧ Caught p (if s.elt = some 1 then 3 else 2) s)
  | .watch => ∃ c, s.elt = some c ∧ ((s.eltBy = none ∧ Unclaimed p s) ∨
      ∃ n, s.eltBy = some (.bob, n) ∧ 1 ≤ n ∧ n ≤ 3 ∧ c ≤ p.eltTimeout ∧ Caught p 1 s)
  | .waitReveal => ∃ c n, s.elt = some c ∧ s.eltBy = some (.bob, n) ∧ 2 ≤ n ∧ n ≤ 4 ∧ Caught p 0 s
  | .claimed => s.btcBy = some .alice ∧ ∃ n, s.eltBy = some (.bob, n)
  | .refunded => (∃ n, s.eltBy = some (.alice, n)) ∧ Unclaimed p s
  | .dead => s.elt = none ∧ s.eltBy = none ∧ Unclaimed p s

theorem good_init (p : Params) : Good p init := ⟨rfl, rfl, .inl rfl⟩

theorem good_round (p : Params) (ht : 3 ≤ p.eltTimeout) (s : State) (m : Move) (g : Good p s)
    (h : m.claim = true → s.eltBy = none → s.elt.getD 0 < p.eltTimeout ∧ s.btc + 5 ≤ p.btcTimeout) :
    Good p (round p s m) := by
  obtain ⟨btc, elt, btcBy, eltBy, phase⟩ := s
  obtain ⟨an, cl, re⟩ := m
  dsimp only at h
  cases phase with
  | waitTxid n =>
    obtain ⟨rfl, rfl, hb⟩ := g
    simp only [round, alice]
    unfold Unclaimed at hb
    dsimp only at hb
    by_cases ha : an = true <;> by_cases hf : btc < p.fundConf <;> by_cases hn : n < p.recvRounds <;> by_cases hc : cl = true <;>
    rcases hb with rfl | ⟨rfl, hb⟩ <;> by_cases hr : (re = true ∧ p.btcTimeout ≤ btc) <;>
      simp [ha, hf, hn, hc, hr, Good, Unclaimed, Caught] <;> grind
  | waitElt =>
    obtain ⟨he, hb⟩ := g
    simp only [round, alice]
    unfold Unclaimed Caught at hb
    dsimp only at hb he
    rcases he with rfl | rfl <;> rcases hb with ⟨rfl, (rfl | ⟨rfl, hb⟩)⟩ | ⟨n, rfl, hn, hn', rfl, hb⟩ <;>
      by_cases hc : cl = true <;> by_cases hr : (re = true ∧ p.btcTimeout ≤ btc) <;>
      simp [hc, hr, Good, Unclaimed, Caught] <;> grind
  | watch =>
    obtain ⟨c, he, hb⟩ := g
    simp only [round, alice]
    unfold Unclaimed Caught at hb
    dsimp only at hb he
    subst he
    rcases hb with ⟨rfl, (rfl | ⟨rfl, hb⟩)⟩ | ⟨n, rfl, hn, hn', hct, rfl, hb⟩ <;>
      by_cases hc : cl = true <;> by_cases hr : (re = true ∧ p.btcTimeout ≤ btc) <;> by_cases hg : c > p.eltTimeout <;>
      simp [hc, hr, hg, Good, Unclaimed, Caught] <;> grind
  | waitReveal =>
    obtain ⟨c, n, he, hb, hn, hn', h1, h2⟩ := g
    dsimp only at *
    subst he hb h1
    have hr : ¬ (re = true ∧ p.btcTimeout ≤ btc) := by omega
    simp [round, alice, hn, hr, Good]
  | claimed =>
    obtain ⟨h1, n, h2⟩ := g
    dsimp only at *
    subst h1 h2
    simp [round, alice, Good]
  | refunded =>
    obtain ⟨⟨n, h2⟩, hb⟩ := g
    unfold Unclaimed at hb
    dsimp only at *
    subst h2
    simp only [round, alice]
    rcases hb with rfl | ⟨rfl, hb⟩ <;> by_cases hr : (re = true ∧ p.btcTimeout ≤ btc) <;>
      simp [hr, Good, Unclaimed] <;> grind
  | dead =>
    obtain ⟨h1, h2, hb⟩ := g
    unfold Unclaimed at hb
    dsimp only at *
    subst h1 h2
    simp only [round, alice]
    rcases hb with rfl | ⟨rfl, hb⟩ <;> by_cases hr : (re = true ∧ p.btcTimeout ≤ btc) <;>
      simp [hr, Good, Unclaimed] <;> grind

theorem good_run (p : Params) (ht : 3 ≤ p.eltTimeout) (ms : List Move) (h : Timely p ms) : Good p (run p ms) := by
  suffices ∀ (done todo : List Move), ms = done ++ todo → Good p (run p done) from
    this ms [] (by simp)
  intro done
  induction done using List.reverseRecOn with
  | nil => intro _ _; exact good_init p
  | append_singleton done m ih =>
    intro todo e
    rw [run_snoc]
    refine good_round p ht _ m (ih (m :: todo) (by simpa using e)) ?_
    intro hc hn
    exact h done m todo (by simpa using e) hc hn

/-- **C67.** What is left of the claim: if Bob's claim is confirmed in time, they never get both deposits,
whatever else they do, and five rounds after the claim Alice has the Bitcoin.  The full claim
`C67_statement` is false: see `C67_late` and `C67_last`. -/
theorem C67_safe_partial (p : Params) (ht : 3 ≤ p.eltTimeout) (ms : List Move) (h : Timely p ms) :
    ¬ BobHasBoth (run p ms) ∧ ∀ n, (run p ms).eltBy = some (.bob, n) → 5 ≤ n → (run p ms).btcBy = some .alice := by
  have g := good_run p ht ms h
  revert g
  generalize run p ms = s
  obtain ⟨btc, elt, btcBy, eltBy, phase⟩ := s
  intro g
  unfold BobHasBoth
  cases phase <;> simp only [Good, Unclaimed, Caught] at g <;> grind

/-- **C67.** Whatever Bob does, the Elements deposit does not stay unspent: two blocks after the timeout
Alice has taken it back, unless Bob has it. -/
theorem C67_refund (p : Params) (h2 : 2 ≤ p.eltTimeout) (ms : List Move) (c : Nat) (h : (run p ms).elt = some c)
    (hc : p.eltTimeout + 2 ≤ c) : (run p ms).eltBy ≠ none := by
  have key : match (run p ms).phase with
      | .waitTxid _ => (run p ms).elt = none
      | .waitElt => (run p ms).elt.getD 0 ≤ 2
      | .watch => (run p ms).eltBy = none → (run p ms).elt.getD 0 ≤ p.eltTimeout + 1
      | .dead => (run p ms).elt = none ∨ (run p ms).eltBy ≠ none
      | _ => (run p ms).eltBy ≠ none := by
    clear h hc
    induction ms using List.reverseRecOn with
    | nil => rfl
    | append_singleton ms m ih =>
      rw [run_snoc]
      revert ih
      generalize run p ms = s
      obtain ⟨btc, elt, btcBy, eltBy, phase⟩ := s
      obtain ⟨an, cl, re⟩ := m
      cases cl <;> cases an <;> cases phase <;> rcases elt with _ | c <;> rcases eltBy with _ | ⟨w, k⟩ <;> intro ih <;>
        simp only [round, alice] <;> grind
  revert key h
  generalize run p ms = s
  obtain ⟨btc, elt, btcBy, eltBy, phase⟩ := s
  cases phase <;> grind

/-- **C67.** Alice, doing what the example does, never gets both deposits either: they have the Bitcoin only
if Bob has the Elements deposit. -/
theorem C67_bob (p : Params) (ms : List Move) (h : (run p ms).btcBy = some .alice) :
    ∃ n, (run p ms).eltBy = some (.bob, n) := by
  have key : match (run p ms).phase with
      | .waitTxid _ => (run p ms).elt = none ∧ (run p ms).eltBy = none ∧ (run p ms).btcBy ≠ some .alice
      | .waitElt => (∀ n, (run p ms).eltBy ≠ some (.alice, n)) ∧ (run p ms).btcBy ≠ some .alice
      | .watch => (∀ n, (run p ms).eltBy ≠ some (.alice, n)) ∧ (run p ms).btcBy ≠ some .alice
      | .waitReveal => (∃ n, (run p ms).eltBy = some (.bob, n)) ∧ (run p ms).btcBy ≠ some .alice
      | .claimed => ∃ n, (run p ms).eltBy = some (.bob, n)
      | _ => (run p ms).btcBy ≠ some .alice := by
    clear h
    induction ms using List.reverseRecOn with
    | nil => simp [run, init]
    | append_singleton ms m ih =>
      rw [run_snoc]
      revert ih
      generalize run p ms = s
      obtain ⟨btc, elt, btcBy, eltBy, phase⟩ := s
      obtain ⟨an, cl, re⟩ := m
      cases cl <;> cases an <;> cases phase <;> rcases elt with _ | c <;> rcases eltBy with _ | ⟨_ | _, k⟩ <;>
        rcases btcBy with _ | _ | _ <;> intro ih <;> simp only [round, alice] <;> grind
  revert key h
  generalize run p ms = s
  obtain ⟨btc, elt, btcBy, eltBy, phase⟩ := s
  cases phase <;> grind

theorem waits (p : Params) (ms : List Move) :
    (∀ c, (run p ms).elt = some c → c + p.fundConf ≤ (run p ms).btc) ∧
    (∀ n, (run p ms).eltBy = some (.alice, n) → ∃ c, (run p ms).elt = some c ∧ n + p.eltTimeout < c) ∧
    (∀ n, (run p ms).eltBy = some (.bob, n) → (run p ms).btcBy = some .alice → 3 ≤ n) ∧
    ((run p ms).btcBy = some .alice → ∃ n, (run p ms).eltBy = some (.bob, n)) := by
  refine ⟨?_, ?_, ?_, C67_bob p ms⟩
  · induction ms using List.reverseRecOn with
    | nil => intro c h; cases h
    | append_singleton ms m ih =>
      rw [run_snoc]
      revert ih
      generalize run p ms = s
      obtain ⟨btc, elt, btcBy, eltBy, phase⟩ := s
      obtain ⟨an, cl, re⟩ := m
      cases an <;> cases phase <;> rcases elt with _ | c <;> intro ih <;> simp only [round, alice] <;> grind
  · suffices ((∃ n, (run p ms).phase = .waitTxid n) → (run p ms).elt = none ∧ (run p ms).eltBy = none) ∧
        ∀ n, (run p ms).eltBy = some (.alice, n) → n + p.eltTimeout < (run p ms).elt.getD 0 by
      intro n hn
      have := this.2 n hn
      cases he : (run p ms).elt with
      | none => rw [he] at this; simp at this
      | some c => rw [he] at this; exact ⟨c, rfl, this⟩
    induction ms using List.reverseRecOn with
    | nil => exact ⟨fun _ => ⟨rfl, rfl⟩, fun c h => by cases h⟩
    | append_singleton ms m ih =>
      rw [run_snoc]
      revert ih
      generalize run p ms = s
      obtain ⟨btc, elt, btcBy, eltBy, phase⟩ := s
      obtain ⟨an, cl, re⟩ := m
      cases an <;> cases cl <;> cases phase <;> rcases elt with _ | c <;> rcases eltBy with _ | ⟨_ | _, k⟩ <;> intro ih <;>
        simp only [round, alice] <;> grind
  · intro n hn hb
    have : (run p ms).btcBy = some .alice → ∃ n, (run p ms).eltBy = some (.bob, n) ∧ 3 ≤ n := by
      clear hn hb
      induction ms using List.reverseRecOn with
      | nil => intro h; cases h
      | append_singleton ms m ih =>
        have hbob := C67_bob p (ms ++ [m])
        rw [run_snoc] at hbob ⊢
        revert ih hbob
        generalize run p ms = s
        obtain ⟨btc, elt, btcBy, eltBy, phase⟩ := s
        obtain ⟨an, cl, re⟩ := m
        cases an <;> cases phase <;> rcases eltBy with _ | ⟨_ | _, k⟩ <;> rcases btcBy with _ | _ | _ <;> intro ih hbob <;>
          simp only [round, alice] at hbob ⊢ <;> grind
    obtain ⟨n', h1, h2⟩ := this hb
    rw [hn] at h1
    cases h1
    exact h2

/-- **C67.** Alice waits, whatever Bob does: they pay once Bob's deposit has six confirmations, take the
payment back once it has more than ten, and take the Bitcoin once Bob's claim has two. -/
theorem C67_waits (ms : List Move) :
    (∀ c, (run code ms).elt = some c → c + 6 ≤ (run code ms).btc) ∧
    (∀ n, (run code ms).eltBy = some (.alice, n) → ∃ c, (run code ms).elt = some c ∧ n + 10 < c) ∧
    (∀ n, (run code ms).eltBy = some (.bob, n) → (run code ms).btcBy = some .alice → 2 < n) :=
  have h := waits code ms
  ⟨h.1, h.2.1, h.2.2.1⟩

namespace C67Example

/-- The swap as the example intends it: message after six blocks, claim after two more. -/
def honest : List Move := List.replicate 6 idle ++ [⟨true, false, false⟩, idle, idle, ⟨false, true, false⟩] ++
  List.replicate 5 idle

/-- It is timely and ends well. -/
example : Timely code honest ∧ (run code honest).btcBy = some .alice ∧ (run code honest).eltBy = some (.bob, 6) := by
  refine ⟨?_, by decide, by decide⟩
  intro pre m post e hm hn
  have hlen : pre.length < honest.length := by rw [e]; simp
  have hpre : pre = honest.take pre.length := by rw [e]; simp
  have hmm : honest[pre.length]? = some m := by rw [e]; simp
  rw [hpre]
  rw [show honest.length = 15 from rfl] at hlen
  generalize pre.length = k at *
  clear hpre e
  revert hmm
  have : k = 0 ∨ k = 1 ∨ k = 2 ∨ k = 3 ∨ k = 4 ∨ k = 5 ∨ k = 6 ∨ k = 7 ∨ k = 8 ∨ k = 9 ∨ k = 10 ∨ k = 11 ∨ k = 12 ∨ k = 13 ∨ k = 14 := by
    omega
  rcases this with rfl | rfl | rfl | rfl | rfl | rfl | rfl | rfl | rfl | rfl | rfl | rfl | rfl | rfl | rfl <;> intro hmm <;>
    first
    | (cases hmm; cases hm; done)
    | decide

/-- And if Bob does nothing after the message, Alice has the deposit back. -/
example : (run code (List.replicate 6 idle ++ [⟨true, false, false⟩] ++ List.replicate 12 idle)).eltBy = some (.alice, 2) := by
  decide

end C67Example

end Verif
