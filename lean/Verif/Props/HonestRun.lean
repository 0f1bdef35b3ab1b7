import Verif.Spec.AssetHonestRun
import Verif.Props.AssetPair
/-
Two programs that send each other what the other waits for: neither waits for ever, whatever the order of the steps.
-/
namespace Verif.AssetPair
open Verif Spec Spec.Assets AssetSwap AssetRun

/-- What a process does with the pipe. -/
inductive Item
  | out (m : Msg)
  | inp (m : Msg)

/-- What is known about one of them: the node, when messages may still be waited for, what must have happened to the other if
there is an exception, and what holds at the end. -/
structure Part where
  node : Node
  early : List Event → Prop
  drop : List Event → Prop
  fin : List Event → Prog → Prop

/-- The program does this with the pipe, or there is an exception. -/
inductive Follows (R : Part) : List Event → Prog → List Item → Prop
  | fin {t : List Event} {p : Prog} : R.fin t p → Follows R t p []
  | out {t : List Event} {m : Msg} {k : Ans (.send m) → Prog} {l : List Item} :
      Follows R (t ++ [.did (.send m) (.ok ())]) (k (.ok ())) l → Follows R t (.ask (.send m) k) (.out m :: l)
  | inp {t : List Event} {n : Nat} {m : Msg} {k : Ans (.recv n) → Prog} {l : List Item} : R.early t →
      Follows R (t ++ [.did (.recv n) (.ok (some m))]) (k (.ok (some m))) l → Follows R t (.ask (.recv n) k) (.inp m :: l)
  | asks {t : List Event} {q : Query} {k : Ans q → Prog} {l : List Item} (good : Ans q → Prop) : ofNode q = true → (∀ o, ∃ r, R.node t o q r ∧ good r) →
      (∀ o r, R.node t o q r → good r ∨ k r = .raise ∧ R.drop o) → (∀ r, good r → Follows R (t ++ [.did q r]) (k r) l) → Follows R t (.ask q k) l

/-- There is an order in which everything that is waited for has been sent. -/
inductive Sched : List Msg → List Item → List Msg → List Item → Prop
  | nil {la lb} : Sched la [] lb []
  | outA {la sa lb sb} {m : Msg} : Sched la sa (lb ++ [m]) sb → Sched la (.out m :: sa) lb sb
  | inA {la sa lb sb} {m : Msg} : Sched la sa lb sb → Sched (m :: la) (.inp m :: sa) lb sb
  | outB {la sa lb sb} {m : Msg} : Sched (la ++ [m]) sa lb sb → Sched la sa lb (.out m :: sb)
  | inB {la sa lb sb} {m : Msg} : Sched la sa lb sb → Sched la sa (m :: lb) (.inp m :: sb)

theorem Sched.afterOutA {la lb sa sb m} (h : Sched la (.out m :: sa) lb sb) : Sched la sa (lb ++ [m]) sb := by
  generalize e : Item.out m :: sa = s at h
  induction h with
  | nil => cases e
  | outA h => cases e; exact h
  | inA h => cases e
  | outB h ih => exact .outB (ih e)
  | inB h ih => exact .inB (ih e)

theorem Sched.afterOutB {la lb sa sb m} (h : Sched la sa lb (.out m :: sb)) : Sched (la ++ [m]) sa lb sb := by
  generalize e : Item.out m :: sb = s at h
  induction h with
  | nil => cases e
  | outB h => cases e; exact h
  | inB h => cases e
  | outA h ih => exact .outA (ih e)
  | inA h ih => exact .inA (ih e)

theorem Sched.afterInA {la lb sa sb m x} (h : Sched (x :: la) (.inp m :: sa) lb sb) : x = m ∧ Sched la sa lb sb := by
  generalize e : Item.inp m :: sa = s at h
  generalize e' : x :: la = l at h
  induction h generalizing la with
  | nil => cases e
  | outA h => cases e
  | inA h => cases e; cases e'; exact ⟨rfl, h⟩
  | outB h ih =>
    subst e'
    obtain ⟨h1, h2⟩ := ih e rfl
    exact ⟨h1, .outB h2⟩
  | inB h ih =>
    obtain ⟨h1, h2⟩ := ih e e'
    exact ⟨h1, .inB h2⟩

theorem Sched.afterInB {la lb sa sb m x} (h : Sched la sa (x :: lb) (.inp m :: sb)) : x = m ∧ Sched la sa lb sb := by
  generalize e : Item.inp m :: sb = s at h
  generalize e' : x :: lb = l at h
  induction h generalizing lb with
  | nil => cases e
  | outB h => cases e
  | inB h => cases e; cases e'; exact ⟨rfl, h⟩
  | outA h ih =>
    subst e'
    obtain ⟨h1, h2⟩ := ih e rfl
    exact ⟨h1, .outA h2⟩
  | inA h ih =>
    obtain ⟨h1, h2⟩ := ih e e'
    exact ⟨h1, .inA h2⟩

section
variable {RA RB : Part}

/-- Both follow what they have to do. -/
structure Goes (RA RB : Part) (s : State) (p q : Prog) (sa sb : List Item) : Prop where
  alice : s.alice.proc = proc p
  bob : s.bob.proc = proc q
  followsA : Follows RA s.alice.trace p sa
  followsB : Follows RB s.bob.trace q sb
  sched : Sched s.alice.inbox sa s.bob.inbox sb

/-- Both are where they should get to. -/
def There (RA RB : Part) (s : State) : Prop :=
  ∃ p q, s.alice.proc = proc p ∧ s.bob.proc = proc q ∧ RA.fin s.alice.trace p ∧ RB.fin s.bob.trace q

/-- Something can be done, or both are there. -/
theorem Goes.progress {s : State} {p q sa sb} (h : Goes RA RB s p q sa sb) :
    There RA RB s ∨ ∃ s' p' q' sa' sb', HonestStep RA.node RB.node s s' ∧ Goes RA RB s' p' q' sa' sb' := by
  obtain ⟨⟨pa, ta, la⟩, ⟨pb, tb, lb⟩⟩ := s
  obtain ⟨h1, h2, h3, h4, h5⟩ := h
  simp only at h1 h2 h3 h4 h5
  subst h1 h2
  have nodeB : ∀ {x : Query} {k : Ans x → Prog} {good : Ans x → Prop}, ofNode x = true → (∀ o, ∃ r, RB.node tb o x r ∧ good r) →
      (∀ r, good r → Follows RB (tb ++ [.did x r]) (k r) sb) →
      q = .ask x k → ∃ s' p' q' sa' sb', HonestStep RA.node RB.node ⟨⟨proc p, ta, la⟩, ⟨proc q, tb, lb⟩⟩ s' ∧ Goes RA RB s' p' q' sa' sb' := by
    intro x k good hq hr hk e
    subst e
    obtain ⟨r, hr, hg⟩ := hr ta
    exact ⟨_, p, k r, sa, sb, .bobAsks x _ r tb lb _ hq hr, ⟨rfl, rfl, h3, hk r hg, h5⟩⟩
  cases h3 with
  | asks good a1 a2 a3 a4 =>
    obtain ⟨r, hr, hg⟩ := a2 tb
    exact .inr ⟨_, _, q, sa, sb, .aliceAsks _ _ r ta la _ a1 hr, ⟨rfl, rfl, a4 r hg, h4, h5⟩⟩
  | out a1 => exact .inr ⟨_, _, q, _, sb, .aliceSends .., ⟨rfl, rfl, a1, h4, h5.afterOutA⟩⟩
  | fin a1 =>
    cases h4 with
    | asks good b1 b2 b3 b4 => exact .inr (nodeB b1 b2 b4 rfl)
    | out b1 => exact .inr ⟨_, p, _, [], _, .bobSends .., ⟨rfl, rfl, .fin a1, b1, h5.afterOutB⟩⟩
    | fin b1 => cases h5; exact .inl ⟨p, q, rfl, rfl, a1, b1⟩
    | inp b0 b1 =>
      cases h5 with
      | inB h5 => exact .inr ⟨_, p, _, [], _, .bobReceives .., ⟨rfl, rfl, .fin a1, b1, h5⟩⟩
  | inp a0 a1 =>
    cases la with
    | cons m la =>
      obtain ⟨rfl, h6⟩ := h5.afterInA
      exact .inr ⟨_, _, q, _, sb, .aliceReceives .., ⟨rfl, rfl, a1, h4, h6⟩⟩
    | nil =>
      cases h4 with
      | asks good b1 b2 b3 b4 => exact .inr (nodeB b1 b2 b4 rfl)
      | out b1 => exact .inr ⟨_, _, _, _, _, .bobSends .., ⟨rfl, rfl, .inp a0 a1, b1, h5.afterOutB⟩⟩
      | fin b1 => cases h5
      | inp b0 b1 =>
        cases h5 with
        | inB h5 => exact .inr ⟨_, _, _, _, _, .bobReceives .., ⟨rfl, rfl, .inp a0 a1, b1, h5⟩⟩

/-- Bob has dropped out, and Alice has nothing to wait for. -/
structure Dropped (RA RB : Part) (s : State) (p : Prog) (l : List Msg) : Prop where
  why : ∃ o, RB.drop o
  alice : s.alice.proc = proc p
  follows : Follows RA s.alice.trace p (l.map .out)
  bob : s.bob.proc = proc .raise ∨ s.bob.proc = .over .exit

/-- When it is not early any more, nothing is waited for. -/
theorem Follows.late {R : Part} (hm : ∀ t e, R.early (t ++ [e]) → R.early t) {t : List Event} {p : Prog} {l : List Item} (h : Follows R t p l)
    (hl : ¬ R.early t) : ∃ m : List Msg, l = m.map .out := by
  induction h with
  | fin _ => exact ⟨[], rfl⟩
  | @out t m k l _ ih =>
    obtain ⟨x, rfl⟩ := ih fun h => hl (hm _ _ h)
    exact ⟨m :: x, rfl⟩
  | inp h _ => exact absurd h hl
  | asks good a1 a2 a3 a4 ih =>
    obtain ⟨r, -, hg⟩ := a2 []
    exact ih r hg fun h => hl (hm _ _ h)

/-- What `RA` and `RB` have to be like. -/
structure Fits (RA RB : Part) : Prop where
  finA : ∀ t p, RA.fin t p → p = .finish
  finB : ∀ t p, RB.fin t p → p = .finish
  noDrop : ∀ o, ¬ RA.drop o
  back : ∀ t e, RA.early (t ++ [e]) → RA.early t
  late : ∀ o, RB.drop o → ¬ RA.early o

/-- Whatever is done, both still follow what they have to do, or Bob has dropped out. -/
theorem Goes.keeps (hR : Fits RA RB) {s s' : State} {p q sa sb} (h : Goes RA RB s p q sa sb) (hs : HonestStep RA.node RB.node s s') :
    (∃ p' q' sa' sb', Goes RA RB s' p' q' sa' sb') ∨ ∃ p' l, Dropped RA RB s' p' l := by
  obtain ⟨h1, h2, h3, h4, h5⟩ := h
  cases hs with
  | aliceAsks x k r t l b hq hr =>
    simp only at h1 h2 h3 h4 h5
    cases h3 with
    | fin a1 => rw [hR.finA _ _ a1] at h1; cases h1
    | out a1 => cases h1; cases hq
    | inp _ a1 => cases h1; cases hq
    | asks good a1 a2 a3 a4 =>
      cases h1
      rcases a3 _ _ hr with hg | ⟨_, hd⟩
      · exact .inl ⟨_, q, sa, sb, rfl, h2, a4 _ hg, h4, h5⟩
      · exact absurd hd (hR.noDrop _)
  | bobAsks x k r t l b hq hr =>
    simp only at h1 h2 h3 h4 h5
    cases h4 with
    | fin a1 => rw [hR.finB _ _ a1] at h2; cases h2
    | out a1 => cases h2; cases hq
    | inp _ a1 => cases h2; cases hq
    | asks good a1 a2 a3 a4 =>
      cases h2
      rcases a3 _ _ hr with hg | ⟨e, hd⟩
      · exact .inl ⟨p, _, sa, sb, h1, rfl, h3, a4 _ hg, h5⟩
      · obtain ⟨m, rfl⟩ := h3.late hR.back (hR.late _ hd)
        exact .inr ⟨p, m, ⟨_, hd⟩, h1, h3, .inl (congrArg proc e)⟩
  | aliceSends m k t l b =>
    simp only at h1 h2 h3 h4 h5
    cases h3 with
    | fin a1 => rw [hR.finA _ _ a1] at h1; cases h1
    | out a1 => cases h1; exact .inl ⟨_, q, _, sb, rfl, h2, a1, h4, h5.afterOutA⟩
    | inp _ a1 => cases h1
    | asks good a1 a2 a3 a4 => cases h1; cases a1
  | bobSends m k t l b =>
    simp only at h1 h2 h3 h4 h5
    cases h4 with
    | fin a1 => rw [hR.finB _ _ a1] at h2; cases h2
    | out a1 => cases h2; exact .inl ⟨p, _, sa, _, h1, rfl, h3, a1, h5.afterOutB⟩
    | inp _ a1 => cases h2
    | asks good a1 a2 a3 a4 => cases h2; cases a1
  | aliceReceives n m k t l b =>
    simp only at h1 h2 h3 h4 h5
    cases h3 with
    | fin a1 => rw [hR.finA _ _ a1] at h1; cases h1
    | out a1 => cases h1
    | inp _ a1 =>
      cases h1
      obtain ⟨rfl, h6⟩ := h5.afterInA
      exact .inl ⟨_, q, _, sb, rfl, h2, a1, h4, h6⟩
    | asks good a1 a2 a3 a4 => cases h1; cases a1
  | bobReceives n m k t l b =>
    simp only at h1 h2 h3 h4 h5
    cases h4 with
    | fin a1 => rw [hR.finB _ _ a1] at h2; cases h2
    | out a1 => cases h2
    | inp _ a1 =>
      cases h2
      obtain ⟨rfl, h6⟩ := h5.afterInB
      exact .inl ⟨p, _, sa, _, h1, rfl, h3, a1, h6⟩
    | asks good a1 a2 a3 a4 => cases h2; cases a1

theorem Dropped.keeps (hR : Fits RA RB) {s s' : State} {p l} (h : Dropped RA RB s p l) (hs : HonestStep RA.node RB.node s s') : ∃ p' l', Dropped RA RB s' p' l' := by
  obtain ⟨h0, h1, h3, h2⟩ := h
  cases hs with
  | aliceAsks x k r t i b hq hr =>
    simp only at h1 h2 h3
    generalize e : l.map Item.out = sa at h3
    cases h3 with
    | fin a1 => rw [hR.finA _ _ a1] at h1; cases h1
    | out a1 => cases h1; cases hq
    | inp _ a1 => cases h1; cases hq
    | asks good a1 a2 a3 a4 =>
      cases h1
      rcases a3 _ _ hr with hg | ⟨_, hd⟩
      · subst e; exact ⟨_, l, h0, rfl, a4 _ hg, h2⟩
      · exact absurd hd (hR.noDrop _)
  | aliceSends m k t i b =>
    simp only at h1 h2 h3
    generalize e : l.map Item.out = sa at h3
    cases h3 with
    | fin a1 => rw [hR.finA _ _ a1] at h1; cases h1
    | out a1 =>
      cases h1
      cases l with
      | nil => cases e
      | cons x l => cases e; exact ⟨_, l, h0, rfl, a1, h2⟩
    | inp _ a1 => cases h1
    | asks good a1 a2 a3 a4 => cases h1; cases a1
  | aliceReceives n m k t i b =>
    simp only at h1 h2 h3
    generalize e : l.map Item.out = sa at h3
    cases h3 with
    | fin a1 => rw [hR.finA _ _ a1] at h1; cases h1
    | out a1 => cases h1
    | inp _ a1 => cases l <;> cases e
    | asks good a1 a2 a3 a4 => cases h1; cases a1
  | bobAsks x k r t i b hq hr =>
    simp only at h1 h2 h3
    rcases h2 with h2 | h2 <;> cases h2
    cases hq
  | bobSends m k t i b =>
    simp only at h1 h2 h3
    rcases h2 with h2 | h2 <;> cases h2
    exact ⟨p, l, h0, h1, h3, .inr rfl⟩
  | bobReceives n m k t i b =>
    simp only at h1 h2 h3
    rcases h2 with h2 | h2 <;> cases h2

theorem Dropped.progress {s : State} {p l} (h : Dropped RA RB s p l) :
    (s.alice.proc = proc p ∧ RA.fin s.alice.trace p ∧ s.bob.proc = .over .exit) ∨ ∃ s', HonestStep RA.node RB.node s s' := by
  obtain ⟨⟨pa, ta, la⟩, ⟨pb, tb, lb⟩⟩ := s
  obtain ⟨h0, h1, h3, h2⟩ := h
  simp only at h1 h2 h3
  subst h1
  rcases h2 with rfl | rfl
  · exact .inr ⟨_, .bobSends ..⟩
  · generalize e : l.map Item.out = sa at h3
    cases h3 with
    | fin a1 => exact .inl ⟨rfl, a1, rfl⟩
    | out a1 => exact .inr ⟨_, .aliceSends ..⟩
    | inp _ a1 => cases l <;> cases e
    | asks good a1 a2 a3 a4 =>
      obtain ⟨r, hr, -⟩ := a2 tb
      exact .inr ⟨_, .aliceAsks _ _ r _ _ _ a1 hr⟩

theorem honest_step {A B : Node} {s s' : State} (h : HonestStep A B s s') : Step (fun _ _ => True) s s' := by
  have e : ∀ x : Side, x = { x with inbox := x.inbox ++ [] } := fun x => by simp
  cases h with
  | aliceAsks x k r t l b hq hr => have := Step.alice (ok := fun _ _ => True) x k r t l l [] b (.node _ _ _ hq) trivial; rwa [← e] at this
  | bobAsks x k r t l b hq hr => have := Step.bob (ok := fun _ _ => True) x k r t l l [] b (.node _ _ _ hq) trivial; rwa [← e] at this
  | aliceSends m k t l b => exact .alice _ k _ t l l [m] b (.sent _ _) trivial
  | bobSends m k t l b => exact .bob _ k _ t l l [m] b (.sent _ _) trivial
  | aliceReceives n m k t l b => have := Step.alice (ok := fun _ _ => True) _ k _ t (m :: l) l [] b (.received _ n m) trivial; rwa [← e] at this
  | bobReceives n m k t l b => have := Step.bob (ok := fun _ _ => True) _ k _ t (m :: l) l [] b (.received _ n m) trivial; rwa [← e] at this

/-- It cannot go on for ever. -/
theorem honest_wf (A B : Node) : WellFounded fun s' s : State => HonestStep A B s s' :=
  Subrelation.wf (fun {_ _} h => honest_step h) (C85_ends fun _ _ => True)

theorem honest_trans {A B : Node} {s0 s1 s2 : State} (h : HonestRun A B s0 s1) (h' : HonestRun A B s1 s2) : HonestRun A B s0 s2 := by
  induction h' with
  | here => exact h
  | step _ hs ih => exact .step ih hs

/-- Some run gets both there. -/
theorem Goes.gets {s : State} {p q sa sb} (h : Goes RA RB s p q sa sb) : ∃ s', HonestRun RA.node RB.node s s' ∧ There RA RB s' := by
  induction s using (honest_wf RA.node RB.node).induction generalizing p q sa sb with
  | _ s ih =>
    rcases h.progress with h' | ⟨s', p', q', sa', sb', hs, h'⟩
    · exact ⟨s, .here, h'⟩
    · obtain ⟨s2, hr, ht⟩ := ih s' hs h'
      exact ⟨s2, honest_trans (HonestRun.step .here hs) hr, ht⟩

/-- In every run, something can be done, or both are there, or Bob has dropped out and Alice is there. -/
theorem Goes.always (hR : Fits RA RB) {s s' : State} {p q sa sb} (h : Goes RA RB s p q sa sb) (hs : HonestRun RA.node RB.node s s') :
    (∃ s2, HonestStep RA.node RB.node s' s2) ∨ There RA RB s' ∨
      (∃ o, RB.drop o) ∧ ∃ p', s'.alice.proc = proc p' ∧ RA.fin s'.alice.trace p' ∧ s'.bob.proc = .over .exit := by
  have key : (∃ p' q' sa' sb', Goes RA RB s' p' q' sa' sb') ∨ ∃ p' l, Dropped RA RB s' p' l := by
    induction hs with
    | here => exact .inl ⟨p, q, sa, sb, h⟩
    | step _ hs ih =>
      rcases ih with ⟨_, _, _, _, h'⟩ | ⟨_, _, h'⟩
      · exact h'.keeps hR hs
      · exact .inr (h'.keeps hR hs)
  rcases key with ⟨_, _, _, _, h'⟩ | ⟨_, _, h'⟩
  · rcases h'.progress with h2 | ⟨s2, _, _, _, _, h2, -⟩
    · exact .inr (.inl h2)
    · exact .inl ⟨s2, h2⟩
  · rcases h'.progress with ⟨h1, h2, h3⟩ | h2
    · exact .inr (.inr ⟨h'.why, _, h1, h2, h3⟩)
    · exact .inl h2

end
end Verif.AssetPair
