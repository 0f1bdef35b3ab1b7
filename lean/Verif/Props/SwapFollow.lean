import Verif.Spec.SwapHonest
import Verif.Props.SwapPair
/-
Two programs that send each other what the other waits for, on two chains: neither waits for ever, whatever the order of the steps.
-/
namespace Verif.SwapPair
open Verif Spec Spec.Cross CrossSwap SwapSpend SwapBtc SwapRun

/-- What a process does that the other waits for, or waits for: messages, and a transaction on the chain. -/
inductive Item
  | out (m : Msg)
  | inp (m : Msg)
  | post
  | see

/-- What is known about one of them: the node, what has happened when a message is sent, what has happened to the other when one arrives,
when the transaction is posted, and what holds at the end. -/
structure Part where
  node : Node
  tells : Msg → List Event → Prop
  heard : Msg → List Event → Prop
  posted : List Event → Prop
  fin : List Event → Prop

/-- What one knows about the other from the messages. -/
def Part.Knows (R : Part) (t o : List Event) : Prop := ∀ m : Msg, Event.did .recv (.ok (some m)) ∈ t → R.heard m o

/-- The program does this. -/
inductive Follows (R : Part) : List Event → Prog → List Item → Prop
  | fin {t : List Event} : R.fin t → Follows R t .finish []
  | wish {t : List Event} {w p : Prog} {l : List Item} : Follows R t p l → Follows R t (.wish w p) l
  | out {t : List Event} {m : Msg} {k : Ans (.send m) → Prog} {l : List Item} : R.tells m t →
      Follows R (t ++ [.did (.send m) (.ok ())]) (k (.ok ())) l → Follows R t (.ask (.send m) k) (.out m :: l)
  | inp {t : List Event} {m : Msg} {k : Ans .recv → Prog} {l : List Item} :
      Follows R (t ++ [.did .recv (.ok (some m))]) (k (.ok (some m))) l → Follows R t (.ask .recv k) (.inp m :: l)
  | asks {t : List Event} {q : Query} {k : Ans q → Prog} {l : List Item} : ofNode q = true → (∀ o, R.Knows t o → ∃ r, R.node t o q r) →
      (∀ o r, R.Knows t o → R.node t o q r → Follows R (t ++ [.did q r]) (k r) l) → Follows R t (.ask q k) l
  | post {t : List Event} {q : Query} {k : Ans q → Prog} {l : List Item} : ofNode q = true → (∀ o, R.Knows t o → ∃ r, R.node t o q r) →
      (∀ o r, R.Knows t o → R.node t o q r → R.posted (t ++ [.did q r])) →
      (∀ o r, R.Knows t o → R.node t o q r → Follows R (t ++ [.did q r]) (k r) l) → Follows R t (.ask q k) (.post :: l)
  | see {t : List Event} {q : Query} {k : Ans q → Prog} {l : List Item} (c : Ans q → List Item) (hc : ∀ r, c r = .see :: l ∨ c r = l) : ofNode q = true →
      (∀ o, R.Knows t o → R.posted o → ∃ r, R.node t o q r) → (∀ o r, R.Knows t o → R.node t o q r → Follows R (t ++ [.did q r]) (k r) (c r)) →
      Follows R t (.ask q k) (.see :: l)

/-- There is an order in which everything that is waited for has been done: Alice waits for what Bob posts. -/
inductive Sched : Bool → List Msg → List Item → List Msg → List Item → Prop
  | nil {f la lb} : Sched f la [] lb []
  | outA {f la sa lb sb} {m : Msg} : Sched f la sa (lb ++ [m]) sb → Sched f la (.out m :: sa) lb sb
  | inA {f la sa lb sb} {m : Msg} : Sched f la sa lb sb → Sched f (m :: la) (.inp m :: sa) lb sb
  | seeA {la sa lb sb} : Sched true la sa lb sb → Sched true la (.see :: sa) lb sb
  | outB {f la sa lb sb} {m : Msg} : Sched f (la ++ [m]) sa lb sb → Sched f la sa lb (.out m :: sb)
  | inB {f la sa lb sb} {m : Msg} : Sched f la sa lb sb → Sched f la sa (m :: lb) (.inp m :: sb)
  | postB {f la sa lb sb} : Sched true la sa lb sb → Sched f la sa lb (.post :: sb)

theorem Sched.afterOutA {f la lb sa sb m} (h : Sched f la (.out m :: sa) lb sb) : Sched f la sa (lb ++ [m]) sb := by
  generalize e : Item.out m :: sa = s at h
  induction h with
  | nil => cases e
  | outA h => cases e; exact h
  | inA h => cases e
  | seeA h => cases e
  | outB h ih => exact .outB (ih e)
  | inB h ih => exact .inB (ih e)
  | postB h ih => exact .postB (ih e)

theorem Sched.afterOutB {f la lb sa sb m} (h : Sched f la sa lb (.out m :: sb)) : Sched f (la ++ [m]) sa lb sb := by
  generalize e : Item.out m :: sb = s at h
  induction h with
  | nil => cases e
  | outB h => cases e; exact h
  | inB h => cases e
  | postB h => cases e
  | outA h ih => exact .outA (ih e)
  | inA h ih => exact .inA (ih e)
  | seeA h ih => exact .seeA (ih e)

theorem Sched.afterInA {f la lb sa sb m x} (h : Sched f (x :: la) (.inp m :: sa) lb sb) : x = m ∧ Sched f la sa lb sb := by
  generalize e : Item.inp m :: sa = s at h
  generalize e' : x :: la = l at h
  induction h generalizing la with
  | nil => cases e
  | outA h => cases e
  | seeA h => cases e
  | inA h => cases e; cases e'; exact ⟨rfl, h⟩
  | outB h ih =>
    subst e'
    obtain ⟨h1, h2⟩ := ih e rfl
    exact ⟨h1, .outB h2⟩
  | inB h ih =>
    obtain ⟨h1, h2⟩ := ih e e'
    exact ⟨h1, .inB h2⟩
  | postB h ih =>
    obtain ⟨h1, h2⟩ := ih e e'
    exact ⟨h1, .postB h2⟩

theorem Sched.afterInB {f la lb sa sb m x} (h : Sched f la sa (x :: lb) (.inp m :: sb)) : x = m ∧ Sched f la sa lb sb := by
  generalize e : Item.inp m :: sb = s at h
  generalize e' : x :: lb = l at h
  induction h generalizing lb with
  | nil => cases e
  | outB h => cases e
  | postB h => cases e
  | inB h => cases e; cases e'; exact ⟨rfl, h⟩
  | outA h ih =>
    subst e'
    obtain ⟨h1, h2⟩ := ih e rfl
    exact ⟨h1, .outA h2⟩
  | inA h ih =>
    obtain ⟨h1, h2⟩ := ih e e'
    exact ⟨h1, .inA h2⟩
  | seeA h ih =>
    obtain ⟨h1, h2⟩ := ih e e'
    exact ⟨h1, .seeA h2⟩

theorem Sched.up {f la lb sa sb} (h : Sched f la sa lb sb) : Sched true la sa lb sb := by
  induction h with
  | nil => exact .nil
  | outA _ ih => exact .outA ih
  | inA _ ih => exact .inA ih
  | seeA _ ih => exact .seeA ih
  | outB _ ih => exact .outB ih
  | inB _ ih => exact .inB ih
  | postB _ ih => exact .postB ih

theorem Sched.afterPost {f la lb sa sb} (h : Sched f la sa lb (.post :: sb)) : Sched true la sa lb sb := by
  generalize e : Item.post :: sb = s at h
  induction h with
  | nil => cases e
  | outB h => cases e
  | inB h => cases e
  | postB h => cases e; exact h
  | outA h ih => exact .outA (ih e)
  | inA h ih => exact .inA (ih e)
  | seeA h ih => exact .seeA (ih e)

theorem Sched.afterSee {f la lb sa sb} (h : Sched f la (.see :: sa) lb sb) : Sched f la sa lb sb := by
  generalize e : Item.see :: sa = s at h
  induction h with
  | nil => cases e
  | outA h => cases e
  | inA h => cases e
  | seeA h => cases e; exact h
  | outB h ih => exact .outB (ih e)
  | inB h ih => exact .inB (ih e)
  | postB h ih => exact .postB (ih e)

/-- Bob does not see. -/
theorem Sched.noSee {f la lb sa sb} (h : Sched f la sa lb (.see :: sb)) : False := by
  generalize e : Item.see :: sb = s at h
  induction h with
  | nil => cases e
  | outB h => cases e
  | inB h => cases e
  | postB h => cases e
  | outA h ih => exact ih e
  | inA h ih => exact ih e
  | seeA h ih => exact ih e

/-- Alice does not post. -/
theorem Sched.noPost {f la lb sa sb} (h : Sched f la (.post :: sa) lb sb) : False := by
  generalize e : Item.post :: sa = s at h
  induction h with
  | nil => cases e
  | outA h => cases e
  | inA h => cases e
  | seeA h => cases e
  | outB h ih => exact ih e
  | inB h ih => exact ih e
  | postB h ih => exact ih e

/-- The process of a participant who has this last wish. -/
def procOf (l : Option Prog) (p : Prog) : Proc := body p l fun e l =>
  match e with
  | .finished => .over .done
  | .waiting => .over .waiting
  | .died peacefully => lastly l fun
    | .finished => if peacefully then .over .exit else leave
    | .waiting => .over .waiting
    | .died true => .over .exit
    | _ => leave
  | .raised => lastly l fun
    | .finished => leave
    | .waiting => .over .waiting
    | .died true => .over .exit
    | _ => .over .crash

theorem proc_procOf (p : Prog) : proc p = procOf none p := rfl

/-- It follows, or has a last wish first. -/
inductive Head (R : Part) (x : Proc) (t : List Event) (l : List Item) : Prop
  | fin : x = .over .done → R.fin t → l = [] → Head R x t l
  | out (m : Msg) (k : Ans (.send m) → Prog) (w : Option Prog) (l' : List Item) : x = .asks (.send m) (fun a => procOf w (k a)) → l = .out m :: l' → R.tells m t →
      Follows R (t ++ [.did (.send m) (.ok ())]) (k (.ok ())) l' → Head R x t l
  | inp (m : Msg) (k : Ans .recv → Prog) (w : Option Prog) (l' : List Item) : x = .asks .recv (fun a => procOf w (k a)) → l = .inp m :: l' →
      Follows R (t ++ [.did .recv (.ok (some m))]) (k (.ok (some m))) l' → Head R x t l
  | asks (q : Query) (k : Ans q → Prog) (w : Option Prog) : x = .asks q (fun a => procOf w (k a)) → ofNode q = true → (∀ o, R.Knows t o → ∃ r, R.node t o q r) →
      (∀ o r, R.Knows t o → R.node t o q r → Follows R (t ++ [.did q r]) (k r) l) → Head R x t l
  | post (q : Query) (k : Ans q → Prog) (w : Option Prog) (l' : List Item) : x = .asks q (fun a => procOf w (k a)) → l = .post :: l' → ofNode q = true →
      (∀ o, R.Knows t o → ∃ r, R.node t o q r) →
      (∀ o r, R.Knows t o → R.node t o q r → R.posted (t ++ [.did q r]) ∧ Follows R (t ++ [.did q r]) (k r) l') → Head R x t l
  | see (q : Query) (k : Ans q → Prog) (w : Option Prog) (l' : List Item) : x = .asks q (fun a => procOf w (k a)) → l = .see :: l' → ofNode q = true →
      (∀ o, R.Knows t o → R.posted o → ∃ r, R.node t o q r) →
      (∀ o r, R.Knows t o → R.node t o q r → Follows R (t ++ [.did q r]) (k r) (.see :: l') ∨ Follows R (t ++ [.did q r]) (k r) l') → Head R x t l

theorem Follows.head {R : Part} {t : List Event} {p : Prog} {l : List Item} (h : Follows R t p l) (w : Option Prog) : Head R (procOf w p) t l := by
  induction h generalizing w with
  | fin h => exact .fin rfl h rfl
  | wish _ ih => exact ih (some _)
  | out h1 h2 _ => exact .out _ _ w _ rfl rfl h1 h2
  | inp h2 _ => exact .inp _ _ w _ rfl rfl h2
  | asks h1 h2 h3 _ => exact .asks _ _ w rfl h1 h2 h3
  | post h1 h2 h3 h4 _ => exact .post _ _ w _ rfl rfl h1 h2 fun o r a b => ⟨h3 o r a b, h4 o r a b⟩
  | see c hc h1 h2 h3 _ =>
    refine .see _ _ w _ rfl rfl h1 h2 fun o r a b => ?_
    have h4 := h3 o r a b
    rcases hc r with e | e <;> rw [e] at h4
    · exact .inl h4
    · exact .inr h4

section
variable {RA RB : Part}

/-- What `RA` and `RB` have to be like: same node, and what one tells is what the other hears; it stays true. -/
structure Fits (RA RB : Part) : Prop where
  node : RB.node = RA.node
  posts : RB.posted = RA.posted
  telA : RA.tells = RB.heard
  telB : RB.tells = RA.heard
  keepA : ∀ m t e, RA.heard m t → RA.heard m (t ++ [e])
  keepB : ∀ m t e, RB.heard m t → RB.heard m (t ++ [e])
  keepP : ∀ t e, RA.posted t → RA.posted (t ++ [e])

/-- Both follow what they have to do. -/
structure Goes (RA RB : Part) (s : State) (f : Bool) (sa sb : List Item) : Prop where
  followsA : ∃ w p, s.alice.proc = procOf w p ∧ Follows RA s.alice.trace p sa
  followsB : ∃ w p, s.bob.proc = procOf w p ∧ Follows RB s.bob.trace p sb
  sched : Sched f s.alice.inbox sa s.bob.inbox sb
  posted : f = true → RA.posted s.bob.trace
  inboxA : ∀ m ∈ s.alice.inbox, RA.heard m s.bob.trace
  inboxB : ∀ m ∈ s.bob.inbox, RB.heard m s.alice.trace
  knowsA : RA.Knows s.alice.trace s.bob.trace
  knowsB : RB.Knows s.bob.trace s.alice.trace

/-- Both are done. -/
def There (RA RB : Part) (s : State) : Prop :=
  s.alice.proc = .over .done ∧ s.bob.proc = .over .done ∧ RA.fin s.alice.trace ∧ RB.fin s.bob.trace

theorem knows_did {R : Part} {t o : List Event} {q : Query} {r : Ans q} (h : R.Knows t o) (hq : ofNode q = true ∨ ∃ m, q = .send m) :
    R.Knows (t ++ [.did q r]) o := by
  intro m hm
  rcases List.mem_append.1 hm with hm | hm
  · exact h m hm
  · cases List.mem_singleton.1 hm
    rcases hq with hq | ⟨_, hq⟩ <;> cases hq

theorem knows_recv {R : Part} {t o : List Event} {m : Msg} (h : R.Knows t o) (hm : R.heard m o) : R.Knows (t ++ [.did .recv (.ok (some m))]) o := by
  intro m' hm'
  rcases List.mem_append.1 hm' with hm' | hm'
  · exact h m' hm'
  · cases List.mem_singleton.1 hm'
    exact hm

theorem knows_more {R : Part} {t o : List Event} {e : Event} (hk : ∀ m t e, R.heard m t → R.heard m (t ++ [e])) (h : R.Knows t o) : R.Knows t (o ++ [e]) :=
  fun m hm => hk _ _ _ (h m hm)

/-- Whatever is done, both still follow what they have to do. -/
theorem Goes.keeps (hR : Fits RA RB) {s s' : State} {f sa sb} (h : Goes RA RB s f sa sb) (hs : HonestStep RA.node s s') :
    ∃ f' sa' sb', Goes RA RB s' f' sa' sb' := by
  obtain ⟨⟨wa, pa, ea, fa⟩, ⟨wb, pb, eb, fb⟩, h5, hp, ia, ib, ka, kb⟩ := h
  have ha := fa.head wa
  have hb := fb.head wb
  rw [← ea] at ha
  rw [← eb] at hb
  cases hs with
  | aliceAsks x k r t l b hq hr =>
    simp only at h5 hp ia ib ka kb ha hb ea eb
    have kA : RA.Knows (t ++ [.did x r]) b.trace := knows_did ka (.inl hq)
    have kB : RB.Knows b.trace (t ++ [.did x r]) := knows_more hR.keepB kb
    have iB : ∀ m ∈ b.inbox, RB.heard m (t ++ [.did x r]) := fun m hm => hR.keepB _ _ _ (ib m hm)
    cases ha with
    | fin e => cases e
    | out m k w l' e => cases e; cases hq
    | inp m k w l' e => cases e; cases hq
    | asks q k w e a1 a2 a3 => cases e; exact ⟨f, sa, sb, ⟨_, _, rfl, a3 _ _ ka hr⟩, ⟨wb, pb, eb, fb⟩, h5, hp, ia, iB, kA, kB⟩
    | post q k w l' e e' => subst e'; exact h5.noPost.elim
    | see q k w l' e e' a1 a2 a3 =>
      cases e
      subst e'
      rcases a3 _ _ ka hr with a4 | a4
      · exact ⟨f, _, sb, ⟨_, _, rfl, a4⟩, ⟨wb, pb, eb, fb⟩, h5, hp, ia, iB, kA, kB⟩
      · exact ⟨f, _, sb, ⟨_, _, rfl, a4⟩, ⟨wb, pb, eb, fb⟩, h5.afterSee, hp, ia, iB, kA, kB⟩
  | bobAsks x k r t l b hq hr =>
    simp only at h5 hp ia ib ka kb ha hb ea eb
    have kA : RA.Knows b.trace (t ++ [.did x r]) := knows_more hR.keepA ka
    have kB : RB.Knows (t ++ [.did x r]) b.trace := knows_did kb (.inl hq)
    have iA : ∀ m ∈ b.inbox, RA.heard m (t ++ [.did x r]) := fun m hm => hR.keepA _ _ _ (ia m hm)
    have hp' : f = true → RA.posted (t ++ [.did x r]) := fun e => hR.keepP _ _ (hp e)
    rw [← hR.node] at hr
    cases hb with
    | fin e => cases e
    | out m k w l' e => cases e; cases hq
    | inp m k w l' e => cases e; cases hq
    | asks q k w e a1 a2 a3 => cases e; exact ⟨f, sa, sb, ⟨wa, pa, ea, fa⟩, ⟨_, _, rfl, a3 _ _ kb hr⟩, h5, hp', iA, ib, kA, kB⟩
    | post q k w l' e e' a1 a2 a3 =>
      cases e
      subst e'
      obtain ⟨a4, a5⟩ := a3 _ _ kb hr
      rw [hR.posts] at a4
      exact ⟨true, sa, _, ⟨wa, pa, ea, fa⟩, ⟨_, _, rfl, a5⟩, h5.afterPost, fun _ => a4, iA, ib, kA, kB⟩
    | see q k w l' e e' => subst e'; exact h5.noSee.elim
  | aliceSends m k t l b =>
    simp only at h5 hp ia ib ka kb ha hb ea eb
    cases ha with
    | fin e => cases e
    | inp m k w l' e => cases e
    | asks q k w e a1 => cases e; cases a1
    | post q k w l' e e' a1 => cases e; cases a1
    | see q k w l' e e' a1 => cases e; cases a1
    | out m k w l' e e' a1 a2 =>
      cases e
      subst e'
      refine ⟨f, _, sb, ⟨_, _, rfl, a2⟩, ⟨wb, pb, eb, fb⟩, h5.afterOutA, hp, ia, ?_, knows_did ka (.inr ⟨_, rfl⟩), knows_more hR.keepB kb⟩
      intro m' hm'
      refine hR.keepB _ _ _ ?_
      rcases List.mem_append.1 hm' with hm' | hm'
      · exact ib m' hm'
      · rw [List.mem_singleton.1 hm', ← hR.telA]
        exact a1
  | bobSends m k t l b =>
    simp only at h5 hp ia ib ka kb ha hb ea eb
    cases hb with
    | fin e => cases e
    | inp m k w l' e => cases e
    | asks q k w e a1 => cases e; cases a1
    | post q k w l' e e' a1 => cases e; cases a1
    | see q k w l' e e' a1 => cases e; cases a1
    | out m k w l' e e' a1 a2 =>
      cases e
      subst e'
      refine ⟨f, sa, _, ⟨wa, pa, ea, fa⟩, ⟨_, _, rfl, a2⟩, h5.afterOutB, fun e => hR.keepP _ _ (hp e), ?_, ib, knows_more hR.keepA ka, knows_did kb (.inr ⟨_, rfl⟩)⟩
      intro m' hm'
      refine hR.keepA _ _ _ ?_
      rcases List.mem_append.1 hm' with hm' | hm'
      · exact ia m' hm'
      · rw [List.mem_singleton.1 hm', ← hR.telB]
        exact a1
  | aliceReceives m k t l b =>
    simp only at h5 hp ia ib ka kb ha hb ea eb
    cases ha with
    | fin e => cases e
    | out m k w l' e => cases e
    | asks q k w e a1 => cases e; cases a1
    | post q k w l' e e' a1 => cases e; cases a1
    | see q k w l' e e' a1 => cases e; cases a1
    | inp m k w l' e e' a2 =>
      cases e
      subst e'
      obtain ⟨rfl, h6⟩ := h5.afterInA
      exact ⟨f, _, sb, ⟨_, _, rfl, a2⟩, ⟨wb, pb, eb, fb⟩, h6, hp, fun m' hm' => ia m' (List.mem_cons_of_mem _ hm'), fun m' hm' => hR.keepB _ _ _ (ib m' hm'),
        knows_recv ka (ia _ (List.mem_cons_self ..)), knows_more hR.keepB kb⟩
  | bobReceives m k t l b =>
    simp only at h5 hp ia ib ka kb ha hb ea eb
    cases hb with
    | fin e => cases e
    | out m k w l' e => cases e
    | asks q k w e a1 => cases e; cases a1
    | post q k w l' e e' a1 => cases e; cases a1
    | see q k w l' e e' a1 => cases e; cases a1
    | inp m k w l' e e' a2 =>
      cases e
      subst e'
      obtain ⟨rfl, h6⟩ := h5.afterInB
      exact ⟨f, sa, _, ⟨wa, pa, ea, fa⟩, ⟨_, _, rfl, a2⟩, h6, fun e => hR.keepP _ _ (hp e), fun m' hm' => hR.keepA _ _ _ (ia m' hm'),
        fun m' hm' => ib m' (List.mem_cons_of_mem _ hm'), knows_more hR.keepA ka, knows_recv kb (ib _ (List.mem_cons_self ..))⟩
  | aliceWishes p t l b =>
    simp only at ha
    cases ha with
    | fin e => cases e
    | out _ _ _ _ e => cases e
    | inp _ _ _ _ e => cases e
    | asks _ _ _ e => cases e
    | post _ _ _ _ e => cases e
    | see _ _ _ _ e => cases e
  | bobWishes p t l b =>
    simp only at hb
    cases hb with
    | fin e => cases e
    | out _ _ _ _ e => cases e
    | inp _ _ _ _ e => cases e
    | asks _ _ _ e => cases e
    | post _ _ _ _ e => cases e
    | see _ _ _ _ e => cases e

/-- Something can be done, or both are done. -/
theorem Goes.progress (hR : Fits RA RB) {s : State} {f sa sb} (h : Goes RA RB s f sa sb) :
    There RA RB s ∨ ∃ s', HonestStep RA.node s s' := by
  obtain ⟨⟨pa, ta, la⟩, ⟨pb, tb, lb⟩⟩ := s
  obtain ⟨⟨wa, qa, ea, fa⟩, ⟨wb, qb, eb, fb⟩, h5, hp, ia, ib, ka, kb⟩ := h
  have ha := fa.head wa
  have hb := fb.head wb
  rw [← ea] at ha
  rw [← eb] at hb
  simp only at h5 hp ia ib ka kb ha hb
  /- Bob can do something, unless done or waiting for a message -/
  have bob : (∃ s', HonestStep RA.node ⟨⟨pa, ta, la⟩, ⟨pb, tb, lb⟩⟩ s') ∨ (pb = .over .done ∧ RB.fin tb ∧ sb = []) ∨ (∃ m l', sb = .inp m :: l' ∧ lb = []) := by
    cases hb with
    | fin e h1 h2 => exact .inr (.inl ⟨e, h1, h2⟩)
    | out m k w l' e => subst e; exact .inl ⟨_, .bobSends ..⟩
    | asks q k w e a1 a2 a3 =>
      subst e
      obtain ⟨r, hr⟩ := a2 _ kb
      rw [hR.node] at hr
      exact .inl ⟨_, .bobAsks q _ r _ _ _ a1 hr⟩
    | post q k w l' e e' a1 a2 a3 =>
      subst e
      obtain ⟨r, hr⟩ := a2 _ kb
      rw [hR.node] at hr
      exact .inl ⟨_, .bobAsks q _ r _ _ _ a1 hr⟩
    | see q k w l' e e' => subst e'; exact h5.noSee.elim
    | inp m k w l' e e' a2 =>
      subst e
      cases lb with
      | nil => exact .inr (.inr ⟨m, l', e', rfl⟩)
      | cons x lb => exact .inl ⟨_, .bobReceives ..⟩
  cases ha with
  | out m k w l' e => subst e; exact .inr ⟨_, .aliceSends ..⟩
  | asks q k w e a1 a2 a3 =>
    subst e
    obtain ⟨r, hr⟩ := a2 _ ka
    exact .inr ⟨_, .aliceAsks q _ r _ _ _ a1 hr⟩
  | post q k w l' e e' => subst e'; exact h5.noPost.elim
  | fin e h1 h2 =>
    subst h2
    rcases bob with hs | ⟨h3, h4, rfl⟩ | ⟨m, l', rfl, rfl⟩
    · exact .inr hs
    · exact .inl ⟨e, h3, h1, h4⟩
    · cases h5
  | inp m k w l' e e' a2 =>
    subst e e'
    cases la with
    | cons x la => exact .inr ⟨_, .aliceReceives ..⟩
    | nil =>
      rcases bob with hs | ⟨h3, h4, rfl⟩ | ⟨m, l', rfl, rfl⟩
      · exact .inr hs
      · cases h5
      · cases h5
  | see q k w l' e e' a1 a2 a3 =>
    subst e e'
    cases f with
    | true =>
      obtain ⟨r, hr⟩ := a2 _ ka (hp rfl)
      exact .inr ⟨_, .aliceAsks q _ r _ _ _ a1 hr⟩
    | false =>
      rcases bob with hs | ⟨h3, h4, rfl⟩ | ⟨m, l', rfl, rfl⟩
      · exact .inr hs
      · cases h5
      · cases h5

theorem honest_step {N : Node} {s s' : State} (h : HonestStep N s s') : Step (fun _ _ => True) s s' := by
  have e : ∀ x : Side, x = { x with inbox := x.inbox ++ [] } := fun x => by simp
  cases h with
  | aliceAsks x k r t l b hq hr => have := Step.alice (ok := fun _ _ => True) x k r t l l [] b (.node _ _ _ hq) trivial; rwa [← e] at this
  | bobAsks x k r t l b hq hr => have := Step.bob (ok := fun _ _ => True) x k r t l l [] b (.node _ _ _ hq) trivial; rwa [← e] at this
  | aliceSends m k t l b => exact .alice _ k _ t l l [m] b (.sent _ _) trivial
  | bobSends m k t l b => exact .bob _ k _ t l l [m] b (.sent _ _) trivial
  | aliceReceives m k t l b => have := Step.alice (ok := fun _ _ => True) _ k _ t (m :: l) l [] b (.received _ m) trivial; rwa [← e] at this
  | bobReceives m k t l b => have := Step.bob (ok := fun _ _ => True) _ k _ t (m :: l) l [] b (.received _ m) trivial; rwa [← e] at this
  | aliceWishes p t l b => exact .aliceWishes p t l b
  | bobWishes p t l b => exact .bobWishes p t l b

theorem honest_reaches {N : Node} {s s' : State} (h : HonestRun N s s') : Reaches (fun _ _ => True) s s' := by
  induction h with
  | here => exact .here
  | step _ hs ih => exact .step ih (honest_step hs)

/-- It cannot go on for ever. -/
theorem honest_wf (N : Node) : WellFounded fun s' s : State => HonestStep N s s' :=
  Subrelation.wf (fun {_ _} h => honest_step h) (C86_ends fun _ _ => True)

theorem honest_trans {N : Node} {s0 s1 s2 : State} (h : HonestRun N s0 s1) (h' : HonestRun N s1 s2) : HonestRun N s0 s2 := by
  induction h' with
  | here => exact h
  | step _ hs ih => exact .step ih hs

/-- In every run, something can be done, or both are done. -/
theorem Goes.always (hR : Fits RA RB) {s s' : State} {f sa sb} (h : Goes RA RB s f sa sb) (hs : HonestRun RA.node s s') :
    (∃ s2, HonestStep RA.node s' s2) ∨ There RA RB s' := by
  have key : ∃ f' sa' sb', Goes RA RB s' f' sa' sb' := by
    induction hs with
    | here => exact ⟨f, sa, sb, h⟩
    | step _ hs ih =>
      obtain ⟨_, _, _, h'⟩ := ih
      exact h'.keeps hR hs
  obtain ⟨_, _, _, h'⟩ := key
  exact (h'.progress hR).symm

/-- Some run gets both to the end. -/
theorem gets {N : Node} {D : State → Prop} {s : State} (h : ∀ s', HonestRun N s s' → (∃ s2, HonestStep N s' s2) ∨ D s') :
    ∃ s', HonestRun N s s' ∧ D s' := by
  induction s using (honest_wf N).induction with
  | _ s ih =>
    rcases h s .here with ⟨s', hs⟩ | h'
    · obtain ⟨s2, hr, ht⟩ := ih s' hs fun s2 hr => h s2 (honest_trans (HonestRun.step .here hs) hr)
      exact ⟨s2, honest_trans (HonestRun.step .here hs) hr, ht⟩
    · exact ⟨s, .here, h'⟩

end
end Verif.SwapPair
