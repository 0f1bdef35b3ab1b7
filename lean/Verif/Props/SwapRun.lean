import Verif.Spec.SwapRun
import Verif.Props.SwapBtc
import Mathlib.Tactic.ByContra
/-
C79: what the participants of the cross-chain swap do, whatever the world answers.
-/
namespace Verif.SwapRun
open Verif Spec CrossSwap SwapSpend SwapBtc

variable {w : Environment} {may : List Event → Query → Prop}

/-- Everything the program asks from here on is allowed, its last wish included whenever it comes, and `F` holds at its end. -/
def Obeys (w : Environment) (may : List Event → Query → Prop) (G : End → Option Prog → List Event → Prop) :
    Prog → (End → Option Prog → List Event → Prop) → Option Prog → List Event → Prop
  | .finish, F, l, t => F .finished l t
  | .raise, F, l, t => F .raised l t
  | .die p, F, l, t => F (.died p) l t
  | .waiting, F, l, t => F .waiting l t
  | .wish p k, F, _, t => (∀ ext, Obeys w may G p G none (t ++ ext ++ [.wished])) ∧ Obeys w may G k F (some p) t
  | .ask q k, F, l, t => may t q ∧ Obeys w may G (k (w t q)) F l (t ++ [.did q (w t q)])

/-- All events from position `n` on were allowed. -/
def AllowedFrom (may : List Event → Query → Prop) (n : Nat) (t : List Event) : Prop :=
  ∀ pre q a post, t = pre ++ Event.did q a :: post → n ≤ pre.length → may pre q

theorem exec_obeys {G : End → Option Prog → List Event → Prop} : ∀ {p : Prog} {F : End → Option Prog → List Event → Prop} {l : Option Prog}
    {t : List Event}, Obeys w may G p F l t →
    ∃ e l' ext, exec w p l t = (e, l', t ++ ext) ∧ F e l' (t ++ ext) ∧ Event.wished ∉ ext ∧ AllowedFrom may t.length (t ++ ext) ∧
      (l' = l ∨ ∃ q, l' = some q ∧ ∀ ext', Obeys w may G q G none (t ++ ext ++ ext' ++ [.wished]))
  | .finish, F, l, t, h => ⟨.finished, l, [], by simp [exec], by simpa [Obeys] using h, by simp, by
      intro pre q a post e hn
      simp at e
      rw [e] at hn
      simp at hn, .inl rfl⟩
  | .raise, F, l, t, h => ⟨.raised, l, [], by simp [exec], by simpa [Obeys] using h, by simp, by
      intro pre q a post e hn
      simp at e
      rw [e] at hn
      simp at hn, .inl rfl⟩
  | .die p, F, l, t, h => ⟨.died p, l, [], by simp [exec], by simpa [Obeys] using h, by simp, by
      intro pre q a post e hn
      simp at e
      rw [e] at hn
      simp at hn, .inl rfl⟩
  | .waiting, F, l, t, h => ⟨.waiting, l, [], by simp [exec], by simpa [Obeys] using h, by simp, by
      intro pre q a post e hn
      simp at e
      rw [e] at hn
      simp at hn, .inl rfl⟩
  | .wish p k, F, l, t, h => by
      obtain ⟨h1, h2⟩ := h
      obtain ⟨e, l', ext, g1, g2, g3, g4, g5⟩ := exec_obeys h2
      refine ⟨e, l', ext, by rw [exec]; exact g1, g2, g3, g4, ?_⟩
      rcases g5 with rfl | g5
      · refine .inr ⟨p, rfl, fun ext' => ?_⟩
        rw [List.append_assoc t]
        exact h1 _
      · exact .inr g5
  | .ask q k, F, l, t, h => by
      obtain ⟨h1, h2⟩ := h
      obtain ⟨e, l', ext, g1, g2, g3, g4, g5⟩ := exec_obeys h2
      refine ⟨e, l', .did q (w t q) :: ext, ?_, ?_, ?_, ?_, ?_⟩
      · rw [exec, g1]; simp
      · simpa using g2
      · simpa using g3
      · intro pre q' a post e hn
        by_cases hl : pre.length = t.length
        · have := List.append_inj e hl.symm
          obtain ⟨rfl, e2⟩ := this
          cases e2
          exact h1
        · refine g4 pre q' a post ?_ ?_
          · rw [← e]; simp
          · simp; omega
      · simpa using g5

theorem wishes_append (s t : List Event) : wishes (s ++ t) = wishes s + wishes t := List.countP_append

theorem wishes_zero {t : List Event} : wishes t = 0 ↔ Event.wished ∉ t := by
  unfold wishes
  rw [List.countP_eq_zero]
  constructor
  · intro h hm
    exact h _ hm rfl
  · intro h e he
    cases e with
    | did => simp
    | wished => exact absurd he h

theorem allowed_append {t ext : List Event} {n : Nat} (h : AllowedFrom may 0 t) (h2 : AllowedFrom may n (t ++ ext)) (hn : n ≤ t.length) :
    AllowedFrom may 0 (t ++ ext) := by
  intro pre q a post e _
  by_cases hl : n ≤ pre.length
  · exact h2 pre q a post e hl
  · have e' := congrArg (List.take t.length) e
    rw [List.take_left, List.take_append, List.take_of_length_le (by omega : pre.length ≤ t.length)] at e'
    obtain ⟨k, hk⟩ : ∃ k, t.length - pre.length = k + 1 := ⟨t.length - pre.length - 1, by omega⟩
    rw [hk, List.take_succ_cons] at e'
    exact h pre q a _ e' (by omega)

theorem lastWish_obeys {G : End → Option Prog → List Event → Prop} {l : Option Prog} {t : List Event} (ht : AllowedFrom may 0 t)
    (hl : l = none ∨ ∃ q, l = some q ∧ ∀ ext', Obeys w may G q G none (t ++ ext' ++ [.wished])) :
    ∃ e ext, lastWish w l t = (e, t ++ ext) ∧ AllowedFrom may 0 (t ++ ext) ∧ wishes ext = (if l = none then 0 else 1) ∧
      (l = none → e = .finished ∧ ext = []) ∧ (l ≠ none → ∃ l', G e l' (t ++ ext)) := by
  rcases hl with rfl | ⟨q, rfl, h⟩
  · exact ⟨.finished, [], by simp [lastWish], by simpa using ht, rfl, fun _ => ⟨rfl, rfl⟩, fun h => absurd rfl h⟩
  · have h := h []
    rw [List.append_nil] at h
    obtain ⟨e, l', ext, g1, g2, g3, g4, -⟩ := exec_obeys h
    refine ⟨e, .wished :: ext, ?_, ?_, ?_, (fun h => (by cases h)), fun _ => ⟨l', by simpa using g2⟩⟩
    · simp only [lastWish, g1]; simp
    · have h1 : AllowedFrom may 0 (t ++ [.wished]) := by
        intro pre q' a post e _
        rcases List.eq_nil_or_concat post with rfl | ⟨post', x, rfl⟩
        · have := congrArg List.getLast? e
          simp at this
        · rw [List.concat_eq_append, ← List.cons_append, ← List.append_assoc] at e
          obtain ⟨e1, -⟩ := List.append_inj' e rfl
          exact ht pre q' a post' e1 (by omega)
      have := allowed_append h1 g4 (by omega)
      simpa using this
    · rw [if_neg (by simp), show Event.wished :: ext = [Event.wished] ++ ext from rfl, wishes_append, wishes_zero.2 g3]
      rfl

theorem bye_obeys {t : List Event} (ht : AllowedFrom may 0 t) (hb : ∀ t, may t (.send ⟨.bye, []⟩)) :
    ∃ ext, (bye w t).2 = t ++ ext ∧ AllowedFrom may 0 (t ++ ext) ∧ wishes ext = 0 ∧
      (∀ e ∈ ext, ∃ a, e = .did (.send ⟨.bye, []⟩) a) ∧ ((bye w t).1 = .exit ∨ (bye w t).1 = .crash) := by
  have key : ∀ a : Ans (.send ⟨.bye, []⟩), AllowedFrom may 0 (t ++ [.did (.send ⟨.bye, []⟩) a]) := by
    intro a pre q a' post e _
    rcases List.eq_nil_or_concat post with rfl | ⟨post', x, rfl⟩
    · obtain ⟨rfl, e2⟩ := List.append_inj' e rfl
      cases e2
      exact hb _
    · rw [List.concat_eq_append, ← List.cons_append, ← List.append_assoc] at e
      obtain ⟨e1, -⟩ := List.append_inj' e rfl
      exact ht pre q a' post' e1 (by omega)
  unfold bye
  split
  · exact ⟨_, rfl, key _, rfl, fun e he => ⟨_, List.mem_singleton.1 he⟩, .inl rfl⟩
  · exact ⟨_, rfl, key _, rfl, fun e he => ⟨_, List.mem_singleton.1 he⟩, .inr rfl⟩

/-- What is known when a participant is over: how the function ended, and what came after. -/
structure Ended (w : Environment) (F : End → Option Prog → List Event → Prop) (r : Over × List Event) (e : End) (l : Option Prog) (t ext : List Event) : Prop where
  holds : F e l t
  trace : r.2 = t ++ ext
  before : Event.wished ∉ t
  done : e = .finished ↔ r.1 = .done
  waiting : e = .waiting → r.1 = .waiting
  still : e = .finished → ext = []
  idle : e = .waiting → ext = []
  count : wishes ext = if (e = .finished ∨ e = .waiting ∨ l = none) then 0 else 1
  bye : l = none → ∀ e ∈ ext, ∃ a, e = .did (.send ⟨.bye, []⟩) a
  ran : e ≠ .finished → e ≠ .waiting → (lastWish w l t).2 <+: r.2 ∧ ((lastWish w l t).1 = .waiting → r.1 = .waiting)

/-- What holds of every participant. -/
theorem participant_obeys {G F : End → Option Prog → List Event → Prop} {p : Prog} (h : Obeys w may G p F none [])
    (hb : ∀ t, may t (.send ⟨.bye, []⟩)) :
    AllowedFrom may 0 (participant w p).2 ∧ ∃ e l t ext, Ended w F (participant w p) e l t ext := by
  obtain ⟨e, l, t, g1, g2, g3, g4, g5⟩ := exec_obeys h
  rw [List.nil_append] at g1 g2 g4
  have g5 : l = none ∨ ∃ q, l = some q ∧ ∀ ext', Obeys w may G q G none (t ++ ext' ++ [.wished]) := by
    rcases g5 with g | ⟨q, g, g'⟩
    · exact .inl g
    · exact .inr ⟨q, g, by simpa using g'⟩
  obtain ⟨e2, ext, k1, k2, k3, k4, k5⟩ := lastWish_obeys (w := w) g4 g5
  obtain ⟨ext2, b1, b2, b3, b5, b4⟩ := bye_obeys (w := w) k2 hb
  have ne : ∀ {x : Over × List Event}, x.1 = .exit ∨ x.1 = .crash → x.1 ≠ .done := by
    rintro x (h | h) <;> rw [h] <;> decide
  have hB : e2 ≠ .waiting → ∀ e, F e l t → e ≠ .finished → e ≠ .waiting → AllowedFrom may 0 (bye w (t ++ ext)).2 ∧
      ∃ e l' t' ext', Ended w F (bye w (t ++ ext)) e l' t' ext' := by
    intro n3 e he n1 n2
    refine ⟨b1 ▸ b2, e, l, t, ext ++ ext2, he, by rw [b1]; simp, g3, ⟨fun h => absurd h n1, fun h => absurd h (ne b4)⟩, fun h => absurd h n2,
      fun h => absurd h n1, fun h => absurd h n2, ?_, ?_, fun _ _ => ⟨by rw [k1, b1]; exact List.prefix_append _ _, fun h => absurd (by rw [k1] at h; exact h) n3⟩⟩
    · rw [wishes_append, k3, b3]
      simp [n1, n2]
    · intro hl x hx
      rw [(k4 hl).2, List.nil_append] at hx
      exact b5 x hx
  have hE : ∀ e (x : Over), F e l t → e ≠ .finished → e ≠ .waiting → x ≠ .done → (e2 = .waiting → x = .waiting) → AllowedFrom may 0 (t ++ ext) ∧
      ∃ e l' t' ext', Ended w F (x, t ++ ext) e l' t' ext' := by
    intro e x he n1 n2 n3 n4
    refine ⟨k2, e, l, t, ext, he, rfl, g3, ⟨fun h => absurd h n1, fun h => absurd h n3⟩, fun h => absurd h n2, fun h => absurd h n1, fun h => absurd h n2, ?_, ?_,
      fun _ _ => ⟨by rw [k1], fun h => n4 (by rw [k1] at h; exact h)⟩⟩
    · rw [k3]
      simp [n1, n2]
    · intro hl x hx
      rw [(k4 hl).2] at hx
      cases hx
  unfold participant
  rw [g1]
  cases e with
  | finished => exact ⟨g4, .finished, l, t, [], g2, by simp, g3, by simp, (fun h => (by cases h)), fun _ => rfl, fun _ => rfl, by simp; rfl, by simp, fun h => absurd rfl h⟩
  | waiting => exact ⟨g4, .waiting, l, t, [], g2, by simp, g3, by simp, fun _ => rfl, fun _ => rfl, fun _ => rfl, by simp; rfl, by simp, fun _ h => absurd rfl h⟩
  | died p =>
    dsimp only
    rw [k1]
    have hB := fun h => hB h _ g2 (by simp) (by simp)
    have hE := fun x => hE _ x g2 (by simp) (by simp)
    cases e2 with
    | finished =>
      dsimp only
      cases p
      · exact hB (by simp)
      · exact hE .exit (by decide) (by simp)
    | raised => exact hB (by simp)
    | waiting => exact hE .waiting (by decide) (by simp)
    | died p2 =>
      cases p2
      · exact hB (by simp)
      · exact hE .exit (by decide) (by simp)
  | raised =>
    dsimp only
    rw [k1]
    have hB := fun h => hB h _ g2 (by simp) (by simp)
    have hE := fun x => hE _ x g2 (by simp) (by simp)
    cases e2 with
    | finished => exact hB (by simp)
    | raised => exact hE .crash (by decide) (by simp)
    | waiting => exact hE .waiting (by decide) (by simp)
    | died p2 =>
      cases p2
      · exact hE .crash (by decide) (by simp)
      · exact hE .exit (by decide) (by simp)

variable {G F : End → Option Prog → List Event → Prop} {l : Option Prog} {t : List Event}

/-! ### Parts of programs -/

theorem obeys_call {q : Query} {k : Val q → Prog} (hm : may t q) (he : ∀ e, F .raised l (t ++ [.did q (.error e)]))
    (hk : ∀ a, Obeys w may G (k a) F l (t ++ [.did q (.ok a)])) : Obeys w may G (call q k) F l t := by
  refine ⟨hm, ?_⟩
  cases w t q with
  | ok a => exact hk a
  | error e => exact he e

theorem obeys_compute {α : Type} {c : Except CrossSwap.Stop α} {k : α → Prog} (hd : F (.died false) l t) (hr : F .raised l t)
    (hk : ∀ a, c = .ok a → Obeys w may G (k a) F l t) : Obeys w may G (compute c k) F l t := by
  cases c with
  | ok a => exact hk a rfl
  | error e =>
    cases e with
    | die => exact hd
    | raise e => exact hr

theorem obeys_recv {kind : Kind} {k : List Bytes → Prog} (hm : may t .recv) (hF : ∀ e a, e ≠ .finished → F e l (t ++ [.did .recv a]))
    (hk : ∀ d, Obeys w may G (k d) F l (t ++ [.did .recv (.ok (some (⟨kind, d⟩ : Msg)))])) : Obeys w may G (recv kind k) F l t := by
  refine obeys_call hm (fun e => hF _ _ (by decide)) fun a => ?_
  cases a with
  | none => exact hF _ _ (by simp)
  | some m =>
    obtain ⟨mk, md⟩ := m
    dsimp only
    split
    · exact hF _ _ (by simp)
    · split
      · exact hF _ _ (by simp)
      · rename_i h
        simp only [ne_eq, not_not] at h
        subst h
        exact hk md

/-- Only the node was asked about a transaction. -/
def OnlyTx (c : Chain) (txid : Bytes) (ext : List Event) : Prop := ∀ e ∈ ext, ∃ a, e = .did (.tx c txid) a

theorem obeys_waitConfirm {c : Chain} {txid : Bytes} {num : Int} {next : Prog} (h0 : 0 < num) (hm : ∀ t, may t (.tx c txid))
    (hF : ∀ e ext, e ≠ .finished → OnlyTx c txid ext → F e l (t ++ ext))
    (hk : ∀ ext, OnlyTx c txid ext → Confirmed ext c txid num → Obeys w may G next F l (t ++ ext)) (n : Nat) :
    Obeys w may G (waitConfirm c txid num n next) F l t := by
  suffices ∀ n ext, OnlyTx c txid ext → Obeys w may G (waitConfirm c txid num n next) F l (t ++ ext) by
    simpa using this n [] (by intro e h; cases h)
  intro n
  induction n with
  | zero => exact fun ext h => hF _ _ (by simp) h
  | succ n ih =>
    intro ext h
    refine ⟨hm _, ?_⟩
    have h' : ∀ a, OnlyTx c txid (ext ++ [.did (.tx c txid) a]) := by
      intro a e he
      rcases List.mem_append.1 he with he | he
      · exact h e he
      · exact ⟨a, by simpa using he⟩
    rw [List.append_assoc]
    cases hw : w (t ++ ext) (.tx c txid) with
    | ok i =>
      dsimp only
      split
      · rename_i hc
        refine hk _ (h' _) ⟨i, by simp [Answered], ?_⟩
        revert hc
        cases (i : Info).confirmations with
        | none => intro hc; simp at hc; omega
        | some m => exact fun hc => ⟨m, rfl, hc⟩
      · exact ih _ (h' _)
    | error e =>
      cases e with
      | rpc => exact ih _ (h' _)
      | other => exact hF _ _ (by simp) (h' _)

theorem obeys_waitTimeout {c : Chain} {txid : Bytes} {timeout : Int} {next : Info → Prog} (hm : ∀ t, may t (.tx c txid))
    (hF : ∀ e ext, e ≠ .finished → OnlyTx c txid ext → F e l (t ++ ext))
    (hk : ∀ ext i, OnlyTx c txid ext → Answered ext (.tx c txid) i → (∃ m, i.confirmations = some m ∧ timeout ≤ m) →
      Obeys w may G (next i) F l (t ++ ext)) (n : Nat) :
    Obeys w may G (waitTimeout c txid timeout n next) F l t := by
  suffices ∀ n ext, OnlyTx c txid ext → Obeys w may G (waitTimeout c txid timeout n next) F l (t ++ ext) by
    simpa using this n [] (by intro e h; cases h)
  intro n
  induction n with
  | zero => exact fun ext h => hF _ _ (by simp) h
  | succ n ih =>
    intro ext h
    have h' : ∀ a, OnlyTx c txid (ext ++ [.did (.tx c txid) a]) := by
      intro a e he
      rcases List.mem_append.1 he with he | he
      · exact h e he
      · exact ⟨a, by simpa using he⟩
    refine obeys_call (hm _) (fun e => by rw [List.append_assoc]; exact hF _ _ (by simp) (h' _)) fun (i : Info) => ?_
    rw [List.append_assoc]
    split
    · exact hF _ _ (by simp) (h' _)
    · rename_i m hc
      split
      · exact ih _ (h' _)
      · exact hk _ i (h' _) (by simp [Answered]) ⟨m, hc, by omega⟩

/-- Only the pass of `wait_spend_reveal_transaction` were made. -/
def OnlyLook (txid : Bytes) (ext : List Event) : Prop := ∀ e ∈ ext, ∃ a, e = .did (.look txid) a

theorem obeys_waitReveal {txid : Bytes} {next : Bytes → Prog} (hm : ∀ t, may t (.look txid))
    (hF : ∀ e ext, e ≠ .finished → OnlyLook txid ext → F e l (t ++ ext))
    (hk : ∀ ext id, OnlyLook txid ext → Obeys w may G (next id) F l (t ++ ext)) (n : Nat) (cur : Option Bytes) :
    Obeys w may G (waitReveal txid cur n next) F l t := by
  suffices ∀ n ext cur, OnlyLook txid ext → Obeys w may G (waitReveal txid cur n next) F l (t ++ ext) by
    simpa using this n [] cur (by intro e h; cases h)
  intro n
  induction n with
  | zero => exact fun ext cur h => hF _ _ (by simp) h
  | succ n ih =>
    intro ext cur h
    have h' : ∀ a, OnlyLook txid (ext ++ [.did (.look txid) a]) := by
      intro a e he
      rcases List.mem_append.1 he with he | he
      · exact h e he
      · exact ⟨a, by simpa using he⟩
    refine obeys_call (hm _) (fun e => by rw [List.append_assoc]; exact hF _ _ (by simp) (h' _)) fun (v : SwapWatch.View) => ?_
    rw [List.append_assoc]
    split
    · exact hk _ _ (h' _)
    · exact hF _ _ (by simp) (h' _)
    · exact ih _ _ (h' _)

/-! ### More has happened -/

theorem _root_.Verif.Spec.Answered.mono {q : Query} {a : Val q} {t t' : List Event} (h : Answered t q a) (hs : t ⊆ t') : Answered t' q a := hs h

theorem _root_.Verif.Spec.Confirmed.mono {c : Chain} {txid : Bytes} {n : Int} {t t' : List Event} (h : Confirmed t c txid n) (hs : t ⊆ t') :
    Confirmed t' c txid n := by
  obtain ⟨i, h1, h2⟩ := h
  exact ⟨i, h1.mono hs, h2⟩

variable {K : Kit} {o : AliceOwn}

theorem _root_.Verif.Spec.AlicePaid.mono {cp bp txid : Bytes} {t t' : List Event} (h : AlicePaid K o t cp bp txid) (hs : t ⊆ t') :
    AlicePaid K o t' cp bp txid := by
  obtain ⟨p, h1, h2, h3⟩ := h
  exact ⟨p, h1, h2.mono hs, h3⟩

theorem _root_.Verif.Spec.BobsDeposit.mono {cp xp id : Bytes} {n : Nat} {t t' : List Event} (h : BobsDeposit K o t cp xp id n) (hs : t ⊆ t') :
    BobsDeposit K o t' cp xp id n := by
  obtain ⟨h0, p, h1, i, c, tx, h2, h3⟩ := h
  exact ⟨h0.mono hs, p, h1, i, c, tx, h2.mono hs, h3⟩

/-! ### Alice -/

/-- What the library promises and the addresses are good for. -/
structure Fit (K : Kit) (dst : Addr) : Prop where
  sizes : WireSizes K.E.z
  formats : Formats K.E.z
  rewinds : Rewinds K.E.z
  keys : KeySizes K.E K.W
  hash : ∀ b, (K.B.sha256 b).length = 32
  addr : AddrOk dst

abbrev Any : End → Option Prog → List Event → Prop := fun _ _ _ => True

theorem aliceWish_obeys {a : Alice} {txid : Bytes} (hf : Fit K o.dst) (h1 : a.exitKey = o.exitKey) (h2 : a.blindingKey = o.blindingKey)
    (h3 : a.dst = o.dst) (hp : AlicePaid K o t a.contractPub a.bobPub txid) (hw : Event.wished ∈ t) :
    Obeys w (AliceMay K o) Any (aliceWish K a txid) Any none t := by
  refine obeys_call trivial (fun _ => trivial) fun _ => ?_
  refine obeys_waitTimeout (fun _ => trivial) (fun _ _ _ _ => trivial) (fun ext i _ hi hc => ?_) _
  refine obeys_compute trivial trivial fun tx _ => ?_
  refine obeys_compute trivial trivial fun r hr => ?_
  refine obeys_call ⟨?_, ?_⟩ (fun _ => trivial) fun id => ?_
  · simp [hw]
  · obtain ⟨p, n, oo, am, bf, abf, -, -, g, -⟩ := C76_reclaim hf.sizes hf.formats hf.rewinds hf.keys (by rw [h3]; exact hf.addr) hr
    rw [h3] at g
    refine ⟨_, _, txid, n, hp.mono (by simp), ⟨i, ?_, ?_⟩, g⟩
    · exact hi.mono (by simp)
    · obtain ⟨m, e, l⟩ := hc
      exact ⟨m, e, l⟩
  · refine obeys_waitConfirm (by omega) (fun _ => trivial) (fun _ _ _ _ => trivial) ?_ _
    intro _ _ _
    exact trivial

/-- How `alice` ends: whoever has paid has a last wish, and has claimed if the function returns. -/
structure AliceEnd (K : Kit) (o : AliceOwn) (e : End) (l : Option Prog) (t : List Event) : Prop where
  paid : l = none → ∀ s p x id, ¬ Answered t (.payElt s p x) id
  wish : ∀ q, l = some q → ∃ cp bp xp id, Received t .pubkeys [cp, bp, xp] ∧ AlicePaid K o t cp bp id ∧
    q = aliceWish K ⟨o.exitKey, o.blindingKey, cp, bp, o.dst, o.dummy, o.rand⟩ id
  done : e = .finished → ∃ c id, Answered t (.sendBtc c) id ∧ Confirmed t .btc id 3

theorem alicePaid_obeys {cp bp xp btcTxid txid : Bytes} {n : Nat} (hf : Fit K o.dst)
    (hr : Received t .pubkeys [cp, bp, xp]) (hb : BobsDeposit K o t cp xp btcTxid n) (hp : AlicePaid K o t cp bp txid) :
    Obeys w (AliceMay K o) Any (alicePaid K ⟨o.exitKey, o.blindingKey, cp, bp, o.dst, o.dummy, o.rand⟩ ⟨o.btcKey, xp, o.btcDst⟩ btcTxid n txid)
      (AliceEnd K o) l t := by
  generalize hA : (⟨o.exitKey, o.blindingKey, cp, bp, o.dst, o.dummy, o.rand⟩ : Alice) = A
  have base : ∀ e t', e ≠ .finished → t ⊆ t' → AliceEnd K o e (some (aliceWish K A txid)) t' :=
    fun e t' he hs => ⟨fun h => (by cases h), fun q hq => ⟨cp, bp, xp, txid, hr.mono hs, hp.mono hs, by cases hq; rw [hA]⟩, fun h => absurd h he⟩
  have stop : ∀ e ext, e ≠ .finished → AliceEnd K o e (some (aliceWish K A txid)) (t ++ ext) := fun e ext he => base e _ he (by simp)
  refine ⟨fun ext => aliceWish_obeys hf (by rw [← hA]) (by rw [← hA]) (by rw [← hA]) (by rw [← hA]; exact hp.mono (by simp)) (by simp), ?_⟩
  refine obeys_waitConfirm (by omega) (fun _ => trivial) (fun e ext he _ => stop e ext he) (fun ext1 _ hc => ?_) _
  refine obeys_call ?_ (fun e => by rw [List.append_assoc]; exact stop _ _ (by simp)) fun _ => ?_
  · exact .inr (.inr (.inl ⟨_, _, txid, rfl, hp.mono (by simp), hc.mono (by simp)⟩))
  rw [List.append_assoc]
  refine obeys_waitReveal (fun _ => trivial) (fun e ext he _ => by rw [List.append_assoc]; exact stop _ _ he) (fun ext2 sr _ => ?_) _ _
  refine obeys_call trivial (fun e => by rw [List.append_assoc, List.append_assoc]; exact stop _ _ (by simp)) fun (i : Info) => ?_
  refine obeys_waitConfirm (by omega) (fun _ => trivial)
    (fun e ext he _ => by rw [List.append_assoc, List.append_assoc, List.append_assoc]; exact stop _ _ he) (fun ext3 _ hc3 => ?_) _
  generalize hT : t ++ (ext1 ++ [Event.did (.send ⟨.eltTxid, [txid]⟩) (.ok ())]) ++ ext2 ++ [Event.did (.tx .elt sr) (.ok i)] ++ ext3 = T
  have sub : t ⊆ T := by rw [← hT]; simp
  have stop : ∀ e ext, e ≠ .finished → AliceEnd K o e (some (aliceWish K A txid)) (T ++ ext) :=
    fun e ext he => base e _ he (List.subset_append_of_subset_left _ sub)
  refine obeys_compute (by simpa using stop (.died false) [] (by simp)) (by simpa using stop .raised [] (by simp)) fun tx htx => ?_
  refine obeys_compute (by simpa using stop (.died false) [] (by simp)) (by simpa using stop .raised [] (by simp)) fun c hc2 => ?_
  refine obeys_call ?_ (fun e => stop _ _ (by simp)) fun id => ?_
  · subst hA
    unfold aliceClaim at hc2
    obtain ⟨target, g1, g⟩ := exc_bind_ok.1 hc2
    obtain ⟨elt, g2, g⟩ := exc_bind_ok.1 g
    obtain ⟨btc, g3, g⟩ := exc_bind_ok.1 g
    obtain ⟨ss, g4, g⟩ := exc_bind_ok.1 g
    obtain ⟨k, g5, g⟩ := exc_bind_ok.1 g
    obtain ⟨d, g6, g⟩ := exc_bind_ok.1 g
    obtain ⟨t', g7, g⟩ := exc_bind_ok.1 g
    obtain ⟨-, -, g⟩ := exc_bind_ok.1 g
    cases g
    rw [up_ok] at g1 g2 g7 htx
    unfold aliceContract at g2
    obtain ⟨p, g2', g2⟩ := exc_bind_ok.1 g2
    obtain ⟨-, rfl⟩ := redeemable_ok.1 g2
    have hs := swept g7
    refine ⟨_, _, _, p, btcTxid, n, txid, hr.mono sub, hb.mono sub, hp.mono sub, hs, g2', sr, i, tx, ss, ?_, htx, hc3.mono ?_, C77_found.1 g4⟩
    · rw [← hT]; simp [Answered]
    · rw [← hT]; exact List.subset_append_right _ _
  · refine obeys_waitConfirm (by omega) (fun _ => trivial)
      (fun e ext he _ => by rw [List.append_assoc]; exact stop _ _ he) (fun ext4 _ hc4 => ?_) _
    have hsub : t ⊆ T ++ [Event.did (.sendBtc c) (.ok id)] ++ ext4 := fun e he => by simp [sub he]
    refine ⟨fun h => (by cases h), (base .raised _ (by simp) hsub).wish, fun _ => ⟨c, id, ?_, hc4.mono (List.subset_append_right _ _)⟩⟩
    simp [Answered]

theorem alice_obeys (hf : Fit K o.dst) : Obeys w (AliceMay K o) Any (alice K o) (AliceEnd K o) none [] := by
  have stop : ∀ {t : List Event} {e}, (∀ s p x r, Event.did (.payElt s p x) r ∉ t) → e ≠ .finished → AliceEnd K o e none t :=
    fun h he => ⟨fun _ s p x id ha => h _ _ _ _ ha, fun q h => (by cases h), fun h => absurd h he⟩
  refine obeys_call (.inl rfl) (fun _ => stop (by simp) (by simp)) fun _ => ?_
  refine obeys_call (.inr (.inl rfl)) (fun _ => stop (by simp) (by simp)) fun _ => ?_
  refine obeys_recv trivial (fun _ _ he => stop (by simp) he) fun d => ?_
  split
  · rename_i cp bp xp
    unfold aliceKeys
    refine obeys_compute (stop (by simp) (by simp)) (stop (by simp) (by simp)) fun contract hc => ?_
    refine obeys_recv trivial (fun _ _ he => stop (by simp) he) fun d => ?_
    split
    · rename_i btcTxid
      unfold aliceTold
      refine obeys_compute (stop (by simp) (by simp)) (stop (by simp) (by simp)) fun _ _ => ?_
      refine obeys_call trivial (fun _ => stop (by simp) (by simp)) fun (i : Info) => ?_
      split
      · exact stop (by simp) (by simp)
      · rename_i c hcn
        split
        · exact stop (by simp) (by simp)
        · refine obeys_compute (stop (by simp) (by simp)) (stop (by simp) (by simp)) fun tx htx => ?_
          refine obeys_compute (stop (by simp) (by simp)) (stop (by simp) (by simp)) fun n hn => ?_
          rw [up_ok] at hc htx
          unfold aliceContract at hc
          obtain ⟨p, hp, hc⟩ := exc_bind_ok.1 hc
          obtain ⟨hl, rfl⟩ := redeemable_ok.1 hc
          obtain ⟨h6, p2, hp2, -, hfirst⟩ := (C77_checks hf.hash).1 hn
          have hdep : ∀ t', (∀ e, e ∈ [Event.did .recv (.ok (some (⟨.btcTxid, [btcTxid]⟩ : Msg))), Event.did (.tx .btc btcTxid) (.ok i)] → e ∈ t') →
              BobsDeposit K o t' cp xp btcTxid n := fun t' hs =>
            ⟨hs _ (by simp), p2, hp2, i, c, tx, hs _ (by simp), hcn, h6, htx, hfirst⟩
          refine obeys_call ⟨rfl, rfl, by simp, cp, bp, xp, p, btcTxid, n, ?_, hp, p2sh_eq hf.keys.hash _, hl, ?_⟩ (fun e => ?_) fun txid => ?_
          · simp [Received, Answered]
          · exact hdep _ (by simp)
          · refine ⟨fun _ s p x id ha => ?_, fun q h => (by cases h), fun h => (by cases h)⟩
            simp [Answered] at ha
          · refine alicePaid_obeys hf ?_ (hdep _ (by simp)) ⟨p, hp, ?_⟩
            · simp [Received, Answered]
            · rw [← p2sh_eq hf.keys.hash]
              exact ⟨List.mem_append_right _ (List.mem_singleton.2 rfl), hl⟩
    · exact stop (by simp) (by simp)
  · exact stop (by simp) (by simp)

/-! ### Bob -/

variable {ob : BobOwn}

theorem _root_.Verif.Spec.BobPaid.mono {ap txid : Bytes} {t t' : List Event} (h : BobPaid K ob t ap txid) (hs : t ⊆ t') :
    BobPaid K ob t' ap txid := by
  obtain ⟨p, h1, h2⟩ := h
  exact ⟨p, h1, h2.mono hs⟩

theorem bobWish_obeys {b : Bob} {x : BobBtc} {txid : Bytes} (hf : Fit K ob.dst) (h1 : x.dst = ob.btcDst)
    (hp : BobPaid K ob t x.alicePub txid) (hw : Event.wished ∈ t) :
    Obeys w (BobMay K ob) Any (bobWish K b x txid) Any none t := by
  refine obeys_call trivial (fun _ => trivial) fun _ => ?_
  refine obeys_waitTimeout (fun _ => trivial) (fun _ _ _ _ => trivial) (fun ext i _ hi hc => ?_) _
  refine obeys_compute trivial trivial fun r hr => ?_
  refine obeys_call ⟨?_, ?_⟩ (fun _ => trivial) fun id => ?_
  · simp [hw]
  · unfold bobReclaim at hr
    obtain ⟨contract, g1, g⟩ := exc_bind_ok.1 hr
    obtain ⟨n, g2, g⟩ := exc_bind_ok.1 g
    obtain ⟨t', g3, g⟩ := exc_bind_ok.1 g
    obtain ⟨-, -, g⟩ := exc_bind_ok.1 g
    cases g
    rw [up_ok] at g3
    have g := swept g3
    rw [h1] at g
    refine ⟨_, txid, n, hp.mono (by simp), ⟨i, ?_, ?_⟩, g⟩
    · exact hi.mono (by simp)
    · obtain ⟨m, e, l⟩ := hc
      exact ⟨m, e, l⟩
  · refine obeys_waitConfirm (by omega) (fun _ => trivial) (fun _ _ _ _ => trivial) ?_ _
    intro _ _ _
    exact trivial

/-- How `bob` ends. -/
structure BobEnd (K : Kit) (ob : BobOwn) (e : End) (l : Option Prog) (t : List Event) : Prop where
  paid : l = none → ∀ s x id, ¬ Answered t (.payBtc s x) id
  wish : ∀ q, l = some q → ∃ ap ep bk id, Received t .pubkeys [ap, ep] ∧ Received t .blindingKey [bk] ∧ BobPaid K ob t ap id ∧
    q = bobWish K ⟨ob.contractKey, bk, ob.spendKey, ep, ob.dst, ob.dummy, ob.rand⟩ ⟨ob.exitKey, ap, ob.btcDst⟩ id
  done : e = .finished → ∃ c id, Answered t (.sendElt c) id ∧ Confirmed t .elt id 2

theorem bobPaid_obeys {ap ep bk txid : Bytes} (hf : Fit K ob.dst) (hw : Event.wished ∉ t)
    (hr : Received t .pubkeys [ap, ep]) (hk : Received t .blindingKey [bk]) (hp : BobPaid K ob t ap txid) :
    Obeys w (BobMay K ob) Any (bobPaid K ⟨ob.contractKey, bk, ob.spendKey, ep, ob.dst, ob.dummy, ob.rand⟩ ⟨ob.exitKey, ap, ob.btcDst⟩ txid)
      (BobEnd K ob) l t := by
  have base : ∀ e t', e ≠ .finished → t ⊆ t' → BobEnd K ob e
      (some (bobWish K ⟨ob.contractKey, bk, ob.spendKey, ep, ob.dst, ob.dummy, ob.rand⟩ ⟨ob.exitKey, ap, ob.btcDst⟩ txid)) t' :=
    fun e t' he hs => ⟨fun h => (by cases h), fun q hq => ⟨ap, ep, bk, txid, hr.mono hs, hk.mono hs, hp.mono hs, by cases hq; rfl⟩, fun h => absurd h he⟩
  have stop : ∀ e ext, e ≠ .finished → BobEnd K ob e
      (some (bobWish K ⟨ob.contractKey, bk, ob.spendKey, ep, ob.dst, ob.dummy, ob.rand⟩ ⟨ob.exitKey, ap, ob.btcDst⟩ txid)) (t ++ ext) :=
    fun e ext he => base e _ he (by simp)
  refine ⟨fun ext => bobWish_obeys hf rfl (hp.mono (by simp)) (by simp), ?_⟩
  refine obeys_waitConfirm (by omega) (fun _ => trivial) (fun e ext he _ => stop e ext he) (fun ext1 hx1 hc => ?_) _
  have hw1 : Event.wished ∉ ext1 := fun hm => (by obtain ⟨a, ha⟩ := hx1 _ hm; cases ha)
  refine obeys_call ?_ (fun e => by rw [List.append_assoc]; exact stop _ _ (by simp)) fun _ => ?_
  · exact .inr (.inl ⟨_, txid, rfl, hp.mono (by simp), hc.mono (by simp)⟩)
  rw [List.append_assoc]
  refine obeys_recv trivial (fun e a he => by rw [List.append_assoc]; exact stop _ _ he) fun d => ?_
  rw [List.append_assoc]
  split
  · rename_i elt
    refine obeys_compute (stop _ _ (by simp)) (stop _ _ (by simp)) fun contract _ => ?_
    refine obeys_call trivial (fun e => by rw [List.append_assoc]; exact stop _ _ (by simp)) fun (i : Info) => ?_
    rw [List.append_assoc]
    split
    · exact stop _ _ (by simp)
    · rename_i c hcn
      split
      · exact stop _ _ (by simp)
      · refine obeys_compute (stop _ _ (by simp)) (stop _ _ (by simp)) fun tx htx => ?_
        refine obeys_compute (stop _ _ (by simp)) (stop _ _ (by simp)) fun r hr2 => ?_
        rw [up_ok] at htx
        refine obeys_call ⟨?_, ?_⟩ (fun e => by rw [List.append_assoc]; exact stop _ _ (by simp)) fun id => ?_
        · simp [hw, hw1]
        · obtain ⟨g0, p, n, oo, bf, abf, g1, g2, g3, -⟩ := C76_claim hf.sizes hf.formats hf.rewinds hf.keys hf.addr hr2
          refine ⟨_, _, _, p, elt, n, oo, bf, abf, hr.mono (by simp), hk.mono (by simp), ?_, g1, ⟨i, c, tx, ?_, hcn, g0, htx, g2⟩, g3⟩
          · simp [Received, Answered]
          · simp [Answered]
        · rw [List.append_assoc]
          refine obeys_waitConfirm (by omega) (fun _ => trivial)
            (fun e ext he _ => by rw [List.append_assoc]; exact stop _ _ he) (fun ext4 _ hc4 => ?_) _
          refine ⟨fun h => (by cases h), (base .raised _ (by simp) (by simp)).wish, fun _ => ⟨r, id, ?_, hc4.mono (List.subset_append_right _ _)⟩⟩
          simp [Answered]
  · exact stop _ _ (by simp)

theorem bob_obeys (hf : Fit K ob.dst) : Obeys w (BobMay K ob) Any (bob K ob) (BobEnd K ob) none [] := by
  have stop : ∀ {t : List Event} {e}, (∀ s x r, Event.did (.payBtc s x) r ∉ t) → e ≠ .finished → BobEnd K ob e none t :=
    fun h he => ⟨fun _ s x id ha => h _ _ _ ha, fun q h => (by cases h), fun h => absurd h he⟩
  refine obeys_recv trivial (fun _ _ he => stop (by simp) he) fun d => ?_
  split
  · rename_i ap ep
    refine obeys_recv trivial (fun _ _ he => stop (by simp) he) fun d => ?_
    split
    · rename_i bk
      unfold bobKeys
      split
      · exact stop (by simp) (by simp)
      · refine obeys_compute (stop (by simp) (by simp)) (stop (by simp) (by simp)) fun _ _ => ?_
        refine obeys_call (.inl rfl) (fun _ => stop (by simp) (by simp)) fun _ => ?_
        refine obeys_compute (stop (by simp) (by simp)) (stop (by simp) (by simp)) fun contract hc => ?_
        rw [up_ok] at hc
        unfold bobBtcContract at hc
        obtain ⟨p, hp, hc⟩ := exc_bind_ok.1 hc
        obtain ⟨-, rfl⟩ := redeemable_ok.1 hc
        refine obeys_call ⟨rfl, by simp, ap, ep, bk, p, ?_, ?_, hp, p2wsh_eq hf.hash _⟩ (fun e => ?_) fun txid => ?_
        · simp [Received, Answered]
        · simp [Received, Answered]
        · refine ⟨fun _ s x id ha => ?_, fun q h => (by cases h), fun h => (by cases h)⟩
          simp [Answered] at ha
        · refine bobPaid_obeys hf (by simp) ?_ ?_ ⟨p, hp, ?_⟩
          · simp [Received, Answered]
          · simp [Received, Answered]
          · rw [← p2wsh_eq hf.hash]
            exact List.mem_append_right _ (List.mem_singleton.2 rfl)
    · exact stop (by simp) (by simp)
  · exact stop (by simp) (by simp)

/-- **C79.** Whatever the other participant and the nodes do, everything Alice sends is allowed by what has happened before: the asset
goes once, to the contract, after a deposit of Bob that is as agreed; the claim spends that deposit; the asset is taken back only after
the timeout; no secret key but the shared one is ever told. -/
theorem C79_alice (hf : Fit K o.dst) : Allowed (AliceMay K o) (participant w (alice K o)).2 :=
  fun pre q a post h => (participant_obeys (w := w) (alice_obeys hf) (fun _ => .inr (.inr (.inr rfl)))).1 pre q a post h (by omega)

/-- **C79.** And everything Bob sends: the key is revealed only against a deposit that opens to the agreed asset and amount. -/
theorem C79_bob (hf : Fit K ob.dst) : Allowed (BobMay K ob) (participant w (bob K ob)).2 :=
  fun pre q a post h => (participant_obeys (w := w) (bob_obeys hf) (fun _ => .inr (.inr rfl))).1 pre q a post h (by omega)

theorem Ended.once {F : End → Option Prog → List Event → Prop} {r : Over × List Event} {e : End} {ext : List Event} (h : Ended w F r e l t ext) :
    wishes r.2 ≤ 1 := by
  rw [h.trace, wishes_append, wishes_zero.2 h.before, h.count]
  split <;> omega

theorem Ended.wished_iff {F : End → Option Prog → List Event → Prop} {r : Over × List Event} {e : End} {ext : List Event} (h : Ended w F r e l t ext)
    (ho : r.1 = .exit ∨ r.1 = .crash) : Event.wished ∈ r.2 ↔ l ≠ none := by
  have h1 : e ≠ .finished := fun he => (by rw [h.done.1 he] at ho; simp at ho)
  have h2 : e ≠ .waiting := fun he => (by rw [h.waiting he] at ho; simp at ho)
  have hw := h.count
  simp only [h1, h2, false_or] at hw
  have h3 := h.before
  rw [h.trace, List.mem_append]
  constructor
  · rintro (h | h') hl
    · exact absurd h h3
    · rw [if_pos hl] at hw
      exact wishes_zero.1 hw h'
  · intro hl
    rw [if_neg hl] at hw
    right
    by_contra hn
    rw [wishes_zero.2 hn] at hw
    omega

/-- **C79.** The last wish of a participant begins at most once.  Alice is done only when the claim has three confirmations; when they stop
otherwise they begin to take the asset back if, and only if, they have sent it. -/
theorem C79_alice_ends (hf : Fit K o.dst) : let r := participant w (alice K o)
    wishes r.2 ≤ 1 ∧
      (r.1 = .done → Event.wished ∉ r.2 ∧ ∃ c id, Answered r.2 (.sendBtc c) id ∧ Confirmed r.2 .btc id 3) ∧
      (r.1 = .exit ∨ r.1 = .crash → (Event.wished ∈ r.2 ↔ ∃ s p x id, Answered r.2 (.payElt s p x) id)) := by
  intro r
  obtain ⟨-, e, l, t, ext, h⟩ := participant_obeys (w := w) (alice_obeys hf) (fun _ => .inr (.inr (.inr rfl)))
  change Ended w (AliceEnd K o) r e l t ext at h
  refine ⟨h.once, ?_, ?_⟩
  · intro hd
    have he := h.done.2 hd
    have hx := h.still he
    rw [h.trace, hx, List.append_nil]
    exact ⟨h.before, h.holds.done he⟩
  · intro ho
    rw [h.wished_iff ho]
    constructor
    · intro hl
      obtain ⟨q, hq⟩ := Option.ne_none_iff_exists'.1 hl
      obtain ⟨_, _, _, id, -, ⟨p, -, ha, -⟩, -⟩ := h.holds.wish q hq
      exact ⟨_, _, _, id, ha.mono (by rw [h.trace]; simp)⟩
    · rintro ⟨s, p, x, id, ha⟩ hl
      rw [h.trace] at ha
      rcases List.mem_append.1 ha with ha | ha
      · exact h.holds.paid hl _ _ _ _ ha
      · obtain ⟨a, ha⟩ := h.bye hl _ ha
        cases ha

/-- **C79.** The same of Bob, whose claim has two confirmations. -/
theorem C79_bob_ends (hf : Fit K ob.dst) : let r := participant w (bob K ob)
    wishes r.2 ≤ 1 ∧
      (r.1 = .done → Event.wished ∉ r.2 ∧ ∃ c id, Answered r.2 (.sendElt c) id ∧ Confirmed r.2 .elt id 2) ∧
      (r.1 = .exit ∨ r.1 = .crash → (Event.wished ∈ r.2 ↔ ∃ s x id, Answered r.2 (.payBtc s x) id)) := by
  intro r
  obtain ⟨-, e, l, t, ext, h⟩ := participant_obeys (w := w) (bob_obeys hf) (fun _ => .inr (.inr rfl))
  change Ended w (BobEnd K ob) r e l t ext at h
  refine ⟨h.once, ?_, ?_⟩
  · intro hd
    have he := h.done.2 hd
    have hx := h.still he
    rw [h.trace, hx, List.append_nil]
    exact ⟨h.before, h.holds.done he⟩
  · intro ho
    rw [h.wished_iff ho]
    constructor
    · intro hl
      obtain ⟨q, hq⟩ := Option.ne_none_iff_exists'.1 hl
      obtain ⟨_, _, _, id, -, -, ⟨p, -, ha⟩, -⟩ := h.holds.wish q hq
      exact ⟨_, _, id, ha.mono (by rw [h.trace]; simp)⟩
    · rintro ⟨s, x, id, ha⟩ hl
      rw [h.trace] at ha
      rcases List.mem_append.1 ha with ha | ha
      · exact h.holds.paid hl _ _ _ ha
      · obtain ⟨a, ha⟩ := h.bye hl _ ha
        cases ha

theorem exec_prefix : ∀ (p : Prog) (l : Option Prog) (t : List Event), t <+: (exec w p l t).2.2
  | .finish, _, t | .raise, _, t | .die _, _, t | .waiting, _, t => List.prefix_refl t
  | .wish _ k, _, t => by rw [exec]; exact exec_prefix k _ t
  | .ask q k, l, t => by
    rw [exec]
    exact (List.prefix_append t _).trans (exec_prefix (k (w t q)) l _)

/-- The loop that waits for the timeout, when the node always answers with a number of confirmations. -/
theorem exec_waitTimeout {c : Chain} {txid : Bytes} {n : Int} {next : Info → Prog} {Q : Info → Prop}
    (h : ∀ t, ∃ i : Info, w t (.tx c txid) = .ok i ∧ i.confirmations ≠ none ∧ Q i) :
    ∀ (k : Nat) (t : List Event), (exec w (waitTimeout c txid n k next) l t).1 = .waiting ∨
      ∃ i ext, Q i ∧ Answered ext (.tx c txid) i ∧ exec w (waitTimeout c txid n k next) l t = exec w (next i) l (t ++ ext)
  | 0, t => .inl rfl
  | k + 1, t => by
    obtain ⟨i, h1, h2, h3⟩ := h t
    rw [waitTimeout, call, exec, h1]
    dsimp only
    cases hc : i.confirmations with
    | none => exact absurd hc h2
    | some m =>
      by_cases hm : m < n
      · simp only [if_pos hm]
        rcases exec_waitTimeout h k (t ++ [.did (.tx c txid) (.ok i)]) with h | ⟨j, ext, hq, ha, he⟩
        · exact .inl h
        · exact .inr ⟨j, [.did (.tx c txid) (.ok i)] ++ ext, hq, ha.mono (List.subset_append_right _ _), by rw [he, List.append_assoc]⟩
      · simp only [if_neg hm]
        exact .inr ⟨i, _, h3, List.mem_singleton.2 rfl, rfl⟩

/-- Alice's last wish, when the node answers about the deposit and the reclaim can be made: it waits, or sends the reclaim. -/
theorem aliceWish_sends {a : Alice} {txid : Bytes} {Q : Info → Prop} (hping : ∀ t, w t (.ping .elt) = .ok ())
    (h : ∀ t, ∃ i : Info, w t (.tx .elt txid) = .ok i ∧ i.confirmations ≠ none ∧ Q i ∧
      ∃ tx c, deserializeTx i.hex = .ok tx ∧ aliceReclaim K.E K.W a txid tx = .ok c) :
    (exec w (aliceWish K a txid) l t).1 = .waiting ∨ ∃ i tx c r, Answered (exec w (aliceWish K a txid) l t).2.2 (.tx .elt txid) i ∧ Q i ∧
      deserializeTx i.hex = .ok tx ∧ aliceReclaim K.E K.W a txid tx = .ok c ∧ Event.did (.sendElt c) r ∈ (exec w (aliceWish K a txid) l t).2.2 := by
  rw [aliceWish, call, exec, hping]
  dsimp only
  rcases exec_waitTimeout h K.passes (t ++ [.did (.ping .elt) (.ok ())]) with h | ⟨i, ext, ⟨hq, tx, c, h1, h2⟩, ha, he⟩
  · exact .inl h
  · right
    rw [he, h1]
    simp only [up, compute, h2]
    rw [call, exec]
    exact ⟨i, tx, c, _, (exec_prefix _ _ _).subset (List.mem_append_left _ (List.mem_append_right _ ha)), hq, h1, h2,
      (exec_prefix _ _ _).subset (List.mem_append_right _ (List.mem_singleton_self _))⟩

/-- And Bob's. -/
theorem bobWish_sends {b : Bob} {x : BobBtc} {txid : Bytes} {Q : Info → Prop} (hping : ∀ t, w t (.ping .btc) = .ok ())
    (h : ∀ t, ∃ i : Info, w t (.tx .btc txid) = .ok i ∧ i.confirmations ≠ none ∧ Q i ∧ ∃ c, bobReclaim K.E K.W K.B b x txid i.vout = .ok c) :
    (exec w (bobWish K b x txid) l t).1 = .waiting ∨ ∃ i c r, Answered (exec w (bobWish K b x txid) l t).2.2 (.tx .btc txid) i ∧ Q i ∧
      bobReclaim K.E K.W K.B b x txid i.vout = .ok c ∧ Event.did (.sendBtc c) r ∈ (exec w (bobWish K b x txid) l t).2.2 := by
  rw [bobWish, call, exec, hping]
  dsimp only
  rcases exec_waitTimeout h K.passes (t ++ [.did (.ping .btc) (.ok ())]) with h | ⟨i, ext, ⟨hq, c, h2⟩, ha, he⟩
  · exact .inl h
  · right
    rw [he]
    simp only [compute, h2]
    rw [call, exec]
    exact ⟨i, c, _, (exec_prefix _ _ _).subset (List.mem_append_left _ (List.mem_append_right _ ha)), hq, h2,
      (exec_prefix _ _ _).subset (List.mem_append_right _ (List.mem_singleton_self _))⟩

theorem Ended.stopped {F : End → Option Prog → List Event → Prop} {r : Over × List Event} {e : End} {ext : List Event} (h : Ended w F r e l t ext)
    (ho : r.1 = .exit ∨ r.1 = .crash) : (lastWish w l t).2 <+: r.2 ∧ (lastWish w l t).1 ≠ .waiting := by
  have h1 : e ≠ .finished := fun he => (by rw [h.done.1 he] at ho; simp at ho)
  have h2 : e ≠ .waiting := fun he => (by rw [h.waiting he] at ho; simp at ho)
  obtain ⟨h3, h4⟩ := h.ran h1 h2
  exact ⟨h3, fun h => (by rw [h4 h] at ho; simp at ho)⟩

/-- The claim: Alice, whose node answers about the deposit, and for whom the reclaim can be made from each answer, does not end without the
bitcoins and without having sent the reclaim, made from an answer of the node.  Given `extra` of the answers. -/
def C79_backed (extra : Info → Prop) : Prop :=
  ∀ (K : Kit) (o : AliceOwn) (w : Environment), Fit K o.dst → (∀ t, w t (.ping .elt) = .ok ()) →
    let r := participant w (alice K o)
    (∀ cp bp xp id, Received r.2 .pubkeys [cp, bp, xp] → AlicePaid K o r.2 cp bp id →
      ∀ t, ∃ i : Info, w t (.tx .elt id) = .ok i ∧ extra i ∧ ∃ tx c, deserializeTx i.hex = .ok tx ∧
        aliceReclaim K.E K.W ⟨o.exitKey, o.blindingKey, cp, bp, o.dst, o.dummy, o.rand⟩ id tx = .ok c) →
    r.1 = .exit ∨ r.1 = .crash → (∃ s p x id, Answered r.2 (.payElt s p x) id) →
      ∃ cp bp xp id i tx c a, Received r.2 .pubkeys [cp, bp, xp] ∧ AlicePaid K o r.2 cp bp id ∧ Answered r.2 (.tx .elt id) i ∧
        deserializeTx i.hex = .ok tx ∧ aliceReclaim K.E K.W ⟨o.exitKey, o.blindingKey, cp, bp, o.dst, o.dummy, o.rand⟩ id tx = .ok c ∧
        Event.did (.sendElt c) a ∈ r.2

/-- The claim for Bob. -/
def C79_backed_bob (extra : Info → Prop) : Prop :=
  ∀ (K : Kit) (o : BobOwn) (w : Environment), Fit K o.dst → (∀ t, w t (.ping .btc) = .ok ()) →
    let r := participant w (bob K o)
    (∀ ap ep bk id, Received r.2 .pubkeys [ap, ep] → Received r.2 .blindingKey [bk] → BobPaid K o r.2 ap id →
      ∀ t, ∃ i : Info, w t (.tx .btc id) = .ok i ∧ extra i ∧
        ∃ c, bobReclaim K.E K.W K.B ⟨o.contractKey, bk, o.spendKey, ep, o.dst, o.dummy, o.rand⟩ ⟨o.exitKey, ap, o.btcDst⟩ id i.vout = .ok c) →
    r.1 = .exit ∨ r.1 = .crash → (∃ s x id, Answered r.2 (.payBtc s x) id) →
      ∃ ap ep bk id i c a, Received r.2 .pubkeys [ap, ep] ∧ Received r.2 .blindingKey [bk] ∧ BobPaid K o r.2 ap id ∧ Answered r.2 (.tx .btc id) i ∧
        bobReclaim K.E K.W K.B ⟨o.contractKey, bk, o.spendKey, ep, o.dst, o.dummy, o.rand⟩ ⟨o.exitKey, ap, o.btcDst⟩ id i.vout = .ok c ∧
        Event.did (.sendBtc c) a ∈ r.2

/-- What one wants: whatever the answers are. -/
def C79_statement : Prop := C79_backed (fun _ => True) ∧ C79_backed_bob (fun _ => True)

/-- Alice has paid and stops: the answer from which the reclaim was made is one of those that were promised. -/
theorem alice_back {w : Environment} {Q : Bytes → Bytes → Bytes → Info → Prop} (hf : Fit K o.dst) (hping : ∀ t, w t (.ping .elt) = .ok ())
    (hn : ∀ cp bp xp id, Received (participant w (alice K o)).2 .pubkeys [cp, bp, xp] → AlicePaid K o (participant w (alice K o)).2 cp bp id →
      ∀ t, ∃ i : Info, w t (.tx .elt id) = .ok i ∧ i.confirmations ≠ none ∧ Q cp bp id i ∧ ∃ tx c, deserializeTx i.hex = .ok tx ∧
        aliceReclaim K.E K.W ⟨o.exitKey, o.blindingKey, cp, bp, o.dst, o.dummy, o.rand⟩ id tx = .ok c)
    (ho : (participant w (alice K o)).1 = .exit ∨ (participant w (alice K o)).1 = .crash)
    (hp : ∃ s p x id, Answered (participant w (alice K o)).2 (.payElt s p x) id) :
    ∃ cp bp xp id i tx c a, Received (participant w (alice K o)).2 .pubkeys [cp, bp, xp] ∧ AlicePaid K o (participant w (alice K o)).2 cp bp id ∧
      Answered (participant w (alice K o)).2 (.tx .elt id) i ∧ Q cp bp id i ∧
      deserializeTx i.hex = .ok tx ∧ aliceReclaim K.E K.W ⟨o.exitKey, o.blindingKey, cp, bp, o.dst, o.dummy, o.rand⟩ id tx = .ok c ∧
      Event.did (.sendElt c) a ∈ (participant w (alice K o)).2 := by
  obtain ⟨-, e, l, t, ext, h⟩ := participant_obeys (w := w) (alice_obeys hf) (fun _ => .inr (.inr (.inr rfl)))
  have hl : l ≠ none := (h.wished_iff ho).1 (((C79_alice_ends hf).2.2 ho).2 hp)
  obtain ⟨q, rfl⟩ := Option.ne_none_iff_exists'.1 hl
  obtain ⟨cp, bp, xp, id, h1, h2, rfl⟩ := h.holds.wish q rfl
  have hs : t ⊆ (participant w (alice K o)).2 := by rw [h.trace]; simp
  obtain ⟨g1, g2⟩ := h.stopped ho
  rcases aliceWish_sends (K := K) (l := none) (t := t ++ [.wished]) hping (hn cp bp xp id (h1.mono hs) (h2.mono hs)) with h | ⟨i, tx, c, a, k1, kq, k2, k3, h⟩
  · exact absurd h g2
  · exact ⟨cp, bp, xp, id, i, tx, c, a, h1.mono hs, h2.mono hs, g1.subset k1, kq, k2, k3, g1.subset h⟩

/-- The same of Bob. -/
theorem bob_back {w : Environment} {Q : Bytes → Bytes → Info → Prop} (hf : Fit K ob.dst) (hping : ∀ t, w t (.ping .btc) = .ok ())
    (hn : ∀ ap ep bk id, Received (participant w (bob K ob)).2 .pubkeys [ap, ep] → Received (participant w (bob K ob)).2 .blindingKey [bk] →
      BobPaid K ob (participant w (bob K ob)).2 ap id → ∀ t, ∃ i : Info, w t (.tx .btc id) = .ok i ∧ i.confirmations ≠ none ∧ Q ap id i ∧
        ∃ c, bobReclaim K.E K.W K.B ⟨ob.contractKey, bk, ob.spendKey, ep, ob.dst, ob.dummy, ob.rand⟩ ⟨ob.exitKey, ap, ob.btcDst⟩ id i.vout = .ok c)
    (ho : (participant w (bob K ob)).1 = .exit ∨ (participant w (bob K ob)).1 = .crash)
    (hp : ∃ s x id, Answered (participant w (bob K ob)).2 (.payBtc s x) id) :
    ∃ ap ep bk id i c a, Received (participant w (bob K ob)).2 .pubkeys [ap, ep] ∧ Received (participant w (bob K ob)).2 .blindingKey [bk] ∧
      BobPaid K ob (participant w (bob K ob)).2 ap id ∧ Answered (participant w (bob K ob)).2 (.tx .btc id) i ∧ Q ap id i ∧
      bobReclaim K.E K.W K.B ⟨ob.contractKey, bk, ob.spendKey, ep, ob.dst, ob.dummy, ob.rand⟩ ⟨ob.exitKey, ap, ob.btcDst⟩ id i.vout = .ok c ∧
      Event.did (.sendBtc c) a ∈ (participant w (bob K ob)).2 := by
  obtain ⟨-, e, l, t, ext, h⟩ := participant_obeys (w := w) (bob_obeys hf) (fun _ => .inr (.inr rfl))
  have hl : l ≠ none := (h.wished_iff ho).1 (((C79_bob_ends hf).2.2 ho).2 hp)
  obtain ⟨q, rfl⟩ := Option.ne_none_iff_exists'.1 hl
  obtain ⟨ap, ep, bk, id, h1, h2, h3, rfl⟩ := h.holds.wish q rfl
  have hs : t ⊆ (participant w (bob K ob)).2 := by rw [h.trace]; simp
  obtain ⟨g1, g2⟩ := h.stopped ho
  rcases bobWish_sends (K := K) (l := none) (t := t ++ [.wished]) hping (hn ap ep bk id (h1.mono hs) (h2.mono hs) (h3.mono hs)) with
    h | ⟨i, c, a, k1, kq, k2, h⟩
  · exact absurd h g2
  · exact ⟨ap, ep, bk, id, i, c, a, h1.mono hs, h2.mono hs, h3.mono hs, g1.subset k1, kq, k2, g1.subset h⟩

/-- **C79 (partial).** Missing: answers without the entry `confirmations`, which there are for every transaction that is not yet in a block.
See `C79_statement_false`. -/
theorem C79_back_partial : C79_backed (fun i => i.confirmations ≠ none) := by
  intro K o w hf hping r hn ho hp
  obtain ⟨cp, bp, xp, id, i, tx, c, a, h1, h2, h3, -, h4⟩ := alice_back (Q := fun _ _ _ _ => True) hf hping
    (fun cp bp xp id h1 h2 t => let ⟨i, g1, g2, g3⟩ := hn cp bp xp id h1 h2 t; ⟨i, g1, g2, trivial, g3⟩) ho hp
  exact ⟨cp, bp, xp, id, i, tx, c, a, h1, h2, h3, h4⟩

/-- **C79 (partial).** The same of Bob. -/
theorem C79_back_bob_partial : C79_backed_bob (fun i => i.confirmations ≠ none) := by
  intro K o w hf hping r hn ho hp
  obtain ⟨ap, ep, bk, id, i, c, a, h1, h2, h3, h4, -, h5⟩ := bob_back (Q := fun _ _ _ => True) hf hping
    (fun ap ep bk id h1 h2 h3 t => let ⟨i, g1, g2, g3⟩ := hn ap ep bk id h1 h2 h3 t; ⟨i, g1, g2, trivial, g3⟩) ho hp
  exact ⟨ap, ep, bk, id, i, c, a, h1, h2, h3, h4, h5⟩

end Verif.SwapRun
