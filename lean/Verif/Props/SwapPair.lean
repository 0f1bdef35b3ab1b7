import Verif.SwapPair
import Verif.Props.SwapJoint
/-
C86: the two processes of the cross-chain swap.
-/
namespace Verif.SwapPair
open Verif Spec SwapSpend SwapBtc SwapRun

/-! ### A process and its history -/

/-- `p` has become `p'` with this history. -/
inductive Ran (p : Proc) : List Event → Proc → Prop
  | nil : Ran p [] p
  | step {t : List Event} {q : Query} {k : Ans q → Proc} (a : Ans q) : Ran p t (.asks q k) → Ran p (t ++ [.did q a]) (k a)
  | wish {t : List Event} {p' : Proc} : Ran p t (.wishes p') → Ran p (t ++ [.wished]) p'

/-- A process runs in a world. -/
def run (w : Environment) : Proc → List Event → Over × List Event
  | .over o, t => (o, t)
  | .asks q k, t => run w (k (w t q)) (t ++ [.did q (w t q)])
  | .wishes p, t => run w p (t ++ [.wished])

theorem run_body (w : Environment) (p : Prog) (l : Option Prog) (k : End → Option Prog → Proc) (t : List Event) :
    run w (body p l k) t = run w (k (exec w p l t).1 (exec w p l t).2.1) (exec w p l t).2.2 := by
  induction p generalizing l t with
  | ask q n ih => exact ih _ _ _
  | wish p n _ ih => exact ih _ _
  | _ => rfl

theorem run_lastly (w : Environment) (l : Option Prog) (k : End → Proc) (t : List Event) :
    run w (lastly l k) t = run w (k (lastWish w l t).1) (lastWish w l t).2 := by
  cases l with
  | none => rfl
  | some p => exact run_body w p none _ _

theorem run_leave (w : Environment) (t : List Event) : run w leave t = bye w t := by
  simp only [leave, run, bye]
  cases w t (.send ⟨.bye, []⟩) <;> rfl

theorem participant_run (w : Environment) (p : Prog) : participant w p = run w (proc p) [] := by
  rw [proc, run_body, participant]
  obtain ⟨e, l, t⟩ := exec w p none []
  cases e with
  | finished => rfl
  | waiting => rfl
  | died b =>
    dsimp only
    rw [run_lastly]
    obtain ⟨e, t⟩ := lastWish w l t
    cases e with
    | died c => cases c <;> first | rfl | exact (run_leave w t).symm
    | finished => cases b <;> first | rfl | exact (run_leave w t).symm
    | waiting => rfl
    | raised => exact (run_leave w t).symm
  | raised =>
    dsimp only
    rw [run_lastly]
    obtain ⟨e, t⟩ := lastWish w l t
    cases e with
    | died c => cases c <;> rfl
    | finished => exact (run_leave w t).symm
    | waiting => rfl
    | raised => rfl

/-- What has happened are answers of this world. -/
def From (w : Environment) (t : List Event) : Prop := ∀ pre q a post, t = pre ++ Event.did q a :: post → w pre q = a

theorem from_init {w : Environment} {t s : List Event} (h : From w (t ++ s)) : From w t := fun pre q a post e =>
  h pre q a (post ++ s) (by rw [e]; simp)

theorem ran_run {w : Environment} {p p' : Proc} {t : List Event} (h : Ran p t p') (hw : From w t) : run w p [] = run w p' t := by
  induction h with
  | nil => rfl
  | step a h ih =>
    rename_i t q k
    have ha : w t q = a := hw t q a [] (by simp)
    rw [ih (from_init hw), run, ha]
  | wish h ih => rw [ih (from_init hw), run]

theorem run_prefix (w : Environment) (p : Proc) (t : List Event) : t <+: (run w p t).2 := by
  induction p generalizing t with
  | over o => exact List.prefix_rfl
  | asks q k ih => exact (List.prefix_append _ _).trans (ih _ _)
  | wishes p ih => exact (List.prefix_append _ _).trans (ih _)

open Classical in
/-- The world that answers what was answered, and then fails. -/
noncomputable def replay (t : List Event) : Environment := fun pre q =>
  if h : ∃ a, ∃ post, t = pre ++ Event.did q a :: post then h.choose else .error .other

theorem replay_from (t : List Event) : From (replay t) t := by
  intro pre q a post e
  have h : ∃ a, ∃ post, t = pre ++ Event.did q a :: post := ⟨a, post, e⟩
  rw [replay, dif_pos h]
  obtain ⟨post', e'⟩ := h.choose_spec
  have := List.append_cancel_left (e.symm.trans e')
  injection this with h1 h2
  injection h1 with h3 h4
  exact h4.symm

/-- What a process has done so far is the beginning of what it does in some world. -/
theorem replay_participant {p : Prog} {p' : Proc} {t : List Event} (h : Ran (proc p) t p') :
    t <+: (participant (replay t) p).2 ∧ ∀ o, p' = .over o → participant (replay t) p = (o, t) := by
  rw [participant_run, ran_run h (replay_from t)]
  refine ⟨run_prefix _ _ _, ?_⟩
  rintro o rfl
  rfl

theorem allowed_init {may : List Event → Query → Prop} {t t' : List Event} (h : Allowed may t') (hp : t <+: t') : Allowed may t := by
  obtain ⟨s, rfl⟩ := hp
  exact fun pre q a post e => h pre q a (post ++ s) (by rw [e]; simp)

/-! ### Both -/

/-- What is true all the time. -/
structure Inv (K KB : Kit) (o : AliceOwn) (ob : BobOwn) (s : State) : Prop where
  alice : Ran (proc (SwapRun.alice K o)) s.alice.trace s.alice.proc
  bob : Ran (proc (SwapRun.bob KB ob)) s.bob.trace s.bob.proc
  linked : Linked s.alice.trace s.bob.trace
  toAlice : ∀ m ∈ s.alice.inbox, Event.did (.send m) (.ok ()) ∈ s.bob.trace
  toBob : ∀ m ∈ s.bob.inbox, Event.did (.send m) (.ok ()) ∈ s.alice.trace

/-- One step of one side, seen from both. -/
theorem answers_hears {t t' : List Event} {l l' out : List Msg} {q : Query} {a : Ans q} (h : Answers l q a l' out)
    (hl : ∀ m ∈ l, Event.did (.send m) (.ok ()) ∈ t') (hh : Hears t t') : Hears (t ++ [.did q a]) t' ∧ (∀ m ∈ l', Event.did (.send m) (.ok ()) ∈ t') ∧
      ∀ m ∈ out, Event.did (.send m) (.ok ()) ∈ t ++ [.did q a] := by
  refine ⟨fun m hm => ?_, fun m hm => ?_, fun m hm => ?_⟩
  · rcases List.mem_append.1 hm with hm | hm
    · exact hh m hm
    · have := List.mem_singleton.1 hm
      clear hm
      cases h <;> cases this
      · exact hl m (by simp)
      · rename_i h
        cases h
  · cases h <;> first | exact hl m hm | exact hl m (List.mem_cons_of_mem _ hm)
  · cases h <;> first | (cases hm; done) | (rw [List.mem_singleton.1 hm]; simp)

theorem hears_wished {t t' : List Event} (h : Hears t t') : Hears (t ++ [.wished]) t' := fun m hm => by
  rcases List.mem_append.1 hm with hm | hm
  · exact h m hm
  · cases List.mem_singleton.1 hm

section
variable {K KB : Kit} {o : AliceOwn} {ob : BobOwn} {s s' : State} {ok : (q : Query) → Ans q → Prop}

theorem Inv.start : Inv K KB o ob (State.start K KB o ob) where
  alice := .nil
  bob := .nil
  linked := ⟨(by intro m h; cases h), (by intro m h; cases h)⟩
  toAlice := by intro m h; cases h
  toBob := by intro m h; cases h

theorem Inv.step (h : Inv K KB o ob s) (hs : Step ok s s') : Inv K KB o ob s' := by
  cases hs with
  | alice q k a t l l' out b hans hok =>
    obtain ⟨h1, h2, h3⟩ := answers_hears hans h.toAlice h.linked.alice
    refine ⟨.step a h.alice, h.bob, ⟨h1, fun m hm => List.mem_append_left _ (h.linked.bob m hm)⟩, h2, fun m hm => ?_⟩
    rcases List.mem_append.1 hm with hm | hm
    · exact List.mem_append_left _ (h.toBob m hm)
    · exact h3 m hm
  | bob q k a t l l' out b hans hok =>
    obtain ⟨h1, h2, h3⟩ := answers_hears hans h.toBob h.linked.bob
    refine ⟨h.alice, .step a h.bob, ⟨fun m hm => List.mem_append_left _ (h.linked.alice m hm), h1⟩, fun m hm => ?_, h2⟩
    rcases List.mem_append.1 hm with hm | hm
    · exact List.mem_append_left _ (h.toAlice m hm)
    · exact h3 m hm
  | aliceWishes p t l b =>
    exact ⟨.wish h.alice, h.bob, ⟨hears_wished h.linked.alice, fun m hm => List.mem_append_left _ (h.linked.bob m hm)⟩, h.toAlice,
      fun m hm => List.mem_append_left _ (h.toBob m hm)⟩
  | bobWishes p t l b =>
    exact ⟨h.alice, .wish h.bob, ⟨fun m hm => List.mem_append_left _ (h.linked.alice m hm), hears_wished h.linked.bob⟩,
      fun m hm => List.mem_append_left _ (h.toAlice m hm), h.toBob⟩

theorem Inv.reaches (h : Reaches ok (State.start K KB o ob) s) : Inv K KB o ob s := by
  induction h with
  | here => exact Inv.start
  | step _ hs ih => exact ih.step hs

end

/-- Both use the same library and rules; the loops may make different numbers of passes. -/
structure Kits (K KB : Kit) (o : AliceOwn) (ob : BobOwn) : Prop where
  same : KB = { K with passes := KB.passes }
  alice : Fit K o.dst
  bob : Fit K ob.dst

theorem Kits.fitBob {K KB : Kit} {o : AliceOwn} {ob : BobOwn} (h : Kits K KB o ob) : Fit KB ob.dst := by
  rw [h.same]
  exact ⟨h.bob.sizes, h.bob.formats, h.bob.rewinds, h.bob.keys, h.bob.hash, h.bob.addr⟩

section
variable {K KB : Kit} {o : AliceOwn} {ob : BobOwn} {s : State} {ok : (q : Query) → Ans q → Prop}

theorem Inv.allowed (hK : Kits K KB o ob) (h : Inv K KB o ob s) : Allowed (AliceMay K o) s.alice.trace ∧ Allowed (BobMay K ob) s.bob.trace := by
  refine ⟨allowed_init (C79_alice hK.alice) (replay_participant h.alice).1, ?_⟩
  have := allowed_init (C79_bob hK.fitBob) (replay_participant h.bob).1
  rw [hK.same] at this
  exact this

variable (hK : Kits K KB o ob) (hs : Reaches ok (State.start K KB o ob) s)
include hK hs

/-- **C86.** At any time Bob has paid only into the contract that both have the keys of. -/
theorem C86_bob_pays {spk : Bytes} {x : Int} {r : Ans (.payBtc spk x)} (hp : Event.did (.payBtc spk x) r ∈ s.bob.trace) :
    (∃ c, CoinContract K o ob c ∧ spk = [0x00, 0x20] ++ K.B.sha256 c ∧ x = 101000000) ∧ ∀ id, r = .ok id → CoinsPaid K o ob s.bob.trace id := by
  have h := Inv.reaches hs
  obtain ⟨h1, h2⟩ := h.allowed hK
  refine ⟨(bob_payment h1 h2 h.linked hp).1, ?_⟩
  rintro id rfl
  exact coins_paid h1 h2 h.linked hp

/-- **C86.** Alice has paid only into the contract that both have the keys of, and Bob has paid before that. -/
theorem C86_alice_pays {spk p : Bytes} {x : Int} {r : Ans (.payElt spk p x)} (hp : Event.did (.payElt spk p x) r ∈ s.alice.trace) :
    (∃ c, AssetContract K o ob c ∧ spk = [0xa9, 0x14] ++ K.W.hash160 c ++ [0x87] ∧ p = K.E.z.pubOf o.blindingKey ∧ x = 101000000) ∧
      (∀ id, r = .ok id → AssetPaid K o ob s.alice.trace id) ∧
      ∃ id n, CoinsPaid K o ob s.bob.trace id ∧ Confirmed s.bob.trace .btc id 6 ∧ CoinsSeen K o ob s.alice.trace id n := by
  have h := Inv.reaches hs
  obtain ⟨h1, h2⟩ := h.allowed hK
  refine ⟨(alice_payment h1 h2 h.linked hp).1, ?_, alice_pays h1 h2 h.linked hp⟩
  rintro id rfl
  exact asset_paid h1 h2 h.linked hp

/-- **C86.** Bob has claimed only what Alice has paid before. -/
theorem C86_bob_claims {c : Tx} {a : Ans (.sendElt c)} (hc : Event.did (.sendElt c) a ∈ s.bob.trace) :
    ∃ id n, AssetPaid K o ob s.alice.trace id ∧ Confirmed s.alice.trace .elt id 2 ∧ AssetSeen K o ob s.bob.trace id n ∧
      Swept K.W.asset ob.dst id n 0xffffffff c := by
  have h := Inv.reaches hs
  obtain ⟨h1, h2⟩ := h.allowed hK
  exact bob_claims h1 h2 h.linked hc

/-- **C86.** Alice has claimed only what Bob has paid before, when what Alice has paid was taken. -/
theorem C86_alice_claims {c : BtcTx} {a : Ans (.sendBtc c)} (hc : Event.did (.sendBtc c) a ∈ s.alice.trace) :
    ∃ id n elt, CoinsPaid K o ob s.bob.trace id ∧ Confirmed s.bob.trace .btc id 6 ∧ CoinsSeen K o ob s.alice.trace id n ∧
      BtcSwept o.btcDst id n 0xffffffff c ∧ AssetPaid K o ob s.alice.trace elt ∧ AssetTaken K o ob s.alice.trace elt := by
  have h := Inv.reaches hs
  obtain ⟨h1, h2⟩ := h.allowed hK
  exact alice_claims h1 h2 h.linked hc

/-- **C86.** When both are done, the swap has taken place. -/
theorem C86_done (hA : s.alice.proc = .over .done) (hB : s.bob.proc = .over .done) : Swapped K o ob s.alice.trace s.bob.trace := by
  have h := Inv.reaches hs
  have eA := (replay_participant h.alice).2 _ hA
  have eB := (replay_participant h.bob).2 _ hB
  refine C83_done (rA := (.done, s.alice.trace)) (rB := (.done, s.bob.trace)) ⟨⟨_, eA.symm⟩, ⟨replay s.bob.trace, KB.passes, ?_⟩, h.linked⟩ hK.alice hK.bob rfl rfl
  rw [← hK.same]
  exact eB.symm

end

/-! ### It ends -/

/-- One question is answered, or the last wish begins. -/
def Sub (p' p : Proc) : Prop := (∃ q k a, p = .asks q k ∧ p' = k a) ∨ p = .wishes p'

theorem sub_wf : WellFounded Sub := by
  refine ⟨fun p => ?_⟩
  induction p with
  | over o =>
    refine ⟨_, ?_⟩
    rintro p' (⟨q, k, a, h, -⟩ | h) <;> cases h
  | asks q k ih =>
    refine ⟨_, ?_⟩
    rintro p' (⟨q', k', a, h, rfl⟩ | h)
    · cases h
      exact ih a
    · cases h
  | wishes p ih =>
    refine ⟨_, ?_⟩
    rintro p' (⟨q, k, a, h, -⟩ | h)
    · cases h
    · cases h
      exact ih

/-- **C86.** The two cannot go on for ever, if the two loops without an end do not. -/
theorem C86_ends (ok : (q : Query) → Ans q → Prop) : WellFounded fun s' s : State => Step ok s s' := by
  have h := InvImage.wf (fun s : State => (s.alice.proc, s.bob.proc)) (WellFounded.prod_lex sub_wf sub_wf)
  refine Subrelation.wf (fun {s' s} hs => ?_) h
  cases hs with
  | alice q k a => exact .left _ _ (.inl ⟨q, k, a, rfl, rfl⟩)
  | bob q k a => exact .right _ (.inl ⟨q, k, a, rfl, rfl⟩)
  | aliceWishes => exact .left _ _ (.inr rfl)
  | bobWishes => exact .right _ (.inr rfl)

/-- **C86.** No deadlock: as long as one has not ended, something can happen, even if the nodes only fail. -/
theorem C86_goes (ok : (q : Query) → Ans q → Prop) (hok : ∀ q e, ok q (.error e)) (s : State) :
    (∃ s', Step ok s s') ↔ ¬ ∃ x y, s.alice.proc = .over x ∧ s.bob.proc = .over y := by
  constructor
  · rintro ⟨s', hs⟩ ⟨x, y, h1, h2⟩
    cases hs
    · cases h1
    · cases h2
    · cases h1
    · cases h2
  · intro h
    obtain ⟨⟨p, t, l⟩, ⟨p', t', l'⟩⟩ := s
    have key : ∀ (l : List Msg) (q : Query), Answers l q (.error .other) l [] := by
      intro l q
      cases q <;> first | exact .notSent .. | exact .notReceived .. | exact .node _ _ _ rfl
    cases p with
    | asks q k => exact ⟨_, .alice q k _ t l _ _ _ (key l q) (hok q _)⟩
    | wishes p => exact ⟨_, .aliceWishes p t l _⟩
    | over x =>
      cases p' with
      | asks q k => exact ⟨_, .bob q k _ t' l' _ _ _ (key l' q) (hok q _)⟩
      | wishes p => exact ⟨_, .bobWishes p t' l' _⟩
      | over y => exact absurd ⟨x, y, rfl, rfl⟩ h

end Verif.SwapPair
