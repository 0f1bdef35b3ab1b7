import Verif.AssetPair
import Verif.Props.AssetJoint
/-
C85: the two processes of the asset swap.
-/
namespace Verif.AssetPair
open Verif Spec Spec.Assets AssetSwap AssetRun

/-! ### A process and its history -/

/-- `p` has become `p'` with this history. -/
inductive Ran (p : Proc) : List Event → Proc → Prop
  | nil : Ran p [] p
  | step {t : List Event} {q : Query} {k : Ans q → Proc} (a : Ans q) : Ran p t (.asks q k) → Ran p (t ++ [.did q a]) (k a)

/-- A process runs in a world. -/
def run (w : Environment) : Proc → List Event → Over × List Event
  | .over o, t => (o, t)
  | .asks q k, t => run w (k (w t q)) (t ++ [.did q (w t q)])

theorem run_proc (w : Environment) (p : Prog) (t : List Event) : run w (proc p) t =
    match exec w p t with
    | (.finished, t) => (.done, t)
    | (.exited true, t) => (.exit0, t)
    | (.exited false, t) => (.exit, t)
    | (.raised, t) =>
      match w t (.send ⟨.bye, .nothing⟩) with
      | .ok a => (.exit, t ++ [.did (.send ⟨.bye, .nothing⟩) (.ok a)])
      | .error e => (.crash, t ++ [.did (.send ⟨.bye, .nothing⟩) (.error e)]) := by
  induction p generalizing t with
  | finish => rfl
  | raise =>
    simp only [proc, run, exec]
    cases h : w t (.send ⟨.bye, .nothing⟩) <;> rfl
  | exit b => cases b <;> rfl
  | ask q k ih => exact ih _ _

theorem participant_run (w : Environment) (p : Prog) : participant w p = run w (proc p) [] := (run_proc w p []).symm

theorem from_snoc {w : Environment} {t : List Event} {q : Query} {a : Ans q} (h : From w t) (ha : w t q = a) : From w (t ++ [.did q a]) := by
  intro pre q' a' post e
  rcases List.eq_nil_or_concat post with rfl | ⟨post', x, rfl⟩
  · obtain ⟨rfl, e2⟩ := List.append_inj' e rfl
    cases e2
    exact ha
  · rw [List.concat_eq_append, ← List.cons_append, ← List.append_assoc] at e
    obtain ⟨e1, -⟩ := List.append_inj' e rfl
    exact h pre q' a' post' e1

theorem from_init {w : Environment} {t s : List Event} (h : From w (t ++ s)) : From w t := fun pre q a post e =>
  h pre q a (post ++ s) (by rw [e]; simp)

theorem ran_run {w : Environment} {p p' : Proc} {t : List Event} (h : Ran p t p') (hw : From w t) : run w p [] = run w p' t := by
  induction h with
  | nil => rfl
  | step a h ih =>
    rename_i t q k
    have ha : w t q = a := hw t q a [] (by simp)
    rw [ih (from_init hw), run, ha]

open Classical in
/-- The world that answers what was answered, and then fails. -/
noncomputable def replay (t : List Event) : Environment := fun pre q =>
  if h : ∃ a, ∃ post, t = pre ++ Event.did q a :: post then h.choose else .error .other

theorem replay_from (t : List Event) : From (replay t) t := by
  intro pre q a post e
  have h : ∃ a, ∃ post, t = pre ++ Event.did q a :: post := ⟨a, post, e⟩
  rw [replay, dif_pos h]
  obtain ⟨post', e'⟩ := h.choose_spec
  have := List.append_cancel_left (e.symm.trans e')
  injection this with h1 h2
  injection h1 with h3 h4
  exact h4.symm

/-- It answers nothing else. -/
theorem replay_ok {t pre : List Event} {q : Query} {a : Val q} (h : replay t pre q = .ok a) : Event.did q (.ok a) ∈ t := by
  unfold replay at h
  split at h
  · rename_i hx
    obtain ⟨post, e⟩ := hx.choose_spec
    rw [h] at e
    rw [e]
    simp
  · cases h

theorem replay_after (t s : List Event) (q : Query) : replay t (t ++ s) q = .error .other := by
  rw [replay, dif_neg]
  rintro ⟨a, post, e⟩
  have := congrArg List.length e
  simp at this

/-- Nothing but failures. -/
def Failures (t : List Event) : Prop := ∀ e ∈ t, ∃ q x, e = Event.did q (.error x)

theorem replay_run (t : List Event) (p : Proc) (s : List Event) (hs : Failures s) : ∃ s', (run (replay t) p (t ++ s)).2 = t ++ s' ∧ Failures s' := by
  induction p generalizing s with
  | over o => exact ⟨s, rfl, hs⟩
  | asks q k ih =>
    rw [run, replay_after, List.append_assoc]
    refine ih _ _ fun e he => ?_
    rcases List.mem_append.1 he with he | he
    · exact hs e he
    · exact ⟨q, .other, List.mem_singleton.1 he⟩

/-- What a process has done so far is the beginning of what it does in some world, that only fails afterwards. -/
theorem replay_participant {p : Prog} {p' : Proc} {t : List Event} (h : Ran (proc p) t p') :
    ∃ s, (participant (replay t) p).2 = t ++ s ∧ Failures s ∧ ∀ o, p' = .over o → participant (replay t) p = (o, t) := by
  rw [participant_run, ran_run h (replay_from t)]
  obtain ⟨s, h1, h2⟩ := replay_run t p' [] (by intro e he; cases he)
  rw [List.append_nil] at h1
  refine ⟨s, h1, h2, ?_⟩
  rintro o rfl
  rfl

/-! ### Failures change nothing -/

section
variable {t s : List Event}

theorem mem_ok (hs : Failures s) {q : Query} {a : Val q} (h : Event.did q (.ok a) ∈ t ++ s) : Event.did q (.ok a) ∈ t := by
  rcases List.mem_append.1 h with h | h
  · exact h
  · obtain ⟨q', x, e⟩ := hs _ h
    injection e with h1 h2
    subst h1
    cases eq_of_heq h2

theorem prefix_ok (hs : Failures s) {l : List Event} (hl : ∀ e ∈ l, ∃ (q : Query) (a : Val q), e = Event.did q (.ok a)) (h : l <+: t ++ s) : l <+: t := by
  rcases Nat.le_total l.length t.length with hle | hle
  · exact List.prefix_of_prefix_length_le h (List.prefix_append _ _) hle
  · have h' := List.prefix_of_prefix_length_le (List.prefix_append t s) h hle
    obtain ⟨r, rfl⟩ := h'
    cases r with
    | nil => rw [List.append_nil]
    | cons e r =>
      have h2 := (List.prefix_append_right_inj t).1 h
      obtain ⟨q, x, rfl⟩ := hs e (h2.subset (by simp))
      obtain ⟨q', a, e⟩ := hl (.did q (.error x)) (by simp)
      injection e with h1 h2
      subst h1
      cases eq_of_heq h2

theorem back_answered (hs : Failures s) {q : Query} {a : Val q} (h : Answered (t ++ s) q a) : Answered t q a := mem_ok hs h

theorem back_confirmed (hs : Failures s) {id : Bytes} (h : Confirmed (t ++ s) id) : Confirmed t id := by
  obtain ⟨n, h1, h2⟩ := h
  exact ⟨n, mem_ok hs h1, h2⟩

theorem back_alice (hs : Failures s) {K : Kit} {a : Alice} (h : AliceBegan K (t ++ s) a) : AliceBegan K t a := by
  obtain ⟨id1, v1, k1, id2, v2, k2, l, v3, k3, kc, hp, h⟩ := h
  refine ⟨id1, v1, k1, id2, v2, k2, l, v3, k3, kc, prefix_ok hs ?_ hp, h⟩
  simp only [List.mem_cons, List.not_mem_nil, or_false]
  rintro e (rfl | rfl | rfl | rfl | rfl | rfl | rfl | rfl | rfl) <;> exact ⟨_, _, rfl⟩

theorem back_bob (hs : Failures s) {u : Utxo} (h : BobBegan (t ++ s) u) : BobBegan t u := by
  obtain ⟨id, v, k, hp, h⟩ := h
  refine ⟨id, v, k, prefix_ok hs ?_ hp, h⟩
  simp only [List.mem_cons, List.not_mem_nil, or_false]
  rintro e (rfl | rfl | rfl) <;> exact ⟨_, _, rfl⟩

end

section
variable {K : Kit} {tA tB sA sB : List Event} {u : Utxo} {a : Alice} {b : Bytes}

theorem back_agreed (hA : Failures sA) (hB : Failures sB) (h : Agreed K (tA ++ sA) (tB ++ sB) u a b) : Agreed K tA tB u a b := by
  obtain ⟨h1, h2, x1, x2, s, h3, h4, F⟩ := h
  exact ⟨mem_ok hB h1, fun d hd => h2 d (hd.mono (List.prefix_append _ _)), x1, x2, s, h3, h4, ⟨back_bob hB F.bob, back_alice hA F.alice, F.inputs,
    F.signed, back_answered hA F.own, ⟨back_answered hB F.theirs.1, back_answered hB F.theirs.2⟩, F.scripts, F.gets, F.pays, F.fee, F.rest⟩⟩

theorem back_swapped (hA : Failures sA) (hB : Failures sB) (h : SwappedAlice K (tA ++ sA) (tB ++ sB) u a b) : SwappedAlice K tA tB u a b := by
  obtain ⟨h1, ⟨id, h2, h3⟩, h4, h5⟩ := h
  exact ⟨back_agreed hA hB h1, ⟨id, mem_ok hA h2, back_confirmed hA h3⟩, fun b' id' h' => h4 b' id' (h'.mono (List.prefix_append _ _)), mem_ok hA h5⟩

end

/-! ### Both -/

/-- The nodes tell plausible things. -/
def Plausible : (q : Query) → Ans q → Prop
  | .unspent _ _ id, .ok l => ∀ v ∈ l, v.prevout.n < 2 ^ 30 ∧ ∀ k : Bytes, k.length = 32 → UtxoOk (Assets.keyed v id k)
  | .key _, .ok k => k.length = 32
  | .newAddr, .ok x => AddrOk x.1
  | _, _ => True

/-! ### Goodbye is the last thing Alice says -/

/-- After goodbye there is nothing. -/
def Last : Prog → Prop
  | .ask q k => (∀ d : Data, ∀ h : q = .send ⟨.goodbye, d⟩, k (h ▸ .ok ()) = .finish) ∧ ∀ a, Last (k a)
  | _ => True

/-- Another question. -/
def aside : Query → Bool
  | .send m => m.kind != .goodbye
  | _ => true

theorem last_ask {q : Query} {k : Ans q → Prog} (h : aside q = true) (hk : ∀ a, Last (k a)) : Last (.ask q k) := by
  refine ⟨?_, hk⟩
  rintro d rfl
  cases h

theorem last_call {q : Query} {k : Val q → Prog} (h : aside q = true) (hk : ∀ a, Last (k a)) : Last (call q k) :=
  last_ask h fun | .ok a => hk a | .error _ => trivial

theorem last_compute {α : Type} {c : Except AssetSwap.Stop α} {k : α → Prog} (hk : ∀ a, Last (k a)) : Last (compute c k) := by
  cases c with
  | ok a => exact hk a
  | error => trivial

theorem last_recvElse {p : Prog} {n : Nat} {m : MsgKind} {k : Data → Prog} (hp : Last p) (hk : ∀ a, Last (k a)) : Last (recvElse p n m k) := by
  refine last_ask rfl fun
    | .error _ => hp
    | .ok none => hp
    | .ok (some x) => ?_
  dsimp only
  split
  · trivial
  · split
    · exact hp
    · exact hk _

theorem last_recv {m : MsgKind} {k : Data → Prog} (hk : ∀ a, Last (k a)) : Last (recv m k) := last_recvElse trivial hk

theorem last_waitConfirm {id : Bytes} {p : Prog} (hp : Last p) (n : Nat) : Last (waitConfirm id n p) := by
  induction n with
  | zero => trivial
  | succ n ih =>
    refine last_ask rfl fun
      | .ok c => ?_
      | .error .rpc => ih
      | .error .other => trivial
    dsimp only
    split
    · exact hp
    · exact last_ask rfl fun
        | .ok _ => ih
        | .error .rpc => ih
        | .error .other => trivial

theorem last_issueAsset {k : Utxo → Prog} (hk : ∀ u, Last (k u)) : Last (issueAsset k) := by
  refine last_call rfl fun id => last_call rfl fun l => ?_
  match l with
  | [] => trivial
  | [u] => exact last_call rfl fun _ => hk _
  | _ :: _ :: _ => trivial

theorem last_feeUtxo {K : Kit} {k : Utxo → Prog} (hk : ∀ u, Last (k u)) : Last (feeUtxo K k) := by
  refine last_call rfl fun l => ?_
  cases pickFee l with
  | none => trivial
  | some u =>
    refine last_call rfl fun _ => ?_
    split
    · trivial
    · exact hk _

theorem last_newAddr {K : Kit} {k : Addr → Bytes → Prog} (hk : ∀ a b, Last (k a b)) : Last (newAddr K k) := by
  refine last_call rfl fun x => ?_
  split
  · trivial
  · exact hk _ _

theorem last_newAddrs {K : Kit} (n : Nat) {k : List (Addr × Bytes) → Prog} (hk : ∀ l, Last (k l)) : Last (newAddrs K n k) := by
  induction n generalizing k with
  | zero => exact hk _
  | succ n ih => exact last_newAddr fun _ _ => ih fun _ => hk _

theorem last_balances (l : List Offer) {p : Prog} (hp : Last p) : Last (balances l p) := by
  induction l with
  | nil => exact hp
  | cons f l ih => exact last_call rfl fun _ => ih

theorem last_giveUp (K : Kit) (a : Alice) : Last (giveUp K a) :=
  last_compute fun _ => last_newAddrs _ fun _ => last_compute fun _ => last_compute fun _ => last_call rfl fun _ => last_call rfl fun _ =>
    last_waitConfirm (p := .exit true) trivial _

theorem last_goodbye : Last (call (.send ⟨.goodbye, .nothing⟩) fun _ => .finish) := by
  refine ⟨?_, fun | .ok _ => trivial | .error _ => trivial⟩
  intro d h
  cases h
  rfl

theorem last_aliceDone (a : Alice) (f : Offer) (id : Bytes) : Last (aliceDone a f id) := by
  refine last_call rfl fun _ => last_waitConfirm (last_call rfl fun n => ?_) _
  split
  · trivial
  · exact last_balances _ last_goodbye

theorem last_aliceLast (K : Kit) (a : Alice) (f : Offer) (tx : Tx) : Last (aliceLast K a f tx) := by
  refine last_recvElse (last_giveUp K a) fun d => ?_
  cases d with
  | bytes b =>
    dsimp only
    split
    · exact last_giveUp K a
    · split
      · exact last_giveUp K a
      · split
        · exact last_giveUp K a
        · exact last_ask rfl fun
            | .ok _ => last_aliceDone _ _ _
            | .error _ => last_giveUp K a
  | _ => exact last_giveUp K a

theorem last_alice (K : Kit) : Last (AssetRun.alice K) := by
  refine last_issueAsset fun u1 => last_issueAsset fun u2 => last_feeUtxo fun uf => last_newAddr fun change _ => last_call rfl fun _ => last_recv fun d => ?_
  cases d with
  | bytes id =>
    refine last_call rfl fun _ => last_waitConfirm (last_waitConfirm (last_waitConfirm (last_call rfl fun _ => last_recv fun d => ?_) _) _) _
    cases d with
    | offer f =>
      refine last_balances _ (last_newAddr fun dst bkey => ?_)
      dsimp only
      split
      · refine last_call rfl fun _ => last_recv fun d => ?_
        cases d with
        | bytes b =>
          refine last_compute fun p => last_compute fun _ => last_recv fun d => ?_
          cases d with
          | addresses l c => exact last_compute fun t => last_compute fun b => last_call rfl fun _ => last_aliceLast _ _ _ _
          | _ => trivial
        | _ => trivial
      · trivial
    | _ => trivial
  | _ => trivial

/-- What becomes of a program. -/
inductive Of : Proc → Prop
  | prog {p : Prog} : Last p → Of (proc p)
  | over (o : Over) : Of (.over o)

theorem ran_last {p : Prog} (h : Last p) {t : List Event} {p' : Proc} (hr : Ran (proc p) t p') :
    Of p' ∧ ∀ d, Sent t .goodbye d → p' = .over .done := by
  induction hr with
  | nil => exact ⟨.prog h, fun d hd => by cases hd⟩
  | step a hr ih =>
    rename_i t q k
    obtain ⟨h1, h2⟩ := ih
    have hn : ∀ d, ¬ Sent t .goodbye d := fun d hd => by cases h2 d hd
    generalize hx : Proc.asks q k = x at h1
    cases h1 with
    | over => cases hx
    | prog hp =>
      rename_i p
      cases p with
      | finish => cases hx
      | exit b => cases b <;> cases hx
      | raise =>
        cases hx
        refine ⟨by cases a <;> exact .over _, fun d hd => ?_⟩
        rcases List.mem_append.1 hd with hd | hd
        · exact absurd hd (hn d)
        · cases List.mem_singleton.1 hd
      | ask q' k' =>
        cases hx
        refine ⟨.prog (hp.2 a), fun d hd => ?_⟩
        rcases List.mem_append.1 hd with hd | hd
        · exact absurd hd (hn d)
        · cases List.mem_singleton.1 hd
          exact congrArg proc (hp.1 d rfl)

/-- What is true all the time. -/
structure Inv (K KB : Kit) (s : State) : Prop where
  alice : Ran (proc (AssetRun.alice K)) s.alice.trace s.alice.proc
  bob : Ran (proc (AssetRun.bob KB)) s.bob.trace s.bob.proc
  linked : Linked s.alice.trace s.bob.trace
  toAlice : ∀ m ∈ s.alice.inbox, Event.did (.send m) (.ok ()) ∈ s.bob.trace
  toBob : ∀ m ∈ s.bob.inbox, Event.did (.send m) (.ok ()) ∈ s.alice.trace
  okAlice : ∀ q a, Event.did q a ∈ s.alice.trace → Plausible q a
  okBob : ∀ q a, Event.did q a ∈ s.bob.trace → Plausible q a

theorem did_inj {q q' : Query} {a : Ans q} {a' : Ans q'} (h : Event.did q a = Event.did q' a') : ∃ e : q = q', e ▸ a = a' := by
  cases h
  exact ⟨rfl, rfl⟩

/-- One step of one side, seen from both. -/
theorem answers_hears {t t' : List Event} {l l' out : List Msg} {q : Query} {a : Ans q} (h : Answers l q a l' out)
    (hl : ∀ m ∈ l, Event.did (.send m) (.ok ()) ∈ t') (hh : Hears t t') : Hears (t ++ [.did q a]) t' ∧ (∀ m ∈ l', Event.did (.send m) (.ok ()) ∈ t') ∧
      ∀ m ∈ out, Event.did (.send m) (.ok ()) ∈ t ++ [.did q a] := by
  refine ⟨fun n m hm => ?_, fun m hm => ?_, fun m hm => ?_⟩
  · rcases List.mem_append.1 hm with hm | hm
    · exact hh n m hm
    · have := List.mem_singleton.1 hm
      clear hm
      cases h <;> cases this
      · exact hl m (by simp)
      · rename_i h
        cases h
  · cases h <;> first | exact hl m hm | exact hl m (List.mem_cons_of_mem _ hm)
  · cases h <;> first | (cases hm; done) | (rw [List.mem_singleton.1 hm]; simp)

theorem Inv.start (K KB : Kit) : Inv K KB (State.start K KB) where
  alice := .nil
  bob := .nil
  linked := ⟨(by intro n m h; cases h), (by intro n m h; cases h)⟩
  toAlice := by intro m h; cases h
  toBob := by intro m h; cases h
  okAlice := by intro q a h; cases h
  okBob := by intro q a h; cases h

theorem Inv.step {K KB : Kit} {s s' : State} (h : Inv K KB s) (hs : Step Plausible s s') : Inv K KB s' := by
  cases hs with
  | alice q k a t l l' out b hans hok =>
    obtain ⟨h1, h2, h3⟩ := answers_hears hans h.toAlice h.linked.alice
    refine ⟨.step a h.alice, h.bob, ⟨h1, fun n m hm => List.mem_append_left _ (h.linked.bob n m hm)⟩, h2, fun m hm => ?_, fun q' a' hm => ?_, h.okBob⟩
    · rcases List.mem_append.1 hm with hm | hm
      · exact List.mem_append_left _ (h.toBob m hm)
      · exact h3 m hm
    · rcases List.mem_append.1 hm with hm | hm
      · exact h.okAlice q' a' hm
      · cases List.mem_singleton.1 hm
        exact hok
  | bob q k a t l l' out b hans hok =>
    obtain ⟨h1, h2, h3⟩ := answers_hears hans h.toBob h.linked.bob
    refine ⟨h.alice, .step a h.bob, ⟨fun n m hm => List.mem_append_left _ (h.linked.alice n m hm), h1⟩, fun m hm => ?_, h2, h.okAlice, fun q' a' hm => ?_⟩
    · rcases List.mem_append.1 hm with hm | hm
      · exact List.mem_append_left _ (h.toAlice m hm)
      · exact h3 m hm
    · rcases List.mem_append.1 hm with hm | hm
      · exact h.okBob q' a' hm
      · cases List.mem_singleton.1 hm
        exact hok

theorem Inv.reaches {K KB : Kit} {s : State} (h : Reaches Plausible (State.start K KB) s) : Inv K KB s := by
  induction h with
  | here => exact Inv.start K KB
  | step _ hs ih => exact ih.step hs

/-- Both have the same library and the same way to make keys and signatures; the library does what it should. -/
structure Kits (K KB : Kit) : Prop where
  env : KB.E = K.E
  world : KB.W = K.W
  sizes : Sizes K.E K.W
  formats : Formats K.E.z
  rewinds : Rewinds K.E.z
  wire : WireSizes K.E.z

theorem replay_fit {K : Kit} {t : List Event} (hz : Sizes K.E K.W) (h : ∀ q a, Event.did q a ∈ t → Plausible q a) : Fit K (replay t) where
  sizes := hz
  utxos _ _ _ _ _ v k hl hv hk := (h _ _ (replay_ok hl) v hv).2 k hk
  keys _ _ _ hk := h _ _ (replay_ok hk)

section
variable {K KB : Kit} {s : State}

/-- At any time: what has happened is the beginning of a pair of runs as in C84. -/
theorem Inv.run (hK : Kits K KB) (h : Inv K KB s) : Run K KB (replay s.alice.trace) (replay s.bob.trace) := by
  obtain ⟨sA, eA, fA, -⟩ := replay_participant h.alice
  obtain ⟨sB, eB, fB, -⟩ := replay_participant h.bob
  have hA := replay_fit hK.sizes h.okAlice
  have hB : Fit KB (replay s.bob.trace) := replay_fit (by rw [hK.env, hK.world]; exact hK.sizes) h.okBob
  have hl : Linked (participant (replay s.alice.trace) (AssetRun.alice K)).2 (participant (replay s.bob.trace) (AssetRun.bob KB)).2 := by
    rw [eA, eB]
    exact ⟨fun n m hm => List.mem_append_left _ (h.linked.alice n m (mem_ok fA hm)), fun n m hm => List.mem_append_left _ (h.linked.bob n m (mem_ok fB hm))⟩
  refine ⟨hK.env, hK.world, hl, hA, ⟨hB, by rw [hK.env]; exact hK.formats, by rw [hK.env]; exact hK.rewinds, ?_⟩, hK.wire, ?_, ?_⟩
  · intro t n a cs hr
    obtain ⟨pre, post, e, hm⟩ := mem_allowed (C80_alice hA) (hl.bob n _ (by rw [eB]; exact List.mem_append_left _ (replay_ok hr)))
    rcases hm with h' | ⟨_, _, h', _⟩ | ⟨a', c1, c2, c3, pre', h', -, -, -, -, g, -⟩ | ⟨_, _, _, _, _, _, _, h', _⟩ | ⟨_, _, _, _, _, h', _⟩ | h' <;> cases h'
    have hn : Answered (s.alice.trace ++ sA) .newAddr (a'.dst, a'.bkey) := by
      rw [← eA]
      refine (pre_of e).subset ?_
      rw [g]
      simp
    exact h.okAlice _ _ (mem_ok fA hn)
  · exact fun t lo hi id l v hl hv => (h.okAlice _ _ (replay_ok hl) v hv).1
  · exact fun t lo hi id l v hl hv => (h.okBob _ _ (replay_ok hl) v hv).1

variable (hK : Kits K KB) (hs : Reaches Plausible (State.start K KB) s)
include hK hs

/-- **C85.** Whatever Bob has sent to Alice as final is the swap both have agreed to. -/
theorem C85_bob_signs {b : Bytes} (h : Sent s.bob.trace .final (.bytes b)) : ∃ u a, Agreed K s.alice.trace s.bob.trace u a b := by
  have hi := Inv.reaches hs
  obtain ⟨sA, eA, fA, -⟩ := replay_participant hi.alice
  obtain ⟨sB, eB, fB, -⟩ := replay_participant hi.bob
  obtain ⟨u, a, hag⟩ := C84_bob_signs (hi.run hK) (by rw [eB]; exact h.mono (List.prefix_append _ _))
  rw [eA, eB] at hag
  exact ⟨u, a, back_agreed fA fB hag⟩

/-- **C85.** Bob publishes nothing but that. -/
theorem C85_bob_publishes {b : Bytes} {r : Ans (.publish b)} (h : Event.did (.publish b) r ∈ s.bob.trace) :
    ∃ u a, Agreed K s.alice.trace s.bob.trace u a b := by
  have hi := Inv.reaches hs
  obtain ⟨sA, eA, fA, -⟩ := replay_participant hi.alice
  obtain ⟨sB, eB, fB, -⟩ := replay_participant hi.bob
  obtain ⟨u, a, hag⟩ := C84_bob_publishes (hi.run hK) (r := r) (by rw [eB]; exact List.mem_append_left _ h)
  rw [eA, eB] at hag
  exact ⟨u, a, back_agreed fA fB hag⟩

/-- **C85.** Alice publishes nothing but that, or takes everything back. -/
theorem C85_alice_publishes {pre post : List Event} {b : Bytes} {r : Ans (.publish b)} (h : s.alice.trace = pre ++ Event.did (.publish b) r :: post) :
    (∃ u a, Agreed K s.alice.trace s.bob.trace u a b) ∨ TakesBack K pre b := by
  have hi := Inv.reaches hs
  obtain ⟨sA, eA, fA, -⟩ := replay_participant hi.alice
  obtain ⟨sB, eB, fB, -⟩ := replay_participant hi.bob
  rcases C84_alice_publishes (hi.run hK) (pre := pre) (post := post ++ sA) (r := r) (by rw [eA, h]; simp) with ⟨u, a, hag⟩ | hb
  · rw [eA, eB] at hag
    exact .inl ⟨u, a, back_agreed fA fB hag⟩
  · exact .inr hb

/-- **C85.** When Alice is done, the swap has taken place for Alice. -/
theorem C85_alice_done (h : s.alice.proc = .over .done) : ∃ u a b, SwappedAlice K s.alice.trace s.bob.trace u a b := by
  have hi := Inv.reaches hs
  obtain ⟨sA, eA, fA, oA⟩ := replay_participant hi.alice
  obtain ⟨sB, eB, fB, -⟩ := replay_participant hi.bob
  obtain ⟨u, a, b, hw⟩ := C84_alice_done (hi.run hK) (by rw [oA _ h])
  rw [eA, eB] at hw
  exact ⟨u, a, b, back_swapped fA fB hw⟩

/-- **C85.** When Bob is done, the swap has taken place for both, and Alice is done too. -/
theorem C85_bob_done (h : s.bob.proc = .over .done) :
    ∃ u a b, SwappedAlice K s.alice.trace s.bob.trace u a b ∧ SwappedBob s.bob.trace a b ∧ s.alice.proc = .over .done := by
  have hi := Inv.reaches hs
  obtain ⟨sA, eA, fA, -⟩ := replay_participant hi.alice
  obtain ⟨sB, eB, fB, oB⟩ := replay_participant hi.bob
  obtain ⟨u, a, b, hw, ⟨id, h1⟩, h2, h3⟩ := C84_bob_done (hi.run hK) (by rw [oB _ h])
  have hE := C80_bob_ends (hi.run hK).fitBob
  rw [oB _ h] at hE
  obtain ⟨fs, b', id', pre, e, -, -, -, d, n, h4⟩ := hE
  have hg := hi.linked.bob n _ (show _ ∈ s.bob.trace by rw [e]; exact List.mem_append_left _ h4)
  rw [eA, eB] at hw
  rw [eB] at h1 h2 h3
  exact ⟨u, a, b, back_swapped fA fB hw, ⟨⟨id, mem_ok fB h1⟩, mem_ok fB h2, mem_ok fB h3⟩, (ran_last (last_alice K) hi.alice).2 d hg⟩

end

/-! ### It ends -/

/-- One question is answered. -/
def Sub (p' p : Proc) : Prop := ∃ q k a, p = .asks q k ∧ p' = k a

theorem sub_wf : WellFounded Sub := by
  refine ⟨fun p => ?_⟩
  induction p with
  | over o => exact ⟨_, fun p' ⟨q, k, a, h, _⟩ => by cases h⟩
  | asks q k ih =>
    refine ⟨_, ?_⟩
    rintro p' ⟨q', k', a, h, rfl⟩
    cases h
    exact ih a

/-- **C85.** The two cannot go on for ever, whatever the nodes say. -/
theorem C85_ends (ok : (q : Query) → Ans q → Prop) : WellFounded fun s' s : State => Step ok s s' := by
  have h := InvImage.wf (fun s : State => (s.alice.proc, s.bob.proc)) (WellFounded.prod_lex sub_wf sub_wf)
  refine Subrelation.wf (fun {s' s} hs => ?_) h
  cases hs with
  | alice q k a => exact .left _ _ ⟨q, k, a, rfl, rfl⟩
  | bob q k a => exact .right _ ⟨q, k, a, rfl, rfl⟩

/-- **C85.** No deadlock: as long as one has not ended, something can happen, even if the nodes only fail. -/
theorem C85_goes (ok : (q : Query) → Ans q → Prop) (hok : ∀ q e, ok q (.error e)) (s : State) :
    (∃ s', Step ok s s') ↔ ¬ ∃ o o', s.alice.proc = .over o ∧ s.bob.proc = .over o' := by
  constructor
  · rintro ⟨s', hs⟩ ⟨o, o', h1, h2⟩
    cases hs
    · cases h1
    · cases h2
  · intro h
    obtain ⟨⟨p, t, l⟩, ⟨p', t', l'⟩⟩ := s
    have key : ∀ (l : List Msg) (q : Query), Answers l q (.error .other) l [] := by
      intro l q
      cases q <;> first | exact .notSent .. | exact .notReceived .. | exact .node _ _ _ rfl
    cases p with
    | asks q k => exact ⟨_, .alice q k _ t l _ _ _ (key l q) (hok q _)⟩
    | over o =>
      cases p' with
      | asks q k => exact ⟨_, .bob q k _ t' l' _ _ _ (key l' q) (hok q _)⟩
      | over o' => exact absurd ⟨o, o', rfl, rfl⟩ h

end Verif.AssetPair
