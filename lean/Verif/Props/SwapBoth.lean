import Verif.Spec.SwapBoth
import Verif.Props.SwapRun
/-
C87: whoever has claimed does not take back.
-/
namespace Verif.SwapRun
open Verif Spec CrossSwap SwapSpend SwapBtc

variable {w : Environment} {may : List Event → Query → Prop} {G F : End → Option Prog → List Event → Prop} {l : Option Prog} {t : List Event}

theorem split_at {α : Type} {P : α → Prop} {a b pre post : List α} {x y : α} (h : a ++ x :: b = pre ++ y :: post) (hy : P y)
    (ha : ∀ z ∈ a, ¬ P z) (hb : ∀ z ∈ b, ¬ P z) : pre = a ∧ x = y ∧ post = b := by
  induction a generalizing pre with
  | nil =>
    cases pre with
    | nil =>
      cases h
      exact ⟨rfl, rfl, rfl⟩
    | cons z pre =>
      cases h
      exact absurd hy (hb y (by simp))
  | cons z a ih =>
    cases pre with
    | nil =>
      cases h
      exact absurd hy (ha _ (by simp))
    | cons z' pre =>
      injection h with h0 h
      subst h0
      obtain ⟨h1, h2, h3⟩ := ih h fun z hz => ha z (List.mem_cons_of_mem _ hz)
      exact ⟨by rw [h1], h2, h3⟩

/-- `obeys_waitConfirm`, with what the node has not said. -/
theorem obeys_waitShort {c : Chain} {txid : Bytes} {num : Int} {next : Prog} (hm : ∀ ext, OnlyTx c txid ext → may (t ++ ext) (.tx c txid))
    (hF : ∀ e ext, e ≠ .finished → OnlyTx c txid ext → ¬ Confirmed ext c txid num → F e l (t ++ ext))
    (hk : ∀ ext, OnlyTx c txid ext → Obeys w may G next F l (t ++ ext)) (n : Nat) :
    Obeys w may G (waitConfirm c txid num n next) F l t := by
  suffices ∀ n ext, OnlyTx c txid ext → ¬ Confirmed ext c txid num → Obeys w may G (waitConfirm c txid num n next) F l (t ++ ext) by
    simpa using this n [] (by intro e h; cases h) (by rintro ⟨i, h, -⟩; cases h)
  intro n
  induction n with
  | zero => exact fun ext h hn => hF _ _ (by simp) h hn
  | succ n ih =>
    intro ext h hn
    refine ⟨hm _ h, ?_⟩
    have h' : ∀ a, OnlyTx c txid (ext ++ [.did (.tx c txid) a]) := by
      intro a e he
      rcases List.mem_append.1 he with he | he
      · exact h e he
      · exact ⟨a, by simpa using he⟩
    have hn' : ∀ a, (∀ i : Info, a = .ok i → i.confirmations.getD 0 < num) → ¬ Confirmed (ext ++ [.did (.tx c txid) a]) c txid num := by
      rintro a ha ⟨i, hi, m, hc, hl⟩
      rcases List.mem_append.1 hi with hi | hi
      · exact hn ⟨i, hi, m, hc, hl⟩
      · cases List.mem_singleton.1 hi
        have := ha i rfl
        rw [hc] at this
        simp at this
        omega
    rw [List.append_assoc]
    cases hw : w (t ++ ext) (.tx c txid) with
    | ok i =>
      dsimp only
      split
      · exact hk _ (h' _)
      · rename_i hc
        refine ih _ (h' _) (hn' _ ?_)
        intro i' hi
        cases hi
        omega
    | error e =>
      cases e with
      | rpc => exact ih _ (h' _) (hn' _ (by intro i hi; cases hi))
      | other => exact hF _ _ (by simp) (h' _) (hn' _ (by intro i hi; cases hi))

/-- A claim of Bob. -/
def isClaim : Event → Bool
  | .did (.sendElt _) _ => true
  | _ => false

/-- A claim of Alice. -/
def isClaimBtc : Event → Bool
  | .did (.sendBtc _) _ => true
  | _ => false

/-- Nothing was claimed so far. -/
structure Before (p : Event → Bool) (t : List Event) : Prop where
  claim : ∀ e ∈ t, p e = false
  wish : Event.wished ∉ t

theorem Before.nil (p : Event → Bool) : Before p [] := ⟨(by intro e h; cases h), (by intro h; cases h)⟩

theorem Before.more {p : Event → Bool} (h : Before p t) {ext : List Event} (h2 : Before p ext) : Before p (t ++ ext) where
  claim e he := (List.mem_append.1 he).elim (h.claim e) (h2.claim e)
  wish hw := (List.mem_append.1 hw).elim h.wish h2.wish

theorem Before.one {p : Event → Bool} (h : Before p t) {q : Query} {a : Ans q} (ha : p (.did q a) = false) : Before p (t ++ [.did q a]) :=
  h.more ⟨fun e he => by rw [List.mem_singleton.1 he]; exact ha, fun hw => by cases List.mem_singleton.1 hw⟩

theorem OnlyTx.before {p : Event → Bool} (hp : ∀ c x a, p (.did (.tx c x) a) = false) {c : Chain} {txid : Bytes} {ext : List Event}
    (h : OnlyTx c txid ext) : Before p ext where
  claim e he := by
    obtain ⟨a, rfl⟩ := h e he
    exact hp _ _ _
  wish hw := by
    obtain ⟨a, ha⟩ := h _ hw
    cases ha

theorem OnlyLook.before {p : Event → Bool} (hp : ∀ x a, p (.did (.look x) a) = false) {txid : Bytes} {ext : List Event}
    (h : OnlyLook txid ext) : Before p ext where
  claim e he := by
    obtain ⟨a, rfl⟩ := h e he
    exact hp _ _
  wish hw := by
    obtain ⟨a, ha⟩ := h _ hw
    cases ha

/-! ### Bob -/

/-- When Bob may claim, and ask about the claim. -/
def BobAsks (t : List Event) : Query → Prop
  | .sendElt _ | .tx .elt _ => Event.wished ∉ t
  | .sendBtc _ => Event.wished ∈ t
  | _ => True

def BobStops (e : End) (_ : Option Prog) (t : List Event) : Prop := e = .finished ∨ ¬ BobClaimed t

theorem Before.bob (h : Before isClaim t) : ¬ BobClaimed t := by
  rintro ⟨pre, c, id, post, rfl, -⟩
  exact Bool.noConfusion (h.claim (.did (.sendElt c) (.ok id)) (by simp))

theorem Before.stop {e : End} (h : Before isClaim t) : BobStops e l t := .inr h.bob

theorem bobWish_asks {K : Kit} {b : Bob} {x : BobBtc} {txid : Bytes} (hw : Event.wished ∈ t) : Obeys w BobAsks Any (bobWish K b x txid) Any none t := by
  refine obeys_call trivial (fun _ => trivial) fun _ => ?_
  refine obeys_waitTimeout (fun _ => trivial) (fun _ _ _ _ => trivial) (fun ext i _ hi hc => ?_) _
  refine obeys_compute trivial trivial fun r hr => ?_
  refine obeys_call (by simp [BobAsks, hw]) (fun _ => trivial) fun id => ?_
  refine obeys_waitShort (next := .finish) (fun _ _ => trivial) (fun _ _ _ _ _ => trivial) (fun _ _ => ?_) _
  exact trivial

theorem bobTold_asks {K : Kit} {b : Bob} {txid : Bytes} (h : Before isClaim t) : Obeys w BobAsks Any (bobTold K b txid) BobStops l t := by
  unfold bobTold
  refine obeys_compute h.stop h.stop fun _ _ => ?_
  refine obeys_call h.wish (fun _ => (h.one rfl).stop) fun (i : Info) => ?_
  have h := h.one (q := .tx .elt txid) (a := .ok i) rfl
  split
  · exact h.stop
  · split
    · exact h.stop
    · refine obeys_compute h.stop h.stop fun _ _ => ?_
      refine obeys_compute h.stop h.stop fun c _ => ?_
      refine obeys_call h.wish (fun e => .inr ?_) fun id => ?_
      · rintro ⟨pre, c', id, post, e, hc⟩
        obtain ⟨-, h1, -⟩ := split_at (P := fun z => isClaim z = true) e rfl (fun z hz => by simp [h.claim z hz]) (by simp)
        cases h1
      · refine obeys_waitShort (next := .finish) (fun ext hx => ?_) (fun e ext _ hx hn => .inr ?_) (fun ext hx => .inl rfl) _
        · intro hw
          rcases List.mem_append.1 hw with hw | hw
          · rcases List.mem_append.1 hw with hw | hw
            · exact h.wish hw
            · cases List.mem_singleton.1 hw
          · exact (hx.before (p := isClaim) (fun _ _ _ => rfl)).wish hw
        · rintro ⟨pre, c', id', post, e, hc⟩
          rw [List.append_assoc, List.singleton_append] at e
          obtain ⟨-, h1, h2⟩ := split_at (P := fun z => isClaim z = true) e rfl (fun z hz => by simp [h.claim z hz])
            (fun z hz => by simp [(hx.before (p := isClaim) (fun _ _ _ => rfl)).claim z hz])
          cases h1
          rw [h2] at hc
          exact hn hc

theorem bob_asks {K : Kit} {o : BobOwn} : Obeys w BobAsks Any (bob K o) BobStops none [] := by
  have h := Before.nil isClaim
  refine obeys_recv trivial (fun _ _ _ => (h.one rfl).stop) fun d => ?_
  have h := h.one (q := .recv) (a := .ok (some ⟨.pubkeys, d⟩)) rfl
  split
  · refine obeys_recv trivial (fun _ _ _ => (h.one rfl).stop) fun d => ?_
    have h := h.one (q := .recv) (a := .ok (some ⟨.blindingKey, d⟩)) rfl
    split
    · rename_i bk
      unfold bobKeys
      split
      · exact h.stop
      · refine obeys_compute h.stop h.stop fun _ _ => ?_
        refine obeys_call trivial (fun _ => (h.one rfl).stop) fun _ => ?_
        have h := h.one (q := .send ⟨.pubkeys, [K.E.z.pubOf o.contractKey, K.E.z.pubOf o.spendKey, K.E.z.pubOf o.exitKey]⟩) (a := .ok ()) rfl
        refine obeys_compute h.stop h.stop fun c _ => ?_
        refine obeys_call trivial (fun _ => (h.one rfl).stop) fun txid => ?_
        have h := h.one (q := .payBtc (p2wsh K.B c) agreed) (a := .ok txid) rfl
        refine ⟨fun _ => bobWish_asks (by simp), ?_⟩
        refine obeys_waitShort (fun _ _ => trivial) (fun _ ext _ hx _ => (h.more (hx.before fun _ _ _ => rfl)).stop) (fun ext hx => ?_) _
        have h := h.more (hx.before fun _ _ _ => rfl)
        refine obeys_call trivial (fun _ => (h.one rfl).stop) fun _ => ?_
        have h := h.one (q := .send ⟨.btcTxid, [txid]⟩) (a := .ok ()) rfl
        refine obeys_recv trivial (fun _ _ _ => (h.one rfl).stop) fun d => ?_
        have h := h.one (q := .recv) (a := .ok (some ⟨.eltTxid, d⟩)) rfl
        split
        · exact bobTold_asks h
        · exact h.stop (l := none)
    · exact h.stop
  · exact h.stop

/-! ### Alice -/

/-- When Alice may claim, and ask about the claim. -/
def AliceAsks (t : List Event) : Query → Prop
  | .sendBtc _ | .tx .btc _ => Event.wished ∉ t
  | .sendElt _ => Event.wished ∈ t
  | _ => True

def AliceStops (e : End) (_ : Option Prog) (t : List Event) : Prop := e = .finished ∨ ¬ AliceClaimed t

theorem Before.alice (h : Before isClaimBtc t) : ¬ AliceClaimed t := by
  rintro ⟨pre, c, id, post, rfl, -⟩
  exact Bool.noConfusion (h.claim (.did (.sendBtc c) (.ok id)) (by simp))

theorem Before.stopAlice {e : End} (h : Before isClaimBtc t) : AliceStops e l t := .inr h.alice

theorem aliceWish_asks {K : Kit} {a : Alice} {txid : Bytes} (hw : Event.wished ∈ t) : Obeys w AliceAsks Any (aliceWish K a txid) Any none t := by
  refine obeys_call trivial (fun _ => trivial) fun _ => ?_
  refine obeys_waitTimeout (fun _ => trivial) (fun _ _ _ _ => trivial) (fun ext i _ hi hc => ?_) _
  refine obeys_compute trivial trivial fun _ _ => ?_
  refine obeys_compute trivial trivial fun r hr => ?_
  refine obeys_call (by simp [AliceAsks, hw]) (fun _ => trivial) fun id => ?_
  refine obeys_waitShort (next := .finish) (fun _ _ => trivial) (fun _ _ _ _ _ => trivial) (fun _ _ => ?_) _
  exact trivial

theorem alicePaid_asks {K : Kit} {a : Alice} {x : AliceBtc} {btcTxid txid : Bytes} {n : Nat} (h : Before isClaimBtc t) :
    Obeys w AliceAsks Any (alicePaid K a x btcTxid n txid) AliceStops l t := by
  refine ⟨fun _ => aliceWish_asks (by simp), ?_⟩
  refine obeys_waitShort (fun _ _ => trivial) (fun _ ext _ hx _ => (h.more (hx.before fun _ _ _ => rfl)).stopAlice) (fun ext hx => ?_) _
  have h := h.more (hx.before fun _ _ _ => rfl)
  refine obeys_call trivial (fun _ => (h.one rfl).stopAlice) fun _ => ?_
  have h := h.one (q := .send ⟨.eltTxid, [txid]⟩) (a := .ok ()) rfl
  refine obeys_waitReveal (fun _ => trivial) (fun _ ext _ hx => (h.more (hx.before fun _ _ => rfl)).stopAlice) (fun ext sr hx => ?_) _ _
  have h := h.more (hx.before fun _ _ => rfl)
  refine obeys_call trivial (fun _ => (h.one rfl).stopAlice) fun (i : Info) => ?_
  have h := h.one (q := .tx .elt sr) (a := .ok i) rfl
  refine obeys_waitShort (fun _ _ => trivial) (fun _ ext _ hx _ => (h.more (hx.before fun _ _ _ => rfl)).stopAlice) (fun ext hx => ?_) _
  have h := h.more (hx.before fun _ _ _ => rfl)
  refine obeys_compute h.stopAlice h.stopAlice fun _ _ => ?_
  refine obeys_compute h.stopAlice h.stopAlice fun c _ => ?_
  refine obeys_call h.wish (fun e => .inr ?_) fun id => ?_
  · rintro ⟨pre, c', id, post, e, hc⟩
    obtain ⟨-, h1, -⟩ := split_at (P := fun z => isClaimBtc z = true) e rfl (fun z hz => by simp [h.claim z hz]) (by simp)
    cases h1
  · refine obeys_waitShort (next := .finish) (fun ext hx => ?_) (fun e ext _ hx hn => .inr ?_) (fun ext hx => .inl rfl) _
    · intro hw
      rcases List.mem_append.1 hw with hw | hw
      · rcases List.mem_append.1 hw with hw | hw
        · exact h.wish hw
        · cases List.mem_singleton.1 hw
      · exact (hx.before (p := isClaimBtc) (fun _ _ _ => rfl)).wish hw
    · rintro ⟨pre, c', id', post, e, hc⟩
      rw [List.append_assoc _ [_], List.singleton_append] at e
      obtain ⟨-, h1, h2⟩ := split_at (P := fun z => isClaimBtc z = true) e rfl (fun z hz => by simp [h.claim z hz])
        (fun z hz => by simp [(hx.before (p := isClaimBtc) (fun _ _ _ => rfl)).claim z hz])
      cases h1
      rw [h2] at hc
      exact hn hc

theorem alice_asks {K : Kit} {o : AliceOwn} : Obeys w AliceAsks Any (alice K o) AliceStops none [] := by
  have h := Before.nil isClaimBtc
  refine obeys_call trivial (fun _ => (h.one rfl).stopAlice) fun _ => ?_
  have h := h.one (q := .send ⟨.pubkeys, [K.E.z.pubOf o.btcKey, K.E.z.pubOf o.exitKey]⟩) (a := .ok ()) rfl
  refine obeys_call trivial (fun _ => (h.one rfl).stopAlice) fun _ => ?_
  have h := h.one (q := .send ⟨.blindingKey, [o.blindingKey]⟩) (a := .ok ()) rfl
  refine obeys_recv trivial (fun _ _ _ => (h.one rfl).stopAlice) fun d => ?_
  have h := h.one (q := .recv) (a := .ok (some ⟨.pubkeys, d⟩)) rfl
  split
  · unfold aliceKeys
    refine obeys_compute h.stopAlice h.stopAlice fun contract _ => ?_
    refine obeys_recv trivial (fun _ _ _ => (h.one rfl).stopAlice) fun d => ?_
    have h := h.one (q := .recv) (a := .ok (some ⟨.btcTxid, d⟩)) rfl
    split
    · rename_i btcTxid
      unfold aliceTold
      refine obeys_compute h.stopAlice h.stopAlice fun _ _ => ?_
      refine obeys_call h.wish (fun _ => (h.one rfl).stopAlice) fun (i : Info) => ?_
      have h := h.one (q := .tx .btc btcTxid) (a := .ok i) rfl
      split
      · exact h.stopAlice
      · split
        · exact h.stopAlice
        · refine obeys_compute h.stopAlice h.stopAlice fun _ _ => ?_
          refine obeys_compute h.stopAlice h.stopAlice fun n _ => ?_
          refine obeys_call trivial (fun _ => (h.one rfl).stopAlice) fun txid => ?_
          exact alicePaid_asks (h.one rfl)
    · exact h.stopAlice
  · exact h.stopAlice

/-! ### Together with the last wish -/

/-- If the function has ended otherwise and the trace goes on with `ext`, something asked without the last wish was asked by the function. -/
theorem before_wish {F : End → Option Prog → List Event → Prop} {r : Over × List Event} {e : End} {ext : List Event} (h : Ended w F r e l t ext)
    {P s : List Event} {x : Event} (hr : r.2 = P ++ x :: s) (hw : Event.wished ∉ P) (hx : ∀ a, x ≠ .did (.send ⟨.bye, []⟩) a) (hx' : x ≠ .wished) :
    P ++ [x] <+: t := by
  have h1 : P ++ [x] <+: t ++ ext := ⟨s, by rw [← h.trace, hr]; simp⟩
  have h2 : t <+: t ++ ext := List.prefix_append _ _
  rcases Nat.le_total (P ++ [x]).length t.length with hle | hle
  · exact List.prefix_of_prefix_length_le h1 h2 hle
  · obtain ⟨u, hu⟩ := List.prefix_of_prefix_length_le h2 h1 hle
    cases u with
    | nil =>
      rw [List.append_nil] at hu
      rw [hu]
    | cons y u =>
      exfalso
      have hu2 : y :: u <+: ext := by
        rw [← hu] at h1
        exact (List.prefix_append_right_inj t).1 h1
      have hxe : x ∈ ext := hu2.subset (by
        rcases List.eq_nil_or_concat (y :: u) with hn | ⟨u', z, hn⟩
        · cases hn
        · rw [hn, List.concat_eq_append, ← List.append_assoc] at hu
          obtain ⟨-, hz⟩ := List.append_inj' hu rfl
          cases hz
          rw [hn]
          simp)
      have hym : y ∈ P ++ [x] := by rw [← hu]; simp
      by_cases hf : e = .finished
      · rw [h.still hf] at hxe
        cases hxe
      · by_cases hwt : e = .waiting
        · rw [h.idle hwt] at hxe
          cases hxe
        · cases hl : l with
          | none =>
            obtain ⟨b, hb⟩ := h.bye hl x hxe
            exact hx b hb
          | some p =>
            subst hl
            have h3 := (h.ran hf hwt).1
            rw [h.trace] at h3
            have h4 : t ++ [.wished] <+: t ++ ext := by
              refine List.IsPrefix.trans ?_ h3
              exact exec_prefix _ _ _
            have h5 := (List.prefix_append_right_inj t).1 h4
            obtain ⟨v, hv⟩ := h5
            rw [← hv] at hu2
            obtain ⟨v', hv'⟩ := hu2
            cases hv'
            rcases List.mem_append.1 hym with hm | hm
            · exact hw hm
            · exact hx' (List.mem_singleton.1 hm).symm

section
variable {K : Kit} {o : AliceOwn} {ob : BobOwn}

/-- **C87.** Bob claims before taking back, if at all. -/
theorem C87_bob_order {pre post : List Event} {c : BtcTx} {a : Ans (.sendBtc c)} (h : (participant w (bob K ob)).2 = pre ++ Event.did (.sendBtc c) a :: post)
    (c' : Tx) (a' : Ans (.sendElt c')) : Event.did (.sendElt c') a' ∉ post := by
  intro hm
  have hal := (participant_obeys (w := w) (bob_asks (K := K) (o := ob)) fun _ => trivial).1
  have h1 : Event.wished ∈ pre := hal pre _ _ _ h (by omega)
  obtain ⟨p1, p2, rfl⟩ := List.append_of_mem hm
  have h2 : Event.wished ∉ pre ++ Event.did (.sendBtc c) a :: p1 := hal _ (.sendElt c') a' p2 (by rw [h]; simp) (by omega)
  exact h2 (by simp [h1])

/-- **C87.** Alice claims before taking back, if at all. -/
theorem C87_alice_order {pre post : List Event} {c : Tx} {a : Ans (.sendElt c)} (h : (participant w (alice K o)).2 = pre ++ Event.did (.sendElt c) a :: post)
    (c' : BtcTx) (a' : Ans (.sendBtc c')) : Event.did (.sendBtc c') a' ∉ post := by
  intro hm
  have hal := (participant_obeys (w := w) (alice_asks (K := K) (o := o)) fun _ => trivial).1
  have h1 : Event.wished ∈ pre := hal pre _ _ _ h (by omega)
  obtain ⟨p1, p2, rfl⟩ := List.append_of_mem hm
  have h2 : Event.wished ∉ pre ++ Event.did (.sendElt c) a :: p1 := hal _ (.sendBtc c') a' p2 (by rw [h]; simp) (by omega)
  exact h2 (by simp [h1])

/-- Bob takes nothing back once a claim with `claimed` was made. -/
def C87_bob (claimed : List Event → Prop) : Prop :=
  ∀ (K : Kit) (ob : BobOwn) (w : Environment), Fit K ob.dst → let r := participant w (bob K ob)
    claimed r.2 → ∀ c a, Event.did (.sendBtc c) a ∉ r.2

/-- Alice takes nothing back once a claim with `claimed` was made. -/
def C87_alice (claimed : List Event → Prop) : Prop :=
  ∀ (K : Kit) (o : AliceOwn) (w : Environment), Fit K o.dst → let r := participant w (alice K o)
    claimed r.2 → ∀ c a, Event.did (.sendElt c) a ∉ r.2

/-- **C87**, in full: whoever has claimed, and whose claim was accepted, does not take back. -/
def C87_statement : Prop := C87_bob (fun t => ∃ c id, Answered t (.sendElt c) id) ∧ C87_alice (fun t => ∃ c id, Answered t (.sendBtc c) id)

/-- When the claim is confirmed Bob is done. -/
theorem C87_bob_done (h : BobClaimed (participant w (bob K ob)).2) : (participant w (bob K ob)).1 = .done ∧ Event.wished ∉ (participant w (bob K ob)).2 := by
  obtain ⟨hal, e, l, t, ext, hE⟩ := participant_obeys (w := w) (bob_asks (K := K) (o := ob)) fun _ => trivial
  obtain ⟨pre, c, id, post, hr, i, hi, m, hc, hm⟩ := h
  obtain ⟨p1, p2, rfl⟩ := List.append_of_mem hi
  have hr' : (participant w (bob K ob)).2 = (pre ++ Event.did (.sendElt c) (.ok id) :: p1) ++ Event.did (.tx .elt id) (.ok i) :: p2 := by rw [hr]; simp
  have hw : Event.wished ∉ pre ++ Event.did (.sendElt c) (.ok id) :: p1 := hal _ (.tx .elt id) _ _ hr' (by omega)
  obtain ⟨s, hs⟩ := before_wish hE hr' hw (by intro a h; cases h) (by intro h; cases h)
  have hf : e = .finished := hE.holds.resolve_right (not_not.2 ⟨pre, c, id, p1 ++ Event.did (.tx .elt id) (.ok i) :: s, by rw [← hs]; simp, i, by simp [Answered], m, hc, hm⟩)
  refine ⟨hE.done.1 hf, ?_⟩
  rw [hE.trace, hE.still hf, List.append_nil]
  exact hE.before

/-- When the claim is confirmed Alice is done. -/
theorem C87_alice_done (h : AliceClaimed (participant w (alice K o)).2) :
    (participant w (alice K o)).1 = .done ∧ Event.wished ∉ (participant w (alice K o)).2 := by
  obtain ⟨hal, e, l, t, ext, hE⟩ := participant_obeys (w := w) (alice_asks (K := K) (o := o)) fun _ => trivial
  obtain ⟨pre, c, id, post, hr, i, hi, m, hc, hm⟩ := h
  obtain ⟨p1, p2, rfl⟩ := List.append_of_mem hi
  have hr' : (participant w (alice K o)).2 = (pre ++ Event.did (.sendBtc c) (.ok id) :: p1) ++ Event.did (.tx .btc id) (.ok i) :: p2 := by rw [hr]; simp
  have hw : Event.wished ∉ pre ++ Event.did (.sendBtc c) (.ok id) :: p1 := hal _ (.tx .btc id) _ _ hr' (by omega)
  obtain ⟨s, hs⟩ := before_wish hE hr' hw (by intro a h; cases h) (by intro h; cases h)
  have hf : e = .finished := hE.holds.resolve_right (not_not.2 ⟨pre, c, id, p1 ++ Event.did (.tx .btc id) (.ok i) :: s, by rw [← hs]; simp, i, by simp [Answered], m, hc, hm⟩)
  refine ⟨hE.done.1 hf, ?_⟩
  rw [hE.trace, hE.still hf, List.append_nil]
  exact hE.before

/-- **C87 (partial).** Missing: a claim that was accepted but that the node does not say is confirmed, sixty times, or about which it fails.
See `C87_statement_false`. -/
theorem C87_bob_partial : C87_bob BobClaimed := by
  intro K ob w _ r h c a hm
  obtain ⟨pre, post, e⟩ := List.append_of_mem hm
  have hw : Event.wished ∈ pre := (participant_obeys (w := w) (bob_asks (K := K) (o := ob)) fun _ => trivial).1 pre _ _ _ e (by omega)
  exact (C87_bob_done h).2 (by rw [e]; simp [hw])

/-- **C87 (partial).** The same for Alice. -/
theorem C87_alice_partial : C87_alice AliceClaimed := by
  intro K o w _ r h c a hm
  obtain ⟨pre, post, e⟩ := List.append_of_mem hm
  have hw : Event.wished ∈ pre := (participant_obeys (w := w) (alice_asks (K := K) (o := o)) fun _ => trivial).1 pre _ _ _ e (by omega)
  exact (C87_alice_done h).2 (by rw [e]; simp [hw])

end

end Verif.SwapRun
