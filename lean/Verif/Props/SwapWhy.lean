import Verif.Props.SwapRun
/-
C79: why the participants of the cross-chain swap give up.
-/
namespace Verif.SwapRun
open Verif Spec CrossSwap SwapSpend SwapBtc

variable {w : Environment} {F : End → Option Prog → List Event → Prop} {l : Option Prog} {t : List Event}

abbrev Free : List Event → Query → Prop := fun _ _ => True

theorem obeys_any : ∀ (p : Prog) (l : Option Prog) (t : List Event), Obeys w Free Any p Any l t
  | .finish, _, _ | .raise, _, _ | .die _, _, _ | .waiting, _, _ => trivial
  | .wish p k, _, t => ⟨fun _ => obeys_any p none _, obeys_any k _ t⟩
  | .ask q k, l, t => ⟨trivial, obeys_any (k (w t q)) l _⟩

theorem why_wish {p k : Prog} (h : Obeys w Free Any k F (some p) t) : Obeys w Free Any (.wish p k) F l t := ⟨fun _ => obeys_any _ _ _, h⟩

theorem why_call {q : Query} {k : Val q → Prog} (he : ∀ e, F .raised l (t ++ [.did q (.error e)]))
    (hk : ∀ a, Obeys w Free Any (k a) F l (t ++ [.did q (.ok a)])) : Obeys w Free Any (call q k) F l t := obeys_call trivial he hk

theorem why_compute {α : Type} {c : Except CrossSwap.Stop α} {k : α → Prog} (he : ∀ e x, c = .error x → e ≠ .finished → F e l t)
    (hk : ∀ a, c = .ok a → Obeys w Free Any (k a) F l t) : Obeys w Free Any (compute c k) F l t := by
  cases c with
  | ok a => exact hk a rfl
  | error e =>
    cases e with
    | die => exact he _ _ rfl (by simp)
    | raise e => exact he _ _ rfl (by simp)

theorem why_recv {kind : Kind} {k : List Bytes → Prog} (hb : kind ≠ .bye) (he : ∀ e, F .raised l (t ++ [.did .recv (.error e)]))
    (hn : F (.died false) l (t ++ [.did .recv (.ok none)]))
    (hm : ∀ e m, e ≠ .finished → m.kind ≠ kind → F e l (t ++ [.did .recv (.ok (some m))]))
    (hk : ∀ d, Obeys w Free Any (k d) F l (t ++ [.did .recv (.ok (some (⟨kind, d⟩ : Msg)))])) : Obeys w Free Any (recv kind k) F l t := by
  refine obeys_call trivial he fun a => ?_
  cases a with
  | none => exact hn
  | some m =>
    obtain ⟨mk, md⟩ := m
    dsimp only
    split
    · rename_i h
      exact hm _ _ (by simp) (by simp only; rw [h]; exact hb.symm)
    · split
      · rename_i h
        exact hm _ _ (by simp) h
      · rename_i h
        simp only [ne_eq, not_not] at h
        subst h
        exact hk md

/-- No answer was enough. -/
def Short (c : Chain) (txid : Bytes) (n : Int) (ext : List Event) : Prop :=
  ∀ e ∈ ext, e = .did (.tx c txid) (.error .rpc) ∨ ∃ i : Info, e = .did (.tx c txid) (.ok i) ∧ ∀ m, i.confirmations = some m → m < n

theorem why_waitConfirm {c : Chain} {txid : Bytes} {num : Int} {next : Prog} (h0 : 0 < num) (n : Nat)
    (hd : ∀ ext, ext.length = n → Short c txid num ext → F (.died false) l (t ++ ext))
    (he : ∀ pre, F .raised l (t ++ pre ++ [.did (.tx c txid) (.error .other)]))
    (hk : ∀ ext, OnlyTx c txid ext → Confirmed ext c txid num → Obeys w Free Any next F l (t ++ ext)) :
    Obeys w Free Any (waitConfirm c txid num n next) F l t := by
  suffices ∀ k ext, ext.length + k = n → Short c txid num ext → Obeys w Free Any (waitConfirm c txid num k next) F l (t ++ ext) by
    simpa using this n [] (by simp) (by intro e h; cases h)
  intro k
  induction k with
  | zero => exact fun ext hl h => hd ext (by simpa using hl) h
  | succ k ih =>
    intro ext hl h
    refine ⟨trivial, ?_⟩
    have hs : ∀ e, (e = .did (.tx c txid) (.error .rpc) ∨ ∃ i : Info, e = .did (.tx c txid) (.ok i) ∧ ∀ m, i.confirmations = some m → m < num) →
        Short c txid num (ext ++ [e]) := by
      intro e he x hx
      rcases List.mem_append.1 hx with hx | hx
      · exact h x hx
      · rw [List.mem_singleton.1 hx]; exact he
    cases hw : w (t ++ ext) (.tx c txid) with
    | ok i =>
      dsimp only
      split
      · rename_i hc
        rw [List.append_assoc]
        refine hk _ ?_ ⟨i, by simp [Answered], ?_⟩
        · intro x hx
          rcases List.mem_append.1 hx with hx | hx
          · rcases h x hx with h | ⟨j, h, -⟩
            · exact ⟨_, h⟩
            · exact ⟨_, h⟩
          · exact ⟨_, List.mem_singleton.1 hx⟩
        · revert hc
          cases (i : Info).confirmations with
          | none => intro hc; simp at hc; omega
          | some m => exact fun hc => ⟨m, rfl, hc⟩
      · rename_i hc
        rw [List.append_assoc]
        refine ih _ (by simp; omega) (hs _ (.inr ⟨i, rfl, fun m hm => ?_⟩))
        rw [hm] at hc
        simp at hc
        exact hc
    | error e =>
      cases e with
      | rpc =>
        dsimp only
        rw [List.append_assoc]
        exact ih _ (by simp; omega) (hs _ (.inl rfl))
      | other => exact he ext

theorem why_waitReveal {txid : Bytes} {next : Bytes → Prog} (hw : ∀ ext, F .waiting l (t ++ ext))
    (he : ∀ pre e, F .raised l (t ++ pre ++ [.did (.look txid) (.error e)]))
    (hd : ∀ pre (v : SwapWatch.View), v.confirmations > elementsTimeout → F (.died true) l (t ++ pre ++ [.did (.look txid) (.ok v)]))
    (hk : ∀ ext id, OnlyLook txid ext → Obeys w Free Any (next id) F l (t ++ ext)) (n : Nat) (cur : Option Bytes) :
    Obeys w Free Any (waitReveal txid cur n next) F l t := by
  suffices ∀ n ext cur, OnlyLook txid ext → Obeys w Free Any (waitReveal txid cur n next) F l (t ++ ext) by
    simpa using this n [] cur (by intro e h; cases h)
  intro n
  induction n with
  | zero => exact fun ext cur _ => hw ext
  | succ n ih =>
    intro ext cur h
    have h' : ∀ a, OnlyLook txid (ext ++ [.did (.look txid) a]) := by
      intro a e he
      rcases List.mem_append.1 he with he | he
      · exact h e he
      · exact ⟨a, by simpa using he⟩
    refine obeys_call trivial (fun e => he ext e) fun (v : SwapWatch.View) => ?_
    split
    · rw [List.append_assoc]; exact hk _ _ (h' _)
    · rename_i hp
      refine hd ext v ?_
      unfold SwapWatch.pass at hp
      by_contra hn
      rw [if_neg hn] at hp
      split at hp
      · cases hp
      · split at hp
        · cases hp
        · split at hp <;> cases hp
    · rw [List.append_assoc]; exact ih _ _ (h' _)

/-! ### Alice -/

variable {K : Kit} {o : AliceOwn}

/-- The function returns, goes on, or there is a reason. -/
def AliceWhy (K : Kit) (o : AliceOwn) (e : End) (_ : Option Prog) (t : List Event) : Prop := e = .finished ∨ e = .waiting ∨ AliceGivesUp K o t

theorem alicePaid_why {cp bp xp btcTxid txid : Bytes} {n : Nat}
    (hr : Received t .pubkeys [cp, bp, xp]) (hb : BobsDeposit K o t cp xp btcTxid n) (hp : AlicePaid K o t cp bp txid) :
    Obeys w Free Any (alicePaid K ⟨o.exitKey, o.blindingKey, cp, bp, o.dst, o.dummy, o.rand⟩ ⟨o.btcKey, xp, o.btcDst⟩ btcTxid n txid)
      (AliceWhy K o) l t := by
  have fail : ∀ {l pre q e}, AliceWhy K o .raised l (pre ++ [.did q (.error e)]) := .inr (.inr (.failed _ _ _ rfl))
  refine why_wish ?_
  refine why_waitConfirm (by omega) _ (fun ext h1 h2 => .inr (.inr (.unconfirmed txid (.inl ⟨t, ext, rfl, h1, h2⟩)))) (fun _ => fail) (fun ext1 _ _ => ?_)
  refine why_call (fun _ => fail) fun _ => ?_
  refine why_waitReveal (fun _ => .inr (.inl rfl)) (fun _ _ => fail) (fun pre v hv => .inr (.inr (.late _ txid v rfl hv))) (fun ext2 sr _ => ?_) _ _
  refine why_call (fun _ => fail) fun (i : Info) => ?_
  refine why_waitConfirm (by omega) _ (fun ext h1 h2 => .inr (.inr (.unconfirmed sr (.inl ⟨_, ext, rfl, h1, h2⟩)))) (fun _ => fail) (fun ext3 _ hc => ?_)
  generalize hT : t ++ ext1 ++ [Event.did (.send ⟨.eltTxid, [txid]⟩) (.ok ())] ++ ext2 ++ [Event.did (.tx .elt sr) (.ok i)] ++ ext3 = T
  have sub : t ⊆ T := by rw [← hT]; simp
  have hno : ∀ {e l}, (¬ ∃ tx c, deserializeTx i.hex = .ok tx ∧ aliceClaim K.E K.W K.B ⟨o.exitKey, o.blindingKey, cp, bp, o.dst, o.dummy, o.rand⟩
      ⟨o.btcKey, xp, o.btcDst⟩ txid tx btcTxid n = .ok c) → AliceWhy K o e l T := fun h =>
    .inr (.inr (.claim cp bp xp txid btcTxid sr n i (hr.mono sub) (hb.mono sub) (hp.mono sub) (by rw [← hT]; simp [Answered])
      (hc.mono (by rw [← hT]; exact List.subset_append_right _ _)) h))
  refine why_compute (fun _ x hx _ => hno ?_) fun tx htx => ?_
  · rintro ⟨tx, -, h, -⟩
    rw [up_ok.2 h] at hx
    cases hx
  refine why_compute (fun _ x hx _ => hno ?_) fun c hc2 => ?_
  · rintro ⟨tx', c, h, h'⟩
    rw [up_ok.1 htx] at h
    cases h
    rw [h'] at hx
    cases hx
  refine why_call (fun _ => fail) fun id => ?_
  refine why_waitConfirm (by omega) _ (fun ext h1 h2 => .inr (.inr (.unconfirmed id (.inr ⟨_, ext, rfl, h1, h2⟩)))) (fun _ => fail) (fun _ _ _ => ?_)
  exact .inl rfl

theorem alice_why (hf : Fit K o.dst) : Obeys w Free Any (alice K o) (AliceWhy K o) none [] := by
  have fail : ∀ {l pre q e}, AliceWhy K o .raised l (pre ++ [.did q (.error e)]) := .inr (.inr (.failed _ _ _ rfl))
  have silent : ∀ {l e pre}, AliceWhy K o e l (pre ++ [.did .recv (.ok none)]) := .inr (.inr (.silence _ rfl))
  refine why_call (fun _ => fail) fun _ => ?_
  refine why_call (fun _ => fail) fun _ => ?_
  refine why_recv (by decide) (fun _ => fail) silent (fun e m _ hm => .inr (.inr (.message _ m rfl ?_))) fun d => ?_
  · rintro (⟨-, h, -⟩ | ⟨h, -⟩)
    · exact hm h
    · simp [waits] at h
  split
  · rename_i cp bp xp
    unfold aliceKeys
    refine why_compute (fun e x hx _ => .inr (.inr ?_)) fun contract hc => ?_
    · cases hp : K.W.addPubs cp (K.E.z.pubOf o.blindingKey) with
      | error e => exact .keys cp bp xp e (by simp [Received, Answered]) (.inl hp)
      | ok p =>
        by_cases hl : 520 < (eltContract K.W.r p bp (K.E.z.pubOf o.exitKey)).length
        · exact .long cp bp xp p (by simp [Received, Answered]) (.inl ⟨hp, hl⟩)
        · have : aliceContract K.E K.W ⟨o.exitKey, o.blindingKey, cp, bp, o.dst, o.dummy, o.rand⟩ = .ok _ :=
            exc_bind_ok.2 ⟨p, hp, redeemable_ok.2 ⟨Nat.not_lt.1 hl, rfl⟩⟩
          rw [up_ok.2 this] at hx
          cases hx
    refine why_recv (by decide) (fun _ => fail) silent (fun e m _ hm => .inr (.inr (.message _ m rfl ?_))) fun d => ?_
    · rintro (⟨h, -⟩ | ⟨-, h, -⟩)
      · simp [waits] at h
      · exact hm h
    split
    · rename_i btcTxid
      unfold aliceTold
      refine why_compute (fun e x hx _ => .inr (.inr ?_)) fun _ hc2 => ?_
      · unfold aliceBtcContract at hx
        cases hp : K.W.addPubs cp (K.E.z.pubOf o.btcKey) with
        | error e => exact .keys cp bp xp e (by simp [Received, Answered]) (.inr hp)
        | ok p => simp only [hp] at hx; cases hx
      refine why_call (fun _ => fail) fun (i : Info) => ?_
      rw [up_ok] at hc hc2
      unfold aliceContract at hc
      unfold aliceBtcContract at hc2
      obtain ⟨p, hp, hc⟩ := exc_bind_ok.1 hc
      obtain ⟨p2, hp2, hc2⟩ := exc_bind_ok.1 hc2
      have bad : ∀ {e l}, (¬ ∃ c tx n, i.confirmations = some c ∧ 6 ≤ c ∧ K.parseBtc i.hex = .ok tx ∧
          FirstPays ([0x00, 0x20] ++ K.B.sha256 (btcContract p2 xp)) 101000000 tx.vout n) → AliceWhy K o e l
            (([Event.did (.send ⟨.pubkeys, [K.E.z.pubOf o.btcKey, K.E.z.pubOf o.exitKey]⟩) (.ok ())] ++
              [Event.did (.send ⟨.blindingKey, [o.blindingKey]⟩) (.ok ())] ++ [Event.did .recv (.ok (some ⟨.pubkeys, [cp, bp, xp]⟩))] ++
              [Event.did .recv (.ok (some ⟨.btcTxid, [btcTxid]⟩))]) ++ [Event.did (.tx .btc btcTxid) (.ok i)]) := fun h =>
        .inr (.inr (.deposit _ cp bp xp p2 btcTxid i rfl (by simp [Received, Answered]) (by simp [Received, Answered]) hp2 h))
      cases hcn : i.confirmations with
      | none => exact bad (by simp [hcn])
      | some c =>
        dsimp only
        split
        · exact bad (by
            rintro ⟨c', -, -, h, h', -⟩
            rw [hcn] at h
            cases h
            omega)
        · refine why_compute (fun e x hx _ => bad ?_) fun tx htx => ?_
          · rintro ⟨-, tx, -, -, -, h, -⟩
            rw [up_ok.2 h] at hx
            cases hx
          rw [up_ok] at htx
          refine why_compute (fun e x hx _ => ?_) fun n hn => ?_
          · by_cases hl : 10000 < (btcContract p2 xp).length
            · exact .inr (.inr (.long cp bp xp p2 (by simp [Received, Answered]) (.inr ⟨hp2, hl⟩)))
            refine bad ?_
            rintro ⟨c', tx', n, h1, h2, h3, h4⟩
            rw [hcn] at h1
            cases h1
            rw [htx] at h3
            cases h3
            rw [(C77_checks (x := ⟨o.btcKey, xp, o.btcDst⟩) hf.hash).2 ⟨h2, p2, hp2, by dsimp only; omega, h4⟩] at hx
            cases hx
          obtain ⟨h6, p3, hp3, -, hfirst⟩ := (C77_checks hf.hash).1 hn
          obtain ⟨hfit, rfl⟩ := redeemable_ok.1 hc
          refine why_call (fun _ => fail) fun txid => ?_
          refine alicePaid_why ?_ ⟨?_, p3, hp3, i, c, tx, ?_, hcn, h6, htx, hfirst⟩ ⟨p, hp, ?_⟩
          · simp [Received, Answered]
          · simp [Received, Answered]
          · simp [Answered]
          · rw [← p2sh_eq hf.keys.hash]
            exact ⟨List.mem_append_right _ (List.mem_singleton.2 rfl), hfit⟩
    · rename_i h
      refine .inr (.inr (.message _ _ rfl ?_))
      rintro (⟨hn, -⟩ | ⟨-, -, hl⟩)
      · simp [waits] at hn
      · obtain ⟨a, rfl⟩ := List.length_eq_one_iff.1 hl
        exact h a rfl
  · rename_i h
    refine .inr (.inr (.message _ _ rfl ?_))
    rintro (⟨-, -, hl⟩ | ⟨hn, -⟩)
    · obtain ⟨a, b, c, rfl⟩ := List.length_eq_three.1 hl
      exact h a b c rfl
    · simp [waits] at hn

/-! ### Bob -/

variable {ob : BobOwn}

def BobWhy (K : Kit) (o : BobOwn) (e : End) (_ : Option Prog) (t : List Event) : Prop := e = .finished ∨ e = .waiting ∨ BobGivesUp K o t

theorem waits_append (s t : List Event) : waits (s ++ t) = waits s + waits t := List.countP_append

theorem bobPaid_why {ap ep bk txid : Bytes} (hw : waits t = 2) (hr : Received t .pubkeys [ap, ep]) (hk : Received t .blindingKey [bk]) :
    Obeys w Free Any (bobPaid K ⟨ob.contractKey, bk, ob.spendKey, ep, ob.dst, ob.dummy, ob.rand⟩ ⟨ob.exitKey, ap, ob.btcDst⟩ txid)
      (BobWhy K ob) l t := by
  have fail : ∀ {l pre q e}, BobWhy K ob .raised l (pre ++ [.did q (.error e)]) := .inr (.inr (.failed _ _ _ rfl))
  have silent : ∀ {l e pre}, BobWhy K ob e l (pre ++ [.did .recv (.ok none)]) := .inr (.inr (.silence _ rfl))
  refine why_wish ?_
  refine why_waitConfirm (by omega) _ (fun ext h1 h2 => .inr (.inr (.unconfirmed txid (.inl ⟨t, ext, rfl, h1, h2⟩)))) (fun _ => fail) (fun ext1 ho _ => ?_)
  refine why_call (fun _ => fail) fun _ => ?_
  generalize hT : t ++ ext1 ++ [Event.did (.send ⟨.btcTxid, [txid]⟩) (.ok ())] = T
  have sub : t ⊆ T := by rw [← hT]; simp
  have hw2 : waits T = 2 := by
    have h1 : waits ext1 = 0 := by
      unfold waits
      rw [List.countP_eq_zero]
      intro e he
      obtain ⟨a, rfl⟩ := ho e he
      simp
    rw [← hT, waits_append, waits_append, hw, h1]
    rfl
  refine why_recv (by decide) (fun _ => fail) silent (fun e m _ hm => .inr (.inr (.message _ m rfl ?_))) fun d => ?_
  · rintro (⟨h, -⟩ | ⟨h, -⟩ | ⟨-, h, -⟩)
    · omega
    · omega
    · exact hm h
  split
  · rename_i elt
    unfold bobTold
    refine why_compute (fun e x hx _ => .inr (.inr ?_)) fun _ _ => ?_
    · cases hp : K.W.addPubs (K.E.z.pubOf ob.contractKey) (K.E.z.pubOf bk) with
      | error e => exact .keys ap ep bk e (hr.mono (by simp [sub])) (hk.mono (by simp [sub])) (.inr (.inl hp))
      | ok p =>
        by_cases hl : 520 < (eltContract K.W.r p (K.E.z.pubOf ob.spendKey) ep).length
        · exact .long ap ep bk p (hr.mono (by simp [sub])) (hk.mono (by simp [sub])) (.inl ⟨hp, hl⟩)
        · have : bobContract K.E K.W ⟨ob.contractKey, bk, ob.spendKey, ep, ob.dst, ob.dummy, ob.rand⟩ = .ok _ :=
            exc_bind_ok.2 ⟨p, hp, redeemable_ok.2 ⟨Nat.not_lt.1 hl, rfl⟩⟩
          rw [up_ok.2 this] at hx
          cases hx
    refine why_call (fun _ => fail) fun (i : Info) => ?_
    have bad : ∀ {e l}, (¬ ∃ m tx c, i.confirmations = some m ∧ 2 ≤ m ∧ deserializeTx i.hex = .ok tx ∧
        bobClaim K.E K.W ⟨ob.contractKey, bk, ob.spendKey, ep, ob.dst, ob.dummy, ob.rand⟩ elt m tx = .ok c) →
        BobWhy K ob e l ((T ++ [Event.did .recv (.ok (some ⟨.eltTxid, [elt]⟩))]) ++ [Event.did (.tx .elt elt) (.ok i)]) := fun h =>
      .inr (.inr (.claim _ ap ep bk elt i rfl (hr.mono (fun e he => by simp [sub he])) (hk.mono (fun e he => by simp [sub he])) (by simp [Received, Answered]) h))
    cases hcn : i.confirmations with
    | none => exact bad (by simp [hcn])
    | some m =>
      dsimp only
      split
      · exact bad (by
          rintro ⟨m', -, -, h, h', -⟩
          rw [hcn] at h
          cases h
          omega)
      · refine why_compute (fun e x hx _ => bad ?_) fun tx htx => ?_
        · rintro ⟨-, tx, -, -, -, h, -⟩
          rw [up_ok.2 h] at hx
          cases hx
        rw [up_ok] at htx
        refine why_compute (fun e x hx _ => bad ?_) fun c hc => ?_
        · rintro ⟨m', tx', c, h1, -, h3, h4⟩
          rw [hcn] at h1
          cases h1
          rw [htx] at h3
          cases h3
          rw [h4] at hx
          cases hx
        refine why_call (fun _ => fail) fun id => ?_
        refine why_waitConfirm (by omega) _ (fun ext h1 h2 => .inr (.inr (.unconfirmed id (.inr ⟨_, ext, rfl, h1, h2⟩)))) (fun _ => fail) (fun _ _ _ => ?_)
        exact .inl rfl
  · rename_i h
    refine .inr (.inr (.message _ _ rfl ?_))
    rintro (⟨hn, -⟩ | ⟨hn, -⟩ | ⟨-, -, hl⟩)
    · omega
    · omega
    · obtain ⟨a, rfl⟩ := List.length_eq_one_iff.1 hl
      exact h a rfl

theorem bob_why : Obeys w Free Any (bob K ob) (BobWhy K ob) none [] := by
  have fail : ∀ {l pre q e}, BobWhy K ob .raised l (pre ++ [.did q (.error e)]) := .inr (.inr (.failed _ _ _ rfl))
  have silent : ∀ {l e pre}, BobWhy K ob e l (pre ++ [.did .recv (.ok none)]) := .inr (.inr (.silence _ rfl))
  refine why_recv (by decide) (fun _ => fail) silent (fun e m _ hm => .inr (.inr (.message _ m rfl ?_))) fun d => ?_
  · rintro (⟨-, h, -⟩ | ⟨h, -⟩ | ⟨h, -⟩)
    · exact hm h
    · simp [waits] at h
    · simp [waits] at h
  split
  · rename_i ap ep
    refine why_recv (by decide) (fun _ => fail) silent (fun e m _ hm => .inr (.inr (.message _ m rfl ?_))) fun d => ?_
    · rintro (⟨h, -⟩ | ⟨-, h, -⟩ | ⟨h, -⟩)
      · simp [waits] at h
      · exact hm h
      · simp [waits] at h
    split
    · rename_i bk
      unfold bobKeys
      split
      · rename_i hv
        exact .inr (.inr (.keys ap ep bk .typeError (by simp [Received, Answered]) (by simp [Received, Answered]) (.inl (by simpa using hv))))
      refine why_compute (fun e x hx _ => .inr (.inr ?_)) fun _ _ => ?_
      · cases hp : K.W.addPubs (K.E.z.pubOf ob.contractKey) (K.E.z.pubOf bk) with
        | error e => exact .keys ap ep bk e (by simp [Received, Answered]) (by simp [Received, Answered]) (.inr (.inl hp))
        | ok p => simp only [hp] at hx; cases hx
      refine why_call (fun _ => fail) fun _ => ?_
      refine why_compute (fun e x hx _ => .inr (.inr ?_)) fun _ _ => ?_
      · cases hp : K.W.addPubs (K.E.z.pubOf ob.contractKey) ap with
        | error e => exact .keys ap ep bk e (by simp [Received, Answered]) (by simp [Received, Answered]) (.inr (.inr hp))
        | ok p =>
          by_cases hl : 10000 < (btcContract p (K.E.z.pubOf ob.exitKey)).length
          · exact .long ap ep bk p (by simp [Received, Answered]) (by simp [Received, Answered]) (.inr ⟨hp, hl⟩)
          · have : bobBtcContract K.E K.W ⟨ob.contractKey, bk, ob.spendKey, ep, ob.dst, ob.dummy, ob.rand⟩ ⟨ob.exitKey, ap, ob.btcDst⟩ = .ok _ :=
              exc_bind_ok.2 ⟨p, hp, redeemable_ok.2 ⟨Nat.not_lt.1 hl, rfl⟩⟩
            rw [up_ok.2 this] at hx
            cases hx
      refine why_call (fun _ => fail) fun txid => ?_
      refine bobPaid_why (by simp [waits]) (by simp [Received, Answered]) (by simp [Received, Answered])
    · rename_i h
      refine .inr (.inr (.message _ _ rfl ?_))
      rintro (⟨hn, -⟩ | ⟨-, -, hl⟩ | ⟨hn, -⟩)
      · simp [waits] at hn
      · obtain ⟨a, rfl⟩ := List.length_eq_one_iff.1 hl
        exact h a rfl
      · simp [waits] at hn
  · rename_i h
    refine .inr (.inr (.message _ _ rfl ?_))
    rintro (⟨-, -, hl⟩ | ⟨hn, -⟩ | ⟨hn, -⟩)
    · obtain ⟨a, b, rfl⟩ := List.length_eq_two.1 hl
      exact h a b rfl
    · simp [waits] at hn
    · simp [waits] at hn

/-- What comes after the function: the last wish, or `bye!`, or nothing. -/
theorem Ended.next {r : Over × List Event} {e : End} {ext : List Event} (h : Ended w F r e l t ext) :
    ext = [] ∨ ext.head? = some .wished ∨ ∃ a, ext.head? = some (.did (.send ⟨.bye, []⟩) a) := by
  cases ext with
  | nil => exact .inl rfl
  | cons x ext =>
    cases l with
    | none =>
      obtain ⟨a, ha⟩ := h.bye rfl x (by simp)
      exact .inr (.inr ⟨a, by simp [ha]⟩)
    | some q =>
      refine .inr (.inl ?_)
      have hc := h.count
      have h1 : e ≠ .finished := fun he => (by have := h.still he; cases this)
      by_cases h2 : e = .waiting
      · have := h.idle h2
        cases this
      obtain ⟨g, -⟩ := h.ran h1 h2
      change (exec w q none (t ++ [.wished])).2.2 <+: r.2 at g
      have hp := (exec_prefix (w := w) q none (t ++ [.wished])).trans g
      rw [h.trace, List.prefix_append_right_inj] at hp
      obtain ⟨y, hy⟩ := hp
      simp at hy
      simp [hy.1]

/-- **C79.** Alice gives up only for a reason, the last thing that happened before the last wish: a failed call, no message or
another than expected, keys without a sum, a deposit that is not as agreed, too few confirmations in sixty answers, the timeout, or a
spending transaction from which no claim can be made. -/
theorem C79_alice_why (hf : Fit K o.dst) (ho : (participant w (alice K o)).1 = .exit ∨ (participant w (alice K o)).1 = .crash) :
    ∃ t ext, (participant w (alice K o)).2 = t ++ ext ∧ Event.wished ∉ t ∧ AliceGivesUp K o t ∧
      (ext = [] ∨ ext.head? = some .wished ∨ ∃ a, ext.head? = some (.did (.send ⟨.bye, []⟩) a)) := by
  obtain ⟨-, e, l, t, ext, h⟩ := participant_obeys (w := w) (alice_why hf) (fun _ => trivial)
  refine ⟨t, ext, h.trace, h.before, ?_, h.next⟩
  rcases h.holds with he | he | hg
  · rw [h.done.1 he] at ho; simp at ho
  · rw [h.waiting he] at ho; simp at ho
  · exact hg

/-- **C79.** And Bob. -/
theorem C79_bob_why (ho : (participant w (bob K ob)).1 = .exit ∨ (participant w (bob K ob)).1 = .crash) :
    ∃ t ext, (participant w (bob K ob)).2 = t ++ ext ∧ Event.wished ∉ t ∧ BobGivesUp K ob t ∧
      (ext = [] ∨ ext.head? = some .wished ∨ ∃ a, ext.head? = some (.did (.send ⟨.bye, []⟩) a)) := by
  obtain ⟨-, e, l, t, ext, h⟩ := participant_obeys (w := w) (bob_why (K := K) (ob := ob)) (fun _ => trivial)
  refine ⟨t, ext, h.trace, h.before, ?_, h.next⟩
  rcases h.holds with he | he | hg
  · rw [h.done.1 he] at ho; simp at ho
  · rw [h.waiting he] at ho; simp at ho
  · exact hg

end Verif.SwapRun
