import Verif.Spec.AssetRun
import Verif.Props.AssetSwapBack
import Mathlib.Tactic.ByContra
/-
C80: what the participants of the asset swap do, whatever the world answers, and why they stop.
-/
namespace Verif.AssetRun
open Verif Spec Spec.Assets AssetSwap

variable {w : Environment} {may : List Event → Query → Prop}

/-- Everything the program asks from here on is allowed, and `F` holds at its end. -/
def Obeys (w : Environment) (may : List Event → Query → Prop) : Prog → (End → List Event → Prop) → List Event → Prop
  | .finish, F, t => F .finished t
  | .raise, F, t => F .raised t
  | .exit b, F, t => F (.exited b) t
  | .ask q k, F, t => may t q ∧ Obeys w may (k (w t q)) F (t ++ [.did q (w t q)])

/-- All events from position `n` on were allowed. -/
def AllowedFrom (may : List Event → Query → Prop) (n : Nat) (t : List Event) : Prop :=
  ∀ pre q a post, t = pre ++ Event.did q a :: post → n ≤ pre.length → may pre q

theorem allowedFrom_nil {t : List Event} : AllowedFrom may t.length t := by
  intro pre q a post e hn
  rw [e] at hn
  simp at hn

theorem exec_obeys : ∀ {p : Prog} {F : End → List Event → Prop} {t : List Event}, Obeys w may p F t →
    ∃ e ext, exec w p t = (e, t ++ ext) ∧ F e (t ++ ext) ∧ AllowedFrom may t.length (t ++ ext)
  | .finish, F, t, h => ⟨.finished, [], by simp [exec], by simpa [Obeys] using h, by simpa using allowedFrom_nil⟩
  | .raise, F, t, h => ⟨.raised, [], by simp [exec], by simpa [Obeys] using h, by simpa using allowedFrom_nil⟩
  | .exit b, F, t, h => ⟨.exited b, [], by simp [exec], by simpa [Obeys] using h, by simpa using allowedFrom_nil⟩
  | .ask q k, F, t, h => by
      obtain ⟨h1, h2⟩ := h
      obtain ⟨e, ext, g1, g2, g4⟩ := exec_obeys h2
      refine ⟨e, .did q (w t q) :: ext, ?_, ?_, ?_⟩
      · rw [exec, g1]; simp
      · simpa using g2
      · intro pre q' a post e hn
        by_cases hl : pre.length = t.length
        · have := List.append_inj e hl.symm
          obtain ⟨rfl, e2⟩ := this
          cases e2
          exact h1
        · refine g4 pre q' a post ?_ ?_
          · rw [← e]; simp
          · simp; omega

theorem exec_from : ∀ {p : Prog} {t : List Event}, From w t → From w (exec w p t).2
  | .finish, _, h => h
  | .raise, _, h => h
  | .exit _, _, h => h
  | .ask q k, t, h => by
    rw [exec]
    refine exec_from fun pre q' a post e => ?_
    rcases List.eq_nil_or_concat post with rfl | ⟨post', x, rfl⟩
    · obtain ⟨rfl, e2⟩ := List.append_inj' e rfl
      cases e2
      rfl
    · rw [List.concat_eq_append, ← List.cons_append, ← List.append_assoc] at e
      obtain ⟨e1, -⟩ := List.append_inj' e rfl
      exact h pre q' a post' e1

theorem from_nil : From w [] := by intro pre q a post e; simp at e

/-- What holds of every participant. -/
theorem participant_obeys {F : End → List Event → Prop} {p : Prog} (h : Obeys w may p F []) (hb : ∀ t, may t (.send ⟨.bye, .nothing⟩)) :
    Allowed may (participant w p).2 ∧ Ended (fun e t => F e t ∧ From w t) (participant w p) := by
  obtain ⟨e, t, g1, g2, g4⟩ := exec_obeys h
  rw [List.nil_append] at g1 g2 g4
  have g4 : Allowed may t := fun pre q a post e => g4 pre q a post e (by simp)
  have g5 : From w t := by
    have := exec_from (w := w) (p := p) from_nil
    rw [g1] at this
    exact this
  have g2 := And.intro g2 g5
  have key : ∀ a : Ans (.send ⟨.bye, .nothing⟩), Allowed may (t ++ [.did (.send ⟨.bye, .nothing⟩) a]) := by
    intro a pre q a' post e
    rcases List.eq_nil_or_concat post with rfl | ⟨post', x, rfl⟩
    · obtain ⟨rfl, e2⟩ := List.append_inj' e rfl
      cases e2
      exact hb _
    · rw [List.concat_eq_append, ← List.cons_append, ← List.append_assoc] at e
      obtain ⟨e1, -⟩ := List.append_inj' e rfl
      exact g4 pre q a' post' e1
  unfold participant
  rw [g1]
  cases e with
  | finished => exact ⟨g4, g2⟩
  | exited b =>
    cases b
    · exact ⟨g4, .inl g2⟩
    · exact ⟨g4, g2⟩
  | raised =>
    dsimp only
    cases w t (.send ⟨.bye, .nothing⟩) with
    | ok a => exact ⟨key _, .inr ⟨t, rfl, g2⟩⟩
    | error x => exact ⟨key _, t, x, rfl, g2⟩

theorem _root_.Verif.Spec.Assets.Ended.mono {F G : End → List Event → Prop} (hi : ∀ e t, F e t → G e t) : ∀ {x : Over × List Event}, Ended F x → Ended G x
  | (.done, _), h => hi _ _ h
  | (.exit0, _), h => hi _ _ h
  | (.exit, _), h => h.imp (hi _ _) fun ⟨t', h1, h2⟩ => ⟨t', h1, hi _ _ h2⟩
  | (.crash, _), ⟨t', e, h1, h2⟩ => ⟨t', e, h1, hi _ _ h2⟩

variable {F : End → List Event → Prop} {t : List Event}

/-! ### Parts of programs -/

/-- Neither a transaction was published nor were signatures sent. -/
def quiet : Event → Bool
  | .did (.publish _) _ => false
  | .did (.send ⟨.semiSigned, _⟩) _ => false
  | .did (.send ⟨.final, _⟩) _ => false
  | _ => true

/-- ... nor was a message waited for. -/
def still : Event → Bool
  | .did (.recv _) _ => false
  | e => quiet e

/-- ... nor were addresses sent. -/
def untold : Event → Bool
  | .did (.send ⟨.address, _⟩) _ => false
  | .did (.send ⟨.addresses, _⟩) _ => false
  | _ => true

def Idle (ext : List Event) : Prop := ∀ e ∈ ext, (still e && untold e) = true

theorem obeys_call {q : Query} {k : Val q → Prog} (hm : may t q) (he : ∀ e, F .raised (t ++ [.did q (.error e)]))
    (hk : ∀ a, w t q = .ok a → Obeys w may (k a) F (t ++ [.did q (.ok a)])) : Obeys w may (call q k) F t := by
  refine ⟨hm, ?_⟩
  cases h : w t q with
  | ok a => exact hk a h
  | error e => exact he e

theorem obeys_compute {α : Type} {c : Except AssetSwap.Stop α} {k : α → Prog} (he : ∀ x, c = .error x → F .raised t)
    (hk : ∀ a, c = .ok a → Obeys w may (k a) F t) : Obeys w may (compute c k) F t := by
  cases c with
  | ok a => exact hk a rfl
  | error e => exact he e rfl

theorem obeys_recvElse {handler : Prog} {n : Nat} {kind : MsgKind} {k : Data → Prog} (hm : may t (.recv n)) (hb : kind ≠ .bye)
    (he : ∀ e, Obeys w may handler F (t ++ [.did (.recv n) (.error e)])) (hn : Obeys w may handler F (t ++ [.did (.recv n) (.ok none)]))
    (hx : ∀ d, F (.exited false) (t ++ [.did (.recv n) (.ok (some (⟨.bye, d⟩ : Msg)))]))
    (ho : ∀ m : Msg, m.kind ≠ .bye → m.kind ≠ kind → Obeys w may handler F (t ++ [.did (.recv n) (.ok (some m))]))
    (hk : ∀ d, w t (.recv n) = .ok (some (⟨kind, d⟩ : Msg)) → Obeys w may (k d) F (t ++ [.did (.recv n) (.ok (some (⟨kind, d⟩ : Msg)))])) :
    Obeys w may (recvElse handler n kind k) F t := by
  refine ⟨hm, ?_⟩
  cases hw : w t (.recv n) with
  | error e => exact he e
  | ok a =>
    cases a with
    | none => exact hn
    | some m =>
      obtain ⟨mk, md⟩ := m
      dsimp only
      split
      · rename_i h
        subst h
        exact hx md
      · rename_i h1
        split
        · rename_i h2
          exact ho _ h1 h2
        · rename_i h2
          simp only [ne_eq, not_not] at h2
          subst h2
          exact hk md hw

/-- Only the node was asked about a transaction, or for blocks. -/
def Waiting (txid : Bytes) (ext : List Event) : Prop := ∀ e ∈ ext, (∃ a, e = .did (.tx txid) a) ∨ ∃ a, e = .did .generate a

/-- No answer was enough. -/
def Short (txid : Bytes) (ext : List Event) : Prop :=
  ∀ e ∈ ext, (∃ r, e = .did .generate r) ∨ e = .did (.tx txid) (.error .rpc) ∨
      ∃ c : Option Int, e = .did (.tx txid) (.ok c) ∧ ∀ n, c = some n → n ≤ 0

theorem Short.waiting {txid : Bytes} {ext : List Event} (h : Short txid ext) : Waiting txid ext := by
  intro e he
  rcases h e he with ⟨r, h⟩ | h | ⟨c, h, -⟩
  · exact .inr ⟨_, h⟩
  · exact .inl ⟨_, h⟩
  · exact .inl ⟨_, h⟩

def asks (ext : List Event) : Nat := ext.countP fun | .did (.tx _) _ => true | _ => false

theorem asks_append (s t : List Event) : asks (s ++ t) = asks s + asks t := List.countP_append

theorem asks_tx {x : Bytes} {a : Ans (.tx x)} : asks [.did (.tx x) a] = 1 := rfl

theorem asks_generate {a : Ans .generate} : asks [.did .generate a] = 0 := rfl

theorem obeys_waitConfirm {txid : Bytes} {next : Prog} (hm : ∀ t, may t (.tx txid)) (hg : ∀ t, may t .generate) (n : Nat)
    (hd : ∀ ext, asks ext = n → Short txid ext → F .raised (t ++ ext))
    (he : ∀ pre q, q = .tx txid ∨ q = .generate → Waiting txid pre → F .raised (t ++ pre ++ [.did q (.error .other)]))
    (hk : ∀ ext, Waiting txid ext → Confirmed ext txid → Obeys w may next F (t ++ ext)) :
    Obeys w may (waitConfirm txid n next) F t := by
  suffices ∀ k ext, asks ext + k = n → Short txid ext → Obeys w may (waitConfirm txid k next) F (t ++ ext) by
    simpa using this n [] (by simp [asks]) (by intro e h; cases h)
  intro k
  induction k with
  | zero => exact fun ext hl h => hd ext (by simpa using hl) h
  | succ k ih =>
    intro ext hl h
    refine ⟨hm _, ?_⟩
    have hs : ∀ {ext e}, Short txid ext → ((∃ r, e = .did .generate r) ∨ e = .did (.tx txid) (.error .rpc) ∨
        ∃ c : Option Int, e = .did (.tx txid) (.ok c) ∧ ∀ n, c = some n → n ≤ 0) → Short txid (ext ++ [e]) := by
      intro ext e h he x hx
      rcases List.mem_append.1 hx with hx | hx
      · exact h x hx
      · rw [List.mem_singleton.1 hx]; exact he
    cases hw : w (t ++ ext) (.tx txid) with
    | ok c =>
      dsimp only
      split
      · rename_i hc
        rw [List.append_assoc]
        refine hk _ ?_ ?_
        · intro x hx
          rcases List.mem_append.1 hx with hx | hx
          · exact h.waiting x hx
          · exact .inl ⟨_, List.mem_singleton.1 hx⟩
        · revert hc
          cases c with
          | none => intro hc; simp at hc
          | some m => exact fun hc => ⟨m, by simp [Answered], hc⟩
      · rename_i hc
        have h1 : Short txid (ext ++ [.did (.tx txid) (.ok c)]) := by
          refine hs h (.inr (.inr ⟨c, rfl, fun m hm => ?_⟩))
          rw [hm] at hc
          simp at hc
          exact hc
        have h2 : ∀ r, Short txid (ext ++ [.did (.tx txid) (.ok c)] ++ [.did .generate r]) := fun r => hs h1 (.inl ⟨r, rfl⟩)
        have h3 : ∀ r, asks (ext ++ [.did (.tx txid) (.ok c)] ++ [.did .generate r]) + k = n := by
          intro r
          rw [asks_append, asks_append, asks_tx, asks_generate]
          omega
        refine ⟨hg _, ?_⟩
        rw [List.append_assoc t ext]
        cases hw : w (t ++ (ext ++ [.did (.tx txid) (.ok c)])) .generate with
        | ok u =>
          dsimp only
          rw [List.append_assoc]
          exact ih _ (h3 _) (h2 _)
        | error e =>
          cases e with
          | rpc =>
            dsimp only
            rw [List.append_assoc]
            exact ih _ (h3 _) (h2 _)
          | other => exact he _ _ (.inr rfl) h1.waiting
    | error e =>
      cases e with
      | rpc =>
        dsimp only
        rw [List.append_assoc]
        refine ih _ ?_ (hs h (.inr (.inl rfl)))
        rw [asks_append, asks_tx]
        omega
      | other => exact he ext _ (.inl rfl) h.waiting

/-- Only balances were asked for. -/
def Looking (ext : List Event) : Prop := ∀ e ∈ ext, ∃ x a, e = .did (.balance x) a

theorem obeys_balances {next : Prog} (hm : ∀ t x, may t (.balance x)) : ∀ {l : List Offer} {t : List Event}
    (_ : ∀ pre x e, Looking pre → F .raised (t ++ pre ++ [.did (.balance x) (.error e)]))
    (_ : ∀ ext, Looking ext → Obeys w may next F (t ++ ext)), Obeys w may (balances l next) F t
  | [], t, _, hk => by simpa [balances] using hk [] (by intro e h; cases h)
  | f :: l, t, he, hk => by
    refine obeys_call (hm _ _) (fun e => by simpa using he [] f.asset e (by intro e h; cases h)) fun a _ => ?_
    have hcons : ∀ ext, Looking ext → Looking ([.did (.balance f.asset) (.ok a)] ++ ext) := by
      intro ext h x hx
      rcases List.mem_append.1 hx with hx | hx
      · exact ⟨_, _, List.mem_singleton.1 hx⟩
      · exact h x hx
    refine obeys_balances hm (fun pre x e h => ?_) (fun ext h => ?_)
    · have := he ([.did (.balance f.asset) (.ok a)] ++ pre) x e (hcons _ h)
      simpa using this
    · rw [List.append_assoc]
      exact hk _ (hcons _ h)

variable {K : Kit}

theorem obeys_newAddr {next : Addr → Bytes → Prog} (hm : may t .newAddr) (he : ∀ e, F .raised (t ++ [.did .newAddr (.error e)]))
    (hb : ∀ a k, K.E.z.secValid k = false → F .raised (t ++ [.did .newAddr (.ok (a, k))]))
    (hk : ∀ a k, Obeys w may (next a k) F (t ++ [.did .newAddr (.ok (a, k))])) :
    Obeys w may (newAddr K next) F t := by
  refine obeys_call hm he fun (x : Addr × Bytes) hw => ?_
  obtain ⟨a, k⟩ := x
  dsimp only
  split
  · rename_i h
    exact hb a k (by simpa using h)
  · exact hk a k

/-- The events of making addresses. -/
def made (l : List (Addr × Bytes)) : List Event := l.map fun x => .did .newAddr (.ok x)

theorem obeys_newAddrs (hm : ∀ t, may t .newAddr) : ∀ {n : Nat} {t : List Event} {next : List (Addr × Bytes) → Prog}
    (_ : ∀ l e, F .raised (t ++ made l ++ [.did .newAddr (.error e)]))
    (_ : ∀ l a k, K.E.z.secValid k = false → F .raised (t ++ made l ++ [.did .newAddr (.ok (a, k))]))
    (_ : ∀ l, l.length = n → Obeys w may (next l) F (t ++ made l)), Obeys w may (newAddrs K n next) F t
  | 0, t, next, _, _, hk => by simpa [newAddrs, made] using hk [] rfl
  | n + 1, t, next, he, hb, hk => by
    refine obeys_newAddr (hm _) (fun e => by simpa [made] using he [] e) (fun a k h => by simpa [made] using hb [] a k h) fun a k => ?_
    have hcons : ∀ l, t ++ made ((a, k) :: l) = t ++ [.did .newAddr (.ok (a, k))] ++ made l := by intro l; simp [made]
    refine obeys_newAddrs hm (fun l e => ?_) (fun l a' k' h => ?_) fun l hl => ?_
    · rw [← hcons]; exact he _ e
    · rw [← hcons]; exact hb _ a' k' h
    · rw [← hcons]; exact hk _ (by simp [hl])

theorem idle_nil : Idle [] := by intro e h; cases h

theorem Idle.cons {e : Event} {ext : List Event} (h : (still e && untold e) = true) (hi : Idle ext) : Idle (e :: ext) := by
  intro x hx
  rcases List.mem_cons.1 hx with rfl | hx
  · exact h
  · exact hi x hx

theorem obeys_issueAsset {next : Utxo → Prog} (hm : may t .issue) (hm2 : ∀ t lo hi id, may t (.unspent lo hi id)) (hm3 : ∀ t a, may t (.key a))
    (he : ∀ pre q e, Idle pre → still (.did q (.error e)) = true → F .raised (t ++ pre ++ [.did q (.error e)]))
    (hl : ∀ id l, l.length ≠ 1 → F .raised (t ++ [.did .issue (.ok id)] ++ [.did (.unspent 0 0 id) (.ok l)]))
    (hk : ∀ id v k, (∃ t, w t (.unspent 0 0 id) = .ok [v]) → (∃ t, w t (.key v.addr) = .ok k) →
      Obeys w may (next (Assets.keyed v id k)) F (t ++ [.did .issue (.ok id), .did (.unspent 0 0 id) (.ok [v]), .did (.key v.addr) (.ok k)])) :
    Obeys w may (issueAsset next) F t := by
  refine obeys_call hm (fun e => by simpa using he [] .issue e idle_nil rfl) fun id _ => ?_
  refine obeys_call (hm2 _ _ _ _) (fun e => he _ _ e (idle_nil.cons rfl) rfl) fun l hw => ?_
  split
  · rename_i v
    refine obeys_call (hm3 _ _) (fun e => ?_) fun k hw2 => ?_
    · rw [List.append_assoc t]
      exact he _ _ e ((idle_nil.cons rfl).cons rfl) rfl
    · rw [List.append_assoc, List.append_assoc]
      exact hk id v k ⟨_, hw⟩ ⟨_, hw2⟩
  · rename_i h
    refine hl id l fun hl => ?_
    match l, hl with
    | [v], _ => exact h v rfl

theorem pickFee_some {l : List Utxo} {v : Utxo} (h : pickFee l = some v) : Enough l v := by
  have h1 := List.mem_of_find?_eq_some h
  have h2 := List.find?_some h
  have h3 := find_first (sort_sorted l) h
  have hf : fixedFee * 2 = 20000 := rfl
  refine ⟨sort_mem.1 h1, by simpa [hf] using h2, ?_⟩
  intro x hx hle
  exact h3 x (sort_mem.2 hx) (by simpa [hf] using hle)

theorem pickFee_none {l : List Utxo} (h : pickFee l = none) : ∀ v ∈ l, v.amount < 20000 := by
  intro v hv
  have := List.find?_eq_none.1 h v (sort_mem.2 hv)
  have hf : fixedFee * 2 = 20000 := rfl
  simp only [hf, decide_eq_true_eq] at this
  omega

theorem obeys_feeUtxo {next : Utxo → Prog} (hm2 : ∀ t lo hi id, may t (.unspent lo hi id)) (hm3 : ∀ t a, may t (.key a))
    (he : ∀ pre q e, Idle pre → still (.did q (.error e)) = true → F .raised (t ++ pre ++ [.did q (.error e)]))
    (hp : ∀ l, (∀ v ∈ l, v.amount < 20000) → F .raised (t ++ [.did (.unspent 1 9999999 K.feeAsset) (.ok l)]))
    (hc : ∀ l v k, Enough l v → v.assetCommitment = none →
      F .raised (t ++ [.did (.unspent 1 9999999 K.feeAsset) (.ok l), .did (.key v.addr) (.ok k)]))
    (hk : ∀ l v k, (∃ t, w t (.unspent 1 9999999 K.feeAsset) = .ok l) → (∃ t, w t (.key v.addr) = .ok k) → Enough l v → v.assetCommitment ≠ none →
      Obeys w may (next (Assets.keyed v K.feeAsset k)) F (t ++ [.did (.unspent 1 9999999 K.feeAsset) (.ok l), .did (.key v.addr) (.ok k)])) :
    Obeys w may (feeUtxo K next) F t := by
  refine obeys_call (hm2 _ _ _ _) (fun e => by simpa using he [] _ e idle_nil rfl) fun l hw => ?_
  split
  · rename_i h
    exact hp l (pickFee_none h)
  · rename_i v h
    refine obeys_call (hm3 _ _) (fun e => he _ _ e (idle_nil.cons rfl) rfl) fun k hw2 => ?_
    rw [List.append_assoc]
    split
    · rename_i hn
      exact hc l v k (pickFee_some h) (by simpa using hn)
    · rename_i hn
      exact hk l v k ⟨_, hw⟩ ⟨_, hw2⟩ (pickFee_some h) (by simpa using hn)

/-! ### More has happened -/

variable {t' : List Event}

theorem _root_.Verif.Spec.Assets.Answered.mono {q : Query} {a : Val q} (h : Answered t q a) (hs : t <+: t') : Answered t' q a := hs.subset h

theorem _root_.Verif.Spec.Assets.Received.mono {k : MsgKind} {d : Data} (h : Received t k d) (hs : t <+: t') : Received t' k d := by
  obtain ⟨n, h⟩ := h
  exact ⟨n, h.mono hs⟩

theorem _root_.Verif.Spec.Assets.Sent.mono {k : MsgKind} {d : Data} (h : Sent t k d) (hs : t <+: t') : Sent t' k d := Answered.mono h hs

theorem _root_.Verif.Spec.Assets.Confirmed.mem {id : Bytes} (h : Confirmed t id) (hs : t ⊆ t') : Confirmed t' id := by
  obtain ⟨n, h1, h2⟩ := h
  exact ⟨n, hs h1, h2⟩

theorem _root_.Verif.Spec.Assets.AliceBegan.mono {a : Alice} (h : AliceBegan K t a) (hs : t <+: t') : AliceBegan K t' a := by
  obtain ⟨id1, v1, k1, id2, v2, k2, l, v3, k3, kc, h1, h2⟩ := h
  exact ⟨id1, v1, k1, id2, v2, k2, l, v3, k3, kc, h1.trans hs, h2⟩

theorem _root_.Verif.Spec.Assets.AliceAgrees.mono {a : Alice} {f : Offer} {p : Tx} {bob1 bob2 : Addr} {tx : Tx}
    (h : AliceAgrees K t a f p bob1 bob2 tx) (hs : t <+: t') : AliceAgrees K t' a f p bob1 bob2 tx where
  began := h.began.mono hs
  told := let ⟨cs, h⟩ := h.told; ⟨cs, h.mono hs⟩
  key := h.key.mono hs
  offer := h.offer.mono hs
  begins := let ⟨b, h, g⟩ := h.begins; ⟨b, h.mono hs, g⟩
  addrs := let ⟨c, h⟩ := h.addrs; ⟨c, h.mono hs⟩
  sends := h.sends

theorem _root_.Verif.Spec.Assets.Swap.mono {b : Bytes} (h : Swap K t b) (hs : t <+: t') : Swap K t' b := by
  obtain ⟨a, f, p, bob1, bob2, tx, b', h', s, h1, h2, h3, h4, h5⟩ := h
  exact ⟨a, f, p, bob1, bob2, tx, b', h', s, h1.mono hs, h2, h3.mono hs, h4.mono hs, h5⟩

/-! ### What has not happened yet -/

/-- Nothing of that, and so many messages. -/
structure Clean (t : List Event) (n : Nat) : Prop where
  waits : waits t = n
  quiet : ∀ e ∈ t, quiet e = true

theorem waits_append (s t : List Event) : waits (s ++ t) = waits s + waits t := List.countP_append

theorem Idle.waits {ext : List Event} (h : Idle ext) : Assets.waits ext = 0 := by
  refine List.countP_eq_zero.2 fun e he => ?_
  have := (Bool.and_eq_true_iff.1 (h e he)).1
  revert this
  rcases e with ⟨q, a⟩
  cases q <;> simp [still]

theorem quiet_of_still {e : Event} (h : still e = true) : quiet e = true := by
  rcases e with ⟨q, a⟩
  cases q <;> first | exact h | rfl

variable {n : Nat}

theorem clean_nil : Clean [] 0 := ⟨rfl, by simp⟩

theorem Clean.more (h : Clean t n) {ext : List Event} (hi : Idle ext) : Clean (t ++ ext) n := by
  refine ⟨by rw [waits_append, h.waits, hi.waits]; rfl, fun e he => ?_⟩
  rcases List.mem_append.1 he with he | he
  · exact h.quiet e he
  · exact quiet_of_still (Bool.and_eq_true_iff.1 (hi e he)).1

theorem Clean.one (h : Clean t n) {e : Event} (hi : still e = true) : Clean (t ++ [e]) n := by
  refine ⟨?_, fun x hx => ?_⟩
  · rw [waits_append, h.waits]
    have : Assets.waits [e] = 0 := by
      refine List.countP_eq_zero.2 fun x hx => ?_
      rw [List.mem_singleton.1 hx]
      revert hi
      rcases e with ⟨q, a⟩
      cases q <;> simp [still]
    rw [this]; rfl
  · rcases List.mem_append.1 hx with hx | hx
    · exact h.quiet x hx
    · rw [List.mem_singleton.1 hx]; exact quiet_of_still hi

/-- No addresses were sent. -/
def Fresh (t : List Event) : Prop := ∀ e ∈ t, untold e = true

theorem Fresh.more (h : Fresh t) {ext : List Event} (hi : Idle ext) : Fresh (t ++ ext) := by
  intro e he
  rcases List.mem_append.1 he with he | he
  · exact h e he
  · exact (Bool.and_eq_true_iff.1 (hi e he)).2

theorem Fresh.recv (h : Fresh t) {k : Nat} {a : Ans (.recv k)} : Fresh (t ++ [.did (.recv k) a]) := by
  intro e he
  rcases List.mem_append.1 he with he | he
  · exact h e he
  · rw [List.mem_singleton.1 he]; rfl

theorem Clean.recv (h : Clean t n) {k : Nat} {a : Ans (.recv k)} : Clean (t ++ [.did (.recv k) a]) (n + 1) := by
  refine ⟨by rw [waits_append, h.waits]; rfl, fun e he => ?_⟩
  rcases List.mem_append.1 he with he | he
  · exact h.quiet e he
  · rw [List.mem_singleton.1 he]; rfl

theorem Clean.semi (h : Clean t n) {d : Data} {r : Ans (.send ⟨.semiSigned, d⟩)} : Event.did (.send ⟨.semiSigned, d⟩) r ∉ t :=
  fun hm => by cases h.quiet _ hm

theorem Clean.publish (h : Clean t n) {b : Bytes} {r : Ans (.publish b)} : Event.did (.publish b) r ∉ t :=
  fun hm => by cases h.quiet _ hm

theorem idle_one {q : Query} {a : Ans q} (h : (still (.did q a) && untold (.did q a)) = true) : Idle [.did q a] := by
  intro e he
  rw [List.mem_singleton.1 he]
  exact h

theorem Waiting.idle {txid : Bytes} {ext : List Event} (h : Waiting txid ext) : Idle ext := by
  intro e he
  rcases h e he with ⟨a, rfl⟩ | ⟨a, rfl⟩ <;> rfl

theorem Looking.idle {ext : List Event} (h : Looking ext) : Idle ext := by
  intro e he
  obtain ⟨x, a, rfl⟩ := h e he
  rfl

theorem made_idle (l : List (Addr × Bytes)) : Idle (made l) := by
  intro e he
  obtain ⟨x, -, rfl⟩ := List.mem_map.1 he
  rfl

/-! ### Alice -/

def AliceEnd (K : Kit) (e : End) (t : List Event) : Prop := AliceEnds K e t ∧ AliceSafe K t

theorem Clean.safe (h : Clean t n) : AliceSafe K t := fun ⟨_, hd⟩ => absurd hd h.semi

theorem _root_.Verif.Spec.Assets.Settled.mono (h : Settled K t) (hs : t <+: t') : Settled K t' := by
  obtain ⟨pre, b, r, post, rfl, h⟩ := h
  obtain ⟨ext, rfl⟩ := hs
  exact ⟨pre, b, r, post ++ ext, by simp, h⟩

theorem settled_of {b id : Bytes} (h : Answered t (.publish b) id) : Settled K t := by
  obtain ⟨pre, post, rfl⟩ := List.append_of_mem h
  exact ⟨pre, b, _, post, rfl, .inl ⟨id, rfl⟩⟩

theorem _root_.Verif.Spec.Assets.Settled.safe (h : Settled K t) : AliceSafe K t := fun _ => .inl h

/-- A call failed that is none of those whose failure Alice handles. -/
theorem gives_up {q : Query} {e : Fault} (h : ∀ n, q ≠ .recv n) (h2 : ∀ b, q ≠ .publish b) : AliceGivesUp K (t ++ [.did q (.error e)]) :=
  .failed _ q e rfl (h 5) (fun b hb => absurd hb (h2 b))

theorem unconfirmed_of {id : Bytes} {ext : List Event} (h : asks ext = 60) (h2 : Short id ext) : Unconfirmed id (t ++ ext) :=
  ⟨t, ext, rfl, h, h2⟩

theorem obeys_aliceDone {a : Alice} {f : Offer} {b id : Bytes} (hf : Received t .offer (.offer f)) (hs : Swap K t b)
    (hp : Answered t (.publish b) id) : Obeys w (AliceMay K) (aliceDone a f id) (AliceEnd K) t := by
  have hS : ∀ ext, AliceSafe K (t ++ ext) := fun ext => ((settled_of hp).mono (List.prefix_append _ _)).safe
  refine obeys_call trivial (fun e => ⟨gives_up (by simp) (by simp), hS _⟩) fun _ _ => ?_
  refine obeys_waitConfirm (fun _ => trivial) (fun _ => trivial) 60 (fun ext h1 h2 => ?_) (fun pre q hq _ => ?_) fun ext _ hc => ?_
  · exact ⟨.unconfirmed id (unconfirmed_of h1 h2), by rw [List.append_assoc]; exact hS _⟩
  · refine ⟨gives_up ?_ ?_, by simp only [List.append_assoc]; exact hS _⟩ <;> rcases hq with rfl | rfl <;> simp
  rw [List.append_assoc]
  generalize hext : [Event.did .generate (.ok _)] ++ ext = ext'
  replace hc : Confirmed ext' id := hc.mem (by rw [← hext]; exact List.subset_append_right _ _)
  clear hext
  refine obeys_call trivial (fun e => ⟨gives_up (by simp) (by simp), by rw [List.append_assoc]; exact hS _⟩) fun m _ => ?_
  split
  · rename_i hm
    refine ⟨.balance _ f m rfl (hf.mono (by rw [List.append_assoc]; exact List.prefix_append _ _)) hm ⟨b, id, hp.mono ?_⟩, by rw [List.append_assoc]; exact hS _⟩
    rw [List.append_assoc]; exact List.prefix_append _ _
  · rename_i hm
    simp only [ne_eq, not_not] at hm
    subst hm
    refine obeys_balances (fun _ _ => trivial) (fun pre x e _ => ⟨gives_up (by simp) (by simp), by simp only [List.append_assoc]; exact hS _⟩) fun ext2 _ => ?_
    have h1 : ∀ r, t ++ ext' ++ [Event.did (.balance f.asset) (.ok f.amount)] ++ ext2 ++ [r] =
        (t ++ ext') ++ Event.did (.balance f.asset) (.ok f.amount) :: (ext2 ++ [r]) := by intro r; simp
    have h2 := hf.mono (List.prefix_append t ext')
    have h3 := hs.mono (List.prefix_append t ext')
    have h4 := hp.mono (List.prefix_append t ext')
    have h5 := hc.mem (List.subset_append_right t ext')
    refine obeys_call ?_ (fun e => ⟨gives_up (by simp) (by simp), by simp only [List.append_assoc]; exact hS _⟩) fun u _ => ?_
    · refine .inr (.inr (.inr (.inr (.inl ⟨f, b, id, t ++ ext', ext2, rfl, ?_, by simp, h3, h4, h5⟩))))
      refine h2.mono ?_
      rw [List.append_assoc (t ++ ext')]
      exact List.prefix_append _ _
    · refine ⟨⟨f, b, id, _, ext2, h1 _, h2, h3, h4, h5⟩, ?_⟩
      simp only [List.append_assoc]; exact hS _

/-- Bob has Alice's signatures for `tx`. -/
def Handed (K : Kit) (t : List Event) (a : Alice) (f : Offer) (tx : Tx) : Prop :=
  ∃ p bob1 bob2 b, AliceAgrees K t a f p bob1 bob2 tx ∧ serializeTx tx = .ok b ∧ Sent t .semiSigned (.bytes b)

theorem Handed.mono {a : Alice} {f : Offer} {tx : Tx} (h : Handed K t a f tx) (hs : t <+: t') : Handed K t' a f tx := by
  obtain ⟨p, bob1, bob2, b, h1, h2, h3⟩ := h
  exact ⟨p, bob1, bob2, b, h1.mono hs, h2, h3.mono hs⟩

theorem Handed.began {a : Alice} {f : Offer} {tx : Tx} (h : Handed K t a f tx) : AliceBegan K t a := by
  obtain ⟨p, bob1, bob2, b, h1, h2, h3⟩ := h
  exact h1.began

theorem Handed.sent {a : Alice} {f : Offer} {tx : Tx} (h : Handed K t a f tx) : ∃ b, Sent t .semiSigned b := by
  obtain ⟨p, bob1, bob2, b, h1, h2, h3⟩ := h
  exact ⟨_, h3⟩

theorem began_fee {a : Alice} (h : AliceBegan K t a) : a.feeAsset = K.feeAsset := by
  obtain ⟨id1, v1, k1, id2, v2, k2, l, v3, k3, kc, h1, h2, h3, h4, h5, h6⟩ := h
  exact h6

theorem dictSet_new {k : Bytes} {v : Int} : ∀ {d : List (Bytes × Int)}, k ∉ d.map Prod.fst → dictSet k v d = d ++ [(k, v)]
  | [], _ => rfl
  | (k', v') :: d, h => by
    have h1 : k' ≠ k := fun e => h (by simp [e])
    have := dictSet_new (v := v) (d := d) fun hm => h (by simp only [List.map_cons]; exact List.mem_cons_of_mem _ hm)
    simp [dictSet, h1, this]

theorem assetAmounts_len {feeAsset : Bytes} : ∀ {us : List Utxo} {d d' : List (Bytes × Int)}, assetAmounts feeAsset us d = .ok d' →
    (us.map Utxo.asset).Nodup → (∀ u ∈ us, u.asset ∉ d.map Prod.fst) → d'.length = d.length + us.length
  | [], d, d', h, _, _ => by cases h; rfl
  | u :: us, d, d', h, hn, hd => by
    obtain ⟨n, h1, h⟩ := exc_bind_ok.1 h
    rw [dictSet_new (hd u List.mem_cons_self)] at h
    rw [List.map_cons, List.nodup_cons] at hn
    rw [assetAmounts_len h hn.2 ?_]
    · simp; omega
    · intro v hv hm
      rw [List.map_append, List.mem_append] at hm
      rcases hm with hm | hm
      · exact hd v (List.mem_cons_of_mem _ hv) hm
      · simp only [List.map_cons, List.map_nil, List.mem_singleton] at hm
        exact hn.1 (hm ▸ List.mem_map_of_mem hv)

theorem idle_publish {ext : List Event} (h : Idle ext) (hn : ∀ b id, ¬ Answered t (.publish b) id) (b id : Bytes) : ¬ Answered (t ++ ext) (.publish b) id := by
  intro hm
  rcases List.mem_append.1 hm with hm | hm
  · exact hn b id hm
  · cases h _ hm

theorem obeys_giveUp {a : Alice} {f : Offer} {tx : Tx} (hz : Sizes K.E K.W) (hok : AliceOk a) (hh : Handed K t a f tx)
    (hn : ∀ b id, ¬ Answered t (.publish b) id) : Obeys w (AliceMay K) (giveUp K a) (AliceEnd K) t := by
  have hfee := began_fee hh.began
  unfold giveUp
  rw [hfee]
  refine obeys_compute (fun x hx => ?_) fun d hd => ?_
  · have hp : ∃ u ∈ a.utxos, u.asset = K.feeAsset ∧ u.amount < 20000 := by
      by_contra hc
      have : ∀ u ∈ a.utxos, u.asset = K.feeAsset → 20000 ≤ u.amount := by
        intro u hu he
        by_contra hlt
        exact hc ⟨u, hu, he, by omega⟩
      obtain ⟨d, hd⟩ := (C71_claim_short K.feeAsset a.utxos).2 this
      rw [hd] at hx
      cases hx
    obtain ⟨u, h1, h2, h3⟩ := hp
    exact ⟨.back a hh.began hh.sent hn (.inr (.inl ⟨u, h1, h2, h3⟩)), fun _ => .inr (.inl (.poor a u hh.began h1 h2 h3))⟩
  have hd : assetAmounts K.feeAsset a.utxos [] = .ok d := by
    revert hd
    cases assetAmounts K.feeAsset a.utxos [] with
    | ok x => intro h; cases h; rfl
    | error e => intro h; cases h
  refine obeys_newAddrs (fun _ => trivial) (fun l e => ?_) (fun l x k hk => ?_) fun l hl => ?_
  · exact ⟨gives_up (by simp) (by simp), fun _ => .inr (.inl (.noAddress _ e rfl))⟩
  · exact ⟨.badKey _ x k rfl hk, fun _ => .inr (.inl (.badKey _ x k rfl hk))⟩
  have hh' := hh.mono (List.prefix_append t (made l))
  have hn' := idle_publish (made_idle l) hn
  by_cases hnd : (a.utxos.map Utxo.asset).Nodup
  · have hlen := assetAmounts_len hd hnd (by simp)
    rw [hlen] at hl
    simp only [Alice.utxos, List.length_cons, List.length_nil, Nat.zero_add] at hl
    match l, hl with
    | [(a1, k1), (a2, k2), (a3, k3)], _ =>
      have hmade : t ++ made [(a1, k1), (a2, k2), (a3, k3)] = t ++ [.did .newAddr (.ok (a1, k1)), .did .newAddr (.ok (a2, k2)), .did .newAddr (.ok (a3, k3))] := rfl
      refine obeys_compute (fun x hx => ?_) fun c hc => ?_
      · have : ¬ ∃ c b, claimBack K.E K.W K.feeAsset (fun n => [a1, a2, a3].getD n a.change) K.rand2 a.utxos = .ok c ∧ serializeTx c = .ok b := by
          rintro ⟨c, b, h, -⟩
          simp only [List.map_cons, List.map_nil] at hx
          rw [h] at hx
          cases hx
        exact ⟨.back a hh'.began hh'.sent hn' (.inr (.inr ⟨t, a1, k1, a2, k2, a3, k3, hmade, this⟩)), fun _ => .inr (.inl (.failed a t a1 k1 a2 k2 a3 k3 hh'.began hmade this))⟩
      have hc : claimBack K.E K.W K.feeAsset (fun n => [a1, a2, a3].getD n a.change) K.rand2 a.utxos = .ok c := up_ok hc
      refine obeys_compute (fun x hx => ?_) fun b hb => ?_
      · have : ¬ ∃ c b, claimBack K.E K.W K.feeAsset (fun n => [a1, a2, a3].getD n a.change) K.rand2 a.utxos = .ok c ∧ serializeTx c = .ok b := by
          rintro ⟨c', b, h, h'⟩
          rw [hc] at h
          cases h
          rw [h'] at hx
          cases hx
        exact ⟨.back a hh'.began hh'.sent hn' (.inr (.inr ⟨t, a1, k1, a2, k2, a3, k3, hmade, this⟩)), fun _ => .inr (.inl (.failed a t a1 k1 a2 k2 a3 k3 hh'.began hmade this))⟩
      have hb : serializeTx c = .ok b := up_ok hb
      have hT : TakesBack K (t ++ made [(a1, k1), (a2, k2), (a3, k3)]) b := by
        obtain ⟨p, bob1, bob2, b', h1, h2, h3⟩ := hh'
        exact ⟨a, f, p, bob1, bob2, tx, b', _, c, t, h1, h2, h3, hc, C71_claim hz hok.utxos hc, hb, k1, k2, k3, hmade⟩
      generalize t ++ made [(a1, k1), (a2, k2), (a3, k3)] = s at *
      have hS : ∀ r ext, AliceSafe K (s ++ Event.did (.publish b) r :: ext) := fun r ext => Settled.safe ⟨s, b, r, ext, rfl, .inr hT⟩
      refine obeys_call (.inr ⟨hT, hn'⟩) (fun e => ⟨.failed _ _ e rfl (by simp) (fun b' h => by cases h; exact hT), hS _ _⟩) fun id _ => ?_
      refine obeys_call trivial (fun e => ⟨gives_up (by simp) (by simp), by rw [List.append_assoc]; exact hS _ _⟩) fun u _ => ?_
      refine obeys_waitConfirm (fun _ => trivial) (fun _ => trivial) 60 (fun ext h1 h2 => ?_) (fun pre q hq _ => ?_) fun ext _ hc => ?_
      · exact ⟨.unconfirmed id (unconfirmed_of h1 h2), by simp only [List.append_assoc]; exact hS _ _⟩
      · refine ⟨gives_up ?_ ?_, by simp only [List.append_assoc]; exact hS _ _⟩ <;> rcases hq with rfl | rfl <;> simp
      · refine ⟨⟨s, b, id, [Event.did .generate (.ok u)] ++ ext, by simp, hT, hc.mem (List.subset_append_right _ _)⟩, ?_⟩
        simp only [List.append_assoc]; exact hS _ _
  · refine obeys_compute (fun x hx => ?_) fun c hc => ?_
    · exact ⟨.back a hh'.began hh'.sent hn' (.inl hnd), fun _ => .inr (.inl (.same a hh'.began hnd))⟩
    · exact absurd (up_ok hc) (C71_claim_same hz hok.utxos hnd)

theorem obeys_aliceLast {a : Alice} {f : Offer} {tx : Tx} (hz : Sizes K.E K.W) (hok : AliceOk a) (hh : Handed K t a f tx)
    (hn : ∀ b r, Event.did (.publish b) r ∉ t) : Obeys w (AliceMay K) (aliceLast K a f tx) (AliceEnd K) t := by
  have hN : ∀ r b id, ¬ Answered (t ++ [.did (.recv 5) r]) (.publish b) id := by
    intro r b id hm
    rcases List.mem_append.1 hm with hm | hm
    · exact hn b _ hm
    · cases List.mem_singleton.1 hm
  have hG : ∀ r, Obeys w (AliceMay K) (giveUp K a) (AliceEnd K) (t ++ [.did (.recv 5) r]) :=
    fun r => obeys_giveUp hz hok (hh.mono (List.prefix_append _ _)) (hN r)
  refine obeys_recvElse (.inr ⟨rfl, hh.sent⟩) (by simp) (fun e => hG _) (hG _) (fun d => ⟨⟨t, 5, d, rfl⟩, fun _ => .inr (.inr ⟨t, d, rfl⟩)⟩)
    (fun m _ _ => hG _) fun d hw0 => ?_
  clear hw0
  split
  · rename_i b
    split
    · exact hG _
    · rename_i signed hs
      split
      · exact hG _
      · rename_i s hf
        obtain ⟨rfl, hpre⟩ := (C71_final _ _ _).1 hf
        split
        · exact hG _
        · rename_i b' hb
          have hS : Swap K (t ++ [.did (.recv 5) (.ok (some (⟨.final, .bytes b⟩ : Msg)))]) b' := by
            obtain ⟨p, bob1, bob2, b'', h1, h2, h3⟩ := hh.mono (List.prefix_append t [.did (.recv 5) (.ok (some (⟨.final, .bytes b⟩ : Msg)))])
            exact ⟨a, f, p, bob1, bob2, tx, b'', b, s, h1, h2, h3, ⟨5, by simp [Answered]⟩, hs, hb, hpre⟩
          refine ⟨.inl ⟨hS, ?_⟩, ?_⟩
          · intro b r hm
            rcases List.mem_append.1 hm with hm | hm
            · exact hn b _ hm
            · cases List.mem_singleton.1 hm
          · cases hw : w (t ++ [.did (.recv 5) (.ok (some (⟨.final, .bytes b⟩ : Msg)))]) (.publish b') with
            | ok id =>
              refine obeys_aliceDone (b := b') ?_ (hS.mono (List.prefix_append _ _)) (by simp [Answered])
              obtain ⟨p, bob1, bob2, b'', h1, h2, h3⟩ := hh
              refine h1.offer.mono ?_
              rw [List.append_assoc]; exact List.prefix_append _ _
            | error e =>
              refine obeys_giveUp (f := f) (tx := tx) hz hok ?_ ?_
              · refine hh.mono ?_
                rw [List.append_assoc]; exact List.prefix_append _ _
              intro b id hm
              rcases List.mem_append.1 hm with hm | hm
              · exact hN _ b id hm
              · cases List.mem_singleton.1 hm
  · exact hG _

/-- What is taken for granted: sizes, and that the node tells plausible things. -/
structure Fit (K : Kit) (w : Environment) : Prop where
  sizes : Sizes K.E K.W
  utxos : ∀ t lo hi id l v k, w t (.unspent lo hi id) = .ok l → v ∈ l → k.length = 32 → UtxoOk (Assets.keyed v id k)
  keys : ∀ t a k, w t (.key a) = .ok k → k.length = 32

theorem prefix_two (t s r : List Event) : t <+: t ++ s ++ r := by rw [List.append_assoc]; exact List.prefix_append _ _

theorem obeys_alicePartial {a : Alice} {f : Offer} {b : Bytes} {pre : List Event} (hz : Sizes K.E K.W) (hok : AliceOk a)
    (hc : Clean t 3) (hl : t = pre ++ [.did (.recv 60) (.ok (some (⟨.partialTx, .bytes b⟩ : Msg)))]) (hbeg : AliceBegan K t a) (hr : a.rand = K.rand)
    (htold : ∃ cs, Sent t .address (.address a.dst cs)) (hkey : Answered t .newAddr (a.dst, a.bkey)) (hf : Received t .offer (.offer f)) :
    Obeys w (AliceMay K) (alicePartial K a f b) (AliceEnd K) t := by
  have hS := hc.safe (K := K)
  have hbad : (¬ ∃ p, deserializeTx b = .ok p ∧ p.vout.length = 1 ∧ p.wit.vtxoutwit ≠ [] ∧ Finds K.E a.bkey p 0 f.asset f.amount) → AliceEnd K .raised t :=
    fun h => ⟨.partialTx pre a f b hl hbeg hf hkey h, hS⟩
  refine obeys_compute (fun x hx => hbad ?_) fun p hp => ?_
  · rintro ⟨p, h, -⟩
    rw [h] at hx
    cases hx
  have hp := up_ok hp
  refine obeys_compute (fun x hx => hbad ?_) fun u hu => ?_
  · rintro ⟨p', h, h'⟩
    rw [hp] at h
    cases h
    rw [C71_alice_accepts.2 h'] at hx
    cases hx
  have hchk : checkPartial K.E a f p = .ok () := hu
  have hrp : Received t .partialTx (.bytes b) := ⟨60, by rw [hl]; simp [Answered]⟩
  have hS2 : ∀ r, AliceSafe K (t ++ [.did (.recv 60) r]) := fun r => hc.recv.safe
  refine obeys_recvElse (.inl ⟨rfl, fun d => hc.semi⟩) (by simp) (fun e => ⟨.failed _ _ e rfl (by simp) (by simp), hS2 _⟩) ⟨.silence _ rfl, hS2 _⟩
    (fun d => ⟨⟨_, _, d, rfl⟩, hS2 _⟩) (fun m h1 h2 => ⟨.message _ m rfl h1 ?_, hS2 _⟩) fun d hw0 => ?_
  · rw [hc.waits]
    exact fun h => h2 h.1
  clear hw0
  split
  · rename_i l c
    have hc2 := hc.recv (k := 60) (a := .ok (some (⟨.addresses, .addresses l c⟩ : Msg)))
    have hpre : t <+: t ++ [.did (.recv 60) (.ok (some (⟨.addresses, .addresses l c⟩ : Msg)))] := List.prefix_append _ _
    have hbad : (¬ ∃ tx b', aliceAdd K.E K.W a p l c = .ok tx ∧ serializeTx tx = .ok b') →
        AliceEnd K .raised (t ++ [.did (.recv 60) (.ok (some (⟨.addresses, .addresses l c⟩ : Msg)))]) :=
      fun h => ⟨.join t a b p l c rfl (hbeg.mono hpre) (hkey.mono hpre) hr (hrp.mono hpre) hp h, hS2 _⟩
    refine obeys_compute (fun x hx => hbad ?_) fun tx htx => ?_
    · rintro ⟨tx, b', h, -⟩
      rw [h] at hx
      cases hx
    refine obeys_compute (fun x hx => hbad ?_) fun b' hb' => ?_
    · rintro ⟨tx', b', h, h'⟩
      rw [htx] at h
      cases h
      rw [h'] at hx
      cases hx
    have hb' := up_ok hb'
    obtain ⟨bob1, bob2, rfl, hs⟩ := C71_alice (offer := f) hz hok (show aliceJoin K.E K.W a f p l c = .ok tx by unfold aliceJoin; rw [hchk]; exact htx)
    have hag : AliceAgrees K (t ++ [.did (.recv 60) (.ok (some (⟨.addresses, .addresses [bob1, bob2] c⟩ : Msg)))]) a f p bob1 bob2 tx :=
      ⟨hbeg.mono hpre, let ⟨cs, h⟩ := htold; ⟨cs, h.mono hpre⟩, hkey.mono hpre, hf.mono hpre, ⟨b, hrp.mono hpre, hp⟩, ⟨c, 60, by simp [Answered]⟩, hs⟩
    refine obeys_call ?_ (fun e => ⟨gives_up (by simp) (by simp), ?_⟩) fun u _ => ?_
    · exact .inr (.inr (.inr (.inl ⟨a, f, p, bob1, bob2, tx, b', rfl, hag, hb', fun d r => hc2.semi⟩)))
    · rintro ⟨d, hd⟩
      rcases List.mem_append.1 hd with hd | hd
      · exact absurd hd hc2.semi
      · cases List.mem_singleton.1 hd
    · refine obeys_aliceLast hz hok ?_ ?_
      · exact ⟨p, bob1, bob2, b', hag.mono (List.prefix_append _ _), hb', by simp [Sent, Answered]⟩
      · intro b r hm
        rcases List.mem_append.1 hm with hm | hm
        · exact hc2.publish hm
        · cases List.mem_singleton.1 hm
  · rename_i d hd
    refine ⟨.message _ _ rfl (by simp) ?_, hS2 _⟩
    rw [hc.waits]
    rintro ⟨-, l, c, h⟩
    exact hd l c h

theorem still_gives_up {q : Query} {e : Fault} (h : still (.did q (.error e)) = true) : AliceGivesUp K (t ++ [.did q (.error e)]) :=
  gives_up (by rintro n rfl; cases h) (by rintro n rfl; cases h)

theorem Clean.fails (h : Clean t n) {ext : List Event} {q : Query} {e : Fault} (hi : Idle ext) (hq : still (.did q (.error e)) = true) :
    AliceEnd K .raised (t ++ ext ++ [.did q (.error e)]) :=
  ⟨still_gives_up hq, ((h.more hi).one hq).safe⟩

theorem Clean.fails1 (h : Clean t n) {q : Query} {e : Fault} (hq : still (.did q (.error e)) = true) :
    AliceEnd K .raised (t ++ [.did q (.error e)]) :=
  ⟨still_gives_up hq, (h.one hq).safe⟩

/-- Alice waits for a message. -/
theorem obeys_recvAlice {kind : MsgKind} {k : Data → Prog} (hc : Clean t n) (hb : kind ≠ .bye) (hx : ∀ m, AliceExpects n m → m.kind = kind)
    (hk : ∀ d, Obeys w (AliceMay K) (k d) (AliceEnd K) (t ++ [.did (.recv 60) (.ok (some (⟨kind, d⟩ : Msg)))])) :
    Obeys w (AliceMay K) (recv kind k) (AliceEnd K) t := by
  have hS2 : ∀ r, AliceSafe K (t ++ [.did (.recv 60) r]) := fun r => hc.recv.safe
  refine obeys_recvElse (.inl ⟨rfl, fun d => hc.semi⟩) hb (fun e => ⟨.failed _ _ e rfl (by simp) (by simp), hS2 _⟩) ⟨.silence _ rfl, hS2 _⟩
    (fun d => ⟨⟨_, _, d, rfl⟩, hS2 _⟩) (fun m h1 h2 => ⟨.message _ m rfl h1 ?_, hS2 _⟩) fun d _ => hk d
  rw [hc.waits]
  exact fun h => h2 (hx m h)

/-- ... and gets another. -/
theorem Clean.other (hc : Clean t n) {m : Msg} (h : m.kind ≠ .bye) (hx : ¬ AliceExpects n m) :
    AliceEnd K .raised (t ++ [.did (.recv 60) (.ok (some m))]) :=
  ⟨.message _ m rfl h (by rw [hc.waits]; exact hx), hc.recv.safe⟩

theorem obeys_newAddrAlice {next : Addr → Bytes → Prog} (hc : Clean t n)
    (hk : ∀ a k, Obeys w (AliceMay K) (next a k) (AliceEnd K) (t ++ [.did .newAddr (.ok (a, k))])) :
    Obeys w (AliceMay K) (newAddr K next) (AliceEnd K) t :=
  obeys_newAddr trivial (fun _ => hc.fails1 rfl) (fun a k h => ⟨.badKey t a k rfl h, (hc.more (idle_one rfl)).safe⟩) hk

theorem obeys_waitAlice {id : Bytes} {next : Prog} (hc : Clean t n)
    (hk : ∀ ext, Idle ext → Confirmed ext id → Obeys w (AliceMay K) next (AliceEnd K) (t ++ ext)) :
    Obeys w (AliceMay K) (waitConfirm id 60 next) (AliceEnd K) t := by
  refine obeys_waitConfirm (fun _ => trivial) (fun _ => trivial) 60 (fun ext h1 h2 => ?_) (fun pre q hq hp => ?_) fun ext h hc => hk ext h.idle hc
  · exact ⟨.unconfirmed id (unconfirmed_of h1 h2), (hc.more h2.waiting.idle).safe⟩
  · exact hc.fails hp.idle (by rcases hq with rfl | rfl <;> rfl)

theorem obeys_aliceOffered {u1 u2 uf : Utxo} {change : Addr} {f : Offer} (hz : Sizes K.E K.W) (hok : ∀ u ∈ [u1, u2, uf], UtxoOk u) (hfee : 20000 ≤ uf.amount)
    (hc : Clean t 2) (hbeg : ∀ dst bkey, AliceBegan K t ⟨u1, u2, uf, K.feeAsset, dst, bkey, change, K.rand⟩) (hcf : uf.assetCommitment ≠ none)
    (hf : Received t .offer (.offer f)) (hfr : Fresh t) :
    Obeys w (AliceMay K) (aliceOffered K u1 u2 uf change f) (AliceEnd K) t := by
  refine obeys_balances (fun _ _ => trivial) (fun pre x e hp => hc.fails hp.idle rfl) fun ext hl => ?_
  replace hc := hc.more hl.idle
  replace hfr := hfr.more hl.idle
  replace hbeg := fun dst bkey => (hbeg dst bkey).mono (List.prefix_append t ext)
  replace hf := hf.mono (List.prefix_append t ext)
  generalize t ++ ext = t at *
  refine obeys_newAddrAlice hc fun dst bkey => ?_
  replace hc := hc.more (idle_one (q := .newAddr) (a := .ok (dst, bkey)) rfl)
  replace hfr := hfr.more (idle_one (q := .newAddr) (a := .ok (dst, bkey)) rfl)
  replace hbeg := (hbeg dst bkey).mono (List.prefix_append t [.did .newAddr (.ok (dst, bkey))])
  replace hf := hf.mono (List.prefix_append t [.did .newAddr (.ok (dst, bkey))])
  have hkey : Answered (t ++ [.did .newAddr (.ok (dst, bkey))]) .newAddr (dst, bkey) := by simp [Answered]
  have hlast : ∃ pre, t ++ [.did .newAddr (.ok (dst, bkey))] = pre ++ [Event.did .newAddr (.ok (dst, bkey))] := ⟨t, rfl⟩
  generalize t ++ [.did .newAddr (.ok (dst, bkey))] = t at *
  dsimp only
  split
  · rename_i c1 c2 c3 h1 h2 h3
    refine obeys_call ?_ (fun e => hc.fails1 rfl) fun u _ => ?_
    · obtain ⟨pre, hlast⟩ := hlast
      exact .inr (.inr (.inl ⟨_, c1, c2, c3, pre, rfl, hbeg, h1, h2, h3, hlast, fun d r hm => by cases hfr _ hm⟩))
    · replace hc := hc.one (e := .did (.send ⟨.address, .address dst [c1, c2, c3]⟩) (.ok u)) rfl
      refine obeys_recvAlice hc (by simp) (fun m h => h.1) fun d => ?_
      split
      · rename_i b
        exact obeys_alicePartial hz ⟨hok, hfee⟩ hc.recv rfl (hbeg.mono (prefix_two _ _ _)) rfl ⟨[c1, c2, c3], by simp [Sent, Answered]⟩ (hkey.mono (prefix_two _ _ _))
          (hf.mono (prefix_two _ _ _))
      · rename_i d hd
        exact hc.other (by simp) fun ⟨_, b, h⟩ => hd b h
  · rename_i hne
    refine ⟨.plain _ hbeg ?_, hc.safe⟩
    dsimp only
    by_contra hcon
    cases h1 : u1.assetCommitment with
    | none => exact hcon (.inl h1)
    | some c1 =>
      cases h2 : u2.assetCommitment with
      | none => exact hcon (.inr h2)
      | some c2 =>
        cases h3 : uf.assetCommitment with
        | none => exact hcf h3
        | some c3 => exact hne c1 c2 c3 h1 h2 h3

theorem obeys_aliceReady {u1 u2 uf : Utxo} {change : Addr} {id : Bytes} (hz : Sizes K.E K.W) (hok : ∀ u ∈ [u1, u2, uf], UtxoOk u) (hfee : 20000 ≤ uf.amount)
    (hc : Clean t 1) (hbeg : ∀ dst bkey, AliceBegan K t ⟨u1, u2, uf, K.feeAsset, dst, bkey, change, K.rand⟩) (hcf : uf.assetCommitment ≠ none)
    (hid : Received t .waitTxid (.bytes id)) (hfr : Fresh t) :
    Obeys w (AliceMay K) (aliceReady K u1 u2 uf change id) (AliceEnd K) t := by
  refine obeys_call trivial (fun e => hc.fails1 rfl) fun u _ => ?_
  replace hc := hc.more (idle_one (q := .generate) (a := .ok u) rfl)
  replace hfr := hfr.more (idle_one (q := .generate) (a := .ok u) rfl)
  refine obeys_waitAlice hc fun ext1 i1 c1 => ?_
  replace hc := hc.more i1
  replace hfr := hfr.more i1
  refine obeys_waitAlice hc fun ext2 i2 c2 => ?_
  replace hc := hc.more i2
  replace hfr := hfr.more i2
  refine obeys_waitAlice hc fun ext3 i3 c3 => ?_
  replace hc := hc.more i3
  replace hfr := hfr.more i3
  have hp : t <+: t ++ [.did .generate (.ok u)] ++ ext1 ++ ext2 ++ ext3 := by simp only [List.append_assoc]; exact List.prefix_append _ _
  replace hbeg := fun dst bkey => (hbeg dst bkey).mono hp
  replace hid := hid.mono hp
  replace c1 := c1.mem (t' := t ++ [.did .generate (.ok u)] ++ ext1 ++ ext2 ++ ext3) (by intro x hx; simp [hx])
  replace c2 := c2.mem (t' := t ++ [.did .generate (.ok u)] ++ ext1 ++ ext2 ++ ext3) (by intro x hx; simp [hx])
  replace c3 := c3.mem (t' := t ++ [.did .generate (.ok u)] ++ ext1 ++ ext2 ++ ext3) (by intro x hx; simp [hx])
  clear hp i1 i2 i3
  generalize t ++ [.did .generate (.ok u)] ++ ext1 ++ ext2 ++ ext3 = t at *
  refine obeys_call ?_ (fun e => hc.fails1 rfl) fun u _ => ?_
  · exact .inr (.inl ⟨_, id, rfl, hbeg change [], hid, c1, c2, c3⟩)
  · replace hc := hc.more (idle_one (q := .send ⟨.offer, .offers [⟨u1.asset, u1.amount⟩, ⟨u2.asset, u2.amount⟩]⟩) (a := .ok u) rfl)
    replace hfr := hfr.more (idle_one (q := .send ⟨.offer, .offers [⟨u1.asset, u1.amount⟩, ⟨u2.asset, u2.amount⟩]⟩) (a := .ok u) rfl)
    refine obeys_recvAlice hc (by simp) (fun m h => h.1) fun d => ?_
    split
    · rename_i f
      exact obeys_aliceOffered hz hok hfee hc.recv (fun dst bkey => (hbeg dst bkey).mono (prefix_two _ _ _)) hcf ⟨60, by simp [Answered]⟩ hfr.recv
    · rename_i d hd
      exact hc.other (by simp) fun ⟨_, f, h⟩ => hd f h

/-- The events of issuing an asset. -/
def issued (id : Bytes) (v : Utxo) (k : Bytes) : List Event := [.did .issue (.ok id), .did (.unspent 0 0 id) (.ok [v]), .did (.key v.addr) (.ok k)]

theorem issued_idle (id : Bytes) (v : Utxo) (k : Bytes) : Idle (issued id v k) := ((idle_nil.cons rfl).cons rfl).cons rfl

theorem obeys_issueAlice {next : Utxo → Prog} (hw : Fit K w) (hc : Clean t n) (hm : Assets.issues t < 2)
    (hk : ∀ id v k, UtxoOk (Assets.keyed v id k) → Obeys w (AliceMay K) (next (Assets.keyed v id k)) (AliceEnd K) (t ++ issued id v k)) :
    Obeys w (AliceMay K) (issueAsset next) (AliceEnd K) t :=
  obeys_issueAsset hm (fun _ _ _ _ => trivial) (fun _ _ => trivial) (fun _ _ _ hi hs => hc.fails hi hs)
    (fun id l hl => ⟨.unspent _ id l rfl hl, ((hc.more (idle_one rfl)).more (idle_one rfl)).safe⟩) fun id v k ⟨_, w1⟩ ⟨_, w2⟩ =>
    hk id v k (hw.utxos _ _ _ _ _ v k w1 (by simp) (hw.keys _ _ _ w2))

theorem obeys_alice (hw : Fit K w) : Obeys w (AliceMay K) (alice K) (AliceEnd K) [] := by
  refine obeys_issueAlice hw clean_nil (by decide) fun id1 v1 k1 o1 => ?_
  have hc := clean_nil.more (issued_idle id1 v1 k1)
  refine obeys_issueAlice hw hc (show 1 < 2 by decide) fun id2 v2 k2 o2 => ?_
  replace hc := hc.more (issued_idle id2 v2 k2)
  refine obeys_feeUtxo (fun _ _ _ _ => trivial) (fun _ _ => trivial) (fun _ _ _ hi hs => hc.fails hi hs)
    (fun l hl => ⟨.poor _ l rfl hl, (hc.more (idle_one rfl)).safe⟩)
    (fun l v k h1 h2 => ⟨.plainFee _ l v k rfl h1 h2, (hc.more ((idle_nil.cons rfl).cons rfl)).safe⟩) fun l v3 k3 ⟨_, w1⟩ ⟨_, w2⟩ he hcf => ?_
  have o3 := hw.utxos _ _ _ _ _ v3 k3 w1 he.1 (hw.keys _ _ _ w2)
  replace hc := hc.more (ext := [.did (.unspent 1 9999999 K.feeAsset) (.ok l), .did (.key v3.addr) (.ok k3)]) ((idle_nil.cons rfl).cons rfl)
  refine obeys_newAddrAlice hc fun change kc => ?_
  replace hc := hc.more (idle_one (q := .newAddr) (a := .ok (change, kc)) rfl)
  have hbeg : ∀ dst bkey, AliceBegan K ([] ++ issued id1 v1 k1 ++ issued id2 v2 k2 ++
      [.did (.unspent 1 9999999 K.feeAsset) (.ok l), .did (.key v3.addr) (.ok k3)] ++ [.did .newAddr (.ok (change, kc))])
      ⟨Assets.keyed v1 id1 k1, Assets.keyed v2 id2 k2, Assets.keyed v3 K.feeAsset k3, K.feeAsset, dst, bkey, change, K.rand⟩ :=
    fun dst bkey => ⟨id1, v1, k1, id2, v2, k2, l, v3, k3, kc, List.prefix_rfl, rfl, rfl, rfl, he, rfl⟩
  have hfr : Fresh ([] ++ issued id1 v1 k1 ++ issued id2 v2 k2 ++
      [.did (.unspent 1 9999999 K.feeAsset) (.ok l), .did (.key v3.addr) (.ok k3)] ++ [.did .newAddr (.ok (change, kc))]) := by
    intro e he
    simp only [issued, List.nil_append, List.cons_append, List.mem_cons, List.not_mem_nil, or_false] at he
    rcases he with rfl | rfl | rfl | rfl | rfl | rfl | rfl | rfl | rfl <;> rfl
  generalize [] ++ issued id1 v1 k1 ++ issued id2 v2 k2 ++
      [.did (.unspent 1 9999999 K.feeAsset) (.ok l), .did (.key v3.addr) (.ok k3)] ++ [.did .newAddr (.ok (change, kc))] = t at *
  refine obeys_call (.inl rfl) (fun e => hc.fails1 rfl) fun u _ => ?_
  replace hc := hc.more (idle_one (q := .send ⟨.ready, .nothing⟩) (a := .ok u) rfl)
  replace hfr := hfr.more (idle_one (q := .send ⟨.ready, .nothing⟩) (a := .ok u) rfl)
  refine obeys_recvAlice hc (by simp) (fun m h => h.1) fun d => ?_
  split
  · rename_i id
    refine obeys_aliceReady hw.sizes ?_ he.2.1 hc.recv (fun dst bkey => (hbeg dst bkey).mono (prefix_two _ _ _)) hcf ⟨60, by simp [Answered]⟩ hfr.recv
    intro u hu
    simp only [List.mem_cons, List.not_mem_nil, or_false] at hu
    rcases hu with rfl | rfl | rfl
    · exact o1
    · exact o2
    · exact o3
  · rename_i d hd
    exact hc.other (by simp) fun ⟨_, f, h⟩ => hd f h

/-! ### Bob -/

theorem _root_.Verif.Spec.Assets.BobBegan.mono {u : Utxo} (h : BobBegan t u) (hs : t <+: t') : BobBegan t' u := by
  obtain ⟨id, v, k, h, h2⟩ := h
  exact ⟨id, v, k, h.trans hs, h2⟩

/-- What is taken for granted in addition: what Alice says is an address. -/
structure FitBob (K : Kit) (w : Environment) : Prop extends Fit K w where
  formats : Formats K.E.z
  rewinds : Rewinds K.E.z
  addrs : ∀ t n a cs, w t (.recv n) = .ok (some (⟨.address, .address a cs⟩ : Msg)) → AddrOk a

theorem obeys_recvBob {kind : MsgKind} {k : Data → Prog} (hc : waits t = n) (hb : kind ≠ .bye) (hx : ∀ m, BobExpects n m → m.kind = kind)
    (hk : ∀ d, w t (.recv 60) = .ok (some (⟨kind, d⟩ : Msg)) → Obeys w (BobMay K) (k d) (BobEnds K) (t ++ [.did (.recv 60) (.ok (some (⟨kind, d⟩ : Msg)))])) :
    Obeys w (BobMay K) (recv kind k) (BobEnds K) t := by
  refine obeys_recvElse rfl hb (fun e => .failed _ _ e rfl) (.silence _ rfl) (fun d => ⟨_, _, d, rfl⟩) (fun m h1 h2 => .message _ m rfl h1 ?_) hk
  rw [hc]
  exact fun h => h2 (hx m h)

theorem obeys_checkBalances {fs : List Offer} (hr : Received t .offer (.offers fs)) (hp : ∃ b id, Answered t (.publish b) id)
    (hF : BobEnds K .finished (t ++ fs.map fun f => Event.did (.balance f.asset) (.ok f.amount))) :
    Obeys w (BobMay K) (checkBalances fs .finish) (BobEnds K) t := by
  suffices ∀ l s, s ++ l = fs → Obeys w (BobMay K) (checkBalances l .finish) (BobEnds K) (t ++ s.map fun f => Event.did (.balance f.asset) (.ok f.amount)) by
    simpa using this fs [] rfl
  intro l
  induction l with
  | nil =>
    rintro s rfl
    simp only [List.append_nil] at hF
    exact hF
  | cons f l ih =>
    rintro s hs
    refine obeys_call trivial (fun e => .failed _ _ e rfl) fun n _ => ?_
    split
    · rename_i hn
      refine .balance _ fs f n rfl (hr.mono (prefix_two _ _ _)) (by rw [← hs]; simp) hn ?_
      obtain ⟨b, id, hp⟩ := hp
      exact ⟨b, id, hp.mono (prefix_two _ _ _)⟩
    · rename_i hn
      simp only [ne_eq, not_not] at hn
      subst hn
      have := ih (s ++ [f]) (by rw [← hs]; simp)
      simpa using this

theorem obeys_bobSemi {u : Utxo} {fs : List Offer} {l : List (Addr × Bytes)} {b c : Bytes} {pre : List Event} (hz : Sizes K.E K.W) (hu : UtxoOk u)
    (hc : Clean t 4) (hl : t = pre ++ [.did (.recv 60) (.ok (some (⟨.semiSigned, .bytes b⟩ : Msg)))]) (hbeg : BobBegan t u)
    (hr : Received t .offer (.offers fs)) (hlen : l.length = fs.length) (hm : ∀ x ∈ l, Answered t .newAddr x)
    (hs : Sent t .addresses (.addresses (l.map Prod.fst) c)) :
    Obeys w (BobMay K) (bobSemi K u fs (l.map Prod.snd) b) (BobEnds K) t := by
  have hbad : (¬ ∃ semi tx b', deserializeTx b = .ok semi ∧ bobFinish K.E K.W ⟨u, K.rand⟩ (fs.zip (l.map Prod.snd)) semi = .ok tx ∧
        serializeTx tx = .ok b') → BobEnds K .raised t := fun h => .semi pre u fs l b hl hbeg hr hlen hm h
  refine obeys_compute (fun x hx => hbad ?_) fun semi hsemi => ?_
  · rintro ⟨semi, tx, b', h, -⟩
    rw [h] at hx
    cases hx
  have hsemi := up_ok hsemi
  refine obeys_compute (fun x hx => hbad ?_) fun tx htx => ?_
  · rintro ⟨semi', tx, b', h, h', -⟩
    rw [hsemi] at h
    cases h
    rw [h'] at hx
    cases hx
  refine obeys_compute (fun x hx => hbad ?_) fun b' hb' => ?_
  · rintro ⟨semi', tx', b', h, h', h''⟩
    rw [hsemi] at h
    cases h
    rw [htx] at h'
    cases h'
    rw [h''] at hx
    cases hx
  have hb' := up_ok hb'
  have hrs : Received t .semiSigned (.bytes b) := ⟨60, by rw [hl]; simp [Answered]⟩
  have hB := C71_bob hz hu htx
  refine obeys_call ?_ (fun e => .failed _ _ e rfl) fun _ _ => ?_
  · exact .inr (.inr (.inr (.inr (.inl ⟨u, fs, l, c, b, semi, tx, b', rfl, hbeg, hr, hlen, hm, hs, hrs, hsemi, hB, hb', fun d r hm => by cases hc.quiet _ hm⟩))))
  have hw5 : waits (t ++ [.did (.send ⟨.final, .bytes b'⟩) (.ok ())]) = 4 := by rw [waits_append, hc.waits]; rfl
  have hpub : ∀ b r, Event.did (.publish b) r ∉ t ++ [.did (.send ⟨.final, .bytes b'⟩) (.ok ())] := by
    intro b r hm
    rcases List.mem_append.1 hm with hm | hm
    · exact hc.publish hm
    · cases List.mem_singleton.1 hm
  replace hr := hr.mono (List.prefix_append t [.did (.send ⟨.final, .bytes b'⟩) (.ok ())])
  replace hs : Sent (t ++ [.did (.send ⟨.final, .bytes b'⟩) (.ok ())]) .final (.bytes b') := by simp [Sent, Answered]
  generalize t ++ [.did (.send ⟨.final, .bytes b'⟩) (.ok ())] = t at *
  refine obeys_call ⟨hs, hpub⟩ (fun e => .failed _ _ e rfl) fun id _ => ?_
  have hw4 : waits (t ++ [.did (.publish b') (.ok id)]) = 4 := by rw [waits_append, hw5]; rfl
  replace hr := hr.mono (List.prefix_append t [.did (.publish b') (.ok id)])
  replace hs := hs.mono (List.prefix_append t [.did (.publish b') (.ok id)])
  have hp : Answered (t ++ [.did (.publish b') (.ok id)]) (.publish b') id := by simp [Answered]
  generalize t ++ [.did (.publish b') (.ok id)] = t at *
  refine obeys_recvBob hw4 (by simp) (fun m h => h) fun d _ => ?_
  refine obeys_balances (fun _ _ => trivial) (fun _ _ e _ => .failed _ _ e rfl) fun ext _ => ?_
  refine obeys_checkBalances (hr.mono (prefix_two _ _ _)) ⟨b', id, hp.mono (prefix_two _ _ _)⟩ ?_
  exact ⟨fs, b', id, _, rfl, hr.mono (prefix_two _ _ _), hs.mono (prefix_two _ _ _), hp.mono (prefix_two _ _ _), d, 60, by simp [Answered]⟩

theorem obeys_bobTold {u : Utxo} {fs : List Offer} {a : Addr} {cs : List Bytes} (hw : FitBob K w) (hu : UtxoOk u) (hc : Clean t 3)
    (hbeg : BobBegan t u) (hr : Received t .offer (.offers fs)) (ha : Received t .address (.address a cs)) (hok : AddrOk a) (hfr : Fresh t) :
    Obeys w (BobMay K) (bobTold K u fs a cs) (BobEnds K) t := by
  refine obeys_balances (fun _ _ => trivial) (fun _ _ e _ => .failed _ _ e rfl) fun ext hl => ?_
  replace hc := hc.more hl.idle
  replace hfr := hfr.more hl.idle
  replace hbeg := hbeg.mono (List.prefix_append t ext)
  replace hr := hr.mono (List.prefix_append t ext)
  replace ha := ha.mono (List.prefix_append t ext)
  generalize t ++ ext = t at *
  have hbad : (¬ ∃ p b, bobStart K.E ⟨u, K.rand⟩ a cs = .ok p ∧ serializeTx p = .ok b) → BobEnds K .raised t := fun h => .start u a cs hbeg ha h
  refine obeys_compute (fun x hx => hbad ?_) fun p hp => ?_
  · rintro ⟨p, b, h, -⟩
    rw [h] at hx
    cases hx
  refine obeys_compute (fun x hx => hbad ?_) fun b hb => ?_
  · rintro ⟨p', b, h, h'⟩
    rw [hp] at h
    cases h
    rw [h'] at hx
    cases hx
  have hb := up_ok hb
  have hB := C71_bob_begins hw.formats hw.rewinds hu hok hp
  refine obeys_call ?_ (fun e => .failed _ _ e rfl) fun _ _ => ?_
  · exact .inr (.inr (.inl ⟨u, a, cs, p, b, rfl, hbeg, ha, hB, hb⟩))
  replace hc := hc.more (idle_one (q := .send ⟨.partialTx, .bytes b⟩) (a := .ok ()) rfl)
  replace hfr := hfr.more (idle_one (q := .send ⟨.partialTx, .bytes b⟩) (a := .ok ()) rfl)
  refine obeys_newAddrs (fun _ => trivial) (fun l e => .failed _ _ e rfl) (fun l x k hk => .badKey _ x k rfl hk) fun l hl => ?_
  replace hc := hc.more (made_idle l)
  replace hfr := hfr.more (made_idle l)
  split
  · rename_i hcm
    exact .start u a cs (hbeg.mono (prefix_two _ _ _)) (ha.mono (prefix_two _ _ _)) fun ⟨p', b', h, _⟩ => by
      unfold bobStart at h
      rw [show (Bob.mk u K.rand).utxo.assetCommitment = none from hcm] at h
      cases h
  · rename_i c hcm
    replace hbeg := hbeg.mono (prefix_two t [.did (.send ⟨.partialTx, .bytes b⟩) (.ok ())] (made l))
    replace hr := hr.mono (prefix_two t [.did (.send ⟨.partialTx, .bytes b⟩) (.ok ())] (made l))
    have hmd : ∀ x ∈ l, Answered (t ++ [.did (.send ⟨.partialTx, .bytes b⟩) (.ok ())] ++ made l) .newAddr x :=
      fun x hx => List.mem_append_right _ (List.mem_map.2 ⟨x, hx, rfl⟩)
    have hlast : ∃ pre, t ++ [.did (.send ⟨.partialTx, .bytes b⟩) (.ok ())] ++ made l = pre ++ l.map fun x => Event.did .newAddr (.ok x) := ⟨_, rfl⟩
    generalize t ++ [.did (.send ⟨.partialTx, .bytes b⟩) (.ok ())] ++ made l = t at *
    refine obeys_call ?_ (fun e => .failed _ _ e rfl) fun _ _ => ?_
    · obtain ⟨pre, hlast⟩ := hlast
      exact .inr (.inr (.inr (.inl ⟨u, fs, l, c, pre, rfl, hbeg, hr, hcm, hl, hlast, fun d r hm => by cases hfr _ hm⟩)))
    replace hc := hc.one (e := .did (.send ⟨.addresses, .addresses (l.map Prod.fst) c⟩) (.ok ())) rfl
    refine obeys_recvBob hc.waits (by simp) (fun m h => h.1) fun d hw0 => ?_
    clear hw0
    split
    · rename_i sb
      refine obeys_bobSemi (c := c) hw.sizes hu hc.recv rfl (hbeg.mono (prefix_two _ _ _)) (hr.mono (prefix_two _ _ _)) hl
        (fun x hx => (hmd x hx).mono (prefix_two _ _ _)) ?_
      simp [Sent, Answered]
    · rename_i d hd
      refine .message _ _ rfl (by simp) ?_
      rw [hc.waits]
      exact fun ⟨_, f, h⟩ => hd f h

theorem obeys_bob (hw : FitBob K w) : Obeys w (BobMay K) (bob K) (BobEnds K) [] := by
  refine obeys_issueAsset rfl (fun _ _ _ _ => trivial) (fun _ _ => trivial) (fun _ _ e _ _ => .failed _ _ e rfl)
    (fun id l hl => .unspent _ id l rfl hl) fun id v k ⟨_, w1⟩ ⟨_, w2⟩ => ?_
  have hu := hw.utxos _ _ _ _ _ v k w1 (by simp) (hw.keys _ _ _ w2)
  have hc := clean_nil.more (issued_idle id v k)
  have hfr : Fresh ([] ++ issued id v k) := Fresh.more (t := []) (by intro e he; cases he) (issued_idle id v k)
  have hbeg : BobBegan ([] ++ issued id v k) (Assets.keyed v id k) := ⟨id, v, k, List.prefix_rfl, rfl⟩
  change Obeys _ _ _ _ ([] ++ issued id v k)
  generalize [] ++ issued id v k = t at *
  generalize Assets.keyed v id k = u at *
  refine obeys_recvBob hc.waits (by simp) (fun m h => h) fun d _ => ?_
  replace hc := hc.recv (k := 60) (a := .ok (some (⟨.ready, d⟩ : Msg)))
  replace hfr := hfr.recv (k := 60) (a := .ok (some (⟨.ready, d⟩ : Msg)))
  replace hbeg := hbeg.mono (List.prefix_append t [.did (.recv 60) (.ok (some (⟨.ready, d⟩ : Msg)))])
  refine obeys_call ?_ (fun e => .failed _ _ e rfl) fun _ _ => ?_
  · exact .inl ⟨u, rfl, hbeg, d, 60, by simp [Answered]⟩
  generalize t ++ [.did (.recv 60) (.ok (some (⟨.ready, d⟩ : Msg)))] = t at *
  replace hc := hc.more (idle_one (q := .send ⟨.waitTxid, .bytes u.prevout.hash⟩) (a := .ok ()) rfl)
  replace hfr := hfr.more (idle_one (q := .send ⟨.waitTxid, .bytes u.prevout.hash⟩) (a := .ok ()) rfl)
  replace hbeg := hbeg.mono (List.prefix_append t [.did (.send ⟨.waitTxid, .bytes u.prevout.hash⟩) (.ok ())])
  generalize t ++ [.did (.send ⟨.waitTxid, .bytes u.prevout.hash⟩) (.ok ())] = t at *
  refine obeys_recvBob hc.waits (by simp) (fun m h => h.1) fun d hw0 => ?_
  clear hw0
  split
  · rename_i fs
    replace hc := hc.recv (k := 60) (a := .ok (some (⟨.offer, .offers fs⟩ : Msg)))
    replace hfr := hfr.recv (k := 60) (a := .ok (some (⟨.offer, .offers fs⟩ : Msg)))
    replace hbeg := hbeg.mono (List.prefix_append t [.did (.recv 60) (.ok (some (⟨.offer, .offers fs⟩ : Msg)))])
    have hr : Received (t ++ [.did (.recv 60) (.ok (some (⟨.offer, .offers fs⟩ : Msg)))]) .offer (.offers fs) := ⟨60, by simp [Answered]⟩
    generalize t ++ [.did (.recv 60) (.ok (some (⟨.offer, .offers fs⟩ : Msg)))] = t at *
    refine obeys_call ?_ (fun e => .failed _ _ e rfl) fun _ _ => ?_
    · exact .inr (.inl ⟨u, fs, rfl, hbeg, hr⟩)
    replace hc := hc.more (idle_one (q := .send ⟨.offer, .offer ⟨u.asset, u.amount⟩⟩) (a := .ok ()) rfl)
    replace hfr := hfr.more (idle_one (q := .send ⟨.offer, .offer ⟨u.asset, u.amount⟩⟩) (a := .ok ()) rfl)
    refine obeys_recvBob hc.waits (by simp) (fun m h => h.1) fun d hw0 => ?_
    split
    · rename_i a cs
      exact obeys_bobTold hw hu hc.recv (hbeg.mono (prefix_two _ _ _)) (hr.mono (prefix_two _ _ _)) ⟨60, by simp [Answered]⟩ (hw.addrs _ _ _ _ hw0) hfr.recv
    · rename_i d hd
      refine .message _ _ rfl (by simp) ?_
      rw [hc.waits]
      exact fun ⟨_, a, cs, h⟩ => hd a cs h
  · rename_i d hd
    refine .message _ _ rfl (by simp) ?_
    rw [hc.waits]
    exact fun ⟨_, f, h⟩ => hd f h

/-! ### Whatever happens -/

theorem alice_bye (t : List Event) : AliceMay K t (.send ⟨.bye, .nothing⟩) := .inr (.inr (.inr (.inr (.inr rfl))))

theorem bob_bye (t : List Event) : BobMay K t (.send ⟨.bye, .nothing⟩) := .inr (.inr (.inr (.inr (.inr rfl))))

/-- C80: whatever the world answers, whatever Alice does was allowed when it was done. -/
theorem C80_alice (hw : Fit K w) : Allowed (AliceMay K) (participant w (alice K)).2 :=
  (participant_obeys (obeys_alice hw) alice_bye).1

/-- C80: ... and so for Bob. -/
theorem C80_bob (hw : FitBob K w) : Allowed (BobMay K) (participant w (bob K)).2 :=
  (participant_obeys (obeys_bob hw) bob_bye).1

/-- C80: how it ends for Alice, and why. -/
theorem C80_alice_ends (hw : Fit K w) : Ended (AliceEnds K) (participant w (alice K)) :=
  (participant_obeys (obeys_alice hw) alice_bye).2.mono fun _ _ h => h.1.1

/-- C80: how it ends for Bob, and why. -/
theorem C80_bob_ends (hw : FitBob K w) : Ended (BobEnds K) (participant w (bob K)) :=
  (participant_obeys (obeys_bob hw) bob_bye).2.mono fun _ _ h => h.1

/-! ### What becomes of Alice's funds -/

/-- When Bob has the signatures, a transaction is accepted or the one that takes everything back is
sent, provided that can be made.  `extra` says what the last message may be. -/
def C80_backed (extra : MsgKind → Prop) : Prop :=
  ∀ (K : Kit) (w : Environment), Fit K w → CanTakeBack K w → (∀ t (m : Msg), w t (.recv 5) = .ok (some m) → extra m.kind) →
    (∃ d, Sent (participant w (alice K)).2 .semiSigned d) → Settled K (participant w (alice K)).2

theorem not_stuck (hc : CanTakeBack K w) (hf : From w t) : ¬ Stuck K t := by
  intro h
  cases h with
  | noAddress pre e h =>
    obtain ⟨x, h1, -⟩ := hc.addrs pre
    rw [hf pre _ _ [] h] at h1
    cases h1
  | badKey pre a k h h2 =>
    obtain ⟨x, h1, h3⟩ := hc.addrs pre
    rw [hf pre _ _ [] h] at h1
    cases h1
    rw [h2] at h3
    cases h3
  | same a h1 h2 => exact h2 (hc.distinct t a hf h1)
  | poor a u h1 h2 h3 h4 =>
    have := hc.rich t a hf h1 u h2 h3
    omega
  | failed a pre a1 k1 a2 k2 a3 k3 h1 h2 h3 =>
    refine h3 (hc.claim t a pre a1 k1 (pre ++ [.did .newAddr (.ok (a1, k1))]) a2 k2
      (pre ++ [.did .newAddr (.ok (a1, k1)), .did .newAddr (.ok (a2, k2))]) a3 k3 hf h1 ?_ ?_ ?_)
    · exact hf pre _ _ _ h2
    · exact hf (pre ++ [.did .newAddr (.ok (a1, k1))]) .newAddr (.ok (a2, k2)) [.did .newAddr (.ok (a3, k3))] (by rw [h2]; simp)
    · exact hf (pre ++ [.did .newAddr (.ok (a1, k1)), .did .newAddr (.ok (a2, k2))]) .newAddr (.ok (a3, k3)) [] (by rw [h2]; simp)

/-- C80: unless Bob says bye then. -/
theorem C80_back_partial : C80_backed (· ≠ .bye) := by
  intro K w hw hc hm hs
  have key : ∀ t, AliceSafe K t → From w t → (∃ d, Sent t .semiSigned d) → Settled K t := by
    intro t h hf hs
    rcases h hs with h | h | ⟨pre, d, h⟩
    · exact h
    · exact absurd h (not_stuck hc hf)
    · exact absurd rfl (hm pre _ (hf pre _ _ [] h))
  have hE := (participant_obeys (obeys_alice hw) alice_bye).2
  have hbye : ∀ t a, (∃ d, Sent (t ++ [.did (.send ⟨.bye, .nothing⟩) a]) .semiSigned d) → ∃ d, Sent t .semiSigned d := by
    rintro t a ⟨d, h⟩
    rcases List.mem_append.1 h with h | h
    · exact ⟨d, h⟩
    · cases List.mem_singleton.1 h
  revert hE hs
  obtain ⟨o, t⟩ := participant w (alice K)
  intro hs hE
  cases o with
  | done => exact key t hE.1.2 hE.2 hs
  | exit0 => exact key t hE.1.2 hE.2 hs
  | exit =>
    rcases hE with hE | ⟨t', rfl, hE⟩
    · exact key t hE.1.2 hE.2 hs
    · exact (key t' hE.1.2 hE.2 (hbye _ _ hs)).mono (List.prefix_append _ _)
  | crash =>
    obtain ⟨t', e, rfl, hE⟩ := hE
    exact (key t' hE.1.2 hE.2 (hbye _ _ hs)).mono (List.prefix_append _ _)

end Verif.AssetRun
