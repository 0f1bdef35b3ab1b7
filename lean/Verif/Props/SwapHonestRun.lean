import Verif.Props.SwapFollow
import Verif.Props.SwapSpendGoes
import Verif.Props.SwapBtc
import Verif.Props.SwapWatch
import Verif.Props.NodeSpend
/-
C98: if the nodes do what nodes do, the cross-chain swap of two honest participants takes place, whatever the order of their steps.
-/
namespace Verif.SwapPair
open Verif Spec Spec.Cross CrossSwap SwapSpend SwapBtc SwapRun

variable {M M' : Type} [AddCommGroup M] [Module Scalar M] [AddCommGroup M'] [Module Scalar M']
variable {S : Scene} {C : Curve M} {P : Pedersen S.K.E.z M'} {Good Asset : Bytes → Prop}

/-! ### What is made -/

/-- What the participants compute. -/
structure Facts (S : Scene) (pe pb : Bytes) (n : Nat) (c : BtcTx) : Prop where
  sumElt : S.K.W.addPubs (S.K.E.z.pubOf S.ob.contractKey) (S.K.E.z.pubOf S.o.blindingKey) = .ok pe
  sumBtc : S.K.W.addPubs (S.K.E.z.pubOf S.ob.contractKey) (S.K.E.z.pubOf S.o.btcKey) = .ok pb
  valid : S.K.E.z.secValid S.o.blindingKey = true
  fitElt : (eltContract S.K.W.r pe (S.K.E.z.pubOf S.ob.spendKey) (S.K.E.z.pubOf S.o.exitKey)).length ≤ 520
  fitBtc : (btcContract pb (S.K.E.z.pubOf S.ob.exitKey)).length ≤ 10000
  payBtc : S.PaysBtc S.btcId (p2wsh S.K.B (btcContract pb (S.K.E.z.pubOf S.ob.exitKey))) agreed
  payElt : ∃ bf abf, S.PaysElt S.eltId (p2sh S.K.W (eltContract S.K.W.r pe (S.K.E.z.pubOf S.ob.spendKey) (S.K.E.z.pubOf S.o.exitKey)))
    (S.K.E.z.pubOf S.o.blindingKey) agreed bf abf
  deposit : WFTx (S.elt S.eltId)
  claims : WFTx (S.elt S.claimId)
  checks : ∀ m, 6 ≤ m → aliceChecks S.K.E S.K.W S.K.B S.alice S.aliceBtc m (S.btc S.btcId) = .ok n
  bobs : ∀ m, 2 ≤ m → bobClaim S.K.E S.K.W S.bob S.eltId m (S.elt S.eltId) = .ok (S.elt S.claimId)
  bobsGood : S.GoodElt (S.elt S.claimId)
  alices : aliceClaim S.K.E S.K.W S.K.B S.alice S.aliceBtc S.eltId (S.elt S.claimId) S.btcId n = .ok c
  alicesGood : S.GoodBtc c

theorem sum_ok {E : Env} {W : World} (hC : OnCurve C E W) {k k' : Bytes} (h : IsKey k) (h' : IsKey k') (hs : (beVal k + beVal k') % secpN ≠ 0) :
    ∃ p, W.addPubs (E.z.pubOf k) (E.z.pubOf k') = .ok p := by
  rw [(pubOf_key hC h).2, (pubOf_key hC h').2]
  refine ⟨_, hC.sum _ _ fun h0 => ?_⟩
  rw [← add_smul, ← Nat.cast_add] at h0
  have := C.order _ h0
  rw [ZMod.natCast_eq_zero_iff] at this
  exact hs (Nat.mod_eq_zero_of_dvd this)

theorem facts (H : S.Honest C P Good Asset) : ∃ pe pb n c, Facts S pe pb n c := by
  have k1 : IsKey S.o.blindingKey := H.keys _ (by simp)
  have k2 : IsKey S.o.btcKey := H.keys _ (by simp)
  have k3 : IsKey S.o.exitKey := H.keys _ (by simp)
  have k4 : IsKey S.ob.contractKey := H.keys _ (by simp)
  have k5 : IsKey S.ob.spendKey := H.keys _ (by simp)
  have k6 : IsKey S.ob.exitKey := H.keys _ (by simp)
  obtain ⟨pe, hpe⟩ := sum_ok H.curve k4 k1 H.sumElt
  obtain ⟨pb, hpb⟩ := sum_ok H.curve k4 k2 H.sumBtc
  have cb := H.paysBtc _ ⟨pb, hpb, rfl⟩
  obtain ⟨bf, abf, hu, hd⟩ := H.paysElt
  have ce := hd _ ⟨pe, hpe, rfl⟩
  obtain ⟨b1, ⟨hex, b2⟩, n, b3, b4⟩ := cb
  obtain ⟨e1, e2, m, out, e3, e4, e5, e6, e7⟩ := ce
  have v1 := (pubOf_key H.curve k1).1
  have v3 := (pubOf_key H.curve k3).1
  have v5 := (pubOf_key H.curve k5).1
  have v6 := (pubOf_key H.curve k6).1
  have dep : Deposit S.K.E S.K.W S.bob.blindingKey (eltContract S.K.W.r pe (S.K.E.z.pubOf S.bob.spendKey) S.bob.alicePub) (S.elt S.eltId) m out 101000000 bf abf :=
    ⟨e4, e5, e7 _ v1 rfl⟩
  have fe := (length_contract S.K.W.r (H.sizes.sum _ _ _ hpe) (H.sizes.pub _ v5) (H.sizes.pub _ v3)).trans (by decide : 300 ≤ 520)
  have fb := (length_btcContract (H.sizes.sum _ _ _ hpb) (H.sizes.pub _ v6)).trans (by decide : 200 ≤ 10000)
  have claims : ∀ k : Int, 2 ≤ k → bobClaim S.K.E S.K.W S.bob S.eltId k (S.elt S.eltId) = .ok (S.elt S.claimId) ∧ WFTx (S.elt S.claimId) := by
    intro k hk
    obtain ⟨t, h1, h2⟩ := claim_goes (b := S.bob) H.works H.formats H.rewinds H.wire H.sizes fe e1 e3 hk H.addrB hu H.reveals hpe dep
    have := (H.claim k t h1).1
    rw [this]
    exact ⟨h1, h2⟩
  obtain ⟨h2, hwf⟩ := claims 2 (by omega)
  obtain ⟨x, x1, x2⟩ := (H.claim 2 _ h2).2 _ ⟨pe, hpe, rfl⟩
  obtain ⟨c, hc⟩ := C77_honest (a := S.alice) (x := S.aliceBtc) (b := S.bob) (btcTxid := S.btcId) (n := n) H.curve H.adds H.pub H.order H.sizes H.nonce H.inverse x2 k4 k1 k5 k3 k2 rfl rfl rfl rfl
    H.found H.sumBtc b1 b3 (fun t ht => H.written n t b3 ht) hpe x1 h2
  obtain ⟨s1, p, s2, s3⟩ := C77_claim H.curve H.pub H.order H.sizes (a := S.alice) (x := S.aliceBtc) k1 k2 (pubOf_key H.curve k4).2
    ((H.sizes.pub _ v6).trans (by decide)) hc
  have hp : p = pb := Except.ok.inj (s2.symm.trans hpb)
  subst hp
  refine ⟨pe, _, n, c, hpe, s2, v1, fe, fb, ⟨b1, ⟨hex, b2⟩, n, b3, ?_⟩, ⟨bf, abf, e1, e2, m, out, e3, ?_, e5, e6, e7⟩, e2, hwf, ?_, fun k hk => (claims k hk).1, ?_, hc, ?_⟩
  · rw [p2wsh_eq H.hash]
    exact b4
  · rw [p2sh_eq H.sizes.hash]
    exact e4
  · intro k hk
    exact (C77_checks H.hash).2 ⟨hk, _, s2, fb, b4⟩
  · obtain ⟨p', n', o', bf', abf', g1, g2, g3, g4⟩ := C94_claim (b := S.bob) H.keeps H.formats H.wire H.exact H.sizes H.addrB hu.asset.2 h2
    obtain ⟨p2, n2, o2, u1, u2, u3, u4, u5⟩ := C76_claim_unlocks (b := S.bob) H.sizes H.adds v5 h2
    rw [u3] at g3
    cases g3
    have := u2.symm.trans g2.first.1
    cases this
    obtain ⟨w, hw⟩ := serTx_exists (WFTx.serOK hwf)
    exact ⟨_, _, _, u3, u2, u4, u5, g4, w, hw⟩
  · refine ⟨n, _, ?_, b4.1, s3, ?_, H.written n c b3 s1⟩
    · rw [s1.1]; rfl
    · rw [s1.2.1]
      show (100000000 + 0 : Int) ≤ 101000000
      decide

/-! ### The nodes -/

/-- What the messages say. -/
def toldElt (S : Scene) (m : Msg) (t : List Event) : Prop := m.kind = .eltTxid → Confirmed t .elt S.eltId 2
def toldBtc (S : Scene) (m : Msg) (t : List Event) : Prop := m.kind = .btcTxid → Confirmed t .btc S.btcId 6

/-- Bob has sent the claim. -/
def Posted (S : Scene) (t : List Event) : Prop := ∃ c, Answered t (.sendElt c) S.claimId

def partA (S : Scene) : Part := ⟨S.node, toldElt S, toldBtc S, Posted S, fun _ => True⟩
def partB (S : Scene) : Part := ⟨S.node, toldBtc S, toldElt S, Posted S, fun _ => True⟩

theorem confirmed_more {t : List Event} {c : SwapRun.Chain} {id : Bytes} {n : Int} (h : Confirmed t c id n) (l : List Event) : Confirmed (t ++ l) c id n := by
  obtain ⟨i, h1, h2⟩ := h
  exact ⟨i, List.mem_append_left _ h1, h2⟩

theorem fits (S : Scene) : Fits (partA S) (partB S) where
  node := rfl
  posts := rfl
  telA := rfl
  telB := rfl
  keepA := fun _ _ _ h e => confirmed_more (h e) _
  keepB := fun _ _ _ h e => confirmed_more (h e) _
  keepP := fun _ _ ⟨c, h⟩ => ⟨c, List.mem_append_left _ h⟩

theorem confirmed_bound (c : SwapRun.Chain) (id : Bytes) : ∀ t : List Event, ∃ b : Int, ∀ n, Confirmed t c id n → n ≤ b
  | [] => ⟨0, fun n ⟨_, h, _⟩ => by cases h⟩
  | e :: t => by
    obtain ⟨b, hb⟩ := confirmed_bound c id t
    by_cases he : ∃ (i : Info) (m : Int), e = .did (.tx c id) (.ok i) ∧ i.confirmations = some m
    · obtain ⟨i, m, rfl, hm⟩ := he
      refine ⟨max b m, ?_⟩
      rintro n ⟨j, h1, m', h2, h3⟩
      rcases List.mem_cons.1 h1 with h1 | h1
      · cases h1
        rw [hm] at h2
        cases h2
        exact h3.trans (le_max_right _ _)
      · exact (hb n ⟨j, h1, m', h2, h3⟩).trans (le_max_left _ _)
    · refine ⟨b, ?_⟩
      rintro n ⟨j, h1, m', h2, h3⟩
      rcases List.mem_cons.1 h1 with h1 | h1
      · exact absurd ⟨j, m', h1.symm, h2⟩ he
      · exact hb n ⟨j, h1, m', h2, h3⟩

variable {pe pb : Bytes} {n : Nat} {c : BtcTx}

theorem tx_answer (F : Facts S pe pb n c) (t o : List Event) (ch : SwapRun.Chain) (id : Bytes) : ∃ r, S.node t o (.tx ch id) r := by
  obtain ⟨b1, h1⟩ := confirmed_bound ch id t
  obtain ⟨b2, h2⟩ := confirmed_bound ch id o
  have hex : ∃ hex, (ch = .elt → id = S.eltId ∨ id = S.claimId → serializeTx (S.elt id) = .ok hex) ∧
      (ch = .btc → id = S.btcId → S.K.parseBtc hex = .ok (S.btc id)) := by
    cases ch with
    | elt =>
      by_cases hi : id = S.eltId ∨ id = S.claimId
      · have hw : WFTx (S.elt id) := by
          rcases hi with rfl | rfl
          · exact F.deposit
          · exact F.claims
        obtain ⟨b, hb⟩ := serTx_exists (WFTx.serOK hw)
        exact ⟨b, fun _ _ => hb, fun h => by cases h⟩
      · exact ⟨[], fun _ h => absurd h hi, fun h => by cases h⟩
    | btc =>
      obtain ⟨_, ⟨hex, hp⟩, _⟩ := F.payBtc
      by_cases hi : id = S.btcId
      · subst hi
        exact ⟨hex, (fun h => by cases h), fun _ _ => hp⟩
      · exact ⟨[], (fun h => by cases h), fun _ h => absurd h hi⟩
  obtain ⟨hex, g1, g2⟩ := hex
  let i : Info := { confirmations := some (max 6 (max b1 b2)), hex := hex, vout := [] }
  refine ⟨.ok i, .inr ⟨i, rfl, g1, g2⟩, fun _ => ⟨i, _, rfl, rfl, le_max_left _ _⟩, ?_, fun _ => ⟨i, rfl⟩⟩
  rintro m (hm | hm)
  · exact ⟨i, _, rfl, rfl, (h1 m hm).trans ((le_max_left _ _).trans (le_max_right _ _))⟩
  · exact ⟨i, _, rfl, rfl, (h2 m hm).trans ((le_max_right _ _).trans (le_max_right _ _))⟩

/-! ### What they do -/

theorem follows_call {R : Part} {t : List Event} {q : Query} {k : Val q → Prog} {l : List Item} (hq : ofNode q = true)
    (he : ∀ o, R.Knows t o → ∃ r, R.node t o q r)
    (hk : ∀ o r, R.Knows t o → R.node t o q r → ∃ a, r = .ok a ∧ Follows R (t ++ [.did q (.ok a)]) (k a) l) : Follows R t (call q k) l := by
  refine .asks hq he fun o r ho hr => ?_
  obtain ⟨a, rfl, h⟩ := hk o r ho hr
  exact h

/-- `.tx` questions only. -/
def Lookups (c : SwapRun.Chain) (id : Bytes) (ext : List Event) : Prop := ∀ e ∈ ext, ∃ r, e = .did (.tx c id) r

theorem follows_wait {R : Part} (hN : R.node = S.node) (F : Facts S pe pb n c) {ch : SwapRun.Chain} {id : Bytes} {num : Int} (hn : 0 < num ∧ num ≤ 6) {next : Prog}
    {l : List Item} : ∀ (k : Nat) (t : List Event), 59 ≤ lookups t ch id + k →
      (∀ ext, Lookups ch id ext → Confirmed (t ++ ext) ch id num → Follows R (t ++ ext) next l) → Follows R t (waitConfirm ch id num (k + 1) next) l
  | k, t, hl, h => by
    refine .asks rfl (fun o _ => by rw [hN]; exact tx_answer F t o ch id) fun o r _ hr => ?_
    rw [hN] at hr
    obtain ⟨r1, r2, _, _⟩ := hr
    have again : (∀ i m, r = .ok i → i.confirmations = some m → ¬ 6 ≤ m) → Follows R (t ++ [.did (.tx ch id) r]) (waitConfirm ch id num k next) l := by
      intro hno
      have hlt : lookups t ch id < 59 := by
        by_contra hge
        obtain ⟨i, m, h1, h2, h3⟩ := r2 (by omega)
        exact hno i m h1 h2 h3
      obtain ⟨k, rfl⟩ : ∃ k', k = k' + 1 := ⟨k - 1, by omega⟩
      refine follows_wait hN F hn k _ ?_ ?_
      · have : lookups (t ++ [.did (.tx ch id) r]) ch id = lookups t ch id + 1 := by
          simp [lookups, List.countP_append, List.countP_cons]
        omega
      · intro ext he hc
        rw [List.append_assoc] at hc ⊢
        refine h _ ?_ hc
        intro e hm
        rcases List.mem_append.1 hm with hm | hm
        · exact ⟨r, List.mem_singleton.1 hm⟩
        · exact he e hm
    rcases r1 with rfl | ⟨i, rfl, -, -⟩
    · exact again (fun i m h => by cases h)
    · show Follows R _ (if i.confirmations.getD 0 ≥ num then next else waitConfirm ch id num k next) l
      by_cases hc : ∃ m, i.confirmations = some m ∧ num ≤ m
      · obtain ⟨m, h1, h2⟩ := hc
        rw [if_pos (by rw [h1]; exact h2)]
        refine h _ (fun e he => ⟨_, List.mem_singleton.1 he⟩) ⟨i, List.mem_append_right _ (List.mem_singleton.2 rfl), m, h1, h2⟩
      · rw [if_neg]
        · refine again fun j m h1 h2 h3 => hc ⟨m, ?_, by omega⟩
          cases h1
          exact h2
        · intro hge
          cases hi : i.confirmations with
          | none =>
            rw [hi] at hge
            exact absurd hge (by simp; omega)
          | some m =>
            rw [hi] at hge
            exact hc ⟨m, hi, hge⟩

theorem looks_more {t ext : List Event} {ch : SwapRun.Chain} {id : Bytes} (h : Lookups ch id ext) : looks (t ++ ext) = looks t := by
  have : looks ext = 0 := by
    unfold looks
    rw [List.countP_eq_zero]
    intro e he
    obtain ⟨r, rfl⟩ := h e he
    simp
  unfold looks at this ⊢
  rw [List.countP_append]
  omega

theorem follows_reveal (H : S.Honest C P Good Asset) {next : Bytes → Prog} {l : List Item} : ∀ (k : Nat) (t : List Event) (vs : List SwapWatch.View) (cur : Option Bytes),
    S.K.passes = vs.length + k → looks t = vs.length → SwapWatch.passes S.eltId none vs = .waiting cur →
    (∀ i v, vs[i]? = some v → v.confirmations ≤ 10 ∧ ∃ len, Spec.Answers S.chain S.paidAt len v ∧ (S.K.passes ≤ i + (S.claimedAt - S.paidAt + 2) → S.claimedAt < len)) →
    (∀ ext, (∃ (x : Bytes) (v : SwapWatch.View) (h : Bytes) (b : SwapWatch.Block), Answered (t ++ ext) (.look x) v ∧ v.block h = some b ∧ ∃ s ∈ b.txs, s.id = S.claimId) →
      Follows (partA S) (t ++ ext) (next S.claimId) l) →
    Follows (partA S) t (waitReveal S.eltId cur k next) (.see :: l)
  | 0, t, vs, cur, h1, _, h3, h4, _ => by
    exfalso
    have hp := H.patience
    have := SwapWatch.C78_finds_partial (vs := vs.take (vs.length - (S.claimedAt - S.paidAt + 2))) (ws := vs.drop (vs.length - (S.claimedAt - S.paidAt + 2))) H.first
      (fun v hv => by
        obtain ⟨i, hi⟩ := List.mem_iff_getElem?.1 (List.mem_of_mem_take hv)
        obtain ⟨g1, len, g2, _⟩ := h4 i v hi
        exact ⟨g1, len, g2⟩)
      (fun v hv => by
        obtain ⟨i, hi⟩ := List.mem_iff_getElem?.1 hv
        rw [List.getElem?_drop] at hi
        obtain ⟨g1, len, g2, g3⟩ := h4 _ v hi
        exact ⟨g1, len, g3 (by omega), g2⟩)
      (by rw [List.length_drop]; omega)
    rw [List.take_append_drop, SwapWatch.watch, h3] at this
    cases this
  | k + 1, t, vs, cur, h1, h2, h3, h4, h5 => by
    refine .see (fun r => match r with
      | .ok v => match SwapWatch.pass S.eltId cur v with
        | .found _ => l
        | _ => .see :: l
      | .error _ => .see :: l) ?_ rfl ?_ ?_
    · intro r
      cases r with
      | error e => exact .inl rfl
      | ok v =>
        dsimp only
        cases SwapWatch.pass S.eltId cur v with
        | found id => exact .inr rfl
        | die => exact .inl rfl
        | waiting x => exact .inl rfl
    · rintro o _ ⟨c, hc⟩
      obtain ⟨v, hv, ha⟩ := H.inTime
      obtain ⟨h, ts, s, hs, _⟩ := H.first.1.2
      exact ⟨.ok v, fun _ => ⟨v, _, rfl, ha, hv, fun _ => ⟨c, hc⟩, fun _ => (List.getElem?_eq_some_iff.1 hs).1⟩⟩
    · intro o r _ hr
      obtain ⟨v, len, rfl, a1, a2, _, a3⟩ := hr rfl
      have h4' : ∀ i w, (vs ++ [v])[i]? = some w → w.confirmations ≤ 10 ∧
          ∃ len, Spec.Answers S.chain S.paidAt len w ∧ (S.K.passes ≤ i + (S.claimedAt - S.paidAt + 2) → S.claimedAt < len) := by
        intro i w hw
        by_cases hi : i < vs.length
        · rw [List.getElem?_append_left hi] at hw
          exact h4 i w hw
        · rw [List.getElem?_append_right (by omega)] at hw
          have hi' : i = vs.length := by
            have := (List.getElem?_eq_some_iff.1 hw).1
            simp at this
            omega
          subst hi'
          simp at hw
          subst hw
          exact ⟨a2, len, a1, fun h => a3 (by rw [h2]; exact h)⟩
      have hall : ∀ w ∈ vs ++ [v], ∃ len, Spec.Answers S.chain S.paidAt len w := fun w hw => by
        obtain ⟨i, hi⟩ := List.mem_iff_getElem?.1 hw
        obtain ⟨_, len, g, _⟩ := h4' i w hi
        exact ⟨len, g⟩
      have hpass : SwapWatch.passes S.eltId none (vs ++ [v]) = SwapWatch.pass S.eltId cur v := by
        rw [SwapWatch.passes_append, h3]
        show (match SwapWatch.pass S.eltId cur v with | .waiting cur => SwapWatch.passes S.eltId cur [] | o => o) = _
        cases SwapWatch.pass S.eltId cur v <;> rfl
      show Follows (partA S) (t ++ [.did (.look S.eltId) (.ok v)]) (match SwapWatch.pass S.eltId cur v with
        | .found id => next id
        | .die => .die true
        | .waiting cur => waitReveal S.eltId cur k next) (match SwapWatch.pass S.eltId cur v with
        | .found _ => l
        | _ => .see :: l)
      cases he : SwapWatch.pass S.eltId cur v with
      | found id =>
        dsimp only
        rw [he] at hpass
        obtain ⟨_, _, hf⟩ := (SwapWatch.C78_first hall).1 id hpass
        have hid := (SwapWatch.first_unique hf H.first).2
        subst hid
        refine h5 _ ⟨S.eltId, v, ?_⟩
        unfold SwapWatch.pass at he
        split at he
        · cases he
        · split at he
          · cases he
          · rename_i h
            split at he
            · cases he
            · rename_i b hb
              split at he
              · rename_i id' hs
                cases he
                obtain ⟨p, s, g1, g2, _⟩ := SwapWatch.spender_some hs
                exact ⟨h, b, List.mem_append_right _ (List.mem_singleton.2 rfl), hb, s, List.mem_of_getElem? g1, g2⟩
              · cases he
      | die =>
        exfalso
        rw [he] at hpass
        obtain ⟨w, hw, hc⟩ := (SwapWatch.C78_first hall).2 hpass
        obtain ⟨i, hi⟩ := List.mem_iff_getElem?.1 hw
        have := (h4' i w hi).1
        omega
      | waiting cur' =>
        dsimp only
        rw [he] at hpass
        refine follows_reveal H k _ (vs ++ [v]) cur' (by simp; omega) ?_ hpass h4' ?_
        · rw [List.length_append, ← h2]
          simp [looks, List.countP_append]
        · intro ext hx
          rw [List.append_assoc] at hx ⊢
          exact h5 _ hx

/-- What one knows from a message. -/
theorem knows_told {R : Part} {t o : List Event} {m : Msg} (h : R.Knows t o) (hm : Event.did .recv (.ok (some m)) ∈ t) : R.heard m o := h m hm

theorem follows_recv {R : Part} {t : List Event} {kd : SwapRun.Kind} {d : List Bytes} {k : List Bytes → Prog} {l : List Item} (hb : kd ≠ .bye)
    (h : Follows R (t ++ [.did .recv (.ok (some ⟨kd, d⟩))]) (k d) l) : Follows R t (recv kd k) (.inp ⟨kd, d⟩ :: l) := by
  refine .inp ?_
  show Follows R _ (if kd = .bye then .die true else if kd ≠ kd then .die false else k d) l
  rw [if_neg hb, if_neg (by simp)]
  exact h

theorem follows_compute {R : Part} {t : List Event} {α : Type} {x : Except CrossSwap.Stop α} {a : α} {k : α → Prog} {l : List Item} (hx : x = .ok a)
    (h : Follows R t (k a) l) : Follows R t (compute x k) l := by
  rw [hx]
  exact h

theorem looks_did {t : List Event} {q : Query} {r : Ans q} (h : ∀ id, q ≠ .look id) : looks (t ++ [.did q r]) = looks t := by
  unfold looks
  rw [List.countP_append]
  cases q <;> simp at h ⊢

/-- After Alice has paid. -/
theorem alice_paid (H : S.Honest C P Good Asset) (F : Facts S pe pb n c) {t : List Event} (ht : looks t = 0) :
    Follows (partA S) t (alicePaid S.K S.alice S.aliceBtc S.btcId n S.eltId) [.out ⟨.eltTxid, [S.eltId]⟩, .see] := by
  refine .wish (follows_wait rfl F (by decide) 59 t (by omega) fun ext he hc => ?_)
  refine .out (fun _ => hc) ?_
  refine follows_reveal H S.K.passes _ [] none (by simp) ?_ rfl (by simp) fun ext2 hx => ?_
  · rw [looks_did (by simp), looks_more he, ht]
    rfl
  generalize t ++ ext ++ [.did (.send ⟨.eltTxid, [S.eltId]⟩) (.ok ())] ++ ext2 = t' at hx
  clear hc he
  refine follows_call rfl (fun o _ => tx_answer F t' o .elt S.claimId) fun o r _ hr => ?_
  obtain ⟨r1, -, -, r4⟩ := hr
  obtain ⟨x, v, h, b, g1, g2, g3⟩ := hx
  obtain ⟨i, rfl⟩ := r4 ⟨x, v, h, b, g1, rfl, g2, g3⟩
  refine ⟨i, rfl, ?_⟩
  have hhex : serializeTx (S.elt S.claimId) = .ok i.hex := by
    rcases r1 with h | ⟨j, hj, hj', -⟩
    · cases h
    · cases hj
      exact hj' rfl (.inr rfl)
  obtain ⟨b', hb1, hb2⟩ := roundtrip_wf F.claims
  rw [hhex] at hb1
  cases hb1
  refine follows_wait rfl F (by decide) 59 _ (by omega) fun ext3 _ _ => ?_
  refine follows_compute (up_ok.2 hb2) (follows_compute F.alices ?_)
  refine follows_call rfl (fun o _ => ⟨.ok [], fun _ => ⟨_, rfl⟩⟩) fun o r _ hr => ?_
  obtain ⟨id, rfl⟩ := hr F.alicesGood
  refine ⟨id, rfl, follows_wait rfl F (by decide) 59 _ (by omega) fun ext4 _ _ => .fin trivial⟩

/-- What Alice does. -/
theorem alice_follows (H : S.Honest C P Good Asset) (F : Facts S pe pb n c) : Follows (partA S) [] (SwapRun.alice S.K S.o)
    [.out ⟨.pubkeys, [S.K.E.z.pubOf S.o.btcKey, S.K.E.z.pubOf S.o.exitKey]⟩, .out ⟨.blindingKey, [S.o.blindingKey]⟩,
     .inp ⟨.pubkeys, [S.K.E.z.pubOf S.ob.contractKey, S.K.E.z.pubOf S.ob.spendKey, S.K.E.z.pubOf S.ob.exitKey]⟩,
     .inp ⟨.btcTxid, [S.btcId]⟩, .out ⟨.eltTxid, [S.eltId]⟩, .see] := by
  refine .out (fun h => by cases h) (.out (fun h => by cases h) (follows_recv (by decide) ?_))
  refine follows_compute (up_ok.2 (exc_bind_ok.2 ⟨pe, F.sumElt, redeemable_ok.2 ⟨F.fitElt, rfl⟩⟩)) (follows_recv (by decide) ?_)
  refine follows_compute (up_ok.2 (exc_bind_ok.2 ⟨pb, F.sumBtc, rfl⟩)) ?_
  refine follows_call rfl (fun o _ => tx_answer F _ o _ _) fun o r ho hr => ?_
  obtain ⟨r1, -, r3, -⟩ := hr
  obtain ⟨i, m, rfl, hm, h6⟩ := r3 6 (.inr (knows_told ho (m := ⟨.btcTxid, [S.btcId]⟩) (by simp) rfl))
  refine ⟨i, rfl, ?_⟩
  have hhex : S.K.parseBtc i.hex = .ok (S.btc S.btcId) := by
    rcases r1 with h | ⟨j, hj, -, hj'⟩
    · cases h
    · cases hj
      exact hj' rfl rfl
  dsimp only
  rw [hm]
  dsimp only
  rw [if_neg (by omega)]
  refine follows_compute (up_ok.2 hhex) (follows_compute (F.checks m h6) ?_)
  refine follows_call rfl (fun o _ => ⟨.ok S.eltId, fun _ => rfl⟩) fun o r _ hr => ⟨_, hr F.payElt, alice_paid H F ?_⟩
  rfl

/-- After Bob has paid. -/
theorem bob_paid (F : Facts S pe pb n c) {t : List Event} :
    Follows (partB S) t (bobPaid S.K S.bob S.bobBtc S.btcId) [.out ⟨.btcTxid, [S.btcId]⟩, .inp ⟨.eltTxid, [S.eltId]⟩, .post] := by
  refine .wish (follows_wait rfl F (by decide) 59 t (by omega) fun ext he hc => ?_)
  refine .out (fun _ => hc) (follows_recv (by decide) ?_)
  refine follows_compute (up_ok.2 (exc_bind_ok.2 ⟨pe, F.sumElt, redeemable_ok.2 ⟨F.fitElt, rfl⟩⟩)) ?_
  refine follows_call rfl (fun o _ => tx_answer F _ o _ _) fun o r ho hr => ?_
  obtain ⟨r1, -, r3, -⟩ := hr
  obtain ⟨i, m, rfl, hm, h2⟩ := r3 2 (.inr (knows_told ho (m := ⟨.eltTxid, [S.eltId]⟩) (by simp) rfl))
  refine ⟨i, rfl, ?_⟩
  have hhex : serializeTx (S.elt S.eltId) = .ok i.hex := by
    rcases r1 with h | ⟨j, hj, hj', -⟩
    · cases h
    · cases hj
      exact hj' rfl (.inl rfl)
  obtain ⟨b', hb1, hb2⟩ := roundtrip_wf F.deposit
  rw [hhex] at hb1
  cases hb1
  rw [hm]
  dsimp only
  rw [if_neg (by omega)]
  refine follows_compute (up_ok.2 hb2) (follows_compute (F.bobs m h2) ?_)
  refine .post rfl (fun o _ => ⟨.ok S.claimId, fun _ _ => rfl⟩) (fun o r _ hr => ?_) fun o r _ hr => ?_
  · rw [hr F.bobsGood rfl]
    exact ⟨_, List.mem_append_right _ (List.mem_singleton.2 rfl)⟩
  · rw [hr F.bobsGood rfl]
    exact follows_wait rfl F (by decide) 59 _ (by omega) fun ext4 _ _ => .fin trivial

/-- What Bob does. -/
theorem bob_follows (F : Facts S pe pb n c) : Follows (partB S) [] (SwapRun.bob S.K S.ob)
    [.inp ⟨.pubkeys, [S.K.E.z.pubOf S.o.btcKey, S.K.E.z.pubOf S.o.exitKey]⟩, .inp ⟨.blindingKey, [S.o.blindingKey]⟩,
     .out ⟨.pubkeys, [S.K.E.z.pubOf S.ob.contractKey, S.K.E.z.pubOf S.ob.spendKey, S.K.E.z.pubOf S.ob.exitKey]⟩,
     .out ⟨.btcTxid, [S.btcId]⟩, .inp ⟨.eltTxid, [S.eltId]⟩, .post] := by
  refine follows_recv (by decide) (follows_recv (by decide) ?_)
  show Follows _ _ (bobKeys _ _ _ _ _) _
  unfold bobKeys
  rw [if_neg (by simp [F.valid])]
  refine follows_compute (up_ok.2 F.sumElt) (.out (fun h => by cases h) ?_)
  refine follows_compute (up_ok.2 (exc_bind_ok.2 ⟨pb, F.sumBtc, redeemable_ok.2 ⟨F.fitBtc, rfl⟩⟩)) ?_
  exact follows_call rfl (fun o _ => ⟨.ok S.btcId, fun _ => rfl⟩) fun o r _ hr => ⟨_, hr F.payBtc, bob_paid F⟩

/-! ### C98 -/

theorem goes (H : S.Honest C P Good Asset) : ∃ sa sb, Goes (partA S) (partB S) S.start false sa sb := by
  obtain ⟨pe, pb, n, c, F⟩ := facts H
  refine ⟨_, _, ⟨none, _, rfl, alice_follows H F⟩, ⟨none, _, rfl, bob_follows F⟩, ?_, (fun h => by cases h), (fun m h => by cases h), (fun m h => by cases h),
    (fun m h => by cases h), fun m h => by cases h⟩
  exact .outA (.outA (.inB (.inB (.outB (.inA (.outB (.inA (.outA (.inB (.postB (.seeA .nil)))))))))))

/-- **C98.** Whatever the order of their steps, in whatever way the nodes answer: as long as not both are done, one of them can do something; and when both
are done, the swap has taken place. -/
theorem C98_always (H : S.Honest C P Good Asset) {s : State} (h : HonestRun S.node S.start s) :
    (∃ s', HonestStep S.node s s') ∨ (s.alice.proc = .over .done ∧ s.bob.proc = .over .done ∧ Swapped S.K S.o S.ob s.alice.trace s.bob.trace) := by
  obtain ⟨sa, sb, hg⟩ := goes H
  rcases hg.always (fits S) h with hs | ⟨h1, h2, -⟩
  · exact .inl hs
  · refine .inr ⟨h1, h2, C86_done (K := S.K) (KB := S.K) (o := S.o) (ob := S.ob) ?_ (honest_reaches h) h1 h2⟩
    exact ⟨rfl, ⟨H.wire, H.formats, H.rewinds, H.sizes, H.hash, H.addrA⟩, ⟨H.wire, H.formats, H.rewinds, H.sizes, H.hash, H.addrB⟩⟩

/-- **C98.** They cannot go on for ever. -/
theorem C98_ends (N : Node) : WellFounded fun s' s : State => HonestStep N s s' := honest_wf N

/-- **C98.** So the swap takes place, and it can be made. -/
theorem C98_swaps (H : S.Honest C P Good Asset) :
    ∃ s, HonestRun S.node S.start s ∧ s.alice.proc = .over .done ∧ s.bob.proc = .over .done ∧ Swapped S.K S.o S.ob s.alice.trace s.bob.trace :=
  gets fun _ h => C98_always H h

end Verif.SwapPair
