import Verif.Spec.SwapJoint
import Verif.Props.SwapRun
/-
C83: both participants of the cross-chain swap, connected by a pipe.
-/
namespace Verif.SwapRun
open Verif Spec SwapSpend SwapBtc

variable {K : Kit} {o : AliceOwn} {ob : BobOwn} {tA tB : List Event}

section helpers

theorem mem_allowed {may : List Event → Query → Prop} {t : List Event} {q : Query} {a : Ans q} (h : Allowed may t) (hm : Event.did q a ∈ t) :
    ∃ pre post, t = pre ++ Event.did q a :: post ∧ may pre q := by
  obtain ⟨pre, post, e⟩ := List.append_of_mem hm
  exact ⟨pre, post, e, h pre q a post e⟩

theorem pre_sub {t pre post : List Event} {e : Event} (h : t = pre ++ e :: post) : pre ⊆ t := by
  subst h; exact fun x hx => List.mem_append_left _ hx

variable (hA : Allowed (AliceMay K o) tA) (hB : Allowed (BobMay K ob) tB) (hl : Linked tA tB)
include hA hB hl

theorem alice_hears_keys {cp bp xp : Bytes} (h : Received tA .pubkeys [cp, bp, xp]) :
    cp = K.E.z.pubOf ob.contractKey ∧ bp = K.E.z.pubOf ob.spendKey ∧ xp = K.E.z.pubOf ob.exitKey := by
  obtain ⟨pre, post, -, hm⟩ := mem_allowed hB (hl.alice _ h)
  rcases hm with h | ⟨_, _, h, _⟩ | h
  · cases h; exact ⟨rfl, rfl, rfl⟩
  · cases h
  · cases h

theorem bob_hears_keys {ap ep : Bytes} (h : Received tB .pubkeys [ap, ep]) : ap = K.E.z.pubOf o.btcKey ∧ ep = K.E.z.pubOf o.exitKey := by
  obtain ⟨pre, post, -, hm⟩ := mem_allowed hA (hl.bob _ h)
  rcases hm with h | h | ⟨_, _, _, h, _⟩ | h
  · cases h; exact ⟨rfl, rfl⟩
  · cases h
  · cases h
  · cases h

theorem bob_hears_key {bk : Bytes} (h : Received tB .blindingKey [bk]) : bk = o.blindingKey := by
  obtain ⟨pre, post, -, hm⟩ := mem_allowed hA (hl.bob _ h)
  rcases hm with h | h | ⟨_, _, _, h, _⟩ | h
  · cases h
  · cases h; rfl
  · cases h
  · cases h

/-- All payments of Bob are one payment, to the contract. -/
theorem bob_payment {s : Bytes} {x : Int} {r : Ans (.payBtc s x)} (h : Event.did (.payBtc s x) r ∈ tB) :
    (∃ c, CoinContract K o ob c ∧ s = [0x00, 0x20] ++ K.B.sha256 c ∧ x = 101000000) ∧
    ∀ s' x' r', Event.did (.payBtc s' x') r' ∈ tB → Event.did (.payBtc s' x') r' = Event.did (.payBtc s x) r := by
  obtain ⟨pre, post, e, h1, h2, ap, ep, bk, p, h3, h4, h5, h6⟩ := mem_allowed hB h
  obtain ⟨rfl, rfl⟩ := bob_hears_keys hA hB hl (h3.mono (pre_sub e))
  refine ⟨⟨_, ⟨p, h5, rfl⟩, h6, h1⟩, ?_⟩
  intro s' x' r' h'
  rw [e] at h'
  rcases List.mem_append.1 h' with h' | h'
  · exact absurd h' (h2 _ _ _)
  · rcases List.mem_cons.1 h' with h' | h'
    · exact h'
    · obtain ⟨p2, q2, e2⟩ := List.append_of_mem h'
      have := hB (pre ++ Event.did (.payBtc s x) r :: p2) (.payBtc s' x') r' q2 (by rw [e, e2]; simp)
      exact absurd (by simp) (this.2.1 s x r)

theorem alice_payment {s p : Bytes} {x : Int} {r : Ans (.payElt s p x)} (h : Event.did (.payElt s p x) r ∈ tA) :
    (∃ c, AssetContract K o ob c ∧ s = [0xa9, 0x14] ++ K.W.hash160 c ++ [0x87] ∧ p = K.E.z.pubOf o.blindingKey ∧ x = 101000000) ∧
    ∀ s' p' x' r', Event.did (.payElt s' p' x') r' ∈ tA → Event.did (.payElt s' p' x') r' = Event.did (.payElt s p x) r := by
  obtain ⟨pre, post, e, h1, h2, h3, cp, bp, xp, q, id, n, h4, h5, h6, h7⟩ := mem_allowed hA h
  obtain ⟨rfl, rfl, rfl⟩ := alice_hears_keys hA hB hl (h4.mono (pre_sub e))
  refine ⟨⟨_, ⟨q, h5, rfl⟩, h6, h2, h1⟩, ?_⟩
  intro s' p' x' r' h'
  rw [e] at h'
  rcases List.mem_append.1 h' with h' | h'
  · exact absurd h' (h3 _ _ _ _)
  · rcases List.mem_cons.1 h' with h' | h'
    · exact h'
    · obtain ⟨p2, q2, e2⟩ := List.append_of_mem h'
      have := hA (pre ++ Event.did (.payElt s p x) r :: p2) (.payElt s' p' x') r' q2 (by rw [e, e2]; simp)
      exact absurd (by simp) (this.2.2.1 s p x r)

theorem coins_paid {s : Bytes} {x : Int} {id : Bytes} (h : Answered tB (.payBtc s x) id) : CoinsPaid K o ob tB id := by
  obtain ⟨⟨c, h1, rfl, rfl⟩, h2⟩ := bob_payment hA hB hl h
  refine ⟨⟨c, h1, h⟩, fun s' x' r' h' => ?_⟩
  have := h2 s' x' r' h'
  cases this; rfl

theorem asset_paid {s p : Bytes} {x : Int} {id : Bytes} (h : Answered tA (.payElt s p x) id) : AssetPaid K o ob tA id := by
  obtain ⟨⟨c, h1, rfl, rfl, rfl⟩, h2⟩ := alice_payment hA hB hl h
  refine ⟨⟨c, h1, h⟩, fun s' p' x' r' h' => ?_⟩
  have := h2 s' p' x' r' h'
  cases this; rfl

theorem deposit_coins {cp bp xp id : Bytes} {n : Nat} (hr : Received tA .pubkeys [cp, bp, xp]) (h : BobsDeposit K o tA cp xp id n) :
    CoinsPaid K o ob tB id ∧ Confirmed tB .btc id 6 ∧ CoinsSeen K o ob tA id n := by
  obtain ⟨h1, p, h2, i, c, tx, h3⟩ := h
  obtain ⟨rfl, rfl, rfl⟩ := alice_hears_keys hA hB hl hr
  obtain ⟨pre, post, e, hm⟩ := mem_allowed hB (hl.alice _ h1)
  refine ⟨?_, ?_, _, ⟨p, h2, rfl⟩, i, c, tx, h3⟩
  · rcases hm with h | ⟨ap, txid, h, hp, hc⟩ | h
    · cases h
    · cases h
      obtain ⟨_, _, hp⟩ := hp
      exact coins_paid hA hB hl (hp.mono (pre_sub e))
    · cases h
  · rcases hm with h | ⟨ap, txid, h, hp, hc⟩ | h
    · cases h
    · cases h
      exact hc.mono (pre_sub e)
    · cases h

theorem told_asset {id : Bytes} (h : Received tB .eltTxid [id]) : AssetPaid K o ob tA id ∧ Confirmed tA .elt id 2 := by
  obtain ⟨pre, post, e, hm⟩ := mem_allowed hA (hl.bob _ h)
  rcases hm with h | h | ⟨cp, bp, txid, h, hp, hc⟩ | h
  · cases h
  · cases h
  · cases h
    obtain ⟨_, _, hp, -⟩ := hp
    exact ⟨asset_paid hA hB hl (hp.mono (pre_sub e)), hc.mono (pre_sub e)⟩
  · cases h

theorem alice_pays {s p : Bytes} {x : Int} {r : Ans (.payElt s p x)} (h : Event.did (.payElt s p x) r ∈ tA) :
    ∃ id n, CoinsPaid K o ob tB id ∧ Confirmed tB .btc id 6 ∧ CoinsSeen K o ob tA id n := by
  obtain ⟨pre, post, e, h1, h2, h3, cp, bp, xp, q, id, n, h4, h5, h6, -, h7⟩ := mem_allowed hA h
  exact ⟨id, n, deposit_coins hA hB hl (h4.mono (pre_sub e)) (h7.mono (pre_sub e))⟩

theorem bob_claims {c : Tx} {a : Ans (.sendElt c)} (h : Event.did (.sendElt c) a ∈ tB) :
    ∃ id n, AssetPaid K o ob tA id ∧ Confirmed tA .elt id 2 ∧ AssetSeen K o ob tB id n ∧ Swept K.W.asset ob.dst id n 0xffffffff c := by
  obtain ⟨pre, post, e, h1, ap, ep, bk, p, id, n, q, bf, abf, h2, h3, h4, h5, ⟨i, m, tx, h6, h7, h8, h9, h10⟩, h11⟩ := mem_allowed hB h
  have hs := pre_sub e
  obtain ⟨rfl, rfl⟩ := bob_hears_keys hA hB hl (h2.mono hs)
  have := bob_hears_key hA hB hl (h3.mono hs)
  subst this
  obtain ⟨g1, g2⟩ := told_asset hA hB hl (h4.mono hs)
  exact ⟨id, n, g1, g2, ⟨_, ⟨p, h5, rfl⟩, i, m, tx, q, bf, abf, h6.mono hs, h7, h8, h9, h10⟩, h11⟩

theorem alice_claims {c : BtcTx} {a : Ans (.sendBtc c)} (h : Event.did (.sendBtc c) a ∈ tA) :
    ∃ id n elt, CoinsPaid K o ob tB id ∧ Confirmed tB .btc id 6 ∧ CoinsSeen K o ob tA id n ∧ BtcSwept o.btcDst id n 0xffffffff c ∧
      AssetPaid K o ob tA elt ∧ AssetTaken K o ob tA elt := by
  obtain ⟨pre, post, e, cp, bp, xp, p, id, n, txid, h1, h2, h3, h4, h5, sr, i, r, s, h6, h7, h8, h9⟩ := mem_allowed hA h
  have hs := pre_sub e
  obtain ⟨g1, g2, g3⟩ := deposit_coins hA hB hl (h1.mono hs) (h2.mono hs)
  obtain ⟨rfl, rfl, rfl⟩ := alice_hears_keys hA hB hl (h1.mono hs)
  obtain ⟨_, _, h3, -⟩ := h3
  exact ⟨id, n, txid, g1, g2, g3, h4, asset_paid hA hB hl (h3.mono hs), _, ⟨p, h5, rfl⟩, sr, i, r, s, h6.mono hs, h7, h8.mono hs, h9⟩

end helpers

/-- A run of both, connected. -/
structure Run (K : Kit) (o : AliceOwn) (ob : BobOwn) (rA rB : Over × List Event) : Prop where
  alice : ∃ w : Environment, rA = participant w (SwapRun.alice K o)
  bob : ∃ (w : Environment) (n : Nat), rB = participant w (SwapRun.bob { K with passes := n } ob)
  linked : Linked rA.2 rB.2

variable {rA rB : Over × List Event}

theorem Run.allowed (h : Run K o ob rA rB) (hA : Fit K o.dst) (hB : Fit K ob.dst) :
    Allowed (AliceMay K o) rA.2 ∧ Allowed (BobMay K ob) rB.2 := by
  obtain ⟨⟨w, rfl⟩, ⟨w', n, rfl⟩, -⟩ := h
  exact ⟨C79_alice hA, C79_bob (K := { K with passes := n }) ⟨hB.sizes, hB.formats, hB.rewinds, hB.keys, hB.hash, hB.addr⟩⟩

/-- **C83.** Bob pays only into the contract that both have the keys of. -/
theorem C83_bob_pays (h : Run K o ob rA rB) (hA : Fit K o.dst) (hB : Fit K ob.dst) {s : Bytes} {x : Int} {r : Ans (.payBtc s x)}
    (hp : Event.did (.payBtc s x) r ∈ rB.2) : (∃ c, CoinContract K o ob c ∧ s = [0x00, 0x20] ++ K.B.sha256 c ∧ x = 101000000) ∧
      ∀ id, r = .ok id → CoinsPaid K o ob rB.2 id := by
  obtain ⟨h1, h2⟩ := h.allowed hA hB
  refine ⟨(bob_payment h1 h2 h.linked hp).1, ?_⟩
  rintro id rfl
  exact coins_paid h1 h2 h.linked hp

/-- **C83.** Alice pays only into the contract that both have the keys of, and when Bob has paid the bitcoins into theirs, with a
transaction that both have seen confirmed. -/
theorem C83_alice_pays (h : Run K o ob rA rB) (hA : Fit K o.dst) (hB : Fit K ob.dst) {s p : Bytes} {x : Int} {r : Ans (.payElt s p x)}
    (hp : Event.did (.payElt s p x) r ∈ rA.2) :
    (∃ c, AssetContract K o ob c ∧ s = [0xa9, 0x14] ++ K.W.hash160 c ++ [0x87] ∧ p = K.E.z.pubOf o.blindingKey ∧ x = 101000000) ∧
      (∀ id, r = .ok id → AssetPaid K o ob rA.2 id) ∧
      ∃ id n, CoinsPaid K o ob rB.2 id ∧ Confirmed rB.2 .btc id 6 ∧ CoinsSeen K o ob rA.2 id n := by
  obtain ⟨h1, h2⟩ := h.allowed hA hB
  refine ⟨(alice_payment h1 h2 h.linked hp).1, ?_, alice_pays h1 h2 h.linked hp⟩
  rintro id rfl
  exact asset_paid h1 h2 h.linked hp

/-- **C83.** Bob claims only what Alice has paid, which opens to what was agreed with the key of Alice. -/
theorem C83_bob_claims (h : Run K o ob rA rB) (hA : Fit K o.dst) (hB : Fit K ob.dst) {c : Tx} {a : Ans (.sendElt c)}
    (hc : Event.did (.sendElt c) a ∈ rB.2) :
    ∃ id n, AssetPaid K o ob rA.2 id ∧ Confirmed rA.2 .elt id 2 ∧ AssetSeen K o ob rB.2 id n ∧ Swept K.W.asset ob.dst id n 0xffffffff c := by
  obtain ⟨h1, h2⟩ := h.allowed hA hB
  exact bob_claims h1 h2 h.linked hc

/-- **C83.** Alice claims only what Bob has paid, and only when what Alice has paid was taken. -/
theorem C83_alice_claims (h : Run K o ob rA rB) (hA : Fit K o.dst) (hB : Fit K ob.dst) {c : BtcTx} {a : Ans (.sendBtc c)}
    (hc : Event.did (.sendBtc c) a ∈ rA.2) :
    ∃ id n elt, CoinsPaid K o ob rB.2 id ∧ Confirmed rB.2 .btc id 6 ∧ CoinsSeen K o ob rA.2 id n ∧ BtcSwept o.btcDst id n 0xffffffff c ∧
      AssetPaid K o ob rA.2 elt ∧ AssetTaken K o ob rA.2 elt := by
  obtain ⟨h1, h2⟩ := h.allowed hA hB
  exact alice_claims h1 h2 h.linked hc

/-- **C83.** When both are done, the swap has taken place. -/
theorem C83_done (h : Run K o ob rA rB) (hA : Fit K o.dst) (hB : Fit K ob.dst) (hdA : rA.1 = .done) (hdB : rB.1 = .done) :
    Swapped K o ob rA.2 rB.2 := by
  obtain ⟨h1, h2⟩ := h.allowed hA hB
  have hl := h.linked
  obtain ⟨⟨w, rfl⟩, ⟨w', k, rfl⟩, -⟩ := h
  obtain ⟨-, gA, -⟩ := C79_alice_ends (w := w) hA
  obtain ⟨-, gB, -⟩ := C79_bob_ends (w := w') (K := { K with passes := k }) (ob := ob) ⟨hB.sizes, hB.formats, hB.rewinds, hB.keys, hB.hash, hB.addr⟩
  obtain ⟨nA, cA, idA, sA, fA⟩ := gA hdA
  obtain ⟨nB, cB, idB, sB, fB⟩ := gB hdB
  obtain ⟨btc, n, elt', a1, -, a3, a4, -, -⟩ := alice_claims h1 h2 hl sA
  obtain ⟨elt, m, b1, -, b3, b4⟩ := bob_claims h1 h2 hl sB
  refine ⟨btc, elt, n, m, cA, cB, idA, idB, a1, b1, a3, b3, a4, sA, fA, b4, sB, fB, ?_, ?_⟩
  · intro c a hc
    obtain ⟨pre, post, e, hw, -⟩ := mem_allowed h1 hc
    exact nA (pre_sub e hw)
  · intro c a hc
    obtain ⟨pre, post, e, hw, -⟩ := mem_allowed h2 hc
    exact nB (pre_sub e hw)

end Verif.SwapRun
