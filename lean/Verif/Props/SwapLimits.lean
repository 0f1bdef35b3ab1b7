import Verif.Spec.SwapLimits
import Verif.Props.SwapSpendGoes
import Verif.Props.NodeSpend
import Verif.Props.SwapRun
/-
C99: scripts of the cross-chain swap against the limits of nodes, and taking back against any other participant.
-/
namespace Verif.CrossSwap
open Verif Spec Spec.Interp

theorem parse_btcContract_long {b s : Bytes} (hb : b.length < 65536)
    (hs : s.length < 65536) : parse (btcContract b s) = some [.code 0x63, .push b, .code 0x67, .push [15], .code 0xb2,
      .code 0x75, .push s, .code 0x68, .code 0xac] := by
  unfold btcContract
  simp only [script_cons, script_nil]
  simp only [show ∀ o, (Elem.op o).bytes = [o] from fun _ => rfl, show ∀ d, (Elem.data d).bytes = pushData d from
    fun _ => rfl, List.singleton_append]
  rw [parse_op _ (by decide), parse_data _ (by omega), parse_op _ (by decide),
    parse_num _ (by decide) (by decide), parse_op _ (by decide),
    parse_op _ (by decide), parse_data _ (by omega), parse_op _ (by decide), parse_op _ (by decide), parse_nil]
  rfl

theorem conditions_none (c : Interp.Ctx) : ∀ (ops : List Op), Op.code 0x63 ∉ ops → ∀ cs st, conditions c ops cs st = []
  | [], _, _, _ => by simp [conditions]
  | .push d :: ops, h, cs, st => by
    simp only [conditions]
    exact conditions_none c ops (fun hh => h (List.mem_cons_of_mem _ hh)) _ _
  | .code o :: ops, h, cs, st => by
    have ih := conditions_none c ops fun hh => h (List.mem_cons_of_mem _ hh)
    have ho : o ≠ 0x63 := fun e => h (by rw [e]; exact List.mem_cons_self)
    simp only [conditions]
    rw [if_neg ho]
    split
    · cases cs <;> simp [ih]
    · split
      · cases cs <;> simp [ih]
      · split
        · split
          · rfl
          · exact ih _ _
        · exact ih _ _

/-- **C99.** The items that the example puts before a bitcoin contract with keys that can be pushed are such that nodes pass the spend on. -/
theorem C99_relayed (c : Interp.Ctx) {p s : Bytes} (hp : p.length ≤ 520) (hs : s.length ≤ 520) (sig : Bytes) (branch : Bool) :
    Relayed c (btcContract p s) (btcStack sig branch) := by
  have l1 := length_pushData p
  have l2 := length_pushData s
  refine ⟨?_, by simp [btcStack], _, parse_btcContract hp hs, ?_⟩
  · simp [btcContract, script, Elem.bytes, bitcoinTimeout]
    omega
  · intro v hv
    have e : ∀ ops, Op.code 0x63 ∉ ops → conditions c (.code 0x63 :: ops) [] (btcStack sig branch) = [if branch then [1] else []] := by
      intro ops ho
      simp only [conditions, btcStack]
      rw [if_pos trivial, if_pos (by rfl), conditions_none c _ ho]
    rw [e _ (by simp), List.mem_singleton] at hv
    subst hv
    cases branch <;> simp

/-- **C99.** A bitcoin contract that an address can be made for is within the limits exactly if both keys can be pushed. -/
theorem C99_coins {p s : Bytes} (h : (btcContract p s).length ≤ 10000) : Within (btcContract p s) ↔ p.length ≤ 520 ∧ s.length ≤ 520 := by
  have l1 := SwapSpend.le_pushData p
  have l2 := SwapSpend.le_pushData s
  have h' := h
  simp [btcContract, script, Elem.bytes] at h'
  have e := parse_btcContract_long (b := p) (s := s) (by omega) (by omega)
  constructor
  · rintro ⟨-, ops, h1, h2, -⟩
    rw [e] at h1
    cases h1
    exact ⟨h2 p (by simp), h2 s (by simp)⟩
  · rintro ⟨h1, h2⟩
    refine ⟨h, _, e, ?_, List.countP_le_length.trans (by simp)⟩
    intro d hd
    simp at hd
    rcases hd with rfl | rfl | rfl
    · exact h1
    · simp
    · exact h2

/-- **C99.** A contract for the asset that an address can be made for is within the limits. -/
theorem C99_asset {r : Nat} {p b s : Bytes} (h : (eltContract r p b s).length ≤ 520) : Within (eltContract r p b s) := by
  obtain ⟨h1, h2, h3⟩ := SwapSpend.keys_fit h
  refine ⟨by omega, _, parse_eltContract r h1 h2 h3, ?_, List.countP_le_length.trans (by simp)⟩
  intro d hd
  have hr := length_rBytes r
  simp at hd
  rcases hd with rfl | rfl | rfl | rfl | rfl | rfl
  · omega
  · simp
  · exact h1
  · exact h2
  · simp
  · exact h3

theorem within_timeout {contract sig : Bytes} (hc : contract.length ≤ 520) (hs : sig.length ≤ 520) : Within (timeoutScriptSig contract sig) := by
  have l1 := length_pushData contract
  have l2 := length_pushData sig
  refine ⟨?_, [.push sig, .push [], .push contract], ?_, ?_, by simp [Op.counted]⟩
  · simp [timeoutScriptSig, script, Elem.bytes]
    omega
  · unfold timeoutScriptSig
    simp only [script_cons, script_nil]
    simp only [show ∀ o, (Elem.op o).bytes = [o] from fun _ => rfl, show ∀ d, (Elem.data d).bytes = pushData d from
      fun _ => rfl]
    rw [parse_data _ (by omega), show [(0 : UInt8)] ++ (pushData contract ++ []) = pushData [] ++ (pushData contract ++ []) from rfl,
      parse_data _ (by simp), parse_data _ (by omega), parse_nil]
    rfl
  · intro d hd
    simp at hd
    rcases hd with rfl | rfl | rfl <;> simp_all

theorem within_reveal {contract sig rs ss : Bytes} {r : Nat} (hc : contract.length ≤ 520) (hs : sig.length ≤ 520) (hr : rs.length ≤ 520)
    (h : revealScriptSig contract sig rs r = .ok ss) : Within ss := by
  unfold revealScriptSig at h
  dsimp only at h
  split at h
  · cases h
  split at h
  · cases h
  cases h
  have l1 := length_pushData contract
  have l2 := length_pushData sig
  have l3 := length_pushData (rs.take 4)
  have l4 := length_pushData (rs.drop (4 + (rBytes r).length))
  have l5 : (rs.take 4).length ≤ 520 := by simp
  have l6 : (rs.drop (4 + (rBytes r).length)).length ≤ 520 := by simp; omega
  have l7 : (Elem.num 1).bytes.length ≤ 2 := by decide
  refine ⟨?_, [.push sig, .push (rs.drop (4 + (rBytes r).length)), .push (rs.take 4), .push [1], .push contract], ?_, ?_, by simp [Op.counted]⟩
  · simp only [script_cons, script_nil, List.length_append, List.length_nil]
    simp only [show ∀ d, (Elem.data d).bytes = pushData d from fun _ => rfl]
    omega
  · simp only [script_cons, script_nil]
    simp only [show ∀ d, (Elem.data d).bytes = pushData d from fun _ => rfl]
    rw [parse_data _ (by omega), parse_data _ (by omega), parse_data _ (by omega), parse_num _ (by decide) (by decide), parse_data _ (by omega), parse_nil]
    rfl
  · intro d hd
    simp only [List.mem_cons, Op.push.injEq, List.not_mem_nil, or_false] at hd
    rcases hd with rfl | rfl | rfl | rfl | rfl
    · exact hs
    · exact l6
    · exact l5
    · simp
    · exact hc

end Verif.CrossSwap

namespace Verif.SwapSpend
open Verif Spec CrossSwap

/-- **C99.** Bob's claim, where it unlocks the deposit, does so within the limits. -/
theorem C99_claim_unlocks {E : Env} {W : World} {b : Bob} {txid : Bytes} {confirmations : Int} {tx t : Tx} (hz : KeySizes E W)
    (hadd : Adds E W) (hk : E.z.secValid b.spendKey = true) (h : bobClaim E W b txid confirmations tx = .ok t) :
    ∃ p n o, W.addPubs (E.z.pubOf b.contractKey) (E.z.pubOf b.blindingKey) = .ok p ∧ tx.vout[n]? = some o ∧
      (t.vin.map TxIn.prevout) = [⟨txid, n⟩] ∧
      o.scriptPubKey = [0xa9, 0x14] ++ W.hash160 (eltContract W.r p (E.z.pubOf b.spendKey) b.alicePub) ++ [0x87] ∧
      ∀ c, Checks E W (eltContract W.r p (E.z.pubOf b.spendKey) b.alicePub) t c →
        Interp.NodeSpendsP2SH c (eltContract W.r p (E.z.pubOf b.spendKey) b.alicePub) (t.vin.getD 0 default).scriptSig := by
  obtain ⟨p, n, o, g1, g2, g3, g4, g5⟩ := C76_claim_unlocks hz hadd hk h
  refine ⟨p, n, o, g1, g2, g3, g4, fun c hc => ⟨g5 c hc, ?_, ?_⟩⟩
  all_goals
    obtain ⟨p', n', o', bf, abf, s, num, bfs, abfs, tb, h1, h2, hl, h3, F, h4⟩ := bobClaim_ok hz.hash h
    rw [g1] at h1
    cases h1
  · obtain ⟨digest, ss, f1, rfl, -, f3⟩ := F.signed
    obtain ⟨q, f4, f5⟩ := f3 _ _ rfl
    have l3 := hz.sig b.spendKey digest
    have l4 := hz.reveal q
    refine within_reveal hl ?_ (by omega) f5
    rw [List.length_append, List.length_singleton]
    show (W.sign b.spendKey digest).length + 1 ≤ 520
    omega
  · exact C99_asset hl

/-- **C99.** And Alice's reclaim. -/
theorem C99_reclaim_unlocks {E : Env} {W : World} {a : Alice} {txid : Bytes} {tx t : Tx} (hz : KeySizes E W)
    (hk : E.z.secValid a.exitKey = true) (h : aliceReclaim E W a txid tx = .ok t) :
    ∃ p n o, W.addPubs a.contractPub (E.z.pubOf a.blindingKey) = .ok p ∧ tx.vout[n]? = some o ∧
      (t.vin.map TxIn.prevout) = [⟨txid, n⟩] ∧
      o.scriptPubKey = [0xa9, 0x14] ++ W.hash160 (eltContract W.r p a.bobPub (E.z.pubOf a.exitKey)) ++ [0x87] ∧
      ∀ c, Checks E W (eltContract W.r p a.bobPub (E.z.pubOf a.exitKey)) t c →
        Interp.NodeSpendsP2SH c (eltContract W.r p a.bobPub (E.z.pubOf a.exitKey)) (t.vin.getD 0 default).scriptSig := by
  obtain ⟨p, n, o, g1, g2, g3, g4, g5⟩ := C76_reclaim_unlocks hz hk h
  refine ⟨p, n, o, g1, g2, g3, g4, fun c hc => ⟨g5 c hc, ?_, ?_⟩⟩
  all_goals
    obtain ⟨p', n', o', amount, bf, abf, s, num, bfs, abfs, tb, h1, hl, h3, F, h4⟩ := aliceReclaim_ok hz.hash h
    rw [g1] at h1
    cases h1
  · obtain ⟨digest, ss, f1, ht, f3, -⟩ := F.signed
    have f3 := f3 rfl
    subst ht
    show Interp.Within ss
    rw [f3]
    have l3 := hz.sig a.exitKey digest
    refine within_timeout hl ?_
    rw [List.length_append, List.length_singleton]
    show (W.sign a.exitKey digest).length + 1 ≤ 520
    omega
  · exact C99_asset hl

end Verif.SwapSpend

namespace Verif.SwapBtc
open Verif Spec CrossSwap SwapSpend

variable {E : Env} {W : World} {B : Btc} {M : Type} [AddCommGroup M] [Module Scalar M]

theorem spend_items {dst txid contract key : Bytes} {n : Nat} {branch : Bool} {t : BtcTx}
    (h : btcSpend W B dst txid n contract key branch = .ok t) :
    ∃ sig, t.witness.getD 0 [] = (btcStack sig branch).reverse ++ [contract] := by
  obtain ⟨-, -, rfl⟩ := btcSpend_ok.1 h
  exact ⟨_, rfl⟩

/-- **C99.** Bob's reclaim unlocks the contract within the limits. -/
theorem C99_back_unlocks {b : Bob} {x : BobBtc} {txid : Bytes} {outs : List JsonOut} {t : BtcTx} (hh : ∀ b, (B.sha256 b).length = 32)
    (hz : KeySizes E W) (hk : E.z.secValid x.exitKey = true) (h : bobReclaim E W B b x txid outs = .ok t) :
    ∃ p n, W.addPubs (E.z.pubOf b.contractKey) x.alicePub = .ok p ∧
      FirstListed ([0x00, 0x20] ++ B.sha256 (btcContract p (E.z.pubOf x.exitKey))) outs n ∧
      BtcSwept x.dst txid n 15 t ∧ (∃ w, B.serialize t = .ok w) ∧
      ∀ c, BtcChecks E W B (btcContract p (E.z.pubOf x.exitKey)) t c →
        NodeSpendsP2WSH B c (B.sha256 (btcContract p (E.z.pubOf x.exitKey))) (t.witness.getD 0 []) := by
  obtain ⟨p, n, g1, g2, g3, g4, g5⟩ := C77_reclaim hh hz hk h
  refine ⟨p, n, g1, g2, g3, g4, fun c hc => ?_⟩
  have l1 := hz.sum _ _ _ g1
  have l2 := hz.pub _ hk
  have l3 := length_btcContract l1 l2
  suffices hw : ∃ sig, t.witness.getD 0 [] = (btcStack sig false).reverse ++ [btcContract p (E.z.pubOf x.exitKey)] by
    obtain ⟨sig, hw⟩ := hw
    exact ⟨g5 c hc, _, _, hw, (C99_coins (by omega)).2 ⟨by omega, by omega⟩, by rw [List.reverse_reverse]; exact C99_relayed c (p := p) (s := E.z.pubOf x.exitKey) (by omega) (by omega) _ _⟩
  · unfold bobReclaim at h
    obtain ⟨contract, h1, h⟩ := exc_bind_ok.1 h
    obtain ⟨n, h2, h⟩ := exc_bind_ok.1 h
    obtain ⟨t', h3, h⟩ := exc_bind_ok.1 h
    obtain ⟨w, h4, h⟩ := exc_bind_ok.1 h
    cases h
    rw [up_ok] at h1 h3
    unfold bobBtcContract at h1
    obtain ⟨p', hp, h1'⟩ := exc_bind_ok.1 h1
    obtain ⟨-, rfl⟩ := redeemable_ok.1 h1'
    rw [g1] at hp
    cases hp
    exact spend_items h3

/-- **C99.** Alice's claim unlocks the contract within the limits, if Bob's key can be pushed. -/
theorem C99_coins_unlock {C : Curve M} {a : Alice} {x : AliceBtc} {eltTxid btcTxid : Bytes} {tx : Tx} {n : Nat} {t : BtcTx} {P : M}
    (hC : OnCurve C E W) (hpub : PubOf C B.pub) (ho : B.order = secpN) (hz : KeySizes E W) (hbk : IsKey a.blindingKey)
    (hxk : IsKey x.key) (hP : a.contractPub = C.enc P) (hs : x.bobPub.length ≤ 520)
    (h : aliceClaim E W B a x eltTxid tx btcTxid n = .ok t) :
    BtcSwept x.dst btcTxid n 0xffffffff t ∧ ∃ p, W.addPubs a.contractPub (E.z.pubOf x.key) = .ok p ∧
      ∀ c, BtcChecks E W B (btcContract p x.bobPub) t c →
        NodeSpendsP2WSH B c (B.sha256 (btcContract p x.bobPub)) (t.witness.getD 0 []) := by
  obtain ⟨g0, p, g1, g2⟩ := C77_claim hC hpub ho hz hbk hxk hP hs h
  refine ⟨g0, p, g1, fun c hc => ?_⟩
  have l1 := hz.sum _ _ _ g1
  have l2 := length_pushData p
  have l3 := length_pushData x.bobPub
  suffices hw : ∃ sig, t.witness.getD 0 [] = (btcStack sig true).reverse ++ [btcContract p x.bobPub] by
    obtain ⟨sig, hw⟩ := hw
    refine ⟨g2 c hc, _, _, hw, (C99_coins ?_).2 ⟨by omega, hs⟩, by rw [List.reverse_reverse]; exact C99_relayed c (p := p) (by omega) hs _ _⟩
    simp [btcContract, script, Elem.bytes, bitcoinTimeout]
    omega
  · unfold aliceClaim at h
    obtain ⟨target, h1, h⟩ := exc_bind_ok.1 h
    obtain ⟨elt, h2, h⟩ := exc_bind_ok.1 h
    obtain ⟨btc, h3, h⟩ := exc_bind_ok.1 h
    obtain ⟨ss, h4, h⟩ := exc_bind_ok.1 h
    obtain ⟨k, h5, h⟩ := exc_bind_ok.1 h
    obtain ⟨d, h6, h⟩ := exc_bind_ok.1 h
    obtain ⟨t', h7, h⟩ := exc_bind_ok.1 h
    obtain ⟨-, -, h⟩ := exc_bind_ok.1 h
    cases h
    rw [up_ok] at h3 h7
    unfold aliceBtcContract at h3
    obtain ⟨p', hp, h3⟩ := exc_bind_ok.1 h3
    rw [g1] at hp
    cases hp
    cases h3
    exact spend_items h7

end Verif.SwapBtc

namespace Verif.SwapRun
open Verif Spec CrossSwap SwapSpend SwapBtc

variable {K : Kit} {o : AliceOwn} {ob : BobOwn} {w : Environment} {Good Asset : Bytes → Prop} {M : Type} [AddCommGroup M] [Module Scalar M]

/-- **C99.** Whatever Bob does and says: if Alice's own wallet and node do what they are asked, and Alice has paid and stops without the
bitcoins, the asset is on the way back, with a transaction that the network accepts. -/
theorem C99_alice {N : Verifier} {P : Pedersen K.E.z M} (hf : Fit K o.dst) (hw : Works K.E.z Good Asset 0 52) (hR : RewindExact K.E.z)
    (hN : N.Keeps P) (hk : K.E.z.secValid o.exitKey = true) (hping : ∀ t, w t (.ping .elt) = .ok ()) :
    let r := participant w (alice K o)
    (∀ s id, Answered r.2 (.payElt s (K.E.z.pubOf o.blindingKey) 101000000) id →
      ∃ tx n out bf abf, OwnElt K Good Asset o w s id tx n out bf abf) →
    r.1 = .exit ∨ r.1 = .crash → (∃ s p x id, Answered r.2 (.payElt s p x) id) →
    ∃ s id tx n out bf abf contract c a, Answered r.2 (.payElt s (K.E.z.pubOf o.blindingKey) 101000000) id ∧
      OwnElt K Good Asset o w s id tx n out bf abf ∧ s = [0xa9, 0x14] ++ K.W.hash160 contract ++ [0x87] ∧
      Event.did (.sendElt c) a ∈ r.2 ∧ Swept K.W.asset o.dst id n 10 c ∧ verifyAmounts K.E N [out] (fillWitness c) = true ∧
      ∀ x, Checks K.E K.W contract c x → Interp.NodeSpendsP2SH x contract (c.vin.getD 0 default).scriptSig := by
  intro r hown ho hp
  have key := fun hn => alice_back (w := w)
    (Q := fun cp bp id i => ∃ p, K.W.addPubs cp (K.E.z.pubOf o.blindingKey) = .ok p ∧
      Answered r.2 (.payElt ([0xa9, 0x14] ++ K.W.hash160 (eltContract K.W.r p bp (K.E.z.pubOf o.exitKey)) ++ [0x87])
        (K.E.z.pubOf o.blindingKey) 101000000) id ∧ ∃ tx n out bf abf, OwnElt K Good Asset o w
          ([0xa9, 0x14] ++ K.W.hash160 (eltContract K.W.r p bp (K.E.z.pubOf o.exitKey)) ++ [0x87]) id tx n out bf abf ∧
          deserializeTx i.hex = .ok tx) hf hping hn ho hp
  obtain ⟨cp, bp, xp, id, i, tx, c, a, h1, h2, h3, hQ, h4, h5, h6⟩ := key (by
    rintro cp bp xp id - ⟨p, e1, e2, e3⟩ t
    obtain ⟨tx, n, out, bf, abf, own⟩ := hown _ _ e2
    obtain ⟨i, g1, g2, g3⟩ := own.shown t
    obtain ⟨c, hc⟩ := C76_reclaim_goes (a := ⟨o.exitKey, o.blindingKey, cp, bp, o.dst, o.dummy, o.rand⟩) hw hf.formats hf.rewinds hf.sizes hf.keys
      e3 own.size own.index hf.addr own.usable e1 ⟨own.first, own.witness, own.opens⟩
    exact ⟨i, g1, g2, ⟨p, e1, e2, tx, n, out, bf, abf, own, g3⟩, tx, c, g3, hc⟩)
  · obtain ⟨p, e1, e2, tx', n, out, bf, abf, own, e3⟩ := hQ
    rw [e3] at h4
    cases h4
    refine ⟨_, id, tx, n, out, bf, abf, _, c, a, e2, own, rfl, h6, ?_⟩
    obtain ⟨p1, n1, o1, am1, bf1, abf1, f1, f2, f3, -⟩ := C76_reclaim hf.sizes hf.formats hf.rewinds hf.keys hf.addr h5
    obtain ⟨p2, n2, o2, am2, bf2, abf2, f4, f5, f6, f7⟩ := C94_reclaim hN hf.formats hf.sizes hR hf.keys hf.addr own.usable.asset.2 h5
    obtain ⟨p3, n3, o3, f8, f9, f10, f11, f12⟩ := C99_reclaim_unlocks hf.keys hk h5
    dsimp only at f1 f2 f3 f4 f5 f6 f7 f8 f9 f10 f11 f12
    rw [e1] at f1 f4 f8
    cases f1
    cases f4
    cases f8
    obtain ⟨rfl, rfl⟩ := SpendAddr.FirstTo.unique f2.first own.first
    obtain ⟨rfl, rfl⟩ := SpendAddr.FirstTo.unique f5.first own.first
    have := f5.opens.symm.trans own.opens
    cases this
    exact ⟨f3, f7 rfl, f12⟩

theorem listed_same {spk : Bytes} {outs : List JsonOut} {n n' : Nat} (h : FirstListed spk outs n) (h' : FirstListed spk outs n') : n' = n := by
  obtain ⟨k, q, h1, rfl, ⟨l, h2, h3⟩, h4⟩ := h
  obtain ⟨k', q', g1, rfl, ⟨l', g2, g3⟩, g4⟩ := h'
  have : k' = k := by
    rcases Nat.lt_trichotomy k k' with hl | hl | hl
    · exact absurd h3 (g4 k q hl h1 l h2)
    · exact hl.symm
    · exact absurd g3 (h4 k' q' hl g1 l' g2)
  subst this
  rw [h1] at g1
  cases g1
  rfl

/-- **C99.** The same of Bob. -/
theorem C99_bob (hf : Fit K ob.dst) (hk : K.E.z.secValid ob.exitKey = true) (hping : ∀ t, w t (.ping .btc) = .ok ()) :
    let r := participant w (bob K ob)
    (∀ s id, Answered r.2 (.payBtc s 101000000) id → ∃ n, OwnBtc K ob w s id n) →
    r.1 = .exit ∨ r.1 = .crash → (∃ s x id, Answered r.2 (.payBtc s x) id) →
    ∃ s id n contract c a, Answered r.2 (.payBtc s 101000000) id ∧ OwnBtc K ob w s id n ∧ s = [0x00, 0x20] ++ K.B.sha256 contract ∧
      Event.did (.sendBtc c) a ∈ r.2 ∧ BtcSwept ob.btcDst id n 15 c ∧
      ∀ x, BtcChecks K.E K.W K.B contract c x → NodeSpendsP2WSH K.B x (K.B.sha256 contract) (c.witness.getD 0 []) := by
  intro r hown ho hp
  have key := fun hn => bob_back (w := w)
    (Q := fun ap id i => ∃ p, K.W.addPubs (K.E.z.pubOf ob.contractKey) ap = .ok p ∧
      Answered r.2 (.payBtc ([0x00, 0x20] ++ K.B.sha256 (btcContract p (K.E.z.pubOf ob.exitKey))) 101000000) id ∧
        ∃ n, OwnBtc K ob w ([0x00, 0x20] ++ K.B.sha256 (btcContract p (K.E.z.pubOf ob.exitKey))) id n ∧
          FirstListed ([0x00, 0x20] ++ K.B.sha256 (btcContract p (K.E.z.pubOf ob.exitKey))) i.vout n) hf hping hn ho hp
  obtain ⟨ap, ep, bk, id, i, c, a, h1, h2, h3, h4, hQ, h5, h6⟩ := key (by
    rintro ap ep bk id - - ⟨p, e1, e2⟩ t
    obtain ⟨n, own⟩ := hown _ _ e2
    obtain ⟨i, g1, g2, g3⟩ := own.shown t
    obtain ⟨c, hc⟩ := C77_reclaim_goes (b := ⟨ob.contractKey, bk, ob.spendKey, ep, ob.dst, ob.dummy, ob.rand⟩) (x := ⟨ob.exitKey, ap, ob.btcDst⟩)
      hf.hash hf.keys hk e1 g3 own.size own.index own.written
    exact ⟨i, g1, g2, ⟨p, e1, e2, n, own, g3⟩, c, hc⟩)
  · obtain ⟨p, e1, e2, n, own, e3⟩ := hQ
    refine ⟨_, id, n, _, c, a, e2, own, rfl, h6, ?_⟩
    obtain ⟨p1, n1, f1, f2, f3, -, f4⟩ := C99_back_unlocks hf.hash hf.keys hk h5
    dsimp only at f1 f2 f3 f4
    rw [e1] at f1
    cases f1
    obtain rfl := listed_same e3 f2
    exact ⟨f3, f4⟩

/-- What one wants: Alice pays only when somebody can claim the bitcoins that Bob has put down, as far as the limits go. -/
def C99_statement : Prop :=
  ∀ (K : Kit) (o : AliceOwn) (w : Environment), Fit K o.dst →
    let r := participant w (alice K o)
    ∀ cp bp xp p, (∃ s q x id, Answered r.2 (.payElt s q x) id) → Received r.2 .pubkeys [cp, bp, xp] →
      K.W.addPubs cp (K.E.z.pubOf o.btcKey) = .ok p → Interp.Within (btcContract p xp)

/-- **C99 (partial).** Missing: a key of Bob of more than 520 bytes, for which the claim is false, see `C99_statement_false`. -/
theorem C99_pays_partial (hf : Fit K o.dst) {cp bp xp p : Bytes} (_ : Received (participant w (alice K o)).2 .pubkeys [cp, bp, xp])
    (hp : K.W.addPubs cp (K.E.z.pubOf o.btcKey) = .ok p) (hx : xp.length ≤ 520) : Interp.Within (btcContract p xp) := by
  have l1 := hf.keys.sum _ _ _ hp
  have l2 := length_pushData p
  have l3 := length_pushData xp
  refine (C99_coins ?_).2 ⟨by omega, hx⟩
  simp [btcContract, script, Elem.bytes, bitcoinTimeout]
  omega

end Verif.SwapRun
