import Verif.Props.SwapSpend
import Verif.Spec.SwapBtc
/-
C77: the Bitcoin side of the cross-chain swap.
-/
namespace Verif.SwapBtc
open Verif Spec CrossSwap SwapSpend

section
variable {E : Env} {W : World} {B : Btc}

theorem p2wsh_eq (h : ∀ b, (B.sha256 b).length = 32) (redeem : Bytes) : p2wsh B redeem = [0x00, 0x20] ++ B.sha256 redeem := by
  unfold p2wsh script
  simp only [List.map_cons, List.map_nil, List.flatten_cons, List.flatten_nil, List.append_nil, Elem.bytes, pushData, h]
  rfl

theorem findBtc_ok {spk : Bytes} {n : Nat} {o : BtcOut} : ∀ {os : List BtcOut} {m : Nat}, findBtc spk m os = .ok (n, o) ↔
    m ≤ n ∧ os[n - m]? = some o ∧ o.scriptPubKey = spk ∧ ∀ k p, k < n - m → os[k]? = some p → p.scriptPubKey ≠ spk
  | [], m => by simp [findBtc]
  | p :: os, m => by
    unfold findBtc
    split
    · rename_i hp
      constructor
      · intro h
        cases h
        simp [hp]
      · rintro ⟨h1, h2, h3, h4⟩
        rcases Nat.eq_zero_or_pos (n - m) with h0 | h0
        · rw [h0] at h2
          cases h2
          have : m = n := by omega
          rw [this]
        · exact absurd hp (h4 0 p h0 rfl)
    · rename_i hp
      rw [findBtc_ok]
      constructor
      · rintro ⟨h1, h2, h3, h4⟩
        obtain ⟨d, hd⟩ : ∃ d, n - m = d + 1 := ⟨n - m - 1, by omega⟩
        have hd' : n - (m + 1) = d := by omega
        rw [hd'] at h2 h4
        refine ⟨by omega, by rw [hd]; exact h2, h3, ?_⟩
        intro k q hk hq
        cases k with
        | zero => cases hq; exact hp
        | succ k => exact h4 k q (by omega) hq
      · rintro ⟨h1, h2, h3, h4⟩
        rcases Nat.eq_zero_or_pos (n - m) with h0 | h0
        · rw [h0] at h2
          cases h2
          exact absurd h3 hp
        · obtain ⟨d, hd⟩ : ∃ d, n - m = d + 1 := ⟨n - m - 1, by omega⟩
          have hd' : n - (m + 1) = d := by omega
          rw [hd] at h2
          rw [hd']
          exact ⟨by omega, h2, h3, fun k q hk hq => h4 (k + 1) q (by omega) hq⟩

/-- **C77.** Alice sends the asset exactly if Bob's deposit has six confirmations and its first output to the
contract, in which the sum of Bob's key and theirs can take 15 blocks before Bob, carries exactly the agreed amount. -/
theorem C77_checks {a : Alice} {x : AliceBtc} {confirmations : Int} {tx : BtcTx} {n : Nat} (hh : ∀ b, (B.sha256 b).length = 32) :
    aliceChecks E W B a x confirmations tx = .ok n ↔
      6 ≤ confirmations ∧ ∃ p, W.addPubs a.contractPub (E.z.pubOf x.key) = .ok p ∧ (btcContract p x.bobPub).length ≤ 10000 ∧
        FirstPays ([0x00, 0x20] ++ B.sha256 (btcContract p x.bobPub)) 101000000 tx.vout n := by
  unfold aliceChecks aliceBtcContract
  rw [exc_bind_ok]
  constructor
  · rintro ⟨contract, h1, h⟩
    rw [up_ok, exc_bind_ok] at h1
    obtain ⟨p, h1, h2⟩ := h1
    cases h2
    split at h
    · cases h
    · rename_i hc
      obtain ⟨redeem, hr, h⟩ := exc_bind_ok.1 h
      obtain ⟨hl, rfl⟩ := redeemable_ok.1 (up_ok.1 hr)
      obtain ⟨⟨n', o⟩, h2, h3⟩ := exc_bind_ok.1 h
      dsimp only at h3
      split at h3
      · cases h3
      · rename_i hv
        cases h3
        rw [findBtc_ok] at h2
        obtain ⟨-, h2, h3, h4⟩ := h2
        simp only [Nat.sub_zero] at h2 h4
        rw [p2wsh_eq hh] at h3 h4
        refine ⟨by omega, p, h1, hl, ?_, h4⟩
        rw [h2]
        simp only [agreed, ne_eq, not_not] at hv
        cases o
        cases h3
        cases hv
        rfl
  · rintro ⟨hc, p, h1, hl, h2, h3⟩
    refine ⟨_, up_ok.2 (exc_bind_ok.2 ⟨p, h1, rfl⟩), ?_⟩
    rw [if_neg (by omega)]
    refine exc_bind_ok.2 ⟨_, up_ok.2 (redeemable_ok.2 ⟨hl, rfl⟩), ?_⟩
    refine exc_bind_ok.2 ⟨(n, _), findBtc_ok.2 ⟨by omega, h2, ?_, ?_⟩, ?_⟩
    · rw [p2wsh_eq hh]
    · rw [p2wsh_eq hh]
      simpa using h3
    · dsimp only
      rw [if_neg (by simp [agreed])]

theorem lastBytes_iff {s contract : Bytes} : lastBytes contract.length s = contract ↔ contract <:+ s := by
  unfold lastBytes
  constructor
  · intro h
    rw [← h]
    exact List.drop_suffix _ _
  · rintro ⟨t, rfl⟩
    rw [List.length_append, Nat.add_sub_cancel]
    exact List.drop_left

/-- **C77.** The script Alice reads the key from is that of the first input that spends an output of the deposit
transaction by a script that ends with the contract. -/
theorem C77_found {txid contract : Bytes} : ∀ {vin : List TxIn} {s : Bytes},
    findReveal txid contract vin = .ok s ↔ FirstReveal txid contract vin s
  | [], s => by simp [findReveal, FirstReveal]
  | i :: is, s => by
    unfold findReveal
    split
    · rename_i hi
      rw [lastBytes_iff] at hi
      constructor
      · intro h
        cases h
        exact ⟨0, i, rfl, rfl, hi.1, hi.2, fun m j hm => absurd hm (by omega)⟩
      · rintro ⟨k, j, h1, h2, h3, h4, h5⟩
        cases k with
        | zero => cases h1; rw [h2]
        | succ k => exact absurd hi (h5 0 i (by omega) rfl)
    · rename_i hi
      rw [lastBytes_iff] at hi
      rw [C77_found]
      constructor
      · rintro ⟨k, j, h1, h2, h3, h4, h5⟩
        refine ⟨k + 1, j, h1, h2, h3, h4, ?_⟩
        intro m j' hm hj
        cases m with
        | zero => cases hj; exact hi
        | succ m => exact h5 m j' (by omega) hj
      · rintro ⟨k, j, h1, h2, h3, h4, h5⟩
        cases k with
        | zero => cases h1; subst h2; exact absurd ⟨h3, h4⟩ hi
        | succ k => exact ⟨k, j, h1, h2, h3, h4, fun m j' hm hj => h5 (m + 1) j' (by omega) hj⟩

theorem btcSpend_ok {dst txid contract key : Bytes} {n : Nat} {branch : Bool} {t : BtcTx} :
    btcSpend W B dst txid n contract key branch = .ok t ↔ txid.length = 32 ∧ n ≤ 0xffffffff ∧
      t = ⟨2, [⟨⟨txid, n⟩, [], btcSequence branch⟩], [⟨100000000, dst⟩], 0,
        [[W.sign key (B.sighash contract ⟨2, [⟨⟨txid, n⟩, [], btcSequence branch⟩], [⟨100000000, dst⟩], 0, [[]]⟩ 0 1 101000000) ++ [1],
          if branch then [1] else [], contract]]⟩ := by
  unfold btcSpend
  split
  · rename_i h
    constructor
    · intro h; cases h
    · rintro ⟨h1, h2, -⟩; omega
  · rename_i h
    have e : txid.length = 32 ∧ n ≤ 0xffffffff := by omega
    cases branch <;> constructor
    · intro h; cases h; exact ⟨e.1, e.2, rfl⟩
    · rintro ⟨-, -, rfl⟩; rfl
    · intro h; cases h; exact ⟨e.1, e.2, rfl⟩
    · rintro ⟨-, -, rfl⟩; rfl

theorem run_btc (c : Interp.Ctx) (buyerPub sellerPub d cond : Bytes) :
    Interp.run c [.code 0x63, .push buyerPub, .code 0x67, .push [15], .code 0xb2,
      .code 0x75, .push sellerPub, .code 0x68, .code 0xac] [] [cond, d] =
      if Interp.truth cond then some [if c.checkSig d buyerPub then [1] else []]
      else if Interp.relLock c 15 then some [if c.checkSig d sellerPub then [1] else []] else none := by
  rw [run_if]
  cases Interp.truth cond with
  | true =>
    rw [if_pos rfl, run_on _ _ _ _ _ rfl, run_else, show (!true) = false from rfl, run_tail_off]
  | false =>
    rw [if_neg (by decide), run_off _ _ _ _ _ rfl, run_else]
    rw [show (!false) = true from rfl, run_tail c sellerPub _ 15 (by decide)]
    rfl

/-- Spends of either branch are accepted by a node that accepts the signature. -/
theorem spend_accepted {dst txid p s key : Bytes} {n : Nat} {branch : Bool} {t : BtcTx} {c : Interp.Ctx}
    (hz : KeySizes E W) (hp : p.length ≤ 520) (hs : s.length ≤ 520) (hk : E.z.secValid key = true)
    (hpub : E.z.pubOf key = if branch then p else s)
    (h : btcSpend W B dst txid n (btcContract p s) key branch = .ok t) (hc : BtcChecks E W B (btcContract p s) t c) :
    SpendsP2WSH B c (B.sha256 (btcContract p s)) (t.witness.getD 0 []) := by
  obtain ⟨h1, h2, rfl⟩ := btcSpend_ok.1 h
  have hsig := hc.sig key hk
  have hl := hz.sig key (B.sighash (btcContract p s) ⟨2, [⟨⟨txid, n⟩, [], btcSequence branch⟩], [⟨100000000, dst⟩], 0, [[]]⟩ 0 1 101000000)
  rw [hpub] at hsig
  dsimp only at hsig
  refine ⟨[_, if branch then [1] else []], btcContract p s, _, [1], rfl, rfl, ?_, parse_btcContract (by omega) (by omega), ?_, rfl⟩
  · intro i hi
    simp only [List.mem_cons, List.not_mem_nil, or_false] at hi
    rcases hi with rfl | rfl
    · rw [List.length_append, List.length_singleton]; omega
    · split <;> simp
  · show Interp.run c _ [] [_, _] = _
    rw [run_btc]
    cases branch with
    | true =>
      rw [if_pos rfl] at hsig
      rw [if_pos (by decide), if_pos hsig]
    | false =>
      rw [if_neg (by decide)] at hsig
      rw [if_neg (by decide), if_pos hsig, if_pos]
      rw [relLock_iff]
      have hv := hc.version
      have hq := hc.sequence _ rfl
      rw [hv, ← hq]
      exact ⟨Nat.le_refl 2, (by decide : Nat.testBit 15 31 = false), (by decide : Nat.testBit 15 22 = false), (by decide : 15 ≤ 15 % 2 ^ 16)⟩

theorem swept {dst txid contract key : Bytes} {n : Nat} {branch : Bool} {t : BtcTx}
    (h : btcSpend W B dst txid n contract key branch = .ok t) : BtcSwept dst txid n (btcSequence branch) t := by
  obtain ⟨h1, h2, rfl⟩ := btcSpend_ok.1 h
  exact ⟨rfl, rfl, rfl, rfl, rfl⟩

variable {M : Type} [AddCommGroup M] [Module Scalar M]

theorem tryCandidates_ok {pub : Nat → Option Bytes} {target : Bytes} {q : Nat} : ∀ {l : List Nat},
    tryCandidates pub target l = .ok q → q ∈ l ∧ pub q = some target
  | [], h => by cases h
  | e :: es, h => by
    unfold tryCandidates at h
    split at h
    · cases h
    · rename_i p hp
      split at h
      · rename_i e1
        cases h
        exact ⟨by simp, by rw [hp, e1]⟩
      · obtain ⟨h1, h2⟩ := tryCandidates_ok h
        exact ⟨by simp [h1], h2⟩

theorem recoverKey_ok {pub : Nat → Option Bytes} {k m rInv q : Nat} {target s : Bytes}
    (h : recoverKey pub secpN k m rInv target s = .ok q) : q < secpN ∧ pub q = some target := by
  unfold recoverKey at h
  obtain ⟨v, -, h⟩ := exc_bind_ok.1 h
  obtain ⟨h1, h2⟩ := tryCandidates_ok h
  refine ⟨?_, h2⟩
  simp only [List.mem_cons, List.not_mem_nil, or_false] at h1
  rcases h1 with rfl | rfl <;> exact candidate_lt _ _ _ _

theorem pubOf_key {C : Curve M} (hC : OnCurve C E W) {k : Bytes} (h : IsKey k) :
    E.z.secValid k = true ∧ E.z.pubOf k = C.enc ((beVal k : Scalar) • C.G) := by
  have := hC.pub (beVal k) h.2.1 h.2.2
  rwa [beBytes_beVal h.1] at this

theorem claimKey_ok {q b a d : Nat} (h : claimKey secpN q b a = .ok d) (hb : b < secpN) :
    0 < d ∧ d < secpN ∧ (d : Scalar) = (q : Scalar) - b + a := by
  have hpos : 0 < secpN := by unfold secpN; decide
  unfold claimKey at h
  dsimp only at h
  split at h
  · cases h
  split at h
  · cases h
  · rename_i h0
    cases h
    refine ⟨Nat.pos_of_ne_zero h0, Nat.mod_lt _ hpos, ?_⟩
    rw [ZMod.natCast_mod, Nat.cast_add, ZMod.natCast_mod, Nat.cast_add, Nat.cast_sub (Nat.le_of_lt hb), ZMod.natCast_self]
    ring

/-- **C77.** Whatever transaction Bob spends the Elements deposit with: if Alice makes a claim at all, it spends output
`n` of the Bitcoin deposit, pays 1 to their address, and its witness unlocks the contract. -/
theorem C77_claim {C : Curve M} {a : Alice} {x : AliceBtc} {eltTxid btcTxid : Bytes} {tx : Tx} {n : Nat} {t : BtcTx} {P : M}
    (hC : OnCurve C E W) (hpub : PubOf C B.pub) (ho : B.order = secpN) (hz : KeySizes E W) (hbk : IsKey a.blindingKey)
    (hxk : IsKey x.key) (hP : a.contractPub = C.enc P) (hs : x.bobPub.length ≤ 520)
    (h : aliceClaim E W B a x eltTxid tx btcTxid n = .ok t) :
    BtcSwept x.dst btcTxid n 0xffffffff t ∧ ∃ p, W.addPubs a.contractPub (E.z.pubOf x.key) = .ok p ∧
      ∀ c, BtcChecks E W B (btcContract p x.bobPub) t c →
        SpendsP2WSH B c (B.sha256 (btcContract p x.bobPub)) (t.witness.getD 0 []) := by
  unfold aliceClaim at h
  obtain ⟨target, h1, h⟩ := exc_bind_ok.1 h
  obtain ⟨elt, h2, h⟩ := exc_bind_ok.1 h
  obtain ⟨btc, h3, h⟩ := exc_bind_ok.1 h
  obtain ⟨ss, h4, h⟩ := exc_bind_ok.1 h
  obtain ⟨q, h5, h⟩ := exc_bind_ok.1 h
  obtain ⟨d, h6, h⟩ := exc_bind_ok.1 h
  obtain ⟨t', h7, h⟩ := exc_bind_ok.1 h
  obtain ⟨-, -, h⟩ := exc_bind_ok.1 h
  cases h
  rw [up_ok] at h1 h2 h3 h7
  unfold aliceBtcContract at h3
  obtain ⟨p, hp, h3'⟩ := exc_bind_ok.1 h3
  cases h3'
  clear h3
  have h3 := hp
  rw [ho] at h5 h6
  obtain ⟨b1, b2⟩ := pubOf_key hC hbk
  obtain ⟨x1, x2⟩ := pubOf_key hC hxk
  obtain ⟨q1, q2⟩ := recoverKey_ok h5
  obtain ⟨d0, d1, d2⟩ := claimKey_ok h6 hbk.2.2
  rw [hP, x2] at h3
  rw [hP, b2] at h1
  obtain ⟨-, rfl⟩ := hC.add _ _ _ h1
  obtain ⟨-, rfl⟩ := hC.add _ _ _ h3
  have q0 : 0 < q := by
    rcases Nat.eq_zero_or_pos q with rfl | h0
    · rw [hpub.2] at q2; cases q2
    · exact h0
  rw [hpub.1 q q0 q1] at q2
  have e := C.encInj _ _ (Option.some.inj q2)
  refine ⟨swept h7, _, hp, fun c hc => ?_⟩
  obtain ⟨g1, g2⟩ := hC.pub d d0 d1
  refine spend_accepted hz ((hz.sum _ _ _ hp).trans (by omega)) hs g1 ?_ h7 hc
  rw [if_pos rfl, g2, d2, add_smul, sub_smul, e, add_sub_cancel_right]

theorem findJson_ok {spk : Bytes} {n : Nat} : ∀ {os : List JsonOut}, findJson spk os = .ok n ↔ FirstListed spk os n
  | [] => by simp [findJson, FirstListed]
  | p :: os => by
    have step : (¬ ∃ l, p.addresses = some l ∧ spk ∈ l) → (FirstListed spk os n ↔ FirstListed spk (p :: os) n) := by
      intro hp
      constructor
      · rintro ⟨k, o, h1, h2, h3, h4⟩
        refine ⟨k + 1, o, h1, h2, h3, ?_⟩
        intro m q hm hq l hl hin
        cases m with
        | zero => cases hq; exact hp ⟨l, hl, hin⟩
        | succ m => exact h4 m q (by omega) hq l hl hin
      · rintro ⟨k, o, h1, h2, h3, h4⟩
        cases k with
        | zero => cases h1; exact absurd h3 hp
        | succ k => exact ⟨k, o, h1, h2, h3, fun m q hm hq => h4 (m + 1) q (by omega) hq⟩
    unfold findJson
    split
    · rename_i hn
      rw [findJson_ok]
      exact step (by rintro ⟨l, hl, -⟩; rw [hn] at hl; cases hl)
    · rename_i l hl
      split
      · rename_i hin
        constructor
        · intro h
          cases h
          exact ⟨0, p, rfl, rfl, ⟨l, hl, hin⟩, fun m q hm => absurd hm (by omega)⟩
        · rintro ⟨k, o, h1, h2, h3, h4⟩
          cases k with
          | zero => cases h1; rw [h2]
          | succ k => exact absurd hin (h4 0 p (by omega) rfl l hl)
      · rename_i hin
        rw [findJson_ok]
        exact step (by rintro ⟨l', hl', h⟩; rw [hl] at hl'; cases hl'; exact hin h)

/-- **C77.** Bob's reclaim exists exactly if the node describes an output to the contract and the transaction can be
written; it spends the first of these, pays 1 to their address, and unlocks the contract under its relative lock only. -/
theorem C77_reclaim {b : Bob} {x : BobBtc} {txid : Bytes} {outs : List JsonOut} {t : BtcTx} (hh : ∀ b, (B.sha256 b).length = 32)
    (hz : KeySizes E W) (hk : E.z.secValid x.exitKey = true) (h : bobReclaim E W B b x txid outs = .ok t) :
    ∃ p n, W.addPubs (E.z.pubOf b.contractKey) x.alicePub = .ok p ∧
      FirstListed ([0x00, 0x20] ++ B.sha256 (btcContract p (E.z.pubOf x.exitKey))) outs n ∧
      BtcSwept x.dst txid n 15 t ∧ (∃ w, B.serialize t = .ok w) ∧
      ∀ c, BtcChecks E W B (btcContract p (E.z.pubOf x.exitKey)) t c →
        SpendsP2WSH B c (B.sha256 (btcContract p (E.z.pubOf x.exitKey))) (t.witness.getD 0 []) := by
  unfold bobReclaim at h
  obtain ⟨contract, h1, h⟩ := exc_bind_ok.1 h
  obtain ⟨n, h2, h⟩ := exc_bind_ok.1 h
  obtain ⟨t', h3, h⟩ := exc_bind_ok.1 h
  obtain ⟨w, h4, h⟩ := exc_bind_ok.1 h
  cases h
  rw [up_ok] at h1 h3 h4
  unfold bobBtcContract at h1
  obtain ⟨p, hp, h1'⟩ := exc_bind_ok.1 h1
  obtain ⟨-, rfl⟩ := redeemable_ok.1 h1'
  rw [p2wsh_eq hh] at h2
  refine ⟨p, n, hp, findJson_ok.1 h2, swept h3, ⟨w, h4⟩, fun c hc => ?_⟩
  exact spend_accepted hz ((hz.sum _ _ _ hp).trans (by omega)) ((hz.pub _ hk).trans (by omega)) hk (by rw [if_neg (by decide)]) h3 hc

theorem length_btcContract {p s : Bytes} (hp : p.length ≤ 65) (hs : s.length ≤ 65) : (btcContract p s).length ≤ 200 := by
  have l1 := length_pushData p
  have l2 := length_pushData s
  simp [btcContract, script, Elem.bytes, bitcoinTimeout]
  omega

/-- **C77.** And there is such a reclaim. -/
theorem C77_reclaim_goes {b : Bob} {x : BobBtc} {txid : Bytes} {outs : List JsonOut} {p : Bytes} {n : Nat} (hh : ∀ b, (B.sha256 b).length = 32)
    (hz : KeySizes E W) (hk : E.z.secValid x.exitKey = true) (hp : W.addPubs (E.z.pubOf b.contractKey) x.alicePub = .ok p)
    (hl : FirstListed ([0x00, 0x20] ++ B.sha256 (btcContract p (E.z.pubOf x.exitKey))) outs n)
    (hid : txid.length = 32) (hn : n < 2 ^ 32) (hser : ∀ t, BtcSwept x.dst txid n 15 t → ∃ w, B.serialize t = .ok w) :
    ∃ t, bobReclaim E W B b x txid outs = .ok t := by
  obtain ⟨t, h⟩ : ∃ t, btcSpend W B x.dst txid n (btcContract p (E.z.pubOf x.exitKey)) x.exitKey false = .ok t :=
    ⟨_, btcSpend_ok.2 ⟨hid, by omega, rfl⟩⟩
  obtain ⟨w, hw⟩ := hser _ (swept h)
  refine ⟨t, ?_⟩
  unfold bobReclaim
  have hs := length_btcContract (hz.sum _ _ _ hp) (hz.pub _ hk)
  exact exc_bind_ok.2 ⟨_, up_ok.2 (exc_bind_ok.2 ⟨p, hp, redeemable_ok.2 ⟨by omega, rfl⟩⟩), exc_bind_ok.2 ⟨n, findJson_ok.2 (by rw [p2wsh_eq hh]; exact hl),
    exc_bind_ok.2 ⟨_, up_ok.2 h, exc_bind_ok.2 ⟨w, up_ok.2 hw, rfl⟩⟩⟩⟩

theorem suffix_pushData (d : Bytes) : d <:+ pushData d := by
  unfold pushData
  split
  · exact List.suffix_cons _ _
  split
  · exact (List.suffix_cons _ _).trans (List.suffix_cons _ _)
  · exact (List.suffix_append _ _).trans (List.suffix_cons _ _)

/-- Bob's claim has one input, and its script ends with the contract. -/
theorem claim_suffix {b : Bob} {txid : Bytes} {confirmations : Int} {tx t : Tx} {p : Bytes} (hz : KeySizes E W)
    (hsum : W.addPubs (E.z.pubOf b.contractKey) (E.z.pubOf b.blindingKey) = .ok p)
    (h : bobClaim E W b txid confirmations tx = .ok t) :
    ∃ i, t.vin = [i] ∧ i.prevout.hash = txid ∧ eltContract W.r p (E.z.pubOf b.spendKey) b.alicePub <:+ i.scriptSig ∧
      (eltContract W.r p (E.z.pubOf b.spendKey) b.alicePub).length ≤ 520 := by
  obtain ⟨p, n, o, bf, abf, s, num, bfs, abfs, tb, h1, h2, hl, h3, F, h4⟩ := bobClaim_ok hz.hash h
  rw [hsum] at h1
  cases h1
  obtain ⟨digest, ss, f1, rfl, -, f3⟩ := F.signed
  obtain ⟨q', f4, f5⟩ := f3 _ _ rfl
  refine ⟨_, rfl, rfl, ?_, hl⟩
  show _ <:+ ss
  unfold revealScriptSig at f5
  dsimp only at f5
  split at f5
  · cases f5
  split at f5
  · cases f5
  · cases f5
    refine (suffix_pushData _).trans ?_
    simp only [script_cons, script_nil, List.append_nil]
    exact ⟨_, by simp only [← List.append_assoc]; rfl⟩

/-- **C77.** If Bob claims as the example has them do and a node accepts that, Alice claims the bitcoins: the swap goes through. -/
theorem C77_honest {C : Curve M} {a : Alice} {x : AliceBtc} {b : Bob} {eltTxid btcTxid : Bytes} {confirmations : Int} {tx t : Tx} {n : Nat}
    {c : Interp.Ctx} {p : Bytes}
    (hC : OnCurve C E W) (hadd : Adds E W) (hpub : PubOf C B.pub) (ho : B.order = secpN) (hz : KeySizes E W)
    (hk : KnownNonce C B.k W.r) (hi : B.rInv * W.r % secpN = 1) (hm : ChecksData C (beVal (B.sha256 [1])) c)
    (k1 : IsKey b.contractKey) (k2 : IsKey b.blindingKey) (k3 : IsKey b.spendKey) (k4 : IsKey a.exitKey) (k5 : IsKey x.key)
    (e1 : a.contractPub = E.z.pubOf b.contractKey) (e2 : a.blindingKey = b.blindingKey) (e3 : a.bobPub = E.z.pubOf b.spendKey)
    (e4 : b.alicePub = E.z.pubOf a.exitKey)
    (hkey : (W.r * (beVal b.contractKey + beVal b.blindingKey) + 2 * beVal (B.sha256 [1])) % secpN ≠ 0)
    (hx : (beVal b.contractKey + beVal x.key) % secpN ≠ 0) (hid : btcTxid.length = 32) (hn : n < 2 ^ 32)
    (hser : ∀ t, BtcSwept x.dst btcTxid n 0xffffffff t → ∃ w, B.serialize t = .ok w)
    (hsum : W.addPubs (E.z.pubOf b.contractKey) (E.z.pubOf b.blindingKey) = .ok p)
    (hc : Checks E W (eltContract W.r p (E.z.pubOf b.spendKey) b.alicePub) t c)
    (h : bobClaim E W b eltTxid confirmations tx = .ok t) :
    ∃ t', aliceClaim E W B a x eltTxid t btcTxid n = .ok t' := by
  obtain ⟨v1, p1⟩ := pubOf_key hC k1
  obtain ⟨v2, p2⟩ := pubOf_key hC k2
  obtain ⟨v3, p3⟩ := pubOf_key hC k3
  obtain ⟨v4, p4⟩ := pubOf_key hC k4
  obtain ⟨v5, p5⟩ := pubOf_key hC k5
  have hpos : 0 < secpN := by unfold secpN; decide
  have hsum' := hsum
  rw [p1, p2] at hsum'
  obtain ⟨n0, rfl⟩ := hC.add _ _ _ hsum'
  rw [← add_smul, ← Nat.cast_add, ← ZMod.natCast_mod] at n0 hsum hc
  have q0 : 0 < (beVal b.contractKey + beVal b.blindingKey) % secpN := by
    rcases Nat.eq_zero_or_pos ((beVal b.contractKey + beVal b.blindingKey) % secpN) with h0 | h0
    · rw [h0, Nat.cast_zero, zero_smul] at n0; exact absurd rfl n0
    · exact h0
  have hrev := C76_reveals (C := C) (k := B.k) (m := beVal (B.sha256 [1])) (rInv := B.rInv) (pub := B.pub) (c := c) hz hadd v3 hk hpub hm hi q0 (Nat.mod_lt _ hpos)
    (by rw [Nat.add_mod, Nat.mul_mod, Nat.mod_mod, ← Nat.mul_mod, ← Nat.add_mod]; exact hkey) hsum hc h
  obtain ⟨i, j1, j2, j3, j4⟩ := claim_suffix hz hsum h
  have hA : (beVal b.contractKey : Scalar) • C.G + (beVal x.key : Scalar) • C.G ≠ 0 := by
    intro h0
    rw [← add_smul, ← Nat.cast_add] at h0
    have := C.order _ h0
    rw [ZMod.natCast_eq_zero_iff] at this
    exact hx (Nat.mod_eq_zero_of_dvd this)
  have hP0 : (beVal b.contractKey : Scalar) • C.G ≠ 0 := by
    intro h0
    have := C.order _ h0
    rw [ZMod.natCast_eq_zero_iff] at this
    exact absurd (Nat.le_of_dvd k1.2.1 this) (by have := k1.2.2; omega)
  obtain ⟨d, hd, -⟩ := C66_claim C B.pub hpub _ (beVal b.blindingKey) (beVal x.key) ((beVal b.contractKey : Scalar) • C.G) k2.2.2
    (by rw [ZMod.natCast_mod, Nat.cast_add, add_smul]) hP0 hA
  have hbtc : W.addPubs a.contractPub (E.z.pubOf x.key) =
      .ok (C.enc ((beVal b.contractKey : Scalar) • C.G + (beVal x.key : Scalar) • C.G)) := by
    rw [e1, p1, p5]; exact hC.sum _ _ hA
  obtain ⟨t', hspend⟩ : ∃ t, btcSpend W B x.dst btcTxid n (btcContract (C.enc ((beVal b.contractKey : Scalar) • C.G + (beVal x.key : Scalar) • C.G))
      x.bobPub) (beBytes 32 d) true = .ok t := ⟨_, btcSpend_ok.2 ⟨hid, by omega, rfl⟩⟩
  obtain ⟨w, hw⟩ := hser _ (swept hspend)
  refine ⟨t', ?_⟩
  unfold aliceClaim
  have hs : W.addPubs a.contractPub (E.z.pubOf a.blindingKey) =
      .ok (C.enc ((((beVal b.contractKey + beVal b.blindingKey) % secpN : Nat) : Scalar) • C.G)) := by rw [e1, e2]; exact hsum
  refine exc_bind_ok.2 ⟨_, up_ok.2 hs, ?_⟩
  refine exc_bind_ok.2 ⟨_, up_ok.2 (exc_bind_ok.2 ⟨_, hs, redeemable_ok.2 ⟨by rw [e3, ← e4]; exact j4, rfl⟩⟩), ?_⟩
  refine exc_bind_ok.2 ⟨_, up_ok.2 (exc_bind_ok.2 ⟨_, hbtc, rfl⟩), ?_⟩
  refine exc_bind_ok.2 ⟨i.scriptSig, ?_, exc_bind_ok.2 ⟨(beVal b.contractKey + beVal b.blindingKey) % secpN, ?_, exc_bind_ok.2 ⟨d, ?_, exc_bind_ok.2 ⟨t', up_ok.2 hspend, exc_bind_ok.2 ⟨w, up_ok.2 hw, rfl⟩⟩⟩⟩⟩
  · rw [C77_found, j1, e3, ← e4]
    exact ⟨0, i, rfl, rfl, j2, j3, fun m j hm => absurd hm (by omega)⟩
  · rw [j1] at hrev
    rw [ho]
    exact hrev
  · rw [ho, e2]
    exact hd

end

end Verif.SwapBtc
