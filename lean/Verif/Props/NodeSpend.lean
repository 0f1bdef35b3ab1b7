import Verif.Spec.NodeSpend
import Verif.Props.Node
import Verif.Props.NodeToy
import Verif.Props.Spend
import Verif.Props.SpendAddr
import Verif.Props.SwapSpend
import Verif.Props.SwapSpendToy
import Verif.Spec.AssetSwap
/-
C94: what was unblinded can be spent in a way the network accepts, in general and by the examples.
-/
namespace Verif

variable {M : Type} [AddCommGroup M] [Module Scalar M]

theorem RewindExact.sound {z : Zkp} (P : Pedersen z M) (h : RewindExact z) : RewindSound P := by
  intro nonce cs c proof extra g b v msg n h1 h2
  rw [P.commitSerialize _ _ (h.canonical _ _ h1), P.commit _ _ _ _ (h.remade _ _ _ _ _ _ _ _ _ h2)]

/-- C94.  The descriptor got from unblinding an output, or written down for a plain one, opens what the
network reads in that output. -/
theorem C94_spent {E : Env} {N : Verifier} {P : Pedersen E.z M} (hN : N.Keeps P) (hF : Formats E.z) (hR : RewindExact E.z) {o : TxOut}
    {w : TxOutWitness} {d : Desc} (hd : DescribedBy E o w d) (ho : OnChain o) : SpentAs E.z o d := by
  cases hd with
  | plain a v ha hv hal hvl =>
    obtain ⟨g, s, hg, -⟩ := hN.generates a hal
    obtain ⟨h1, h2⟩ := ho v hv
    exact ⟨g, (hN.plain a).trans hg, .inl ⟨a, ha, hal, hg⟩, .inl ⟨v, hv, hvl, rfl, rfl, h1, h2⟩⟩
  | unblinded key asset amount bf abf r d hu hr hd =>
    have hO := (C37_success_iff ..).1 hu
    simp only [UnblindResult.obj, unblindingSuccessNew] at hr
    split at hr
    swap
    · cases hr
    cases hr
    cases hd
    obtain ⟨nonce, extra, g, c, msg, -, hsh, hc, hrw, -, hal, -, g', s, hg', hs, hs'⟩ := hO.rewound
    have hcm := hR.remade _ _ _ _ _ _ _ _ _ hrw
    have hcs := hR.canonical _ _ hc
    have hb := hN.genBack _ _ _ _ hg' hs'
    cases hsh with
    | commitment _ _ hp =>
      have h2 := hF.genCanonical _ _ hp
      rw [hs] at h2
      cases h2
      rw [hb] at hp
      cases hp
      exact ⟨g, hg', .inr hs', .inr ⟨c, hcm, hcs⟩⟩
    | explicit a _ he hl hgen =>
      have h2 := hN.genBack a zero32 g s ((hN.plain a).trans hgen) hs
      rw [hb] at h2
      cases h2
      exact ⟨g, hg', .inl ⟨a, he, hl, hgen⟩, .inr ⟨c, hcm, hcs⟩⟩
    | nothing => exact absurd hs (hF.zeroGen _ _ _ _ hg' hs')

/-- C94.  An output that was hidden for a key can be spent by whoever unblinds it: that reports factors
that open what the network reads, so that payments can go on. -/
theorem C94_again {E : Env} {A : BlindArgs} {tx tx' : Tx} {num bfs abfs} {j : Nat} {key : Bytes} (F : Formats E.z) (W : Rewinds E.z)
    (h : blindTransaction E A tx = (.ok (.success num bfs abfs), tx')) (hj : A.pubkeys.getD j [] = E.z.pubOf key)
    (hk : E.z.secValid key = true) (hp : (tx'.outWit j).rangeproof ≠ []) (hne : E.z.pubOf key ≠ [])
    (hm : amountOf (tx.vout.getD j {}).nValue ≤ maxMoney) :
    ∃ d : Desc, unblind E key (tx'.vout.getD j {}).nValue (tx'.vout.getD j {}).nAsset (tx'.vout.getD j {}).nNonce
        (tx'.vout.getD j {}).scriptPubKey (tx'.outWit j).rangeproof
        = .ok (.success d.asset d.amount.toNat d.blindingFactor d.assetBlindingFactor) ∧
      (tx.vout.getD j {}).nAsset = 1 :: d.asset ∧ d.amount = (amountOf (tx.vout.getD j {}).nValue : Nat) ∧
      SpentAs E.z (tx'.vout.getD j {}) d := by
  have hb := blinded_of_proof h (by rw [hj]; exact hne) hp
  obtain ⟨asset, v, h1, h2, -, -, h5⟩ := C36_unblinds F W h hj hk hp hne
  have hv : amountOf (tx.vout.getD j {}).nValue = beVal v := by rw [h2]; rfl
  rw [hv] at hm
  refine ⟨⟨asset, beVal v, bfs.getD j [], abfs.getD j []⟩, h5 hm, h1, by rw [hv], ?_⟩
  obtain ⟨-, ⟨asset', v', gen, com, seed, x, a, p, hh, -⟩, -⟩ := hb
  have e1 := hh.explicitAsset.symm.trans h1
  have e2 := hh.explicitValue.symm.trans h2
  cases e1
  cases e2
  exact ⟨gen, hh.generator, .inr hh.nAsset, .inr ⟨com, hh.commitment, hh.nValue⟩⟩

/-- What matters about an input when amounts are checked. -/
def issuesView (i : TxIn) : OutPoint × Issuance := (i.prevout, i.assetIssuance)

/-- Signatures are not looked at when amounts are checked. -/
theorem verify_same {E : Env} {N : Verifier} {spent : List TxOut} {t t' : Tx} (hv : t'.vin.map issuesView = t.vin.map issuesView)
    (ho : t'.vout = t.vout) (hw : ∀ j, t'.outWit j = t.outWit j)
    (hi : ∀ i, (t'.inWit i).issuanceAmountRangeproof = (t.inWit i).issuanceAmountRangeproof ∧
      (t'.inWit i).inflationKeysRangeproof = (t.inWit i).inflationKeysRangeproof) :
    verifyAmounts E N spent (Spec.fillWitness t') = verifyAmounts E N spent (Spec.fillWitness t) := by
  have hl : t'.vin.length = t.vin.length := by
    have := congrArg List.length hv
    simpa using this
  have hin : ∀ i, i < t.vin.length → inputComs E N (spent.getD i {}) (t'.vin.getD i default) (Spec.fillWitness t').wit.vtxinwit[i]?
      = inputComs E N (spent.getD i {}) (t.vin.getD i default) (Spec.fillWitness t).wit.vtxinwit[i]? := by
    intro i h
    rw [fill_inWit _ (by omega), fill_inWit _ h]
    have e : issuesView (t'.vin.getD i default) = issuesView (t.vin.getD i default) := by
      have := congrArg (fun l => l[i]?) hv
      simp only [List.getElem?_map] at this
      rw [List.getD_eq_getElem?_getD, List.getD_eq_getElem?_getD, List.getElem?_eq_getElem h,
        List.getElem?_eq_getElem (by omega)]
      rw [List.getElem?_eq_getElem h, List.getElem?_eq_getElem (by omega)] at this
      exact Option.some.inj this
    have key : ∀ (a b : TxIn) (x y : TxInWitness), issuesView a = issuesView b →
        x.issuanceAmountRangeproof = y.issuanceAmountRangeproof → x.inflationKeysRangeproof = y.inflationKeysRangeproof →
        inputComs E N (spent.getD i {}) a (some x) = inputComs E N (spent.getD i {}) b (some y) := by
      rintro ⟨p, s, q, is, g⟩ ⟨p', s', q', is', g'⟩ x y h1 h2 h3
      simp only [issuesView, Prod.mk.injEq] at h1
      obtain ⟨rfl, rfl⟩ := h1
      unfold inputComs
      simp only [Option.map_some, h2, h3]
      rfl
    exact key _ _ _ _ e (hi i).1 (hi i).2
  have hout : ∀ j, j < t.vout.length → (Spec.fillWitness t').wit.vtxoutwit[j]? = (Spec.fillWitness t).wit.vtxoutwit[j]? := by
    intro j h
    rw [fill_outWit _ (by rw [ho]; exact h), fill_outWit _ h, hw]
  unfold verifyAmounts
  simp only [show (Spec.fillWitness t').vin = t'.vin from rfl, show (Spec.fillWitness t).vin = t.vin from rfl,
    show (Spec.fillWitness t').vout = t'.vout from rfl, show (Spec.fillWitness t).vout = t.vout from rfl, ho, hl]
  have e1 : ((List.range t.vin.length).flatMap fun i => (inputComs E N (spent.getD i {}) (t'.vin.getD i default)
      (Spec.fillWitness t').wit.vtxinwit[i]?).getD []) = (List.range t.vin.length).flatMap fun i =>
      (inputComs E N (spent.getD i {}) (t.vin.getD i default) (Spec.fillWitness t).wit.vtxinwit[i]?).getD [] :=
    List.flatMap_congr fun i hi => by rw [hin i (List.mem_range.1 hi)]
  rw [e1]
  have all_eq : ∀ (n : Nat) (f g : Nat → Bool), (∀ i, i < n → f i = g i) → (List.range n).all f = (List.range n).all g := by
    intro n f g hfg
    rw [Bool.eq_iff_iff, List.all_eq_true, List.all_eq_true]
    exact forall₂_congr fun i hi => by rw [hfg i (List.mem_range.1 hi)]
  rw [all_eq _ _ _ fun i hi => congrArg Option.isSome (hin i hi), all_eq _ (fun j => outputRange E.z N (t.vout.getD j {}) _) _ fun j hj =>
    congrArg _ (hout j hj), all_eq _ (fun j => outputSurjection E.z N _ (t.vout.getD j {}) _) _ fun j hj => congrArg _ (hout j hj)]


theorem plain_in {v : Nat} (h : v < 2 ^ 64) : IsExplicitValue (1 :: beBytes 8 v) ∧ amountOf (1 :: beBytes 8 v) = v :=
  ⟨⟨_, rfl, by simp⟩, by
    show beVal (beBytes 8 v) = v
    exact beVal_beBytes_of_lt (by omega)⟩

namespace SpendAddr
open Spec CrossSwap

theorem Facts.ready {E W a t n o f d fee id s extra pubs num bfs abfs tb} {N : Verifier} {P : Pedersen E.z M} (hN : N.Keeps P)
    (hF : Formats E.z) (hR : RewindExact E.z) (F : Facts E W a t n o f d fee id s extra pubs num bfs abfs tb) (ho : OnChain o)
    (h0 : 0 < d.amount) (ha : ¬ AllZero d.asset) :
    Ready E { descs := [d], pubkeys := pubs, rand := a.rand } [o]
      (plainTx id n (1 :: beBytes 8 (d.amount.toNat - fee)) (1 :: d.asset) s f extra) := by
  have hmax : d.amount.toNat ≤ maxMoney := by
    rcases described_cases F.known with ⟨v, h1, -, -, h2⟩ | ⟨-, h⟩
    · have := (ho v h1).2
      omega
    · exact h
  have hen := F.enough
  obtain ⟨fa, hfa, hfl⟩ := F.feeAsset
  have hm : maxMoney < 2 ^ 64 := by decide
  obtain ⟨a1, a2⟩ := plain_in (v := d.amount.toNat - fee) (by omega)
  obtain ⟨b1, b2⟩ := plain_in (v := fee) (by omega)
  obtain ⟨c1, c2⟩ := plain_in (v := 0) (by decide)
  refine ⟨.cons (C94_spent hN hF hR F.known ho) .nil, ?_, Nat.zero_le _, (show 52 ≤ 52 by decide), ?_, ?_, ?_⟩
  · intro x hx
    rw [List.mem_singleton.1 hx]
    exact ha
  · intro i token hi hne
    have : i = 0 := by simpa [plainTx] using hi
    subst this
    cases token <;> exact absurd rfl hne
  · intro i hi hne
    have : i = 0 := by simpa [plainTx] using hi
    subst this
    exact absurd rfl hne
  · intro j hj
    match j, hj with
    | 0, _ => exact ⟨a1, ⟨_, rfl, F.asset⟩, by show amountOf (1 :: beBytes 8 (d.amount.toNat - fee)) ≤ _; omega, fun _ =>
        ⟨.inl (by show 0 < amountOf (1 :: beBytes 8 (d.amount.toNat - fee)); omega), (show nonceSort [] ≠ .invalid by decide), rfl⟩⟩
    | 1, _ =>
      refine ⟨?_, ?_, ?_, fun _ => ⟨.inr (.inl rfl), (show nonceSort [] ≠ .invalid by decide), rfl⟩⟩
      · show IsExplicitValue f.nValue
        rw [F.feeValue]; exact b1
      · show IsExplicitAsset f.nAsset
        exact ⟨_, hfa, hfl⟩
      · show amountOf f.nValue ≤ _
        rw [F.feeValue]; omega
    | j + 2, hj =>
      rcases F.dummy with ⟨rfl, -⟩ | ⟨rfl, -⟩
      · simp [plainTx] at hj
      · have : j = 0 := by
          have : j + 2 < 3 := by simpa [plainTx] using hj
          omega
        subst this
        refine ⟨c1, ⟨_, rfl, F.asset⟩, ?_, fun _ => ⟨.inr (.inr rfl), (show nonceSort [] ≠ .invalid by decide), rfl⟩⟩
        show amountOf (1 :: beBytes 8 0) ≤ _
        omega

/-- C94.  What the example prints is accepted by the network as far as amounts go: the output it spends
is on the chain and not zero, the fee is paid in its asset, and blinding for a confidential address did
what was asked. -/
theorem C94_spend {E : Env} {W : World} {a : Args} {t : Tx} {N : Verifier} {P : Pedersen E.z M} (hN : N.Keeps P) (hF : Formats E.z)
    (hZ : WireSizes E.z) (hR : RewindExact E.z) (hs : AmountsSigned a.inputTx.vout) (ha : AddrOk a.dst)
    (h : spend E W a = .ok (some t)) :
    ∃ n o f d fee, FirstTo (srcScript W (E.z.pubOf a.key)) a.inputTx.vout n o ∧ Printed E W a n o f d fee t ∧
      (OnChain o → 0 < d.amount → ¬ AllZero d.asset → f.nAsset = 1 :: d.asset →
        (a.dst.conf = true → IsValueCommitment (t.vout.getD 0 {}).nValue) → verifyAmounts E N [o] (fillWitness t) = true) := by
  obtain ⟨n, o, f, d, fee, id, s, extra, pubs, num, bfs, abfs, tb, F⟩ := facts hs h
  refine ⟨n, o, f, d, fee, F.first, F.printed, ?_⟩
  intro ho h0 hz hfee hcom
  have hbal := F.balanced hZ P (hR.sound P) ha hfee hcom
  obtain ⟨digest, -, -, ht, -⟩ := signTx_ok F.sign
  have hvt : t.vout = tb.vout := by rw [ht]
  have hready := F.ready hN hF hR ho h0 hz
  have hex := (C92_exact hN hF hZ F.blind rfl (by
    intro i hi
    simp only [plainTx, List.mem_cons, List.not_mem_nil, or_false] at hi
    subst hi
    exact F.input_sizes) hready ?_).2 ?_
  · rw [← hex]
    refine verify_same ?_ hvt ?_ ?_
    · rw [ht, F.vin]; rfl
    · rw [ht]; exact fun _ => rfl
    · intro i
      have h1 := F.asked.amountProof i (by simp)
      have h2 := F.asked.tokensProof i (by simp)
      cases i with
      | zero =>
        have e : (t.inWit 0).issuanceAmountRangeproof = [] ∧ (t.inWit 0).inflationKeysRangeproof = [] := by
          rw [ht]
          unfold Tx.inWit
          cases tb.wit.vtxinwit <;> exact ⟨rfl, rfl⟩
        rw [h1, h2, e.1, e.2]
        exact ⟨rfl, rfl⟩
      | succ i =>
        have e : t.inWit (i + 1) = tb.inWit (i + 1) := by
          rw [ht]
          unfold Tx.inWit
          cases tb.wit.vtxinwit <;> rfl
        rw [e]
        exact ⟨rfl, rfl⟩
  · intro j hj
    rcases F.dummy with ⟨-, rfl, -⟩ | ⟨rfl, rfl, -⟩
    · match j, hj with
      | 0, hj =>
        left
        rw [← hvt]
        refine hcom ?_
        by_contra hc
        exact hj (by simp [hc])
      | 1, hj => exact absurd rfl hj
      | j + 2, hj => exact absurd rfl hj
    · match j, hj with
      | 0, hj => exact absurd rfl hj
      | 1, hj => exact absurd rfl hj
      | 2, _ => exact .inr ⟨.inr (.inr rfl), (show nonceSort [] ≠ .invalid by decide), rfl⟩
      | j + 3, hj => exact absurd rfl hj
  · unfold SpendsBalanced at hbal
    unfold Balanced
    simp only [List.map_cons, List.map_nil] at hbal ⊢
    rw [C57_opening P (hR.sound P) F.known] at hbal
    exact hbal

end SpendAddr

namespace SwapSpend
open Spec CrossSwap SpendAddr

theorem Facts.accepted {E : Env} {W : World} {j : Job} {reveal : Option (Bytes × Bytes)} {t : Tx} {s : Bytes} {num : Nat} {bfs abfs : List Bytes}
    {tb : Tx} {N : Verifier} {P : Pedersen E.z M} (hN : N.Keeps P) (hF : Formats E.z) (hZ : WireSizes E.z) (hR : RewindExact E.z)
    (ha : AddrOk j.dst) (F : Facts E W j reveal t s num bfs abfs tb) (hz : ¬ AllZero W.asset) {o : TxOut} {w : TxOutWitness} {key : Bytes}
    (ho : unblind E key o.nValue o.nAsset o.nNonce o.scriptPubKey w.rangeproof = .ok (.success W.asset 101000000 j.bf j.abf)) :
    verifyAmounts E N [o] (fillWitness t) = true := by
  have hd := F.described ho
  have hchain : OnChain o := by
    intro v hv
    have := ((C37_success_iff ..).1 ho).value
    rw [hv] at this
    obtain ⟨b, h | h, -⟩ := this <;> simp at h
  have hbal := F.balancedBefore hZ P (hR.sound P) ha ho
  obtain ⟨a1, a2⟩ := plain_in (v := 100000000) (by decide)
  obtain ⟨b1, b2⟩ := plain_in (v := 1000000) (by decide)
  obtain ⟨c1, c2⟩ := plain_in (v := 0) (by decide)
  have hpub := F.dummyPub hZ
  have hdp : nonceSort (E.z.pubOf j.dummy) ≠ .invalid := by
    have h1 := hZ.pubPrefix _ F.dummy
    have h2 := F.nonce
    cases hp : E.z.pubOf j.dummy with
    | nil => decide
    | cons x b =>
      rw [hp] at h1 h2
      simp only [List.head?_cons, Option.some.injEq, List.length_cons] at h1 h2
      have hl : b.length = 32 := by omega
      show fieldSort 32 2 3 (x :: b) ≠ .invalid
      rcases h1 with rfl | rfl <;> simp [fieldSort, hl]
  have hready : Ready E { descs := [⟨W.asset, agreed, j.bf, j.abf⟩], pubkeys := [j.dst.blindingPubkey, E.z.pubOf j.dummy], rand := j.rand } [o]
      (plainElt W.asset j.dst.blindingPubkey (E.z.pubOf j.dummy) s j.txid j.n) := by
    refine ⟨.cons (C94_spent hN hF hR hd hchain) .nil, ?_, Nat.zero_le _, (show 52 ≤ 52 by decide), ?_, ?_, ?_⟩
    · intro x hx
      rw [List.mem_singleton.1 hx]
      exact hz
    · intro i token hi hne
      have : i = 0 := by simpa [plainElt] using hi
      subst this
      cases token <;> exact absurd rfl hne
    · intro i hi hne
      have : i = 0 := by simpa [plainElt] using hi
      subst this
      exact absurd rfl hne
    · intro k hk
      match k, hk with
      | 0, _ =>
        refine ⟨a1, ⟨_, rfl, F.asset⟩, ?_, fun hx => absurd hx (blindingPubkey_ne ha F.conf)⟩
        show amountOf (1 :: beBytes 8 100000000) ≤ _
        rw [a2]; decide
      | 1, _ =>
        refine ⟨c1, ⟨_, rfl, F.asset⟩, ?_, fun hx => absurd hx hpub⟩
        show amountOf (1 :: beBytes 8 0) ≤ _
        omega
      | 2, _ =>
        refine ⟨b1, ⟨_, rfl, F.asset⟩, ?_, fun _ => ⟨.inr (.inl rfl), (show nonceSort [] ≠ .invalid by decide), rfl⟩⟩
        show amountOf (1 :: beBytes 8 1000000) ≤ _
        rw [b2]; decide
      | k + 3, hk => exact absurd hk (by simp [plainElt])
  have hex := (C92_exact hN hF hZ F.blind rfl F.sizes hready ?_).2 ?_
  · rw [← hex]
    obtain ⟨digest, ss, -, ht, -⟩ := F.signed
    refine verify_same ?_ (by rw [ht]) (by rw [ht]; exact fun _ => rfl) (by rw [ht]; exact fun _ => ⟨rfl, rfl⟩)
    rw [ht, F.vin]
    rfl
  · intro k hk
    match k, hk with
    | 0, _ => exact .inl (F.hidden hZ ha).committed
    | 1, _ => exact .inr ⟨.inr (.inr rfl), hdp, rfl⟩
    | k + 2, hk => exact absurd rfl hk
  · unfold SpendsBalanced at hbal
    unfold Balanced
    simp only [List.map_cons, List.map_nil] at hbal ⊢
    rw [C57_opening P (hR.sound P) hd] at hbal
    exact hbal

/-- C94.  The network accepts the amounts of the claim whenever there is one. -/
theorem C94_claim {E : Env} {W : World} {b : Bob} {txid : Bytes} {confirmations : Int} {tx t : Tx} {N : Verifier} {P : Pedersen E.z M}
    (hN : N.Keeps P) (hF : Formats E.z) (hZ : WireSizes E.z) (hR : RewindExact E.z) (hz : KeySizes E W) (ha : AddrOk b.dst)
    (hne : ¬ AllZero W.asset) (h : bobClaim E W b txid confirmations tx = .ok t) :
    ∃ p n o bf abf, W.addPubs (E.z.pubOf b.contractKey) (E.z.pubOf b.blindingKey) = .ok p ∧
      Deposit E W b.blindingKey (eltContract W.r p (E.z.pubOf b.spendKey) b.alicePub) tx n o 101000000 bf abf ∧
      t.vin.map TxIn.prevout = [⟨txid, n⟩] ∧ verifyAmounts E N [o] (fillWitness t) = true := by
  obtain ⟨p, n, o, bf, abf, s, num, bfs, abfs, tb, h1, h2, -, h3, F, h4⟩ := bobClaim_ok hz.hash h
  refine ⟨p, n, o, bf, abf, h1, h3, ?_, F.accepted hN hF hZ hR ha hne h3.opens⟩
  obtain ⟨digest, ss, -, ht, -⟩ := F.signed
  rw [ht]
  rfl

/-- C94.  And those of the reclaim of a deposit of the agreed amount, which the reclaim does not check. -/
theorem C94_reclaim {E : Env} {W : World} {a : Alice} {txid : Bytes} {tx t : Tx} {N : Verifier} {P : Pedersen E.z M}
    (hN : N.Keeps P) (hF : Formats E.z) (hZ : WireSizes E.z) (hR : RewindExact E.z) (hz : KeySizes E W) (ha : AddrOk a.dst)
    (hne : ¬ AllZero W.asset) (h : aliceReclaim E W a txid tx = .ok t) :
    ∃ p n o amount bf abf, W.addPubs a.contractPub (E.z.pubOf a.blindingKey) = .ok p ∧
      Deposit E W a.blindingKey (eltContract W.r p a.bobPub (E.z.pubOf a.exitKey)) tx n o amount bf abf ∧
      t.vin.map TxIn.prevout = [⟨txid, n⟩] ∧ (amount = 101000000 → verifyAmounts E N [o] (fillWitness t) = true) := by
  obtain ⟨p, n, o, amount, bf, abf, s, num, bfs, abfs, tb, h1, -, h3, F, h4⟩ := aliceReclaim_ok hz.hash h
  refine ⟨p, n, o, amount, bf, abf, h1, h3, ?_, ?_⟩
  · obtain ⟨digest, ss, -, ht, -⟩ := F.signed
    rw [ht]
    rfl
  · rintro rfl
    exact F.accepted hN hF hZ hR ha hne h3.opens

end SwapSpend

namespace Toy

theorem rewindExact : RewindExact zkp where
  remade nonce c proof extra g b v msg n h := by
    have h2 : (c == encCom ((v * decPt g + num b) % secpN)) = true := (Option.filter_eq_some_iff.1 h).2
    have hc : c = encCom ((v * decPt g + num b) % secpN) := by simpa using h2
    rw [hc]
    rfl
  canonical s c h := by
    simp only [zkp] at h ⊢
    split at h
    · rename_i hs
      cases h
      obtain ⟨h1, h2⟩ := hs
      cases s with
      | nil => cases h2
      | cons x b =>
        cases h2
        have : b.length = 32 := by simpa using h1
        simp [this]
    · cases h

/-- Two outputs are hidden and can both be spent further. -/
def onArgs : BlindArgs := { descs := [⟨b32 5, 11, b32 3, b32 4⟩], pubkeys := [pub 3, pub 4, []], rand := fun k => b32 (k + 5) }
def onTx : Tx := ⟨2, [{ prevout := ⟨b32 9, 0⟩ }], [{ nAsset := ast 5, nValue := amt 8, scriptPubKey := [0x52] },
  { nAsset := ast 5, nValue := amt 2, scriptPubKey := [0x51] }, { nAsset := ast 5, nValue := amt 1 }], 0, ⟨[{}], [{}, {}, {}]⟩⟩

example : ∃ d, d.amount = 2 ∧ SpentAs zkp ((blindTransaction env onArgs onTx).2.vout.getD 1 {}) d := by
  obtain ⟨b, a, t', hx⟩ := success_of (x := blindTransaction env onArgs onTx) (n := 2) (by decide +kernel)
  have hp : ((blindTransaction env onArgs onTx).2.outWit 1).rangeproof ≠ [] := by decide +kernel
  rw [hx] at hp ⊢
  obtain ⟨d, -, -, h2, h3⟩ := C94_again (key := b32 4) formats rewinds hx rfl (by decide) hp (by decide) (by decide)
  exact ⟨d, h2, h3⟩

end Toy

namespace SpendAddr
open Spec CrossSwap

-- ten in the clear to a plain address: all hypotheses are met
example : ∃ t o, spend Verif.Toy.env Toy.W (Toy.args (Toy.openIn 5) Toy.dst) = .ok (some t) ∧
    FirstTo Toy.src (Toy.openIn 5).vout 1 o ∧ verifyAmounts Verif.Toy.env Verif.Toy.verifier [o] (fillWitness t) = true := by
  obtain ⟨t, ht, -⟩ := Toy.printed_of Toy.open_plain
  obtain ⟨n, o, f, d, fee, h1, h2, h3⟩ := C94_spend Verif.Toy.keeps Verif.Toy.formats Verif.Toy.wireSizes Verif.Toy.rewindExact
    (Toy.openIn_signed 5) Toy.dst_ok ht
  have hf' : FirstTo Toy.src (Toy.openIn 5).vout 1 { nAsset := Verif.Toy.ast 5, nValue := Verif.Toy.amt 10, scriptPubKey := Toy.src } := by
    refine ⟨rfl, rfl, ?_⟩
    intro m p hm hp
    have : m = 0 := by omega
    subst this
    cases hp
    decide
  obtain ⟨rfl, rfl⟩ := FirstTo.unique h1 hf'
  refine ⟨t, _, ht, hf', h3 ?_ ?_ ?_ ?_ (fun hx => absurd hx (by decide))⟩
  · intro v hv
    cases hv
    decide
  · have := h2.known
    rcases described_cases this with ⟨v, hv, -, -, hd⟩ | ⟨⟨b, h | h, -⟩, -⟩
    · cases hv
      rw [hd]
      decide
    · cases h
    · cases h
  · rcases described_cases h2.known with ⟨v, hv, -, hd, -⟩ | ⟨⟨b, h | h, -⟩, -⟩
    · have : Verif.Toy.b32 5 = d.asset := List.cons.inj hd |>.2
      rw [← this]
      decide
    · cases h
    · cases h
  · rcases described_cases h2.known with ⟨v, hv, -, hd, -⟩ | ⟨⟨b, h | h, -⟩, -⟩
    · rw [← hd]
      obtain ⟨i, hi, -⟩ := h2.feeOut.1
      have hfe := h2.feeOut.2.1
      match i, hi with
      | 0, hi => cases hi; cases hfe.1
      | 1, hi => cases hi; exact absurd hfe.1 (by decide)
      | 2, hi => cases hi; rfl
    · cases h
    · cases h

-- a hidden output to a confidential address
example : (match spend Verif.Toy.env Toy.W (Toy.args Toy.hiddenIn Toy.confDst) with
    | .ok (some t) => verifyAmounts Verif.Toy.env Verif.Toy.verifier [Toy.hiddenIn.vout.getD 0 {}] (fillWitness t)
    | _ => false) = true := by decide +kernel

-- what C72 refutes is refused: the fee is paid in an asset that is not spent
example : (match spend Verif.Toy.env Toy.W (Toy.args (Toy.openIn 6) Toy.dst) with
    | .ok (some t) => verifyAmounts Verif.Toy.env Verif.Toy.verifier [(Toy.openIn 6).vout.getD 1 {}] (fillWitness t)
    | _ => true) = false := by decide +kernel

end SpendAddr

namespace SwapSpend
open Verif.Toy

example : ∃ t o, bobClaim env Toy.W Toy.bob (b32 8) 2 (Toy.deposit 101000000) = .ok t ∧
    verifyAmounts env verifier [o] (Spec.fillWitness t) = true := by
  obtain ⟨t, ht⟩ := Toy.claims
  obtain ⟨-, -, o, -, -, -, -, -, h⟩ := C94_claim keeps formats wireSizes rewindExact Toy.keySizes SpendAddr.Toy.confDst_ok (by decide) ht
  exact ⟨t, o, ht, h⟩

-- the reclaim of the agreed amount is accepted, of another amount not
example : (match aliceReclaim env Toy.W Toy.alice (b32 8) (Toy.deposit 101000000) with
    | .ok t => verifyAmounts env verifier [(Toy.deposit 101000000).vout.getD 1 {}] (Spec.fillWitness t)
    | _ => false) = true := by decide +kernel
example : (match aliceReclaim env Toy.W Toy.alice (b32 8) (Toy.deposit 101000001) with
    | .ok t => verifyAmounts env verifier [(Toy.deposit 101000001).vout.getD 1 {}] (Spec.fillWitness t)
    | _ => true) = false := by decide +kernel

end SwapSpend

end Verif
