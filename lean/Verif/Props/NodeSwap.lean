import Verif.Props.NodeJoint
import Verif.Props.NodeToy
import Verif.Props.AssetSwapToy
/-
C93, the transactions of examples/asset-atomic-swap.py: what is swapped and what is claimed back
passes the amount check of the network.
-/
namespace Verif

variable {M : Type} [AddCommGroup M] [Module Scalar M]

theorem told_hidden {z : Zkp} {N : Verifier} {P : Pedersen z M} (hN : N.Keeps P) (hF : Formats z) {o : TxOut} {d : Desc} (h : SpentAs z o d)
    (hc : IsAssetCommitment o.nAsset) : ∃ g, assetGen z o.nAsset = some g ∧ z.genSerialize g = some o.nAsset := by
  obtain ⟨g, hg, ha, -⟩ := h.opened
  rcases ha with ⟨a, e, -, -⟩ | hs
  · rw [e] at hc
    obtain ⟨b, hb | hb, -⟩ := hc <;> exact absurd (List.cons.inj hb).1 (by decide)
  · refine ⟨g, ?_, hs⟩
    simp only [assetGen, assetSort_commitment (generator_written hF hs)]
    exact hN.genBack _ _ _ _ hg hs

namespace AssetSwap
open Verif Spec CrossSwap SpendAddr

theorem paid_plain {l : List (Bytes × Nat × Bytes)} {j : Nat} (hj : j < l.length)
    (hl : ∀ x ∈ l, x.1.length = 32 ∧ x.2.1 ≤ maxMoney) :
    IsExplicitValue ((paid l).getD j {}).nValue ∧ IsExplicitAsset ((paid l).getD j {}).nAsset ∧
    amountOf ((paid l).getD j {}).nValue = (l.getD j ([], 0, [])).2.1 ∧ amountOf ((paid l).getD j {}).nValue ≤ maxMoney ∧
    ((paid l).getD j {}).scriptPubKey = (l.getD j ([], 0, [])).2.2 ∧ ((paid l).getD j {}).nNonce = [] := by
  have e : (paid l).getD j {} = { nValue := 1 :: beBytes 8 l[j].2.1, nAsset := 1 :: l[j].1, scriptPubKey := l[j].2.2 } := by
    rw [List.getD_eq_getElem?_getD, paid, List.getElem?_map, List.getElem?_eq_getElem hj]
    rfl
  have e2 : l.getD j ([], 0, []) = l[j] := by rw [List.getD_eq_getElem?_getD, List.getElem?_eq_getElem hj]; rfl
  obtain ⟨h1, h2⟩ := hl _ (List.getElem_mem hj)
  have hb : beVal (beBytes 8 l[j].2.1) = l[j].2.1 := beVal_beBytes_of_lt (by unfold maxMoney at h2; omega)
  rw [e, e2]
  refine ⟨⟨_, rfl, beBytes_length _ _⟩, ⟨_, rfl, h1⟩, hb, ?_, rfl, rfl⟩
  show beVal (beBytes 8 l[j].2.1) ≤ maxMoney
  rw [hb]
  exact h2

theorem bob_offered {E : Env} {N : Verifier} {P : Pedersen E.z M} (hN : N.Keeps P) (hF : Formats E.z) {b : Bob} {alice : Addr} {own s : Bytes}
    {sb s1 s2 s3 : TxOut} {d1 d2 d3 : Desc} (hb : UtxoOk b.utxo) (hA : AddrOk alice) (hconf : alice.conf = true) (hl : b.utxo.asset.length = 32)
    (h1 : SpentAs E.z s1 d1) (h2 : SpentAs E.z s2 d2) (h3 : SpentAs E.z s3 d3)
    (hh : IsAssetCommitment s1.nAsset ∧ IsAssetCommitment s2.nAsset ∧ IsAssetCommitment s3.nAsset) (hz : ¬ AllZero b.utxo.asset) :
    Offered E { descs := [b.utxo.desc], pubkeys := [alice.blindingPubkey], auxGens := own :: [s1.nAsset, s2.nAsset, s3.nAsset], rand := b.rand }
      [sb, s1, s2, s3] [] [b.utxo.desc] (newTx [] []) (newTx [b.utxo.txin] (paid [(b.utxo.asset, b.utxo.amount.toNat, s)])) where
  strict := rfl
  bits := by simp
  issues t ht := by
    simp only [newTx, List.mem_cons, List.not_mem_nil, or_false] at ht
    subst ht
    exact ⟨rfl, rfl⟩
  known d hd := by
    simp only [List.mem_cons, List.not_mem_nil, or_false] at hd
    subst hd
    exact hz
  unknown d hd := by cases hd
  told i hi hor := by
    match i, hi, hor with
    | 0, _, hor =>
      rcases hor with h | h
      · exact absurd h (by simp [newTx])
      · exact absurd h (by simp [newTx])
    | 1, _, _ => exact told_hidden hN hF h1 hh.1
    | 2, _, _ => exact told_hidden hN hF h2 hh.2.1
    | 3, _, _ => exact told_hidden hN hF h3 hh.2.2
  aux := by simp
  old j hj := by cases hj
  new j _ hj := by
    have hj : j = 0 := by simpa [newTx, paid] using hj
    subst hj
    have hm := hb.money
    obtain ⟨p1, p2, -, p4, -⟩ := paid_plain (l := [(b.utxo.asset, b.utxo.amount.toNat, s)]) (j := 0) (by simp) (by
      intro x hx
      simp only [List.mem_cons, List.not_mem_nil, or_false] at hx
      subst hx
      exact ⟨hl, by unfold maxMoney; dsimp only; omega⟩)
    refine ⟨p1, p2, p4, fun h => ?_⟩
    exact absurd h (blindingPubkey_ne hA hconf)

theorem newTx_outWit (vin : List TxIn) (vout : List TxOut) (j : Nat) : (newTx vin vout).outWit j = {} := by
  show ((vout.map fun _ => ({} : TxOutWitness))[j]?).getD {} = {}
  rw [List.getElem?_map]
  cases vout[j]? <;> rfl

/-- The witnesses Alice's transaction has after Bob's: those of Bob's outputs, then empty ones. -/
theorem joined_outWit (a : Alice) (p : Tx) (s1 s2 s3 : Bytes) (hw : p.wit.vtxoutwit ≠ []) (hp : ∀ j, 1 ≤ j → p.outWit j = {}) :
    (joined a p s1 s2 s3).outWit 0 = p.outWit 0 ∧ ∀ j, 1 ≤ j → (joined a p s1 s2 s3).outWit j = {} := by
  have e : ∀ j, (joined a p s1 s2 s3).outWit j = ((p.wit.vtxoutwit ++ [({} : TxOutWitness), {}, {}, {}])[j]?).getD ({} : TxOutWitness) := fun _ => rfl
  constructor
  · rw [e, List.getElem?_append_left (List.length_pos_iff.2 hw)]
    rfl
  · intro j hj
    rw [e]
    by_cases hlt : j < p.wit.vtxoutwit.length
    · rw [List.getElem?_append_left hlt]
      exact hp j hj
    · rw [List.getElem?_append_right (by omega)]
      have : ∀ n : Nat, (([({} : TxOutWitness), {}, {}, {}])[n]?).getD ({} : TxOutWitness) = {} := by
        intro n
        match n with
        | 0 | 1 | 2 | 3 => rfl
        | n + 4 => rfl
      exact this _

theorem joined_new {E : Env} {W : World} {a : Alice} {offer : Offer} {p : Tx} {bob1 bob2 : Addr} {t tb : Tx} {o : TxOut} {i : TxIn}
    {c1 c2 c3 bobC : Bytes} {num : Nat} {bfs abfs : List Bytes} (ha : AliceOk a) (h1 : AddrOk bob1) (h2 : AddrOk bob2) (hc : AddrOk a.change)
    (J : Joined E W a offer p bob1 bob2 bobC t o i c1 c2 c3 num bfs abfs tb) (hpw : ∀ j, 1 ≤ j → p.outWit j = {}) :
    ∀ j, p.vout.length ≤ j → j < (joined a p c1 c2 c3).vout.length → IsExplicitValue ((joined a p c1 c2 c3).vout.getD j {}).nValue ∧
    IsExplicitAsset ((joined a p c1 c2 c3).vout.getD j {}).nAsset ∧ amountOf ((joined a p c1 c2 c3).vout.getD j {}).nValue ≤ maxMoney ∧
    (([[], bob1.blindingPubkey, bob2.blindingPubkey, a.change.blindingPubkey, []] : List Bytes).getD j [] = [] →
      (0 < amountOf ((joined a p c1 c2 c3).vout.getD j {}).nValue ∨ Unspendable ((joined a p c1 c2 c3).vout.getD j {}).scriptPubKey) ∧
      nonceSort ((joined a p c1 c2 c3).vout.getD j {}).nNonce ≠ .invalid ∧ (joined a p c1 c2 c3).outWit j = {}) := by
  intro j hj1 hj2
  have m1 := (ha.utxos a.asset1 (by simp [Alice.utxos])).money
  have m2 := (ha.utxos a.asset2 (by simp [Alice.utxos])).money
  have m3 := (ha.utxos a.fee (by simp [Alice.utxos])).money
  have hfix : fixedFee = 10000 := rfl
  have hA2 := J.assets
  have hvo : (joined a p c1 c2 c3).vout = o :: paid [(a.asset1.asset, a.asset1.amount.toNat, c1), (a.asset2.asset, a.asset2.amount.toNat, c2),
      (a.feeAsset, (a.fee.amount - fixedFee).toNat, c3), (a.feeAsset, 10000, [])] := by
    simp only [joined, J.vout]
    rfl
  have hw := (joined_outWit a p c1 c2 c3 J.wits hpw).2 j
  rw [hvo] at hj2 ⊢
  rw [J.vout] at hj1
  obtain ⟨k, rfl⟩ : ∃ k, j = k + 1 := ⟨j - 1, by simp at hj1; omega⟩
  rw [List.getD_cons_succ]
  have hk : k < 4 := by
    simp only [paid, List.length_cons, List.length_map, List.length_nil] at hj2
    omega
  obtain ⟨p1, p2, p3, p4, p5, p6⟩ := paid_plain (l := [(a.asset1.asset, a.asset1.amount.toNat, c1), (a.asset2.asset, a.asset2.amount.toNat, c2),
    (a.feeAsset, (a.fee.amount - fixedFee).toNat, c3), (a.feeAsset, 10000, [])]) (j := k) (by simpa using hk) (by
    intro x hx
    simp only [List.mem_cons, List.not_mem_nil, or_false] at hx
    unfold maxMoney
    rcases hx with rfl | rfl | rfl | rfl
    · exact ⟨hA2.1, by dsimp only; omega⟩
    · exact ⟨hA2.2.1, by dsimp only; omega⟩
    · exact ⟨hA2.2.2, by dsimp only; omega⟩
    · exact ⟨hA2.2.2, by dsimp only; omega⟩)
  refine ⟨p1, p2, p4, fun h => ?_⟩
  have hk3 : k = 3 := by
    clear p1 p2 p3 p4 p5 p6 hw hj2 hj1
    match k, hk, h with
    | 0, _, h => exact absurd h (blindingPubkey_ne h1 J.conf1)
    | 1, _, h => exact absurd h (blindingPubkey_ne h2 J.conf2)
    | 2, _, h => exact absurd h (blindingPubkey_ne hc J.conf3)
    | 3, _, _ => rfl
  rw [p3, p6]
  subst hk3
  exact ⟨.inl (by show 0 < 10000; omega), by decide, hw (by omega)⟩

theorem alice_offered {E : Env} {W : World} {a : Alice} {offer : Offer} {p : Tx} {bob1 bob2 : Addr} {t tb : Tx} {o : TxOut} {i : TxIn}
    {c1 c2 c3 : Bytes} {num : Nat} {bfs abfs : List Bytes} {sb s1 s2 s3 : TxOut} {db : Desc} {N : Verifier} {P : Pedersen E.z M} (hN : N.Keeps P)
    (hF : Formats E.z) (ha : AliceOk a) (h1 : AddrOk bob1) (h2 : AddrOk bob2) (hc : AddrOk a.change)
    (J : Joined E W a offer p bob1 bob2 sb.nAsset t o i c1 c2 c3 num bfs abfs tb) (hi : i.assetIssuance.nAmount = [] ∧ i.assetIssuance.nInflationKeys = [])
    (hpw : ∀ j, 1 ≤ j → p.outWit j = {}) (hsb : SpentAs E.z sb db) (hh : IsAssetCommitment sb.nAsset) (hnz : ∀ u ∈ a.utxos, ¬ AllZero u.asset) :
    Offered E (aliceArgs a [[], bob1.blindingPubkey, bob2.blindingPubkey, a.change.blindingPubkey, []] sb.nAsset)
      [sb, s1, s2, s3] [⟨zero32, -1, zero32, zero32⟩] (a.utxos.map Utxo.desc) p (joined a p c1 c2 c3) where
  strict := rfl
  bits := by simp [aliceArgs]
  issues x hx := by
    simp only [joined, J.vin, List.mem_append, List.mem_cons, List.not_mem_nil, or_false, List.mem_map] at hx
    rcases hx with rfl | ⟨u, hu, rfl⟩
    · exact hi
    · exact ⟨rfl, rfl⟩
  known d hd := by
    obtain ⟨u, hu, rfl⟩ := List.mem_map.1 hd
    exact hnz u hu
  unknown d hd := by
    rw [List.mem_singleton.1 hd]
    decide
  told k hk hor := by
    have hk0 : k = 0 := by
      rcases hor with h | h
      · rw [J.vin] at h; simpa using h
      · simp only [joined, J.vin, Alice.utxos, List.length_append, List.length_map, List.length_cons, List.length_nil] at h
        simp only [List.length_cons, List.length_nil] at hk
        omega
    subst hk0
    exact told_hidden hN hF hsb hh
  aux := by simp only [aliceArgs, Alice.utxos, List.length_cons, List.length_map, List.length_nil]; decide
  old j hj := by
    have hj0 : j = 0 := by
      rw [J.vout] at hj
      simpa using hj
    subst hj0
    exact ⟨rfl, (joined_outWit a p c1 c2 c3 J.wits hpw).1⟩
  new := joined_new ha h1 h2 hc J hpw

/-- C93: what Alice sends to Bob, and what Bob makes of it by signing, passes the amount check of the
network, provided each was told the true asset commitments of what the other spends, and the change
was hidden. -/
theorem C93_swap {E : Env} {W : World} {a : Alice} {b : Bob} {offer : Offer} {p : Tx} {alice bob1 bob2 : Addr}
    {t : Tx} {sb s1 s2 s3 : TxOut} {N : Verifier} {P : Pedersen E.z M} (hN : N.Keeps P) (hF : Formats E.z) (hW : WireSizes E.z)
    (hz : Sizes E W) (ha : AliceOk a) (hb : UtxoOk b.utxo) (hA : AddrOk alice) (h1 : AddrOk bob1) (h2 : AddrOk bob2) (hc : AddrOk a.change)
    (hf : a.fee.asset = a.feeAsset)
    (hs : List.Forall₂ (SpentAs E.z) [sb, s1, s2, s3] [told b.utxo, told a.asset1, told a.asset2, told a.fee])
    (hh : ∀ o ∈ [sb, s1, s2, s3], IsAssetCommitment o.nAsset)
    (hnz : ∀ u ∈ b.utxo :: a.utxos, ¬ AllZero u.asset)
    (hbob : bobStart E b alice [s1.nAsset, s2.nAsset, s3.nAsset] = .ok p)
    (halice : aliceJoin E W a offer p [bob1, bob2] sb.nAsset = .ok t)
    (hv : IsValueCommitment (t.vout.getD 3 {}).nValue) :
    verifyAmounts E N [sb, s1, s2, s3] (fillWitness t) = true ∧
    ∀ offers t', bobFinish E W b offers t = .ok t' → verifyAmounts E N [sb, s1, s2, s3] (fillWitness t') = true := by
  obtain ⟨b1, b2, o, i, c1, c2, c3, num, bfs, abfs, tb, hab, J⟩ := joined_of ha halice
  cases hab
  obtain ⟨own, s, bfs', abfs', q1, q2, q3, q4⟩ := bobStart_ok hb hbob
  have hA' := C32_only_asked E { descs := [b.utxo.desc], pubkeys := [alice.blindingPubkey], auxGens := own :: [s1.nAsset, s2.nAsset, s3.nAsset], rand := b.rand }
        (newTx [b.utxo.txin] (paid [(b.utxo.asset, b.utxo.amount.toNat, s)]))
  rw [q4] at hA'
  dsimp only at hA'
  have hvin := same_inputs rfl rfl hA'
  have hie : b.utxo.txin = i := by
    have := J.vin
    rw [hvin] at this
    simpa [newTx] using this
  have hi : InputSizes i := by rw [← hie]; exact utxo_sizes hb
  obtain ⟨n, bf, abf, -, hop⟩ := J.opens
  obtain ⟨own', s', hbt, hbl⟩ := bob_turn hb hA hbob (by rw [J.vout]; exact hop.value)
  have hat := alice_turn hz ha hc hf hi J hv
  cases hs with | cons sb1 hs =>
  cases hs with | cons ss1 hs =>
  cases hs with | cons ss2 hs =>
  cases hs with | cons ss3 hs =>
  have hpw : ∀ j, 1 ≤ j → p.outWit j = {} := by
    intro j hj
    have := hA'.outputWitness j (by
      cases j with
      | zero => omega
      | succ j => rfl)
    rw [this]
    exact newTx_outWit _ _ _
  have hao := alice_offered (s1 := s1) (s2 := s2) (s3 := s3) hN hF ha h1 h2 hc J (by rw [← hie]; exact ⟨rfl, rfl⟩) hpw sb1 (hh _ (by simp))
    fun u hu => hnz u (List.mem_cons_of_mem _ hu)
  have hbo : Offered E { descs := [b.utxo.desc], pubkeys := [alice.blindingPubkey], auxGens := own' :: [s1.nAsset, s2.nAsset, s3.nAsset], rand := b.rand }
      [sb, s1, s2, s3] [] [b.utxo.desc] (newTx [] []) (newTx [b.utxo.txin] (paid [(b.utxo.asset, b.utxo.amount.toNat, s')])) :=
    bob_offered hN hF hb hA q2 hbl ss1 ss2 ss3 ⟨hh _ (by simp), hh _ (by simp), hh _ (by simp)⟩ (hnz _ (by simp))
  have hJ := (NetJoint.turn (.start rfl rfl) hbt hbo).turn hat hao
  obtain ⟨S, -⟩ := signAll_ok hz ha.utxos J.sign
  have hsp : List.Forall₂ (SpentAs E.z) [sb, s1, s2, s3] ([] ++ [b.utxo.desc] ++ a.utxos.map Utxo.desc) :=
    .cons sb1 (.cons ss1 (.cons ss2 (.cons ss3 .nil)))
  refine ⟨C93_joint (P := P) hN hF hW hJ hsp S, fun offers t' ht' => ?_⟩
  exact C93_joint (P := P) hN hF hW hJ hsp (S.trans (C71_bob hz hb ht').same (r := fun _ => True) (fun _ _ => trivial) (fun _ _ => trivial))

theorem claim_offered {E : Env} {W : World} {feeAsset : Bytes} {addrs : Nat → Addr} {rand : Nat → Bytes} {us : List Utxo} {t : Tx}
    {ps : List (Bytes × Nat × Bytes)} {pubs bfs abfs : List Bytes} {tb : Tx} {spent : List TxOut} (hu : ∀ u ∈ us, UtxoOk u) (ho : ∀ k, AddrOk (addrs k))
    (C : Claiming E W feeAsset addrs rand us t ps pubs bfs abfs tb) (hs : spent.length = us.length) (hnz : ∀ u ∈ us, ¬ AllZero u.asset) :
    Offered E { descs := us.map Utxo.desc, pubkeys := pubs ++ [[]], rand } spent [] (us.map Utxo.desc) (newTx [] [])
      (newTx (us.map Utxo.txin) (paid (ps ++ [(feeAsset, 10000, [])]))) where
  strict := rfl
  bits := by simp
  issues x hx := by
    obtain ⟨u, -, rfl⟩ := List.mem_map.1 (show x ∈ us.map Utxo.txin from hx)
    exact ⟨rfl, rfl⟩
  known d hd := by
    obtain ⟨u, hu', rfl⟩ := List.mem_map.1 hd
    exact hnz u hu'
  unknown d hd := by cases hd
  told i hi hor := by
    rcases hor with h | h
    · cases h
    · rw [show (newTx (us.map Utxo.txin) (paid (ps ++ [(feeAsset, 10000, [])]))).vin.length = us.length from List.length_map _] at h
      omega
  aux := Nat.zero_le _
  old j hj := by cases hj
  new j _ hj := by
    have hpl : ps.length = us.length := by
      have := congrArg List.length C.pairs
      simpa using this
    have hj : j < (ps ++ [(feeAsset, 10000, [])]).length := by
      have : (newTx (us.map Utxo.txin) (paid (ps ++ [(feeAsset, 10000, [])]))).vout.length = (ps ++ [(feeAsset, 10000, [])]).length := by
        simp only [newTx, paid, List.length_map]
      omega
    obtain ⟨p1, p2, p3, p4, p5, p6⟩ := paid_plain hj (by
      intro y hy
      unfold maxMoney
      rcases List.mem_append.1 hy with hy | hy
      · refine ⟨C.sizes.2 y hy, ?_⟩
        have : (y.1, y.2.1) ∈ us.map fun u => (u.asset, (claimed feeAsset u).toNat) := by
          rw [← C.pairs]; exact List.mem_map.2 ⟨y, hy, rfl⟩
        obtain ⟨u, hu', e⟩ := List.mem_map.1 this
        have e2 : (claimed feeAsset u).toNat = y.2.1 := congrArg Prod.snd e
        have hm := (hu u hu').money
        have hfix : fixedFee = 10000 := rfl
        unfold claimed at e2
        split at e2 <;> omega
      · simp only [List.mem_cons, List.not_mem_nil, or_false] at hy
        subst hy
        exact ⟨C.sizes.1, by dsimp only; omega⟩)
    refine ⟨p1, p2, p4, fun h => ?_⟩
    have hjl : j = us.length := by
      by_contra hne
      have hlt : j < us.length := by
        simp only [List.length_append, List.length_cons, List.length_nil] at hj
        omega
      change (pubs ++ [[]]).getD j [] = [] at h
      rw [List.getD_eq_getElem?_getD, List.getElem?_append_left (by rw [C.pubsLen]; exact hlt), (C.each j hlt).2.2] at h
      exact blindingPubkey_ne (ho j) (C.each j hlt).2.1 h
    refine ⟨.inl ?_, ?_, newTx_outWit _ _ _⟩
    · show 0 < amountOf ((paid (ps ++ [(feeAsset, 10000, [])])).getD j {}).nValue
      rw [p3, List.getD_eq_getElem?_getD, List.getElem?_append_right (by omega), hpl, hjl, Nat.sub_self]
      show 0 < 10000
      omega
    · show nonceSort ((paid (ps ++ [(feeAsset, 10000, [])])).getD j {}).nNonce ≠ .invalid
      rw [p6]
      decide

/-- C93: what is claimed back passes the amount check of the network, provided the last output was hidden. -/
theorem C93_claim {E : Env} {W : World} {feeAsset : Bytes} {addrs : Nat → Addr} {rand : Nat → Bytes} {us : List Utxo} {t : Tx} {spent : List TxOut}
    {N : Verifier} {P : Pedersen E.z M} (hN : N.Keeps P) (hF : Formats E.z) (hW : WireSizes E.z)
    (hz : Sizes E W) (hu : ∀ u ∈ us, UtxoOk u) (ho : ∀ k, AddrOk (addrs k)) (hf : ∃ u ∈ us, u.asset = feeAsset)
    (hs : List.Forall₂ (SpentAs E.z) spent (us.map told)) (hnz : ∀ u ∈ us, ¬ AllZero u.asset)
    (h : claimBack E W feeAsset addrs rand us = .ok t) (hv : IsValueCommitment (t.vout.getD (us.length - 1) {}).nValue) :
    verifyAmounts E N spent (fillWitness t) = true := by
  obtain ⟨ps, pubs, bfs, abfs, tb, C⟩ := claiming_of hu h
  obtain ⟨S, -⟩ := signAll_ok hz hu C.sign
  have hl : spent.length = us.length := by simpa using hs.length_eq
  exact C93_joint (P := P) hN hF hW (NetJoint.turn (.start rfl rfl) (claim_turn hz hu ho hf C hv) (claim_offered hu ho C hl hnz)) hs S

-- the swap of C71: what Alice sends and what Bob makes of it are both accepted
example : ∃ p t t', bobStart Toy.env Toy.bob (Toy.addr 21 1) [10 :: Toy.b32 9, 10 :: Toy.b32 10, 10 :: Toy.b32 11] = .ok p ∧
    aliceJoin Toy.env Toy.W (Toy.alice 3) ⟨Toy.b32 8, 50⟩ p [Toy.addr 31 2, Toy.addr 32 3] (10 :: Toy.b32 12) = .ok t ∧
    bobFinish Toy.env Toy.W Toy.bob [(⟨Toy.b32 5, 30⟩, Toy.b32 31), (⟨Toy.b32 6, 40⟩, Toy.b32 32)] t = .ok t' ∧
    verifyAmounts Toy.env Toy.verifier ((Toy.bob.utxo :: (Toy.alice 3).utxos).map fun u => Toy.coin (told u)) (fillWitness t') = true := by
  obtain ⟨t', h3, -⟩ := Toy.heads_ok Toy.heads_finish
  unfold Toy.finish at h3
  obtain ⟨t, h2, h3⟩ := exc_bind_ok.1 h3
  have h2' := Toy.heads_join
  rw [h2] at h2'
  have h2' := Option.some.inj h2'
  unfold Toy.join at h2
  obtain ⟨p, h1, h2⟩ := exc_bind_ok.1 h2
  unfold Toy.start at h1
  refine ⟨p, t, t', h1, h2, h3, ?_⟩
  have hv : IsValueCommitment (t.vout.getD 3 {}).nValue := Toy.hidden_of h2' (j := 3) (s := Toy.p2pkh 1) rfl
  exact (C93_swap (E := Toy.env) (sb := Toy.coin (told Toy.bob.utxo)) (s1 := Toy.coin (told (Toy.alice 3).asset1))
    (s2 := Toy.coin (told (Toy.alice 3).asset2)) (s3 := Toy.coin (told (Toy.alice 3).fee)) Toy.keeps Toy.formats Toy.wireSizes Toy.sizes
    (Toy.alice_ok 3) Toy.bob_ok (Toy.addr_ok 21 1) (Toy.addr_ok 31 2) (Toy.addr_ok 32 3) (Toy.addr_ok 22 1) (Toy.fee_asset 3)
    (.cons (Toy.coin_spent _) (.cons (Toy.coin_spent _) (.cons (Toy.coin_spent _) (.cons (Toy.coin_spent _) .nil))))
    (by
      intro o ho
      simp only [List.mem_cons, List.not_mem_nil, or_false] at ho
      rcases ho with rfl | rfl | rfl | rfl <;> exact ⟨_, .inl rfl, beBytes_length _ _⟩)
    (by decide +kernel)
    (by
      rw [show (Toy.coin (told (Toy.alice 3).asset1)).nAsset = 10 :: Toy.b32 9 by decide +kernel,
        show (Toy.coin (told (Toy.alice 3).asset2)).nAsset = 10 :: Toy.b32 10 by decide +kernel,
        show (Toy.coin (told (Toy.alice 3).fee)).nAsset = 10 :: Toy.b32 11 by decide +kernel]
      exact h1)
    (by
      rw [show (Toy.coin (told Toy.bob.utxo)).nAsset = 10 :: Toy.b32 12 by decide +kernel]
      exact h2) hv).2 _ _ h3

-- and so is what is taken back
example : ∃ t, Toy.back (Toy.alice 3).utxos = .ok t ∧
    verifyAmounts Toy.env Toy.verifier ((Toy.alice 3).utxos.map fun u => Toy.coin (told u)) (fillWitness t) = true := by
  have h : Toy.heads (match Toy.back (Toy.alice 3).utxos with | .ok x => .ok x | .error e => .error (.raised e)) = some
      [(some 8, 33, Toy.p2pkh 0), (some 8, 33, Toy.p2pkh 1), (some 8, 33, Toy.p2pkh 2), (some 1, 9, [])] := by decide +kernel
  obtain ⟨t, h1, h2⟩ := Toy.heads_ok h
  split at h1
  · rename_i x hx
    cases h1
    have hv : IsValueCommitment (t.vout.getD 2 {}).nValue := Toy.hidden_of h2 (j := 2) (s := Toy.p2pkh 2) rfl
    exact ⟨t, hx, C93_claim (E := Toy.env) Toy.keeps Toy.formats Toy.wireSizes Toy.sizes (Toy.alice_ok 3).utxos (fun k => Toy.addr_ok _ _)
      ⟨(Toy.alice 3).fee, by simp [Alice.utxos], Toy.fee_asset 3⟩
      (.cons (Toy.coin_spent _) (.cons (Toy.coin_spent _) (.cons (Toy.coin_spent _) .nil))) (by decide +kernel) hx hv⟩
  · cases h1

end AssetSwap
end Verif
