import Verif.Props.AssetSwap
import Verif.Props.Joint
/-
C71, continued: the swap balances, and what it takes to claim funds back.
-/
namespace Verif.AssetSwap
open Verif Spec CrossSwap SpendAddr

variable {M : Type} [AddCommGroup M] [Module Scalar M]

theorem total_append (x : Bytes) (l l' : List (Bytes × Nat)) : total x (l ++ l') = total x l + total x l' := by
  simp [total]

/-- Inputs that issue nothing. -/
theorem issued_zero {E : Env} {A : BlindArgs} {t : Tx} (h : ∀ i ∈ t.vin, i.assetIssuance = {}) (x : Bytes) :
    total x (issuedAmounts E A t) = 0 := by
  have : ∀ y ∈ issuedAmounts E A t, y.2 = 0 := by
    intro y hy
    unfold issuedAmounts at hy
    obtain ⟨⟨i, n⟩, hi, hy⟩ := List.mem_flatMap.1 hy
    have hi := h i (List.mem_of_getElem? (List.mem_zipIdx_iff_getElem?.1 hi))
    simp only [List.mem_cons, List.not_mem_nil, or_false, hi] at hy
    rcases hy with rfl | rfl <;> rfl
  unfold total
  rw [List.sum_eq_zero]
  intro n hn
  obtain ⟨y, hy, rfl⟩ := List.mem_map.1 hn
  exact this y (List.mem_filter.1 hy).1

/-- Plain inputs and explicit outputs. -/
theorem plain_amounts {E : Env} {A : BlindArgs} {t : Tx} {us : List Utxo} {l : List (Bytes × Nat × Bytes)}
    (hi : ∀ i ∈ t.vin, i.assetIssuance = {}) (ho : t.vout = paid l) (hl : ∀ x ∈ l, x.1.length = 32 ∧ x.2.1 < 2 ^ 64)
    (hd : A.descs = us.map Utxo.desc)
    (hb : ∀ x, total x (us.map fun u => (u.asset, u.amount.toNat)) = total x (l.map fun y => (y.1, y.2.1))) :
    AmountsBalance E A t := by
  refine ⟨?_, ?_, ?_⟩
  · intro o h
    rw [ho] at h
    obtain ⟨x, hx, rfl⟩ := List.mem_map.1 h
    exact ⟨⟨_, rfl, beBytes_length _ _⟩, ⟨_, rfl, (hl x hx).1⟩⟩
  · intro i h
    rw [hi i h]
    exact ⟨.inl rfl, .inl rfl⟩
  · intro x
    have e1 : spentAmounts A.descs = us.map fun u => (u.asset, u.amount.toNat) := by
      rw [hd]; simp [spentAmounts, Utxo.desc]
    have e2 : outAmounts t = l.map fun y => (y.1, y.2.1) := by
      rw [outAmounts, ho, paid, List.map_map]
      apply List.map_congr_left
      intro y hy
      have : beVal (beBytes 8 y.2.1) = y.2.1 := beVal_beBytes_of_lt (hl y hy).2
      simp [amountOf, this]
    rw [total_append, issued_zero hi, Nat.add_zero, e1, e2, hb]

theorem no_keys {A : BlindArgs} (h1 : A.assetKeys = []) (h2 : A.tokenKeys = []) (i : Nat) (token : Bool) : A.issuanceKey i token = none := by
  cases token <;> simp [BlindArgs.issuanceKey, h1, h2]

theorem keys_fine {A : BlindArgs} {t : Tx} (h1 : A.assetKeys = []) (h2 : A.tokenKeys = []) (h : ∀ d ∈ A.descs, d.amount < 2 ^ 64) : KeysFine A t := by
  refine ⟨?_, ?_, h⟩
  · intro i token key _ hk; rw [no_keys h1 h2] at hk; cases hk
  · intro i key hk; rw [no_keys h1 h2] at hk; cases hk

/-- Signatures do not matter for the balance. -/
theorem _root_.Verif.Spec.SameBut.balanced {p : Nat → Prop} {t t' : Tx} (h : SameBut p t t') {E : Env} (P : Pedersen E.z M) {ds : List Desc} :
    Balanced P E ds t' ↔ Balanced P E ds t := by
  unfold Balanced
  have key : ∀ l : List TxIn, (l.map fun i => P.issuancePt E i.confidential i) = (l.map inputView).map fun v =>
      P.issuancePt E (TxIn.confidential { prevout := v.1, nSequence := v.2.1, assetIssuance := v.2.2.1, isPegin := v.2.2.2 })
        { prevout := v.1, nSequence := v.2.1, assetIssuance := v.2.2.1, isPegin := v.2.2.2 } := by
    intro l
    rw [List.map_map]
    rfl
  rw [h.outputs, key, h.inputs, ← key]

/-! ### The swap balances -/

theorem bob_turn {E : Env} {b : Bob} {alice : Addr} {cs : List Bytes} {p : Tx} (hb : UtxoOk b.utxo) (ha : AddrOk alice)
    (h : bobStart E b alice cs = .ok p) (hv : IsValueCommitment (p.vout.getD 0 {}).nValue) :
    ∃ own s, Turn E { descs := [b.utxo.desc], pubkeys := [alice.blindingPubkey], auxGens := own :: cs, rand := b.rand } [] [b.utxo.desc]
      [b.utxo.txin] (paid [(b.utxo.asset, b.utxo.amount.toNat, s)]) (newTx [] [])
      (newTx [b.utxo.txin] (paid [(b.utxo.asset, b.utxo.amount.toNat, s)])) p ∧ b.utxo.asset.length = 32 := by
  obtain ⟨own, s, bfs, abfs, h1, h2, h3, h4⟩ := bobStart_ok hb h
  have hb0 := hb.nonneg
  have hb1 := hb.money
  refine ⟨own, s, ⟨rfl, rfl, rfl, rfl, by simp, ?_, ?_, ⟨_, _, _, h4⟩, ⟨0, ?_⟩, ?_, ?_, ?_⟩, h3⟩
  · intro i token hi; exact absurd hi (Nat.not_lt_zero _)
  · refine plain_amounts (us := [b.utxo]) ?_ rfl ?_ rfl ?_
    · intro i hi
      simp only [List.mem_cons, List.not_mem_nil, or_false] at hi
      subst hi; rfl
    · intro x hx
      simp only [List.mem_cons, List.not_mem_nil, or_false] at hx
      subst hx
      exact ⟨h3, by dsimp only; omega⟩
    · intro x; rfl
  · exact blindingPubkey_ne ha h2
  · intro j hj
    cases j with
    | zero => exact hv
    | succ j => exact absurd rfl hj
  · intro x hx
    simp only [newTx, List.mem_cons, List.not_mem_nil, or_false] at hx
    subst hx
    exact utxo_sizes hb
  · refine keys_fine rfl rfl ?_
    intro d hd
    simp only [List.mem_cons, List.not_mem_nil, or_false] at hd
    subst hd
    show b.utxo.amount < _
    omega

theorem alice_turn {E : Env} {W : World} {a : Alice} {offer : Offer} {p : Tx} {bob1 bob2 : Addr} {bobC : Bytes} {t : Tx}
    {o : TxOut} {i : TxIn} {s1 s2 s3 : Bytes} {num : Nat} {bfs abfs : List Bytes} {tb : Tx}
    (hz : Sizes E W) (ha : AliceOk a) (hc : AddrOk a.change) (hf : a.fee.asset = a.feeAsset) (hi : InputSizes i)
    (J : Joined E W a offer p bob1 bob2 bobC t o i s1 s2 s3 num bfs abfs tb)
    (hv : IsValueCommitment (t.vout.getD 3 {}).nValue) :
    Turn E (aliceArgs a [[], bob1.blindingPubkey, bob2.blindingPubkey, a.change.blindingPubkey, []] bobC)
      [⟨zero32, -1, zero32, zero32⟩] (a.utxos.map Utxo.desc) (a.utxos.map Utxo.txin)
      (paid [(a.asset1.asset, a.asset1.amount.toNat, s1), (a.asset2.asset, a.asset2.amount.toNat, s2),
        (a.feeAsset, (a.fee.amount - fixedFee).toNat, s3), (a.feeAsset, 10000, [])]) p (joined a p s1 s2 s3) tb := by
  have u1 := ha.utxos a.asset1 (by simp [Alice.utxos])
  have u2 := ha.utxos a.asset2 (by simp [Alice.utxos])
  have u3 := ha.utxos a.fee (by simp [Alice.utxos])
  have hfee := ha.fee
  have hfix : fixedFee = 10000 := rfl
  obtain ⟨S, -⟩ := signAll_ok hz ha.utxos J.sign
  have hsz : ∀ x ∈ (joined a p s1 s2 s3).vin, InputSizes x := by
    intro x hx
    simp only [joined, J.vin, List.mem_append, List.mem_cons, List.not_mem_nil, or_false, List.mem_map] at hx
    rcases hx with rfl | ⟨u, hu, rfl⟩
    · exact hi
    · exact ⟨(ha.utxos u hu).hash, (ha.utxos u hu).index, by rfl⟩
  have m1 := u1.nonneg
  have m1' := u1.money
  have m2 := u2.nonneg
  have m2' := u2.money
  have m3 := u3.money
  refine ⟨rfl, rfl, rfl, by rw [J.vin]; rfl, ?_, ?_, ?_, ⟨_, _, _, J.blind⟩, ⟨3, ?_⟩, ?_, hsz, ?_⟩
  · intro d hd
    simp only [List.mem_cons, List.not_mem_nil, or_false] at hd
    subst hd
    decide
  · intro j token _; exact no_keys rfl rfl j token
  · refine plain_amounts (us := a.utxos) ?_ rfl ?_ rfl ?_
    · intro x hx
      obtain ⟨u, -, rfl⟩ := List.mem_map.1 hx
      rfl
    · intro x hx
      simp only [List.mem_cons, List.not_mem_nil, or_false] at hx
      have hA := J.assets
      rcases hx with rfl | rfl | rfl | rfl
      · exact ⟨hA.1, by dsimp only; omega⟩
      · exact ⟨hA.2.1, by dsimp only; omega⟩
      · exact ⟨hA.2.2, by dsimp only; omega⟩
      · exact ⟨hA.2.2, by dsimp only; omega⟩
    · intro x
      simp only [Alice.utxos, List.map_cons, List.map_nil, Toy.total_cons, hf]
      split <;> split <;> split <;> simp only [total, List.filter_nil, List.map_nil, List.sum_nil] <;> omega
  · exact blindingPubkey_ne hc J.conf3
  · obtain ⟨-, -, h3⟩ := C33_strict J.blind rfl hsz
    intro j hj
    cases h3 j hj with
    | blinded hB => exact hB.committed
    | zero v hl =>
      have : j = 3 := by
        match j, hj, hl with
        | 0, hj, _ => exact absurd rfl hj
        | 1, _, hl => exact absurd (hl.2 3 (by omega)) (blindingPubkey_ne hc J.conf3)
        | 2, _, hl => exact absurd (hl.2 3 (by omega)) (blindingPubkey_ne hc J.conf3)
        | 3, _, _ => rfl
        | 4, hj, _ => exact absurd rfl hj
        | n + 5, hj, _ => exact absurd rfl hj
      subst this
      rw [← S.outputs]
      exact hv
  · refine keys_fine rfl rfl ?_
    intro d hd
    rcases List.mem_cons.1 hd with rfl | hd
    · decide
    · obtain ⟨u, hu, rfl⟩ := List.mem_map.1 hd
      have := (ha.utxos u hu).money
      show u.amount < _
      omega

/-- C71: the transaction of a swap that gets as far as Alice's signatures balances, and so does what
Bob makes of it, whoever knows what of the inputs.
Missing: blinding may leave the change as it was, see C34. -/
theorem C71_balanced_partial {E : Env} {W : World} {a : Alice} {b : Bob} {offer : Offer} {p : Tx} {alice bob1 bob2 : Addr} {cs : List Bytes}
    {bobC : Bytes} {t : Tx} (P : Pedersen E.z M) (hz : Sizes E W) (ha : AliceOk a) (hb : UtxoOk b.utxo) (hA : AddrOk alice) (hc : AddrOk a.change)
    (hf : a.fee.asset = a.feeAsset) (hbob : bobStart E b alice cs = .ok p) (halice : aliceJoin E W a offer p [bob1, bob2] bobC = .ok t)
    (hv : IsValueCommitment (t.vout.getD 3 {}).nValue) :
    Balanced P E [told b.utxo, told a.asset1, told a.asset2, told a.fee] t ∧
    ∀ offers t', bobFinish E W b offers t = .ok t' → Balanced P E [told b.utxo, told a.asset1, told a.asset2, told a.fee] t' := by
  obtain ⟨b1, b2, o, i, s1, s2, s3, num, bfs, abfs, tb, hab, J⟩ := joined_of ha halice
  cases hab
  obtain ⟨own, s, bfs', abfs', h1, h2, h3, h4⟩ := bobStart_ok hb hbob
  have hA' := C32_only_asked E { descs := [b.utxo.desc], pubkeys := [alice.blindingPubkey], auxGens := own :: cs, rand := b.rand }
        (newTx [b.utxo.txin] (paid [(b.utxo.asset, b.utxo.amount.toNat, s)]))
  rw [h4] at hA'
  have hvin := same_inputs rfl rfl hA'
  have hi : InputSizes i := by
    have := J.vin
    rw [hvin] at this
    have : b.utxo.txin = i := by simpa [newTx] using this
    rw [← this]
    exact utxo_sizes hb
  obtain ⟨n, bf, abf, -, hop⟩ := J.opens
  obtain ⟨own', s', hbt, -⟩ := bob_turn hb hA hbob (by rw [J.vout]; exact hop.value)
  have hj := (Joint.turn (.start rfl rfl) hbt).turn (alice_turn hz ha hc hf hi J hv)
  obtain ⟨S, -⟩ := signAll_ok hz ha.utxos J.sign
  have hB : Balanced P E [told b.utxo, told a.asset1, told a.asset2, told a.fee] t := (S.balanced P).2 (C70_joint P hj)
  refine ⟨hB, ?_⟩
  intro offers t' ht'
  exact ((C71_bob hz hb ht').same.balanced P).2 hB

/-! ### Claiming back -/

theorem dictSet_new {k : Bytes} {v : Int} {d : List (Bytes × Int)} (h : k ∉ d.map Prod.fst) : dictSet k v d = d ++ [(k, v)] := by
  induction d with
  | nil => rfl
  | cons x d ih =>
    simp only [List.map_cons, List.mem_cons, not_or] at h
    unfold dictSet
    rw [if_neg (fun e => h.1 e.symm), ih h.2]
    rfl

theorem dictSet_old {k : Bytes} {v : Int} {d : List (Bytes × Int)} (h : k ∈ d.map Prod.fst) : (dictSet k v d).length = d.length := by
  induction d with
  | nil => simp at h
  | cons x d ih =>
    unfold dictSet
    split
    · rfl
    · rename_i hx
      simp only [List.map_cons, List.mem_cons] at h
      rcases h with h | h
      · exact absurd h.symm hx
      · simp [ih h]

theorem dictSet_le (k : Bytes) (v : Int) (d : List (Bytes × Int)) : (dictSet k v d).length ≤ d.length + 1 := by
  by_cases h : k ∈ d.map Prod.fst
  · rw [dictSet_old h]; omega
  · rw [dictSet_new h]; simp

theorem claimAmount_ok {feeAsset : Bytes} {u : Utxo} {n : Int} (h : claimAmount feeAsset u = .ok n) :
    n = claimed feeAsset u ∧ (u.asset = feeAsset → 20000 ≤ u.amount) := by
  unfold claimAmount at h
  unfold claimed
  have hfix : fixedFee = 10000 := rfl
  split at h
  · rename_i hf
    rw [if_pos hf]
    split at h
    · cases h
    · cases h
      exact ⟨by rw [hfix], fun _ => by omega⟩
  · rename_i hf
    rw [if_neg hf]
    cases h
    exact ⟨rfl, fun h => absurd h hf⟩

theorem assetAmounts_ok {feeAsset : Bytes} : ∀ {us : List Utxo} {d d' : List (Bytes × Int)}, assetAmounts feeAsset us d = .ok d' →
    (∀ u ∈ us, u.asset = feeAsset → 20000 ≤ u.amount) ∧ d'.length ≤ d.length + us.length ∧
    (d'.length = d.length + us.length → d' = d ++ us.map (fun u => (u.asset, claimed feeAsset u)) ∧
      (us.map Utxo.asset).Nodup ∧ ∀ u ∈ us, u.asset ∉ d.map Prod.fst)
  | [], d, d', h => by
    cases h
    simp
  | u :: us, d, d', h => by
    obtain ⟨n, h1, h⟩ := exc_bind_ok.1 h
    obtain ⟨rfl, h2⟩ := claimAmount_ok h1
    obtain ⟨i1, i2, i3⟩ := assetAmounts_ok h
    have hle := dictSet_le u.asset (claimed feeAsset u) d
    refine ⟨?_, ?_, ?_⟩
    · intro v hv
      rcases List.mem_cons.1 hv with rfl | hv
      · exact h2
      · exact i1 v hv
    · simp only [List.length_cons]; omega
    · intro hl
      simp only [List.length_cons] at hl
      by_cases hk : u.asset ∈ d.map Prod.fst
      · rw [dictSet_old hk] at i2
        omega
      · rw [dictSet_new hk] at i3
        obtain ⟨e1, e2, e3⟩ := i3 (by simp only [List.length_append, List.length_cons, List.length_nil]; omega)
        refine ⟨by rw [e1]; simp, ?_, ?_⟩
        · rw [List.map_cons, List.nodup_cons]
          refine ⟨?_, e2⟩
          intro hm
          obtain ⟨w, hw, hwe⟩ := List.mem_map.1 hm
          have := e3 w hw
          rw [hwe] at this
          simp at this
        · intro v hv
          rcases List.mem_cons.1 hv with rfl | hv
          · exact hk
          · have := e3 v hv
            simp only [List.map_append, List.mem_append, not_or] at this
            exact this.1

theorem claimOutputs_ok {addrs : Nat → Addr} : ∀ {l : List (Bytes × Int)} {n : Nat} {outs : List TxOut} {pubs : List Bytes},
    (∀ x ∈ l, 0 ≤ x.2 ∧ x.2 < 2 ^ 63) → claimOutputs addrs n l = .ok (outs, pubs) →
    ∃ ps : List (Bytes × Nat × Bytes), outs = paid ps ∧ ps.map (fun y => (y.1, y.2.1)) = l.map (fun y => (y.1, y.2.toNat)) ∧
      (∀ y ∈ ps, y.1.length = 32) ∧ pubs.length = l.length ∧
      ∀ k, k < l.length → (addrs (n + k)).toScriptPubKey = .ok (ps.getD k ([], 0, [])).2.2 ∧ (addrs (n + k)).conf = true ∧
        pubs[k]? = some (addrs (n + k)).blindingPubkey
  | [], n, outs, pubs, _, h => by
    cases h
    exact ⟨[], rfl, rfl, by simp, rfl, by simp⟩
  | (as, am) :: l, n, outs, pubs, hr, h => by
    unfold claimOutputs at h
    obtain ⟨s, h1, h⟩ := exc_bind_ok.1 h
    obtain ⟨o, h2, h⟩ := exc_bind_ok.1 h
    obtain ⟨pub, h3, h⟩ := exc_bind_ok.1 h
    obtain ⟨⟨outs', pubs'⟩, h4, h⟩ := exc_bind_ok.1 h
    cases h
    obtain ⟨ps, e1, e2, e3, e4, e5⟩ := claimOutputs_ok (fun x hx => hr x (List.mem_cons_of_mem _ hx)) h4
    have hr0 := hr (as, am) List.mem_cons_self
    obtain ⟨q1, rfl⟩ := payTo_ok hr0.1 hr0.2 h2
    obtain ⟨r1, rfl⟩ := pubkeyOf_ok h3
    refine ⟨(as, am.toNat, s) :: ps, by rw [e1]; rfl, by simp [e2], ?_, by simp [e4], ?_⟩
    · intro y hy
      rcases List.mem_cons.1 hy with rfl | hy
      · exact q1
      · exact e3 y hy
    · intro k hk
      cases k with
      | zero => exact ⟨h1, r1, rfl⟩
      | succ k =>
        have := e5 k (by simpa using hk)
        rw [show n + 1 + k = n + (k + 1) by omega] at this
        exact this

/-- All that happened when funds are claimed back. -/
structure Claiming (E : Env) (W : World) (feeAsset : Bytes) (addrs : Nat → Addr) (rand : Nat → Bytes) (us : List Utxo) (t : Tx)
    (ps : List (Bytes × Nat × Bytes)) (pubs bfs abfs : List Bytes) (tb : Tx) : Prop where
  enough : ∀ u ∈ us, u.asset = feeAsset → 20000 ≤ u.amount
  distinct : (us.map Utxo.asset).Nodup
  pairs : ps.map (fun y => (y.1, y.2.1)) = us.map fun u => (u.asset, (claimed feeAsset u).toNat)
  sizes : feeAsset.length = 32 ∧ ∀ y ∈ ps, y.1.length = 32
  pubsLen : pubs.length = us.length
  each : ∀ k, k < us.length → (addrs k).toScriptPubKey = .ok (ps.getD k ([], 0, [])).2.2 ∧ (addrs k).conf = true ∧
    pubs[k]? = some (addrs k).blindingPubkey
  blind : blindTransaction E { descs := us.map Utxo.desc, pubkeys := pubs ++ [[]], rand }
    (newTx (us.map Utxo.txin) (paid (ps ++ [(feeAsset, 10000, [])]))) = (.ok (.success us.length bfs abfs), tb)
  sign : signAll E W tb 0 us = .ok t

theorem claimed_range {feeAsset : Bytes} {u : Utxo} (hu : UtxoOk u) (h : u.asset = feeAsset → 20000 ≤ u.amount) :
    0 ≤ claimed feeAsset u ∧ claimed feeAsset u ≤ 21 * 10 ^ 14 := by
  have := hu.nonneg
  have := hu.money
  unfold claimed
  split
  · rename_i hf
    have := h hf
    omega
  · omega

theorem assetAmounts_range {feeAsset : Bytes} : ∀ {us : List Utxo} {d d' : List (Bytes × Int)}, (∀ u ∈ us, UtxoOk u) →
    (∀ x ∈ d, 0 ≤ x.2 ∧ x.2 < 2 ^ 63) → assetAmounts feeAsset us d = .ok d' → ∀ x ∈ d', 0 ≤ x.2 ∧ x.2 < 2 ^ 63
  | [], d, d', _, hd, h => by cases h; exact hd
  | u :: us, d, d', hu, hd, h => by
    obtain ⟨n, h1, h⟩ := exc_bind_ok.1 h
    obtain ⟨rfl, h2⟩ := claimAmount_ok h1
    have hr := claimed_range (hu u List.mem_cons_self) h2
    refine assetAmounts_range (fun v hv => hu v (List.mem_cons_of_mem _ hv)) ?_ h
    have : ∀ l : List (Bytes × Int), (∀ x ∈ l, 0 ≤ x.2 ∧ x.2 < 2 ^ 63) → ∀ x ∈ dictSet u.asset (claimed feeAsset u) l, 0 ≤ x.2 ∧ x.2 < 2 ^ 63 := by
      intro l hl
      induction l with
      | nil =>
        intro x hx
        simp only [dictSet, List.mem_cons, List.not_mem_nil, or_false] at hx
        subst hx
        exact ⟨hr.1, by dsimp only; omega⟩
      | cons y l ih =>
        intro x hx
        unfold dictSet at hx
        split at hx
        · rcases List.mem_cons.1 hx with rfl | hx
          · exact ⟨hr.1, by dsimp only; omega⟩
          · exact hl x (List.mem_cons_of_mem _ hx)
        · rcases List.mem_cons.1 hx with rfl | hx
          · exact hl _ List.mem_cons_self
          · exact ih (fun x hx => hl x (List.mem_cons_of_mem _ hx)) x hx
    exact this d hd

theorem claiming_of {E : Env} {W : World} {feeAsset : Bytes} {addrs : Nat → Addr} {rand : Nat → Bytes} {us : List Utxo} {t : Tx}
    (hu : ∀ u ∈ us, UtxoOk u) (h : claimBack E W feeAsset addrs rand us = .ok t) :
    ∃ ps pubs bfs abfs tb, Claiming E W feeAsset addrs rand us t ps pubs bfs abfs tb := by
  unfold claimBack at h
  obtain ⟨d, h1, h⟩ := exc_bind_ok.1 h
  obtain ⟨⟨outs, pubs⟩, h2, h⟩ := exc_bind_ok.1 h
  obtain ⟨fo, h3, h⟩ := exc_bind_ok.1 h
  obtain ⟨a1, a2, a3⟩ := assetAmounts_ok h1
  obtain ⟨ps, b1, b2, b3, b4, b5⟩ := claimOutputs_ok (assetAmounts_range hu (by simp) h1) h2
  obtain ⟨hfl, rfl⟩ := payTo_ok (by decide) (by decide) h3
  subst b1
  split at h
  · cases h
  · cases h
  · rename_i num bfs abfs tb hb
    split at h
    · cases h
    · rename_i hn
      simp only [ne_eq, not_not] at hn
      subst hn
      have hask := (C33_strict hb rfl (by
        intro x hx
        obtain ⟨u, hu', rfl⟩ := List.mem_map.1 hx
        exact utxo_sizes (hu u hu'))).1
      have hz : ∀ l : List TxIn, askedIssuances [] l = 0 := by
        intro l
        unfold askedIssuances
        rw [List.filter_eq_nil_iff.2 (by intro x _; simp)]
        rfl
      unfold asked askedOutputs at hask
      rw [hz, List.filter_append] at hask
      simp only [List.length_append, ne_eq, not_true_eq_false, decide_false, Bool.false_eq_true, not_false_eq_true, List.filter_cons_of_neg,
        List.filter_nil, List.length_nil, Nat.add_zero] at hask
      simp only [List.length_nil, Nat.zero_add] at a2 a3
      have hdl : us.length ≤ d.length := by rw [hask, ← b4]; exact List.length_filter_le _ _
      have hdl : d.length = us.length := by omega
      obtain ⟨c1, c2, -⟩ := a3 hdl
      simp only [List.nil_append] at c1
      refine ⟨ps, pubs, bfs, abfs, tb, a1, c2, ?_, ⟨hfl, b3⟩, by omega, ?_, ?_, h⟩
      · rw [b2, c1, List.map_map]; rfl
      · intro k hk
        have := b5 k (by omega)
        rwa [Nat.zero_add] at this
      · rw [← hb]
        simp [paid, fixedFee]

section
variable {E : Env} {W : World} {feeAsset : Bytes} {addrs : Nat → Addr} {rand : Nat → Bytes} {us : List Utxo} {t : Tx}
  {ps : List (Bytes × Nat × Bytes)} {pubs bfs abfs : List Bytes} {tb : Tx}

theorem Claiming.asked (C : Claiming E W feeAsset addrs rand us t ps pubs bfs abfs tb) :
    OnlyAsked { descs := us.map Utxo.desc, pubkeys := pubs ++ [[]], rand }
      (newTx (us.map Utxo.txin) (paid (ps ++ [(feeAsset, 10000, [])]))) tb := by
  have := C32_only_asked E { descs := us.map Utxo.desc, pubkeys := pubs ++ [[]], rand }
    (newTx (us.map Utxo.txin) (paid (ps ++ [(feeAsset, 10000, [])])))
  rwa [C.blind] at this

theorem Claiming.psLen (C : Claiming E W feeAsset addrs rand us t ps pubs bfs abfs tb) : ps.length = us.length := by
  have := congrArg List.length C.pairs
  simpa using this

theorem Claiming.get (C : Claiming E W feeAsset addrs rand us t ps pubs bfs abfs tb) {k : Nat} {u : Utxo} (h : us[k]? = some u) :
    ∃ s, (addrs k).toScriptPubKey = .ok s ∧ ps[k]? = some (u.asset, (claimed feeAsset u).toNat, s) := by
  obtain ⟨hk, -⟩ := List.getElem?_eq_some_iff.1 h
  have h1 := congrArg (fun l : List (Bytes × Nat) => l[k]?) C.pairs
  simp only [List.getElem?_map, h] at h1
  have h2 := (C.each k hk).1
  cases hp : ps[k]? with
  | none => rw [hp] at h1; cases h1
  | some y =>
    obtain ⟨a, n, s⟩ := y
    rw [hp] at h1
    cases h1
    rw [List.getD_eq_getElem?_getD, hp] at h2
    exact ⟨s, h2, rfl⟩

theorem Claiming.vinSizes (hu : ∀ u ∈ us, UtxoOk u) : ∀ x ∈ (newTx (us.map Utxo.txin) (paid (ps ++ [(feeAsset, 10000, [])]))).vin, InputSizes x := by
  intro x hx
  obtain ⟨u, hu', rfl⟩ := List.mem_map.1 hx
  exact utxo_sizes (hu u hu')

/-- Only the last key may be the last one. -/
theorem Claiming.last (ho : ∀ k, AddrOk (addrs k)) (C : Claiming E W feeAsset addrs rand us t ps pubs bfs abfs tb) {j : Nat}
    (h : LastAsked { descs := us.map Utxo.desc, pubkeys := pubs ++ [[]], rand : BlindArgs } j) : j + 1 = us.length := by
  have hj : j < us.length := by
    refine Nat.lt_of_not_le fun hle => h.1 ?_
    rw [← C.pubsLen] at hle
    show (pubs ++ [[]]).getD j [] = []
    rw [List.getD_eq_getElem?_getD, List.getElem?_append_right hle]
    cases j - pubs.length <;> rfl
  refine Nat.le_antisymm hj (Nat.le_of_not_lt fun hlt => ?_)
  have h1 := h.2 (j + 1) (by omega)
  have h2 := C.each (j + 1) hlt
  refine blindingPubkey_ne (ho (j + 1)) h2.2.1 ?_
  have h1 : (pubs ++ [[]]).getD (j + 1) [] = [] := h1
  rw [List.getD_eq_getElem?_getD, List.getElem?_append_left (by rw [C.pubsLen]; exact hlt), h2.2.2] at h1
  exact h1

end

/-- C71: a transaction that claims funds back spends each of the outputs, signed over the whole of it,
and sends to a new address each; there are no two of the same asset. -/
theorem C71_claim {E : Env} {W : World} {feeAsset : Bytes} {addrs : Nat → Addr} {rand : Nat → Bytes} {us : List Utxo} {t : Tx}
    (hz : Sizes E W) (hu : ∀ u ∈ us, UtxoOk u) (h : claimBack E W feeAsset addrs rand us = .ok t) : Claims E W feeAsset addrs us t := by
  obtain ⟨ps, pubs, bfs, abfs, tb, C⟩ := claiming_of hu h
  have hA := C.asked
  obtain ⟨S, hs⟩ := signAll_ok hz hu C.sign
  have hvin := same_inputs rfl rfl hA
  have hlen : t.vout.length = us.length + 1 := by
    have := congrArg List.length hA.scripts
    rw [S.outputs]
    simpa [newTx, paid, C.psLen] using this
  refine ⟨?_, ?_, C.distinct, C.enough, hlen, ?_, ?_, ⟨S.version.trans hA.version, S.lockTime.trans hA.lockTime⟩⟩
  · rw [S.inputs, hvin]
    simp only [newTx, List.map_map]
    rfl
  · intro k u hk
    have := hs k u hk
    rwa [Nat.zero_add] at this
  · intro k hk
    obtain ⟨u, hu'⟩ : ∃ u, us[k]? = some u := ⟨_, List.getElem?_eq_getElem hk⟩
    obtain ⟨s, h1, h2⟩ := C.get hu'
    rw [h1]
    have h3 := congrArg (fun l : List Bytes => l[k]?) hA.scripts
    simp only [newTx, paid, List.getElem?_map, List.getElem?_append_left (show k < ps.length by rw [C.psLen]; exact hk), h2] at h3
    rw [S.outputs, List.getD_eq_getElem?_getD]
    cases h4 : tb.vout[k]? with
    | none => rw [h4] at h3; cases h3
    | some o => rw [h4] at h3; cases h3; rfl
  · have h5 := hA.outputs us.length (by
      show (pubs ++ [[]]).getD us.length [] = []
      rw [← C.pubsLen]
      simp)
    rw [S.outputs, h5]
    simp [newTx, paid, ← C.psLen]

/-- C71: the holder of the key of an address finds all that was spent, the fee taken off the fee asset,
or the output is the last and was left for all to see. -/
theorem C71_claim_pays {E : Env} {W : World} {feeAsset : Bytes} {addrs : Nat → Addr} {rand : Nat → Bytes} {us : List Utxo} {t : Tx}
    (F : Formats E.z) (R : Rewinds E.z) (hz : Sizes E W) (hu : ∀ u ∈ us, UtxoOk u) (ho : ∀ k, AddrOk (addrs k))
    (h : claimBack E W feeAsset addrs rand us = .ok t)
    {k : Nat} {u : Utxo} (hk : us[k]? = some u) {key : Bytes} (hs : E.z.secValid key = true) (hp : (addrs k).blindingPubkey = E.z.pubOf key) :
    Finds E key t k u.asset (claimed feeAsset u) ∨
    (k + 1 = us.length ∧ ∃ s, (addrs k).toScriptPubKey = .ok s ∧
      t.vout[k]? = some { nValue := 1 :: beBytes 8 (claimed feeAsset u).toNat, nAsset := 1 :: u.asset, scriptPubKey := s }) := by
  obtain ⟨ps, pubs, bfs, abfs, tb, C⟩ := claiming_of hu h
  obtain ⟨S, -⟩ := signAll_ok hz hu C.sign
  obtain ⟨s, h1, h2⟩ := C.get hk
  obtain ⟨hlt, -⟩ := List.getElem?_eq_some_iff.1 hk
  have hr := claimed_range (hu u (List.mem_of_getElem? hk)) (C.enough u (List.mem_of_getElem? hk))
  have hpk : (pubs ++ [[]]).getD k [] = E.z.pubOf key := by
    rw [List.getD_eq_getElem?_getD, List.getElem?_append_left (by rw [C.pubsLen]; exact hlt), (C.each k hlt).2.2, ← hp]
    rfl
  have hout : (newTx (us.map Utxo.txin) (paid (ps ++ [(feeAsset, 10000, [])]))).vout[k]?
      = some { nValue := 1 :: beBytes 8 (claimed feeAsset u).toNat, nAsset := 1 :: u.asset, scriptPubKey := s } := by
    simp only [newTx, paid, List.getElem?_map, List.getElem?_append_left (show k < ps.length by rw [C.psLen]; exact hlt), h2]
    rfl
  have := C36_strict (j := k) (key := key) F R C.blind rfl (Claiming.vinSizes hu) hpk hs
    (by rw [← hp]; exact blindingPubkey_ne (ho k) (C.each k hlt).2.1)
  unfold Finds
  rw [S.outputs, show t.outWit k = tb.outWit k by unfold Tx.outWit; rw [S.outputWitness]]
  rcases this with ⟨as, v, e1, e2, e3⟩ | ⟨hl, hun, -⟩
  · left
    rw [List.getD_eq_getElem?_getD, hout] at e1 e2
    cases e1
    cases e2
    have hb : beVal (beBytes 8 (claimed feeAsset u).toNat) = (claimed feeAsset u).toNat := beVal_beBytes_of_lt (by omega)
    rw [hb] at e3
    exact ⟨(claimed feeAsset u).toNat, _, _, by omega, (C37_success_iff ..).1 (e3 (by omega))⟩
  · right
    exact ⟨C.last ho hl, s, h1, by rw [hun, hout]⟩

theorem claim_total {feeAsset : Bytes} (x : Bytes) : ∀ {us : List Utxo}, (us.map Utxo.asset).Nodup →
    (∀ u ∈ us, u.asset = feeAsset → 20000 ≤ u.amount) →
    total x (us.map fun u => (u.asset, u.amount.toNat)) = total x (us.map fun u => (u.asset, (claimed feeAsset u).toNat))
      + if feeAsset ∈ us.map Utxo.asset ∧ feeAsset = x then 10000 else 0
  | [], _, _ => by simp [total]
  | u :: us, hn, he => by
    rw [List.map_cons, List.nodup_cons] at hn
    have ih := claim_total x hn.2 (fun v hv => he v (List.mem_cons_of_mem _ hv))
    have h1 := he u List.mem_cons_self
    simp only [List.map_cons, Toy.total_cons, ih, List.mem_cons]
    unfold claimed
    by_cases hf : u.asset = feeAsset
    · have := h1 hf
      have hni : feeAsset ∉ us.map Utxo.asset := by rw [← hf]; exact hn.1
      by_cases hx : feeAsset = x
      · subst hx
        simp only [hf, hni, if_true, or_false, and_self, false_and, if_false]
        omega
      · simp [hf, hx]
    · have hf' : ¬ feeAsset = u.asset := fun e => hf e.symm
      simp only [hf, hf', if_false, false_or]
      omega

theorem claim_turn {E : Env} {W : World} {feeAsset : Bytes} {addrs : Nat → Addr} {rand : Nat → Bytes} {us : List Utxo} {t : Tx}
    {ps : List (Bytes × Nat × Bytes)} {pubs bfs abfs : List Bytes} {tb : Tx} (hz : Sizes E W) (hu : ∀ u ∈ us, UtxoOk u) (ho : ∀ k, AddrOk (addrs k))
    (hf : ∃ u ∈ us, u.asset = feeAsset) (C : Claiming E W feeAsset addrs rand us t ps pubs bfs abfs tb)
    (hv : IsValueCommitment (t.vout.getD (us.length - 1) {}).nValue) :
    Turn E { descs := us.map Utxo.desc, pubkeys := pubs ++ [[]], rand } [] (us.map Utxo.desc) (us.map Utxo.txin)
      (paid (ps ++ [(feeAsset, 10000, [])])) (newTx [] []) (newTx (us.map Utxo.txin) (paid (ps ++ [(feeAsset, 10000, [])]))) tb := by
  obtain ⟨S, -⟩ := signAll_ok hz hu C.sign
  obtain ⟨uf, huf, hfe⟩ := hf
  have hpos : 0 < us.length := List.length_pos_of_mem huf
  refine ⟨rfl, rfl, rfl, rfl, by simp, ?_, ?_, ⟨_, _, _, C.blind⟩, ⟨0, ?_⟩, ?_, Claiming.vinSizes hu, keys_fine rfl rfl ?_⟩
  · intro i token hi; exact absurd hi (Nat.not_lt_zero _)
  · refine plain_amounts (us := us) ?_ rfl ?_ rfl ?_
    · intro i hi
      obtain ⟨u, -, rfl⟩ := List.mem_map.1 hi
      rfl
    · intro y hy
      rcases List.mem_append.1 hy with hy | hy
      · refine ⟨C.sizes.2 y hy, ?_⟩
        have : (y.1, y.2.1) ∈ us.map fun u => (u.asset, (claimed feeAsset u).toNat) := by
          rw [← C.pairs]; exact List.mem_map.2 ⟨y, hy, rfl⟩
        obtain ⟨u, hu', e⟩ := List.mem_map.1 this
        have := claimed_range (hu u hu') (C.enough u hu')
        have e2 : (claimed feeAsset u).toNat = y.2.1 := congrArg Prod.snd e
        omega
      · simp only [List.mem_cons, List.not_mem_nil, or_false] at hy
        subst hy
        exact ⟨C.sizes.1, by dsimp only; omega⟩
    · intro x
      rw [claim_total (feeAsset := feeAsset) x C.distinct C.enough, List.map_append, total_append, C.pairs]
      have : feeAsset ∈ us.map Utxo.asset := List.mem_map.2 ⟨uf, huf, hfe⟩
      simp only [this, true_and, List.map_cons, List.map_nil, Toy.total_cons]
      simp [total]
  · show (pubs ++ [[]]).getD 0 [] ≠ []
    rw [List.getD_eq_getElem?_getD, List.getElem?_append_left (by rw [C.pubsLen]; exact hpos), (C.each 0 hpos).2.2]
    exact blindingPubkey_ne (ho 0) (C.each 0 hpos).2.1
  · obtain ⟨-, -, h3⟩ := C33_strict C.blind rfl (Claiming.vinSizes hu)
    intro j hj
    cases h3 j hj with
    | blinded hB => exact hB.committed
    | zero v hl =>
      have := C.last ho hl
      rw [← S.outputs, show j = us.length - 1 by omega]
      exact hv
  · intro d hd
    obtain ⟨u, hu', rfl⟩ := List.mem_map.1 hd
    have := (hu u hu').money
    show u.amount < _
    omega

/-- C71: it balances if the fee asset is among what is claimed.
Missing: blinding may leave the last output as it was, see C34. -/
theorem C71_claim_balanced_partial {E : Env} {W : World} {feeAsset : Bytes} {addrs : Nat → Addr} {rand : Nat → Bytes} {us : List Utxo} {t : Tx}
    (P : Pedersen E.z M) (hz : Sizes E W) (hu : ∀ u ∈ us, UtxoOk u) (ho : ∀ k, AddrOk (addrs k))
    (hf : ∃ u ∈ us, u.asset = feeAsset) (h : claimBack E W feeAsset addrs rand us = .ok t)
    (hv : IsValueCommitment (t.vout.getD (us.length - 1) {}).nValue) : Balanced P E (us.map told) t := by
  obtain ⟨ps, pubs, bfs, abfs, tb, C⟩ := claiming_of hu h
  obtain ⟨S, -⟩ := signAll_ok hz hu C.sign
  exact (S.balanced P).2 (C70_joint P (Joint.turn (.start rfl rfl) (claim_turn hz hu ho hf C hv)))

/-- C71: before anything is blinded, funds are refused exactly if an output of the fee asset does not hold the fee twice. -/
theorem C71_claim_short (feeAsset : Bytes) (us : List Utxo) : (∃ d, assetAmounts feeAsset us [] = .ok d) ↔
    ∀ u ∈ us, u.asset = feeAsset → 20000 ≤ u.amount := by
  constructor
  · rintro ⟨d, h⟩
    exact (assetAmounts_ok h).1
  · have : ∀ (l : List Utxo) (d : List (Bytes × Int)), (∀ u ∈ l, u.asset = feeAsset → 20000 ≤ u.amount) →
        ∃ d', assetAmounts feeAsset l d = .ok d' := by
      intro l
      induction l with
      | nil => intro d _; exact ⟨d, rfl⟩
      | cons u l ih =>
        intro d h
        have h1 := h u List.mem_cons_self
        have hc : claimAmount feeAsset u = .ok (claimed feeAsset u) := by
          unfold claimAmount claimed
          have hfix : fixedFee = 10000 := rfl
          by_cases hf : u.asset = feeAsset
          · have := h1 hf
            rw [if_pos hf, if_pos hf, if_neg (by omega), hfix]
          · rw [if_neg hf, if_neg hf]
        unfold assetAmounts
        rw [hc]
        exact ih _ (fun v hv => h v (List.mem_cons_of_mem _ hv))
    exact this us []

/-- C71: funds of which two are of the same asset are never claimed back. -/
theorem C71_claim_same {E : Env} {W : World} {feeAsset : Bytes} {addrs : Nat → Addr} {rand : Nat → Bytes} {us : List Utxo} {t : Tx}
    (hz : Sizes E W) (hu : ∀ u ∈ us, UtxoOk u) (hd : ¬ (us.map Utxo.asset).Nodup) : claimBack E W feeAsset addrs rand us ≠ .ok t :=
  fun h => hd (C71_claim hz hu h).distinct

end Verif.AssetSwap
