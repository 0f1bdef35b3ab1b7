import Verif.Spec.AssetHonest
import Verif.Props.AssetSwapBack
import Verif.Props.BlindGoes
import Verif.Props.SighashBase
import Verif.Props.NodeSwap
/-
C95: the asset swap comes about.
-/
namespace Verif.AssetSwap
open Verif Spec CrossSwap SpendAddr

section
variable {E : Env} {W : World} {Good Asset : Bytes → Prop} {u : Utxo} {o : TxOut}

theorem _root_.Verif.Spec.AllWorks.sizes (h : AllWorks E W Good Asset) : Sizes E W := ⟨h.hash, h.signature, h.pub⟩

theorem _root_.Verif.Spec.Owned.utxoOk (h : Owned E W Asset u o) : UtxoOk u :=
  ⟨by have := h.amount; omega, h.amount.2, h.prevout.1, by have := h.prevout.2; omega, h.key.1⟩

theorem _root_.Verif.Spec.Receives.addrOk {x : Addr} {k : Bytes} (h : Receives E x k) : AddrOk x := by
  unfold AddrOk
  rw [if_pos h.conf, h.size]

theorem _root_.Verif.Spec.Receives.script {x : Addr} {k : Bytes} (h : Receives E x k) : ∃ s, x.toScriptPubKey = .ok s := by
  unfold Addr.toScriptPubKey
  rw [if_pos h.conf]
  unfold Addr.toUnconfidential addrFromBytes
  rw [if_neg]
  · exact ⟨_, rfl⟩
  · rw [classLen_eq]
    have := h.size
    simp
    omega

theorem _root_.Verif.Spec.Receives.pubOk {x : Addr} {k : Bytes} (h : Receives E x k) (R : Rewinds E.z) :
    pubkeyOf x = .ok x.blindingPubkey ∧ E.z.pubValid x.blindingPubkey = true ∧ x.blindingPubkey ≠ [] := by
  refine ⟨by rw [pubkeyOf, if_pos h.conf], ?_, blindingPubkey_ne h.addrOk h.conf⟩
  rw [h.pub]
  exact R.pubValid _ h.secret

/-! ### Signing -/

theorem keyHash_code {pub : Bytes} (hz : ∀ b, (W.hash160 b).length = 20) : ∃ c, StripSep (keyHashCode W.hash160 pub) c := by
  have hp : PushEnc (W.hash160 pub) ([0x14] ++ W.hash160 pub) := by
    have := PushEnc.direct (d := W.hash160 pub) (by rw [hz]; decide)
    rwa [hz] at this
  have h : keyHashCode W.hash160 pub = 0x76 :: 0xa9 :: (([0x14] ++ W.hash160 pub) ++ [0x88, 0xac]) := by simp [keyHashCode]
  rw [h]
  exact ⟨_, .op (by decide) (by decide) (.op (by decide) (by decide) (.push hp (.op (by decide) (by decide) (.op (by decide) (by decide) .nil))))⟩

theorem keyHash_short {pub : Bytes} (hz : ∀ b, (W.hash160 b).length = 20) : (keyHashCode W.hash160 pub).length ≤ maxItem := by
  simp [keyHashCode, hz, maxItem]

theorem put_goes {t : Tx} {i : Nat} {x : Bytes × Option TxInWitness} (ht : WFTx t) (hi : i < t.vin.length) : ∃ t', put t i x = .ok t' := by
  unfold put
  rw [if_neg (by omega)]
  dsimp only
  cases x.2 with
  | none => exact ⟨_, rfl⟩
  | some w =>
    dsimp only
    rw [if_neg (by rw [ht.witin]; omega)]
    exact ⟨_, rfl⟩

theorem sighash_goes {t : Tx} {i : Nat} {s v : Bytes} {sv : SigVersion} (hsv : sv = .base ∨ sv = .witnessV0) (ht : WFTx t)
    (hl : t.nLockTime < 2147483648) (hi : i < t.vin.length) (hs : s.length ≤ maxItem) (hc : ∃ c, StripSep s c) :
    ∃ d, sighash E.h s t i SIGHASH_ALL (some v) sv = .ok d := by
  rcases hsv with rfl | rfl
  · obtain ⟨c, hc⟩ := hc
    obtain ⟨⟨d, e⟩, hr⟩ := C19_total E.h i (ht := SIGHASH_ALL) (some v) ht hs hc (by decide)
    cases e with
    | false => exact ⟨d, (C19_sighash_ok ..).2 ⟨.inl rfl, by decide, hr⟩⟩
    | true =>
      rcases ((C19_error_iff ..).1 hr).2 with h | ⟨h, -⟩
      · omega
      · exact absurd h (by decide)
  · obtain ⟨d, hd⟩ := C15_total_partial E.h s t i SIGHASH_ALL v ht hi (by decide) hs hl
    refine ⟨d, (C19_sighash_ok ..).2 ⟨.inl rfl, by decide, ?_⟩⟩
    simp only [rawSighash]
    rw [hd]
    rfl

theorem signs {t : Tx} {i : Nat} (hw : AllWorks E W Good Asset) (hu : Owned E W Asset u o) (ht : WFTx t) (hl : t.nLockTime < 2147483648)
    (hi : i < t.vin.length) : ∃ t', signInput E W t i u = .ok t' := by
  have hz := hw.sizes
  obtain ⟨sv, e1, hsv⟩ : ∃ sv, u.sigVersion = .ok sv ∧ (sv = .base ∨ sv = .witnessV0) := by
    have := hu.locked.2
    unfold Utxo.sigVersion
    generalize u.addr.kind = k at this
    generalize o.scriptPubKey = spk at this
    cases this
    · exact ⟨_, rfl, .inl rfl⟩
    · exact ⟨_, rfl, .inr rfl⟩
    · exact ⟨_, rfl, .inr rfl⟩
  have e2 : u.signedAmount = .ok o.nValue := by
    unfold Utxo.signedAmount
    rw [hu.commitments.2]
    obtain ⟨b, hb, hl⟩ := hu.hidden.2
    have : o.nValue.length = 33 := by rcases hb with h | h <;> rw [h] <;> simp [hl]
    unfold confNew
    dsimp only
    rw [if_pos]
    exact Or.inr (Or.inr this)
  obtain ⟨d, e3⟩ := sighash_goes (E := E) (i := i) (v := o.nValue) hsv ht hl hi (keyHash_short (pub := E.z.pubOf u.key) hw.hash) (keyHash_code hw.hash)
  rw [← signScript_code hz] at e3
  obtain ⟨t', e4⟩ := put_goes (x := unlock W u.addr.kind (W.sign u.key d ++ [UInt8.ofNat SIGHASH_ALL]) (E.z.pubOf u.key)) ht hi
  have e5 : lockScript W u.addr (E.z.pubOf u.key) = .ok o.scriptPubKey := by
    obtain ⟨h1, h2⟩ := hu.locked
    unfold lockScript
    revert h1 h2
    generalize o.scriptPubKey = spk
    intro h1
    cases hk : u.addr.kind with
    | p2pkh => intro _; exact h1
    | p2wpkh => intro _; exact h1
    | p2sh =>
      intro h
      cases h
      simp [innerScript, CrossSwap.script, Elem.bytes, pushData_20 (hw.hash _)]
    | p2wsh => intro h; cases h
    | p2tr => intro h; cases h
  have hfree : signInput E { W with verify := fun _ _ _ _ => .ok () } t i u = .ok t' := by
    unfold signInput
    rw [e1]
    simp only [bind, Except.bind]
    rw [e2]
    dsimp only
    have e3' : sighash E.h (signScript { W with verify := fun _ _ _ _ => .ok () } (E.z.pubOf u.key)) t i SIGHASH_ALL (some o.nValue) sv = .ok d := e3
    have e4' : put t i (unlock { W with verify := fun _ _ _ _ => .ok () } u.addr.kind (W.sign u.key d ++ [UInt8.ofNat SIGHASH_ALL]) (E.z.pubOf u.key)) = .ok t' := e4
    have e5' : lockScript { W with verify := fun _ _ _ _ => .ok () } u.addr (E.z.pubOf u.key) = .ok o.scriptPubKey := e5
    rw [e3']
    dsimp only
    rw [e4']
    dsimp only
    rw [e5']
    rfl
  obtain ⟨-, value, hv, hun⟩ := signInput_ok (W := { W with verify := fun _ _ _ _ => .ok () }) ⟨hw.hash, hw.signature, hw.pub⟩ hu.utxoOk hfree
  have hval : value = o.nValue := by
    rcases hv with h | ⟨h, -⟩
    · rw [hu.commitments.2] at h
      exact (Option.some.inj h).symm
    · rw [hu.commitments.2] at h
      cases h
  subst hval
  have e6 : W.verify o.scriptPubKey o.nValue t' i = .ok () := hw.verify _ _ _ _ _ _ hu.key.2 hu.locked.2 hun
  refine ⟨t', ?_⟩
  unfold signInput
  simp only [bind, Except.bind, e1, e2, e3, e4, e5, e6]
  rfl

theorem signs_all (hw : AllWorks E W Good Asset) : ∀ {us : List Utxo} {os : List TxOut} {t : Tx} {i : Nat}, List.Forall₂ (Owned E W Asset) us os → WFTx t →
    t.nLockTime < 2147483648 → i + us.length ≤ t.vin.length → ∃ t', signAll E W t i us = .ok t'
  | [], _, t, i, _, _, _, _ => ⟨t, rfl⟩
  | u :: us, _, t, i, .cons h hs, ht, hl, hi => by
    simp only [List.length_cons] at hi
    obtain ⟨t1, e1⟩ := signs (i := i) hw h ht hl (by omega)
    have S := (signInput_ok hw.sizes h.utxoOk e1).1
    have hlen : t1.vin.length = t.vin.length := by
      have := congrArg List.length S.inputs
      simpa using this
    obtain ⟨t2, e2⟩ := signs_all hw hs (i := i + 1) (signInput_wf hw.sizes h.utxoOk e1 ht) (by rw [S.lockTime]; exact hl) (by omega)
    refine ⟨t2, ?_⟩
    unfold signAll
    simp only [bind, Except.bind, e1, e2]

/-! ### Blinding -/

theorem notZero_blinded {d : Desc} (h : ¬ AllZero d.assetBlindingFactor) : d.blinded = true := by
  unfold Desc.blinded
  rw [Bool.or_eq_true]
  right
  rw [List.any_eq_true]
  unfold AllZero at h
  push Not at h
  obtain ⟨x, h1, h2⟩ := h
  exact ⟨x, h1, by simpa using h2⟩

/-- The generator of what is spent, as the wallet reports it. -/
theorem _root_.Verif.Spec.Owned.generator (h : Owned E W Asset u o) :
    ∃ g, E.z.generateBlinded u.asset u.assetBlinder = some g ∧ E.z.genSerialize g = some o.nAsset := by
  obtain ⟨g, h1, h2, -⟩ := h.opens.opened
  refine ⟨g, h1, ?_⟩
  rcases h2 with ⟨a, e, -⟩ | h2
  · obtain ⟨b, hb, -⟩ := h.hidden.1
    rw [e] at hb
    rcases hb with hb | hb <;> · injection hb with hb; exact absurd hb (by decide)
  · exact h2

theorem _root_.Verif.Spec.Owned.parses (F : Formats E.z) (h : Owned E W Asset u o) : ∃ g, E.z.genParse o.nAsset = some g := by
  obtain ⟨g, h1, h2⟩ := h.generator
  exact F.genParse _ _ h2 ⟨_, _, h1⟩

theorem _root_.Verif.Spec.Owned.size (h : Owned E W Asset u o) : o.nAsset.length = 33 := by
  obtain ⟨b, hb, hl⟩ := h.hidden.1
  rcases hb with hb | hb <;> rw [hb] <;> simp [hl]

theorem _root_.Verif.Spec.Owned.desc (h : Owned E W Asset u o) : DescSizes u.desc ∧ u.desc.amount ≤ maxMoney ∧ u.desc.blinded = true :=
  ⟨⟨h.asset.2.1, h.factors.1, h.factors.2.1⟩, by show u.amount ≤ _; have := h.amount.2; unfold maxMoney; omega, notZero_blinded h.factors.2.2⟩

theorem plain_amount {n : Int} (h : n ≤ 21 * 10 ^ 14) : plainAmount (1 :: beBytes 8 n.toNat) = n.toNat := by
  unfold plainAmount
  exact beVal_beBytes_of_lt (by omega)

theorem not_coin : ¬ IsValueCommitment [] := by simp [IsValueCommitment]

theorem payTo_goes {asset : Bytes} {amount : Int} {s : Bytes} (h0 : 0 ≤ amount) (h1 : amount ≤ 21 * 10 ^ 14) (ha : asset.length = 32) :
    payTo asset amount s = .ok { nValue := 1 :: beBytes 8 amount.toNat, nAsset := 1 :: asset, scriptPubKey := s } := by
  obtain ⟨v, hv⟩ : ∃ v, valueFromAmount amount = .ok v := by
    exact (C04_value_from_amount amount).2.1.1 ⟨by omega, by omega⟩
  have hs : payTo asset amount s = .ok { nValue := v, nAsset := 1 :: asset, scriptPubKey := s } := by
    unfold payTo
    rw [hv, (C04_asset_recovered.1 asset ha).1]
    rfl
  rw [hs, ← (payTo_ok h0 (by omega) hs).2]

theorem script_ne {x : Addr} {s : Bytes} (ha : AddrOk x) (h : x.toScriptPubKey = .ok s) : s ≠ [] := by
  obtain ⟨-, rfl⟩ := script_of_addr ha h
  cases x.kind <;> simp [scriptOf]

theorem bob_sensible {b : Bob} {x : Addr} {key s : Bytes} {sb s1 s2 s3 : TxOut} {u1 u2 u3 : Utxo} (hw : AllWorks E W Good Asset) (hb : Owned E W Asset b.utxo sb)
    (h1 : Owned E W Asset u1 s1) (h2 : Owned E W Asset u2 s2) (h3 : Owned E W Asset u3 s3) (hx : Receives E x key) (hs : x.toScriptPubKey = .ok s)
    (hl : BobLucky E Good b) :
    Sensible E Good Asset { descs := [b.utxo.desc], pubkeys := [x.blindingPubkey], auxGens := sb.nAsset :: [s1.nAsset, s2.nAsset, s3.nAsset], rand := b.rand }
      (newTx [b.utxo.txin] (paid [(b.utxo.asset, b.utxo.amount.toNat, s)])) := by
  obtain ⟨-, p2, p3⟩ := hx.pubOk hw.rewinds
  obtain ⟨d1, d2, d3⟩ := hb.desc
  obtain ⟨g, hg, -⟩ := hb.generator
  obtain ⟨g1, e1⟩ := h1.parses hw.formats
  obtain ⟨g2, e2⟩ := h2.parses hw.formats
  obtain ⟨g3, e3⟩ := h3.parses hw.formats
  have hout : outputsAsked { descs := [b.utxo.desc], pubkeys := [x.blindingPubkey], auxGens := sb.nAsset :: [s1.nAsset, s2.nAsset, s3.nAsset], rand := b.rand } = [0] := by
    simp [outputsAsked, List.zipIdx, p3]
  have hiss : issuancesAsked { descs := [b.utxo.desc], pubkeys := [x.blindingPubkey], auxGens := sb.nAsset :: [s1.nAsset, s2.nAsset, s3.nAsset], rand := b.rand }
      (newTx [b.utxo.txin] (paid [(b.utxo.asset, b.utxo.amount.toNat, s)])) = [] := rfl
  have hv : plainAmount ((newTx [b.utxo.txin] (paid [(b.utxo.asset, b.utxo.amount.toNat, s)])).vout.getD 0 {}).nValue = b.utxo.amount.toNat :=
    plain_amount hb.amount.2
  have hm := hb.amount
  refine ⟨?_, ?_, ?_, ?_, ?_, ?_, ?_, ?_, ?_, ?_, ?_⟩
  · refine ⟨by simp [newTx, paid], by simp, by simp, rfl, fun _ => ⟨by simp [newTx], ?_⟩⟩
    intro y hy
    simp only [List.mem_cons, List.not_mem_nil, or_false] at hy
    rcases hy with rfl | rfl | rfl | rfl
    exacts [hb.size, h1.size, h2.size, h3.size]
  · intro i hi
    rw [List.mem_singleton.1 hi]
    exact utxo_sizes hb.utxoOk
  · intro d hd
    rw [List.mem_singleton.1 hd]
    exact ⟨d1, d2⟩
  · rintro (_ | i) txin d h1 h2
    · cases h1; cases h2
      exact ⟨fun _ => by show 0 ≤ b.utxo.amount; omega, fun k h => (by cases h), fun k h => (by cases h)⟩
    · cases h1
  · intro i txin token key h1 h2
    cases token <;> simp [BlindArgs.issuanceKey] at h2
  · rintro (_ | i) pk h1 h2
    · cases h1
      refine ⟨⟨p2, ⟨_, rfl, by simp⟩, ⟨_, rfl, hb.asset.2.1⟩, rfl, script_ne hx.addrOk hs⟩, ?_, ?_⟩
      · rw [hv]; unfold maxMoney; omega
      · intro _; rw [hv]; omega
    · cases h1
  · refine ⟨[⟨b.utxo.asset, g, b.utxo.assetBlinder⟩, ⟨zero32, g1, zero32⟩, ⟨zero32, g2, zero32⟩, ⟨zero32, g3, zero32⟩],
      ⟨[[⟨b.utxo.asset, g, b.utxo.assetBlinder⟩]], [⟨zero32, g1, zero32⟩, ⟨zero32, g2, zero32⟩, ⟨zero32, g3, zero32⟩], rfl, ?_, ?_, rfl⟩, ?_⟩
    · rintro (_ | i) txin d l h1 h2 h3
      · cases h1; cases h2; cases h3
        exact ⟨⟨_, [], [], rfl, .own g hb.asset.2.2 hg, .none rfl, .inl ⟨rfl, rfl⟩⟩, not_coin, not_coin⟩
      · cases h1
    · exact .cons e1 (.cons e2 (.cons e3 .nil))
    · rw [hout, hiss]
      rintro (_ | k) i hk
      · cases hk
        obtain ⟨h, t, e⟩ := hl.selects
        exact ⟨b.utxo.asset, h, t, rfl, hb.asset.1, hb.asset.2.2, e⟩
      · cases hk
  · intro k
    obtain ⟨q1, q2⟩ := hl.random k
    refine ⟨q1, ?_⟩
    intro d hd
    rw [List.mem_singleton.1 hd]
    exact q2 _ (by simp)
  · rw [hout]; simp
  · intro _
    exact ⟨_, by simp, d3⟩
  · obtain ⟨y, hy, hgood⟩ := hl.balance
    refine ⟨y, ?_, hgood⟩
    unfold sumAmounts sumAssetFactors sumFactors
    rw [hout, hiss]
    simp only [List.filter_cons, d3, if_true, List.filter_nil, List.map_cons, List.map_nil, hv]
    exact hy

theorem bob_goes {b : Bob} {x : Addr} {key : Bytes} {sb s1 s2 s3 : TxOut} {u1 u2 u3 : Utxo} (hw : AllWorks E W Good Asset) (hb : Owned E W Asset b.utxo sb)
    (h1 : Owned E W Asset u1 s1) (h2 : Owned E W Asset u2 s2) (h3 : Owned E W Asset u3 s3) (hx : Receives E x key) (hl : BobLucky E Good b) :
    ∃ p, bobStart E b x [s1.nAsset, s2.nAsset, s3.nAsset] = .ok p ∧ IsValueCommitment (p.vout.getD 0 {}).nValue := by
  obtain ⟨s, hs⟩ := hx.script
  obtain ⟨p1, p2, p3⟩ := hx.pubOk hw.rewinds
  obtain ⟨bfs, abfs, p, h, hv⟩ := C73_goes (A := { descs := [b.utxo.desc], pubkeys := [x.blindingPubkey], auxGens := sb.nAsset :: [s1.nAsset, s2.nAsset, s3.nAsset], rand := b.rand })
    hw.zkp hw.formats (bob_sensible hw hb h1 h2 h3 hx hs hl)
  have hn : asked { descs := [b.utxo.desc], pubkeys := [x.blindingPubkey], auxGens := sb.nAsset :: [s1.nAsset, s2.nAsset, s3.nAsset], rand := b.rand }
      (newTx [b.utxo.txin] (paid [(b.utxo.asset, b.utxo.amount.toNat, s)])) = 1 := by
    simp [asked, askedOutputs, askedIssuances, p3, newTx, Utxo.txin, Issuance.isNull]
  rw [hn] at h
  refine ⟨p, ?_, hv 0 p3⟩
  have hm := hb.amount
  unfold bobStart
  rw [hb.commitments.1]
  simp only [bind, Except.bind, hs, up, p1, payTo_goes (by omega : 0 ≤ b.utxo.amount) hm.2 hb.asset.2.1]
  change (match blindTransaction E _ (newTx [b.utxo.txin] (paid [(b.utxo.asset, b.utxo.amount.toNat, s)])) with | (.error e, _) => _ | (.ok (.failure _), _) => _ | (.ok (.success num _ _), t) => _) = _
  rw [h]
  rfl

theorem joined_wf {a : Alice} {p : Tx} {s1 s2 s3 : Bytes} (hu : ∀ u ∈ a.utxos, UtxoOk u ∧ u.prevout.n < 2 ^ 30 ∧ u.asset.length = 32) (hf : a.fee.asset = a.feeAsset)
    (l1 : s1.length ≤ 75) (l2 : s2.length ≤ 75) (l3 : s3.length ≤ 75) (hi : p.vin.length = 1) (ho : p.vout.length = 1) (hp : WFTx p) : WFTx (joined a p s1 s2 s3) := by
  have hm : 75 ≤ maxItem := by unfold maxItem; omega
  refine { version := hp.version, locktime := hp.locktime, nin := ?_, nout := ?_, vin := ?_, vout := ?_, witin := ?_, witout := ?_, vtxinwit := ?_, vtxoutwit := ?_ }
  · simp [joined, hi, Alice.utxos]
  · simp [joined, ho, aliceOuts]
  · intro x hx
    rcases List.mem_append.1 hx with hx | hx
    · exact hp.vin x hx
    · obtain ⟨u, h, rfl⟩ := List.mem_map.1 hx
      exact wf_txin (hu u h).1 (hu u h).2.1
  · intro x hx
    rcases List.mem_append.1 hx with hx | hx
    · exact hp.vout x hx
    · simp only [aliceOuts, List.mem_cons, List.not_mem_nil, or_false] at hx
      have q1 := (hu a.asset1 (by simp [Alice.utxos])).2.2
      have q2 := (hu a.asset2 (by simp [Alice.utxos])).2.2
      have q3 := (hu a.fee (by simp [Alice.utxos])).2.2
      rw [hf] at q3
      rcases hx with rfl | rfl | rfl | rfl
      · exact wf_paid q1 (by omega)
      · exact wf_paid q2 (by omega)
      · exact wf_paid q3 (by omega)
      · exact wf_paid q3 (by simp)
  · simp [joined, Alice.utxos, hp.witin]
  · simp [joined, aliceOuts, hp.witout]
  · intro w hw
    rcases List.mem_append.1 hw with hw | hw
    · exact hp.vtxinwit w hw
    · simp only [List.mem_cons, List.not_mem_nil, or_false, or_self] at hw
      subst hw; exact wf_noWit
  · intro w hw
    rcases List.mem_append.1 hw with hw | hw
    · exact hp.vtxoutwit w hw
    · simp only [List.mem_cons, List.not_mem_nil, or_false, or_self] at hw
      subst hw; exact wf_noOutWit

/-- Alice's scene. -/
structure AliceScene (E : Env) (W : World) (Asset : Bytes → Prop) (a : Alice) (sb s1 s2 s3 : TxOut) (ub : Utxo) (x1 x2 : Addr) (k1 k2 k3 : Bytes) : Prop where
  bob : Owned E W Asset ub sb
  asset1 : Owned E W Asset a.asset1 s1
  asset2 : Owned E W Asset a.asset2 s2
  fee : Owned E W Asset a.fee s3
  feeAsset : a.fee.asset = a.feeAsset ∧ 20000 ≤ a.fee.amount
  addr1 : Receives E x1 k1
  addr2 : Receives E x2 k2
  change : Receives E a.change k3

theorem alice_sensible {a : Alice} {p : Tx} {i : TxIn} {o : TxOut} {x1 x2 : Addr} {k1 k2 k3 c1 c2 c3 : Bytes} {sb s1 s2 s3 : TxOut} {ub : Utxo}
    (hw : AllWorks E W Good Asset) (S : AliceScene E W Asset a sb s1 s2 s3 ub x1 x2 k1 k2 k3) (hl : AliceLucky E Good a)
    (hi : p.vin = [i]) (ho : p.vout = [o]) (hiw : p.wit.vtxoutwit.length = 1) (hz : InputSizes i) (hnull : i.assetIssuance = {})
    (e1 : x1.toScriptPubKey = .ok c1) (e2 : x2.toScriptPubKey = .ok c2) (e3 : a.change.toScriptPubKey = .ok c3) :
    Sensible E Good Asset (aliceArgs a [[], x1.blindingPubkey, x2.blindingPubkey, a.change.blindingPubkey, []] sb.nAsset) (joined a p c1 c2 c3) := by
  obtain ⟨-, p1, q1⟩ := S.addr1.pubOk hw.rewinds
  obtain ⟨-, p2, q2⟩ := S.addr2.pubOk hw.rewinds
  obtain ⟨-, p3, q3⟩ := S.change.pubOk hw.rewinds
  obtain ⟨d11, d12, d13⟩ := S.asset1.desc
  obtain ⟨d21, d22, d23⟩ := S.asset2.desc
  obtain ⟨d31, d32, d33⟩ := S.fee.desc
  obtain ⟨g1, hg1, -⟩ := S.asset1.generator
  obtain ⟨g2, hg2, -⟩ := S.asset2.generator
  obtain ⟨g3, hg3, -⟩ := S.fee.generator
  obtain ⟨g, hg⟩ := S.bob.parses hw.formats
  have m1 := S.asset1.amount
  have m2 := S.asset2.amount
  have m3 := S.fee.amount
  have m4 := S.feeAsset.2
  have hout : outputsAsked (aliceArgs a [[], x1.blindingPubkey, x2.blindingPubkey, a.change.blindingPubkey, []] sb.nAsset) = [1, 2, 3] := by
    simp [outputsAsked, aliceArgs, List.zipIdx, q1, q2, q3]
  have hkey : ∀ i token, (aliceArgs a [[], x1.blindingPubkey, x2.blindingPubkey, a.change.blindingPubkey, []] sb.nAsset).issuanceKey i token = none := by
    intro i token
    cases token <;> simp [BlindArgs.issuanceKey, aliceArgs]
  have hiss : issuancesAsked (aliceArgs a [[], x1.blindingPubkey, x2.blindingPubkey, a.change.blindingPubkey, []] sb.nAsset) (joined a p c1 c2 c3) = [] := by
    unfold issuancesAsked
    simp [hkey]
  have hvin : (joined a p c1 c2 c3).vin = [i, a.asset1.txin, a.asset2.txin, a.fee.txin] := by
    simp [joined, hi, Alice.utxos]
  have hvout : (joined a p c1 c2 c3).vout = o :: aliceOuts a c1 c2 c3 := by
    simp [joined, ho]
  have v1 : plainAmount ((joined a p c1 c2 c3).vout.getD 1 {}).nValue = a.asset1.amount.toNat := by
    rw [hvout]; exact plain_amount m1.2
  have v2 : plainAmount ((joined a p c1 c2 c3).vout.getD 2 {}).nValue = a.asset2.amount.toNat := by
    rw [hvout]; exact plain_amount m2.2
  have v3 : plainAmount ((joined a p c1 c2 c3).vout.getD 3 {}).nValue = (a.fee.amount - 10000).toNat := by
    rw [hvout]; exact plain_amount (by have : fixedFee = 10000 := rfl; omega)
  have hwit : ∀ k, k < 4 → (joined a p c1 c2 c3).outWit (k + 1) = {} := by
    intro k hk
    unfold Tx.outWit joined
    dsimp only
    rw [List.getElem?_append_right (by omega), hiw]
    rcases k with _ | _ | _ | _ | k
    · rfl
    · rfl
    · rfl
    · rfl
    · omega
  have hfb : (Desc.mk zero32 (-1) zero32 zero32).blinded = false := by decide +kernel
  have hdescs : (aliceArgs a [[], x1.blindingPubkey, x2.blindingPubkey, a.change.blindingPubkey, []] sb.nAsset).descs =
    [⟨zero32, -1, zero32, zero32⟩, a.asset1.desc, a.asset2.desc, a.fee.desc] := rfl
  refine ⟨?_, ?_, ?_, ?_, ?_, ?_, ?_, ?_, ?_, ?_, ?_⟩
  · refine ⟨by rw [hvout]; simp [aliceArgs, aliceOuts], by simp [aliceArgs], by simp [aliceArgs], by rw [hvin]; rfl, fun _ => ⟨by rw [hvin]; simp [aliceArgs, Alice.utxos], ?_⟩⟩
    intro y hy
    simp only [aliceArgs, Alice.utxos, List.map_cons, List.map_nil, List.mem_cons, List.not_mem_nil, or_false] at hy
    rcases hy with rfl | rfl | rfl | rfl
    · exact S.bob.size
    all_goals simp
  · intro y hy
    rw [hvin] at hy
    simp only [List.mem_cons, List.not_mem_nil, or_false] at hy
    rcases hy with rfl | rfl | rfl | rfl
    exacts [hz, utxo_sizes S.asset1.utxoOk, utxo_sizes S.asset2.utxoOk, utxo_sizes S.fee.utxoOk]
  · intro d hd
    rw [hdescs] at hd
    simp only [List.mem_cons, List.not_mem_nil, or_false] at hd
    rcases hd with rfl | rfl | rfl | rfl
    · exact ⟨⟨rfl, rfl, rfl⟩, by decide⟩
    exacts [⟨d11, d12⟩, ⟨d21, d22⟩, ⟨d31, d32⟩]
  · intro k txin d f1 f2
    rw [hvin] at f1
    rw [hdescs] at f2
    refine ⟨?_, ?_, ?_⟩
    · rcases k with _ | _ | _ | _ | k
      · cases f2
        rw [hfb]
        intro h; cases h
      · cases f2; intro _; show 0 ≤ a.asset1.amount; omega
      · cases f2; intro _; show 0 ≤ a.asset2.amount; omega
      · cases f2; intro _; show 0 ≤ a.fee.amount; omega
      · cases f2
    · intro _ _ h; cases h
    · intro _ _ h; cases h
  · intro k txin token key _ h2
    rw [hkey] at h2
    cases h2
  · have hp : ∀ k pk asset amount c, [([] : Bytes), x1.blindingPubkey, x2.blindingPubkey, a.change.blindingPubkey, []][k + 1]? = some pk → k < 4 → E.z.pubValid pk = true →
        (joined a p c1 c2 c3).vout.getD (k + 1) {} = { nValue := 1 :: beBytes 8 amount, nAsset := 1 :: asset, scriptPubKey := c } → asset.length = 32 → c ≠ [] →
        1 ≤ plainAmount ((joined a p c1 c2 c3).vout.getD (k + 1) {}).nValue → plainAmount ((joined a p c1 c2 c3).vout.getD (k + 1) {}).nValue ≤ maxMoney →
        Blindable E.z (joined a p c1 c2 c3) (k + 1) pk ∧ plainAmount ((joined a p c1 c2 c3).vout.getD (k + 1) {}).nValue ≤ maxMoney ∧
          (¬ Unspendable ((joined a p c1 c2 c3).vout.getD (k + 1) {}).scriptPubKey → 1 ≤ plainAmount ((joined a p c1 c2 c3).vout.getD (k + 1) {}).nValue) := by
      intro k pk asset amount c _ hk hv ho ha hc h1 h2
      refine ⟨⟨hv, ?_, ?_, hwit k hk, ?_⟩, h2, fun _ => h1⟩ <;> rw [ho]
      · exact ⟨_, rfl, by simp⟩
      · exact ⟨_, rfl, ha⟩
      · exact hc
    rintro (_ | _ | _ | _ | _ | k) pk f1 f2
    · cases f1; exact absurd rfl f2
    · cases f1
      exact hp 0 _ a.asset1.asset a.asset1.amount.toNat c1 rfl (by omega) p1 (by rw [hvout]; rfl) S.asset1.asset.2.1 (script_ne S.addr1.addrOk e1)
        (by rw [v1]; omega) (by rw [v1]; unfold maxMoney; omega)
    · cases f1
      exact hp 1 _ a.asset2.asset a.asset2.amount.toNat c2 rfl (by omega) p2 (by rw [hvout]; rfl) S.asset2.asset.2.1 (script_ne S.addr2.addrOk e2)
        (by rw [v2]; omega) (by rw [v2]; unfold maxMoney; omega)
    · cases f1
      exact hp 2 _ a.feeAsset (a.fee.amount - 10000).toNat c3 rfl (by omega) p3 (by rw [hvout]; rfl) (by rw [← S.feeAsset.1]; exact S.fee.asset.2.1) (script_ne S.change.addrOk e3)
        (by rw [v3]; omega) (by rw [v3]; unfold maxMoney; omega)
    · cases f1; exact absurd rfl f2
    · cases f1
  · refine ⟨[⟨zero32, g, zero32⟩, ⟨a.asset1.asset, g1, a.asset1.assetBlinder⟩, ⟨a.asset2.asset, g2, a.asset2.assetBlinder⟩, ⟨a.fee.asset, g3, a.fee.assetBlinder⟩],
      ⟨[[⟨zero32, g, zero32⟩], [⟨a.asset1.asset, g1, a.asset1.assetBlinder⟩], [⟨a.asset2.asset, g2, a.asset2.assetBlinder⟩], [⟨a.fee.asset, g3, a.fee.assetBlinder⟩]], [],
        by rw [hvin]; rfl, ?_, ?_, rfl⟩, ?_⟩
    · intro k txin d l f1 f2 f3
      rw [hvin] at f1
      rw [hdescs] at f2
      rcases k with _ | _ | _ | _ | k
      · cases f1; cases f2; cases f3
        refine ⟨⟨_, [], [], rfl, .foreign _ _ (by intro x hx; exact List.eq_of_mem_replicate hx) rfl hg, .none (by rw [hnull]), .inl ⟨by rw [hnull], rfl⟩⟩, ?_, ?_⟩ <;> rw [hnull] <;> exact not_coin
      · cases f1; cases f2; cases f3
        exact ⟨⟨_, [], [], rfl, .own _ S.asset1.asset.2.2 hg1, .none rfl, .inl ⟨rfl, rfl⟩⟩, not_coin, not_coin⟩
      · cases f1; cases f2; cases f3
        exact ⟨⟨_, [], [], rfl, .own _ S.asset2.asset.2.2 hg2, .none rfl, .inl ⟨rfl, rfl⟩⟩, not_coin, not_coin⟩
      · cases f1; cases f2; cases f3
        exact ⟨⟨_, [], [], rfl, .own _ S.fee.asset.2.2 hg3, .none rfl, .inl ⟨rfl, rfl⟩⟩, not_coin, not_coin⟩
      · cases f1
    · rw [hvin]
      exact .nil
    · rw [hout, hiss, hvout]
      rintro (_ | _ | _ | k) j hk
      · cases hk
        obtain ⟨h, t, e⟩ := hl.selects 0 _ rfl
        exact ⟨a.asset1.asset, h, t, rfl, S.asset1.asset.1, S.asset1.asset.2.2, e⟩
      · cases hk
        obtain ⟨h, t, e⟩ := hl.selects 1 _ rfl
        exact ⟨a.asset2.asset, h, t, rfl, S.asset2.asset.1, S.asset2.asset.2.2, e⟩
      · cases hk
        obtain ⟨h, t, e⟩ := hl.selects 2 _ rfl
        exact ⟨a.fee.asset, h, t, by rw [S.feeAsset.1]; rfl, S.fee.asset.1, S.fee.asset.2.2, e⟩
      · cases hk
  · intro k
    obtain ⟨r1, r2⟩ := hl.random k
    refine ⟨r1, ?_⟩
    intro d hd
    rw [hdescs] at hd
    simp only [List.mem_cons, List.not_mem_nil, or_false] at hd
    rcases hd with rfl | rfl | rfl | rfl
    · intro h
      refine (hw.zkp.secret _ r1).2 ?_
      show AllZero (a.rand k)
      rw [show a.rand k = zero32 from h.symm]
      intro x hx
      exact List.eq_of_mem_replicate hx
    all_goals exact r2 _ (by simp [Alice.utxos])
  · rw [hout]; simp
  · rw [hout, hiss]; intro h; simp at h
  · obtain ⟨y, hy, hgood⟩ := hl.balance
    refine ⟨y, ?_, hgood⟩
    unfold sumAmounts sumAssetFactors sumFactors
    rw [hout, hiss, hdescs]
    simp only [List.filter_cons, hfb, d13, d23, d33, if_true, List.filter_nil, List.map_cons, List.map_nil, v1, v2, v3]
    exact hy

theorem combine_goes {a : Alice} {p : Tx} {x1 x2 : Addr} {k1 k2 k3 c1 c2 c3 : Bytes} {sb s1 s2 s3 : TxOut} {ub : Utxo}
    (hw : AllWorks E W Good Asset) (S : AliceScene E W Asset a sb s1 s2 s3 ub x1 x2 k1 k2 k3)
    (e1 : x1.toScriptPubKey = .ok c1) (e2 : x2.toScriptPubKey = .ok c2) (e3 : a.change.toScriptPubKey = .ok c3) :
    combine a [x1, x2] p = .ok (joined a p c1 c2 c3, [[], x1.blindingPubkey, x2.blindingPubkey, a.change.blindingPubkey, []]) := by
  have m1 := S.asset1.amount
  have m2 := S.asset2.amount
  have m3 := S.fee.amount
  have m4 := S.feeAsset.2
  have hfix : fixedFee = 10000 := rfl
  have hl : a.feeAsset.length = 32 := by rw [← S.feeAsset.1]; exact S.fee.asset.2.1
  obtain ⟨p1, -, -⟩ := S.addr1.pubOk hw.rewinds
  obtain ⟨p2, -, -⟩ := S.addr2.pubOk hw.rewinds
  obtain ⟨p3, -, -⟩ := S.change.pubOk hw.rewinds
  unfold combine Alice.offers
  simp only [List.zip_cons_cons, List.zip_nil_right, payOffers, bind, Except.bind, e1, e2, e3, p1, p2, p3,
    payTo_goes (by omega : 0 ≤ a.asset1.amount) m1.2 S.asset1.asset.2.1, payTo_goes (by omega : 0 ≤ a.asset2.amount) m2.2 S.asset2.asset.2.1,
    payTo_goes (by omega : 0 ≤ a.fee.amount - fixedFee) (by omega) hl, payTo_goes (by omega : 0 ≤ fixedFee) (by omega) hl]
  rfl

theorem alice_goes {a : Alice} {b : Bob} {p : Tx} {x1 x2 : Addr} {k1 k2 k3 : Bytes} {sb s1 s2 s3 : TxOut}
    (hw : AllWorks E W Good Asset) (S : AliceScene E W Asset a sb s1 s2 s3 b.utxo x1 x2 k1 k2 k3) (hl : AliceLucky E Good a)
    (hd : Receives E a.dst a.bkey) (hB : BobBegins E b a.dst p) (hv : IsValueCommitment (p.vout.getD 0 {}).nValue) :
    ∃ t, aliceJoin E W a ⟨b.utxo.asset, b.utxo.amount⟩ p [x1, x2] sb.nAsset = .ok t ∧ WFTx t ∧ t.nLockTime = 0 ∧ t.vin.length = 4 ∧
      ∀ j, 1 ≤ j → j ≤ 3 → IsValueCommitment (t.vout.getD j {}).nValue := by
  have hpw := hB.wire hw.wire S.bob.prevout.2
  obtain ⟨c, hc, hout⟩ := hB.outputs
  have hlen : p.vout.length = 1 := by simpa using congrArg List.length hout
  obtain ⟨o, ho⟩ := List.length_eq_one_iff.1 hlen
  have hiw : p.wit.vtxoutwit.length = 1 := by rw [hpw.witout, hlen]
  have hin := hB.inputs
  obtain ⟨c1, e1⟩ := S.addr1.script
  obtain ⟨c2, e2⟩ := S.addr2.script
  obtain ⟨c3, e3⟩ := S.change.script
  obtain ⟨-, -, q1⟩ := S.addr1.pubOk hw.rewinds
  obtain ⟨-, -, q2⟩ := S.addr2.pubOk hw.rewinds
  obtain ⟨-, -, q3⟩ := S.change.pubOk hw.rewinds
  have hfound : Finds E a.bkey p 0 b.utxo.asset b.utxo.amount := by
    rcases hB.pays a.bkey hd.secret hd.pub with h | ⟨h, -⟩
    · exact h
    · rw [h] at hv
      obtain ⟨x, hx | hx, -⟩ := hv <;> · injection hx with hx; exact absurd hx (by decide)
  have hcheck : checkPartial E a ⟨b.utxo.asset, b.utxo.amount⟩ p = .ok () :=
    C71_alice_accepts.2 ⟨hlen, by intro h; rw [h] at hiw; simp at hiw, hfound⟩
  have hS := alice_sensible hw S hl hin ho hiw ⟨S.bob.prevout.1, by show b.utxo.prevout.n < _; have := S.bob.prevout.2; omega, rfl⟩ rfl e1 e2 e3
  obtain ⟨bfs, abfs, tb, h, hval⟩ := C73_goes hw.zkp hw.formats hS
  have hn : asked (aliceArgs a [[], x1.blindingPubkey, x2.blindingPubkey, a.change.blindingPubkey, []] sb.nAsset) (joined a p c1 c2 c3) = 3 := by
    simp [asked, askedOutputs, askedIssuances, aliceArgs, q1, q2, q3]
  rw [hn] at h
  have hA := C32_only_asked E (aliceArgs a [[], x1.blindingPubkey, x2.blindingPubkey, a.change.blindingPubkey, []] sb.nAsset) (joined a p c1 c2 c3)
  rw [h] at hA
  have hwf := blind_wf E hw.wire (aliceArgs a [[], x1.blindingPubkey, x2.blindingPubkey, a.change.blindingPubkey, []] sb.nAsset)
    (joined_wf (a := a) (p := p) (s1 := c1) (s2 := c2) (s3 := c3) (by
      intro u hu
      simp only [Alice.utxos, List.mem_cons, List.not_mem_nil, or_false] at hu
      rcases hu with rfl | rfl | rfl
      · exact ⟨S.asset1.utxoOk, S.asset1.prevout.2, S.asset1.asset.2.1⟩
      · exact ⟨S.asset2.utxoOk, S.asset2.prevout.2, S.asset2.asset.2.1⟩
      · exact ⟨S.fee.utxoOk, S.fee.prevout.2, S.fee.asset.2.1⟩) S.feeAsset.1
      (script_short S.addr1.conf e1) (script_short S.addr2.conf e2) (script_short S.change.conf e3) (by rw [hin]; rfl) hlen hpw)
  rw [h] at hwf
  dsimp only at hA hwf
  have hvl : tb.vin.length = 4 := by
    rw [same_inputs rfl rfl hA]
    simp [joined, hin, Alice.utxos]
  have hlt : tb.nLockTime = 0 := hA.lockTime.trans hB.rest.2
  obtain ⟨t, ht⟩ := signs_all (us := a.utxos) (os := [s1, s2, s3]) (i := 1) hw (.cons S.asset1 (.cons S.asset2 (.cons S.fee .nil))) hwf (by omega) (by simp [Alice.utxos, hvl])
  have hu : ∀ u ∈ a.utxos, UtxoOk u := by
    intro u hu
    simp only [Alice.utxos, List.mem_cons, List.not_mem_nil, or_false] at hu
    rcases hu with rfl | rfl | rfl
    exacts [S.asset1.utxoOk, S.asset2.utxoOk, S.fee.utxoOk]
  have hsame := (signAll_ok hw.sizes hu ht).1
  refine ⟨t, ?_, signAll_wf hw.sizes hu ht hwf, hsame.lockTime.trans hlt, ?_, ?_⟩
  · unfold aliceJoin aliceAdd
    rw [hcheck]
    have hcomb := combine_goes (p := p) hw S e1 e2 e3
    simp only [bind, Except.bind]
    rw [if_neg (by simp [Alice.offers]), hcomb]
    simp only [up]
    rw [h]
    simp only [ht]
    rfl
  · have := congrArg List.length hsame.inputs
    simpa [hvl] using this
  · intro j h1 h2
    rw [hsame.outputs]
    refine hval j ?_
    show [([] : Bytes), x1.blindingPubkey, x2.blindingPubkey, a.change.blindingPubkey, []].getD j [] ≠ []
    obtain rfl | rfl | rfl : j = 1 ∨ j = 2 ∨ j = 3 := by omega
    exacts [q1, q2, q3]

/-- C95: if both have what they offer, and the library and the script check work, then Bob can begin,
Alice accepts that and can add to it, Bob accepts what comes from Alice and can sign it, Alice accepts
that, and this swaps. -/
theorem C95_made {a : Alice} {b : Bob} {x1 x2 : Addr × Bytes} {sb s1 s2 s3 : TxOut} (hw : AllWorks E W Good Asset)
    (h : HonestSwap E W Good Asset a b x1 x2 [sb, s1, s2, s3]) :
    ∃ p t t', bobStart E b a.dst [s1.nAsset, s2.nAsset, s3.nAsset] = .ok p ∧ WFTx p ∧
      aliceJoin E W a ⟨b.utxo.asset, b.utxo.amount⟩ p [x1.1, x2.1] sb.nAsset = .ok t ∧ WFTx t ∧
      bobFinish E W b [(⟨a.asset1.asset, a.asset1.amount⟩, x1.2), (⟨a.asset2.asset, a.asset2.amount⟩, x2.2)] t = .ok t' ∧
      aliceFinal t t' = some t' ∧ Swaps E W a b x1 x2 t' := by
  obtain ⟨k3, hch⟩ := h.change
  have ho := h.owned
  simp only [Alice.utxos, List.forall₂_cons, List.forall₂_nil_left_iff, and_true] at ho
  obtain ⟨ob, o1, o2, o3⟩ := ho
  have S : AliceScene E W Asset a sb s1 s2 s3 b.utxo x1.1 x2.1 x1.2 x2.2 k3 :=
    ⟨ob, o1, o2, o3, h.fee, h.receives.1, h.receives.2, hch⟩
  obtain ⟨p, hp, hv⟩ := bob_goes hw ob o1 o2 o3 h.dst h.bobLucky
  have hB := C71_bob_begins hw.formats hw.rewinds ob.utxoOk h.dst.addrOk hp
  have hpw := hB.wire hw.wire ob.prevout.2
  obtain ⟨t, ht, htw, hlt, hvl, hcom⟩ := alice_goes hw S h.aliceLucky h.dst hB hv
  have hA : AliceOk a := ⟨by
    intro u hu
    simp only [Alice.utxos, List.mem_cons, List.not_mem_nil, or_false] at hu
    rcases hu with rfl | rfl | rfl
    exacts [o1.utxoOk, o2.utxoOk, o3.utxoOk], h.fee.2⟩
  obtain ⟨_, _, hx, hsend⟩ := C71_alice hw.sizes hA ht
  cases hx
  have hsz : ∀ i ∈ p.vin, InputSizes i := by
    rw [hB.inputs]
    intro i hi
    rw [List.mem_singleton.1 hi]
    exact utxo_sizes ob.utxoOk
  have hpays : ∀ k, Receives E a.change k → Finds E x1.2 t 1 a.asset1.asset a.asset1.amount ∧ Finds E x2.2 t 2 a.asset2.asset a.asset2.amount ∧
      Finds E k t 3 a.feeAsset (a.fee.amount - 10000) := by
    intro k hk
    obtain ⟨r1, r2, r3⟩ := C71_pays hw.formats hw.rewinds hw.wire hw.sizes hA hsz hk.addrOk ht ⟨h.receives.1.secret, h.receives.2.secret, hk.secret⟩
      h.receives.1.pub h.receives.2.pub hk.pub
    refine ⟨r1, r2, ?_⟩
    rcases r3 with r3 | ⟨s, -, r3⟩
    · exact r3
    · have := hcom 3 (by omega) (by omega)
      rw [List.getD_eq_getElem?_getD, r3] at this
      obtain ⟨x, hx | hx, -⟩ := this <;> · injection hx with hx; exact absurd hx (by decide)
  obtain ⟨r1, r2, r3⟩ := hpays k3 hch
  obtain ⟨o, c1, c2, c3, f1, f2, f3, f4, f5, f6, f7⟩ := hsend.outputs
  have hlen : t.vout.length = 5 := by simpa using congrArg List.length f5
  have hfee : LastIsFee t.vout := by
    refine ⟨{ nValue := 1 :: beBytes 8 10000, nAsset := 1 :: a.feeAsset }, ?_, rfl, ⟨_, rfl, by simp⟩, ⟨a.feeAsset, rfl, ?_⟩⟩
    · rw [List.getLast?_eq_getElem?, hlen]
      exact hsend.fee
    · rw [← h.fee.1]; exact o3.asset.2.1
  obtain ⟨t', ht'⟩ := signs (i := 0) hw ob htw (by omega) (by omega)
  have hfin : bobFinish E W b [(⟨a.asset1.asset, a.asset1.amount⟩, x1.2), (⟨a.asset2.asset, a.asset2.amount⟩, x2.2)] t = .ok t' := by
    rw [C71_bob_accepts (by rw [hlen]; rfl) hfee (by rw [htw.witout, hlen]; simp)]
    · rw [ht']; rfl
    · intro n f key hn
      rcases n with _ | _ | n
      · cases hn; exact r1
      · cases hn; exact r2
      · cases hn
  have hS := C71_bob hw.sizes ob.utxoOk hfin
  have hsame := hS.same
  have hmap : t'.vin.map TxIn.prevout = t.vin.map TxIn.prevout := by
    have := congrArg (List.map Prod.fst) hsame.inputs
    simpa [List.map_map, Function.comp_def, inputView] using this
  have hw' : ∀ j, t'.outWit j = t.outWit j := by intro j; unfold Tx.outWit; rw [hsame.outputWitness]
  have hfinds : ∀ key j asset amount, Finds E key t j asset amount → Finds E key t' j asset amount := by
    intro key j asset amount hf
    unfold Finds at hf ⊢
    rw [hsame.outputs, hw']
    exact hf
  refine ⟨p, t, t', hp, hpw, ht, htw, hfin, (C71_final ..).2 ⟨rfl, by rw [hmap]⟩, ?_⟩
  obtain ⟨c, e1, e2⟩ := hB.outputs
  obtain ⟨i, hi1, hi2⟩ := hsend.inputs
  rw [hB.inputs] at hi1
  cases hi1
  refine ⟨?_, ?_, ⟨c, c1, c2, c3, e1, f2, f3, f4, ?_⟩, hfinds _ _ _ _ hsend.gets, ⟨hfinds _ _ _ _ r1, hfinds _ _ _ _ r2⟩,
    fun k hk => hfinds _ _ _ _ (hpays k hk).2.2, ?_, ?_, hS.wire htw⟩
  · rw [hsame.inputs, hi2]
    rfl
  · obtain ⟨g1, g2, g3⟩ := hsend.signed
    intro k u hk
    rcases k with _ | _ | _ | _ | k
    · cases hk; exact hS.signed
    · cases hk; exact hsame.spends (by omega) g1
    · cases hk; exact hsame.spends (by omega) g2
    · cases hk; exact hsame.spends (by omega) g3
    · cases hk
  · rw [hsame.outputs, f5]
    rw [f1] at e2
    injection e2 with e2
    rw [e2]
  · rw [hsame.outputs]; exact hsend.fee
  · intro j hj
    rw [hsame.outputs]
    rcases j with _ | j
    · rw [List.getD_eq_getElem?_getD, f6]
      rw [f1] at hv
      exact hv
    · exact hcom _ (by omega) (by omega)

/-- C95: what comes of it passes the amount check of the network. -/
theorem C95_accepted {M : Type} [AddCommGroup M] [Module Scalar M] {P : Pedersen E.z M} {N : Verifier} {a : Alice} {b : Bob} {x1 x2 : Addr × Bytes} {sb s1 s2 s3 : TxOut} {p t t' : Tx}
    (hN : N.Keeps P) (hw : AllWorks E W Good Asset) (h : HonestSwap E W Good Asset a b x1 x2 [sb, s1, s2, s3])
    (hp : bobStart E b a.dst [s1.nAsset, s2.nAsset, s3.nAsset] = .ok p)
    (ht : aliceJoin E W a ⟨b.utxo.asset, b.utxo.amount⟩ p [x1.1, x2.1] sb.nAsset = .ok t)
    (ht' : bobFinish E W b [(⟨a.asset1.asset, a.asset1.amount⟩, x1.2), (⟨a.asset2.asset, a.asset2.amount⟩, x2.2)] t = .ok t') :
    verifyAmounts E N [sb, s1, s2, s3] (fillWitness t') = true := by
  obtain ⟨p', t1, t1', e1, -, e2, -, e3, -, hS⟩ := C95_made hw h
  rw [hp] at e1
  cases e1
  rw [ht] at e2
  cases e2
  rw [ht'] at e3
  cases e3
  obtain ⟨k3, hch⟩ := h.change
  have ho := h.owned
  simp only [Alice.utxos, List.forall₂_cons, List.forall₂_nil_left_iff, and_true] at ho
  obtain ⟨ob, o1, o2, o3⟩ := ho
  have hA : AliceOk a := ⟨by
    intro u hu
    simp only [Alice.utxos, List.mem_cons, List.not_mem_nil, or_false] at hu
    rcases hu with rfl | rfl | rfl
    exacts [o1.utxoOk, o2.utxoOk, o3.utxoOk], h.fee.2⟩
  have hv := hS.hidden 3 (by omega)
  rw [(C71_bob hw.sizes ob.utxoOk ht').same.outputs] at hv
  exact (C93_swap hN hw.formats hw.wire hw.sizes hA ob.utxoOk h.dst.addrOk h.receives.1.addrOk h.receives.2.addrOk hch.addrOk h.fee.1
    (.cons ob.opens (.cons o1.opens (.cons o2.opens (.cons o3.opens .nil))))
    (by
      intro o ho
      simp only [List.mem_cons, List.not_mem_nil, or_false] at ho
      rcases ho with rfl | rfl | rfl | rfl
      exacts [ob.hidden.1, o1.hidden.1, o2.hidden.1, o3.hidden.1])
    (by
      intro u hu
      simp only [Alice.utxos, List.mem_cons, List.not_mem_nil, or_false] at hu
      rcases hu with rfl | rfl | rfl | rfl
      exacts [ob.asset.2.2, o1.asset.2.2, o2.asset.2.2, o3.asset.2.2]) hp ht hv).2 _ _ ht'

end

end Verif.AssetSwap
