import Verif.Props.SwapSpendToy
import Verif.Props.BlindGoes
import Verif.Props.BlindWire
/-
C76: spending the Elements side of the swap goes through.
-/
namespace Verif.SwapSpend
open Verif Spec CrossSwap SpendAddr

/-! ### Scripts -/

theorem pushData_enc {d : Bytes} (h : d.length < 65536) : PushEnc d (pushData d) := by
  unfold pushData
  split
  · exact .direct ‹_›
  split
  · exact .one ⟨by simp, leVal_leBytes_of_lt (by omega)⟩
  · exact .two ⟨by simp, leVal_leBytes_of_lt (by omega)⟩

theorem length_pushData {d : Bytes} : (pushData d).length ≤ d.length + 3 := by
  unfold pushData
  split
  · simp
  · split <;> simp <;> omega

theorem strip_eltContract (r : Nat) {p b s : Bytes} (hp : p.length ≤ 520) (hb : b.length ≤ 520) (hs : s.length ≤ 520) :
    StripSep (eltContract r p b s) (eltContract r p b s) := by
  have hr := length_rBytes r
  have e : eltContract r p b s = 0x63 :: (pushData (rBytes r) ++ (0x7e :: 0x7c :: 0x7e :: 0x51 :: (pushData p ++ (0xc2 :: (pushData b ++
    (0x67 :: 0x5a :: 0xb2 :: 0x75 :: (pushData s ++ [0x68, 0xac])))))))  := by
    simp [eltContract, script, Elem.bytes, elementsTimeout]
  rw [e]
  exact .op (by decide) (by decide) (.push (pushData_enc (by omega)) (.op (by decide) (by decide) (.op (by decide) (by decide)
    (.op (by decide) (by decide) (.op (by decide) (by decide) (.push (pushData_enc (by omega)) (.op (by decide) (by decide)
    (.push (pushData_enc (by omega)) (.op (by decide) (by decide) (.op (by decide) (by decide) (.op (by decide) (by decide)
    (.op (by decide) (by decide) (.push (pushData_enc (by omega)) (.op (by decide) (by decide) (.op (by decide) (by decide) .nil)))))))))))))))

theorem length_contract (r : Nat) {p b s : Bytes} (hp : p.length ≤ 65) (hb : b.length ≤ 65) (hs : s.length ≤ 65) :
    (eltContract r p b s).length ≤ 300 := by
  have hr := length_rBytes r
  have l1 := length_pushData (d := rBytes r)
  have l2 := length_pushData (d := p)
  have l3 := length_pushData (d := b)
  have l4 := length_pushData (d := s)
  simp [eltContract, script, Elem.bytes, elementsTimeout]
  omega

theorem length_script_sig {contract sig : Bytes} (hc : contract.length ≤ 520) (hs : sig.length ≤ 81) :
    (timeoutScriptSig contract sig).length ≤ 1000 := by
  have l1 := length_pushData (d := contract)
  have l2 := length_pushData (d := sig)
  simp [timeoutScriptSig, script, Elem.bytes]
  omega

theorem rBytes_der {r : Nat} {R : Bytes} (h : DerInt r R) (h0 : R.head? ≠ some 0) (hr : r < secpN) : rBytes r = R := by
  obtain ⟨h1, h2, x, t, h3, -, -⟩ := h
  have hx : x ≠ 0 := by
    intro e
    rw [h3, e] at h0
    exact h0 rfl
  have hlt : r < 256 ^ 32 := Nat.lt_trans hr (by unfold secpN; decide)
  have hlen : R.length ≤ 32 := by
    by_contra hl
    have hl : R.length = 33 := by omega
    have e1 := beBytes_beVal hl
    have e2 := beBytes_beVal (b := 0 :: beBytes 32 r) (k := 33) (by simp)
    rw [beVal_zero_cons, beVal_beBytes_of_lt hlt, ← h1, e1, h3] at e2
    exact hx (List.cons.inj e2).1
  have hz : ∀ n, beVal (List.replicate n 0 ++ R) = r := by
    intro n
    induction n with
    | zero => exact h1
    | succ n ih => rw [List.replicate_succ, List.cons_append, beVal_zero_cons, ih]
  have hs : ∀ n, lstrip0 (List.replicate n 0 ++ R) = R := by
    intro n
    induction n with
    | zero => rw [h3]; simp [lstrip0, hx]
    | succ n ih => rw [List.replicate_succ, List.cons_append, lstrip0, if_pos rfl, ih]
  have e := beBytes_beVal (b := List.replicate (32 - R.length) 0 ++ R) (k := 32) (by simp; omega)
  rw [hz] at e
  rw [rBytes, e, hs]

theorem reveal_goes {W : World} {ck bk contract sig : Bytes} (hr : Reveals W ck bk) (hl : ∀ k, (W.revealSign k).length ≤ 80)
    (hc : contract.length ≤ 520) (hs : sig.length ≤ 81) :
    ∃ ss, unlocking W contract sig (some (ck, bk)) = .ok ss ∧ ss.length ≤ 1000 := by
  obtain ⟨⟨q, x, h1, R, S, hR, -, h2⟩, hlt, h0⟩ := hr
  rw [← rBytes_der hR (h0 R hR) hlt, List.append_assoc] at h2
  have hb := length_rBytes W.r
  have hg : revealScriptSig contract sig (W.revealSign q) W.r = .ok (script [.data sig,
      .data ((W.revealSign q).drop (4 + (rBytes W.r).length)), .data ((W.revealSign q).take 4), .num 1, .data contract]) := by
    unfold revealScriptSig
    dsimp only
    rw [if_neg, if_neg]
    · rw [h2]; simp
    · rw [h2]; simp; omega
  refine ⟨_, exc_bind_ok.2 ⟨q, h1, hg⟩, ?_⟩
  have hq := hl q
  have l1 := length_pushData (d := contract)
  have l2 := length_pushData (d := sig)
  have l3 := length_pushData (d := (W.revealSign q).drop (4 + (rBytes W.r).length))
  have l4 := length_pushData (d := (W.revealSign q).take 4)
  rw [List.length_drop] at l3
  rw [List.length_take] at l4
  simp [script, Elem.bytes]
  omega

/-! ### The transaction before blinding -/

theorem script_goes {a : Addr} (ha : AddrOk a) : ∃ s, a.toScriptPubKey = .ok s ∧ s ≠ [] ∧ s.length ≤ 100 := by
  have h : ∃ s, a.toScriptPubKey = .ok s := by
    unfold Addr.toScriptPubKey
    split
    · rename_i hc
      unfold AddrOk at ha
      rw [if_pos hc] at ha
      unfold Addr.toUnconfidential
      have : addrFromBytes a.chain a.kind false (a.payload.drop 33) = .ok ⟨a.chain, a.kind, false, a.payload.drop 33⟩ := by
        refine (addrFromBytes_iff _ _ _ _ _).2 ⟨rfl, ?_⟩
        unfold AddrOk
        simp [ha]
      rw [this]
      exact ⟨_, rfl⟩
    · exact ⟨_, rfl⟩
  obtain ⟨s, h⟩ := h
  obtain ⟨h1, rfl⟩ := script_of_addr ha h
  refine ⟨_, h, ?_, ?_⟩
  · cases a.kind <;> simp [scriptOf]
  · have : a.kind.dataLen ≤ 32 := by cases a.kind <;> decide
    cases hk : a.kind <;> simp [scriptOf] <;> omega

section
variable {E : Env} {W : World} {Good Asset : Bytes → Prop} {j : Job}

theorem plain_goes (hw : Works E.z Good Asset 0 52) (hu : Usable E W Good Asset j.dst j.dummy j.rand j.bf j.abf) (ha : AddrOk j.dst)
    (hid : j.txid.length = 32) (hn : j.n < 2 ^ 30) (has : W.asset.length = 32) :
    ∃ s, s ≠ [] ∧ s.length ≤ 100 ∧ eltPlain E W j = .ok (plainElt W.asset j.dst.blindingPubkey (E.z.pubOf j.dummy) s j.txid j.n,
      [j.dst.blindingPubkey, E.z.pubOf j.dummy]) := by
  obtain ⟨s, h1, h2, h3⟩ := script_goes ha
  obtain ⟨k1, k2⟩ := hw.key _ hu.secrets.1
  have hp : j.dst.blindingPubkey.length = 33 := by
    unfold AddrOk at ha
    rw [if_pos hu.address.1] at ha
    simp [Addr.blindingPubkey, ha]
  have e1 : assetFromAsset W.asset = .ok (1 :: W.asset) := (C04_asset_recovered.1 W.asset has).1
  have new : ∀ b : Bytes, b.length = 33 → confNew nonceKind b = .ok b := by
    intro b hb
    unfold confNew
    have h : b.length = committedSize := hb
    rw [if_pos (.inr (.inr h))]
  refine ⟨s, h2, h3, ?_⟩
  unfold eltPlain
  rw [if_neg (by rw [k1]; decide), if_neg (by omega)]
  refine exc_bind_ok.2 ⟨1 :: beBytes 8 100000000, by decide +kernel, exc_bind_ok.2 ⟨_, e1, exc_bind_ok.2 ⟨s, h1,
    exc_bind_ok.2 ⟨_, if_pos hu.address.1, exc_bind_ok.2 ⟨_, new _ hp, exc_bind_ok.2 ⟨1 :: beBytes 8 0, by decide +kernel,
    exc_bind_ok.2 ⟨_, new _ k2, exc_bind_ok.2 ⟨1 :: beBytes 8 1000000, by decide +kernel, rfl⟩⟩⟩⟩⟩⟩⟩⟩

theorem plain_wf {asset pub dpub s id : Bytes} {n : Nat} (has : asset.length = 32) (hp : pub.length = 33) (hp2 : pub.head? = some 2 ∨ pub.head? = some 3)
    (hd : dpub.length = 33) (hd2 : dpub.head? = some 2 ∨ dpub.head? = some 3) (hid : id.length = 32) (hn : n < 2 ^ 30) (hs : s.length ≤ 100) :
    WFTx (plainElt asset pub dpub s id n) := by
  refine ⟨by simp [plainElt], by simp [plainElt], by simp [plainElt], by simp [plainElt], ?_, ?_, rfl, rfl, ?_, ?_⟩
  · intro i hi
    rw [List.mem_singleton.1 hi]
    exact ⟨hid, Nat.zero_le _, (by decide : 0xffffffff < 4294967296), ⟨rfl, rfl, .inl rfl, .inl rfl, fun _ => rfl⟩, .inr ⟨hn, fun h => by cases h.2.1⟩⟩
  · intro o ho
    have has : ValidField 33 10 11 (1 :: asset) := .inr (.inl ⟨by simp [has], rfl⟩)
    simp only [plainElt, List.mem_cons, List.not_mem_nil, or_false] at ho
    rcases ho with rfl | rfl | rfl
    · exact ⟨has, .inr (.inl ⟨by simp, rfl⟩), .inr (.inr ⟨hp, hp2⟩), by unfold maxItem; show s.length ≤ _; omega⟩
    · exact ⟨has, .inr (.inl ⟨by simp, rfl⟩), .inr (.inr ⟨hd, hd2⟩), (by decide : 1 ≤ maxItem)⟩
    · exact ⟨has, .inr (.inl ⟨by simp, rfl⟩), .inl rfl, Nat.zero_le _⟩
  · intro w hw
    rw [List.mem_singleton.1 hw]
    exact ⟨by decide, by decide, ⟨by decide, by simp⟩, ⟨by decide, by simp⟩⟩
  · intro w hw
    simp only [plainElt, List.mem_cons, List.not_mem_nil, or_false, or_self] at hw
    subst hw
    exact ⟨by decide, by decide⟩

/-! ### Blinding -/

theorem not_commitment_nil : ¬ IsValueCommitment [] := by
  simp [IsValueCommitment]

theorem blind_goes (hw : Works E.z Good Asset 0 52) (hf : Formats E.z) (R : Rewinds E.z)
    (hu : Usable E W Good Asset j.dst j.dummy j.rand j.bf j.abf)
    (hid : j.txid.length = 32) (hn : j.n < 2 ^ 30) (has : W.asset.length = 32) (habf : j.abf.length = 32)
    {g : Bytes} (hg : E.z.generateBlinded W.asset j.abf = some g) {s : Bytes} (hs : s ≠ []) :
    ∃ num bfs abfs tb, blindTransaction E { descs := [⟨W.asset, agreed, j.bf, j.abf⟩], pubkeys := [j.dst.blindingPubkey, E.z.pubOf j.dummy], rand := j.rand }
      (plainElt W.asset j.dst.blindingPubkey (E.z.pubOf j.dummy) s j.txid j.n) = (.ok (.success num bfs abfs), tb) := by
  obtain ⟨k1, k2⟩ := hw.key _ hu.secrets.1
  have hbf := hw.secret _ hu.secrets.2.1
  have hpne : j.dst.blindingPubkey ≠ [] := by
    intro h
    have := hu.address.2.2
    rw [h] at this
    simp at this
  have hdne : E.z.pubOf j.dummy ≠ [] := by
    intro h
    rw [h] at k2
    cases k2
  have hbl : Desc.blinded ⟨W.asset, agreed, j.bf, j.abf⟩ = true := by
    unfold Desc.blinded
    rw [Bool.or_eq_true]
    left
    rw [List.any_eq_true]
    have := hbf.2
    unfold AllZero at this
    push Not at this
    obtain ⟨x, h1, h2⟩ := this
    exact ⟨x, h1, by simpa using h2⟩
  have hout : outputsAsked { descs := [⟨W.asset, agreed, j.bf, j.abf⟩], pubkeys := [j.dst.blindingPubkey, E.z.pubOf j.dummy], rand := j.rand } = [0, 1] := by
    simp [outputsAsked, List.zipIdx, hpne, hdne]
  have hiss : issuancesAsked { descs := [⟨W.asset, agreed, j.bf, j.abf⟩], pubkeys := [j.dst.blindingPubkey, E.z.pubOf j.dummy], rand := j.rand }
      (plainElt W.asset j.dst.blindingPubkey (E.z.pubOf j.dummy) s j.txid j.n) = [] := rfl
  have e1 : plainAmount (1 :: beBytes 8 100000000) = 100000000 := by decide +kernel
  have e2 : plainAmount (1 :: beBytes 8 0) = 0 := by decide +kernel
  have ham : sumAmounts { descs := [⟨W.asset, agreed, j.bf, j.abf⟩], pubkeys := [j.dst.blindingPubkey, E.z.pubOf j.dummy], rand := j.rand }
      (plainElt W.asset j.dst.blindingPubkey (E.z.pubOf j.dummy) s j.txid j.n) = [101000000, 100000000, 0] := by
    unfold sumAmounts
    rw [hout, hiss]
    simp only [List.filter_cons, hbl, if_true, List.filter_nil]
    simp [plainElt, e1, e2, agreed]
  obtain ⟨bfs, abfs, tb, h, -⟩ := C73_goes (E := E) (A := { descs := [⟨W.asset, agreed, j.bf, j.abf⟩], pubkeys := [j.dst.blindingPubkey, E.z.pubOf j.dummy], rand := j.rand })
      (tx := plainElt W.asset j.dst.blindingPubkey (E.z.pubOf j.dummy) s j.txid j.n) hw hf (by
    refine ⟨?_, ?_, ?_, ?_, ?_, ?_, ?_, ?_, ?_, ?_, ?_⟩
    · exact ⟨by simp [plainElt], by simp, by simp, rfl, fun h => absurd rfl h⟩
    · intro i hi
      rw [List.mem_singleton.1 hi]
      exact ⟨hid, by show j.n < _; omega, rfl⟩
    · intro d hd
      rw [List.mem_singleton.1 hd]
      exact ⟨⟨has, hbf.1, habf⟩, by show agreed ≤ _; decide⟩
    · rintro (_ | i) txin d h1 h2
      · cases h1; cases h2
        exact ⟨fun _ => (by decide : 0 ≤ agreed), fun k h => (by cases h), fun k h => (by cases h)⟩
      · cases h1
    · intro i txin token key h1 h2
      cases token <;> simp [BlindArgs.issuanceKey] at h2
    · rintro (_ | _ | i) pk h1 h2
      · cases h1
        refine ⟨⟨hu.address.2.1, ⟨_, rfl, by simp⟩, ⟨_, rfl, has⟩, rfl, hs⟩, ?_, ?_⟩
        · show plainAmount (1 :: beBytes 8 100000000) ≤ _
          rw [e1]; decide
        · intro _
          show 1 ≤ plainAmount (1 :: beBytes 8 100000000)
          rw [e1]; decide
      · cases h1
        refine ⟨⟨R.pubValid _ k1, ⟨_, rfl, by simp⟩, ⟨_, rfl, has⟩, rfl, by simp [plainElt]⟩, ?_, ?_⟩
        · show plainAmount (1 :: beBytes 8 0) ≤ _
          rw [e2]; decide
        · intro h
          exact absurd (.inr rfl) h
      · cases h1
    · refine ⟨[⟨W.asset, g, j.abf⟩], ⟨[[⟨W.asset, g, j.abf⟩]], [], rfl, ?_, ?_, rfl⟩, ?_⟩
      · rintro (_ | i) txin d l h1 h2 h3
        · cases h1; cases h2; cases h3
          refine ⟨⟨_, [], [], rfl, .own g hu.asset.2 hg, .none rfl, .inl ⟨rfl, rfl⟩⟩, ?_, ?_⟩
          · exact not_commitment_nil
          · exact not_commitment_nil
        · cases h1
      · exact .nil
      · rw [hout, hiss]
        rintro (_ | _ | k) i hk
        · cases hk
          obtain ⟨h, t, e⟩ := hu.source (j.rand 3)
          exact ⟨W.asset, h, t, rfl, hu.asset.1, hu.asset.2, by simpa using e⟩
        · cases hk
          obtain ⟨h, t, e⟩ := hu.source (j.rand 7)
          exact ⟨W.asset, h, t, rfl, hu.asset.1, hu.asset.2, by simpa using e⟩
        · cases hk
    · intro k
      refine ⟨(hu.secrets.2.2 k).1, ?_⟩
      intro d hd
      rw [List.mem_singleton.1 hd]
      exact (hu.secrets.2.2 k).2
    · rw [hout]; simp
    · rw [hout, hiss]; intro h; simp at h
    · obtain ⟨b, hb, hgood⟩ := hu.balance
      refine ⟨b, ?_, hgood⟩
      rw [ham, hout]
      unfold sumAssetFactors sumFactors
      rw [hout, hiss]
      simp only [List.filter_cons, hbl, if_true, List.filter_nil]
      simpa [List.range_succ] using hb)
  exact ⟨_, bfs, abfs, tb, h⟩

/-! ### Signing -/

theorem wf_vin {t : Tx} (h : WFTx t) {i : TxIn} (hl : t.vin.length = 1) (hi : WFIn i) : WFTx { t with vin := [i] } := by
  refine ⟨h.version, h.locktime, (by simp), h.nout, ?_, h.vout, ?_, h.witout, h.vtxinwit, h.vtxoutwit⟩
  · intro k hk
    rw [List.mem_singleton.1 hk]
    exact hi
  · exact h.witin.trans hl

theorem spend_goes (hw : Works E.z Good Asset 0 52) (hf : Formats E.z) (R : Rewinds E.z) (Z : WireSizes E.z) (hz : KeySizes E W)
    (hu : Usable E W Good Asset j.dst j.dummy j.rand j.bf j.abf) (ha : AddrOk j.dst)
    (hid : j.txid.length = 32) (hn : j.n < 2 ^ 30) (has : W.asset.length = 32) (habf : j.abf.length = 32)
    {g : Bytes} (hg : E.z.generateBlinded W.asset j.abf = some g) (hstrip : StripSep j.contract j.contract)
    (hlen : j.contract.length ≤ 520) (reveal : Option (Bytes × Bytes)) (hr : ∀ ck bk, reveal = some (ck, bk) → Reveals W ck bk) :
    ∃ t b, eltSpend E W j reveal = .ok t ∧ WFTx t ∧ serializeTx t = .ok b := by
  obtain ⟨s, h1, h2, h3⟩ := plain_goes hw hu ha hid hn has
  obtain ⟨num, bfs, abfs, tb, h4⟩ := blind_goes hw hf R hu hid hn has habf hg h1
  obtain ⟨k1, k2⟩ := hw.key _ hu.secrets.1
  have hp : j.dst.blindingPubkey.length = 33 := by
    unfold AddrOk at ha
    rw [if_pos hu.address.1] at ha
    simp [Addr.blindingPubkey, ha]
  have hwf := blind_wf E Z { descs := [⟨W.asset, agreed, j.bf, j.abf⟩], pubkeys := [j.dst.blindingPubkey, E.z.pubOf j.dummy], rand := j.rand }
    (plain_wf (n := j.n) has hp hu.address.2.2 k2 (Z.pubPrefix _ k1) hid hn h2)
  rw [h4] at hwf
  have hwf : WFTx tb := hwf
  have hvin : tb.vin.length = 1 := by
    have := (C32_only_asked E { descs := [⟨W.asset, agreed, j.bf, j.abf⟩], pubkeys := [j.dst.blindingPubkey, E.z.pubOf j.dummy], rand := j.rand }
      (plainElt W.asset j.dst.blindingPubkey (E.z.pubOf j.dummy) s j.txid j.n)).inputs
    rw [h4] at this
    have := congrArg List.length this
    simpa [plainElt] using this
  obtain ⟨i, hi⟩ := List.length_eq_one_iff.1 hvin
  have hwi : WFIn i := hwf.vin i (by rw [hi]; simp)
  have hmod : ∀ f : TxIn → TxIn, ({ tb with vin := tb.vin.modify 0 f } : Tx) = { tb with vin := [f i] } := by
    intro f; rw [hi]; rfl
  have hsig : ∃ t1 i1, (if reveal.isSome then tb else { tb with vin := tb.vin.modify 0 fun i => { i with nSequence := eltSequence false } }) = t1 ∧
      t1 = { tb with vin := [i1] } ∧ WFIn i1 := by
    split
    · refine ⟨tb, i, rfl, ?_, hwi⟩
      rw [← hi]
    · refine ⟨_, { i with nSequence := eltSequence false }, rfl, hmod _, ⟨hwi.hash, hwi.script, (by decide : eltSequence false < 4294967296), hwi.iss, hwi.index⟩⟩
  obtain ⟨t1, i1, e1, e2, e3⟩ := hsig
  have hw1 : WFTx t1 := by rw [e2]; exact wf_vin hwf hvin e3
  obtain ⟨⟨d, err⟩, hd⟩ := C19_total E.h 0 (ht := SIGHASH_ALL) (some (1 :: beBytes 8 101000000)) hw1
    (by unfold maxItem; omega) hstrip (by decide)
  have herr : err = false := by
    cases err with
    | false => rfl
    | true =>
      have := ((C19_error_iff _ _ _ _ _ _ _).1 hd).2
      rw [e2] at this
      rcases this with h | ⟨h, _⟩
      · simp at h
      · exact absurd h (by decide)
  subst herr
  have hdig : sighash E.h j.contract t1 0 SIGHASH_ALL (some (1 :: beBytes 8 101000000)) .base = .ok d :=
    (C19_sighash_ok _ _ _ _ _ _ _ _).2 ⟨.inl (by decide), by decide, hd⟩
  have hsl : (W.sign j.key d ++ [UInt8.ofNat SIGHASH_ALL]).length ≤ 81 := by
    have := hz.sig j.key d
    simp only [List.length_append, List.length_singleton]
    omega
  obtain ⟨ss, hss, hssl⟩ : ∃ ss, unlocking W j.contract (W.sign j.key d ++ [UInt8.ofNat SIGHASH_ALL]) reveal = .ok ss ∧ ss.length ≤ 1000 := by
    cases reveal with
    | none => exact ⟨_, rfl, length_script_sig hlen hsl⟩
    | some p => exact reveal_goes (hr _ _ rfl) hz.reveal hlen hsl
  have hsign : eltSign E W j reveal tb = .ok { t1 with vin := t1.vin.modify 0 fun i => { i with scriptSig := ss } } := by
    unfold eltSign
    dsimp only
    rw [e1]
    exact exc_bind_ok.2 ⟨_, by decide +kernel, exc_bind_ok.2 ⟨d, hdig, exc_bind_ok.2 ⟨ss, hss, rfl⟩⟩⟩
  have hwf' : WFTx { t1 with vin := t1.vin.modify 0 fun i => { i with scriptSig := ss } } := by
    rw [e2]
    show WFTx { tb with vin := [{ i1 with scriptSig := ss }] }
    exact wf_vin hwf hvin ⟨e3.hash, by unfold maxItem; show ss.length ≤ _; omega, e3.seq, e3.iss, e3.index⟩
  obtain ⟨b, hb⟩ := serTx_exists (WFTx.serOK hwf')
  refine ⟨_, b, ?_, hwf', hb⟩
  unfold eltSpend
  refine exc_bind_ok.2 ⟨_, up_ok.2 h3, ?_⟩
  dsimp only
  rw [h4]
  exact up_ok.2 hsign

theorem deposit_found {key contract : Bytes} {tx : Tx} {n : Nat} {o : TxOut} {v : Nat} {bf abf : Bytes} (hz : KeySizes E W)
    (h : Deposit E W key contract tx n o v bf abf) :
    findVout E W (p2sh W contract) key tx.wit.vtxoutwit 0 tx.vout = .ok ⟨n, v, bf, abf⟩ := by
  have hopen : openVout E W key tx.wit.vtxoutwit n o = .ok ⟨n, v, bf, abf⟩ := by
    have hm := ((C37_success_iff ..).1 h.opens).money
    obtain ⟨w, hw⟩ : ∃ w, tx.wit.vtxoutwit[n]? = some w := ⟨_, List.getElem?_eq_getElem h.witness⟩
    have hw' : tx.outWit n = w := by
      unfold Tx.outWit
      rw [hw]; rfl
    have ho := h.opens
    rw [hw'] at ho
    unfold openVout
    refine exc_bind_ok.2 ⟨w, up_ok.2 ?_, exc_bind_ok.2 ⟨_, up_ok.2 ho, exc_bind_ok.2 ⟨.unblindingSuccess W.asset v bf abf, up_ok.2 ?_, ?_⟩⟩⟩
    · unfold pyGet
      have : ¬ ((n : Int) < 0) := by omega
      simp only [if_neg this, Int.toNat_natCast, hw]
    · simp only [UnblindResult.obj, unblindingSuccessNew]
      rw [if_pos]
      unfold moneyRangeInt
      simp; omega
    · dsimp only
      rw [if_neg (by simp)]
      rfl
  have : ∀ (os : List TxOut) (m k : Nat), FirstTo (p2sh W contract) os k o → m + k = n →
      findVout E W (p2sh W contract) key tx.wit.vtxoutwit m os = .ok ⟨n, v, bf, abf⟩ := by
    intro os
    induction os with
    | nil => intro m k hk; cases hk.1
    | cons p os ih =>
      intro m k ⟨h1, h2, h3⟩ hmk
      unfold findVout
      cases k with
      | zero =>
        cases h1
        rw [if_pos h2]
        have : m = n := by omega
        rw [this]
        exact hopen
      | succ k =>
        rw [if_neg (h3 0 p (by omega) rfl)]
        exact ih (m + 1) k ⟨h1, h2, fun i q hi hq => h3 (i + 1) q (by omega) hq⟩ (by omega)
  have hf := h.first
  rw [← p2sh_eq hz.hash] at hf
  exact this _ 0 n hf (by omega)

theorem claim_goes {b : Bob} {txid : Bytes} {confirmations : Int} {tx : Tx} {p : Bytes} {n : Nat} {o : TxOut} {bf abf : Bytes}
    (hw : Works E.z Good Asset 0 52) (hf : Formats E.z) (R : Rewinds E.z) (Z : WireSizes E.z) (hz : KeySizes E W)
    (hp : (eltContract W.r p (E.z.pubOf b.spendKey) b.alicePub).length ≤ 520) (hid : txid.length = 32) (hn : n < 2 ^ 30) (hc : 2 ≤ confirmations)
    (ha : AddrOk b.dst) (hu : Usable E W Good Asset b.dst b.dummy b.rand bf abf) (hr : Reveals W b.contractKey b.blindingKey)
    (hsum : W.addPubs (E.z.pubOf b.contractKey) (E.z.pubOf b.blindingKey) = .ok p)
    (hd : Deposit E W b.blindingKey (eltContract W.r p (E.z.pubOf b.spendKey) b.alicePub) tx n o 101000000 bf abf) :
    ∃ t, bobClaim E W b txid confirmations tx = .ok t ∧ WFTx t := by
  obtain ⟨_, _, g0, _, _, -, -, -, -, -, l1, l2, g, s, hg, -⟩ := ((C37_success_iff ..).1 hd.opens).rewound
  obtain ⟨t, x, h1, hwf, h2⟩ := spend_goes (j := ⟨b.dst, txid, n, eltContract W.r p (E.z.pubOf b.spendKey) b.alicePub, b.spendKey, bf, abf, b.dummy, b.rand⟩)
    hw hf R Z hz hu ha hid hn l1 l2 hg (strip_eltContract _ (keys_fit hp).1 (keys_fit hp).2.1 (keys_fit hp).2.2)
    hp (some (b.contractKey, b.blindingKey)) (fun _ _ h => by cases h; exact hr)
  refine ⟨t, ?_, hwf⟩
  unfold bobClaim
  refine exc_bind_ok.2 ⟨_, up_ok.2 (exc_bind_ok.2 ⟨p, hsum, redeemable_ok.2 ⟨hp, rfl⟩⟩), ?_⟩
  rw [if_neg (by omega)]
  refine exc_bind_ok.2 ⟨_, deposit_found hz hd, ?_⟩
  rw [if_neg (by simp [agreed]), if_neg (by simp [hu.address.1])]
  exact exc_bind_ok.2 ⟨t, h1, exc_bind_ok.2 ⟨x, up_ok.2 h2, rfl⟩⟩

/-- **C76.** Bob's claim goes through: if a deposit with two confirmations has the agreed amount for them, the
library works for the secrets drawn, and the known nonce is the one the contract expects, there is a claim. -/
theorem C76_claim_goes {b : Bob} {txid : Bytes} {confirmations : Int} {tx : Tx} {p : Bytes} {n : Nat} {o : TxOut} {bf abf : Bytes}
    (hw : Works E.z Good Asset 0 52) (hf : Formats E.z) (R : Rewinds E.z) (Z : WireSizes E.z) (hz : KeySizes E W)
    (hp : (eltContract W.r p (E.z.pubOf b.spendKey) b.alicePub).length ≤ 520) (hid : txid.length = 32) (hn : n < 2 ^ 30) (hc : 2 ≤ confirmations)
    (ha : AddrOk b.dst) (hu : Usable E W Good Asset b.dst b.dummy b.rand bf abf) (hr : Reveals W b.contractKey b.blindingKey)
    (hsum : W.addPubs (E.z.pubOf b.contractKey) (E.z.pubOf b.blindingKey) = .ok p)
    (hd : Deposit E W b.blindingKey (eltContract W.r p (E.z.pubOf b.spendKey) b.alicePub) tx n o 101000000 bf abf) :
    ∃ t, bobClaim E W b txid confirmations tx = .ok t := by
  obtain ⟨t, h, _⟩ := claim_goes hw hf R Z hz hp hid hn hc ha hu hr hsum hd
  exact ⟨t, h⟩

/-- **C76.** So does Alice's reclaim. -/
theorem C76_reclaim_goes {a : Alice} {txid : Bytes} {tx : Tx} {p : Bytes} {n : Nat} {o : TxOut} {v : Nat} {bf abf : Bytes}
    (hw : Works E.z Good Asset 0 52) (hf : Formats E.z) (R : Rewinds E.z) (Z : WireSizes E.z) (hz : KeySizes E W)
    (hp : (eltContract W.r p a.bobPub (E.z.pubOf a.exitKey)).length ≤ 520) (hid : txid.length = 32) (hn : n < 2 ^ 30)
    (ha : AddrOk a.dst) (hu : Usable E W Good Asset a.dst a.dummy a.rand bf abf)
    (hsum : W.addPubs a.contractPub (E.z.pubOf a.blindingKey) = .ok p)
    (hd : Deposit E W a.blindingKey (eltContract W.r p a.bobPub (E.z.pubOf a.exitKey)) tx n o v bf abf) :
    ∃ t, aliceReclaim E W a txid tx = .ok t := by
  obtain ⟨_, _, g0, _, _, -, -, -, -, -, l1, l2, g, s, hg, -⟩ := ((C37_success_iff ..).1 hd.opens).rewound
  obtain ⟨t, x, h1, _, h2⟩ := spend_goes (j := ⟨a.dst, txid, n, eltContract W.r p a.bobPub (E.z.pubOf a.exitKey), a.exitKey, bf, abf, a.dummy, a.rand⟩)
    hw hf R Z hz hu ha hid hn l1 l2 hg (strip_eltContract _ (keys_fit hp).1 (keys_fit hp).2.1 (keys_fit hp).2.2)
    hp none (fun _ _ h => by cases h)
  refine ⟨t, ?_⟩
  unfold aliceReclaim
  refine exc_bind_ok.2 ⟨_, up_ok.2 (exc_bind_ok.2 ⟨p, hsum, redeemable_ok.2 ⟨hp, rfl⟩⟩), ?_⟩
  exact exc_bind_ok.2 ⟨_, deposit_found hz hd, exc_bind_ok.2 ⟨t, h1, exc_bind_ok.2 ⟨x, up_ok.2 h2, rfl⟩⟩⟩

end

namespace Toy
open Verif.Toy

def deposited : TxOut := (deposit 101000000).vout.getD 1 {}

/-- Its factor, from the balance. -/
@[irreducible] def bf : Bytes :=
  match unblind env (b32 3) deposited.nValue deposited.nAsset deposited.nNonce deposited.scriptPubKey
    ((deposit 101000000).outWit 1).rangeproof with
  | .ok (.success _ _ bf _) => bf
  | _ => []

theorem deposit_opens : Deposit env W (b32 3) contract (deposit 101000000) 1 deposited 101000000 bf (b32 10) := by
  refine ⟨⟨by decide +kernel, by decide +kernel, ?_⟩, by decide +kernel, by decide +kernel⟩
  intro m p hm hp
  have : m = 0 := by omega
  subst this
  have : (deposit 101000000).vout[0]?.map TxOut.scriptPubKey = some [0x51] := by decide +kernel
  rw [hp] at this
  have e : p.scriptPubKey = [0x51] := Option.some.inj this
  rw [e]
  decide +kernel

theorem usable : Usable env W Verif.Toy.Good (fun _ => True) SpendAddr.Toy.confDst (b32 30) (fun k => b32 (k % 1000 + 40)) bf (b32 10) := by
  refine ⟨⟨trivial, by decide⟩, ⟨rfl, by decide, .inl (by decide)⟩, ⟨⟨by decide, by decide⟩, ⟨by decide +kernel, by decide +kernel⟩, ?_⟩, ?_, ?_⟩
  · intro k
    have hv : beVal (b32 (k % 1000 + 40)) = k % 1000 + 40 := by
      unfold b32
      exact beVal_beBytes_of_lt (by have := Nat.mod_lt k (show 0 < 1000 by omega); norm_num; omega)
    refine ⟨⟨by simp [b32], fun h0 => ?_⟩, ?_⟩
    · have : b32 (k % 1000 + 40) = List.replicate 32 0 := List.eq_replicate_iff.2 ⟨by simp [b32], h0⟩
      rw [this] at hv
      have h : beVal (List.replicate 32 0) = 0 := by decide
      omega
    · intro e
      rw [← e] at hv
      have h : beVal (b32 10) = 10 := by decide
      omega
  · intro seed
    exact ⟨[1], 0, rfl⟩
  · exact ⟨_, rfl, by decide +kernel, by decide +kernel⟩

theorem no_sign (R : Bytes) (h : DerInt C66Toy.half R) : R.head? ≠ some 0 := by
  obtain ⟨h1, h2, x, t, rfl, -, h4⟩ := h
  intro e
  cases e
  rw [beVal_zero_cons] at h1
  have hlen : t.length = 32 := by
    have := beVal_lt t
    rw [h1] at this
    by_contra hl
    rw [List.length_cons] at h2
    have : 256 ^ t.length ≤ 256 ^ 31 := Nat.pow_le_pow_right (by decide) (by omega)
    have : (256 ^ 31 : Nat) ≤ C66Toy.half := by decide +kernel
    omega
  have e := beBytes_beVal hlen
  rw [h1] at e
  have hh : (beBytes 32 C66Toy.half).head? = some 0x7f := by decide +kernel
  rw [e] at hh
  cases t with
  | nil => cases hh
  | cons y t =>
    cases hh
    exact absurd (h4 rfl _ _ rfl) (by decide)

theorem revealSign_der {k : Bytes} : Der (W.revealSign k) C66Toy.half 1 := by
  refine ⟨rBytes C66Toy.half, [1], C66Toy.derHalf, C66Toy.derOne, ?_⟩
  rw [rBytes_half]
  show [0x30, 37, 0x02, 32] ++ _ ++ _ = _
  simp

/-- The hypotheses of `C76_claim_goes` and `C76_reclaim_goes` are met. -/
example : ∃ t, bobClaim env W bob (b32 8) 2 (deposit 101000000) = .ok t :=
  C76_claim_goes (works _ _) formats rewinds wireSizes keySizes (by decide +kernel) (by decide) (by decide) (by decide)
    SpendAddr.Toy.confDst_ok usable
    ⟨⟨b32 1, 1, rfl, revealSign_der⟩, C66Toy.known.lt, no_sign⟩ (p := 2 :: b32 1) rfl deposit_opens
example : ∃ t, aliceReclaim env W alice (b32 8) (deposit 101000000) = .ok t :=
  C76_reclaim_goes (works _ _) formats rewinds wireSizes keySizes (by decide +kernel) (by decide) (by decide)
    SpendAddr.Toy.confDst_ok usable (p := 2 :: b32 1) rfl deposit_opens

end Toy

end Verif.SwapSpend
