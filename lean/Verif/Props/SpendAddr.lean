import Verif.Spec.SpendAddr
import Verif.Props.Spend
import Verif.Props.Confidential
import Verif.Props.SighashV0
import Verif.Props.BlindUnblind
import Verif.Props.WalletOut
/-
C72: examples/spend-to-confidential-address.py.
-/
namespace Verif

/-- C33: with a single output to hide and nothing hidden in the inputs, strict blinding does not
succeed. -/
theorem C33_alone {E : Env} {A : BlindArgs} {tx tx' : Tx} {num bfs abfs} (hst : A.strict = true)
    (hk : A.assetKeys = [] ∧ A.tokenKeys = []) (h1 : askedOutputs A = 1) (hb : ∀ d ∈ A.descs, d.blinded = false) :
    blindTransaction E A tx ≠ (.ok (.success num bfs abfs), tx') := by
  intro h
  obtain ⟨C, s', hR, hE, rfl, hres⟩ := blind_success h
  obtain ⟨rfl, rfl, rfl, hdone⟩ := result_success hres
  obtain ⟨hRE, hRA, hRl, -, -, hRo, hRb, hRn⟩ := hR
  subst hRE hRA
  have hdone := hdone hst
  have hvk := validKeys_asked hRo
  have hkeyed : ∀ n i, keyed C.A i n = [] := by
    intro n i
    unfold keyed
    rw [List.filter_eq_nil_iff]
    intro x _
    cases x.2 <;> simp [BlindArgs.issKeys, keyAt, hk.1, hk.2]
  have hn : C.nToBlind = 1 := by
    have hz : ∀ (l : List TxIn) (k : Nat), askedIssuances [] l k = 0 := by
      intro l k; simp [askedIssuances]
    rw [hRn, asked, h1, hk.1, hk.2, hz]
  have hbl : C.nBlindsIn = 0 := by
    rw [hRb, List.filter_eq_nil_iff.2 (fun d hd => by simp [hb d hd])]
    rfl
  rw [h1] at hvk
  cases hE with
  | issuance es x rest _ he => rw [hkeyed] at he; simp at he
  | early es ds x rest amount _ he _ hds _ _ hearly =>
    rw [hkeyed, List.map_eq_nil_iff] at he
    subst he
    have : ds = [] := by
      have := congrArg List.length hds
      rw [hvk] at this
      simp at this
      exact List.length_eq_zero_iff.1 (by omega)
    subst this
    cases hearly with
    | alone _ _ _ =>
      rw [hn] at hdone
      exact absurd (show (0 : Nat) = 1 from hdone) (by decide)
    | zero b _ hne => exact hne ⟨rfl, hbl⟩
  | full es ds _ he hrun hds hs =>
    rw [hkeyed, List.map_eq_nil_iff] at he
    subst he
    have hl : ds.length = 1 := by
      have := congrArg List.length hds
      rwa [hvk, List.length_map] at this
    cases hrun with
    | nil => cases hl
    | @cons _ d _ hm hc hv ho hr =>
      have hch := hc.blind
      generalize d.blind = b at hch
      cases hch with
      | random hne => exact hne hn.symm
      | balancing _ _ hne => exact hne ⟨rfl, hbl⟩

namespace SpendAddr
open Spec CrossSwap

theorem isFee_iff {o : TxOut} : o.isFee = true ↔ IsFeeOut o := by
  simp only [TxOut.isFee, IsFeeOut, Bool.and_eq_true, beq_iff_eq, List.length_eq_zero_iff, explicitValue_iff, explicitAsset_iff,
    and_assoc]

theorem look_ok {spk n o f f'} (h : look spk n o f = .ok f') :
    f'.utxo = (if f.utxo = none ∧ o.scriptPubKey = spk then some (n, o) else f.utxo) ∧
    ((¬ IsFeeOut o ∧ f'.fee = f.fee) ∨
     (IsFeeOut o ∧ (∀ x y, f.fee = some (x, y) → x = o.nAsset) ∧ ∃ fee, valueToAmount o.nValue = .ok fee ∧ f'.fee = some (o.nAsset, fee))) := by
  unfold look at h
  have hu : (if f.utxo.isNone && o.scriptPubKey == spk then { f with utxo := some (n, o) } else f)
      = { f with utxo := if f.utxo = none ∧ o.scriptPubKey = spk then some (n, o) else f.utxo } := by
    by_cases hc : f.utxo = none ∧ o.scriptPubKey = spk
    · simp [hc.1, hc.2]
    · rw [if_neg hc, if_neg]
      simpa using hc
  rw [hu] at h
  dsimp only at h
  by_cases hf : o.isFee = true
  · rw [if_pos hf] at h
    have hf' := isFee_iff.1 hf
    cases hfee : f.fee with
    | none =>
      rw [hfee] at h
      obtain ⟨fee, h1, h⟩ := exc_bind_ok.1 h
      cases h
      exact ⟨rfl, .inr ⟨hf', by simp, fee, h1, rfl⟩⟩
    | some x =>
      obtain ⟨x, y⟩ := x
      rw [hfee] at h
      dsimp only at h
      split at h
      · cases h
      · rename_i hne
        obtain ⟨fee, h1, h⟩ := exc_bind_ok.1 h
        cases h
        refine ⟨rfl, .inr ⟨hf', ?_, fee, h1, rfl⟩⟩
        intro a b hab
        cases hab
        simpa using hne
  · rw [if_neg hf] at h
    cases h
    exact ⟨rfl, .inl ⟨fun h => hf (isFee_iff.2 h), rfl⟩⟩

theorem scan_ok {spk} : ∀ {os : List TxOut} {n : Nat} {f f' : Found}, scan spk n os f = .ok f' →
    (f.utxo ≠ none → f'.utxo = f.utxo) ∧
    (f.utxo = none → ∀ m o, f'.utxo = some (m, o) → ∃ k, m = n + k ∧ FirstTo spk os k o) ∧
    (∀ x y, f.fee = some (x, y) → (∀ o ∈ os, IsFeeOut o → o.nAsset = x) ∧ ∃ z, f'.fee = some (x, z)) ∧
    ((f'.fee = f.fee ∧ ∀ o ∈ os, ¬ IsFeeOut o) ∨
     ∃ g fee, LastFee os g ∧ valueToAmount g.nValue = .ok fee ∧ f'.fee = some (g.nAsset, fee))
  | [], n, f, f', h => by
    cases h
    refine ⟨fun _ => rfl, ?_, ?_, .inl ⟨rfl, by simp⟩⟩
    · intro h1 m o h2; rw [h1] at h2; cases h2
    · intro x y h; exact ⟨by simp, y, h⟩
  | o :: os, n, f, f', h => by
    obtain ⟨g, h1, h2⟩ := exc_bind_ok.1 h
    obtain ⟨a1, a2, a3, a4⟩ := scan_ok h2
    obtain ⟨u, v⟩ := look_ok h1
    refine ⟨?_, ?_, ?_, ?_⟩
    · intro hn
      rw [if_neg (fun hc => hn hc.1)] at u
      rw [a1 (by rw [u]; exact hn), u]
    · intro hn m p hm
      by_cases hs : o.scriptPubKey = spk
      · rw [if_pos ⟨hn, hs⟩] at u
        rw [a1 (by rw [u]; simp), u] at hm
        cases hm
        exact ⟨0, rfl, rfl, hs, fun m p hm => absurd hm (by omega)⟩
      · rw [if_neg (fun hc => hs hc.2), hn] at u
        obtain ⟨k, rfl, k1, k2, k3⟩ := a2 u m p hm
        refine ⟨k + 1, by omega, k1, k2, ?_⟩
        intro i q hi hq
        cases i with
        | zero => cases hq; exact hs
        | succ i => exact k3 i q (by omega) hq
    · intro x y hxy
      rcases v with ⟨v1, v2⟩ | ⟨v1, v2, fee, v3, v4⟩
      · obtain ⟨b1, b2⟩ := a3 x y (v2.trans hxy)
        refine ⟨?_, b2⟩
        intro p hp hf
        rcases List.mem_cons.1 hp with rfl | hp
        · exact absurd hf v1
        · exact b1 p hp hf
      · have hx := v2 x y hxy
        subst hx
        obtain ⟨b1, b2⟩ := a3 _ _ v4
        refine ⟨?_, b2⟩
        intro p hp hf
        rcases List.mem_cons.1 hp with rfl | hp
        · rfl
        · exact b1 p hp hf
    · rcases a4 with ⟨w1, w2⟩ | ⟨r, fee, ⟨⟨i, r1, r2⟩, r3, r4⟩, w2, w3⟩
      · rcases v with ⟨v1, v2⟩ | ⟨v1, v2, fee, v3, v4⟩
        · refine .inl ⟨w1.trans v2, ?_⟩
          intro p hp
          rcases List.mem_cons.1 hp with rfl | hp
          · exact v1
          · exact w2 p hp
        · refine .inr ⟨o, fee, ⟨⟨0, rfl, ?_⟩, v1, ?_⟩, v3, w1.trans v4⟩
          · intro j p hj hp
            cases j with
            | zero => omega
            | succ j => exact w2 p (List.mem_of_getElem? hp)
          · intro p hp hf
            rcases List.mem_cons.1 hp with rfl | hp
            · rfl
            · exact absurd hf (w2 p hp)
      · refine .inr ⟨r, fee, ⟨⟨i + 1, r1, ?_⟩, r3, ?_⟩, w2, w3⟩
        · intro j p hj hp
          cases j with
          | zero => omega
          | succ j => exact r2 j p (by omega) hp
        · intro p hp hf
          rcases List.mem_cons.1 hp with rfl | hp
          · rcases v with ⟨v1, v2⟩ | ⟨v1, v2, fee', v3, v4⟩
            · exact absurd hf v1
            · obtain ⟨-, z, b2⟩ := a3 _ _ v4
              rw [w3] at b2
              exact (congrArg Prod.fst (Option.some.inj b2)).symm
          · exact r4 p hp hf

/-- What a run that prints something went through. -/
theorem spend_ok {E : Env} {W : World} {a : Args} {t : Tx} (h : spend E W a = .ok (some t)) :
    ∃ n o feeAsset fee d tx1 tx2 pubs num bfs abfs tb,
      scan (srcScript W (E.z.pubOf a.key)) 0 a.inputTx.vout {} = .ok ⟨some (n, o), some (feeAsset, fee)⟩ ∧
      describe E a n o = .ok (some d) ∧ ¬ d.amount < fee * 2 ∧ build E a n d feeAsset fee = .ok tx1 ∧
      addDummy E a (confIsExplicit valueKind o.nValue) d.asset tx1 = .ok (tx2, pubs) ∧
      blindTransaction E { descs := [d], pubkeys := pubs, rand := a.rand } tx2 = (.ok (.success num bfs abfs), tb) ∧
      num = (pubs.filter (· ≠ [])).length ∧ signTx E W a o tb = .ok t ∧ ∃ b, serializeTx t = .ok b := by
  unfold spend at h
  obtain ⟨⟨u, g⟩, h1, h⟩ := exc_bind_ok.1 h
  dsimp only at h
  split at h
  · cases h
  · cases h
  · rename_i n o feeAsset fee
    obtain ⟨r, h2, h⟩ := exc_bind_ok.1 h
    split at h
    · cases h
    · rename_i d
      split at h
      · cases h
      · rename_i hlt
        obtain ⟨tx1, h3, h⟩ := exc_bind_ok.1 h
        obtain ⟨⟨tx2, pubs⟩, h4, h⟩ := exc_bind_ok.1 h
        obtain ⟨r, h5, h⟩ := exc_bind_ok.1 h
        split at h
        · cases h
        · rename_i tb
          obtain ⟨t', h6, h⟩ := exc_bind_ok.1 h
          obtain ⟨b, h7, h⟩ := exc_bind_ok.1 h
          cases h
          unfold blindTx at h5
          obtain ⟨before, -, h5⟩ := exc_bind_ok.1 h5
          split at h5
          · cases h5
          · cases h5
          · rename_i num bfs abfs tb' hb
            split at h5
            · cases h5
            · rename_i hnum
              simp only [ne_eq, not_not] at hnum
              have : tb' = tb := by
                split at h5
                · obtain ⟨after, -, h5⟩ := exc_bind_ok.1 h5
                  split at h5
                  · cases h5
                  · cases h5; rfl
                · cases h5; rfl
              subst this
              exact ⟨n, o, feeAsset, fee, d, tx1, tx2, pubs, num, bfs, abfs, tb', h1, h2, hlt, h3, h4, hb, hnum, h6, b, h7⟩

theorem signed_amount {c : Bytes} {x : Int} (h : valueToAmount c = .ok x) (hs : ∀ v, c = 1 :: v → beVal v < 2 ^ 63) :
    ∃ v, c = 1 :: v ∧ v.length = 8 ∧ x = beVal v ∧ beVal v < 2 ^ 63 := by
  obtain ⟨v, hv, rfl, hx⟩ := explicitAmount_iff.1 (((C04_value_to_amount c).1 x).1 h)
  have := hs v rfl
  refine ⟨v, rfl, hv, ?_, this⟩
  rw [hx, untwos, if_pos (by omega)]

theorem amount_bytes {n : Nat} {c : Bytes} (hn : n < 2 ^ 63) (h : valueFromAmount (n : Int) = .ok c) : c = 1 :: beBytes 8 n := by
  obtain ⟨v, hv, rfl, hx⟩ := explicitAmount_iff.1 (((C04_value_from_amount _).1 c).1 h)
  have hl := beVal_lt v
  rw [hv] at hl
  unfold untwos at hx
  split at hx
  · have : n = beVal v := by omega
    rw [this, beBytes_beVal hv]
  · omega

/-- What is known about the output is true. -/
theorem describe_ok {E : Env} {a : Args} {n : Nat} {o : TxOut} {d : Desc} (hs : ∀ v, o.nValue = 1 :: v → beVal v < 2 ^ 63)
    (h : describe E a n o = .ok (some d)) :
    DescribedBy E o (a.inputTx.outWit n) d ∧ 0 ≤ d.amount ∧ d.amount < 2 ^ 63 ∧
      (IsExplicitValue o.nValue → d.blinded = false) := by
  unfold describe at h
  by_cases he : confIsExplicit valueKind o.nValue = true
  · rw [if_pos he] at h
    obtain ⟨amount, h1, h⟩ := exc_bind_ok.1 h
    split at h
    · cases h
    · obtain ⟨asset, h2, h⟩ := exc_bind_ok.1 h
      cases h
      obtain ⟨v, v1, v2, rfl, v3⟩ := signed_amount h1 hs
      obtain ⟨a1, a2⟩ := assetToAsset_ok h2
      exact ⟨.plain asset v a1 v1 a2 v2, Int.natCast_nonneg _, by show ((beVal v : Nat) : Int) < _; omega, fun _ => by rfl⟩
  · rw [if_neg he] at h
    obtain ⟨w, h1, h⟩ := exc_bind_ok.1 h
    obtain ⟨r, h2, h⟩ := exc_bind_ok.1 h
    obtain ⟨ro, h3, h⟩ := exc_bind_ok.1 h
    have hw : a.inputTx.outWit n = w := by
      unfold pyGet at h1
      have : ¬ ((n : Int) < 0) := by omega
      simp only [if_neg this, Int.toNat_natCast] at h1
      unfold Tx.outWit
      cases hg : a.inputTx.wit.vtxoutwit[n]? with
      | none => rw [hg] at h1; cases h1
      | some x => rw [hg] at h1; cases h1; rfl
    subst hw
    cases ro with
    | unblindingSuccess asset amount bf abf =>
      cases h
      cases r with
      | failure m =>
        simp only [UnblindResult.obj, unblindingFailureNew] at h3
        obtain ⟨_, -, h3⟩ := exc_bind_ok.1 h3
        cases h3
      | success asset' amount' bf' abf' =>
        have h3' := h3
        simp only [UnblindResult.obj, unblindingSuccessNew] at h3
        split at h3
        · rename_i hm
          cases h3
          refine ⟨.unblinded a.bkey _ _ _ _ _ _ h2 h3' rfl, Int.natCast_nonneg _, ?_, fun hx => absurd (explicitValue_iff.2 hx) he⟩
          have := ((C37_success_iff ..).1 h2).money
          show (amount' : Int) < _
          omega
        · cases h3
    | blindingFailure | unblindingFailure | blindingSuccess => cases h

/-- The transaction before blinding. -/
def plainTx (id : Bytes) (n : Nat) (value asset s : Bytes) (f : TxOut) (extra : List TxOut) : Tx :=
  ⟨2, [{ prevout := ⟨id, n⟩ }],
    { nValue := value, nAsset := asset, scriptPubKey := s } :: { nValue := f.nValue, nAsset := f.nAsset } :: extra, 0, ⟨[{}], [{}, {}]⟩⟩

/-- Everything known at the end of a run. -/
structure Facts (E : Env) (W : World) (a : Args) (t : Tx) (n : Nat) (o f : TxOut) (d : Desc) (fee : Nat) (id s : Bytes)
    (extra : List TxOut) (pubs : List Bytes) (num : Nat) (bfs abfs : List Bytes) (tb : Tx) : Prop where
  first : FirstTo (srcScript W (E.z.pubOf a.key)) a.inputTx.vout n o
  lastFee : LastFee a.inputTx.vout f
  feeValue : f.nValue = 1 :: beBytes 8 fee
  feeSmall : fee < 2 ^ 63
  feeAsset : ∃ fa, f.nAsset = 1 :: fa ∧ fa.length = 32
  known : DescribedBy E o (a.inputTx.outWit n) d
  nonneg : 0 ≤ d.amount
  small : d.amount < 2 ^ 63
  open_ : IsExplicitValue o.nValue → d.blinded = false
  enough : 2 * fee ≤ d.amount.toNat
  asset : d.asset.length = 32
  prev : txid E.h a.inputTx = .ok id
  script : a.dst.toScriptPubKey = .ok s
  dummy : (extra = [] ∧ pubs = [if a.dst.conf then a.dst.blindingPubkey else [], []] ∧ (a.dst.conf = true ∨ IsExplicitValue o.nValue)) ∨
    (extra = [{ nValue := 1 :: beBytes 8 0, nAsset := 1 :: d.asset, scriptPubKey := [0x6a] }] ∧
      pubs = [[], [], E.z.pubOf a.dummy] ∧ a.dst.conf = false ∧ ¬ IsExplicitValue o.nValue ∧ E.z.secValid a.dummy = true)
  blind : blindTransaction E { descs := [d], pubkeys := pubs, rand := a.rand }
    (plainTx id n (1 :: beBytes 8 (d.amount.toNat - fee)) (1 :: d.asset) s f extra) = (.ok (.success num bfs abfs), tb)
  count : num = (pubs.filter (· ≠ [])).length
  sign : signTx E W a o tb = .ok t
  written : ∃ b, serializeTx t = .ok b

theorem facts {E : Env} {W : World} {a : Args} {t : Tx} (hs : AmountsSigned a.inputTx.vout) (h : spend E W a = .ok (some t)) :
    ∃ n o f d fee id s extra pubs num bfs abfs tb, Facts E W a t n o f d fee id s extra pubs num bfs abfs tb := by
  obtain ⟨n, o, feeAsset, fee, d, tx1, tx2, pubs, num, bfs, abfs, tb, h1, h2, h3, h4, h5, h6, h7, h8, h9⟩ := spend_ok h
  obtain ⟨-, s2, -, s4⟩ := scan_ok h1
  obtain ⟨k, hk, hf⟩ := s2 rfl n o rfl
  rw [Nat.zero_add] at hk
  subst hk
  rcases s4 with ⟨s4, -⟩ | ⟨f, x, hl, hv, hx⟩
  · cases s4
  cases hx
  obtain ⟨i, hi, -⟩ := hl.1
  obtain ⟨fv, f1, f2, rfl, f3⟩ := signed_amount hv (hs f (List.mem_of_getElem? hi))
  obtain ⟨d1, d2, d3, d4⟩ := describe_ok (hs o (List.mem_of_getElem? hf.1)) h2
  unfold build at h4
  obtain ⟨id, b1, h4⟩ := exc_bind_ok.1 h4
  obtain ⟨value, b2, h4⟩ := exc_bind_ok.1 h4
  obtain ⟨asset, b3, h4⟩ := exc_bind_ok.1 h4
  obtain ⟨s, b4, h4⟩ := exc_bind_ok.1 h4
  obtain ⟨fv', b5, h4⟩ := exc_bind_ok.1 h4
  cases h4
  have hfv := amount_bytes f3 b5
  have hfv' : f.nValue = 1 :: beBytes 8 (beVal fv) := by
    rw [f1, beBytes_beVal f2]
  have hen : 2 * beVal fv ≤ d.amount.toNat := by omega
  have hval : value = 1 :: beBytes 8 (d.amount.toNat - beVal fv) := by
    refine amount_bytes (by omega) ?_
    rw [show ((d.amount.toNat - beVal fv : Nat) : Int) = d.amount - (beVal fv : Int) by omega, b2]
  have hasset : d.asset.length = 32 := by
    unfold assetFromAsset confNew at b3
    split at b3
    · rename_i hh
      rw [List.length_cons] at hh
      have e1 : assetKind.explicitSize = 33 := rfl
      have e2 : committedSize = 33 := rfl
      omega
    · cases b3
  have hasset' : asset = 1 :: d.asset := by
    have := (C04_asset_recovered.1 d.asset hasset).1
    rw [b3] at this
    exact Except.ok.inj this
  subst hval hasset'
  rw [hfv, ← hfv'] at h5
  unfold addDummy at h5
  dsimp only at h5
  by_cases hc : (!confIsExplicit valueKind o.nValue && !a.dst.conf) = true
  · rw [if_pos hc] at h5
    simp only [Bool.and_eq_true, Bool.not_eq_true'] at hc
    split at h5
    · cases h5
    · rename_i hsec
      simp only [Bool.not_eq_true', Bool.not_eq_false] at hsec
      obtain ⟨z, z1, h5⟩ := exc_bind_ok.1 h5
      obtain ⟨z', z2, h5⟩ := exc_bind_ok.1 h5
      have hz := amount_bytes (n := 0) (by decide) z1
      rw [b3] at z2
      cases z2
      rw [hz] at h5
      cases h5
      refine ⟨n, o, f, d, _, id, s, _, _, num, bfs, abfs, tb, hf, hl, hfv', f3, hl.2.1.2.2, d1, d2, d3, d4, hen, hasset, b1, b4, .inr ⟨rfl, ?_, hc.2, ?_, hsec⟩, h6, h7, h8, h9⟩
      · simp [hc.2]
      · intro hx
        rw [explicitValue_iff.2 hx] at hc
        cases hc.1
  · rw [if_neg hc] at h5
    cases h5
    refine ⟨n, o, f, d, _, id, s, [], _, num, bfs, abfs, tb, hf, hl, hfv', f3, hl.2.1.2.2, d1, d2, d3, d4, hen, hasset, b1, b4, .inl ⟨rfl, rfl, ?_⟩, h6, h7, h8, h9⟩
    by_cases hcf : a.dst.conf = true
    · exact .inl hcf
    · refine .inr (explicitValue_iff.1 ?_)
      simpa [hcf] using hc

theorem Facts.asked {E W a t n o f d fee id s extra pubs num bfs abfs tb}
    (F : Facts E W a t n o f d fee id s extra pubs num bfs abfs tb) :
    OnlyAsked { descs := [d], pubkeys := pubs, rand := a.rand }
      (plainTx id n (1 :: beBytes 8 (d.amount.toNat - fee)) (1 :: d.asset) s f extra) tb := by
  have := C32_only_asked E { descs := [d], pubkeys := pubs, rand := a.rand }
      (plainTx id n (1 :: beBytes 8 (d.amount.toNat - fee)) (1 :: d.asset) s f extra)
  rwa [F.blind] at this

theorem Facts.vin {E W a t n o f d fee id s extra pubs num bfs abfs tb}
    (F : Facts E W a t n o f d fee id s extra pubs num bfs abfs tb) : tb.vin = [{ prevout := ⟨id, n⟩ }] := by
  have h1 := F.asked.inputs
  have h2 := F.asked.amount 0 (by simp)
  have h3 := F.asked.tokens 0 (by simp)
  simp only [plainTx] at h1 h2 h3
  cases hv : tb.vin with
  | nil => rw [hv] at h1; simp at h1
  | cons i l =>
    rw [hv] at h1 h2 h3
    cases l with
    | cons => simp at h1
    | nil =>
      obtain ⟨p, ss, q, ⟨x, e, am, tk⟩, pg⟩ := i
      simp [TxIn.fixed] at h1 h2 h3
      obtain ⟨rfl, rfl, rfl, rfl, rfl, rfl⟩ := h1
      subst h2 h3
      rfl

/-- What signing leaves. -/
theorem signTx_ok {E : Env} {W : World} {a : Args} {o : TxOut} {t tb : Tx} (h : signTx E W a o tb = .ok t) :
    ∃ digest, sighashV0 E.h (signScript W (E.z.pubOf a.key)) tb 0 1 (some o.nValue) = .ok digest ∧
      tb.wit.vtxinwit.length ≠ 0 ∧
      t = { tb with
        vin := tb.vin.modify 0 fun i => { i with scriptSig := CrossSwap.script [.data (innerScript W (E.z.pubOf a.key))] }
        wit := { tb.wit with vtxinwit := tb.wit.vtxinwit.set 0 { scriptWitness :=
          [W.sign a.key digest ++ [1], E.z.pubOf a.key] } } } ∧
      W.verify (CrossSwap.script [.data (innerScript W (E.z.pubOf a.key))]) (srcScript W (E.z.pubOf a.key)) t = .ok () := by
  unfold signTx at h
  obtain ⟨digest, h1, h⟩ := exc_bind_ok.1 h
  dsimp only at h
  split at h
  · cases h
  · rename_i hl
    obtain ⟨_, h2, h⟩ := exc_bind_ok.1 h
    cases h
    unfold sighash at h1
    obtain ⟨ht, e1, h1⟩ := exc_bind_ok.1 h1
    obtain ⟨⟨dd, err⟩, e2, h1⟩ := exc_bind_ok.1 h1
    cases e1
    refine ⟨digest, ?_, fun hx => hl (.inr hx), rfl, h2⟩
    simp only [rawSighash] at e2
    cases e3 : sighashV0 E.h (signScript W (E.z.pubOf a.key)) tb 0 1 (some o.nValue) with
    | error e => rw [show SIGHASH_ALL = 1 from rfl, e3] at e2; cases e2
    | ok x =>
      rw [show SIGHASH_ALL = 1 from rfl, e3] at e2
      cases e2
      cases h1
      rfl

theorem pushData_20 {b : Bytes} (h : b.length = 20) : pushData b = 0x14 :: b := by
  simp [pushData, h]

theorem pushStack_22 {b : Bytes} (h : b.length = 22) : Interp.pushStack (pushData b) = some [b] := by
  have : pushData b = 0x16 :: b := by simp [pushData, h]
  rw [this]
  simp [Interp.pushStack, Interp.parse, Interp.parseFuel, Interp.opAt, Interp.takeData, h, Interp.Op.data?,
    List.take_of_length_le, List.drop_of_length_le]

theorem Facts.signed {E W a t n o f d fee id s extra pubs num bfs abfs tb} (h20 : ∀ b, (W.hash160 b).length = 20)
    (F : Facts E W a t n o f d fee id s extra pubs num bfs abfs tb) :
    SignedNested E.h W.hash160 W.sign a.key (E.z.pubOf a.key) (srcScript W (E.z.pubOf a.key)) o.nValue t := by
  obtain ⟨digest, h1, h2, rfl, -⟩ := signTx_ok F.sign
  have hin : innerScript W (E.z.pubOf a.key) = [0, 0x14] ++ W.hash160 (E.z.pubOf a.key) := by
    simp [innerScript, CrossSwap.script, Elem.bytes, pushData_20 (h20 _)]
  refine ⟨⟨innerScript W (E.z.pubOf a.key), { prevout := ⟨id, n⟩, scriptSig := CrossSwap.script [.data (innerScript W (E.z.pubOf a.key))] }, ?_, ?_, ?_, ?_, ?_⟩, digest, ?_, ?_⟩
  · rw [F.vin]; rfl
  · rw [show CrossSwap.script [.data (innerScript W (E.z.pubOf a.key))] = pushData (innerScript W (E.z.pubOf a.key)) by
      simp [CrossSwap.script, Elem.bytes]]
    exact pushStack_22 (by rw [hin]; simp [h20])
  · simp [srcScript, CrossSwap.script, Elem.bytes, pushData_20 (h20 _)]
  · have : srcScript W (E.z.pubOf a.key) = [0xa9, 0x14] ++ W.hash160 (innerScript W (E.z.pubOf a.key)) ++ [0x87] := by
      simp [srcScript, CrossSwap.script, Elem.bytes, pushData_20 (h20 _)]
    rw [this]
    exact ⟨by simp [h20], by simp, List.getLast?_concat⟩
  · rw [hin]
    simp [Interp.witnessProgram, h20]
  · rw [← h1, show signScript W (E.z.pubOf a.key) = [0x76, 0xa9, 0x14] ++ W.hash160 (E.z.pubOf a.key) ++ [0x88, 0xac] by
      simp [signScript, CrossSwap.script, Elem.bytes, pushData_20 (h20 _)]]
    have := C14_free_script_witness_pegin E.h ([0x76, 0xa9, 0x14] ++ W.hash160 (E.z.pubOf a.key) ++ [0x88, 0xac]) (some o.nValue) 1 tb 0
      (fun _ => CrossSwap.script [.data (innerScript W (E.z.pubOf a.key))]) (fun _ => false)
      { tb.wit with vtxinwit := tb.wit.vtxinwit.set 0 { scriptWitness := [W.sign a.key digest ++ [1], E.z.pubOf a.key] } }
    rw [F.vin] at this ⊢
    exact this
  · unfold Tx.inWit
    rw [List.getElem?_set_self (by omega)]
    rfl

theorem Facts.input_sizes {E W a t n o f d fee id s extra pubs num bfs abfs tb}
    (F : Facts E W a t n o f d fee id s extra pubs num bfs abfs tb) : InputSizes { prevout := ⟨id, n⟩ } := by
  obtain ⟨digest, h1, -⟩ := signTx_ok F.sign
  unfold sighashV0 at h1
  obtain ⟨p, -, h1⟩ := exc_bind_ok.1 h1
  obtain ⟨pre, h1, -⟩ := exc_bind_ok.1 h1
  unfold v0Preimage at h1
  obtain ⟨_, -, h1⟩ := exc_bind_ok.1 h1
  obtain ⟨i, hi, h1⟩ := exc_bind_ok.1 h1
  obtain ⟨_, h1, -⟩ := exc_bind_ok.1 h1
  rw [F.vin] at hi
  cases hi
  unfold serOutPoint at h1
  split at h1
  · cases h1
  · rename_i hl
    obtain ⟨_, h2, -⟩ := exc_bind_ok.1 h1
    exact ⟨by simpa using hl, (packU_ok.1 h2).1, by rfl⟩

theorem Facts.vout {E W a t n o f d fee id s extra pubs num bfs abfs tb}
    (F : Facts E W a t n o f d fee id s extra pubs num bfs abfs tb) :
    t.vout = tb.vout ∧ (∀ j, t.outWit j = tb.outWit j) ∧ t.nVersion = tb.nVersion ∧ t.nLockTime = tb.nLockTime := by
  obtain ⟨digest, h1, h2, rfl, -⟩ := signTx_ok F.sign
  exact ⟨rfl, fun _ => rfl, rfl, rfl⟩

theorem Facts.printed {E W a t n o f d fee id s extra pubs num bfs abfs tb}
    (F : Facts E W a t n o f d fee id s extra pubs num bfs abfs tb) : Printed E W a n o f d fee t := by
  have hA := F.asked
  obtain ⟨v1, v2, v3, v4⟩ := F.vout
  refine ⟨F.known, F.lastFee, ?_, F.enough, ⟨id, F.prev, ?_⟩, ⟨s, F.script, ?_, ?_⟩, ?_, ?_, ?_, F.written⟩
  · rw [F.feeValue]
    have := F.feeSmall
    show beVal (beBytes 8 fee) = fee
    exact beVal_beBytes_of_lt (by omega)
  · obtain ⟨digest, -, -, rfl, -⟩ := signTx_ok F.sign
    rw [F.vin]
    rfl
  · intro hc
    rw [v1, hA.scripts]
    rcases F.dummy with ⟨rfl, -⟩ | ⟨-, -, h1, h2, -⟩
    · rfl
    · rcases hc with hc | hc
      · rw [h1] at hc; cases hc
      · exact absurd hc h2
  · intro h1 h2
    rw [v1, hA.scripts]
    rcases F.dummy with ⟨-, -, hc⟩ | ⟨rfl, -⟩
    · rcases hc with hc | hc
      · rw [h1] at hc; cases hc
      · exact absurd hc h2
    · rfl
  · rw [v1, hA.outputs 1]
    · rfl
    · rcases F.dummy with ⟨-, rfl, -⟩ | ⟨-, rfl, -⟩ <;> rfl
  · intro hc
    have : tb.vout[0]? = _ := hA.outputs 0 (by
      rcases F.dummy with ⟨-, rfl, -⟩ | ⟨-, rfl, -⟩
      · simp [hc]
      · rfl)
    rw [v1, List.getD_eq_getElem?_getD, this]
    exact ⟨rfl, rfl⟩
  · exact ⟨v3.trans hA.version, v4.trans hA.lockTime⟩

/-- C72: a transaction that is printed spends the first output to the key, pays the fee of the
transaction that was read and the rest to the address, and is signed as nodes expect. -/
theorem C72_printed {E : Env} {W : World} {a : Args} {t : Tx} (hs : AmountsSigned a.inputTx.vout)
    (h20 : ∀ b, (W.hash160 b).length = 20) (h : spend E W a = .ok (some t)) :
    ∃ n o f d fee, FirstTo (srcScript W (E.z.pubOf a.key)) a.inputTx.vout n o ∧ Printed E W a n o f d fee t ∧
      SignedNested E.h W.hash160 W.sign a.key (E.z.pubOf a.key) o.scriptPubKey o.nValue t := by
  obtain ⟨n, o, f, d, fee, id, s, extra, pubs, num, bfs, abfs, tb, F⟩ := facts hs h
  refine ⟨n, o, f, d, fee, F.first, F.printed, ?_⟩
  rw [F.first.2.1]
  exact F.signed h20

theorem FirstTo.unique {spk vout n o m p} (h : FirstTo spk vout n o) (h' : FirstTo spk vout m p) : n = m ∧ o = p := by
  obtain ⟨a1, a2, a3⟩ := h
  obtain ⟨b1, b2, b3⟩ := h'
  have : n = m := by
    rcases Nat.lt_trichotomy n m with hlt | heq | hgt
    · exact absurd a2 (b3 n o hlt a1)
    · exact heq
    · exact absurd b2 (a3 m p hgt b1)
  subst this
  rw [a1] at b1
  exact ⟨rfl, Option.some.inj b1⟩

theorem blindingPubkey_ne {a : Addr} (ha : AddrOk a) (hc : a.conf = true) : a.blindingPubkey ≠ [] := by
  intro h
  have := congrArg List.length h
  unfold Addr.blindingPubkey at this
  unfold AddrOk at ha
  rw [if_pos hc] at ha
  simp [ha] at this

/-- C72: an output that hides nothing is never sent to a confidential address. -/
theorem C72_refused {E : Env} {W : World} {a : Args} {n : Nat} {o : TxOut} (hs : AmountsSigned a.inputTx.vout)
    (ha : AddrOk a.dst) (hc : a.dst.conf = true) (hf : FirstTo (srcScript W (E.z.pubOf a.key)) a.inputTx.vout n o)
    (ho : IsExplicitValue o.nValue) (t : Tx) : spend E W a ≠ .ok (some t) := by
  intro h
  obtain ⟨n', o', f, d, fee, id, s, extra, pubs, num, bfs, abfs, tb, F⟩ := facts hs h
  obtain ⟨rfl, rfl⟩ := FirstTo.unique hf F.first
  rcases F.dummy with ⟨-, rfl, -⟩ | ⟨-, -, h1, -⟩
  · refine C33_alone (hst := rfl) ⟨rfl, rfl⟩ ?_ ?_ F.blind
    · rw [if_pos hc]
      simp [askedOutputs, blindingPubkey_ne ha hc]
    · intro d' hd
      simp only [List.mem_cons, List.not_mem_nil, or_false] at hd
      subst hd
      exact F.open_ ho
  · rw [h1] at hc; cases hc

theorem described_cases {E : Env} {o : TxOut} {w : TxOutWitness} {d : Desc} (h : DescribedBy E o w d) :
    (∃ v, o.nValue = 1 :: v ∧ v.length = 8 ∧ o.nAsset = 1 :: d.asset ∧ d.amount = beVal v) ∨
    (IsValueCommitment o.nValue ∧ d.amount.toNat ≤ 21 * 10 ^ 14) := by
  cases h with
  | unblinded key asset amount bf abf r d hu hr hd =>
    have hm := (C37_success_iff ..).1 hu
    simp only [UnblindResult.obj, unblindingSuccessNew] at hr
    split at hr
    · cases hr
      cases hd
      exact .inr ⟨hm.value, hm.money⟩
    · cases hr
  | plain x v hx hv hxl hvl => exact .inl ⟨v, hv, hvl, hx, rfl⟩

/-- C72: the holder of the blinding key of a confidential address learns asset and amount of what
was sent to it, unless blinding left it as it is. -/
theorem C72_recipient {E : Env} {W : World} {a : Args} {t : Tx} {key : Bytes} (Fz : Formats E.z) (R : Rewinds E.z)
    (hs : AmountsSigned a.inputTx.vout) (ha : AddrOk a.dst) (hc : a.dst.conf = true)
    (hk : E.z.secValid key = true) (hp : a.dst.blindingPubkey = E.z.pubOf key) (h : spend E W a = .ok (some t)) :
    ∃ n o f d fee, FirstTo (srcScript W (E.z.pubOf a.key)) a.inputTx.vout n o ∧ Printed E W a n o f d fee t ∧
      ((∃ bf abf, unblind E key (t.vout.getD 0 {}).nValue (t.vout.getD 0 {}).nAsset (t.vout.getD 0 {}).nNonce
          (t.vout.getD 0 {}).scriptPubKey (t.outWit 0).rangeproof = .ok (.success d.asset (d.amount.toNat - fee) bf abf)) ∨
        ((t.vout.getD 0 {}).nValue = 1 :: beBytes 8 (d.amount.toNat - fee) ∧ (t.vout.getD 0 {}).nAsset = 1 :: d.asset)) := by
  obtain ⟨n, o, f, d, fee, id, s, extra, pubs, num, bfs, abfs, tb, F⟩ := facts hs h
  refine ⟨n, o, f, d, fee, F.first, F.printed, ?_⟩
  obtain ⟨v1, v2, -, -⟩ := F.vout
  have hne := blindingPubkey_ne ha hc
  have hmoney : d.amount.toNat ≤ 21 * 10 ^ 14 := by
    rcases described_cases F.known with ⟨v, hv, hvl, -⟩ | ⟨-, hm⟩
    · exact absurd h (C72_refused hs ha hc F.first ⟨v, hv, hvl⟩ t)
    · exact hm
  have hpub : pubs.getD 0 [] = a.dst.blindingPubkey := by
    rcases F.dummy with ⟨-, rfl, -⟩ | ⟨-, -, h1, -⟩
    · simp [hc]
    · rw [h1] at hc; cases hc
  have := C36_strict (j := 0) (key := key) Fz R F.blind rfl
    (by intro i hi; simp only [plainTx, List.mem_cons, List.not_mem_nil, or_false] at hi; subst hi; exact F.input_sizes)
    (hpub.trans hp) hk (by rw [← hp]; exact hne)
  rw [v1, v2]
  rcases this with ⟨asset, v, h1, h2, h3⟩ | ⟨-, h4, -⟩
  · left
    cases h1
    cases h2
    have hb : beVal (beBytes 8 (d.amount.toNat - fee)) = d.amount.toNat - fee := beVal_beBytes_of_lt (by omega)
    rw [hb] at h3
    exact ⟨_, _, h3 (by omega)⟩
  · right
    rw [List.getD_eq_getElem?_getD, h4]
    exact ⟨rfl, rfl⟩

variable {M : Type} [AddCommGroup M] [Module Scalar M]

theorem Facts.amounts {E W a t n o f d fee id s extra pubs num bfs abfs tb}
    (F : Facts E W a t n o f d fee id s extra pubs num bfs abfs tb) (hfee : f.nAsset = 1 :: d.asset) :
    AmountsBalance E { descs := [d], pubkeys := pubs, rand := a.rand }
      (plainTx id n (1 :: beBytes 8 (d.amount.toNat - fee)) (1 :: d.asset) s f extra) := by
  have hsm := F.feeSmall
  have hds := F.small
  have hen := F.enough
  have hext : extra = [] ∨ extra = [{ nValue := 1 :: beBytes 8 0, nAsset := 1 :: d.asset, scriptPubKey := [0x6a] }] := by
    rcases F.dummy with ⟨h, -⟩ | ⟨h, -⟩
    · exact .inl h
    · exact .inr h
  refine ⟨?_, ?_, ?_⟩
  · intro p hp
    simp only [plainTx, List.mem_cons] at hp
    rcases hp with rfl | rfl | hp
    · exact ⟨⟨_, rfl, by simp⟩, ⟨_, rfl, F.asset⟩⟩
    · exact ⟨⟨_, F.feeValue, by simp⟩, ⟨_, hfee, F.asset⟩⟩
    · rcases hext with rfl | rfl
      · cases hp
      · simp only [List.mem_cons, List.not_mem_nil, or_false] at hp
        subst hp
        exact ⟨⟨_, rfl, by simp⟩, ⟨_, rfl, F.asset⟩⟩
  · intro i hi
    simp only [plainTx, List.mem_cons, List.not_mem_nil, or_false] at hi
    subst hi
    exact ⟨.inl rfl, .inl rfl⟩
  · intro x
    have e1 : beVal (beBytes 8 (d.amount.toNat - fee)) = d.amount.toNat - fee := beVal_beBytes_of_lt (by omega)
    have e2 : beVal (beBytes 8 fee) = fee := beVal_beBytes_of_lt (by omega)
    have e3 : beVal (beBytes 8 0) = 0 := beVal_beBytes_of_lt (by decide)
    have hl : total x (spentAmounts [d] ++ issuedAmounts E { descs := [d], pubkeys := pubs, rand := a.rand }
        (plainTx id n (1 :: beBytes 8 (d.amount.toNat - fee)) (1 :: d.asset) s f extra)) = if d.asset = x then d.amount.toNat else 0 := by
      have e3 : ∃ i t, issuedAmounts E { descs := [d], pubkeys := pubs, rand := a.rand }
        (plainTx id n (1 :: beBytes 8 (d.amount.toNat - fee)) (1 :: d.asset) s f extra) = [(i, 0), (t, 0)] := ⟨_, _, rfl⟩
      obtain ⟨i, t, e3⟩ := e3
      rw [e3]
      have hz : ∀ y : Bytes, total y [] = 0 := fun _ => rfl
      simp only [spentAmounts, List.map_cons, List.map_nil, List.cons_append, List.nil_append, Toy.total_cons, hz, ite_self, add_zero]
    have hr : total x (outAmounts (plainTx id n (1 :: beBytes 8 (d.amount.toNat - fee)) (1 :: d.asset) s f extra))
        = if d.asset = x then d.amount.toNat else 0 := by
      have hz : ∀ y : Bytes, total y [] = 0 := fun _ => rfl
      rcases hext with rfl | rfl
      · simp only [outAmounts, plainTx, List.map_cons, List.map_nil, Toy.total_cons, hfee, F.feeValue, amountOf, e1, e2, List.drop_succ_cons,
          List.drop_zero, hz]
        split <;> omega
      · simp only [outAmounts, plainTx, List.map_cons, List.map_nil, Toy.total_cons, hfee, F.feeValue, amountOf, e1, e2, e3, List.drop_succ_cons,
          List.drop_zero, hz]
        split <;> omega
    rw [hl, hr]

theorem Facts.balanced {E W a t n o f d fee id s extra pubs num bfs abfs tb} (Z : WireSizes E.z) (P : Pedersen E.z M) (hP : RewindSound P)
    (ha : AddrOk a.dst) (F : Facts E W a t n o f d fee id s extra pubs num bfs abfs tb) (hfee : f.nAsset = 1 :: d.asset)
    (hcom : a.dst.conf = true → IsValueCommitment (t.vout.getD 0 {}).nValue) : SpendsBalanced P E [o] tb := by
  have hb := F.amounts hfee
  obtain ⟨v1, -⟩ := F.vout
  have hsz : ∀ i ∈ (plainTx id n (1 :: beBytes 8 (d.amount.toNat - fee)) (1 :: d.asset) s f extra).vin, InputSizes i := by
    intro i hi
    simp only [plainTx, List.mem_cons, List.not_mem_nil, or_false] at hi
    subst hi
    exact F.input_sizes
  have hnone : ∀ i token, ({ descs := [d], pubkeys := pubs, rand := a.rand } : BlindArgs).issuanceKey i token = none := by
    intro i token
    cases token <;> simp [BlindArgs.issuanceKey]
  have spend : (∃ j, pubs.getD j [] ≠ []) → (∀ j, pubs.getD j [] ≠ [] → IsValueCommitment (tb.vout.getD j {}).nValue) →
      SpendsBalanced P E [o] tb := by
    intro h1 h2
    have hf : List.Forall₂ (fun (x : TxOut × TxOutWitness) d => DescribedBy E x.1 x.2 d) [(o, a.inputTx.outWit n)] [d] :=
      .cons F.known .nil
    exact C57_spend_partial P hP _ hf F.blind hsz hb
      (fun i token key _ hk => by rw [hnone] at hk; cases hk) (fun i key hk => by rw [hnone] at hk; cases hk) h1 h2
  have hsmall : ∀ d' ∈ [d], d'.amount < 2 ^ 64 := by
    intro d' hd'
    simp only [List.mem_cons, List.not_mem_nil, or_false] at hd'
    subst hd'
    have := F.small
    omega
  rcases F.dummy with ⟨rfl, rfl, hx⟩ | ⟨rfl, rfl, hc, hx, hsec⟩
  · by_cases hc : a.dst.conf = true
    · rw [if_pos hc] at spend
      refine spend ⟨0, blindingPubkey_ne ha hc⟩ ?_
      intro j hj
      have : j = 0 := by
        match j, hj with
        | 0, _ => rfl
        | 1, hj => exact absurd rfl hj
        | j + 2, hj => exact absurd rfl hj
      subst this
      rw [← v1]
      exact hcom hc
    · -- nothing to blind
      have hv : tb.vout = (plainTx id n (1 :: beBytes 8 (d.amount.toNat - fee)) (1 :: d.asset) s f []).vout := by
        apply List.ext_getElem?
        intro j
        refine F.asked.outputs j ?_
        match j with
        | 0 => simp [hc]
        | 1 => rfl
        | j + 2 => rfl
      rcases described_cases F.known with ⟨v, o1, o2, o3, o4⟩ | ⟨hco, -⟩
      · unfold SpendsBalanced
        rw [hv, F.vin]
        have hds := F.small
        have hen := F.enough
        have hsm := F.feeSmall
        have e1 : beVal (beBytes 8 (d.amount.toNat - fee)) = d.amount.toNat - fee := beVal_beBytes_of_lt (by omega)
        have e2 : beVal (beBytes 8 fee) = fee := beVal_beBytes_of_lt (by omega)
        have e3 : beVal v = (d.amount.toNat - fee) + fee := by omega
        simp only [List.map_cons, List.map_nil, List.sum_cons, List.sum_nil, plainTx, Pedersen.outPt, Pedersen.assetPt, o1, o3, hfee,
          F.feeValue, e1, e2, Pedersen.issuancePt, Pedersen.issuedPt, add_zero]
        rw [e3, Nat.cast_add, add_smul]
      · exfalso
        rcases hx with hx | hx
        · exact hc hx
        · obtain ⟨v, hv1, hv2⟩ := hx
          rw [hv1] at hco
          revert hco
          unfold IsValueCommitment
          simp
  · obtain ⟨-, -, hend⟩ := C33_strict F.blind rfl hsz
    have hpub : E.z.pubOf a.dummy ≠ [] := by
      intro hx
      have := Z.pubPrefix _ hsec
      rw [hx] at this
      simp at this
    · cases hend 2 hpub with
      | blinded hbl =>
        refine spend ⟨2, hpub⟩ ?_
        intro j hj
        have : j = 2 := by
          match j, hj with
          | 0, hj => exact absurd rfl hj
          | 1, hj => exact absurd rfl hj
          | 2, _ => rfl
          | j + 3, hj => exact absurd rfl hj
        subst this
        exact hbl.committed
      | zero v _ hu _ _ hv _ =>
        have hk : KeysFine { descs := [d], pubkeys := [[], [], E.z.pubOf a.dummy], rand := a.rand }
            (plainTx id n (1 :: beBytes 8 (d.amount.toNat - fee)) (1 :: d.asset) s f
              [{ nValue := 1 :: beBytes 8 0, nAsset := 1 :: d.asset, scriptPubKey := [0x6a] }]) := by
          refine ⟨?_, ?_, hsmall⟩
          · intro i token key _ hk
            rw [hnone] at hk
            cases hk
          · intro i key hk
            rw [hnone] at hk
            cases hk
        obtain ⟨k, w, hw, he⟩ := C34_zero P F.blind rfl hsz hb hk 2 hpub hu
        cases hw
        have e3 : beVal (beBytes 8 0) = 0 := beVal_beBytes_of_lt (by decide)
        rw [e3, Nat.cast_zero, zero_mul, zero_smul, add_zero] at he
        unfold SpendsBalanced
        simp only [List.map_cons, List.map_nil] at he ⊢
        rw [C57_opening P hP F.known]
        exact he

/-- C72: if the fee was paid in the asset that is spent, what goes in equals what comes out, as
group elements.  Missing from the full statement: the fee asset is not compared with the asset of the
output that is spent, and blinding may leave the output to a confidential address as it is (C34). -/
theorem C72_balanced_partial {E : Env} {W : World} {a : Args} {t : Tx} (Z : WireSizes E.z) (P : Pedersen E.z M) (hP : RewindSound P)
    (hs : AmountsSigned a.inputTx.vout) (ha : AddrOk a.dst) (h : spend E W a = .ok (some t)) :
    ∃ n o f d fee, FirstTo (srcScript W (E.z.pubOf a.key)) a.inputTx.vout n o ∧ Printed E W a n o f d fee t ∧
      (f.nAsset = 1 :: d.asset → (a.dst.conf = true → IsValueCommitment (t.vout.getD 0 {}).nValue) → SpendsBalanced P E [o] t) := by
  obtain ⟨n, o, f, d, fee, id, s, extra, pubs, num, bfs, abfs, tb, F⟩ := facts hs h
  refine ⟨n, o, f, d, fee, F.first, F.printed, ?_⟩
  intro hfee hcom
  obtain ⟨v1, -⟩ := F.vout
  have hiss : (t.vin.map fun i => P.issuancePt E i.confidential i).sum = (tb.vin.map fun i => P.issuancePt E i.confidential i).sum := by
    obtain ⟨digest, -, -, rfl, -⟩ := signTx_ok F.sign
    rw [F.vin]
    rfl
  have done : SpendsBalanced P E [o] tb → SpendsBalanced P E [o] t := by
    intro hx
    unfold SpendsBalanced at hx ⊢
    rw [hiss, v1]
    exact hx
  exact done (F.balanced Z P hP ha hfee hcom)

/-- C72, the full statement: whatever is printed balances. -/
def C72_statement : Prop := ∀ (M : Type) [AddCommGroup M] [Module Scalar M] (E : Env) (W : World) (a : Args) (t : Tx)
    (P : Pedersen E.z M), WireSizes E.z → RewindSound P → AmountsSigned a.inputTx.vout → AddrOk a.dst →
  spend E W a = .ok (some t) →
  ∃ n o, FirstTo (srcScript W (E.z.pubOf a.key)) a.inputTx.vout n o ∧ SpendsBalanced P E [o] t

namespace Toy
open Verif.Toy

/-- A hash that keeps the first twenty bytes, and signatures that show the key. -/
def W : World := ⟨fun b => (b ++ List.replicate 20 0).take 20, fun k d => k ++ d, fun _ _ _ => .ok ()⟩

theorem W_20 (b : Bytes) : (W.hash160 b).length = 20 := by simp [W]

def src : Bytes := srcScript W (Verif.Toy.pub 1)
def dst : Addr := ⟨.elements, .p2pkh, false, List.replicate 20 7⟩
def confDst : Addr := ⟨.elements, .p2pkh, true, Verif.Toy.pub 7 ++ List.replicate 20 7⟩

theorem dst_ok : AddrOk dst := by unfold AddrOk; decide
theorem confDst_ok : AddrOk confDst := by unfold AddrOk; decide

/-- Ten of asset 5 in the clear, with a fee of one. -/
def openIn (feeAsset : Nat) : Tx :=
  ⟨2, [{ prevout := ⟨b32 9, 0⟩ }], [{ nAsset := ast 4, nValue := amt 3, scriptPubKey := [0x51] },
    { nAsset := ast 5, nValue := amt 10, scriptPubKey := src }, { nAsset := ast feeAsset, nValue := amt 1 }], 0, {}⟩

/-- Eight of asset 5, hidden, with a fee of one. -/
@[irreducible] def hiddenIn : Tx :=
  (blindTransaction env { descs := [⟨b32 5, 11, b32 3, b32 4⟩], pubkeys := [Verif.Toy.pub 3, Verif.Toy.pub 4, []], rand := fun k => b32 (k + 5) }
    ⟨2, [{ prevout := ⟨b32 9, 0⟩ }], [{ nAsset := ast 5, nValue := amt 8, scriptPubKey := src },
      { nAsset := ast 5, nValue := amt 2, scriptPubKey := [0x51] }, { nAsset := ast 5, nValue := amt 1 }], 0, ⟨[{}], [{}, {}, {}]⟩⟩).2

def args (inputTx : Tx) (d : Addr) : Args := ⟨inputTx, b32 1, b32 3, d, b32 30, fun k => b32 (k + 40)⟩

/-- Marker and length of the amounts of the printed transaction. -/
def heads (x : Except PyErr (Option Tx)) : Option (List (Option UInt8 × Nat)) :=
  match x with
  | .ok (some t) => some (t.vout.map fun o => (o.nValue.head?, o.nValue.length))
  | _ => none

theorem printed_of {x : Except PyErr (Option Tx)} {l} (h : heads x = some l) :
    ∃ t, x = .ok (some t) ∧ t.vout.map (fun o => (o.nValue.head?, o.nValue.length)) = l := by
  unfold heads at h
  split at h
  · exact ⟨_, rfl, Option.some.inj h⟩
  · cases h

theorem signed_of {l : List TxOut} (h : ∀ o ∈ l, o.nValue.head? = some 1 → beVal (o.nValue.drop 1) < 2 ^ 63) : AmountsSigned l := by
  intro o ho v hv
  have := h o ho (by rw [hv]; rfl)
  rwa [hv] at this

theorem openIn_signed (a : Nat) : AmountsSigned (openIn a).vout := by
  apply signed_of
  intro o ho
  simp only [openIn, List.mem_cons, List.not_mem_nil, or_false] at ho
  rcases ho with rfl | rfl | rfl <;> intro _
  · exact (by decide : beVal (beBytes 8 3) < 2 ^ 63)
  · exact (by decide : beVal (beBytes 8 10) < 2 ^ 63)
  · exact (by decide : beVal (beBytes 8 1) < 2 ^ 63)
theorem hiddenIn_signed : AmountsSigned hiddenIn.vout := signed_of (by decide +kernel)

theorem open_plain : heads (spend env W (args (openIn 5) dst)) = some [(some 1, 9), (some 1, 9)] := by decide +kernel
theorem hidden_plain : heads (spend env W (args hiddenIn dst)) = some [(some 1, 9), (some 1, 9), (some 8, 33)] := by decide +kernel
theorem hidden_conf : heads (spend env W (args hiddenIn confDst)) = some [(some 8, 33), (some 1, 9)] := by decide +kernel
theorem open_conf : heads (spend env W (args (openIn 5) confDst)) = none := by decide +kernel

end Toy

/-- C72 fails as stated: ten of one asset spent in nine of it and one of another, the fee asset. -/
theorem C72_statement_false : ¬ C72_statement := by
  intro h
  obtain ⟨t, ht, -⟩ := Toy.printed_of (x := spend Verif.Toy.env Toy.W (Toy.args (Toy.openIn 6) Toy.dst)) (l := [(some 1, 9), (some 1, 9)])
    (by decide +kernel)
  obtain ⟨n, o, hf, hb⟩ := h Scalar Verif.Toy.env Toy.W _ t Verif.Toy.pedersen Verif.Toy.wireSizes Verif.Toy.rewindSound
    (Toy.openIn_signed 6) Toy.dst_ok ht
  have hf' : FirstTo (srcScript Toy.W (Verif.Toy.env.z.pubOf (Toy.args (Toy.openIn 6) Toy.dst).key)) (Toy.openIn 6).vout 1
      { nAsset := Verif.Toy.ast 5, nValue := Verif.Toy.amt 10, scriptPubKey := Toy.src } := by
    refine ⟨rfl, rfl, ?_⟩
    intro m p hm hp
    have : m = 0 := by omega
    subst this
    cases hp
    decide
  obtain ⟨-, rfl⟩ := FirstTo.unique hf hf'
  have : t = (match spend Verif.Toy.env Toy.W (Toy.args (Toy.openIn 6) Toy.dst) with | .ok (some t) => t | _ => default) := by
    rw [ht]
  rw [this] at hb
  revert hb
  unfold SpendsBalanced
  decide +kernel

/-- C72 holds of something: a clear output to a plain address, a hidden one to a plain address and
to a confidential one, all balanced; and a refusal. -/
example : ∃ t, spend Verif.Toy.env Toy.W (Toy.args Toy.hiddenIn Toy.confDst) = .ok (some t) ∧
    IsValueCommitment (t.vout.getD 0 {}).nValue := by
  obtain ⟨t, h1, h2⟩ := Toy.printed_of Toy.hidden_conf
  refine ⟨t, h1, ?_⟩
  cases hv : t.vout with
  | nil => rw [hv] at h2; cases h2
  | cons x l =>
    rw [hv] at h2
    exact commitment_of_head (List.cons.inj h2).1
example : ∃ t, spend Verif.Toy.env Toy.W (Toy.args Toy.hiddenIn Toy.dst) = .ok (some t) :=
  (Toy.printed_of Toy.hidden_plain).imp fun _ h => h.1
example : ∃ t, spend Verif.Toy.env Toy.W (Toy.args (Toy.openIn 5) Toy.dst) = .ok (some t) :=
  (Toy.printed_of Toy.open_plain).imp fun _ h => h.1
example : AmountsSigned Toy.hiddenIn.vout ∧ AddrOk Toy.confDst ∧ Toy.confDst.blindingPubkey = Verif.Toy.env.z.pubOf (Verif.Toy.b32 7) ∧
    Verif.Toy.env.z.secValid (Verif.Toy.b32 7) = true :=
  ⟨Toy.hiddenIn_signed, Toy.confDst_ok, by decide, by decide⟩
example (t : Tx) : spend Verif.Toy.env Toy.W (Toy.args (Toy.openIn 5) Toy.confDst) ≠ .ok (some t) := by
  intro h
  have := Toy.open_conf
  rw [h] at this
  cases this

end SpendAddr

end Verif
