import Verif.Spec.UnblindEx
import Verif.Props.Unblind
import Verif.Props.BlindUnblind
import Verif.Props.Wallet
import Verif.Props.SpendAddr
import Verif.Props.Results
/-
C74: the unblinding example tells the right things about all outputs, up to the first one it cannot tell about.
-/
namespace Verif.UnblindEx
open Verif

/-- Why something does not open is always said. -/
theorem failure_says {E : Env} {key cv ca cn script proof : Bytes} {m : String}
    (h : unblind E key cv ca cn script proof = .ok (.failure m)) : m ≠ "" := by
  unfold unblind at h
  split at h
  · cases h; decide
  obtain ⟨x, hx, h⟩ := exc_bind_ok.1 h
  cases x with
  | none => cases h; decide
  | some x =>
    obtain ⟨nonce, scr⟩ := x
    replace h : unblindWith E.z nonce scr cv ca proof = .ok (.failure m) := h
    unfold unblindWith at h
    split at h
    · cases h; decide
    obtain ⟨og, hog, h⟩ := exc_bind_ok.1 h
    cases og with
    | none => cases h; unfold noGenerator; split <;> decide
    | some g =>
      replace h : unblindRewind E.z nonce scr cv proof g = .ok (.failure m) := h
      unfold unblindRewind at h
      split at h
      · cases h; decide
      · split at h
        · cases h; decide
        · unfold unblindCheck at h
          split at h
          · cases h; decide
          · split at h
            · cases h; decide
            · split at h
              · cases h; decide
              · unfold unblindFinish at h
                obtain ⟨_, _, h⟩ := exc_bind_ok.1 h
                obtain ⟨_, _, h⟩ := exc_bind_ok.1 h
                split at h
                · cases h; decide
                · obtain ⟨_, _, h⟩ := exc_bind_ok.1 h
                  obtain ⟨_, _, h⟩ := exc_bind_ok.1 h
                  obtain ⟨_, _, h⟩ := exc_bind_ok.1 h
                  cases h

/-- With a steady library and a key, unblinding ends. -/
theorem unblind_ends {E : Env} {key : Bytes} (hs : Steady E.z) (hk : E.z.secValid key = true) (cv ca cn script proof : Bytes) :
    ∃ r, unblind E key cv ca cn script proof = .ok r := by
  unfold unblind
  split
  · exact ⟨_, rfl⟩
  obtain ⟨x, hx⟩ : ∃ x, unblindNonce E key cn script = .ok x := by
    unfold unblindNonce
    split
    · split
      · exact ⟨_, rfl⟩
      · rename_i hv
        obtain ⟨s, e⟩ := hs.agree key cn hk (fullyValid_iff.1 (by simpa using hv)).2
        exact ⟨_, by rw [e]; rfl⟩
    · exact ⟨_, rfl⟩
  rw [hx]
  cases x with
  | none => exact ⟨_, rfl⟩
  | some x =>
    obtain ⟨nonce, scr⟩ := x
    show ∃ r, unblindWith E.z nonce scr cv ca proof = .ok r
    unfold unblindWith
    split
    · exact ⟨_, rfl⟩
    obtain ⟨og, hog⟩ : ∃ og, observedGen E.z ca = .ok og := by
      unfold observedGen
      split
      · exact ⟨_, rfl⟩
      · split
        · rename_i he
          obtain ⟨b, rfl, hb⟩ := explicitAsset_iff.1 he
          exact ⟨E.z.generate b, by simp [assetToAsset, he, assetNew, hb, bind, Except.bind, pure, Except.pure]⟩
        · exact ⟨_, rfl⟩
    rw [hog]
    cases og with
    | none => exact ⟨_, rfl⟩
    | some g =>
      have hg : g.length = 64 := by
        cases observedGen_ok.1 hog with
        | commitment _ _ h => exact E.z.genParse_len _ _ h
        | explicit _ _ _ _ h => exact E.z.generate_len _ _ h
        | nothing => simp
      show ∃ r, unblindRewind E.z nonce scr cv proof g = .ok r
      unfold unblindRewind
      split
      · exact ⟨_, rfl⟩
      · split
        · exact ⟨_, rfl⟩
        · rename_i hrw
          have hl := E.z.rangeRewind_len _ _ _ _ _ _ hrw
          unfold unblindCheck
          split
          · exact ⟨_, rfl⟩
          · split
            · exact ⟨_, rfl⟩
            · rename_i hm
              split
              · exact ⟨_, rfl⟩
              · rename_i r hr
                obtain ⟨s1, e1⟩ := hs.written g hg
                obtain ⟨s2, e2⟩ := hs.written r (E.z.generateBlinded_len _ _ _ hr)
                unfold unblindFinish
                rw [e1, e2]
                by_cases hss : s1 = s2
                · simp only at hl
                  have e1 : ∀ b : Bytes, b.length = 32 → uint256New b = .ok b := fun b hb => uint256New_ok.2 ⟨hb, rfl⟩
                  have e2 : ∀ b : Bytes, b.length = 32 → assetNew b = .ok b := fun b hb => by simp [assetNew, hb]
                  simp only [orRuntime, bind, Except.bind, hss, ne_eq, not_true_eq_false, if_false]
                  rw [e1 _ hl.1, e1 _ (by simp; omega), e2 _ (by simp; omega)]
                  exact ⟨_, rfl⟩
                · exact ⟨.failure "generator recalculated after rangeproof rewind does not match generator presented in asset commitment", by
                    simp [orRuntime, bind, Except.bind, hss, pure, Except.pure]⟩

theorem andThen_ok {p q : Printer} {ls : List Line} :
    Printer.andThen p q = (ls, .ok ()) ↔ ∃ l1 l2, p = (l1, .ok ()) ∧ q = (l2, .ok ()) ∧ ls = l1 ++ l2 := by
  obtain ⟨p1, p2⟩ := p
  obtain ⟨q1, q2⟩ := q
  unfold Printer.andThen
  cases p2 with
  | ok u =>
    cases u
    constructor
    · intro h; cases h; exact ⟨_, _, rfl, rfl, rfl⟩
    · rintro ⟨l1, l2, h1, h2, rfl⟩; cases h1; cases h2; rfl
  | error e =>
    constructor
    · intro h; cases h
    · rintro ⟨l1, l2, h1, _⟩; cases h1

theorem sayThen_ok {α : Type} {l : List Line} {x : Except PyErr α} {f : α → Printer} {ls : List Line} :
    sayThen l x f = (ls, .ok ()) ↔ ∃ a l2, x = .ok a ∧ f a = (l2, .ok ()) ∧ ls = l ++ l2 := by
  unfold sayThen
  cases x with
  | ok a =>
    simp only [andThen_ok]
    constructor
    · rintro ⟨l1, l2, h1, h2, rfl⟩; cases h1; exact ⟨a, l2, rfl, h2, rfl⟩
    · rintro ⟨b, l2, h1, h2, rfl⟩; cases h1; exact ⟨l, l2, rfl, h2, rfl⟩
  | error e =>
    constructor
    · intro h; cases h
    · rintro ⟨a, l2, h, _⟩; cases h

theorem coins_ok {v w : Int} : satoshiToCoins v = .ok w ↔ w = v ∧ 0 ≤ v ∧ v ≤ 21 * 10 ^ 14 := by
  unfold satoshiToCoins moneyRangeInt
  by_cases h : 0 ≤ v ∧ v ≤ 2100000000000000
  · rw [if_pos (by simpa using h)]
    constructor
    · intro e; cases e; exact ⟨rfl, h.1, by norm_num; exact h.2⟩
    · rintro ⟨rfl, _⟩; rfl
  · rw [if_neg (by simpa using h)]
    constructor
    · intro e; cases e
    · rintro ⟨_, h1, h2⟩; exact absurd ⟨h1, by norm_num at h2; exact h2⟩ h

theorem amount_shown {v : Bytes} (hv : v.length = 8) {w : Int} :
    (do let x ← valueToAmount (1 :: v); satoshiToCoins x) = .ok w ↔ w = beVal v ∧ beVal v ≤ 21 * 10 ^ 14 := by
  have he : confIsExplicit valueKind (1 :: v) = true := explicitValue_iff.2 ⟨v, rfl, hv⟩
  have hlt : beVal v < 256 ^ 8 := by have := beVal_lt v; rwa [hv] at this
  have e : valueToAmount (1 :: v) = .ok (untwos 8 (beVal v)) := by simp [valueToAmount, he]
  rw [e]
  show satoshiToCoins _ = _ ↔ _
  rw [coins_ok]
  unfold untwos
  norm_num at hlt ⊢
  split <;> omega

theorem explicitRest_ok {v a : Bytes} {o : TxOut} {ls : List Line} (h1 : o.nValue = 1 :: v) (h2 : v.length = 8) (h3 : o.nAsset = 1 :: a)
    (h4 : a.length = 32) : explicitRest o = (ls, .ok ()) ↔ beVal v ≤ 21 * 10 ^ 14 ∧ ls = [.amount (beVal v), .asset a] := by
  have he : confIsExplicit assetKind (1 :: a) = true := explicitAsset_iff.2 ⟨a, rfl, h4⟩
  have ea : assetToAsset (1 :: a) = .ok a := by simp [assetToAsset, he, assetNew, h4]
  unfold explicitRest
  rw [h1, h3, sayThen_ok]
  constructor
  · rintro ⟨w, l2, e, h, rfl⟩
    obtain ⟨rfl, hle⟩ := (amount_shown h2).1 e
    obtain ⟨a', l3, e', h, rfl⟩ := sayThen_ok.1 h
    rw [ea] at e'
    cases e'
    cases h
    exact ⟨hle, rfl⟩
  · rintro ⟨hle, rfl⟩
    exact ⟨_, _, (amount_shown h2).2 ⟨rfl, hle⟩, sayThen_ok.2 ⟨a, _, ea, rfl, rfl⟩, rfl⟩

theorem fee_script {o : TxOut} (h1 : IsExplicitValue o.nValue) (h2 : IsExplicitAsset o.nAsset) : o.isFee = true ↔ o.scriptPubKey = [] := by
  unfold TxOut.isFee
  rw [explicitValue_iff.2 h1, explicitAsset_iff.2 h2]
  simp

section
variable {E : Env} {W : World} {key : Bytes} {tx : Tx} {n : Nat} {o : TxOut} {ls : List Line}

theorem explicitOut_ok {v : Bytes} (hv : o.nValue = 1 :: v) (hl : v.length = 8) : explicitOut W n o = (ls, .ok ()) ↔
    ∃ a, o.nAsset = 1 :: a ∧ a.length = 32 ∧ beVal v ≤ 21 * 10 ^ 14 ∧
      ((o.scriptPubKey = [] ∧ ls = [.fee n, .amount (beVal v), .asset a]) ∨
        (o.scriptPubKey ≠ [] ∧ ∃ ad, W.address o.scriptPubKey = .ok ad ∧ ls = [.explicit n, .destination ad, .amount (beVal v), .asset a])) := by
  unfold explicitOut
  by_cases ha : IsExplicitAsset o.nAsset
  · rw [if_neg (by simp [explicitAsset_iff.2 ha])]
    have hfee := fee_script ⟨v, hv, hl⟩ ha
    obtain ⟨a, ha, hal⟩ := ha
    by_cases hs : o.scriptPubKey = []
    · rw [if_pos (hfee.2 hs), andThen_ok]
      constructor
      · rintro ⟨l1, l2, h1, h2, rfl⟩
        cases h1
        obtain ⟨hle, rfl⟩ := (explicitRest_ok hv hl ha hal).1 h2
        exact ⟨a, ha, hal, hle, .inl ⟨hs, rfl⟩⟩
      · rintro ⟨a', e, _, hle, (⟨_, rfl⟩ | ⟨h, _⟩)⟩
        · rw [ha] at e
          cases e
          exact ⟨_, _, rfl, (explicitRest_ok hv hl ha hal).2 ⟨hle, rfl⟩, rfl⟩
        · exact absurd hs h
    · rw [if_neg (fun h => hs (hfee.1 h)), sayThen_ok]
      constructor
      · rintro ⟨ad, l2, h1, h2, rfl⟩
        obtain ⟨k1, k2, h4, h3, rfl⟩ := andThen_ok.1 h2
        cases h4
        obtain ⟨hle, rfl⟩ := (explicitRest_ok hv hl ha hal).1 h3
        exact ⟨a, ha, hal, hle, .inr ⟨hs, ad, h1, rfl⟩⟩
      · rintro ⟨a', e, _, hle, (⟨h, _⟩ | ⟨_, ad, h1, rfl⟩)⟩
        · exact absurd h hs
        · rw [ha] at e
          cases e
          exact ⟨ad, _, h1, andThen_ok.2 ⟨_, _, rfl, (explicitRest_ok hv hl ha hal).2 ⟨hle, rfl⟩, rfl⟩, rfl⟩
  · rw [if_pos (by simpa using fun h => ha (explicitAsset_iff.1 h))]
    constructor
    · intro h; cases h
    · rintro ⟨a, h1, h2, _⟩; exact absurd ⟨a, h1, h2⟩ ha

theorem info_told (W : World) (tx : Tx) (proof : Bytes) : InfoTold W tx proof (infoLines W tx proof) := by
  unfold infoLines
  split
  · rename_i h; exact .nothing (.inr h)
  · rename_i h
    split
    · rename_i h'; exact .nothing (.inl h')
    · rename_i h'; exact .told _ _ _ _ h' (by simpa using h)

/-- The address with the key. -/
theorem conf_ok (hw : AddressesFine W) (hk : GoodKey E.z key) {ad ca : Addr} {s : Bytes} (ha : W.address s = .ok ad) :
    fromUnconfidential (fullyValid E.z) W.chain (.general W.chain) ad (E.z.pubOf key) = .ok ca ↔
      ca.conf = true ∧ ca.kind = ad.kind ∧ ca.chain = ad.chain ∧ ca.payload = E.z.pubOf key ++ ad.payload := by
  obtain ⟨h1, h2, h3, -⟩ := hw s ad ha
  have hne : E.z.pubOf key ≠ [] := fun h => by have := hk.size; rw [h] at this; cases this
  have hv : fullyValid E.z (E.z.pubOf key) = true := fullyValid_iff.2 ⟨hne, hk.pub⟩
  obtain ⟨c, k, f, p⟩ := ad
  cases h1
  cases h2
  have e : fromUnconfidential (fullyValid E.z) W.chain (.general W.chain) ⟨W.chain, k, false, p⟩ (E.z.pubOf key)
      = .ok ⟨W.chain, k, true, E.z.pubOf key ++ p⟩ := by
    rw [fromUnconfidential, if_neg (by simp [hv]), if_neg (by simp [ConfClass.chain])]
    show fromUnconfLoop (ConfClass.chain (.general W.chain)) _ _ _ _ = _
    rw [loop_eq _ _ _ _ rfl]
    show addrFromBytes _ _ _ _ = _
    rw [addrFromBytes_iff]
    refine ⟨rfl, ?_⟩
    have h3 : p.length = k.dataLen := h3
    simp only [AddrOk, if_true, List.length_append, hk.size]
    omega
  rw [e]
  constructor
  · intro h; cases h; exact ⟨rfl, rfl, rfl, rfl⟩
  · rintro ⟨e1, e2, e3, e4⟩
    obtain ⟨c', k', f', p'⟩ := ca
    cases e1; cases e2; cases e3; cases e4
    rfl

theorem obj_success {a bf abf : Bytes} {v : Nat} (h : v ≤ 21 * 10 ^ 14) :
    (UnblindResult.success a v bf abf).obj = .ok (.unblindingSuccess a v bf abf) := by
  have hr : moneyRangeInt (v : Int) = true := by
    unfold moneyRangeInt
    norm_num at h
    simp
    omega
  simp only [UnblindResult.obj, unblindingSuccessNew, hr, if_true]

theorem obj_failure {m : String} (h : m ≠ "") : (UnblindResult.failure m).obj = .ok (.unblindingFailure m) := by
  have ht : strTruth m = true := (strTruth_iff m).2 h
  simp [UnblindResult.obj, unblindingFailureNew, failureInit, ht, Except.map]

theorem openedOut_ok (hw : AddressesFine W) (hk : GoodKey E.z key) {asset bf abf : Bytes} {amount : Nat} (hm : amount ≤ 21 * 10 ^ 14) :
    openedOut E W key n o asset amount bf abf = (ls, .ok ()) ↔ ∃ ad ca, W.address o.scriptPubKey = .ok ad ∧
      ca.conf = true ∧ ca.kind = ad.kind ∧ ca.chain = ad.chain ∧ ca.payload = E.z.pubOf key ++ ad.payload ∧
      ls = [.unblinded n, .destinations, .confidential ca, .unconfidential ad, .amount amount, .blindingFactor bf,
        .asset asset, .assetBlindingFactor abf] := by
  have hc : satoshiToCoins (amount : Int) = .ok (amount : Int) := coins_ok.2 ⟨rfl, by omega, by exact_mod_cast hm⟩
  unfold openedOut
  rw [sayThen_ok]
  constructor
  · rintro ⟨ad, l2, h1, h2, rfl⟩
    obtain ⟨ca, l3, h5, h6, rfl⟩ := sayThen_ok.1 h2
    obtain ⟨v, l4, h3, h4, rfl⟩ := sayThen_ok.1 h6
    rw [hc] at h3
    cases h3
    cases h4
    obtain ⟨g1, g2, g3, g4⟩ := (conf_ok hw hk h1).1 h5
    exact ⟨ad, ca, h1, g1, g2, g3, g4, rfl⟩
  · rintro ⟨ad, ca, h1, g1, g2, g3, g4, rfl⟩
    exact ⟨ad, _, h1, sayThen_ok.2 ⟨ca, _, (conf_ok hw hk h1).2 ⟨g1, g2, g3, g4⟩, sayThen_ok.2 ⟨_, _, hc, rfl, rfl⟩, rfl⟩, rfl⟩

theorem pyGet_nat {α : Type} {l : List α} {n : Nat} {x : α} : pyGet l (n : Int) = .ok x ↔ l[n]? = some x := by
  unfold pyGet
  rw [if_neg (by omega : ¬ ((n : Int) < 0))]
  dsimp only
  rw [if_neg (by omega : ¬ ((n : Int) < 0)), Int.toNat_natCast]
  cases l[n]? <;> simp

theorem hiddenOut_told (hw : AddressesFine W) (hk : GoodKey E.z key) (hv : ¬ IsExplicitValue o.nValue)
    (h : hiddenOut E W key tx n o = (ls, .ok ())) : Told E W key tx n o (ls ++ [.empty]) := by
  unfold hiddenOut at h
  obtain ⟨w, l2, h1, h2, rfl⟩ := sayThen_ok.1 h
  obtain ⟨r, l3, h3, h4, rfl⟩ := sayThen_ok.1 h2
  obtain ⟨u, h5, h6⟩ := exc_bind_ok.1 h3
  have hwit := pyGet_nat.1 h1
  cases u with
  | success a v bf abf =>
    have hO := (C37_success_iff ..).1 h5
    rw [obj_success hO.money] at h6
    cases h6
    have ht : strTruth "" = false := by decide
    simp only [ResultObj.error, ht, Bool.false_eq_true, if_false] at h4
    obtain ⟨ad, ca, g0, g1, g2, g3, g4, rfl⟩ := (openedOut_ok hw hk hO.money).1 h4
    exact .opened w a v bf abf ad ca hwit hO g0 g1 g2 g3 g4
  | failure m =>
    have hne := failure_says h5
    have ht : strTruth m = true := (strTruth_iff m).2 hne
    rw [obj_failure hne] at h6
    cases h6
    simp only [ResultObj.error, ht, if_true] at h4
    obtain ⟨ad, l4, h7, h8, rfl⟩ := sayThen_ok.1 h4
    cases h8
    refine .closed w m ad _ hv hwit hne ?_ h7 (info_told ..)
    intro a v bf abf hO
    rw [(C37_success_iff ..).2 hO] at h5
    cases h5

theorem hiddenOut_ends (hs : Steady E.z) (hw : AddressesFine W) (hk : GoodKey E.z key) {ad : Addr}
    (hn : n < tx.wit.vtxoutwit.length) (ha : W.address o.scriptPubKey = .ok ad) :
    ∃ ls, hiddenOut E W key tx n o = (ls, .ok ()) := by
  obtain ⟨u, hu⟩ := unblind_ends hs hk.valid o.nValue o.nAsset o.nNonce o.scriptPubKey (tx.wit.vtxoutwit[n]).rangeproof
  have hget : pyGet tx.wit.vtxoutwit (n : Int) = .ok tx.wit.vtxoutwit[n] := pyGet_nat.2 (List.getElem?_eq_getElem hn)
  unfold hiddenOut
  cases u with
  | success a v bf abf =>
    have hO := (C37_success_iff ..).1 hu
    obtain ⟨ca, hca⟩ : ∃ ca : Addr, ca.conf = true ∧ ca.kind = ad.kind ∧ ca.chain = ad.chain ∧ ca.payload = E.z.pubOf key ++ ad.payload :=
      ⟨⟨ad.chain, ad.kind, true, _⟩, rfl, rfl, rfl, rfl⟩
    exact ⟨_, sayThen_ok.2 ⟨_, _, hget, sayThen_ok.2 ⟨_, _, exc_bind_ok.2 ⟨_, hu, obj_success hO.money⟩,
      (openedOut_ok hw hk hO.money).2 ⟨ad, ca, ha, hca.1, hca.2.1, hca.2.2.1, hca.2.2.2, rfl⟩, rfl⟩, rfl⟩⟩
  | failure m =>
    have ht : strTruth m = true := (strTruth_iff m).2 (failure_says hu)
    have hi : ∃ l, (if strTruth m = true then sayThen [.cannot n m] (W.address o.scriptPubKey) fun ad =>
        (.destination ad :: infoLines W tx (tx.wit.vtxoutwit[n]).rangeproof, .ok ()) else ([], .error .assertion))
        = ((l, .ok ()) : Printer) := by
      rw [if_pos ht]
      exact ⟨_, sayThen_ok.2 ⟨ad, _, ha, rfl, rfl⟩⟩
    obtain ⟨l, hi⟩ := hi
    exact ⟨_, sayThen_ok.2 ⟨_, _, hget, sayThen_ok.2 ⟨_, l, exc_bind_ok.2 ⟨_, hu, obj_failure (failure_says hu)⟩, hi, rfl⟩, rfl⟩⟩

theorem output_told (hw : AddressesFine W) (hk : GoodKey E.z key) (h : output E W key tx n o = (ls, .ok ())) :
    Told E W key tx n o ls := by
  unfold output at h
  obtain ⟨l1, l2, h1, h2, rfl⟩ := andThen_ok.1 h
  cases h2
  by_cases hv : IsExplicitValue o.nValue
  · rw [if_pos (explicitValue_iff.2 hv)] at h1
    obtain ⟨v, hv, hl⟩ := hv
    obtain ⟨a, g1, g2, g3, (⟨g4, rfl⟩ | ⟨g4, ad, g5, rfl⟩)⟩ := (explicitOut_ok hv hl).1 h1
    · exact .fee v a hv hl g1 g2 g4 g3
    · exact .explicit v a ad hv hl g1 g2 g4 g5 g3
  · rw [if_neg (fun e => hv (explicitValue_iff.1 e))] at h1
    exact hiddenOut_told hw hk hv h1

theorem commitment_hidden {c : Bytes} (h : IsValueCommitment c) : ¬ IsExplicitValue c := by
  obtain ⟨b, hb | hb, -⟩ := h <;> rintro ⟨v, hv, -⟩ <;> rw [hb] at hv <;> cases hv

theorem Told.reportable (h : Told E W key tx n o ls) : Reportable W tx n o := by
  cases h with
  | fee v a h1 h2 h3 h4 h5 h6 => exact .inl ⟨v, h1, h2, h6, ⟨a, h3, h4⟩, .inl h5⟩
  | explicit v a ad h1 h2 h3 h4 h5 h6 h7 => exact .inl ⟨v, h1, h2, h7, ⟨a, h3, h4⟩, .inr ⟨ad, h6⟩⟩
  | opened w asset amount bf abf ad ca h1 h2 h3 =>
    exact .inr ⟨commitment_hidden h2.value, (List.getElem?_eq_some_iff.1 h1).1, ad, h3⟩
  | closed w e ad l h1 h2 h3 h4 h5 => exact .inr ⟨h1, (List.getElem?_eq_some_iff.1 h2).1, ad, h5⟩

theorem output_ends (hs : Steady E.z) (hw : AddressesFine W) (hk : GoodKey E.z key) (h : Reportable W tx n o) :
    ∃ ls, output E W key tx n o = (ls, .ok ()) := by
  unfold output
  rcases h with ⟨v, h1, h2, h3, ⟨a, h4, h5⟩, h6⟩ | ⟨h1, h2, ad, h3⟩
  · rw [if_pos (explicitValue_iff.2 ⟨v, h1, h2⟩)]
    by_cases hsc : o.scriptPubKey = []
    · exact ⟨_, andThen_ok.2 ⟨_, _, (explicitOut_ok h1 h2).2 ⟨a, h4, h5, h3, .inl ⟨hsc, rfl⟩⟩, rfl, rfl⟩⟩
    · obtain ⟨ad, h6⟩ := h6.resolve_left hsc
      exact ⟨_, andThen_ok.2 ⟨_, _, (explicitOut_ok h1 h2).2 ⟨a, h4, h5, h3, .inr ⟨hsc, ad, h6, rfl⟩⟩, rfl, rfl⟩⟩
  · rw [if_neg (fun e => h1 (explicitValue_iff.1 e))]
    obtain ⟨l, hl⟩ := hiddenOut_ends hs hw hk h2 h3
    exact ⟨_, andThen_ok.2 ⟨_, _, hl, rfl, rfl⟩⟩

/-- The loop: the right lines about the outputs up to the first one the script cannot tell about. -/
theorem outputs_told (hs : Steady E.z) (hw : AddressesFine W) (hk : GoodKey E.z key) : ∀ (os : List TxOut) (n : Nat),
    ∃ (Ls : List (List Line)) (rest : List Line), (outputs E W key tx n os).1 = Ls.flatten ++ rest ∧
      (∀ k l o, Ls[k]? = some l → os[k]? = some o → Told E W key tx (n + k) o l) ∧
      ((Ls.length = os.length ∧ rest = [] ∧ (outputs E W key tx n os).2 = .ok ()) ∨
        ∃ o e, os[Ls.length]? = some o ∧ ¬ Reportable W tx (n + Ls.length) o ∧ (outputs E W key tx n os).2 = .error e)
  | [], n => ⟨[], [], rfl, by simp, .inl ⟨rfl, rfl, rfl⟩⟩
  | o :: os, n => by
    by_cases hr : Reportable W tx n o
    · obtain ⟨l, hl⟩ := output_ends hs hw hk hr
      obtain ⟨Ls, rest, h1, h2, h3⟩ := outputs_told hs hw hk os (n + 1)
      have e : outputs E W key tx n (o :: os) = (l ++ (outputs E W key tx (n + 1) os).1, (outputs E W key tx (n + 1) os).2) := by
        rw [outputs, hl]
        rfl
      refine ⟨l :: Ls, rest, by rw [e, h1]; simp, ?_, ?_⟩
      · rintro (_ | k) l' o' g1 g2
        · cases g1; cases g2
          exact output_told hw hk hl
        · rw [show n + (k + 1) = n + 1 + k by omega]
          exact h2 k l' o' (by simpa using g1) (by simpa using g2)
      · rcases h3 with ⟨g1, g2, g3⟩ | ⟨o', e', g1, g2, g3⟩
        · exact .inl ⟨by simp [g1], g2, by rw [e]; exact g3⟩
        · refine .inr ⟨o', e', by simpa using g1, ?_, by rw [e]; exact g3⟩
          rw [List.length_cons, show n + (Ls.length + 1) = n + 1 + Ls.length by omega]
          exact g2
    · have hne : ∀ l, output E W key tx n o ≠ (l, .ok ()) := fun l h => hr (output_told hw hk h).reportable
      obtain ⟨l, x, hx⟩ : ∃ l x, output E W key tx n o = (l, x) := ⟨_, _, rfl⟩
      cases x with
      | ok u => exact absurd hx (hne l)
      | error e =>
        have e' : outputs E W key tx n (o :: os) = (l, .error e) := by
          rw [outputs, hx]
          rfl
        exact ⟨[], l, by rw [e']; rfl, by simp, .inr ⟨o, e, rfl, hr, by rw [e']⟩⟩

/-- C74.  What is printed is an empty line and then, output by output, the right lines, until the end or until an
exception is raised at the first output the script cannot tell about. -/
theorem C74_told_partial (hs : Steady E.z) (hw : AddressesFine W) (hk : GoodKey E.z key) :
    ∃ (Ls : List (List Line)) (rest : List Line), (report E W key tx).1 = .empty :: (Ls.flatten ++ rest) ∧
      (∀ k l o, Ls[k]? = some l → tx.vout[k]? = some o → Told E W key tx k o l) ∧
      ((Ls.length = tx.vout.length ∧ rest = [] ∧ (report E W key tx).2 = .ok ()) ∨
        ∃ o e, tx.vout[Ls.length]? = some o ∧ ¬ Reportable W tx Ls.length o ∧ (report E W key tx).2 = .error e) := by
  obtain ⟨Ls, rest, h1, h2, h3⟩ := outputs_told (E := E) (W := W) (key := key) (tx := tx) hs hw hk tx.vout 0
  refine ⟨Ls, rest, ?_, ?_, ?_⟩
  · rw [← h1]; rfl
  · intro k l o g1 g2
    have := h2 k l o g1 g2
    rwa [Nat.zero_add] at this
  · rwa [Nat.zero_add] at h3

/-- C74: all outputs are told about exactly if the script can tell about each of them. -/
theorem C74_ends_partial (hs : Steady E.z) (hw : AddressesFine W) (hk : GoodKey E.z key) :
    (report E W key tx).2 = .ok () ↔ ∀ n o, tx.vout[n]? = some o → Reportable W tx n o := by
  obtain ⟨Ls, rest, h1, h2, h3⟩ := C74_told_partial (E := E) (W := W) (key := key) (tx := tx) hs hw hk
  constructor
  · intro h n o hn
    rcases h3 with ⟨g1, -, -⟩ | ⟨_, e, -, -, g⟩
    · have hlt : n < Ls.length := by rw [g1]; exact (List.getElem?_eq_some_iff.1 hn).1
      exact (h2 n _ o (List.getElem?_eq_getElem hlt) hn).reportable
    · rw [h] at g; cases g
  · intro h
    rcases h3 with ⟨-, -, g⟩ | ⟨o, e, g1, g2, -⟩
    · exact g
    · exact absurd (h _ _ g1) g2

/-- C74: the holder of the blinding key is told asset and amount of what was blinded for it, and the factors. -/
theorem C74_recipient {A : BlindArgs} {tx' : Tx} {num : Nat} {bfs abfs : List Bytes} {j : Nat} (F : Formats E.z) (R : Rewinds E.z)
    (hk : GoodKey E.z key) (h : blindTransaction E A tx = (.ok (.success num bfs abfs), tx')) (hj : A.pubkeys.getD j [] = E.z.pubOf key)
    (hp : (tx'.outWit j).rangeproof ≠ []) (ht : Told E W key tx' j (tx'.vout.getD j {}) ls) :
    ∃ asset v, (tx.vout.getD j {}).nAsset = 1 :: asset ∧ (tx.vout.getD j {}).nValue = 1 :: v ∧ (beVal v ≤ 21 * 10 ^ 14 →
      ∃ ad ca, W.address (tx.vout.getD j {}).scriptPubKey = .ok ad ∧
        ls = [.unblinded j, .destinations, .confidential ca, .unconfidential ad, .amount (beVal v), .blindingFactor (bfs.getD j []),
          .asset asset, .assetBlindingFactor (abfs.getD j []), .empty]) := by
  have hne : E.z.pubOf key ≠ [] := fun h => by have := hk.size; rw [h] at this; cases this
  obtain ⟨asset, v, h1, h2, -, -, h5⟩ := C36_unblinds F R h hj hk.valid hp hne
  refine ⟨asset, v, h1, h2, fun hm => ?_⟩
  have hO := (C37_success_iff ..).1 (h5 hm)
  have hs : (tx'.vout.getD j {}).scriptPubKey = (tx.vout.getD j {}).scriptPubKey := by
    have := (C32_only_asked E A tx).scripts
    rw [h] at this
    have := congrArg (fun l : List Bytes => l.getD j []) this
    simp only [List.getD_eq_getElem?_getD, List.getElem?_map] at this
    rw [List.getD_eq_getElem?_getD, List.getD_eq_getElem?_getD]
    revert this
    cases tx'.vout[j]? <;> cases tx.vout[j]? <;> simp
  have hnv := commitment_hidden hO.value
  cases ht with
  | fee v' a e1 e2 => exact absurd ⟨v', e1, e2⟩ hnv
  | explicit v' a ad e1 e2 => exact absurd ⟨v', e1, e2⟩ hnv
  | opened w asset' amount bf abf ad ca e1 e2 e3 =>
    have hw : tx'.outWit j = w := by simp [Tx.outWit, e1]
    rw [← hw] at e2
    have := (C37_success_iff ..).2 e2
    rw [h5 hm] at this
    cases this
    exact ⟨ad, ca, by rw [← hs]; exact e3, rfl⟩
  | closed w e ad l e1 e2 e3 e4 =>
    have hw : tx'.outWit j = w := by simp [Tx.outWit, e2]
    rw [hw] at hO
    exact absurd hO (e4 _ _ _ _)

end

/-- The full claim: with a key and a library that works, every output with an explicit amount there can be, or with a
witness, is told about. -/
def C74_statement : Prop :=
  ∀ (E : Env) (W : World) (key : Bytes) (tx : Tx), Steady E.z → AddressesFine W → GoodKey E.z key →
    (∀ n o, tx.vout[n]? = some o → IsExplicitAsset o.nAsset ∧ (∃ v, o.nValue = 1 :: v ∧ v.length = 8 ∧ beVal v ≤ 21 * 10 ^ 14) ∨
      (¬ IsExplicitValue o.nValue ∧ n < tx.wit.vtxoutwit.length)) →
    (report E W key tx).2 = .ok ()

namespace Toy

/-- A world that knows addresses of one kind. -/
def world : World where
  chain := .elements
  address s := if s.length = 22 ∧ s.take 2 = [0, 0x14] then .ok ⟨.elements, .p2wpkh, false, s.drop 2⟩ else .error .address
  info _ := none

theorem addressesFine : AddressesFine world := by
  intro s a h
  simp only [world] at h
  split at h
  · rename_i hs
    cases h
    refine ⟨rfl, rfl, by simp [hs.1, Kind.dataLen], ?_⟩
    show Except.ok ([0x00, 0x14] ++ s.drop 2) = Except.ok s
    rw [← hs.2, List.take_append_drop]
  · cases h

theorem steady : Steady Toy.env.z where
  written g hg := by
    show ∃ s, Toy.genSer g = some s
    unfold Toy.genSer
    split
    · exact ⟨_, rfl⟩
    · exact ⟨_, rfl⟩
  agree k pk _ _ := ⟨_, rfl⟩

theorem goodKey : GoodKey Toy.env.z (Toy.b32 3) := ⟨by decide, by decide, by decide⟩

def lock : Bytes := [0, 0x14] ++ List.replicate 20 7

/-- Data that cannot be spent, then a payment. -/
def dataTx : Tx :=
  ⟨2, [], [{ nAsset := Toy.ast 5, nValue := Toy.amt 0, scriptPubKey := [0x6a] },
    { nAsset := Toy.ast 5, nValue := Toy.amt 3, scriptPubKey := lock }], 0, {}⟩

/-- A hidden payment to the key, one to another key, a fee. -/
def hiddenTx : Tx :=
  let t := Toy.tx [(5, 3), (5, 4), (5, 1)]
  let t := { t with vout := t.vout.zipIdx.map fun x => { x.1 with scriptPubKey := if x.2 = 2 then [] else lock } }
  let A : BlindArgs := { descs := [⟨Toy.b32 5, 8, Toy.b32 3, Toy.b32 4⟩], pubkeys := [Toy.pub 3, Toy.pub 4]
                         rand := fun k => Toy.b32 (k + 5) }
  (blindTransaction Toy.env A t).2

end Toy

/-- It is false: data that cannot be spent has no address, and the payment behind it is not told about. -/
theorem C74_statement_false : ¬ C74_statement := by
  intro h
  have := h Verif.Toy.env Toy.world (Verif.Toy.b32 3) Toy.dataTx Toy.steady Toy.addressesFine Toy.goodKey (by
    rintro (_ | _ | n) o hn
    · cases hn
      exact .inl ⟨⟨_, rfl, by decide⟩, _, rfl, by decide, by decide⟩
    · cases hn
      exact .inl ⟨⟨_, rfl, by decide⟩, _, rfl, by decide, by decide⟩
    · cases hn)
  revert this
  decide +kernel

example : report Verif.Toy.env Toy.world (Verif.Toy.b32 3) Toy.dataTx = ([.empty, .explicit 0], .error .address) := by decide +kernel

/-- With one key, one payment is opened, the other is not. -/
example : (report Verif.Toy.env Toy.world (Verif.Toy.b32 3) Toy.hiddenTx).2 = .ok () ∧
    (report Verif.Toy.env Toy.world (Verif.Toy.b32 3) Toy.hiddenTx).1.take 10 =
      [.empty, .unblinded 0, .destinations,
        .confidential ⟨.elements, .p2wpkh, true, Verif.Toy.pub 3 ++ List.replicate 20 7⟩,
        .unconfidential ⟨.elements, .p2wpkh, false, List.replicate 20 7⟩, .amount 3, .blindingFactor (Verif.Toy.b32 5),
        .asset (Verif.Toy.b32 5), .assetBlindingFactor (Verif.Toy.b32 6), .empty] ∧
    (report Verif.Toy.env Toy.world (Verif.Toy.b32 3) Toy.hiddenTx).1.getLast? = some .empty := by decide +kernel

end Verif.UnblindEx
