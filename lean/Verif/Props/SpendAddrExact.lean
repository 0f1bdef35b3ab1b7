import Verif.Props.SpendAddr
/-
C72, exactly: when what the spending example prints balances.
-/
namespace Verif.SpendAddr
open Verif Spec

variable {M : Type} [AddCommGroup M] [Module Scalar M]

theorem iff_of_sums {x y p q r u : M} (h : x + p = q + r + y) (hq : p = q + u) : y = x ↔ r = u := by
  subst hq
  constructor
  · intro e
    subst e
    have : q + u + y = q + r + y := by rw [← h]; abel
    have := add_right_cancel this
    exact (add_left_cancel this).symm
  · rintro rfl
    have : x + (q + r) = y + (q + r) := by rw [h]; abel
    exact (add_right_cancel this).symm

/-- C72, exactly: if all that was to be hidden is hidden, what goes in equals what comes out if and only if the fee is worth the same in
the asset of the fee as in the asset that is spent. -/
theorem C72_exact {E : Env} {W : World} {a : Args} {t : Tx} (Z : WireSizes E.z) (P : Pedersen E.z M) (hP : RewindSound P)
    (hs : AmountsSigned a.inputTx.vout) (ha : AddrOk a.dst) (h : spend E W a = .ok (some t)) :
    ∃ n o f d fee, FirstTo (srcScript W (E.z.pubOf a.key)) a.inputTx.vout n o ∧ Printed E W a n o f d fee t ∧
      ((a.dst.conf = true → IsValueCommitment (t.vout.getD 0 {}).nValue) →
        (a.dst.conf = false → ¬ IsExplicitValue o.nValue → IsValueCommitment (t.vout.getD 2 {}).nValue) →
        (SpendsBalanced P E [o] t ↔ (fee : Scalar) • P.H (f.nAsset.drop 1) = (fee : Scalar) • P.H d.asset)) := by
  obtain ⟨n, o, f, d, fee, id, s, extra, pubs, num, bfs, abfs, tb, F⟩ := facts hs h
  refine ⟨n, o, f, d, fee, F.first, F.printed, ?_⟩
  intro hcom hcom2
  obtain ⟨v1, -⟩ := F.vout
  obtain ⟨fa, hfa, -⟩ := F.feeAsset
  have hi0 : (tb.vin.map fun i => P.issuancePt E i.confidential i).sum = 0 := by
    rw [F.vin]
    simp [Pedersen.issuancePt, Pedersen.issuedPt]
  have hiss : (t.vin.map fun i => P.issuancePt E i.confidential i).sum = 0 := by
    rw [← hi0]
    obtain ⟨digest, -, -, rfl, -⟩ := signTx_ok F.sign
    rw [F.vin]
    rfl
  have hds := F.small
  have hen := F.enough
  have hsm := F.feeSmall
  have e1 : beVal (beBytes 8 (d.amount.toNat - fee)) = d.amount.toNat - fee := beVal_beBytes_of_lt (by omega)
  have e2 : beVal (beBytes 8 fee) = fee := beVal_beBytes_of_lt (by omega)
  have e0 : beVal (beBytes 8 0) = 0 := beVal_beBytes_of_lt (by decide)
  have hplain : ((plainTx id n (1 :: beBytes 8 (d.amount.toNat - fee)) (1 :: d.asset) s f extra).vout.map P.outPt).sum
      = ((d.amount.toNat - fee : Nat) : Scalar) • P.H d.asset + (fee : Scalar) • P.H (f.nAsset.drop 1) := by
    rcases F.dummy with ⟨rfl, -⟩ | ⟨rfl, -⟩ <;>
    simp [plainTx, Pedersen.outPt, Pedersen.assetPt, hfa, F.feeValue, e1, e2, e0]
  have hsplit : (d.amount.toNat : Scalar) • P.H d.asset
      = ((d.amount.toNat - fee : Nat) : Scalar) • P.H d.asset + (fee : Scalar) • P.H d.asset := by
    rw [← add_smul, ← Nat.cast_add, Nat.sub_add_cancel (by omega)]
  have goal : (P.outPt o = (tb.vout.map P.outPt).sum ↔ (fee : Scalar) • P.H (f.nAsset.drop 1) = (fee : Scalar) • P.H d.asset) →
      (SpendsBalanced P E [o] t ↔ (fee : Scalar) • P.H (f.nAsset.drop 1) = (fee : Scalar) • P.H d.asset) := by
    intro hx
    unfold SpendsBalanced
    rw [hiss, v1, add_zero]
    simpa using hx
  apply goal
  have hsz : ∀ i ∈ (plainTx id n (1 :: beBytes 8 (d.amount.toNat - fee)) (1 :: d.asset) s f extra).vin, InputSizes i := by
    intro i hi
    simp only [plainTx, List.mem_cons, List.not_mem_nil, or_false] at hi
    subst hi
    exact F.input_sizes
  have hk : KeysFine { descs := [d], pubkeys := pubs, rand := a.rand }
      (plainTx id n (1 :: beBytes 8 (d.amount.toNat - fee)) (1 :: d.asset) s f extra) := by
    have hnone : ∀ i token, ({ descs := [d], pubkeys := pubs, rand := a.rand } : BlindArgs).issuanceKey i token = none := by
      intro i token
      cases token <;> simp [BlindArgs.issuanceKey]
    refine ⟨?_, ?_, ?_⟩
    · intro i token key _ hk
      rw [hnone] at hk
      cases hk
    · intro i key hk
      rw [hnone] at hk
      cases hk
    · intro d' hd'
      simp only [List.mem_cons, List.not_mem_nil, or_false] at hd'
      subst hd'
      omega
  have hidden : (∃ j, pubs.getD j [] ≠ []) → (∀ j, pubs.getD j [] ≠ [] → IsValueCommitment (tb.vout.getD j {}).nValue) →
      (P.outPt o = (tb.vout.map P.outPt).sum ↔ (fee : Scalar) • P.H (f.nAsset.drop 1) = (fee : Scalar) • P.H d.asset) := by
    intro h1 h2
    have key := C34_preserved P F.blind hsz hk h1 h2
    have k1 : P.plainPt [d] = (d.amount.toNat : Scalar) • P.H d.asset := by simp [Pedersen.plainPt, spentAmounts]
    have k2 : P.issuedSum E (confAfter { descs := [d], pubkeys := pubs, rand := a.rand }
        (plainTx id n (1 :: beBytes 8 (d.amount.toNat - fee)) (1 :: d.asset) s f extra))
        (plainTx id n (1 :: beBytes 8 (d.amount.toNat - fee)) (1 :: d.asset) s f extra).vin = 0 := by
      simp [plainTx, Pedersen.issuedSum, Pedersen.issuancePt, Pedersen.issuedPt]
    simp only [k1, k2, hi0, hplain, add_zero, List.map_cons, List.map_nil, List.sum_cons, List.sum_nil] at key
    rw [C57_opening P hP F.known]
    exact iff_of_sums key hsplit
  rcases F.dummy with ⟨hex, hpubs, hx⟩ | ⟨hex, hpubs, hc, hx, hsec⟩
  · by_cases hc : a.dst.conf = true
    · rw [if_pos hc] at hpubs
      refine hidden ⟨0, by rw [hpubs]; exact blindingPubkey_ne ha hc⟩ ?_
      intro j hj
      rw [hpubs] at hj
      have : j = 0 := by
        match j, hj with
        | 0, _ => rfl
        | 1, hj => exact absurd rfl hj
        | j + 2, hj => exact absurd rfl hj
      subst this
      rw [← v1]
      exact hcom hc
    · have hv : tb.vout = (plainTx id n (1 :: beBytes 8 (d.amount.toNat - fee)) (1 :: d.asset) s f extra).vout := by
        apply List.ext_getElem?
        intro j
        refine F.asked.outputs j ?_
        show pubs.getD j [] = []
        rw [hpubs]
        match j with
        | 0 => simp [hc]
        | 1 => rfl
        | j + 2 => rfl
      rcases described_cases F.known with ⟨v, o1, o2, o3, o4⟩ | ⟨hco, -⟩
      · have e3 : beVal v = d.amount.toNat := by omega
        have ho : P.outPt o = (d.amount.toNat : Scalar) • P.H d.asset := by
          simp [Pedersen.outPt, Pedersen.assetPt, o1, o3, e3]
        rw [hv, hplain, ho, hsplit, add_right_inj]
        exact eq_comm
      · exfalso
        rcases hx with hx | hx
        · exact hc hx
        · obtain ⟨v, hv1, hv2⟩ := hx
          rw [hv1] at hco
          revert hco
          unfold IsValueCommitment
          simp
  · refine hidden ?_ ?_
    · refine ⟨2, ?_⟩
      rw [hpubs]
      intro hx
      have := Z.pubPrefix _ hsec
      rw [show E.z.pubOf a.dummy = [] from hx] at this
      simp at this
    · intro j hj
      rw [hpubs] at hj
      have : j = 2 := by
        match j, hj with
        | 0, hj => exact absurd rfl hj
        | 1, hj => exact absurd rfl hj
        | 2, _ => rfl
        | j + 3, hj => exact absurd rfl hj
      subst this
      rw [← v1]
      exact hcom2 hc hx

theorem Toy.first (x : Nat) : FirstTo (srcScript Toy.W (Verif.Toy.env.z.pubOf (Toy.args (Toy.openIn x) Toy.dst).key)) (Toy.openIn x).vout 1
    { nAsset := Verif.Toy.ast 5, nValue := Verif.Toy.amt 10, scriptPubKey := Toy.src } := by
  refine ⟨rfl, rfl, ?_⟩
  intro m p hm hp
  have : m = 0 := by omega
  subst this
  cases hp
  show ([0x51] : Bytes) ≠ Toy.src
  decide

/-- Ten of asset 5 spent with a fee of one in asset `x`: whether it balances is a question about asset 5 and the asset of the fee. -/
example (x : Nat) (hx : x = 5 ∨ x = 6) : ∃ t fee f d, spend Verif.Toy.env Toy.W (Toy.args (Toy.openIn x) Toy.dst) = .ok (some t) ∧
    Printed Verif.Toy.env Toy.W (Toy.args (Toy.openIn x) Toy.dst) 1
      { nAsset := Verif.Toy.ast 5, nValue := Verif.Toy.amt 10, scriptPubKey := Toy.src } f d fee t ∧
    (SpendsBalanced Verif.Toy.pedersen Verif.Toy.env [{ nAsset := Verif.Toy.ast 5, nValue := Verif.Toy.amt 10, scriptPubKey := Toy.src }] t ↔
      (fee : Scalar) • Verif.Toy.pedersen.H (f.nAsset.drop 1) = (fee : Scalar) • Verif.Toy.pedersen.H d.asset) := by
  have hh : Toy.heads (spend Verif.Toy.env Toy.W (Toy.args (Toy.openIn x) Toy.dst)) = some [(some 1, 9), (some 1, 9)] := by
    rcases hx with rfl | rfl <;> decide +kernel
  obtain ⟨t, ht, -⟩ := Toy.printed_of hh
  obtain ⟨n, o, f, d, fee, h1, h2, h3⟩ := C72_exact Verif.Toy.wireSizes Verif.Toy.pedersen Verif.Toy.rewindSound (Toy.openIn_signed x) Toy.dst_ok ht
  obtain ⟨rfl, rfl⟩ := FirstTo.unique h1 (Toy.first x)
  exact ⟨t, fee, f, d, ht, h2, h3 (fun hc => by cases hc) (fun _ hn => absurd ⟨beBytes 8 10, rfl, by simp⟩ hn)⟩

end Verif.SpendAddr
