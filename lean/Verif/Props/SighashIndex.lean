import Verif.Props.SighashLayout
/-
C51: input indices outside the transaction.
-/
namespace Verif
open Spec

/-- C51 as one would want it: an index outside the transaction is refused. -/
def C51_statement : Prop :=
  ∀ (h : HashFn) (script : Bytes) (tx : Tx) (idx : Int) (ht : Nat) (amount : Option Bytes) (sv : SigVersion),
    (idx < 0 ∨ tx.vin.length ≤ idx) → ∃ e, sighash h script tx idx ht amount sv = .error e

theorem pyGet_high {α : Type} {l : List α} {i : Int} (h : l.length ≤ i) : pyGet l i = .error .indexError := by
  unfold pyGet
  rw [if_neg (by omega), if_neg (by omega)]
  have : l[i.toNat]? = none := List.getElem?_eq_none (by omega)
  simp [this]

theorem pyGet_low {α : Type} {l : List α} {i : Int} (h : i < -(l.length : Int)) : pyGet l i = .error .indexError := by
  unfold pyGet
  simp only
  rw [if_pos (show i < 0 by omega), if_pos (by omega)]

theorem pyGet_neg {α : Type} {l : List α} {k : Nat} (h1 : 1 ≤ k) (h2 : k ≤ l.length) :
    pyGet l (-(k : Int)) = pyGet l ((l.length - k : Nat) : Int) := by
  unfold pyGet
  have : -(k : Int) + l.length = ((l.length - k : Nat) : Int) := by omega
  simp only [if_pos (show -(k : Int) < 0 by omega), this, if_neg (show ¬ ((l.length - k : Nat) : Int) < 0 by omega)]

theorem sighashV0_noinput (h : HashFn) (script : Bytes) (tx : Tx) (idx : Int) (ht : Nat) (amount : Option Bytes)
    (hi : pyGet tx.vin idx = .error .indexError) (d : Bytes) : sighashV0 h script tx idx ht amount ≠ .ok d := by
  intro e
  cases amount with
  | none => cases e
  | some a =>
    obtain ⟨p, pre, _, hpre, _⟩ := sighashV0_ok.1 e
    obtain ⟨v, i, o, s, q, l, t, _, h2, _⟩ := v0Preimage_ok.1 hpre
    rw [hi] at h2; cases h2

/-- C51 for indices from the number of inputs on, and below minus that number.  Missing:
small negative indices, which Python counts from the end (`C51_statement_false`). -/
theorem C51_range_partial (h : HashFn) (script : Bytes) (tx : Tx) (idx : Int) (ht : Nat) (amount : Option Bytes)
    (sv : SigVersion) (hi : (tx.vin.length : Int) ≤ idx ∨ idx < -(tx.vin.length : Int)) :
    ∃ e, sighash h script tx idx ht amount sv = .error e := by
  have hg : pyGet tx.vin idx = .error .indexError := by
    rcases hi with hi | hi
    · exact pyGet_high hi
    · exact pyGet_low hi
  cases hr : sighash h script tx idx ht amount sv with
  | error e => exact ⟨e, rfl⟩
  | ok d =>
    exfalso
    unfold sighash at hr
    cases ht' : sighashTypeNew ht with
    | error e => rw [ht'] at hr; cases hr
    | ok t =>
      rw [ht', ok_bind] at hr
      cases hrs : rawSighash h script tx idx t amount sv with
      | error e => rw [hrs] at hr; cases hr
      | ok r =>
        rw [hrs, ok_bind] at hr
        cases sv with
        | base =>
          unfold rawSighash sighashBase at hrs
          by_cases hge : idx ≥ tx.vin.length
          · simp only [if_pos hge] at hrs
            cases hrs
            cases hr
          · simp only [if_neg hge, hg, error_bind] at hrs
            cases hrs
        | witnessV0 =>
          have hrs : (sighashV0 h script tx idx t amount).map (·, false) = .ok r := hrs
          rw [Except.map_ok] at hrs
          obtain ⟨x, hx, _⟩ := hrs
          exact sighashV0_noinput h script tx idx t amount hg x hx
        | taproot => cases hrs
        | tapscript => cases hrs

theorem v0Preimage_neg (h : HashFn) (script : Bytes) (tx : Tx) (ht : Nat) (amount : Bytes) (p : V0Parts) {k : Nat}
    (h1 : 1 ≤ k) (h2 : k ≤ tx.vin.length) :
    v0Preimage h script tx (-(k : Int)) ht amount p = v0Preimage h script tx ((tx.vin.length - k : Nat) : Int) ht amount p := by
  unfold v0Preimage
  rw [pyGet_neg h1 h2]

/-- C51: index −k of a segwit v0 hash means the k-th input from the end, unless the type is
SINGLE. -/
theorem C51_negative_alias (h : HashFn) (script : Bytes) (tx : Tx) (ht : Nat) (amount : Option Bytes) {k : Nat}
    (h1 : 1 ≤ k) (h2 : k ≤ tx.vin.length) (hs : ¬ OutSingle ht) :
    rawSighash h script tx (-(k : Int)) ht amount .witnessV0 =
      rawSighash h script tx ((tx.vin.length - k : Nat) : Int) ht amount .witnessV0 := by
  have ho : ∀ i j, v0Outputs tx i ht = v0Outputs tx j ht := by
    intro i j
    unfold v0Outputs
    simp only [(not_true_iff_false htSingle_iff).2 hs, Bool.not_false, Bool.true_and, Bool.false_and, Bool.false_eq_true,
      if_false]
  have hp : v0Parts tx (-(k : Int)) ht = v0Parts tx ((tx.vin.length - k : Nat) : Int) ht := by
    unfold v0Parts
    rw [ho (-(k : Int)) ((tx.vin.length - k : Nat) : Int)]
  show (sighashV0 h script tx (-(k : Int)) ht amount).map (·, false) =
    (sighashV0 h script tx ((tx.vin.length - k : Nat) : Int) ht amount).map (·, false)
  cases amount with
  | none => rfl
  | some a =>
    unfold sighashV0
    simp only [hp, v0Preimage_neg h script tx ht a _ h1 h2]

theorem v0Outputs_one {tx : Tx} {i : Int} {ht : Nat} (hs : OutSingle ht) (hi : i < tx.vout.length) :
    v0Outputs tx i ht = pyGet tx.vout i >>= fun o => (serTxOut o).map some := by
  unfold v0Outputs
  rw [if_neg (by simp [htSingle_iff.2 hs]), if_pos (by simp [htSingle_iff.2 hs, hi])]

/-- C51: under SINGLE, index −k signs the k-th input from the end with the k-th *output* from
the end, the hash of which is the one of a transaction whose outputs are shifted. -/
theorem C51_negative_single (h : HashFn) (script : Bytes) (tx : Tx) (ht : Nat) (amount : Option Bytes) {k : Nat}
    (h1 : 1 ≤ k) (h2 : k ≤ tx.vin.length) (h3 : k ≤ tx.vout.length) (hs : OutSingle ht) (vout : List TxOut)
    (hv : vout[tx.vin.length - k]? = tx.vout[tx.vout.length - k]?) :
    rawSighash h script tx (-(k : Int)) ht amount .witnessV0 =
      rawSighash h script { tx with vout := vout } ((tx.vin.length - k : Nat) : Int) ht amount .witnessV0 := by
  have hg : tx.vout[tx.vout.length - k]? = some (tx.vout[tx.vout.length - k]'(by omega)) :=
    List.getElem?_eq_getElem (by omega)
  have hl : tx.vin.length - k < vout.length := by
    rw [hg] at hv
    exact (List.getElem?_eq_some_iff.1 hv).1
  have ho : v0Outputs tx (-(k : Int)) ht = v0Outputs { tx with vout := vout } ((tx.vin.length - k : Nat) : Int) ht := by
    rw [v0Outputs_one hs (by omega), v0Outputs_one hs (show (_ : Int) < (vout.length : Int) by omega),
      pyGet_neg h1 h3, pyGet_nat_ok.2 hg, pyGet_nat_ok.2 (hv.trans hg)]
  have hp : v0Parts tx (-(k : Int)) ht = v0Parts { tx with vout := vout } ((tx.vin.length - k : Nat) : Int) ht := by
    unfold v0Parts
    rw [ho]
    rfl
  show (sighashV0 h script tx (-(k : Int)) ht amount).map (·, false) =
    (sighashV0 h script { tx with vout := vout } ((tx.vin.length - k : Nat) : Int) ht amount).map (·, false)
  cases amount with
  | none => rfl
  | some a =>
    unfold sighashV0
    simp only [hp, v0Preimage_neg h script tx ht a _ h1 h2]
    rfl

/-- C51 does not hold as stated: −1 signs the last input. -/
theorem C51_statement_false : ¬ C51_statement := by
  intro hall
  obtain ⟨e, he⟩ := hall constHash [] sampleTxLow (-1) 1 (some []) .witnessV0 (Or.inl (by decide))
  have h1 := C51_negative_alias constHash [] sampleTxLow 1 (some []) (k := 1) (by decide) (by decide) (by decide)
  obtain ⟨d, hd⟩ := C15_total_partial constHash [] sampleTxLow 1 1 [] sampleTxLow_wf (by decide) (by decide) (by decide) (by decide)
  have h2 : rawSighash constHash [] sampleTxLow (-1) 1 (some []) .witnessV0 = .ok (d, false) := by
    refine h1.trans ?_
    show (sighashV0 constHash [] sampleTxLow ((1 : Nat) : Int) 1 (some [])).map (·, false) = _
    rw [hd]; rfl
  unfold sighash at he
  rw [show sighashTypeNew 1 = .ok 1 from rfl, ok_bind, h2, ok_bind] at he
  cases he

/-- The hypotheses of the theorems above are met. -/
example : 1 ≤ 2 ∧ 2 ≤ sampleTxLow.vin.length ∧ 2 ≤ sampleTxLow.vout.length ∧ OutSingle 0x83 ∧ ¬ OutSingle 0x81 := by decide

end Verif
