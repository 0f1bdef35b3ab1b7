import Verif.Props.NodeToy
import Verif.Props.BlindGoes
/-
C92, from beginning to end: a sensible request for a transaction that balances ends with a
transaction the network accepts.
-/
namespace Verif

variable {M : Type} [AddCommGroup M] [Module Scalar M]

theorem sensible_keys {E : Env} {Good Asset : Bytes → Prop} {A : BlindArgs} {spent : List TxOut} {tx : Tx}
    (hS : Sensible E Good Asset A tx) (hr : Ready E A spent tx) : KeysFine A tx := by
  have hiss : ∀ i (token : Bool) key, i < tx.vin.length → A.issuanceKey i token = some key →
      ∃ v, (tx.vin.getD i default).issued token = 1 :: v := by
    intro i token key hi hk
    obtain ⟨-, ⟨v, hv, -⟩, -⟩ := hS.issuances i (tx.vin.getD i default) token key (by
      rw [List.getD_eq_getElem?_getD, List.getElem?_eq_getElem hi]; rfl) hk
    exact ⟨v, hv⟩
  refine ⟨?_, ?_, ?_⟩
  · intro i token key hi hk
    obtain ⟨v, hv⟩ := hiss i token key hi hk
    cases token <;> simp [TxIn.issued] at hv <;> simp [Issuance.isNull, confIsNull, hv]
  · intro i key hk
    have hi : i < tx.vin.length := by
      by_contra hi
      have : A.issuanceKey i true = none := by
        show A.tokenKeys.getD i none = none
        rw [List.getD_eq_getElem?_getD, List.getElem?_eq_none (by have := hS.lengths.tokenKeys; omega)]
        rfl
      rw [this] at hk
      cases hk
    obtain ⟨v, hv⟩ := hiss i true key hi hk
    have := (hr.tokens i hi (by rw [show (tx.vin.getD i default).assetIssuance.nInflationKeys = _ from hv]; exact List.cons_ne_nil _ _)).2
    rw [hk] at this
    exact Option.isSome_iff_exists.1 this
  · intro d hd
    have := (hS.descs d hd).2
    unfold maxMoney at this
    omega

/-- C92 from beginning to end.  With a library that works, a request that makes sense and a
transaction that is ready and balances per asset: `blind()` succeeds, hides every output asked for,
and the network accepts the amounts of what it made. -/
theorem C92_goes {E : Env} {Good Asset : Bytes → Prop} {A : BlindArgs} {spent : List TxOut} {tx : Tx} {N : Verifier} {P : Pedersen E.z M}
    (hN : N.Keeps P) (hF : Formats E.z) (hW : WireSizes E.z)
    (hw : Works E.z Good Asset (A.ctExponent.getD 0) (A.ctBits.getD 52)) (hS : Sensible E Good Asset A tx)
    (hst : A.strict = true) (hr : Ready E A spent tx) (hb : AmountsBalance E A tx) :
    ∃ bfs abfs tx', blindTransaction E A tx = (.ok (.success (asked A tx) bfs abfs), tx') ∧
      (∀ j, A.pubkeys.getD j [] ≠ [] → IsValueCommitment (tx'.vout.getD j {}).nValue) ∧
      verifyAmounts E N spent (Spec.fillWitness tx') = true := by
  obtain ⟨bfs, abfs, tx', h, hall⟩ := C73_goes hw hF hS
  refine ⟨bfs, abfs, tx', h, hall, C92_accepted_partial hN hF hW h hst hS.sizes hr hb (sensible_keys hS hr) ?_ hall⟩
  obtain ⟨j, hj⟩ := List.exists_mem_of_ne_nil _ hS.output
  obtain ⟨⟨pk, k⟩, hp, rfl⟩ := List.mem_map.1 hj
  obtain ⟨h1, h2⟩ := List.mem_filter.1 hp
  have := List.mem_zipIdx_iff_getElem?.1 h1
  exact ⟨k, by rw [List.getD_eq_getElem?_getD, this]; simpa using h2⟩

namespace Toy

def netArgs : BlindArgs := { args (fun k => b32 (k % 1000 + 5)) with pubkeys := [pub 3, pub 4, pub 6] }

/-- A blinded input, an issued amount and three outputs to be blinded, one of them of what was issued. -/
theorem netSensible : Sensible env Good (fun _ => True) netArgs balTx := by
  have hs : ∀ txin ∈ balTx.vin, InputSizes txin := by unfold balTx; exact sizes _ _ (by decide)
  constructor
  · exact ⟨by decide, by decide, by decide, by decide, by decide⟩
  · exact hs
  · intro d hd
    simp only [netArgs, args, List.mem_cons, List.not_mem_nil, or_false] at hd
    subst hd
    exact ⟨⟨by decide, by decide, by decide⟩, by decide⟩
  · rintro (_ | i) txin d h1 h2
    · cases h1; cases h2
      exact ⟨by decide, fun _ _ _ => ⟨⟨_, rfl, by decide⟩, by decide⟩, fun k _ h => by cases h⟩
    · cases h1
  · rintro (_ | i) txin token key h1 h2
    · cases h1
      cases token
      · cases h2
        exact ⟨by decide, ⟨beBytes 8 1, rfl, by decide, by decide⟩, by decide⟩
      · cases h2
    · cases h1
  · rintro (_ | _ | _ | j) pk h1 h2
    · cases h1
      exact ⟨⟨by decide, ⟨_, rfl, by decide⟩, ⟨_, rfl, by decide⟩, by decide, by decide⟩, by decide, by decide⟩
    · cases h1
      exact ⟨⟨by decide, ⟨_, rfl, by decide⟩, ⟨_, rfl, by decide⟩, by decide, by decide⟩, by decide, by decide⟩
    · cases h1
      exact ⟨⟨by decide, ⟨_, rfl, by decide⟩, ⟨beBytes 32 (beVal issId), rfl, by simp⟩, by decide, by decide⟩, by decide, by decide⟩
    · cases h1
  · obtain ⟨T, hT, h5⟩ : ∃ T, surjTargets env netArgs balTx = .ok T ∧ T.targets = [b32 5, issId] := by
      refine ⟨(match surjTargets env netArgs balTx with | .ok T => T | _ => ⟨[], [], []⟩), ?_, ?_⟩ <;> decide +kernel
    obtain ⟨L, hL, rfl⟩ := (C40_targets env netArgs balTx hs T).1 hT
    refine ⟨L, hL, ?_⟩
    change L.map Target.asset = _ at h5
    have hl : L.length = 2 := by simpa using congrArg List.length h5
    rw [h5, hl]
    have hi : ∀ seed, env.z.surjInit [b32 5, issId].flatten 2 (min 3 2) (b32 5) 100 seed = some ([1], 0) := by
      intro seed
      change (findTag (b32 5) 2 [b32 5, issId].flatten).map (fun i => (([1] : Bytes), i)) = _
      decide +kernel
    have hi' : ∀ seed, env.z.surjInit [b32 5, issId].flatten 2 (min 3 2) issId 100 seed = some ([1], 1) := by
      intro seed
      change (findTag issId 2 [b32 5, issId].flatten).map (fun i => (([1] : Bytes), i)) = _
      decide +kernel
    rintro (_ | _ | _ | k) j h
    · cases h
      exact ⟨b32 5, [1], 0, by decide, trivial, by decide, hi _⟩
    · cases h
      exact ⟨b32 5, [1], 0, by decide, trivial, by decide, hi _⟩
    · cases h
      exact ⟨issId, [1], 1, by decide +kernel, trivial, by decide +kernel, hi' _⟩
    · cases h
  · intro k
    have hv : beVal (b32 (k % 1000 + 5)) = k % 1000 + 5 := by
      unfold b32
      exact beVal_beBytes_of_lt (by have := Nat.mod_lt k (show 0 < 1000 by omega); norm_num; omega)
    show Good (b32 (k % 1000 + 5)) ∧ ∀ d ∈ netArgs.descs, d.assetBlindingFactor ≠ b32 (k % 1000 + 5)
    refine ⟨⟨by simp [b32], fun h0 => ?_⟩, ?_⟩
    · have : b32 (k % 1000 + 5) = List.replicate 32 0 := List.eq_replicate_iff.2 ⟨by simp [b32], h0⟩
      rw [this] at hv
      have h : beVal (List.replicate 32 0) = 0 := by decide
      omega
    · intro d hd e
      simp only [netArgs, args, List.mem_cons, List.not_mem_nil, or_false] at hd
      subst hd
      have e : b32 4 = b32 (k % 1000 + 5) := e
      rw [← e] at hv
      have h : beVal (b32 4) = 4 := by decide
      omega
  · decide
  · decide
  · exact ⟨_, rfl, by decide +kernel, by decide +kernel⟩

theorem net_ready : Ready env netArgs (netArgs.descs.map coin) balTx where
  spent := bal_ready.spent
  own := bal_ready.own
  aux := bal_ready.aux
  bits := bal_ready.bits
  issued := bal_ready.issued
  tokens := bal_ready.tokens
  outputs := bal_ready.outputs

end Toy

example : ∃ bfs abfs tx', blindTransaction Toy.env Toy.netArgs Toy.balTx = (.ok (.success 4 bfs abfs), tx') ∧
    (∀ j, Toy.netArgs.pubkeys.getD j [] ≠ [] → IsValueCommitment (tx'.vout.getD j {}).nValue) ∧
    verifyAmounts Toy.env Toy.verifier (Toy.netArgs.descs.map Toy.coin) (Spec.fillWitness tx') = true :=
  C92_goes Toy.keeps Toy.formats Toy.wireSizes (Toy.works _ _) Toy.netSensible rfl Toy.net_ready
    ⟨Toy.bal_amounts.outputs, Toy.bal_amounts.issued, Toy.bal_amounts.balance⟩

end Verif
