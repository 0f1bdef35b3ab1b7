import Verif.Props.Hides
/-
C100 is not vacuous: two transactions with other amounts and assets, blinded to the same bytes.
-/
namespace Verif
namespace Toy

theorem scalar_inj {a b : Nat} (ha : a < secpN) (hb : b < secpN) (h : (a : Scalar) = (b : Scalar)) : a = b := by
  have := (ZMod.natCast_eq_natCast_iff' a b secpN).1 h
  rwa [Nat.mod_eq_of_lt ha, Nat.mod_eq_of_lt hb] at this

theorem canonical : pedersen.Canonical where
  generator a r g s a' r' g' s' h1 h2 h3 h4 h := by
    cases h1; cases h3
    change ((decPt (encGen _) : Nat) : Scalar) = ((decPt (encGen _) : Nat) : Scalar) at h
    rw [decPt_encGen _ (mod_lt' _), decPt_encGen _ (mod_lt' _)] at h
    have := scalar_inj (Nat.mod_lt _ secpN_pos) (Nat.mod_lt _ secpN_pos) h
    rw [this, h4] at h2
    exact (Option.some.inj h2).symm
  commitment b v g c s b' v' g' c' s' h1 h2 h3 h4 h := by
    cases h1; cases h3
    change ((decPt (encCom _) : Nat) : Scalar) = ((decPt (encCom _) : Nat) : Scalar) at h
    rw [decPt_encCom _ (mod_lt' _), decPt_encCom _ (mod_lt' _)] at h
    have := scalar_inj (Nat.mod_lt _ secpN_pos) (Nat.mod_lt _ secpN_pos) h
    rw [this, h4] at h2
    exact (Option.some.inj h2).symm

/-- Another transaction: two of the new asset are issued instead of one and go to the second output, four and four of the other one are
left. -/
def hidTx : Tx := tx [(5, 4), (beVal issId, 2), (5, 4)] ⟨zero32, b32 7, amt 2, []⟩

/-- The draws that make it look like `balTx`. -/
def hidRand (k : Nat) : Bytes :=
  match k with
  | 0 => b32 ((5 + (secpN - num issId)) % secpN)
  | 1 => b32 (6 + secpN - 12)
  | 5 => b32 58
  | 6 => b32 ((16 + (secpN - num issId)) % secpN)
  | 10 => b32 ((10 + num issId) % secpN)
  | k => b32 (k + 5)

def hidArgs : BlindArgs := { balArgs with rand := hidRand }

theorem hid_amounts : AmountsBalance env hidArgs hidTx := by
  refine ⟨?_, ?_, ?_⟩
  · intro o ho
    simp only [hidTx, tx, List.map_cons, List.map_nil, List.mem_cons, List.not_mem_nil, or_false] at ho
    rcases ho with rfl | rfl | rfl <;>
      exact ⟨⟨beBytes 8 _, rfl, by simp⟩, ⟨beBytes 32 _, rfl, by simp⟩⟩
  · intro i hi
    simp only [hidTx, tx, List.mem_cons, List.not_mem_nil, or_false] at hi
    subst hi
    exact ⟨.inr ⟨beBytes 8 _, rfl, by simp⟩, .inl rfl⟩
  · intro a
    have e1 : spentAmounts hidArgs.descs = [(b32 5, 8)] := by decide +kernel
    have e2 : outAmounts hidTx = [(b32 5, 4), (issId, 2), (b32 5, 4)] := by decide +kernel
    have e3 : issuedAmounts env hidArgs hidTx
        = [(issId, 2), (tokenId env true (hidTx.vin.getD 0 default), 0)] := by decide +kernel
    rw [e1, e2, e3]
    simp only [List.cons_append, List.nil_append, total_cons, ite_self]
    split <;> split <;> omega

theorem hid_keys : KeysFine hidArgs hidTx := by
  refine ⟨?_, ?_, by decide⟩
  · intro i token key hi _
    have : i = 0 := by simpa [hidTx, tx] using hi
    subst this
    decide +kernel
  · intro i key hkey
    simp [BlindArgs.issuanceKey, hidArgs, balArgs, args] at hkey

theorem hid_looks : LooksLike pedersen balArgs hidArgs balTx hidTx := by
  refine ⟨rfl, fun _ _ => rfl, rfl, rfl, ?_, by decide +kernel, ?_⟩
  · intro i token hk
    rcases i with _ | i
    · cases token
      · cases hk
      · decide +kernel
    · rfl
  · intro j hj
    rcases j with _ | _ | _ | j
    · exact absurd hj (by decide +kernel)
    · exact absurd hj (by decide +kernel)
    · exact absurd hj (by decide +kernel)
    · rfl

theorem asked_bal : issuancesAsked balArgs balTx = [(0, false)] ∧ outputsAsked balArgs = [0, 1, 2] := by decide +kernel

theorem hid_draws : SameDraws pedersen env balArgs hidArgs balTx hidTx := by
  have hd : ∀ k, drawOf balArgs balTx k = 1 + 4 * k := by intro k; unfold drawOf; rw [asked_bal.1]; rfl
  refine ⟨?_, ?_, ?_, ?_⟩
  · intro k i token h
    rw [asked_bal.1] at h
    rcases k with _ | k
    · cases h
      decide +kernel
    · cases h
  · intro k j h
    rw [asked_bal.2] at h
    rw [hd]
    rcases k with _ | _ | _ | k
    · cases h; decide +kernel
    · cases h; decide +kernel
    · cases h; decide +kernel
    · cases h
  · intro k j h hl
    rw [asked_bal.2] at h hl
    rw [hd]
    rcases k with _ | _ | _ | k
    · cases h; decide +kernel
    · cases h; decide +kernel
    · cases hl with
      | step hl => cases hl with
        | step hl => cases hl with
          | step hl => cases hl
    · cases h
  · intro k j h
    rw [asked_bal.2] at h
    rw [hd]
    rcases k with _ | _ | _ | k
    · rfl
    · rfl
    · rfl
    · cases h

end Toy

/-- Every output of the two transactions is hidden, they differ in amounts and assets, and nobody can tell the blinded ones apart by
inputs and outputs. -/
theorem C100_toy : ∃ b a t' b2 a2 u', blindTransaction Toy.env Toy.balArgs Toy.balTx = (.ok (.success 4 b a), t') ∧
    blindTransaction Toy.env Toy.hidArgs Toy.hidTx = (.ok (.success 4 b2 a2), u') ∧ u'.vin = t'.vin ∧ u'.vout = t'.vout ∧
    Toy.hidTx.vout ≠ Toy.balTx.vout ∧ u'.vout ≠ Toy.hidTx.vout := by
  obtain ⟨b, a, t', h1⟩ := success_of (x := blindTransaction Toy.env Toy.balArgs Toy.balTx) (n := 4) (by decide +kernel)
  obtain ⟨b2, a2, u', h2⟩ := success_of (x := blindTransaction Toy.env Toy.hidArgs Toy.hidTx) (n := 4) (by decide +kernel)
  have com : ∀ c : Bytes, (c.head? = some 8 ∧ c.length = 33) → IsValueCommitment c := by
    rintro (_ | ⟨x, c⟩) ⟨e1, e2⟩
    · cases e1
    · cases e1
      exact ⟨c, .inl rfl, by simpa using e2⟩
  have key : ∀ {t' : Tx}, (∀ j : Fin 3, (t'.vout.getD j.val {}).nValue.head? = some 8 ∧ (t'.vout.getD j.val {}).nValue.length = 33) →
      ∀ j, Toy.balArgs.pubkeys.getD j [] ≠ [] → IsValueCommitment (t'.vout.getD j {}).nValue := by
    intro t' h j hj
    rcases j with _ | _ | _ | j
    · exact com _ (h 0)
    · exact com _ (h 1)
    · exact com _ (h 2)
    · exact absurd rfl hj
  have hs1 : ∀ i ∈ Toy.balTx.vin, InputSizes i := by unfold Toy.balTx; exact Toy.sizes _ _ (by decide)
  have hs2 : ∀ i ∈ Toy.hidTx.vin, InputSizes i := by unfold Toy.hidTx; exact Toy.sizes _ _ (by decide)
  have ha1 : ∀ j : Fin 3, ((blindTransaction Toy.env Toy.balArgs Toy.balTx).2.vout.getD j.val {}).nValue.head? = some 8 ∧
      ((blindTransaction Toy.env Toy.balArgs Toy.balTx).2.vout.getD j.val {}).nValue.length = 33 := by decide +kernel
  have ha2 : ∀ j : Fin 3, ((blindTransaction Toy.env Toy.hidArgs Toy.hidTx).2.vout.getD j.val {}).nValue.head? = some 8 ∧
      ((blindTransaction Toy.env Toy.hidArgs Toy.hidTx).2.vout.getD j.val {}).nValue.length = 33 := by decide +kernel
  rw [h1] at ha1
  rw [h2] at ha2
  obtain ⟨e1, e2⟩ := C100_same Toy.pedersen Toy.canonical h1 h2 hs1 hs2 Toy.bal_keys Toy.hid_keys Toy.bal_amounts Toy.hid_amounts
    ⟨0, by decide +kernel⟩ (key ha1) (key ha2) Toy.hid_looks Toy.hid_draws
  refine ⟨b, a, t', b2, a2, u', h1, h2, e1, e2, by decide +kernel, ?_⟩
  rw [show u' = (blindTransaction Toy.env Toy.hidArgs Toy.hidTx).2 by rw [h2]]
  decide +kernel

example : ∀ a, ∃ s : Scalar, Toy.pedersen.H a = s • Toy.pedersen.G := fun a => ⟨scalar a, by simp [Toy.pedersen]⟩

/-! Requests that make sense. -/
namespace Toy

def halfArgs (rand : Nat → Bytes) : BlindArgs := { args rand with assetKeys := [] }
def halfTx (m : Nat) : Tx := tx [(5, m), (5, 8 - m)]

theorem half_sensible (rand : Nat → Bytes) (m : Nat) (hm : m = 3 ∨ m = 4) (hr : ∀ k, Good (rand k) ∧ b32 4 ≠ rand k)
    (hb : Good (beBytes 32 (lastBlind [8, m, 8 - m] [b32 4, rand 1, rand 5] [b32 3, rand 0, rand 4] 1))) :
    Sensible env Good (fun _ => True) (halfArgs rand) (halfTx m) := by
  have hs : ∀ txin ∈ (halfTx m).vin, InputSizes txin := by unfold halfTx; exact Toy.sizes _ _ (by decide)
  have hT0 : surjTargets env (halfArgs rand) (halfTx m) = surjTargets env (halfArgs fun _ => []) (halfTx m) := rfl
  constructor
  · constructor <;> simp [halfArgs, args, halfTx, tx]
  · exact hs
  · intro d hd
    simp only [halfArgs, args, List.mem_cons, List.not_mem_nil, or_false] at hd
    subst hd
    exact ⟨⟨by decide, by decide, by decide⟩, by decide⟩
  · rintro (_ | i) txin d h1 h2
    · cases h1; cases h2
      exact ⟨by decide, fun _ _ h => absurd h (by simp [halfArgs]), fun k _ h => absurd h (by simp [halfArgs, args])⟩
    · cases h1
  · intro i txin token key h1 h2
    exact absurd h2 (by cases token <;> simp [BlindArgs.issuanceKey, halfArgs, args])
  · rcases hm with rfl | rfl
    all_goals
      rintro (_ | _ | j) pk h1 h2
      · cases h1
        exact ⟨⟨by decide, ⟨_, rfl, by decide⟩, ⟨_, rfl, by decide⟩, by decide, by decide⟩, by decide, by decide⟩
      · cases h1
        exact ⟨⟨by decide, ⟨_, rfl, by decide⟩, ⟨_, rfl, by decide⟩, by decide, by decide⟩, by decide, by decide⟩
      · cases h1
  · obtain ⟨T, hT, h5⟩ : ∃ T, surjTargets env (halfArgs rand) (halfTx m) = .ok T ∧ T.targets.head? = some (b32 5) := by
      rw [hT0]
      refine ⟨(match surjTargets env (halfArgs fun _ => []) (halfTx m) with | .ok T => T | _ => ⟨[], [], []⟩), ?_, ?_⟩ <;>
        rcases hm with rfl | rfl <;> decide +kernel
    obtain ⟨L, hL, rfl⟩ := (C40_targets env (halfArgs rand) (halfTx m) hs T).1 hT
    refine ⟨L, hL, ?_⟩
    obtain ⟨t, L', rfl⟩ : ∃ t L', L = t :: L' := by
      cases L with
      | nil => cases h5
      | cons t L' => exact ⟨t, L', rfl⟩
    have ht : t.asset = b32 5 := by simpa using h5
    have hi : ∀ seed, env.z.surjInit ((t :: L').map Target.asset).flatten (t :: L').length (min 3 (t :: L').length)
        (b32 5) 100 seed = some ([1], 0) := by
      intro seed
      show (findTag _ (L'.length + 1) _).map _ = _
      rw [findTag, if_pos]
      · rfl
      · rw [List.map_cons, List.flatten_cons, ht, List.take_left' (by decide)]
    rintro (_ | _ | k) j h
    · cases h
      exact ⟨b32 5, [1], 0, rfl, trivial, by decide, hi _⟩
    · cases h
      exact ⟨b32 5, [1], 0, rfl, trivial, by decide, hi _⟩
    · cases h
  · intro k
    refine ⟨(hr k).1, ?_⟩
    intro d hd
    simp only [halfArgs, args, List.mem_cons, List.not_mem_nil, or_false] at hd
    subst hd
    exact (hr k).2
  · exact fun h => by cases h
  · intro h; cases h
  · refine ⟨_, rfl, ?_⟩
    rcases hm with rfl | rfl <;> exact hb

def halfRand (k : Nat) : Bytes := b32 (k % 1000 + 5)
def halfRand2 (k : Nat) : Bytes := if k = 0 then b32 (secpN - 6) else halfRand k

theorem half_good (k : Nat) : Good (halfRand k) ∧ b32 4 ≠ halfRand k := by
  have hv : beVal (b32 (k % 1000 + 5)) = k % 1000 + 5 := by
    unfold b32
    exact beVal_beBytes_of_lt (by have := Nat.mod_lt k (show 0 < 1000 by omega); norm_num; omega)
  refine ⟨⟨by simp [halfRand, b32], fun h0 => ?_⟩, fun e => ?_⟩
  · have : b32 (k % 1000 + 5) = List.replicate 32 0 := List.eq_replicate_iff.2 ⟨by simp [b32], h0⟩
    rw [this] at hv
    have h : beVal (List.replicate 32 0) = 0 := by decide
    omega
  · have e : b32 4 = b32 (k % 1000 + 5) := e
    rw [← e] at hv
    have h : beVal (b32 4) = 4 := by decide
    omega

theorem half_balance (rand : Nat → Bytes) (m : Nat) (hm : m = 3 ∨ m = 4) : AmountsBalance env (halfArgs rand) (halfTx m) := by
  refine ⟨?_, ?_, ?_⟩
  · intro o ho
    simp only [halfTx, tx, List.map_cons, List.map_nil, List.mem_cons, List.not_mem_nil, or_false] at ho
    rcases ho with rfl | rfl <;> exact ⟨⟨beBytes 8 _, rfl, by simp⟩, ⟨beBytes 32 _, rfl, by simp⟩⟩
  · intro i hi
    simp only [halfTx, tx, List.mem_cons, List.not_mem_nil, or_false] at hi
    subst hi
    exact ⟨.inl rfl, .inl rfl⟩
  · intro a
    have e1 : spentAmounts (halfArgs rand).descs = [(b32 5, 8)] := rfl
    have e2 : outAmounts (halfTx m) = [(b32 5, m), (b32 5, 8 - m)] := by rcases hm with rfl | rfl <;> decide +kernel
    have e3 : ∃ i t, issuedAmounts env (halfArgs rand) (halfTx m) = [(i, 0), (t, 0)] := ⟨_, _, rfl⟩
    obtain ⟨i, t, e3⟩ := e3
    rw [e1, e2, e3]
    simp only [List.cons_append, List.nil_append, total_cons, ite_self]
    simp only [total, List.filter_nil, List.map_nil, List.sum_nil]
    split <;> omega

theorem half_keys (rand : Nat → Bytes) (m : Nat) : KeysFine (halfArgs rand) (halfTx m) := by
  refine ⟨?_, ?_, ?_⟩
  · intro i token key _ h
    exact absurd h (by cases token <;> simp [BlindArgs.issuanceKey, halfArgs, args])
  · intro i key h
    exact absurd h (by simp [BlindArgs.issuanceKey, halfArgs, args])
  · intro d hd
    simp only [halfArgs, args, List.mem_cons, List.not_mem_nil, or_false] at hd
    subst hd
    decide

end Toy

-- three and five or four and four: both are blinded, and look the same
example : ∃ bfs abfs t' bfs2 abfs2 u', blindTransaction Toy.env (Toy.halfArgs Toy.halfRand) (Toy.halfTx 3) = (.ok (.success 2 bfs abfs), t') ∧
    blindTransaction Toy.env (Toy.halfArgs Toy.halfRand2) (Toy.halfTx 4) = (.ok (.success 2 bfs2 abfs2), u') ∧
    (∀ j, (Toy.halfArgs Toy.halfRand).pubkeys.getD j [] ≠ [] → IsValueCommitment (t'.vout.getD j {}).nValue) ∧
    u'.vin = t'.vin ∧ u'.vout = t'.vout := by
  have hg : ∀ k, Toy.Good (Toy.halfRand2 k) ∧ Toy.b32 4 ≠ Toy.halfRand2 k := by
    intro k
    unfold Toy.halfRand2
    split
    · exact ⟨⟨by decide, by decide +kernel⟩, by decide +kernel⟩
    · exact Toy.half_good k
  refine C100_goes Toy.pedersen Toy.canonical Toy.formats (Toy.works _ _) (Toy.works _ _)
    (Toy.half_sensible _ 3 (.inl rfl) Toy.half_good ⟨by decide, by decide +kernel⟩) (Toy.half_sensible _ 4 (.inr rfl) hg ⟨by decide, by decide +kernel⟩)
    (Toy.half_keys _ _) (Toy.half_keys _ _) (Toy.half_balance _ 3 (.inl rfl)) (Toy.half_balance _ 4 (.inr rfl))
    ⟨rfl, fun _ _ => rfl, rfl, rfl, fun _ _ _ => rfl, by decide +kernel, ?_⟩ ?_
  · intro j hj
    rcases j with _ | _ | j
    · exact absurd hj (by decide +kernel)
    · exact absurd hj (by decide +kernel)
    · rfl
  · refine ⟨?_, ?_, ?_, ?_⟩
    · intro k i token h; cases h
    · intro k j h
      rcases k with _ | _ | k
      · cases h; decide +kernel
      · cases h; decide +kernel
      · cases h
    · intro k j h hl
      rcases k with _ | _ | k
      · cases h; decide +kernel
      · exact absurd hl (by decide)
      · cases h
    · intro k j h
      rcases k with _ | _ | k
      · rfl
      · rfl
      · cases h

end Verif
