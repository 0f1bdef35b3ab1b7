import Verif.Props.Balance
import Verif.Props.Unblind
/-
C36: what was blinded can be unblinded.
-/
namespace Verif

/-- An output blinded to the pubkey of a key opens under that key. -/
theorem Blinded.opens {E : Env} {A : BlindArgs} {tx tx' : Tx} {j : Nat} {bf abf key : Bytes} (F : Formats E.z) (W : Rewinds E.z)
    (h : Blinded E A tx tx' j bf abf) (hk : E.z.secValid key = true) (hpk : A.pubkeys.getD j [] = E.z.pubOf key)
    (hs : (tx'.vout.getD j {}).scriptPubKey = (tx.vout.getD j {}).scriptPubKey) :
    ∃ asset v, (tx.vout.getD j {}).nAsset = 1 :: asset ∧ (tx.vout.getD j {}).nValue = 1 :: v ∧ asset.length = 32 ∧ v.length = 8 ∧
      (beVal v ≤ 21 * 10 ^ 14 →
        Opens E key (tx'.vout.getD j {}).nValue (tx'.vout.getD j {}).nAsset (tx'.vout.getD j {}).nNonce
          (tx'.vout.getD j {}).scriptPubKey (tx'.outWit j).rangeproof asset (beVal v) bf abf) := by
  have hf := (C33_formats F h)
  obtain ⟨hc, ⟨asset, v, gen, com, seed, x, a, p, hh, n1, n2, n3, n4, ha, hsig, hp⟩, -⟩ := h
  refine ⟨asset, v, hh.explicitAsset, hh.explicitValue, hh.asset_len, hh.value_len, fun hm => ⟨hf.2, hc, hm, ?_⟩⟩
  obtain ⟨g, hg⟩ := F.genParse _ _ hh.nAsset ⟨_, _, hh.generator⟩
  obtain ⟨c, hcp⟩ := F.comParse _ _ hh.nValue ⟨_, _, _, hh.commitment⟩
  have hv : beVal v < 2 ^ 64 := by
    have := beVal_lt v
    rw [hh.value_len] at this
    exact this
  obtain ⟨msg, hr, hmsg⟩ := W.rewind a p _ c _ g hsig (by rw [ha.message_eq]; simp [hh.asset_len, hh.abf_len])
    (by rw [ha.blind_eq]; exact hh.bf_len) (by rw [ha.value_eq]; exact hv)
    (by rw [ha.blind_eq, ha.value_eq, ha.gen_eq, ha.commit_eq]; exact hh.commitment) (by rw [ha.commit_eq]; exact hh.nValue) hcp
    (by rw [ha.gen_eq]; exact hh.nAsset) hg
  rw [ha.nonce_eq, ha.extra_eq, ha.blind_eq, ha.value_eq] at hr
  rw [ha.message_eq] at hmsg
  refine ⟨E.h.fn x, _, g, c, msg, ?_, .commitment g hf.1 hg, hcp, by rw [hp]; exact hr, hmsg, hh.asset_len, hh.abf_len,
    gen, (tx'.vout.getD j {}).nAsset, hh.generator, F.genCanonical _ _ hg, hh.nAsset⟩
  rw [← hs, n2]
  refine .shared x (fun e => ?_) (W.pubValid _ n1) ?_
  · rw [e] at n3; simp at n3
  · rw [W.ecdh key seed hk n1, ← hpk]
    exact n4

/-- Successful blinding, strict or not: a requested output that has a rangeproof afterwards is
blinded with the factors reported. -/
theorem blinded_of_proof {E : Env} {A : BlindArgs} {tx tx' : Tx} {num bfs abfs} {j : Nat}
    (h : blindTransaction E A tx = (.ok (.success num bfs abfs), tx')) (hj : A.pubkeys.getD j [] ≠ [])
    (hp : (tx'.outWit j).rangeproof ≠ []) : Blinded E A tx tx' j (bfs.getD j []) (abfs.getD j []) := by
  obtain ⟨C, s', hR, hE, rfl, hres⟩ := blind_success h
  obtain ⟨rfl, rfl, rfl, -⟩ := result_success hres
  obtain ⟨ds, hL⟩ := hE.left (by rw [hR.args]; exact hR.lengths.pubkeys) (by simp [firstState]) (by simp [firstState])
  have hw : tx.outWit j = {} := by
    have : A.pubkeys[j]? = some (A.pubkeys.getD j []) := by
      rw [List.getD_eq_getElem?_getD] at hj ⊢
      cases hx : A.pubkeys[j]? with
      | none => rw [hx] at hj; exact absurd rfl hj
      | some y => rfl
    exact (hR.outputs j _ this hj).noWitness
  have hft : (firstState A tx).tx = tx := rfl
  by_cases hm : j ∈ ds.map OutData.j
  · obtain ⟨d, hd, rfl⟩ := List.mem_map.1 hm
    cases hs : d.surj with
    | none =>
      have := (hL.those d hd).2.1 hs
      rw [hft, hw] at this
      rw [this] at hp
      exact absurd rfl hp
    | some p => exact hL.blinded hR.env hR.args hd hs
  · have := (hL.others j hm).2.1
    rw [hft, hw] at this
    rw [this] at hp
    exact absurd rfl hp

/-- C36.  Whatever output `blind()` equips with a rangeproof, strictly or not, is unblinded by
the key its pubkey belongs to, to its original asset and amount and to the factors reported. -/
theorem C36_unblinds {E : Env} {A : BlindArgs} {tx tx' : Tx} {num bfs abfs} {j : Nat} {key : Bytes} (F : Formats E.z) (W : Rewinds E.z)
    (h : blindTransaction E A tx = (.ok (.success num bfs abfs), tx')) (hj : A.pubkeys.getD j [] = E.z.pubOf key)
    (hk : E.z.secValid key = true) (hp : (tx'.outWit j).rangeproof ≠ []) (hne : E.z.pubOf key ≠ []) :
    ∃ asset v, (tx.vout.getD j {}).nAsset = 1 :: asset ∧ (tx.vout.getD j {}).nValue = 1 :: v ∧ asset.length = 32 ∧ v.length = 8 ∧
      (beVal v ≤ 21 * 10 ^ 14 →
        unblind E key (tx'.vout.getD j {}).nValue (tx'.vout.getD j {}).nAsset (tx'.vout.getD j {}).nNonce
          (tx'.vout.getD j {}).scriptPubKey (tx'.outWit j).rangeproof
          = .ok (.success asset (beVal v) (bfs.getD j []) (abfs.getD j []))) := by
  have hb := blinded_of_proof h (by rw [hj]; exact hne) hp
  have hs : (tx'.vout.getD j {}).scriptPubKey = (tx.vout.getD j {}).scriptPubKey := by
    have := (C32_only_asked E A tx).scripts
    rw [h] at this
    have := congrArg (fun l : List Bytes => l.getD j []) this
    simp only [List.getD_eq_getElem?_getD, List.getElem?_map] at this
    rw [List.getD_eq_getElem?_getD, List.getD_eq_getElem?_getD]
    revert this
    show ((Option.map TxOut.scriptPubKey tx'.vout[j]?).getD [] = (Option.map TxOut.scriptPubKey tx.vout[j]?).getD []) → _
    cases tx'.vout[j]? <;> cases tx.vout[j]? <;> exact fun h => h
  obtain ⟨asset, v, h1, h2, h3, h4, h5⟩ := hb.opens F W hk hj hs
  exact ⟨asset, v, h1, h2, h3, h4, fun hm => (C37_success_iff ..).2 (h5 hm)⟩

/-- C36, strict success: every requested output is unblinded by its key, except for a last
output left as it is because its balancing factor was zero. -/
theorem C36_strict {E : Env} {A : BlindArgs} {tx tx' : Tx} {num bfs abfs} {j : Nat} {key : Bytes} (F : Formats E.z) (W : Rewinds E.z)
    (h : blindTransaction E A tx = (.ok (.success num bfs abfs), tx')) (hst : A.strict = true)
    (hsz : ∀ txin ∈ tx.vin, InputSizes txin) (hj : A.pubkeys.getD j [] = E.z.pubOf key)
    (hk : E.z.secValid key = true) (hne : E.z.pubOf key ≠ []) :
    (∃ asset v, (tx.vout.getD j {}).nAsset = 1 :: asset ∧ (tx.vout.getD j {}).nValue = 1 :: v ∧
      (beVal v ≤ 21 * 10 ^ 14 →
        unblind E key (tx'.vout.getD j {}).nValue (tx'.vout.getD j {}).nAsset (tx'.vout.getD j {}).nNonce
          (tx'.vout.getD j {}).scriptPubKey (tx'.outWit j).rangeproof
          = .ok (.success asset (beVal v) (bfs.getD j []) (abfs.getD j [])))) ∨
    (LastAsked A j ∧ Untouched tx tx' j) := by
  obtain ⟨-, -, h3⟩ := C33_strict h hst hsz
  cases h3 j (by rw [hj]; exact hne) with
  | zero v hl hu => exact .inr ⟨hl, hu⟩
  | blinded hb =>
    obtain ⟨asset, v, h1, h2, -, -, h5⟩ := C36_unblinds F W h hj hk (C33_formats F hb).2 hne
    exact .inl ⟨asset, v, h1, h2, h5⟩

/-- C36, spending: what unblinding such an output reports, taken as descriptor of an input of a
later transaction, opens exactly the commitment of the output. -/
theorem C36_descriptor {E : Env} {A : BlindArgs} {tx tx' : Tx} {num bfs abfs} {j : Nat} {key : Bytes} (F : Formats E.z) (W : Rewinds E.z)
    {M : Type} [AddCommGroup M] [Module Scalar M] (P : Pedersen E.z M)
    (h : blindTransaction E A tx = (.ok (.success num bfs abfs), tx')) (hj : A.pubkeys.getD j [] = E.z.pubOf key)
    (hk : E.z.secValid key = true) (hp : (tx'.outWit j).rangeproof ≠ []) (hne : E.z.pubOf key ≠ [])
    {asset : Bytes} {amount : Nat} {bf abf : Bytes}
    (hu : unblind E key (tx'.vout.getD j {}).nValue (tx'.vout.getD j {}).nAsset (tx'.vout.getD j {}).nNonce
          (tx'.vout.getD j {}).scriptPubKey (tx'.outWit j).rangeproof = .ok (.success asset amount bf abf)) :
    P.outPt (tx'.vout.getD j {}) = P.spentPt ⟨asset, amount, bf, abf⟩ := by
  have hb := blinded_of_proof h (by rw [hj]; exact hne) hp
  obtain ⟨asset', v, h1, h2, -, -, h5⟩ := C36_unblinds F W h hj hk hp hne
  obtain ⟨hc, ⟨a, w, gen, com, seed, x, ra, p, hh, -⟩, -⟩ := hb
  have e1 : asset' = a := (List.cons.inj (h1.symm.trans hh.explicitAsset)).2
  have e2 : v = w := (List.cons.inj (h2.symm.trans hh.explicitValue)).2
  subst e1 e2
  have hm : beVal v ≤ 21 * 10 ^ 14 := by
    refine Classical.byContradiction fun hm => ?_
    have ho := (C37_success_iff ..).1 hu
    -- the proof rewinds to the true amount, which is out of range
    obtain ⟨nonce, extra, g, c, msg, hn, hg, hcp, hr, -⟩ := ho.rewound
    obtain ⟨-, ⟨a', w', gen', com', seed', x', ra', p', hh', n1, n2, n3, n4, ha, hsig, hp'⟩, -⟩ :=
      blinded_of_proof h (by rw [hj]; exact hne) hp
    have e2' : v = w' := (List.cons.inj (h2.symm.trans hh'.explicitValue)).2
    subst e2'
    have hgg : E.z.genParse (tx'.vout.getD j {}).nAsset = some g := by
      have hf : IsAssetCommitment (tx'.vout.getD j {}).nAsset := (C33_formats F (blinded_of_proof h (by rw [hj]; exact hne) hp)).1
      cases hg with
      | commitment _ _ hg => exact hg
      | explicit b _ he => obtain ⟨y, hy | hy, _⟩ := hf <;> (rw [hy] at he; cases he)
      | nothing hno => exact absurd hf hno
    obtain ⟨msg', hr', -⟩ := W.rewind ra' p' _ c _ g hsig (by rw [ha.message_eq, List.length_append, hh'.asset_len, hh'.abf_len])
      (by rw [ha.blind_eq]; exact hh'.bf_len) (by
        rw [ha.value_eq]
        have := beVal_lt v
        rw [hh'.value_len] at this
        exact this) (by rw [ha.blind_eq, ha.value_eq, ha.gen_eq, ha.commit_eq]; exact hh'.commitment)
      (by rw [ha.commit_eq]; exact hh'.nValue) hcp
      (by rw [ha.gen_eq]; exact hh'.nAsset) hgg
    have hs : (tx'.vout.getD j {}).scriptPubKey = (tx.vout.getD j {}).scriptPubKey := by
      have := (C32_only_asked E A tx).scripts
      rw [h] at this
      have := congrArg (fun l : List Bytes => l.getD j []) this
      simp only [List.getD_eq_getElem?_getD, List.getElem?_map] at this
      rw [List.getD_eq_getElem?_getD, List.getD_eq_getElem?_getD]
      revert this
      show ((Option.map TxOut.scriptPubKey tx'.vout[j]?).getD [] = (Option.map TxOut.scriptPubKey tx.vout[j]?).getD []) → _
      cases tx'.vout[j]? <;> cases tx.vout[j]? <;> exact fun h => h
    cases hn with
    | direct he => rw [n2] at he; rw [he] at n3; simp at n3
    | shared s _ _ he =>
      rw [n2, W.ecdh key seed' hk n1, ← hj, n4] at he
      cases he
      rw [ha.nonce_eq, ha.extra_eq, ha.blind_eq, ha.value_eq, ← hs, ← hp'] at hr'
      rw [hr'] at hr
      have := congrArg (fun x : Bytes × Nat × Bytes × Nat => x.2.1) (Option.some.inj hr)
      have hmo := ho.money
      dsimp only at this
      omega
  have := (h5 hm).symm.trans hu
  have := Except.ok.inj this
  injection this with i1 i2 i3 i4
  subst i1 i2 i3 i4
  rw [outPt_commitment P hc, P.commitSerialize _ _ hh.nValue, P.commit _ _ _ _ hh.commitment, P.generateBlinded _ _ _ hh.generator]
  unfold Pedersen.spentPt
  simp

-- the first output of a concrete run opens under its key
example : ∃ b a t', blindTransaction Toy.env Toy.balArgs Toy.balTx = (.ok (.success 4 b a), t') ∧
    Toy.balArgs.pubkeys.getD 0 [] = Toy.env.z.pubOf (Toy.b32 3) ∧ Toy.env.z.secValid (Toy.b32 3) = true ∧ (t'.outWit 0).rangeproof ≠ [] ∧
    unblind Toy.env (Toy.b32 3) (t'.vout.getD 0 {}).nValue (t'.vout.getD 0 {}).nAsset (t'.vout.getD 0 {}).nNonce
      (t'.vout.getD 0 {}).scriptPubKey (t'.outWit 0).rangeproof = .ok (.success (Toy.b32 5) 3 (b.getD 0 []) (a.getD 0 [])) := by
  obtain ⟨b, a, t', hx⟩ := success_of (x := blindTransaction Toy.env Toy.balArgs Toy.balTx) (n := 4) (by decide +kernel)
  have h1 : Toy.balArgs.pubkeys.getD 0 [] = Toy.env.z.pubOf (Toy.b32 3) := by decide +kernel
  have h2 : Toy.env.z.secValid (Toy.b32 3) = true := by decide +kernel
  have h3 : ((blindTransaction Toy.env Toy.balArgs Toy.balTx).2.outWit 0).rangeproof ≠ [] := by decide +kernel
  rw [hx] at h3
  obtain ⟨asset, v, e1, e2, -, -, h⟩ := C36_unblinds (E := Toy.env) Toy.formats Toy.rewinds hx h1 h2 h3 (by decide)
  have f1 : (Toy.balTx.vout.getD 0 {}).nAsset = 1 :: Toy.b32 5 := by decide +kernel
  have f2 : (Toy.balTx.vout.getD 0 {}).nValue = 1 :: beBytes 8 3 := by decide +kernel
  have g1 : asset = Toy.b32 5 := (List.cons.inj (e1.symm.trans f1)).2
  have g2 : v = beBytes 8 3 := (List.cons.inj (e2.symm.trans f2)).2
  subst g1 g2
  have hv : beVal (beBytes 8 3) = 3 := by decide
  rw [hv] at h
  exact ⟨b, a, t', hx, h1, h2, h3, h (by omega)⟩

end Verif
