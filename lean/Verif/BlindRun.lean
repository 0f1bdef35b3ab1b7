import Verif.BlindChecks
/-
What successful blinding steps do, as data: one record per output and per issuance.
-/
namespace Verif

/-- Everything one blinded output consists of. -/
structure OutData where
  j : Nat
  pk : Bytes
  /-- the output before -/
  out : TxOut
  amount : Int
  asset : Bytes
  blind : Bytes
  assetblind : Bytes
  confAsset : Bytes
  gen : Bytes
  confValue : Bytes
  commit : Bytes
  seed : Bytes
  nonce : Bytes
  eph : Bytes
  proof : Bytes
  /-- non-empty surjection proof, if one was found -/
  surj : Option Bytes

/-- How the parts of a blinded output belong together. -/
structure OutData.Made (C : Ctx) (d : OutData) : Prop where
  amount : valueToAmount d.out.nValue = .ok d.amount
  asset : assetToAsset d.out.nAsset = .ok d.asset
  blindedAsset : blindedAsset C.E.z d.asset d.assetblind = .ok (d.confAsset, d.gen)
  commit : createValueCommitment C.E.z d.blind d.gen d.amount = .ok (d.confValue, d.commit)
  nonce : outputNonce C.E d.pk d.seed = .ok (d.nonce, d.eph)
  proof : generateRangeproof C.E.z C.A.ctExponent C.A.ctBits d.blind d.nonce d.amount d.out.scriptPubKey d.commit d.gen
    d.asset d.assetblind = .ok d.proof
  surj : ∀ p, d.surj = some p → p ≠ [] ∧ ∃ seed, surjectionProof C.E.z C.T.targets C.T.gens C.T.blinders d.assetblind d.gen
    d.asset seed = .ok (some p)
  blind_len : d.blind.length = 32
  assetblind_len : d.assetblind.length = 32

def OutData.newOut (d : OutData) (o : TxOut) : TxOut := { o with nAsset := d.confAsset, nValue := d.confValue, nNonce := d.eph }
def OutData.newTx (d : OutData) (tx : Tx) : Tx :=
  match d.surj with
  | none => setOut d.j d.newOut tx
  | some p => setOutWit d.j (fun _ => { rangeproof := d.proof, surjectionproof := p }) (setOut d.j d.newOut tx)

/-- The state after an output was blinded. -/
def OutData.after (d : OutData) (s : BS) : BS :=
  { tx := d.newTx s.tx
    attempts := s.attempts + 1
    issAttempts := s.issAttempts
    done := s.done + d.surj.toList.length
    blinds := s.blinds ++ [d.blind]
    assetblinds := s.assetblinds ++ [d.assetblind]
    amounts := s.amounts ++ [d.amount]
    rnd := s.rnd + 4
    obf := s.obf.set d.j (some d.blind)
    oabf := s.oabf.set d.j (some d.assetblind) }

theorem commitOutput_ok {C : Ctx} {j pk script amount asset blind assetblind s s'} {u : Unit}
    (h : commitOutput C j pk script amount asset blind assetblind s = (.ok u, s')) :
    ∃ ca gen cv com nonce eph proof, ∃ surj : Option Bytes,
      blindedAsset C.E.z asset assetblind = .ok (ca, gen) ∧
      createValueCommitment C.E.z blind gen amount = .ok (cv, com) ∧
      outputNonce C.E pk (C.A.rand s.rnd) = .ok (nonce, eph) ∧
      generateRangeproof C.E.z C.A.ctExponent C.A.ctBits blind nonce amount script com gen asset assetblind = .ok proof ∧
      (∀ p, surj = some p → p ≠ [] ∧
        surjectionProof C.E.z C.T.targets C.T.gens C.T.blinders assetblind gen asset (C.A.rand (s.rnd + 1)) = .ok (some p)) ∧
      s' = { s with
        tx := (match surj with
          | none => setOut j (fun o => { o with nAsset := ca, nValue := cv, nNonce := eph }) s.tx
          | some p => setOutWit j (fun _ => { rangeproof := proof, surjectionproof := p })
              (setOut j (fun o => { o with nAsset := ca, nValue := cv, nNonce := eph }) s.tx))
        done := s.done + surj.toList.length
        rnd := s.rnd + 2
        obf := s.obf.set j (some blind)
        oabf := s.oabf.set j (some assetblind) } := by
  unfold commitOutput at h
  replace h := BM.bind_ok.1 h
  obtain ⟨_, s1, h1, h⟩ := h
  rw [BM.modify_ok] at h1
  replace h := BM.bind_ok.1 h
  obtain ⟨⟨ca, gen⟩, s2, h2, h⟩ := h
  rw [BM.lift_ok] at h2
  obtain ⟨h2, e2⟩ := h2
  dsimp only at h
  replace h := BM.bind_ok.1 h
  obtain ⟨_, s3, h3, h⟩ := h
  rw [BM.modifyTx_ok] at h3
  replace h := BM.bind_ok.1 h
  obtain ⟨⟨cv, com⟩, s4, h4, h⟩ := h
  rw [BM.lift_ok] at h4
  obtain ⟨h4, e4⟩ := h4
  dsimp only at h
  replace h := BM.bind_ok.1 h
  obtain ⟨_, s5, h5, h⟩ := h
  rw [BM.modifyTx_ok] at h5
  replace h := BM.bind_ok.1 h
  obtain ⟨seed, s6, h6, h⟩ := h
  rw [BM.rand_ok] at h6
  obtain ⟨e6, h6⟩ := h6
  replace h := BM.bind_ok.1 h
  obtain ⟨⟨nonce, eph⟩, s7, h7, h⟩ := h
  rw [BM.lift_ok] at h7
  obtain ⟨h7, e7⟩ := h7
  dsimp only at h
  replace h := BM.bind_ok.1 h
  obtain ⟨cn, s8, h8, h⟩ := h
  rw [BM.lift_ok] at h8
  obtain ⟨h8, e8⟩ := h8
  have hcn : cn = eph := by
    unfold confNew at h8
    split at h8
    · cases h8; rfl
    · cases h8
  rw [hcn] at h
  replace h := BM.bind_ok.1 h
  obtain ⟨_, s9, h9, h⟩ := h
  rw [BM.modifyTx_ok] at h9
  replace h := BM.bind_ok.1 h
  obtain ⟨proof, s10, h10, h⟩ := h
  rw [BM.lift_ok] at h10
  obtain ⟨h10, e10⟩ := h10
  replace h := BM.bind_ok.1 h
  obtain ⟨seed2, s11, h11, h⟩ := h
  rw [BM.rand_ok] at h11
  obtain ⟨e11, h11⟩ := h11
  replace h := BM.bind_ok.1 h
  obtain ⟨sp, s12, h12, h⟩ := h
  rw [BM.lift_ok] at h12
  obtain ⟨h12, e12⟩ := h12
  have hs12 : s12 = { s with
      tx := setOut j (fun o => { o with nAsset := ca, nValue := cv, nNonce := eph }) s.tx
      rnd := s.rnd + 2
      obf := s.obf.set j (some blind)
      oabf := s.oabf.set j (some assetblind) } := by
    rw [e12, h11, e10, h9, e8, e7, h6, h5, e4, h3, e2, h1]
    simp only [setOut, List.modify_modify_eq]
    rfl
  have hseed : seed = C.A.rand s.rnd := by rw [e6, h5, e4, h3, e2, h1]
  have hseed2 : seed2 = C.A.rand (s.rnd + 1) := by rw [e11, e10, h9, e8, e7, h6, h5, e4, h3, e2, h1]
  subst hseed hseed2
  refine Exists.elim (?_ : ∃ surj : Option Bytes, (∀ p, surj = some p → p ≠ [] ∧ sp = some p) ∧ s' = { s12 with
        tx := (match surj with
          | none => s12.tx
          | some p => setOutWit j (fun _ => { rangeproof := proof, surjectionproof := p }) s12.tx)
        done := s.done + surj.toList.length }) fun surj ⟨hp, he⟩ =>
    ⟨ca, gen, cv, com, nonce, eph, proof, surj, h2, h4, h7, h10, fun p hp' => ⟨(hp p hp').1, by rw [h12, (hp p hp').2]⟩, by
      rw [he, hs12]⟩
  cases sp with
  | none =>
    rw [BM.pure_ok] at h
    refine ⟨none, fun p hp => (by cases hp), ?_⟩
    rw [← h.2, hs12]; rfl
  | some p =>
    dsimp only at h
    by_cases hp : p.length = 0
    · rw [if_pos hp, BM.pure_ok] at h
      refine ⟨none, fun p hp => (by cases hp), ?_⟩
      rw [← h.2, hs12]; rfl
    · rw [if_neg hp] at h
      replace h := BM.bind_ok.1 h
      obtain ⟨_, s13, h13, h⟩ := h
      rw [BM.modifyTx_ok] at h13
      rw [BM.modify_ok] at h
      refine ⟨some p, fun q hq => ?_, ?_⟩
      · cases hq
        exact ⟨fun e => hp (by rw [e]; rfl), rfl⟩
      · rw [h, h13, hs12]; rfl

/-- `commitOutput` never returns early. -/
theorem commitOutput_ret {C : Ctx} {j pk script amount asset blind assetblind s s' r}
    (h : commitOutput C j pk script amount asset blind assetblind s = (.error (.ret r), s')) : False := by
  have lf : ∀ {α} {x : Except PyErr α} {s s'}, BM.lift x s = (.error (.ret r), s') → False := by
    intro α x s s' h
    replace h := BM.lift_error.1 h
    obtain ⟨_, _, h, _⟩ := h
    cases h
  unfold commitOutput at h
  replace h := BM.bind_error.1 h
  rcases h with h | ⟨_, _, _, h⟩
  · exact BM.modify_error.1 h
  replace h := BM.bind_error.1 h
  rcases h with h | ⟨⟨_, _⟩, _, _, h⟩
  · exact lf h
  dsimp only at h
  replace h := BM.bind_error.1 h
  rcases h with h | ⟨_, _, _, h⟩
  · exact BM.modifyTx_error.1 h
  replace h := BM.bind_error.1 h
  rcases h with h | ⟨⟨_, _⟩, _, _, h⟩
  · exact lf h
  dsimp only at h
  replace h := BM.bind_error.1 h
  rcases h with h | ⟨_, _, _, h⟩
  · exact BM.modifyTx_error.1 h
  replace h := BM.bind_error.1 h
  rcases h with h | ⟨_, _, _, h⟩
  · exact BM.rand_error.1 h
  replace h := BM.bind_error.1 h
  rcases h with h | ⟨⟨_, _⟩, _, _, h⟩
  · exact lf h
  dsimp only at h
  replace h := BM.bind_error.1 h
  rcases h with h | ⟨_, _, _, h⟩
  · exact lf h
  replace h := BM.bind_error.1 h
  rcases h with h | ⟨_, _, _, h⟩
  · exact BM.modifyTx_error.1 h
  replace h := BM.bind_error.1 h
  rcases h with h | ⟨_, _, _, h⟩
  · exact lf h
  replace h := BM.bind_error.1 h
  rcases h with h | ⟨_, _, _, h⟩
  · exact BM.rand_error.1 h
  replace h := BM.bind_error.1 h
  rcases h with h | ⟨sp, _, _, h⟩
  · exact lf h
  cases sp with
  | none => exact BM.pure_error.1 h
  | some p =>
    dsimp only at h
    split at h
    · exact BM.pure_error.1 h
    · rcases BM.bind_error.1 h with h | ⟨_, _, _, h⟩
      · exact BM.modifyTx_error.1 h
      · exact BM.modify_error.1 h

/-- The blinding factor of an output: random, or for the last one the sum that balances. -/
inductive Chosen (C : Ctx) (attempts issAttempts : Nat) (amounts : List Int) (assetblinds blinds : List Bytes) (rnd : Bytes) :
    Bytes → Prop
  | random : attempts ≠ C.nToBlind → Chosen C attempts issAttempts amounts assetblinds blinds rnd rnd
  | balancing (b : Bytes) : attempts = C.nToBlind → ¬ (attempts = 1 ∧ C.nBlindsIn = 0) →
      blinds.length + 1 = attempts + C.nBlindsIn → amounts.length = blinds.length + 1 →
      C.E.z.blindSum (amounts.map (twos 8)) assetblinds (blinds ++ [rnd]) (attempts + C.nBlindsIn)
        (issAttempts + C.nBlindsIn) = some b →
      ¬ isNull32 b = true → Chosen C attempts issAttempts amounts assetblinds blinds rnd b

/-- The state before the balancing step. -/
def preBalance (C : Ctx) (s : BS) (amount : Int) : BS :=
  { s with attempts := s.attempts + 1, amounts := s.amounts ++ [amount], rnd := s.rnd + 2
           blinds := s.blinds ++ [C.A.rand s.rnd], assetblinds := s.assetblinds ++ [C.A.rand (s.rnd + 1)] }

/-- An output step that returns early. -/
inductive EarlyOut (C : Ctx) (s : BS) (amount : Int) : BS → Prop
  /-- the only thing to blind, and no blinded inputs: nothing is done -/
  | alone : s.attempts + 1 = C.nToBlind → s.attempts = 0 → C.nBlindsIn = 0 → EarlyOut C s amount (preBalance C s amount)
  /-- the balancing factor is zero: counted as done, though nothing is done -/
  | zero (b : Bytes) : s.attempts + 1 = C.nToBlind → ¬ (s.attempts = 0 ∧ C.nBlindsIn = 0) →
      s.blinds.length = s.attempts + C.nBlindsIn → s.amounts.length = s.blinds.length →
      C.E.z.blindSum ((s.amounts ++ [amount]).map (twos 8)) (s.assetblinds ++ [C.A.rand (s.rnd + 1)])
        (s.blinds ++ [C.A.rand s.rnd]) (s.attempts + 1 + C.nBlindsIn) (s.issAttempts + C.nBlindsIn) = some b →
      isNull32 b = true →
      EarlyOut C s amount { preBalance C s amount with blinds := s.blinds ++ [b], done := s.done + 1 }

theorem balanceIfLast_ok {C : Ctx} {s s' amount} {u : Unit} (h : balanceIfLast C (preBalance C s amount) = (.ok u, s')) :
    ∃ b, Chosen C (s.attempts + 1) s.issAttempts (s.amounts ++ [amount]) (s.assetblinds ++ [C.A.rand (s.rnd + 1)]) s.blinds
        (C.A.rand s.rnd) b ∧ s' = { preBalance C s amount with blinds := s.blinds ++ [b] } := by
  unfold balanceIfLast at h
  replace h := BM.bind_ok.1 h
  obtain ⟨t, s1, h1, h⟩ := h
  replace h1 := BM.get_ok.1 h1
  obtain ⟨rfl, rfl⟩ := h1
  by_cases hl : (preBalance C s amount).attempts = C.nToBlind
  · rw [if_pos hl] at h
    unfold balance at h
    replace h := BM.bind_ok.1 h
    obtain ⟨t, s1, h1, h⟩ := h
    replace h1 := BM.get_ok.1 h1
    obtain ⟨rfl, rfl⟩ := h1
    by_cases h2 : (preBalance C s amount).attempts = 1 ∧ C.nBlindsIn = 0
    · rw [if_pos h2] at h
      exact absurd h (fun h => BM.finish_ok.1 h)
    rw [if_neg h2] at h
    by_cases h3 : (preBalance C s amount).blinds.length = (preBalance C s amount).attempts + C.nBlindsIn
    rotate_left
    · rw [if_pos h3] at h
      replace h := BM.lift_ok.1 h
      obtain ⟨h, _⟩ := h
      cases h
    rw [if_neg (by simpa using h3)] at h
    by_cases h4 : (preBalance C s amount).amounts.length = (preBalance C s amount).blinds.length
    rotate_left
    · rw [if_pos h4] at h
      replace h := BM.lift_ok.1 h
      obtain ⟨h, _⟩ := h
      cases h
    rw [if_neg (by simpa using h4)] at h
    replace h := BM.bind_ok.1 h
    obtain ⟨b, s1, h5, h⟩ := h
    rw [BM.lift_ok] at h5
    obtain ⟨h5, rfl⟩ := h5
    rw [orRuntime_ok] at h5
    replace h := BM.bind_ok.1 h
    obtain ⟨_, s2, h6, h⟩ := h
    rw [BM.modify_ok] at h6
    by_cases h7 : isNull32 b = true
    · rw [if_pos h7] at h
      replace h := BM.bind_ok.1 h
      obtain ⟨_, s3, _, h⟩ := h
      exact absurd h (fun h => BM.finish_ok.1 h)
    · rw [if_neg h7, BM.pure_ok] at h
      simp only [preBalance, List.length_append, List.length_singleton] at h3 h4
      refine ⟨b, .balancing b hl h2 h3 (by simp; omega) h5 h7, ?_⟩
      rw [← h.2, h6]
      simp [preBalance]
  · rw [if_neg hl, BM.pure_ok] at h
    exact ⟨_, .random hl, h.2.symm⟩

theorem balanceIfLast_ret {C : Ctx} {s s' amount r} (h : balanceIfLast C (preBalance C s amount) = (.error (.ret r), s')) :
    EarlyOut C s amount s' ∧ r = blindingResult C s' := by
  have lf : ∀ {α} {x : Except PyErr α} {s s'}, BM.lift x s = (.error (.ret r), s') → False := by
    intro α x s s' h
    replace h := BM.lift_error.1 h
    obtain ⟨_, _, h, _⟩ := h
    cases h
  unfold balanceIfLast at h
  replace h := BM.bind_error.1 h
  rcases h with h | ⟨t, s1, h1, h⟩
  · exact (BM.get_error.1 h).elim
  replace h1 := BM.get_ok.1 h1
  obtain ⟨rfl, rfl⟩ := h1
  by_cases hl : (preBalance C s amount).attempts = C.nToBlind
  rotate_left
  · rw [if_neg hl] at h
    exact (BM.pure_error.1 h).elim
  rw [if_pos hl] at h
  unfold balance at h
  replace h := BM.bind_error.1 h
  rcases h with h | ⟨t, s1, h1, h⟩
  · exact (BM.get_error.1 h).elim
  replace h1 := BM.get_ok.1 h1
  obtain ⟨rfl, rfl⟩ := h1
  by_cases h2 : (preBalance C s amount).attempts = 1 ∧ C.nBlindsIn = 0
  · rw [if_pos h2] at h
    replace h := BM.finish_error.1 h
    obtain ⟨h, rfl⟩ := h
    cases h
    have := h2.1
    simp only [preBalance] at this
    exact ⟨.alone hl (by omega) h2.2, rfl⟩
  rw [if_neg h2] at h
  by_cases h3 : (preBalance C s amount).blinds.length = (preBalance C s amount).attempts + C.nBlindsIn
  rotate_left
  · rw [if_pos h3] at h
    exact (lf h).elim
  rw [if_neg (by simpa using h3)] at h
  by_cases h4 : (preBalance C s amount).amounts.length = (preBalance C s amount).blinds.length
  rotate_left
  · rw [if_pos h4] at h
    exact (lf h).elim
  rw [if_neg (by simpa using h4)] at h
  replace h := BM.bind_error.1 h
  rcases h with h | ⟨b, s1, h5, h⟩
  · exact (lf h).elim
  rw [BM.lift_ok] at h5
  obtain ⟨h5, rfl⟩ := h5
  rw [orRuntime_ok] at h5
  replace h := BM.bind_error.1 h
  rcases h with h | ⟨_, s2, h6, h⟩
  · exact (BM.modify_error.1 h).elim
  rw [BM.modify_ok] at h6
  by_cases h7 : isNull32 b = true
  rotate_left
  · rw [if_neg h7] at h
    exact (BM.pure_error.1 h).elim
  rw [if_pos h7] at h
  replace h := BM.bind_error.1 h
  rcases h with h | ⟨_, s3, h8, h⟩
  · exact (BM.modify_error.1 h).elim
  rw [BM.modify_ok] at h8
  replace h := BM.finish_error.1 h
  obtain ⟨h, rfl⟩ := h
  cases h
  simp only [preBalance, List.length_append, List.length_singleton] at h2 h3 h4
  have e : s' = { preBalance C s amount with blinds := s.blinds ++ [b], done := s.done + 1 } := by
    rw [h8, h6]; simp [preBalance]
  refine ⟨?_, rfl⟩
  rw [e]
  refine .zero b hl (by omega) (by omega) (by omega) h5 h7

/-- Where the secrets of an output come from. -/
structure OutData.Chose (C : Ctx) (d : OutData) (s : BS) : Prop where
  blind : Chosen C (s.attempts + 1) s.issAttempts (s.amounts ++ [d.amount]) (s.assetblinds ++ [d.assetblind]) s.blinds
    (C.A.rand s.rnd) d.blind
  assetblind : d.assetblind = C.A.rand (s.rnd + 1)
  seed : d.seed = C.A.rand (s.rnd + 2)
  surj : ∀ p, d.surj = some p → surjectionProof C.E.z C.T.targets C.T.gens C.T.blinders d.assetblind d.gen
    d.asset (C.A.rand (s.rnd + 3)) = .ok (some p)

/-- An output step that goes through. -/
theorem outputBlind_ok {C : Ctx} {j pk s s'} {u : Unit} (h : outputBlind C j pk s = (.ok u, s')) :
    ∃ d : OutData, d.Made C ∧ d.Chose C s ∧ d.j = j ∧ d.pk = pk ∧ d.out = s.tx.vout.getD j {} ∧ s' = d.after s := by
  unfold outputBlind at h
  replace h := BM.bind_ok.1 h
  obtain ⟨_, s1, h1, h⟩ := h
  rw [BM.modify_ok] at h1
  replace h := BM.bind_ok.1 h
  obtain ⟨t, s2, h2, h⟩ := h
  replace h2 := BM.get_ok.1 h2
  obtain ⟨rfl, rfl⟩ := h2
  have e1 : s2.tx = s.tx := by rw [h1]
  replace h := BM.bind_ok.1 h
  obtain ⟨amount, s3, h3, h⟩ := h
  rw [BM.lift_ok] at h3
  obtain ⟨h3, rfl⟩ := h3
  replace h := BM.bind_ok.1 h
  obtain ⟨asset, s4, h4, h⟩ := h
  rw [BM.lift_ok] at h4
  obtain ⟨h4, rfl⟩ := h4
  replace h := BM.bind_ok.1 h
  obtain ⟨_, s5, h5, h⟩ := h
  rw [BM.modify_ok] at h5
  replace h := BM.bind_ok.1 h
  obtain ⟨r1, s6, h6, h⟩ := h
  replace h6 := BM.rand_ok.1 h6
  obtain ⟨e6, h6⟩ := h6
  replace h := BM.bind_ok.1 h
  obtain ⟨blind, s7, h7, h⟩ := h
  rw [BM.lift_ok] at h7
  obtain ⟨h7, rfl⟩ := h7
  obtain ⟨l7, rfl⟩ := uint256New_ok.1 h7
  replace h := BM.bind_ok.1 h
  obtain ⟨_, s8, h8, h⟩ := h
  rw [BM.modify_ok] at h8
  replace h := BM.bind_ok.1 h
  obtain ⟨r2, s9, h9, h⟩ := h
  replace h9 := BM.rand_ok.1 h9
  obtain ⟨e9, h9⟩ := h9
  replace h := BM.bind_ok.1 h
  obtain ⟨ab, s10, h10, h⟩ := h
  rw [BM.lift_ok] at h10
  obtain ⟨h10, rfl⟩ := h10
  obtain ⟨l10, rfl⟩ := uint256New_ok.1 h10
  replace h := BM.bind_ok.1 h
  obtain ⟨_, s11, h11, h⟩ := h
  rw [BM.modify_ok] at h11
  replace h := BM.bind_ok.1 h
  obtain ⟨_, s12, h12, h⟩ := h
  replace h := BM.bind_ok.1 h
  obtain ⟨t, s13, h13, h⟩ := h
  replace h13 := BM.get_ok.1 h13
  obtain ⟨rfl, rfl⟩ := h13
  have hb : blind = C.A.rand s.rnd := by rw [e6, h5, h1]
  have hab : ab = C.A.rand (s.rnd + 1) := by rw [e9, h8, h6, h5, h1]
  have hs11 : s11 = preBalance C s amount := by
    rw [h11, h9, h8, h6, h5, h1, hb, hab]; rfl
  rw [hs11] at h12
  obtain ⟨b, hc, rfl⟩ := balanceIfLast_ok h12
  obtain ⟨ca, gen, cv, com, nonce, eph, proof, surj, g1, g2, g3, g4, g5, rfl⟩ := commitOutput_ok h
  simp only [preBalance, List.getLastD_concat] at g1 g2 g3 g4 g5
  rw [e1] at h3 h4 g4
  refine ⟨⟨j, pk, s.tx.vout.getD j {}, amount, asset, b, C.A.rand (s.rnd + 1), ca, gen, cv, com, _, nonce, eph, proof, surj⟩,
    ⟨h3, h4, g1, g2, g3, g4, fun p hp => ⟨(g5 p hp).1, _, (g5 p hp).2⟩, ?_, ?_⟩,
    ⟨hc, rfl, rfl, fun p hp => (g5 p hp).2⟩, rfl, rfl, rfl, ?_⟩
  · cases hc with
    | random => rw [← hb]; exact l7
    | balancing _ _ _ _ _ h => exact C.E.z.blindSum_len _ _ _ _ _ _ h
  · dsimp only; rw [← hab]; exact l10
  · simp only [preBalance, List.getLastD_concat]
    cases surj <;> rfl

/-- An output step that returns early. -/
theorem outputBlind_ret {C : Ctx} {j pk s s' r} (h : outputBlind C j pk s = (.error (.ret r), s')) :
    ∃ amount, valueToAmount (s.tx.vout.getD j {}).nValue = .ok amount ∧ (C.A.rand (s.rnd + 1)).length = 32 ∧
      EarlyOut C s amount s' ∧ r = blindingResult C s' := by
  have lf : ∀ {α} {x : Except PyErr α} {s s'}, BM.lift x s = (.error (.ret r), s') → False := by
    intro α x s s' h
    replace h := BM.lift_error.1 h
    obtain ⟨_, _, h, _⟩ := h
    cases h
  unfold outputBlind at h
  replace h := BM.bind_error.1 h
  rcases h with h | ⟨_, s1, h1, h⟩
  · exact (BM.modify_error.1 h).elim
  rw [BM.modify_ok] at h1
  replace h := BM.bind_error.1 h
  rcases h with h | ⟨t, s2, h2, h⟩
  · exact (BM.get_error.1 h).elim
  replace h2 := BM.get_ok.1 h2
  obtain ⟨rfl, rfl⟩ := h2
  have e1 : s2.tx = s.tx := by rw [h1]
  replace h := BM.bind_error.1 h
  rcases h with h | ⟨amount, s3, h3, h⟩
  · exact (lf h).elim
  rw [BM.lift_ok] at h3
  obtain ⟨h3, rfl⟩ := h3
  replace h := BM.bind_error.1 h
  rcases h with h | ⟨asset, s4, h4, h⟩
  · exact (lf h).elim
  rw [BM.lift_ok] at h4
  obtain ⟨h4, rfl⟩ := h4
  replace h := BM.bind_error.1 h
  rcases h with h | ⟨_, s5, h5, h⟩
  · exact (BM.modify_error.1 h).elim
  rw [BM.modify_ok] at h5
  replace h := BM.bind_error.1 h
  rcases h with h | ⟨r1, s6, h6, h⟩
  · exact (BM.rand_error.1 h).elim
  replace h6 := BM.rand_ok.1 h6
  obtain ⟨e6, h6⟩ := h6
  replace h := BM.bind_error.1 h
  rcases h with h | ⟨blind, s7, h7, h⟩
  · exact (lf h).elim
  rw [BM.lift_ok] at h7
  obtain ⟨h7, rfl⟩ := h7
  obtain ⟨l7, rfl⟩ := uint256New_ok.1 h7
  replace h := BM.bind_error.1 h
  rcases h with h | ⟨_, s8, h8, h⟩
  · exact (BM.modify_error.1 h).elim
  rw [BM.modify_ok] at h8
  replace h := BM.bind_error.1 h
  rcases h with h | ⟨r2, s9, h9, h⟩
  · exact (BM.rand_error.1 h).elim
  replace h9 := BM.rand_ok.1 h9
  obtain ⟨e9, h9⟩ := h9
  replace h := BM.bind_error.1 h
  rcases h with h | ⟨ab, s10, h10, h⟩
  · exact (lf h).elim
  rw [BM.lift_ok] at h10
  obtain ⟨h10, rfl⟩ := h10
  obtain ⟨l10, rfl⟩ := uint256New_ok.1 h10
  replace h := BM.bind_error.1 h
  rcases h with h | ⟨_, s11, h11, h⟩
  · exact (BM.modify_error.1 h).elim
  rw [BM.modify_ok] at h11
  have hb : blind = C.A.rand s.rnd := by rw [e6, h5, h1]
  have hab : ab = C.A.rand (s.rnd + 1) := by rw [e9, h8, h6, h5, h1]
  have hs11 : s11 = preBalance C s amount := by
    rw [h11, h9, h8, h6, h5, h1, hb, hab]; rfl
  rw [e1] at h3
  replace h := BM.bind_error.1 h
  rcases h with h | ⟨_, s12, h12, h⟩
  · rw [hs11] at h
    exact ⟨amount, h3, by rw [← hab]; exact l10, balanceIfLast_ret h⟩
  replace h := BM.bind_error.1 h
  rcases h with h | ⟨_, s13, h13, h⟩
  · exact (BM.get_error.1 h).elim
  exact (commitOutput_ret h).elim

/-! ### Issuances -/

/-- Everything one blinded issuance consists of. -/
structure IssData where
  i : Nat
  token : Bool
  key : Bytes
  /-- the input before -/
  txin : TxIn
  amount : Int
  asset : Bytes
  blind : Bytes
  confAsset : Bytes
  gen : Bytes
  confValue : Bytes
  commit : Bytes
  proof : Bytes

/-- The issued amount, or the number of tokens. -/
def Issuance.val (i : Issuance) (token : Bool) : Bytes := if token then i.nInflationKeys else i.nAmount
def Issuance.setVal (i : Issuance) (token : Bool) (v : Bytes) : Issuance :=
  if token then { i with nInflationKeys := v } else { i with nAmount := v }
def TxInWitness.setProof (w : TxInWitness) (token : Bool) (p : Bytes) : TxInWitness :=
  if token then { w with inflationKeysRangeproof := p } else { w with issuanceAmountRangeproof := p }
def TxInWitness.proof (w : TxInWitness) (token : Bool) : Bytes :=
  if token then w.inflationKeysRangeproof else w.issuanceAmountRangeproof

structure IssData.Made (C : Ctx) (d : IssData) : Prop where
  notNull : ¬ confIsNull (d.txin.assetIssuance.val d.token) = true
  amount : valueToAmount (d.txin.assetIssuance.val d.token) = .ok d.amount
  asset : pseudoAsset C.E d.txin d.token = .ok (some d.asset)
  blindedAsset : blindedAsset C.E.z d.asset zero32 = .ok (d.confAsset, d.gen)
  commit : createValueCommitment C.E.z d.blind d.gen d.amount = .ok (d.confValue, d.commit)
  key_len : d.key.length = 32
  proof : generateRangeproof C.E.z C.A.ctExponent C.A.ctBits d.blind d.key d.amount [] d.commit d.gen d.asset zero32
    = .ok d.proof
  blind_len : d.blind.length = 32

def IssData.newTx (d : IssData) (tx : Tx) : Tx :=
  setInWit d.i (fun w => w.setProof d.token d.proof)
    (setIssuance d.i (d.txin.assetIssuance.setVal d.token d.confValue)
      { tx with wit := { tx.wit with vtxinwit := padTo tx.wit.vtxinwit (d.i + 1) {} } })

def IssData.after (d : IssData) (s : BS) : BS :=
  { s with
    tx := d.newTx s.tx
    attempts := s.attempts + 1
    issAttempts := s.issAttempts + 1
    done := s.done + 1
    blinds := s.blinds ++ [d.blind]
    assetblinds := s.assetblinds ++ [zero32]
    amounts := s.amounts ++ [d.amount]
    rnd := s.rnd + 1 }

theorem blindPseudo_ok {C : Ctx} {i token key amount asset blind s s'} {u : Unit}
    (h : blindPseudo C i token key amount asset blind s = (.ok u, s')) :
    ∃ ca gen cv com proof, blindedAsset C.E.z asset zero32 = .ok (ca, gen) ∧
      createValueCommitment C.E.z blind gen amount = .ok (cv, com) ∧ key.length = 32 ∧
      generateRangeproof C.E.z C.A.ctExponent C.A.ctBits blind key amount [] com gen asset zero32 = .ok proof ∧
      s' = { s with
        tx := setInWit i (fun w => w.setProof token proof)
          (setIssuance i ((s.tx.vin.getD i default).assetIssuance.setVal token cv)
            { s.tx with wit := { s.tx.wit with vtxinwit := padTo s.tx.wit.vtxinwit (i + 1) {} } })
        done := s.done + 1 } := by
  unfold blindPseudo at h
  replace h := BM.bind_ok.1 h
  obtain ⟨_, s1, h1, h⟩ := h
  rw [BM.modifyTx_ok] at h1
  replace h := BM.bind_ok.1 h
  obtain ⟨⟨ca, gen⟩, s2, h2, h⟩ := h
  rw [BM.lift_ok] at h2
  obtain ⟨h2, rfl⟩ := h2
  dsimp only at h
  replace h := BM.bind_ok.1 h
  obtain ⟨⟨cv, com⟩, s3, h3, h⟩ := h
  rw [BM.lift_ok] at h3
  obtain ⟨h3, rfl⟩ := h3
  dsimp only at h
  replace h := BM.bind_ok.1 h
  obtain ⟨t, s4, h4, h⟩ := h
  replace h4 := BM.get_ok.1 h4
  obtain ⟨rfl, rfl⟩ := h4
  replace h := BM.bind_ok.1 h
  obtain ⟨_, s5, h5, h⟩ := h
  rw [BM.modifyTx_ok] at h5
  replace h := BM.bind_ok.1 h
  obtain ⟨nonce, s6, h6, h⟩ := h
  rw [BM.lift_ok] at h6
  obtain ⟨h6, rfl⟩ := h6
  obtain ⟨hk, rfl⟩ := uint256New_ok.1 h6
  replace h := BM.bind_ok.1 h
  obtain ⟨proof, s7, h7, h⟩ := h
  rw [BM.lift_ok] at h7
  obtain ⟨h7, rfl⟩ := h7
  replace h := BM.bind_ok.1 h
  obtain ⟨_, s8, h8, h⟩ := h
  rw [BM.modifyTx_ok] at h8
  rw [BM.modify_ok] at h
  refine ⟨ca, gen, cv, com, proof, h2, h3, hk, h7, ?_⟩
  rw [h, h8, h5, h1]
  rfl

theorem blindPseudo_ret {C : Ctx} {i token key amount asset blind s s' r}
    (h : blindPseudo C i token key amount asset blind s = (.error (.ret r), s')) : False := by
  have lf : ∀ {α} {x : Except PyErr α} {s s'}, BM.lift x s = (.error (.ret r), s') → False := by
    intro α x s s' h
    replace h := BM.lift_error.1 h
    obtain ⟨_, _, h, _⟩ := h
    cases h
  unfold blindPseudo at h
  replace h := BM.bind_error.1 h
  rcases h with h | ⟨_, _, _, h⟩
  · exact BM.modifyTx_error.1 h
  replace h := BM.bind_error.1 h
  rcases h with h | ⟨⟨_, _⟩, _, _, h⟩
  · exact lf h
  dsimp only at h
  replace h := BM.bind_error.1 h
  rcases h with h | ⟨⟨_, _⟩, _, _, h⟩
  · exact lf h
  dsimp only at h
  replace h := BM.bind_error.1 h
  rcases h with h | ⟨_, _, _, h⟩
  · exact BM.get_error.1 h
  replace h := BM.bind_error.1 h
  rcases h with h | ⟨_, _, _, h⟩
  · exact BM.modifyTx_error.1 h
  replace h := BM.bind_error.1 h
  rcases h with h | ⟨_, _, _, h⟩
  · exact lf h
  replace h := BM.bind_error.1 h
  rcases h with h | ⟨_, _, _, h⟩
  · exact lf h
  replace h := BM.bind_error.1 h
  rcases h with h | ⟨_, _, _, h⟩
  · exact BM.modifyTx_error.1 h
  · exact BM.modify_error.1 h

/-- An issuance with a key that is passed over: nothing issued, or the tokens of a reissuance. -/
inductive PassedOver (C : Ctx) (txin : TxIn) (token : Bool) : List Int → Prop
  | null : confIsNull (txin.assetIssuance.val token) = true → PassedOver C txin token []
  | reissued (a : Int) : ¬ confIsNull (txin.assetIssuance.val token) = true → token = true →
      ¬ isNull32 txin.assetIssuance.assetBlindingNonce = true →
      valueToAmount (txin.assetIssuance.val token) = .ok a → PassedOver C txin token [a]

theorem pseudoAsset_none {E : Env} {txin : TxIn} {token : Bool} (h : pseudoAsset E txin token = .ok none) :
    token = true ∧ ¬ isNull32 txin.assetIssuance.assetBlindingNonce = true := by
  unfold pseudoAsset at h
  split at h
  · obtain ⟨_, _, h⟩ := exc_bind_ok.1 h
    cases token
    · obtain ⟨_, _, h⟩ := exc_bind_ok.1 h
      cases h
    · obtain ⟨_, _, h⟩ := exc_bind_ok.1 h
      cases h
  · rename_i hn
    cases token
    · obtain ⟨_, _, h⟩ := exc_bind_ok.1 h
      cases h
    · exact ⟨rfl, hn⟩

/-- An issuance step that goes through. -/
theorem issuancePseudo_ok {C : Ctx} {i token key s s'} {u : Unit} (h : issuancePseudo C i token key s = (.ok u, s')) :
    (∃ as₁, PassedOver C (s.tx.vin.getD i default) token as₁ ∧ s' = { s with
        attempts := s.attempts + 1
        issAttempts := s.issAttempts + 1
        amounts := s.amounts ++ as₁ }) ∨
    ∃ d : IssData, d.Made C ∧ s.attempts + 1 ≠ C.nToBlind ∧ d.i = i ∧ d.token = token ∧ d.key = key ∧
      d.txin = s.tx.vin.getD i default ∧ d.blind = C.A.rand s.rnd ∧ s' = d.after s := by
  unfold issuancePseudo at h
  replace h := BM.bind_ok.1 h
  obtain ⟨_, s1, h1, h⟩ := h
  rw [BM.modify_ok] at h1
  replace h := BM.bind_ok.1 h
  obtain ⟨t, s2, h2, h⟩ := h
  replace h2 := BM.get_ok.1 h2
  obtain ⟨rfl, rfl⟩ := h2
  have e1 : s2.tx = s.tx := by rw [h1]
  rw [e1] at h
  change (if confIsNull ((s.tx.vin.getD i default).assetIssuance.val token) = true then _ else _ : BM Unit) s2 = _ at h
  generalize hx : s.tx.vin.getD i default = txin at h ⊢
  by_cases hn : confIsNull (txin.assetIssuance.val token) = true
  · rw [if_pos hn, BM.pure_ok] at h
    refine .inl ⟨[], .null hn, ?_⟩
    rw [← h.2, h1]; simp
  · rw [if_neg hn] at h
    replace h := BM.bind_ok.1 h
    obtain ⟨amount, s3, h3, h⟩ := h
    rw [BM.lift_ok] at h3
    obtain ⟨h3, rfl⟩ := h3
    replace h := BM.bind_ok.1 h
    obtain ⟨_, s4, h4, h⟩ := h
    rw [BM.modify_ok] at h4
    replace h := BM.bind_ok.1 h
    obtain ⟨oa, s5, h5, h⟩ := h
    rw [BM.lift_ok] at h5
    obtain ⟨h5, rfl⟩ := h5
    cases oa with
    | none =>
      rw [BM.pure_ok] at h
      obtain ⟨ht, hz⟩ := pseudoAsset_none h5
      refine .inl ⟨[amount], .reissued amount hn ht hz h3, ?_⟩
      rw [← h.2, h4, h1]
    | some asset =>
      dsimp only at h
      replace h := BM.bind_ok.1 h
      obtain ⟨r, s6, h6, h⟩ := h
      replace h6 := BM.rand_ok.1 h6
      obtain ⟨e6, h6⟩ := h6
      replace h := BM.bind_ok.1 h
      obtain ⟨b, s7, h7, h⟩ := h
      rw [BM.lift_ok] at h7
      obtain ⟨h7, rfl⟩ := h7
      obtain ⟨l7, rfl⟩ := uint256New_ok.1 h7
      replace h := BM.bind_ok.1 h
      obtain ⟨_, s8, h8, h⟩ := h
      rw [BM.modify_ok] at h8
      replace h := BM.bind_ok.1 h
      obtain ⟨t', s9, h9, h⟩ := h
      replace h9 := BM.get_ok.1 h9
      obtain ⟨rfl, rfl⟩ := h9
      have hb : b = C.A.rand s.rnd := by rw [e6, h4, h1]
      have ht : s9 = { s with attempts := s.attempts + 1, issAttempts := s.issAttempts + 1
                              amounts := s.amounts ++ [amount], rnd := s.rnd + 1
                              blinds := s.blinds ++ [b], assetblinds := s.assetblinds ++ [zero32] } := by
        rw [h8, h6, h4, h1]
      by_cases hl : s9.attempts = C.nToBlind
      · rw [if_pos hl] at h
        exact (BM.finish_ok.1 h).elim
      · rw [if_neg hl] at h
        obtain ⟨ca, gen, cv, com, proof, g1, g2, g3, g4, rfl⟩ := blindPseudo_ok h
        rw [ht] at hl ⊢
        refine .inr ⟨⟨i, token, key, txin, amount, asset, b, ca, gen, cv, com, proof⟩,
          ⟨hn, h3, h5, g1, g2, g3, g4, l7⟩, hl, rfl, rfl, rfl, rfl, hb, ?_⟩
        simp only [hx]
        rfl

/-- An issuance step that returns early: nothing was changed, the last thing to blind is not. -/
theorem issuancePseudo_ret {C : Ctx} {i token key s s' r} (h : issuancePseudo C i token key s = (.error (.ret r), s')) :
    s.attempts + 1 = C.nToBlind ∧ s'.tx = s.tx ∧ s'.done = s.done ∧ s'.obf = s.obf ∧ s'.oabf = s.oabf ∧
      r = blindingResult C s' := by
  have lf : ∀ {α} {x : Except PyErr α} {s s'}, BM.lift x s = (.error (.ret r), s') → False := by
    intro α x s s' h
    replace h := BM.lift_error.1 h
    obtain ⟨_, _, h, _⟩ := h
    cases h
  unfold issuancePseudo at h
  replace h := BM.bind_error.1 h
  rcases h with h | ⟨_, s1, h1, h⟩
  · exact (BM.modify_error.1 h).elim
  rw [BM.modify_ok] at h1
  replace h := BM.bind_error.1 h
  rcases h with h | ⟨t, s2, h2, h⟩
  · exact (BM.get_error.1 h).elim
  replace h2 := BM.get_ok.1 h2
  obtain ⟨rfl, rfl⟩ := h2
  have e1 : s2.tx = s.tx := by rw [h1]
  change (if confIsNull ((s2.tx.vin.getD i default).assetIssuance.val token) = true then _ else _ : BM Unit) s2 = _ at h
  split at h
  · exact (BM.pure_error.1 h).elim
  replace h := BM.bind_error.1 h
  rcases h with h | ⟨amount, s3, h3, h⟩
  · exact (lf h).elim
  rw [BM.lift_ok] at h3
  obtain ⟨h3, rfl⟩ := h3
  replace h := BM.bind_error.1 h
  rcases h with h | ⟨_, s4, h4, h⟩
  · exact (BM.modify_error.1 h).elim
  rw [BM.modify_ok] at h4
  replace h := BM.bind_error.1 h
  rcases h with h | ⟨oa, s5, h5, h⟩
  · exact (lf h).elim
  rw [BM.lift_ok] at h5
  obtain ⟨h5, rfl⟩ := h5
  cases oa with
  | none => exact (BM.pure_error.1 h).elim
  | some asset =>
    dsimp only at h
    replace h := BM.bind_error.1 h
    rcases h with h | ⟨r, s6, h6, h⟩
    · exact (BM.rand_error.1 h).elim
    replace h6 := BM.rand_ok.1 h6
    obtain ⟨e6, h6⟩ := h6
    replace h := BM.bind_error.1 h
    rcases h with h | ⟨b, s7, h7, h⟩
    · exact (lf h).elim
    rw [BM.lift_ok] at h7
    obtain ⟨h7, rfl⟩ := h7
    replace h := BM.bind_error.1 h
    rcases h with h | ⟨_, s8, h8, h⟩
    · exact (BM.modify_error.1 h).elim
    rw [BM.modify_ok] at h8
    replace h := BM.bind_error.1 h
    rcases h with h | ⟨t', s9, h9, h⟩
    · exact (BM.get_error.1 h).elim
    replace h9 := BM.get_ok.1 h9
    obtain ⟨rfl, rfl⟩ := h9
    by_cases hl : s9.attempts = C.nToBlind
    · rw [if_pos hl] at h
      replace h := BM.finish_error.1 h
      obtain ⟨h, rfl⟩ := h
      cases h
      have : s'.attempts = s.attempts + 1 := by rw [h8, h6, h4, h1]
      exact ⟨by rw [← this]; exact hl, by rw [h8, h6, h4, h1], by rw [h8, h6, h4, h1], by rw [h8, h6, h4, h1],
        by rw [h8, h6, h4, h1], rfl⟩
    · rw [if_neg hl] at h
      exact (blindPseudo_ret h).elim

end Verif
