import Verif.Spec.Blind
import Verif.BlindLemmas
import Mathlib.Tactic.Set
import Verif.ZkpToy
/-
C32: blinding changes only what it was asked to.  C38, C39: failures.
-/
namespace Verif

theorem keyAt_some {ks : List (Option Bytes)} {i k} : keyAt ks i = some k ↔ ks[i]? = some (some k) := by
  unfold keyAt
  cases ks[i]? with
  | none => simp
  | some o => cases o <;> simp

/-! ### Each change of the transaction -/

theorem getElem?_modify_map {α β} (l : List α) (f : α → α) (g : α → β) (hg : ∀ a, g (f a) = g a) (n i : Nat) :
    (l.modify n f)[i]?.map g = l[i]?.map g := by
  rw [List.getElem?_modify]
  by_cases h : n = i <;> cases l[i]? <;> simp [hg, h]

theorem map_modify_same {α β} (l : List α) (f : α → α) (g : α → β) (hg : ∀ a, g (f a) = g a) (n : Nat) :
    (l.modify n f).map g = l.map g := by
  apply List.ext_getElem?
  intro i
  rw [List.getElem?_map, List.getElem?_map, getElem?_modify_map _ _ _ hg]

theorem getElem?_modify_ne {α} (l : List α) (f : α → α) {n i : Nat} (h : n ≠ i) : (l.modify n f)[i]? = l[i]? := by
  rw [List.getElem?_modify]
  simp [h]

theorem getD_padTo {α} (l : List α) (n : Nat) (x : α) (i : Nat) : ((padTo l n x)[i]?).getD x = (l[i]?).getD x := by
  unfold padTo
  by_cases h : i < l.length
  · rw [List.getElem?_append_left h]
  · rw [List.getElem?_append_right (by omega), List.getElem?_eq_none (l := l) (by omega)]
    rw [List.getElem?_replicate]
    split <;> rfl

theorem padTo_get_lt {α} (l : List α) (n : Nat) (x : α) (i : Nat) (h : i < l.length) : (padTo l n x)[i]? = l[i]? := by
  unfold padTo
  rw [List.getElem?_append_left h]

theorem onlyAsked_padIn (A : BlindArgs) (n : Nat) (tx : Tx) :
    OnlyAsked A tx { tx with wit := { tx.wit with vtxinwit := padTo tx.wit.vtxinwit n {} } } := by
  have key : ∀ i, Tx.inWit { tx with wit := { tx.wit with vtxinwit := padTo tx.wit.vtxinwit n {} } } i = tx.inWit i := by
    intro i; exact getD_padTo _ _ _ _
  exact ⟨rfl, rfl, rfl, fun _ _ => rfl, fun _ _ => rfl, rfl, fun _ _ => rfl, fun i => by rw [key],
    fun i => by rw [key], fun i _ => by rw [key], fun i _ => by rw [key], fun _ _ => rfl⟩

theorem onlyAsked_padOut (A : BlindArgs) (n : Nat) (tx : Tx) :
    OnlyAsked A tx { tx with wit := { tx.wit with vtxoutwit := padTo tx.wit.vtxoutwit n {} } } :=
  ⟨rfl, rfl, rfl, fun _ _ => rfl, fun _ _ => rfl, rfl, fun _ _ => rfl, fun _ => rfl, fun _ => rfl,
    fun _ _ => rfl, fun _ _ => rfl, fun j _ => getD_padTo _ _ _ _⟩

theorem onlyAsked_setOut {A : BlindArgs} {j : Nat} (hj : A.pubkeys.getD j [] ≠ []) (f : TxOut → TxOut)
    (hf : ∀ o, (f o).scriptPubKey = o.scriptPubKey) (tx : Tx) : OnlyAsked A tx (setOut j f tx) :=
  ⟨rfl, rfl, rfl, fun _ _ => rfl, fun _ _ => rfl, map_modify_same _ _ _ hf _,
    fun i hi => getElem?_modify_ne _ _ (fun h => hj (h ▸ hi)), fun _ => rfl, fun _ => rfl,
    fun _ _ => rfl, fun _ _ => rfl, fun _ _ => rfl⟩

theorem onlyAsked_setOutWit {A : BlindArgs} {j : Nat} (hj : A.pubkeys.getD j [] ≠ []) (f : TxOutWitness → TxOutWitness)
    (tx : Tx) : OnlyAsked A tx (setOutWit j f tx) :=
  ⟨rfl, rfl, rfl, fun _ _ => rfl, fun _ _ => rfl, rfl, fun _ _ => rfl, fun _ => rfl, fun _ => rfl,
    fun _ _ => rfl, fun _ _ => rfl, fun i hi => by
      show (((tx.wit.vtxoutwit.modify j f)[i]?).getD {}) = _
      have hne : j ≠ i := by rintro rfl; exact hj hi
      rw [getElem?_modify_ne _ _ hne]
      rfl⟩

/-- Changing the issuance of input `i` in the field the key is for. -/
theorem onlyAsked_setIssuance {A : BlindArgs} {i : Nat} {token : Bool} {k : Bytes}
    (hk : keyAt (if token then A.tokenKeys else A.assetKeys) i = some k) (v : Bytes) (tx : Tx) :
    OnlyAsked A tx (setIssuance i
      (if token then { (tx.vin.getD i default).assetIssuance with nInflationKeys := v }
        else { (tx.vin.getD i default).assetIssuance with nAmount := v }) tx) := by
  rw [keyAt_some] at hk
  set iss := if token then { (tx.vin.getD i default).assetIssuance with nInflationKeys := v }
        else { (tx.vin.getD i default).assetIssuance with nAmount := v } with hiss
  -- the input at `i` after the change
  have at_i : ∀ (β : Type) (g : TxIn → β) (j : Nat),
      (j = i → ∀ t, tx.vin[i]? = some t → g { t with assetIssuance := iss } = g t) →
      (setIssuance i iss tx).vin[j]?.map g = tx.vin[j]?.map g := by
    intro β g j hg
    show ((tx.vin.modify i _)[j]?).map g = _
    by_cases hij : i = j
    · subst hij
      rw [List.getElem?_modify]
      cases ht : tx.vin[i]? with
      | none => rfl
      | some t => simp [hg rfl t ht]
    · rw [getElem?_modify_ne _ _ hij]
  have hget : ∀ t, tx.vin[i]? = some t → (tx.vin.getD i default) = t := by
    intro t ht; rw [List.getD_eq_getElem?_getD, ht]; rfl
  refine ⟨rfl, rfl, ?_, ?_, ?_, rfl, fun _ _ => rfl, fun _ => rfl, fun _ => rfl, fun _ _ => rfl,
    fun _ _ => rfl, fun _ _ => rfl⟩
  · apply List.ext_getElem?
    intro j
    rw [List.getElem?_map, List.getElem?_map]
    refine at_i _ TxIn.fixed j fun _ t ht => ?_
    simp only [TxIn.fixed, hiss, hget t ht]
    cases token <;> rfl
  · intro j hj
    refine at_i _ _ j fun hji t ht => ?_
    simp only [hiss, hget t ht]
    cases token
    · subst hji; exact absurd hk (hj k)
    · rfl
  · intro j hj
    refine at_i _ _ j fun hji t ht => ?_
    simp only [hiss, hget t ht]
    cases token
    · rfl
    · subst hji; exact absurd hk (hj k)

theorem onlyAsked_setInWit {A : BlindArgs} {i : Nat} {token : Bool} {k : Bytes}
    (hk : keyAt (if token then A.tokenKeys else A.assetKeys) i = some k) (p : Bytes) (tx : Tx) :
    OnlyAsked A tx (setInWit i (fun w =>
      if token then { w with inflationKeysRangeproof := p } else { w with issuanceAmountRangeproof := p }) tx) := by
  rw [keyAt_some] at hk
  have at_i : ∀ (g : TxInWitness → Bytes ⊕ List Bytes) (j : Nat),
      (j = i → ∀ w : TxInWitness, g (if token then { w with inflationKeysRangeproof := p }
        else { w with issuanceAmountRangeproof := p }) = g w) →
      g ((setInWit i (fun w => if token then { w with inflationKeysRangeproof := p }
        else { w with issuanceAmountRangeproof := p }) tx).inWit j) = g (tx.inWit j) := by
    intro g j hg
    show g (((tx.wit.vtxinwit.modify i _)[j]?).getD {}) = _
    by_cases hij : i = j
    · subst hij
      rw [List.getElem?_modify]
      unfold Tx.inWit
      cases tx.wit.vtxinwit[i]? with
      | none => rfl
      | some w => simpa using hg rfl w
    · rw [getElem?_modify_ne _ _ hij]; rfl
  refine ⟨rfl, rfl, rfl, fun _ _ => rfl, fun _ _ => rfl, rfl, fun _ _ => rfl, ?_, ?_, ?_, ?_, fun _ _ => rfl⟩
  · intro j
    refine Sum.inr.inj (at_i (fun w => Sum.inr w.scriptWitness) j fun _ w => ?_)
    cases token <;> rfl
  · intro j
    refine Sum.inr.inj (at_i (fun w => Sum.inr w.peginWitness) j fun _ w => ?_)
    cases token <;> rfl
  · intro j hj
    refine Sum.inl.inj (at_i (fun w => Sum.inl w.issuanceAmountRangeproof) j fun hji w => ?_)
    cases token
    · subst hji; exact absurd hk (hj k)
    · rfl
  · intro j hj
    refine Sum.inl.inj (at_i (fun w => Sum.inl w.inflationKeysRangeproof) j fun hji w => ?_)
    cases token
    · rfl
    · subst hji; exact absurd hk (hj k)

/-! ### Whole runs -/

/-- However a computation ends, the transaction only changed where asked. -/
def Keeps {α} (A : BlindArgs) (m : BM α) : Prop := ∀ s, OnlyAsked A s.tx (m s).2.tx

theorem Keeps.bind {α β} {A : BlindArgs} {m : BM α} {f : α → BM β} (hm : Keeps A m) (hf : ∀ a, Keeps A (f a)) :
    Keeps A (m >>= f) := by
  intro s
  have h1 := hm s
  show OnlyAsked A s.tx (match m s with | (.ok a, s) => f a s | (.error e, s) => (.error e, s)).2.tx
  rcases hr : m s with ⟨_ | a, s1⟩
  · rw [hr] at h1; exact h1
  · rw [hr] at h1; exact h1.trans (hf a s1)

theorem Keeps.pure {α} {A : BlindArgs} (a : α) : Keeps A (pure a : BM α) := fun s => .refl A s.tx
theorem Keeps.get {A : BlindArgs} : Keeps A BM.get := fun s => .refl A s.tx
theorem Keeps.lift {α} {A : BlindArgs} (e : Except PyErr α) : Keeps A (BM.lift e) := fun s => .refl A s.tx
theorem Keeps.stop {α} {A : BlindArgs} (r : BlindResult) : Keeps A (BM.stop r : BM α) := fun s => .refl A s.tx
theorem Keeps.rand {A : BlindArgs} : Keeps A (BM.rand A) := fun s => .refl A s.tx
theorem Keeps.modify {A : BlindArgs} {f : BS → BS} (h : ∀ s, (f s).tx = s.tx) : Keeps A (BM.modify f) := by
  intro s; show OnlyAsked A s.tx (f s).tx; rw [h]; exact .refl A s.tx
theorem Keeps.modifyTx {A : BlindArgs} {f : Tx → Tx} (h : ∀ t, OnlyAsked A t (f t)) : Keeps A (BM.modifyTx f) :=
  fun s => h s.tx
theorem Keeps.finish {α} (C : Ctx) : Keeps C.A (BM.finish C : BM α) := .bind .get fun _ => .stop _

theorem keeps_blindPseudo (C : Ctx) (i : Nat) (token : Bool) (key : Bytes)
    (hk : keyAt (if token then C.A.tokenKeys else C.A.assetKeys) i = some key) (amount : Int) (asset blind : Bytes) :
    Keeps C.A (blindPseudo C i token key amount asset blind) := by
  unfold blindPseudo
  refine .bind (.modifyTx fun t => onlyAsked_padIn _ _ t) fun _ => ?_
  refine .bind (.lift _) fun p => ?_
  obtain ⟨_, gen⟩ := p
  refine .bind (.lift _) fun p => ?_
  obtain ⟨cv, com⟩ := p
  -- the issuance written is that of the current transaction with one field changed
  intro s
  refine OnlyAsked.trans (onlyAsked_setIssuance hk cv s.tx) ?_
  refine Keeps.bind (A := C.A) (m := BM.lift _) (.lift _) (fun nonce => ?_)
    { s with tx := setIssuance i (if token then { (s.tx.vin.getD i default).assetIssuance with nInflationKeys := cv }
        else { (s.tx.vin.getD i default).assetIssuance with nAmount := cv }) s.tx }
  refine .bind (.lift _) fun proof => ?_
  exact .bind (.modifyTx fun t => onlyAsked_setInWit hk proof t) fun _ => .modify fun _ => rfl

theorem keeps_issuancePseudo (C : Ctx) (i : Nat) (token : Bool) (key : Bytes)
    (hk : keyAt (if token then C.A.tokenKeys else C.A.assetKeys) i = some key) :
    Keeps C.A (issuancePseudo C i token key) := by
  unfold issuancePseudo
  refine .bind (.modify fun _ => rfl) fun _ => .bind .get fun s => ?_
  dsimp only
  generalize hx : (if token then (s.tx.vin.getD i default).assetIssuance.nInflationKeys
    else (s.tx.vin.getD i default).assetIssuance.nAmount) = x
  split
  · exact .pure _
  · refine .bind (.lift _) fun amount => .bind (.modify fun _ => rfl) fun _ => .bind (.lift _) fun a => ?_
    cases a with
    | none => exact .pure _
    | some asset =>
      refine .bind .rand fun r => .bind (.lift _) fun blind => .bind (.modify fun _ => rfl) fun _ => .bind .get fun s => ?_
      split
      · exact .finish C
      · exact keeps_blindPseudo C i token key hk amount asset blind

theorem keeps_issuanceStep (C : Ctx) (i : Nat) (token : Bool) : Keeps C.A (issuanceStep C i token) := by
  unfold issuanceStep
  cases hk : keyAt (if token then C.A.tokenKeys else C.A.assetKeys) i with
  | none => exact .pure _
  | some key => exact keeps_issuancePseudo C i token key hk

theorem keeps_issuanceLoop (C : Ctx) : ∀ n i, Keeps C.A (issuanceLoop C i n)
  | 0, _ => .pure _
  | n + 1, i => .bind (keeps_issuanceStep C i false) fun _ => .bind (keeps_issuanceStep C i true) fun _ =>
      keeps_issuanceLoop C n (i + 1)

theorem keeps_balance (C : Ctx) : Keeps C.A (balanceIfLast C) := by
  unfold balanceIfLast
  refine .bind .get fun s => ?_
  split
  · unfold balance
    refine .bind .get fun s => ?_
    split
    · exact .finish C
    · split
      · exact .lift _
      · split
        · exact .lift _
        · refine .bind (.lift _) fun last => .bind (.modify fun _ => rfl) fun _ => ?_
          split
          · exact .bind (.modify fun _ => rfl) fun _ => .finish C
          · exact .pure _
  · exact .pure _

theorem keeps_commitOutput (C : Ctx) (j : Nat) (hj : C.A.pubkeys.getD j [] ≠ []) (pk script : Bytes) (amount : Int)
    (asset blind assetblind : Bytes) : Keeps C.A (commitOutput C j pk script amount asset blind assetblind) := by
  unfold commitOutput
  refine .bind (.modify fun _ => rfl) fun _ => .bind (.lift _) fun p => ?_
  obtain ⟨ca, gen⟩ := p
  refine .bind (.modifyTx fun t => onlyAsked_setOut hj _ (by intro o; rfl) t) fun _ => .bind (.lift _) fun p => ?_
  obtain ⟨cv, com⟩ := p
  refine .bind (.modifyTx fun t => onlyAsked_setOut hj _ (by intro o; rfl) t) fun _ => .bind .rand fun seed =>
    .bind (.lift _) fun p => ?_
  obtain ⟨nonce, eph⟩ := p
  refine .bind (.lift _) fun cn => .bind (.modifyTx fun t => onlyAsked_setOut hj _ (by intro o; rfl) t) fun _ =>
    .bind (.lift _) fun rp => .bind .rand fun seed => .bind (.lift _) fun sp => ?_
  cases sp with
  | none => exact .pure _
  | some proof =>
    dsimp only
    split
    · exact .pure _
    · exact .bind (.modifyTx fun t => onlyAsked_setOutWit hj _ t) fun _ => .modify fun _ => rfl

theorem keeps_outputStep (C : Ctx) (j : Nat) (pk : Bytes) (hj : C.A.pubkeys[j]? = some pk) :
    Keeps C.A (outputStep C j pk) := by
  unfold outputStep
  split
  · rename_i hv
    have hne : C.A.pubkeys.getD j [] ≠ [] := by
      rw [List.getD_eq_getElem?_getD, hj]
      intro h
      simp [fullyValid] at hv
      exact hv.1 h
    unfold outputBlind
    exact .bind (.modify fun _ => rfl) fun _ => .bind .get fun s => .bind (.lift _) fun amount => .bind (.lift _) fun asset =>
      .bind (.modify fun _ => rfl) fun _ => .bind .rand fun _ => .bind (.lift _) fun _ => .bind (.modify fun _ => rfl) fun _ =>
      .bind .rand fun _ => .bind (.lift _) fun _ => .bind (.modify fun _ => rfl) fun _ => .bind (keeps_balance C) fun _ =>
      .bind .get fun s => keeps_commitOutput C j hne _ _ _ _ _ _
  · exact .pure _

theorem keeps_outputLoop (C : Ctx) : ∀ (pks : List Bytes) (j : Nat), (∀ k pk, pks[k]? = some pk → C.A.pubkeys[j + k]? = some pk) →
    Keeps C.A (outputLoop C j pks)
  | [], _, _ => .pure _
  | pk :: rest, j, h => .bind (keeps_outputStep C j pk (h 0 pk rfl)) fun _ =>
      keeps_outputLoop C rest (j + 1) fun k q hq => by
        have := h (k + 1) q hq
        rwa [show j + 1 + k = j + (k + 1) by omega]

theorem keeps_blindBody (C : Ctx) (n : Nat) : Keeps C.A (blindBody C n) := by
  unfold blindBody
  exact .bind (keeps_issuanceLoop C n 0) fun _ => .bind (.modifyTx fun t => onlyAsked_padOut _ _ t) fun _ =>
    .bind (keeps_outputLoop C C.A.pubkeys 0 fun k pk h => by simpa using h) fun _ => .finish C

/-- C32.  Whatever `blind()` returns or raises, with any arguments, randomness and library,
the transaction differs from the original only in what was asked to be blinded. -/
theorem C32_only_asked (E : Env) (A : BlindArgs) (tx : Tx) : OnlyAsked A tx (blindTransaction E A tx).2 := by
  unfold blindTransaction
  cases hc : checks E A tx with
  | error e => cases e <;> exact .refl A tx
  | ok p =>
    obtain ⟨T, c⟩ := p
    exact keeps_blindBody ⟨E, A, T, c.nBlindsIn, c.nToBlind⟩ tx.vin.length (startState tx c)

/-- C32, counts: no input or output appears or disappears. -/
theorem C32_counts (E : Env) (A : BlindArgs) (tx : Tx) :
    (blindTransaction E A tx).2.vin.length = tx.vin.length ∧ (blindTransaction E A tx).2.vout.length = tx.vout.length := by
  have h := C32_only_asked E A tx
  constructor
  · have := congrArg List.length h.inputs; simpa using this
  · have := congrArg List.length h.scripts; simpa using this

-- A run that does change something: the first two outputs are blinded, the third is not asked.
example :
    let A : BlindArgs := { descs := [⟨Toy.b32 5, 8, Toy.b32 3, Toy.b32 4⟩], pubkeys := [Toy.pub 3, Toy.pub 4]
                           rand := fun k => Toy.b32 (k + 5) }
    let t := Toy.tx [(5, 3), (5, 4), (5, 1)]
    let r := blindTransaction Toy.env A t
    (∃ b a, r.1 = .ok (.success 2 b a)) ∧ r.2.vout[0]? ≠ t.vout[0]? ∧ r.2.vout[1]? ≠ t.vout[1]? ∧ r.2.vout[2]? = t.vout[2]? := by
  refine ⟨?_, by decide +kernel, by decide +kernel, by decide +kernel⟩
  have h : ∀ (x : Except PyErr BlindResult) (n : Nat),
      (match x with | .ok (.success m _ _) => m == n | _ => false) = true → ∃ b a, x = .ok (.success n b a) := by
    intro x n h
    split at h
    · simp at h; subst h; exact ⟨_, _, rfl⟩
    · cases h
  exact h _ _ (by decide +kernel)

end Verif
