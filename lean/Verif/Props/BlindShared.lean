import Verif.Spec.BlindShared
import Verif.Props.BlindFrame
import Verif.BlindFacts
import Verif.BlindChecks
import Verif.ZkpToy
/-
C90: what becomes of a transaction that lists one object more than once.
-/
namespace Verif
open Spec

/-! ### Without sharing -/

theorem touch_get {α : Type} (same : Nat → Bool) (f : α → α) (l : List α) (k : Nat) :
    (touch same f l)[k]? = l[k]?.map fun x => if same k then f x else x := by
  unfold touch
  rw [List.getElem?_mapIdx]

theorem touch_modify {α : Type} {same : Nat → Bool} {p : Nat} (h : ∀ k, same k = true ↔ p = k) (f : α → α) (l : List α) :
    touch same f l = l.modify p f := by
  apply List.ext_getElem?
  intro k
  rw [touch_get, List.getElem?_modify]
  by_cases hk : p = k
  · rw [(h k).2 hk]; simp [hk]
  · have : same k = false := by
      cases hs : same k
      · rfl
      · exact absurd ((h k).1 hs) hk
    rw [this]
    simp [hk]

theorem sameObj_iff {ids : Nat → Nat} {n p q : Nat} : sameObj ids n p q = true ↔ p = q ∨ p < n ∧ q < n ∧ ids p = ids q := by
  unfold sameObj
  simp [and_assoc]

theorem sameObj_distinct {ids : Nat → Nat} {n : Nat} (h : ∀ p q, p < n → q < n → ids p = ids q → p = q) (p q : Nat) :
    sameObj ids n p q = true ↔ p = q := by
  rw [sameObj_iff]
  constructor
  · rintro (h1 | ⟨h1, h2, h3⟩)
    · exact h1
    · exact h p q h1 h2 h3
  · exact .inl

theorem shared_plain {S : Sharing} {t : Tx} (h : Distinct S t) : Setters.shared S t = .plain := by
  unfold Setters.shared Setters.plain
  congr 1 <;> funext p f tx
  · rw [touch_modify (sameObj_distinct h.vin p)]; rfl
  · rw [touch_modify (sameObj_distinct h.inwit p)]; rfl
  · rw [touch_modify (sameObj_distinct h.vout p)]; rfl
  · rw [touch_modify (sameObj_distinct h.outwit p)]; rfl

theorem issuanceStep_plain (C : Ctx) (i : Nat) (token : Bool) : issuanceStepS .plain C i token = issuanceStep C i token := rfl

theorem issuanceLoop_plain (C : Ctx) : ∀ n i, issuanceLoopS .plain C i n = issuanceLoop C i n
  | 0, _ => rfl
  | n + 1, i => by
    unfold issuanceLoopS issuanceLoop
    rw [issuanceLoop_plain C n]
    rfl

theorem outputLoop_plain (C : Ctx) : ∀ pks j, outputLoopS .plain C j pks = outputLoop C j pks
  | [], _ => rfl
  | pk :: pks, j => by
    unfold outputLoopS outputLoop
    rw [outputLoop_plain C pks]
    rfl

/-- C90: if no object is listed twice, all is as if the transaction were a value: everything proved of `blindTransaction` holds. -/
theorem C90_distinct (S : Sharing) (E : Env) (A : BlindArgs) (tx : Tx) (h : Distinct S tx) :
    blindShared S E A tx = blindTransaction E A tx := by
  have hb : ∀ C n, blindBodyS .plain C n = blindBody C n := by
    intro C n
    unfold blindBodyS blindBody
    rw [issuanceLoop_plain, outputLoop_plain]
  unfold blindShared blindS blindTransaction
  rw [shared_plain h]
  simp only [hb]
  rfl

/-! ### What changes -/

/-- However a computation ends, it has kept `R` between the transaction before and after. -/
def KeepsR {α} (R : Tx → Tx → Prop) (m : BM α) : Prop := ∀ s, R s.tx (m s).2.tx

section
variable {R : Tx → Tx → Prop} (hr : ∀ t, R t t) (ht : ∀ a b c, R a b → R b c → R a c)
include hr

theorem KeepsR.pure {α} (a : α) : KeepsR R (pure a : BM α) := fun s => hr s.tx
theorem KeepsR.get : KeepsR R BM.get := fun s => hr s.tx
theorem KeepsR.lift {α} (e : Except PyErr α) : KeepsR R (BM.lift e) := fun s => hr s.tx
theorem KeepsR.stop {α} (r : BlindResult) : KeepsR R (BM.stop r : BM α) := fun s => hr s.tx
theorem KeepsR.rand (A : BlindArgs) : KeepsR R (BM.rand A) := fun s => hr s.tx
theorem KeepsR.modify {f : BS → BS} (h : ∀ s, (f s).tx = s.tx) : KeepsR R (BM.modify f) := by
  intro s; show R s.tx (f s).tx; rw [h]; exact hr s.tx

omit hr in
include ht in
theorem KeepsR.bind {α β} {m : BM α} {f : α → BM β} (hm : KeepsR R m) (hf : ∀ a, KeepsR R (f a)) : KeepsR R (m >>= f) := by
  intro s
  have h1 := hm s
  show R s.tx (match m s with | (.ok a, s) => f a s | (.error e, s) => (.error e, s)).2.tx
  rcases hr : m s with ⟨_ | a, s1⟩
  · rw [hr] at h1; exact h1
  · rw [hr] at h1; exact ht _ _ _ h1 (hf a s1)
include ht in
theorem KeepsR.finish {α} (C : Ctx) : KeepsR R (BM.finish C : BM α) := .bind ht (.get hr) fun _ => .stop hr _
end

theorem KeepsR.modifyTx {R : Tx → Tx → Prop} {f : Tx → Tx} (h : ∀ t, R t (f t)) : KeepsR R (BM.modifyTx f) := fun s => h s.tx

/-- The assignments keep `R` at positions asked for, and so do the new witnesses. -/
structure SettersKeep (S : Setters) (A : BlindArgs) (R : Tx → Tx → Prop) : Prop where
  refl : ∀ t, R t t
  trans : ∀ a b c, R a b → R b c → R a c
  padIn : ∀ n t, R t { t with wit := { t.wit with vtxinwit := padTo t.wit.vtxinwit n {} } }
  padOut : ∀ n t, R t { t with wit := { t.wit with vtxoutwit := padTo t.wit.vtxoutwit n {} } }
  issuance : ∀ i, AskedIn A i → ∀ x t, R t (S.issuance i x t)
  inWit : ∀ i, AskedIn A i → ∀ (token : Bool) p t, R t (S.inWit i (fun w =>
    if token then { w with inflationKeysRangeproof := p } else { w with issuanceAmountRangeproof := p }) t)
  out : ∀ j, AskedOut A j → ∀ f : TxOut → TxOut, (∀ o, (f o).scriptPubKey = o.scriptPubKey) → ∀ t, R t (S.out j f t)
  outWit : ∀ j, AskedOut A j → ∀ f t, R t (S.outWit j f t)

variable {S : Setters} {R : Tx → Tx → Prop}

theorem keepsR_blindPseudo {C : Ctx} (K : SettersKeep S C.A R) {i : Nat} (hi : AskedIn C.A i) (token : Bool) (key : Bytes) (amount : Int)
    (asset blind : Bytes) : KeepsR R (blindPseudoS S C i token key amount asset blind) := by
  unfold blindPseudoS
  refine .bind K.trans (.modifyTx fun t => K.padIn _ t) fun _ => .bind K.trans (.lift K.refl _) fun p => ?_
  obtain ⟨_, gen⟩ := p
  refine .bind K.trans (.lift K.refl _) fun p => ?_
  obtain ⟨cv, com⟩ := p
  exact .bind K.trans (.get K.refl) fun _ => .bind K.trans (.modifyTx fun t => K.issuance i hi _ t) fun _ =>
    .bind K.trans (.lift K.refl _) fun _ => .bind K.trans (.lift K.refl _) fun p =>
    .bind K.trans (.modifyTx fun t => K.inWit i hi token p t) fun _ => .modify K.refl fun _ => rfl

theorem keepsR_issuanceStep {C : Ctx} (K : SettersKeep S C.A R) (i : Nat) (token : Bool) : KeepsR R (issuanceStepS S C i token) := by
  unfold issuanceStepS
  cases hk : keyAt (if token then C.A.tokenKeys else C.A.assetKeys) i with
  | none => exact .pure K.refl _
  | some key =>
    have hi : AskedIn C.A i := by
      rw [keyAt_some] at hk
      cases token
      · exact ⟨key, .inl hk⟩
      · exact ⟨key, .inr hk⟩
    show KeepsR R (issuancePseudoS S C i token key)
    unfold issuancePseudoS
    refine .bind K.trans (.modify K.refl fun _ => rfl) fun _ => .bind K.trans (.get K.refl) fun s => ?_
    dsimp only
    generalize (if token then (s.tx.vin.getD i default).assetIssuance.nInflationKeys
      else (s.tx.vin.getD i default).assetIssuance.nAmount) = x
    split
    · exact .pure K.refl _
    · refine .bind K.trans (.lift K.refl _) fun amount => .bind K.trans (.modify K.refl fun _ => rfl) fun _ =>
        .bind K.trans (.lift K.refl _) fun a => ?_
      cases a with
      | none => exact .pure K.refl _
      | some asset =>
        refine .bind K.trans (.rand K.refl _) fun r => .bind K.trans (.lift K.refl _) fun blind =>
          .bind K.trans (.modify K.refl fun _ => rfl) fun _ => .bind K.trans (.get K.refl) fun s => ?_
        split
        · exact .finish K.refl K.trans C
        · exact keepsR_blindPseudo K hi token key amount asset blind

theorem keepsR_issuanceLoop {C : Ctx} (K : SettersKeep S C.A R) : ∀ n i, KeepsR R (issuanceLoopS S C i n)
  | 0, _ => .pure K.refl _
  | n + 1, i => .bind K.trans (keepsR_issuanceStep K i false) fun _ => .bind K.trans (keepsR_issuanceStep K i true) fun _ =>
      keepsR_issuanceLoop K n (i + 1)

theorem keepsR_balance {C : Ctx} (K : SettersKeep S C.A R) : KeepsR R (balanceIfLast C) := by
  unfold balanceIfLast
  refine .bind K.trans (.get K.refl) fun s => ?_
  split
  · unfold balance
    refine .bind K.trans (.get K.refl) fun s => ?_
    split
    · exact .finish K.refl K.trans C
    · split
      · exact .lift K.refl _
      · split
        · exact .lift K.refl _
        · refine .bind K.trans (.lift K.refl _) fun last => .bind K.trans (.modify K.refl fun _ => rfl) fun _ => ?_
          split
          · exact .bind K.trans (.modify K.refl fun _ => rfl) fun _ => .finish K.refl K.trans C
          · exact .pure K.refl _
  · exact .pure K.refl _

theorem keepsR_commitOutput {C : Ctx} (K : SettersKeep S C.A R) {j : Nat} (hj : AskedOut C.A j) (pk script : Bytes) (amount : Int)
    (asset blind assetblind : Bytes) : KeepsR R (commitOutputS S C j pk script amount asset blind assetblind) := by
  unfold commitOutputS
  refine .bind K.trans (.modify K.refl fun _ => rfl) fun _ => .bind K.trans (.lift K.refl _) fun p => ?_
  obtain ⟨ca, gen⟩ := p
  refine .bind K.trans (.modifyTx fun t => K.out j hj _ (by intro o; rfl) t) fun _ => .bind K.trans (.lift K.refl _) fun p => ?_
  obtain ⟨cv, com⟩ := p
  refine .bind K.trans (.modifyTx fun t => K.out j hj _ (by intro o; rfl) t) fun _ => .bind K.trans (.rand K.refl _) fun seed =>
    .bind K.trans (.lift K.refl _) fun p => ?_
  obtain ⟨nonce, eph⟩ := p
  refine .bind K.trans (.lift K.refl _) fun cn => .bind K.trans (.modifyTx fun t => K.out j hj _ (by intro o; rfl) t) fun _ =>
    .bind K.trans (.lift K.refl _) fun rp => .bind K.trans (.rand K.refl _) fun seed => .bind K.trans (.lift K.refl _) fun sp => ?_
  cases sp with
  | none => exact .pure K.refl _
  | some proof =>
    dsimp only
    split
    · exact .pure K.refl _
    · exact .bind K.trans (.modifyTx fun t => K.outWit j hj _ t) fun _ => .modify K.refl fun _ => rfl

theorem keepsR_outputStep {C : Ctx} (K : SettersKeep S C.A R) (j : Nat) (pk : Bytes) (hj : C.A.pubkeys[j]? = some pk) :
    KeepsR R (outputStepS S C j pk) := by
  unfold outputStepS
  split
  · rename_i hv
    have hne : AskedOut C.A j := by
      unfold AskedOut
      rw [List.getD_eq_getElem?_getD, hj]
      intro h
      simp [fullyValid] at hv
      exact hv.1 h
    unfold outputBlindS
    exact .bind K.trans (.modify K.refl fun _ => rfl) fun _ => .bind K.trans (.get K.refl) fun s =>
      .bind K.trans (.lift K.refl _) fun amount => .bind K.trans (.lift K.refl _) fun asset =>
      .bind K.trans (.modify K.refl fun _ => rfl) fun _ => .bind K.trans (.rand K.refl _) fun _ =>
      .bind K.trans (.lift K.refl _) fun _ => .bind K.trans (.modify K.refl fun _ => rfl) fun _ =>
      .bind K.trans (.rand K.refl _) fun _ => .bind K.trans (.lift K.refl _) fun _ =>
      .bind K.trans (.modify K.refl fun _ => rfl) fun _ => .bind K.trans (keepsR_balance K) fun _ =>
      .bind K.trans (.get K.refl) fun s => keepsR_commitOutput K hne _ _ _ _ _ _
  · exact .pure K.refl _

theorem keepsR_outputLoop {C : Ctx} (K : SettersKeep S C.A R) : ∀ (pks : List Bytes) (j : Nat),
    (∀ k pk, pks[k]? = some pk → C.A.pubkeys[j + k]? = some pk) → KeepsR R (outputLoopS S C j pks)
  | [], _, _ => .pure K.refl _
  | pk :: rest, j, h => .bind K.trans (keepsR_outputStep K j pk (h 0 pk rfl)) fun _ =>
      keepsR_outputLoop K rest (j + 1) fun k q hq => by
        have := h (k + 1) q hq
        rwa [show j + 1 + k = j + (k + 1) by omega]

theorem keepsR_blindBody {C : Ctx} (K : SettersKeep S C.A R) (n : Nat) : KeepsR R (blindBodyS S C n) := by
  unfold blindBodyS
  exact .bind K.trans (keepsR_issuanceLoop K n 0) fun _ => .bind K.trans (.modifyTx fun t => K.padOut _ t) fun _ =>
    .bind K.trans (keepsR_outputLoop K C.A.pubkeys 0 fun k pk h => by simpa using h) fun _ => .finish K.refl K.trans C

theorem keepsR_blind {E : Env} {A : BlindArgs} (K : SettersKeep S A R) (tx : Tx) : R tx (blindS S E A tx).2 := by
  unfold blindS
  cases hc : checks E A tx with
  | error e => cases e <;> exact K.refl tx
  | ok p =>
    obtain ⟨T, c⟩ := p
    exact keepsR_blindBody (C := ⟨E, A, T, c.nBlindsIn, c.nToBlind⟩) K tx.vin.length (startState tx c)

/-! ### Only what is reached -/

theorem Spec.OnlyReached.refl (S : Sharing) (A : BlindArgs) (t0 t : Tx) : OnlyReached S A t0 t t :=
  ⟨rfl, rfl, rfl, rfl, fun _ _ => rfl, rfl, fun _ _ => rfl, rfl, fun _ _ => rfl, fun _ => rfl, fun _ => rfl, fun _ _ => rfl⟩

theorem Spec.OnlyReached.trans {S : Sharing} {A : BlindArgs} {t0 a b c : Tx} (h : OnlyReached S A t0 a b) (g : OnlyReached S A t0 b c) :
    OnlyReached S A t0 a c :=
  ⟨g.version.trans h.version, g.lockTime.trans h.lockTime, g.numIn.trans h.numIn, g.numOut.trans h.numOut,
    fun i hi => (g.inputs i hi).trans (h.inputs i hi), g.prevouts.trans h.prevouts,
    fun j hj => (g.outputs j hj).trans (h.outputs j hj), g.scripts.trans h.scripts,
    fun i hi => (g.inWits i hi).trans (h.inWits i hi), fun i => (g.scriptWitness i).trans (h.scriptWitness i),
    fun i => (g.peginWitness i).trans (h.peginWitness i), fun j hj => (g.outWits j hj).trans (h.outWits j hj)⟩

theorem touch_length {α : Type} (same : Nat → Bool) (f : α → α) (l : List α) : (touch same f l).length = l.length := by
  unfold touch; simp

theorem touch_map {α β : Type} (same : Nat → Bool) (f : α → α) (g : α → β) (hg : ∀ x, g (f x) = g x) (l : List α) :
    (touch same f l).map g = l.map g := by
  apply List.ext_getElem?
  intro k
  rw [List.getElem?_map, List.getElem?_map, touch_get, Option.map_map]
  cases l[k]? with
  | none => rfl
  | some x => simp only [Option.map_some, Function.comp]; split <;> simp [hg]

theorem touch_not {α : Type} {ids : Nat → Nat} {n p : Nat} {asked : Nat → Prop} (hp : asked p) (f : α → α) (l : List α) {k : Nat}
    (hk : ¬ Reached ids n asked k) : (touch (sameObj ids n p) f l)[k]? = l[k]? := by
  rw [touch_get]
  have : sameObj ids n p k = false := by
    cases h : sameObj ids n p k
    · rfl
    · exact absurd ⟨p, hp, sameObj_iff.1 h⟩ hk
  rw [this]
  simp

theorem reached_keep (S : Sharing) (A : BlindArgs) (t0 : Tx) : SettersKeep (.shared S t0) A (OnlyReached S A t0) where
  refl := OnlyReached.refl S A t0
  trans _ _ _ h g := h.trans g
  padIn n t := by
    have key : ∀ i, Tx.inWit { t with wit := { t.wit with vtxinwit := padTo t.wit.vtxinwit n {} } } i = t.inWit i :=
      fun i => getD_padTo _ _ _ _
    exact ⟨rfl, rfl, rfl, rfl, fun _ _ => rfl, rfl, fun _ _ => rfl, rfl, fun i _ => key i, fun i => by rw [key], fun i => by rw [key], fun _ _ => rfl⟩
  padOut n t := ⟨rfl, rfl, rfl, rfl, fun _ _ => rfl, rfl, fun _ _ => rfl, rfl, fun _ _ => rfl, fun _ => rfl, fun _ => rfl, fun _ _ => getD_padTo _ _ _ _⟩
  issuance i hi x t := ⟨rfl, rfl, touch_length _ _ _, rfl, fun _ hk => touch_not hi _ _ hk, touch_map _ (fun y : TxIn => { y with assetIssuance := x }) _ (fun _ => rfl) _, fun _ _ => rfl, rfl,
    fun _ _ => rfl, fun _ => rfl, fun _ => rfl, fun _ _ => rfl⟩
  inWit i hi token p t := by
    have key : ∀ {β : Type} (g : TxInWitness → β) (k : Nat), (∀ w : TxInWitness, g (if token then { w with inflationKeysRangeproof := p }
        else { w with issuanceAmountRangeproof := p }) = g w) →
        g (((Setters.shared S t0).inWit i (fun w => if token then { w with inflationKeysRangeproof := p }
          else { w with issuanceAmountRangeproof := p }) t).inWit k) = g (t.inWit k) := by
      intro β g k hg
      show g (((touch (sameObj S.inwit t0.wit.vtxinwit.length i) _ t.wit.vtxinwit)[k]?).getD {}) = g ((t.wit.vtxinwit[k]?).getD {})
      rw [touch_get]
      cases t.wit.vtxinwit[k]? with
      | none => rfl
      | some w => simp only [Option.map_some, Option.getD_some]; split; exact hg w; rfl
    refine ⟨rfl, rfl, rfl, rfl, fun _ _ => rfl, rfl, fun _ _ => rfl, rfl, fun k hk => ?_, fun k => ?_, fun k => ?_, fun _ _ => rfl⟩
    · show ((touch (sameObj S.inwit t0.wit.vtxinwit.length i) _ t.wit.vtxinwit)[k]?).getD {} = _
      rw [touch_not hi _ _ hk]; rfl
    · exact key TxInWitness.scriptWitness k (fun w => by cases token <;> rfl)
    · exact key TxInWitness.peginWitness k (fun w => by cases token <;> rfl)
  out j hj f hf t := ⟨rfl, rfl, rfl, touch_length _ _ _, fun _ _ => rfl, rfl, fun _ hk => touch_not hj _ _ hk, touch_map _ _ _ hf _,
    fun _ _ => rfl, fun _ => rfl, fun _ => rfl, fun _ _ => rfl⟩
  outWit j hj f t := ⟨rfl, rfl, rfl, rfl, fun _ _ => rfl, rfl, fun _ _ => rfl, rfl, fun _ _ => rfl, fun _ => rfl, fun _ => rfl, fun k hk => by
    show ((touch (sameObj S.outwit t0.wit.vtxoutwit.length j) _ t.wit.vtxoutwit)[k]?).getD {} = _
    rw [touch_not hj _ _ hk]; rfl⟩

/-- C90, what holds however objects are shared: only objects change that are listed at a position with a key, whatever is returned or raised. -/
theorem C90_reached_partial (S : Sharing) (E : Env) (A : BlindArgs) (tx : Tx) : OnlyReached S A tx tx (blindShared S E A tx).2 :=
  keepsR_blind (reached_keep S A tx) tx

/-! ### Shared objects stay one object -/

theorem touch_same {α : Type} {ids : Nat → Nat} {n p a b : Nat} (f : α → α) {l : List α} (ha : a < n) (hb : b < n) (hab : ids a = ids b)
    (h : l[a]? = l[b]?) : (touch (sameObj ids n p) f l)[a]? = (touch (sameObj ids n p) f l)[b]? ∨ ¬ p < n := by
  by_cases hp : p < n
  · left
    rw [touch_get, touch_get, h]
    have : sameObj ids n p a = sameObj ids n p b := by
      rw [Bool.eq_iff_iff, sameObj_iff, sameObj_iff]
      constructor
      · rintro (rfl | ⟨h1, h2, h3⟩)
        · exact .inr ⟨ha, hb, hab⟩
        · exact .inr ⟨h1, hb, h3.trans hab⟩
      · rintro (rfl | ⟨h1, h2, h3⟩)
        · exact .inr ⟨hb, ha, hab.symm⟩
        · exact .inr ⟨h1, ha, h3.trans hab.symm⟩
    rw [this]
  · exact .inr hp

theorem touch_one {α : Type} {ids : Nat → Nat} {n p a b : Nat} (f : α → α) {l : List α} (ha : a < n) (hb : b < n) (hab : ids a = ids b)
    (h : l[a]? = l[b]?) : (touch (sameObj ids n p) f l)[a]? = (touch (sameObj ids n p) f l)[b]? := by
  rcases touch_same (p := p) f ha hb hab h with h1 | h1
  · exact h1
  · rw [touch_get, touch_get, h]
    have e : ∀ k, k < n → sameObj ids n p k = false := by
      intro k hk
      cases hs : sameObj ids n p k
      · rfl
      · rcases sameObj_iff.1 hs with rfl | ⟨h2, -, -⟩
        · exact absurd hk h1
        · exact absurd h2 h1
    rw [e a ha, e b hb]

theorem pad_one {α : Type} {n m a b : Nat} (x : α) {l : List α} (hl : n ≤ l.length) (ha : a < n) (hb : b < n) (h : l[a]? = l[b]?) :
    (padTo l m x)[a]? = (padTo l m x)[b]? := by
  rw [padTo_get_lt _ _ _ _ (by omega), padTo_get_lt _ _ _ _ (by omega), h]

/-- The lists of `t` are at least as long as those of `t0`, and shared objects are one. -/
def Whole (S : Sharing) (t0 t : Tx) : Prop :=
  t0.wit.vtxinwit.length ≤ t.wit.vtxinwit.length ∧ t0.wit.vtxoutwit.length ≤ t.wit.vtxoutwit.length ∧ OneValue S t0 t

theorem whole_keep (S : Sharing) (A : BlindArgs) (t0 : Tx) : SettersKeep (.shared S t0) A (fun a b => Whole S t0 a → Whole S t0 b) where
  refl _ h := h
  trans _ _ _ h g x := g (h x)
  padIn n t h := ⟨by show _ ≤ (padTo _ _ _).length; unfold padTo; have := h.1; simp only [List.length_append]; omega, h.2.1,
    h.2.2.vin, h.2.2.vout, fun p q hp hq e => pad_one _ h.1 hp hq (h.2.2.inwit p q hp hq e), h.2.2.outwit⟩
  padOut n t h := ⟨h.1, by show _ ≤ (padTo _ _ _).length; unfold padTo; have := h.2.1; simp only [List.length_append]; omega,
    h.2.2.vin, h.2.2.vout, h.2.2.inwit, fun p q hp hq e => pad_one _ h.2.1 hp hq (h.2.2.outwit p q hp hq e)⟩
  issuance i hi x t h := ⟨h.1, h.2.1, fun p q hp hq e => touch_one _ hp hq e (h.2.2.vin p q hp hq e), h.2.2.vout, h.2.2.inwit, h.2.2.outwit⟩
  inWit i hi token x t h := ⟨by show _ ≤ (touch _ _ _).length; rw [touch_length]; exact h.1, h.2.1, h.2.2.vin, h.2.2.vout,
    fun p q hp hq e => touch_one _ hp hq e (h.2.2.inwit p q hp hq e), h.2.2.outwit⟩
  out j hj f hf t h := ⟨h.1, h.2.1, h.2.2.vin, fun p q hp hq e => touch_one _ hp hq e (h.2.2.vout p q hp hq e), h.2.2.inwit, h.2.2.outwit⟩
  outWit j hj f t h := ⟨h.1, by show _ ≤ (touch _ _ _).length; rw [touch_length]; exact h.2.1, h.2.2.vin, h.2.2.vout, h.2.2.inwit,
    fun p q hp hq e => touch_one _ hp hq e (h.2.2.outwit p q hp hq e)⟩

/-- C90: positions that held one object hold one object afterwards. -/
theorem C90_one (S : Sharing) (E : Env) (A : BlindArgs) (tx : Tx) (h : OneValue S tx tx) : OneValue S tx (blindShared S E A tx).2 :=
  (keepsR_blind (whole_keep S A tx) tx ⟨Nat.le_refl _, Nat.le_refl _, h⟩).2.2

/-! ### One output listed twice, with a pubkey at both places -/

/-- The computation raises, or goes on with a result and state of which `P` is true. -/
def Goes {α} (m : BM α) (s : BS) (P : α → BS → Prop) : Prop :=
  match m s with
  | (.ok a, s') => P a s'
  | (.error (.raise _), _) => True
  | (.error (.ret _), _) => False

theorem Goes.bind {α β} {m : BM α} {f : α → BM β} {s : BS} {P : β → BS → Prop} (h : Goes m s fun a s' => Goes (f a) s' P) :
    Goes (m >>= f) s P := by
  unfold Goes at h ⊢
  show (match (match m s with | (.ok a, s) => f a s | (.error e, s) => (.error e, s)) with
    | (.ok a, s') => P a s' | (.error (.raise _), _) => True | (.error (.ret _), _) => False)
  revert h
  rcases m s with ⟨_ | a, s1⟩
  · rename_i e
    cases e <;> exact id
  · exact id

theorem Goes.imp {α} {m : BM α} {s : BS} {P Q : α → BS → Prop} (h : Goes m s P) (hpq : ∀ a s', P a s' → Q a s') : Goes m s Q := by
  unfold Goes at h ⊢
  revert h
  rcases m s with ⟨_ | a, s1⟩
  · rename_i e
    cases e <;> exact id
  · exact hpq a s1

theorem Goes.pure {α} {a : α} {s : BS} {P : α → BS → Prop} (h : P a s) : Goes (Pure.pure a : BM α) s P := h
theorem Goes.get {s : BS} {P : BS → BS → Prop} (h : P s s) : Goes BM.get s P := h
theorem Goes.modify {f : BS → BS} {s : BS} {P : Unit → BS → Prop} (h : P () (f s)) : Goes (BM.modify f) s P := h
theorem Goes.modifyTx {f : Tx → Tx} {s : BS} {P : Unit → BS → Prop} (h : P () { s with tx := f s.tx }) : Goes (BM.modifyTx f) s P := h
theorem Goes.rand {A : BlindArgs} {s : BS} {P : Bytes → BS → Prop} (h : ∀ b, P b { s with rnd := s.rnd + 1 }) : Goes (BM.rand A) s P := h _
theorem Goes.lift {α} {e : Except PyErr α} {s : BS} {P : α → BS → Prop} (h : ∀ a, e = .ok a → P a s) : Goes (BM.lift e) s P := by
  cases e with
  | error _ => exact True.intro
  | ok a => exact h a rfl

/-- The amount shown at position `k` is as long as a commitment. -/
def Hidden (k : Nat) (t : Tx) : Prop := ∃ o, t.vout[k]? = some o ∧ o.nValue.length = 33

/-- The same attempts, position `k` still listed, and hidden if it was. -/
def Still (k : Nat) (s s' : BS) : Prop :=
  s'.attempts = s.attempts ∧ s'.tx.vout.length = s.tx.vout.length ∧ (Hidden k s.tx → Hidden k s'.tx)

theorem out_hidden {S : Sharing} {t0 : Tx} (j k : Nat) {f : TxOut → TxOut} (hf : ∀ o, o.nValue.length = 33 → (f o).nValue.length = 33)
    (t : Tx) (h : Hidden k t) : Hidden k ((Setters.shared S t0).out j f t) := by
  obtain ⟨o, h1, h2⟩ := h
  refine ⟨if sameObj S.vout t0.vout.length j k then f o else o, ?_, ?_⟩
  · show (touch _ _ _)[k]? = _
    rw [touch_get, h1]; rfl
  · split
    · exact hf o h2
    · exact h2

theorem goes_commitOutput {S : Sharing} {t0 : Tx} (C : Ctx) (j k : Nat) (pk script : Bytes) (amount : Int)
    (asset blind assetblind : Bytes) (s : BS) :
    Goes (commitOutputS (.shared S t0) C j pk script amount asset blind assetblind) s fun _ s' =>
      Still k s s' ∧ (k < s.tx.vout.length → sameObj S.vout t0.vout.length j k = true → Hidden k s'.tx) := by
  unfold commitOutputS
  refine .bind (.modify (.bind (.lift fun p hp => ?_)))
  obtain ⟨ca, gen⟩ := p
  refine .bind (.modifyTx (.bind (.lift fun p hp => ?_)))
  obtain ⟨cv, com⟩ := p
  have hcv : cv.length = 33 := C.E.z.commitSerialize_len _ _ (createValueCommitment_ok.1 hp).2.1
  refine .bind (.modifyTx (.bind (.rand fun seed => .bind (.lift fun p _ => ?_))))
  obtain ⟨nonce, eph⟩ := p
  refine .bind (.lift fun cn _ => .bind (.modifyTx (.bind (.lift fun rp _ => .bind (.rand fun seed => .bind (.lift fun sp _ => ?_))))))
  have key : ∀ s' : BS, s'.attempts = s.attempts →
      s'.tx.vout = ((Setters.shared S t0).out j (fun o => { o with nNonce := cn }) ((Setters.shared S t0).out j (fun o => { o with nValue := cv })
        ((Setters.shared S t0).out j (fun o => { o with nAsset := ca }) s.tx))).vout →
      Still k s s' ∧ (k < s.tx.vout.length → sameObj S.vout t0.vout.length j k = true → Hidden k s'.tx) := by
    intro s' ha hv
    refine ⟨⟨ha, ?_, ?_⟩, ?_⟩
    · rw [hv]
      show (touch _ _ (touch _ _ (touch _ _ _))).length = _
      simp only [touch_length]
    · intro h
      unfold Hidden
      rw [hv]
      refine out_hidden (S := S) (t0 := t0) j k ?_ _ (out_hidden j k ?_ _ (out_hidden j k ?_ _ h))
      · exact fun o ho => ho
      · exact fun o _ => hcv
      · exact fun o ho => ho
    · intro hk hs
      unfold Hidden
      rw [hv]
      refine ⟨{ (s.tx.vout[k]) with nAsset := ca, nValue := cv, nNonce := cn }, ?_, hcv⟩
      show (touch _ _ (touch _ _ (touch _ _ _)))[k]? = _
      rw [touch_get, touch_get, touch_get, hs, List.getElem?_eq_getElem hk]
      rfl
  cases sp with
  | none => exact .pure (key _ rfl rfl)
  | some proof =>
    dsimp only
    split
    · exact .pure (key _ rfl rfl)
    · exact .bind (.modifyTx (.modify (key _ rfl rfl)))

theorem goes_outputStep {S : Sharing} {t0 : Tx} (C : Ctx) (j k : Nat) (pk : Bytes) (hv : fullyValid C.E.z pk = true) (s : BS)
    (ha : s.attempts + 1 ≠ C.nToBlind) :
    Goes (outputStepS (.shared S t0) C j pk) s fun _ s' => s'.attempts = s.attempts + 1 ∧ s'.tx.vout.length = s.tx.vout.length ∧
      (Hidden k s.tx → Hidden k s'.tx) ∧ (k < s.tx.vout.length → sameObj S.vout t0.vout.length j k = true → Hidden k s'.tx) := by
  unfold outputStepS
  rw [if_pos hv]
  unfold outputBlindS
  refine .bind (.modify (.bind (.get (.bind (.lift fun amount _ => .bind (.lift fun asset _ => .bind (.modify ?_)))))))
  refine .bind (.rand fun r => .bind (.lift fun b _ => .bind (.modify (.bind (.rand fun r => ?_)))))
  refine .bind (.lift fun ab _ => .bind (.modify (.bind ?_)))
  unfold balanceIfLast
  refine .bind (.get ?_)
  rw [if_neg ha]
  refine .pure (.bind (.get ((goes_commitOutput C j k _ _ _ _ _ _ _).imp ?_)))
  rintro - s' ⟨⟨h1, h2, h3⟩, h4⟩
  exact ⟨h1, h2, h3, h4⟩

theorem outputStep_hidden {S : Setters} (C : Ctx) (k : Nat) (pk : Bytes) (hv : fullyValid C.E.z pk = true) (s : BS) (h : Hidden k s.tx) :
    Goes (outputStepS S C k pk) s fun _ _ => False := by
  unfold outputStepS
  rw [if_pos hv]
  unfold outputBlindS
  refine .bind (.modify (.bind (.get (.bind (.lift fun amount hm => ?_)))))
  obtain ⟨o, h1, h2⟩ := h
  obtain ⟨v, hc, hl, -⟩ := valueToAmount_ok hm
  rw [List.getD_eq_getElem?_getD, h1, Option.getD_some] at hc
  rw [hc, List.length_cons, hl] at h2
  omega

theorem loop_raises {S : Sharing} {t0 : Tx} (C : Ctx) (k : Nat) : ∀ (pks : List Bytes) (i : Nat) (s : BS),
    i ≤ k → (∀ pk ∈ pks, pk ≠ [] → fullyValid C.E.z pk = true) → (∃ pk, pks[k - i]? = some pk ∧ pk ≠ []) →
    s.attempts + (pks.filter (· ≠ [])).length ≤ C.nToBlind → k < s.tx.vout.length →
    (Hidden k s.tx ∨ ∃ j pk, i ≤ j ∧ j < k ∧ pks[j - i]? = some pk ∧ pk ≠ [] ∧ sameObj S.vout t0.vout.length j k = true) →
    Goes (outputLoopS (.shared S t0) C i pks) s fun _ _ => False
  | [], i, s, _, _, ⟨pk, h, _⟩, _, _, _ => by simp at h
  | pk :: pks, i, s, hi, hv, hk, ha, hlen, hh => by
    unfold outputLoopS
    obtain ⟨q, hq, hqne⟩ := hk
    have hv' : ∀ pk ∈ pks, pk ≠ [] → fullyValid C.E.z pk = true := fun p hp => hv p (List.mem_cons_of_mem _ hp)
    by_cases hik : i = k
    · subst hik
      simp only [Nat.sub_self, List.getElem?_cons_zero, Option.some.injEq] at hq
      subst hq
      have hid : Hidden i s.tx := by
        rcases hh with hh | ⟨j, _, h1, h2, -⟩
        · exact hh
        · omega
      exact .bind ((outputStep_hidden C i pk (hv pk List.mem_cons_self hqne) s hid).imp fun _ _ h => h.elim)
    · have hlt : i < k := by omega
      have hki : k - i = (k - (i + 1)) + 1 := by omega
      rw [hki, List.getElem?_cons_succ] at hq
      have hpos : 0 < (pks.filter (· ≠ [])).length := by
        apply List.length_pos_of_mem (a := q)
        rw [List.mem_filter]
        exact ⟨List.mem_of_getElem? hq, by simpa using hqne⟩
      by_cases hp : pk = []
      · subst hp
        have hst : outputStepS (.shared S t0) C i [] = pure () := by
          unfold outputStepS
          rw [if_neg (by simp [fullyValid])]
        rw [hst]
        refine .bind (.pure (loop_raises C k pks (i + 1) s (by omega) hv' ⟨q, hq, hqne⟩ (by simpa using ha) hlen ?_))
        rcases hh with hh | ⟨j, p, h1, h2, h3, h4, h5⟩
        · exact .inl hh
        · rcases Nat.lt_or_eq_of_le h1 with h1 | h1
          · refine .inr ⟨j, p, h1, h2, ?_, h4, h5⟩
            rwa [show j - i = (j - (i + 1)) + 1 by omega, List.getElem?_cons_succ] at h3
          · subst h1
            simp only [Nat.sub_self, List.getElem?_cons_zero, Option.some.injEq] at h3
            exact absurd h3.symm h4
      · have hf : ((pk :: pks).filter (· ≠ [])).length = (pks.filter (· ≠ [])).length + 1 := by
          simp [hp]
        rw [hf] at ha
        refine .bind ((goes_outputStep C i k pk (hv pk List.mem_cons_self hp) s (by omega)).imp ?_)
        rintro - s' ⟨h1, h2, h3, h4⟩
        refine loop_raises C k pks (i + 1) s' (by omega) hv' ⟨q, hq, hqne⟩ (by omega) (by omega) ?_
        rcases hh with hh | ⟨j, p, g1, g2, g3, g4, g5⟩
        · exact .inl (h3 hh)
        · rcases Nat.lt_or_eq_of_le g1 with g1 | g1
          · refine .inr ⟨j, p, g1, g2, ?_, g4, g5⟩
            rwa [show j - i = (j - (i + 1)) + 1 by omega, List.getElem?_cons_succ] at g3
          · subst g1
            exact .inl (h4 hlen g5)

theorem issuanceLoop_none {S : Setters} {C : Ctx} (h : ∀ i, ¬ AskedIn C.A i) : ∀ n i, issuanceLoopS S C i n = pure ()
  | 0, _ => rfl
  | n + 1, i => by
    have hs : ∀ t, issuanceStepS S C i t = pure () := by
      intro t
      unfold issuanceStepS
      cases hk : keyAt (if t then C.A.tokenKeys else C.A.assetKeys) i with
      | none => rfl
      | some key =>
        rw [keyAt_some] at hk
        cases t
        · exact absurd ⟨key, .inl hk⟩ (h i)
        · exact absurd ⟨key, .inr hk⟩ (h i)
    unfold issuanceLoopS
    rw [hs, hs, issuanceLoop_none h n]
    rfl

/-- C90: an output object listed twice with a pubkey at both places is blinded once, and the second time its amount is not to be had:
if the transaction was found fit for blinding and no issuance is blinded, the call raises, whatever the library and the randomness. -/
theorem C90_twice (S : Sharing) (E : Env) (A : BlindArgs) (tx : Tx) (j k : Nat) (hjk : j < k) (hk : k < tx.vout.length)
    (hsame : S.vout j = S.vout k) (hj' : AskedOut A j) (hk' : AskedOut A k) (hiss : ∀ i, ¬ AskedIn A i)
    (hfit : ∃ x, checks E A tx = .ok x) : ∃ e, (blindShared S E A tx).1 = .error e := by
  obtain ⟨⟨T, c⟩, hc⟩ := hfit
  unfold blindShared blindS
  simp only [hc]
  obtain ⟨-, -, -, hv, rfl⟩ := checks_ok.1 hc
  have get : ∀ i, AskedOut A i → ∃ pk, A.pubkeys[i]? = some pk ∧ pk ≠ [] := by
    intro i h
    unfold AskedOut at h
    rw [List.getD_eq_getElem?_getD] at h
    cases hp : A.pubkeys[i]? with
    | none => rw [hp] at h; exact absurd rfl h
    | some pk => rw [hp] at h; exact ⟨pk, rfl, h⟩
  set C : Ctx := ⟨E, A, T, (A.descs.filter Desc.blinded).length, asked A tx⟩ with hC
  have main : ∀ c, Goes (blindBodyS (.shared S tx) C tx.vin.length) (startState tx c) fun _ _ => False := by
    intro c
    unfold blindBodyS
    rw [issuanceLoop_none hiss]
    refine .bind (.pure (.bind (.modifyTx (.bind ((loop_raises C k A.pubkeys 0 _ (by omega) ?_ ?_ ?_ hk ?_).imp fun _ _ h => h.elim)))))
    · intro pk hp hne
      obtain ⟨i, hi, rfl⟩ := List.getElem_of_mem hp
      exact fullyValid_iff.2 ⟨hne, (hv i _ (List.getElem?_eq_getElem hi) hne).pubkey⟩
    · exact get k hk'
    · show 0 + askedOutputs A ≤ asked A tx
      unfold asked
      omega
    · obtain ⟨pk, h1, h2⟩ := get j hj'
      exact .inr ⟨j, pk, by omega, hjk, h1, h2, sameObj_iff.2 (.inr ⟨by omega, hk, hsame⟩)⟩
  have := main { blinds := (A.descs.filter Desc.blinded).map Desc.blindingFactor
                 assetblinds := (A.descs.filter Desc.blinded).map Desc.assetBlindingFactor
                 amounts := (A.descs.filter Desc.blinded).map Desc.amount
                 nBlindsIn := (A.descs.filter Desc.blinded).length
                 nToBlind := asked A tx }
  unfold Goes at this
  revert this
  generalize blindBodyS (.shared S tx) C tx.vin.length _ = r
  obtain ⟨_ | a, s1⟩ := r
  · rename_i e
    cases e with
    | raise p => exact fun _ => ⟨p, rfl⟩
    | ret _ => exact fun h => h.elim
  · exact fun h => h.elim

/-! ### The full statement -/

/-- C90 in full: an output without a pubkey is as it was. -/
def C90_statement : Prop := ∀ (S : Sharing) (E : Env) (A : BlindArgs) (tx : Tx), OneValue S tx tx → ∀ j, ¬ AskedOut A j →
  (blindShared S E A tx).2.vout[j]? = tx.vout[j]?

/-- Three outputs, of which the first and the last are one object. -/
def sharedObjs : Sharing := ⟨id, fun p => if p = 2 then 0 else p, id, id⟩
def sharedTx : Tx := Toy.tx [(5, 3), (5, 2), (5, 3)]
/-- Pubkeys for the first two. -/
def sharedArgs : BlindArgs :=
  { descs := [⟨Toy.b32 5, 8, Toy.b32 3, Toy.b32 4⟩], pubkeys := [Toy.pub 3, Toy.pub 4], rand := fun k => Toy.b32 (k + 5) }
/-- Pubkeys for all three. -/
def twiceArgs : BlindArgs := { sharedArgs with pubkeys := [Toy.pub 3, Toy.pub 4, Toy.pub 5] }

theorem shared_one : OneValue sharedObjs sharedTx sharedTx where
  vin p q _ _ h := by cases h; rfl
  vout p q hp hq h := by
    have hp : p < 3 := hp
    have hq : q < 3 := hq
    have : p = 0 ∨ p = 1 ∨ p = 2 := by omega
    have : q = 0 ∨ q = 1 ∨ q = 2 := by omega
    rcases ‹p = 0 ∨ _› with rfl | rfl | rfl <;> rcases ‹q = 0 ∨ _› with rfl | rfl | rfl <;> first | rfl | (exfalso; revert h; decide)
  inwit p q _ _ h := by cases h; rfl
  outwit p q _ _ h := by cases h; rfl

/-- C90 fails: the output listed again at the end has no pubkey, and becomes a commitment with no proof of its range, while strict success
is reported. -/
theorem C90_statement_false : ¬ C90_statement := by
  intro h
  have := h sharedObjs Toy.env sharedArgs sharedTx shared_one 2 (by unfold AskedOut; decide)
  exact absurd this (by decide +kernel)

-- what is reported, and what is there
example : (∃ b a, (blindShared sharedObjs Toy.env sharedArgs sharedTx).1 = .ok (.success 2 b a)) ∧ sharedArgs.strict = true ∧
    confIsCommitment valueKind ((blindShared sharedObjs Toy.env sharedArgs sharedTx).2.vout.getD 2 {}).nValue = true ∧
    ((blindShared sharedObjs Toy.env sharedArgs sharedTx).2.outWit 2).rangeproof = [] ∧
    ((blindShared sharedObjs Toy.env sharedArgs sharedTx).2.outWit 0).rangeproof ≠ [] := by
  refine ⟨?_, rfl, by decide +kernel, by decide +kernel, by decide +kernel⟩
  have h : ∀ (x : Except PyErr BlindResult) (n : Nat),
      (match x with | .ok (.success m _ _) => m == n | _ => false) = true → ∃ b a, x = .ok (.success n b a) := by
    intro x n h
    split at h
    · simp at h; subst h; exact ⟨_, _, rfl⟩
    · cases h
  exact h _ 2 (by decide +kernel)

-- the hypotheses of `C90_twice`
example : ∃ e, (blindShared sharedObjs Toy.env twiceArgs sharedTx).1 = .error e :=
  C90_twice sharedObjs Toy.env twiceArgs sharedTx 0 2 (by omega) (by decide) rfl (by unfold AskedOut; decide) (by unfold AskedOut; decide)
    (by rintro i ⟨k, h | h⟩ <;> simp [twiceArgs, sharedArgs] at h)
    (by
      cases h : checks Toy.env twiceArgs sharedTx with
      | ok x => exact ⟨x, rfl⟩
      | error e =>
        have : (checks Toy.env twiceArgs sharedTx).isOk = true := by decide +kernel
        rw [h] at this
        cases this)

-- and where no object is listed twice, the outcome is that of `blindTransaction`
example : blindShared ⟨id, id, id, id⟩ Toy.env sharedArgs sharedTx = blindTransaction Toy.env sharedArgs sharedTx :=
  C90_distinct _ _ _ _ ⟨fun _ _ _ _ h => h, fun _ _ _ _ h => h, fun _ _ _ _ h => h, fun _ _ _ _ h => h⟩

end Verif
