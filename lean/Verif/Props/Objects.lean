import Verif.ObjectLemmas
/-
C46: objects do not alias the buffers they are made of.
C47: conversion between mutable and immutable transactions.
-/
namespace Verif

/-! ### C46 -/

theorem freeze_read (m m' : Mem) (b : Buf) : (b.freeze m).read m' = b.read m := rfl

/-- A confidential commitment shows what its argument held when it was made, whatever is
written to `bytearray`s later. -/
theorem C46_conf {k : ConfKind} {m : Mem} {c : Buf} {o : ConfObj} (h : confInit k m c = .ok o) (ws : List (Nat × Bytes)) :
    o.commitment.read (ws.foldl Mem.write m) = c.read m := by
  unfold confInit at h
  split at h
  · cases h; rfl
  · cases h

/-- So does an input witness. -/
theorem C46_inwit (m : Mem) (a k : Buf) (ws : List (Nat × Bytes)) :
    (txInWitnessInit m a k).1.read (ws.foldl Mem.write m) = a.read m ∧
      (txInWitnessInit m a k).2.read (ws.foldl Mem.write m) = k.read m := ⟨rfl, rfl⟩

/-- The property for all three constructors. -/
def C46_statement : Prop :=
  (∀ (k : ConfKind) (m : Mem) (c : Buf) (o : ConfObj), confInit k m c = .ok o → ∀ ws : List (Nat × Bytes),
      o.commitment.read (ws.foldl Mem.write m) = c.read m) ∧
  (∀ (m : Mem) (a k : Buf) (ws : List (Nat × Bytes)),
      (txInWitnessInit m a k).1.read (ws.foldl Mem.write m) = a.read m ∧
        (txInWitnessInit m a k).2.read (ws.foldl Mem.write m) = k.read m) ∧
  (∀ (m : Mem) (s p : Buf) (ws : List (Nat × Bytes)),
      (txOutWitnessInit m s p).1.read (ws.foldl Mem.write m) = s.read m ∧
        (txOutWitnessInit m s p).2.read (ws.foldl Mem.write m) = p.read m)

/-- An output witness keeps the `bytearray` it is given: overwriting it changes the proof. -/
theorem C46_statement_false : ¬ C46_statement := fun h => by
  have := (h.2.2 (fun _ => [1]) (.array 0) (.bytes []) [(0, [2])]).1
  revert this
  decide

/-- Output witnesses made of `bytes` do not change.  Missing: `bytearray` arguments, for
which the claim is false. -/
theorem C46_outwit_partial (m : Mem) (s p : Bytes) (ws : List (Nat × Bytes)) :
    (txOutWitnessInit m (.bytes s) (.bytes p)).1.read (ws.foldl Mem.write m) = s ∧
      (txOutWitnessInit m (.bytes s) (.bytes p)).2.read (ws.foldl Mem.write m) = p := ⟨rfl, rfl⟩

/-- C46, exactly: an output witness never changes if and only if it is made of two `bytes`. -/
theorem C46_exact (m : Mem) (s p : Buf) :
    (∀ ws : List (Nat × Bytes), (txOutWitnessInit m s p).1.read (ws.foldl Mem.write m) = s.read m ∧
        (txOutWitnessInit m s p).2.read (ws.foldl Mem.write m) = p.read m) ↔ (∃ b, s = .bytes b) ∧ ∃ b, p = .bytes b := by
  constructor
  · intro h
    have key : ∀ b : Buf, (∀ ws : List (Nat × Bytes), b.read (ws.foldl Mem.write m) = b.read m) → ∃ x, b = .bytes x := by
      intro b hb
      cases b with
      | bytes x => exact ⟨x, rfl⟩
      | array a =>
        have e : (if a = a then 0 :: m a else m a) = m a := hb [(a, 0 :: m a)]
        rw [if_pos rfl] at e
        exact absurd (congrArg List.length e) (by simp)
    exact ⟨key s fun ws => (h ws).1, key p fun ws => (h ws).2⟩
  · rintro ⟨⟨a, rfl⟩, b, rfl⟩ ws
    exact ⟨rfl, rfl⟩

/-- A commitment made of a `bytearray`. -/
example : ∃ o, confInit assetKind (fun _ => List.replicate 33 1) (.array 7) = .ok o ∧
    o.commitment.read (Mem.write (fun _ => List.replicate 33 1) (7, [9])) = List.replicate 33 1 := by
  exact ⟨⟨.bytes (List.replicate 33 1)⟩, rfl, rfl⟩

/-! ### C47: content -/

/-- A copy shows the transaction that was copied, up to the spelling of a null witness; the
original still shows it too; the copy has the wanted class, and so do all of its parts. -/
theorem C47_content {renew : Bool} {m : Mem} {mt : Bool} {h h' : Heap} {r r' : Ref} {t : Tx} (hv : viewTx m h r = some t)
    (hc : copyTx renew m mt h r = .ok (r', h')) :
    (∃ t', viewTx m h' r' = some t' ∧ SameTx t t') ∧ viewTx m h' r = some t ∧ (∃ b, h'[r']? = some ⟨mt, b⟩) ∧
      (WellMade h → WellMade h' ∧ ∀ x ∈ txParts h' r', ∃ b, h'[x]? = some ⟨mt, b⟩) := by
  obtain ⟨t', C, ht⟩ := copyTx_copied renew m h r t r' h' hv hc
  refine ⟨⟨t', C.shows, ?_⟩, ?_, C.top, fun hw => ⟨C.made hw, ?_⟩⟩
  · rcases ht with ht | ⟨-, a, b⟩
    · exact .inl ht
    · exact .inr ⟨a, b⟩
  · obtain ⟨x, hx⟩ := C.ext
    rw [hx]
    exact ((seen_tx m).keeps hv x).1
  · intro x hx
    cases mt with
    | true => exact (C.fresh rfl x hx).2
    | false =>
      obtain ⟨b, hb⟩ := C.top
      exact reach_immut (C.made hw) hb x hx

theorem emptyWitness_isNull (a b : Nat) : (emptyWitness a b).isNull = true := by
  unfold TxWitness.isNull emptyWitness
  simp only [Bool.and_eq_true, List.all_eq_true]
  exact ⟨fun x hx => by rw [(List.mem_replicate.1 hx).2]; rfl, fun x hx => by rw [(List.mem_replicate.1 hx).2]; rfl⟩

/-- Such transactions have the same serializations, with or without witness, for relay or
for signing. -/
theorem C47_serialize {t t' : Tx} (h : SameTx t t') (w f : Bool) : serTx w f t' = serTx w f t := by
  rcases h with rfl | ⟨hn, rfl⟩
  · rfl
  · unfold serTx
    simp only [hn, emptyWitness_isNull, Bool.not_true, Bool.and_false, Bool.false_eq_true, if_false]

/-- Unless the witness is null, nothing differs at all. -/
theorem C47_exact {t t' : Tx} (h : SameTx t t') (hn : t.wit.isNull = false) : t' = t := by
  rcases h with h | ⟨h, -⟩
  · exact h
  · rw [hn] at h; cases h

/-- With a null witness, everything but the witness is the same, and the witness of the
copy is null. -/
theorem C47_null {t t' : Tx} (h : SameTx t t') : { t' with wit := t.wit } = t ∧ t'.wit.isNull = t.wit.isNull := by
  rcases h with rfl | ⟨h, rfl⟩
  · exact ⟨rfl, rfl⟩
  · exact ⟨rfl, by rw [h]; exact emptyWitness_isNull ..⟩

/-! ### C47: copying succeeds -/

theorem copyList_ok {α k} {view : Heap → Ref → Option α} (S : Seen k view) {mt : Bool} {P : α → Prop}
    {f : Heap → Ref → Except PyErr (Ref × Heap)}
    (hf : ∀ h r v r' h', view h r = some v → f h r = .ok (r', h') → Copied k view mt h r v r' h')
    (ho : ∀ h r v, view h r = some v → P v → ∃ r' h', f h r = .ok (r', h')) :
    ∀ (rs : List Ref) (h : Heap) (vs : List α), viewAll (view h) rs = some vs → (∀ v ∈ vs, P v) →
      ∃ rs' h', copyList f h rs = .ok (rs', h')
  | [], h, vs, _, _ => ⟨[], h, rfl⟩
  | r :: rs, h, vs, hv, hp => by
    obtain ⟨v, ws, h1, h2, rfl⟩ := viewAll_cons.1 hv
    obtain ⟨r1, g1, e1⟩ := ho h r v h1 (hp v (List.mem_cons_self ..))
    obtain ⟨x, hx⟩ := (hf h r v r1 g1 h1 e1).ext
    obtain ⟨rs2, g2, e2⟩ := copyList_ok S hf ho rs g1 ws (by rw [hx]; exact viewAll_grow S h2 x)
      (fun u hu => hp u (List.mem_cons_of_mem _ hu))
    exact ⟨r1 :: rs2, g2, by unfold copyList; rw [e1]; simp only [e2]⟩

/-- What `COutPoint.__init__` accepts. -/
def OutPointOk (o : OutPoint) : Prop := o.hash.length = 32 ∧ o.n ≤ 0xffffffff

theorem copyOutPoint_ok {mt : Bool} (h : Heap) (r : Ref) (v : OutPoint) (hv : viewOutPoint h r = some v) (hp : OutPointOk v) :
    ∃ r' h', copyOutPoint mt h r = .ok (r', h') := by
  unfold viewOutPoint at hv
  unfold copyOutPoint
  split at hv
  · rename_i c x n hr
    cases hv
    split
    · exact ⟨_, _, rfl⟩
    · have : outPointNew x n = .ok ⟨x, n⟩ := by
        unfold outPointNew
        rw [if_neg (by rw [hp.1]; decide), if_neg (by have := hp.2; simp only at this; omega)]
      rw [this]
      exact ⟨_, _, rfl⟩
  · cases hv

theorem copyTxIn_ok {mt : Bool} (h : Heap) (r : Ref) (v : TxIn) (hv : viewTxIn h r = some v) (hp : OutPointOk v.prevout) :
    ∃ r' h', copyTxIn mt h r = .ok (r', h') := by
  obtain ⟨c, p, s, q, i, g, o, hr, ho, rfl⟩ := viewTxIn_some hv
  unfold copyTxIn
  rw [hr]
  obtain ⟨p1, g1, e1⟩ := copyOutPoint_ok (mt := mt) h p o ho hp
  simp only [e1]
  split
  · exact ⟨_, _, rfl⟩
  · obtain ⟨p2, g2, e2⟩ := copyOutPoint_ok (mt := mt) g1 p1 o (copyOutPoint_copied h p o p1 g1 ho e1).shows hp
    rw [e2]
    exact ⟨_, _, rfl⟩

theorem copyTxOut_ok {mt : Bool} (h : Heap) (r : Ref) (v : TxOut) (hv : viewTxOut h r = some v) :
    ∃ r' h', copyTxOut mt h r = .ok (r', h') := by
  unfold viewTxOut at hv
  unfold copyTxOut
  split at hv
  · split <;> exact ⟨_, _, rfl⟩
  · cases hv

theorem copyInWit_ok (m : Mem) {mt : Bool} (h : Heap) (r : Ref) (v : TxInWitness) (hv : viewInWit m h r = some v) :
    ∃ r' h', copyInWit m mt h r = .ok (r', h') := by
  unfold viewInWit at hv
  unfold copyInWit
  split at hv
  · simp only
    split <;> exact ⟨_, _, rfl⟩
  · cases hv

theorem copyOutWit_ok (m : Mem) {mt : Bool} (h : Heap) (r : Ref) (v : TxOutWitness) (hv : viewOutWit m h r = some v) :
    ∃ r' h', copyOutWit m mt h r = .ok (r', h') := by
  unfold viewOutWit at hv
  unfold copyOutWit
  split at hv
  · simp only
    split <;> exact ⟨_, _, rfl⟩
  · cases hv

theorem copyWit_ok (m : Mem) {mt : Bool} (h : Heap) (r : Ref) (v : TxWitness) (hv : viewWit m h r = some v) :
    ∃ r' h', copyWit m mt h r = .ok (r', h') := by
  obtain ⟨c, i, o, hr, hi, ho⟩ := viewWit_some hv
  unfold copyWit
  rw [hr]
  simp only
  split
  · exact ⟨_, _, rfl⟩
  · obtain ⟨i', g1, e1⟩ := copyList_ok (mt := mt) (P := fun _ => True) (seen_inWit m)
      (fun h r v r' h' hv hc => copyInWit_copied m h r v r' h' hv hc) (fun h r v hv _ => copyInWit_ok m h r v hv) i h _ hi
      (fun _ _ => trivial)
    obtain ⟨x, hx⟩ := (copyList_copied (mt := mt) (seen_inWit m)
      (fun h r v r' h' hv hc => copyInWit_copied m h r v r' h' hv hc) i h _ i' g1 hi e1).ext
    obtain ⟨o', g2, e2⟩ := copyList_ok (mt := mt) (P := fun _ => True) (seen_outWit m)
      (fun h r v r' h' hv hc => copyOutWit_copied m h r v r' h' hv hc) (fun h r v hv _ => copyOutWit_ok m h r v hv) o g1
      v.vtxoutwit (by rw [hx]; exact viewAll_grow (seen_outWit m) ho x) (fun _ _ => trivial)
    simp only [e1, e2]
    exact ⟨_, _, rfl⟩

/-- A transaction with proper outpoints can always be converted. -/
theorem C47_succeeds (renew : Bool) {m : Mem} (mt : Bool) {h : Heap} {r : Ref} {t : Tx} (hv : viewTx m h r = some t)
    (hp : ∀ i ∈ t.vin, OutPointOk i.prevout) : ∃ r' h', copyTx renew m mt h r = .ok (r', h') := by
  obtain ⟨c, i, o, w, hr, hi, ho, hw⟩ := viewTx_some hv
  unfold copyTx
  rw [hr]
  simp only
  split
  · exact ⟨_, _, rfl⟩
  obtain ⟨i', g1, e1⟩ := copyList_ok (mt := mt) (P := fun v : TxIn => OutPointOk v.prevout) seen_txIn
    (fun h r v r' h' hv hc => copyTxIn_copied h r v r' h' hv hc) (fun h r v hv hp => copyTxIn_ok h r v hv hp) i h _ hi hp
  obtain ⟨x, hx⟩ := (copyList_copied (mt := mt) seen_txIn
    (fun h r v r' h' hv hc => copyTxIn_copied h r v r' h' hv hc) i h _ i' g1 hi e1).ext
  have ho1 : viewAll (viewTxOut g1) o = some t.vout := by rw [hx]; exact viewAll_grow seen_txOut ho x
  obtain ⟨o', g2, e2⟩ := copyList_ok (mt := mt) (P := fun _ => True) seen_txOut
    (fun h r v r' h' hv hc => copyTxOut_copied h r v r' h' hv hc) (fun h r v hv _ => copyTxOut_ok h r v hv) o g1
    t.vout ho1 (fun _ _ => trivial)
  obtain ⟨y, hy⟩ := (copyList_copied (mt := mt) seen_txOut
    (fun h r v r' h' hv hc => copyTxOut_copied h r v r' h' hv hc) o g1 _ o' g2 ho1 e2).ext
  have hw2 : viewWit m g2 w = some t.wit := by
    rw [hy, hx, List.append_assoc]; exact ((seen_wit m).keeps hw (x ++ y)).1
  have e3 : ∃ w' g3, initWit renew m mt g2 w i'.length o'.length = .ok (w', g3) := by
    unfold initWit
    rw [hw2]
    simp only
    split
    · exact ⟨_, _, rfl⟩
    · exact copyWit_ok m g2 w t.wit hw2
  obtain ⟨w', g3, e3⟩ := e3
  simp only [e1, e2, e3]
  exact ⟨_, _, rfl⟩

/-! ### C47: isolation -/

/-- Objects out of a program's reach, and immutable ones, stay as they are. -/
theorem uses_heap {A : Nat → Prop} {S : List Ref} : ∀ {as : List Act} {K : List Ref} {h : Heap}, Uses A K h as →
    (∀ x ∈ S, x < h.length) → (∀ x ∈ K, x ∈ S → ∃ b, h[x]? = some (ObjCell.mk false b)) →
    ∀ x ∈ S, (runHeap h as)[x]? = h[x]?
  | [], _, _, _, _, _ => fun _ _ => rfl
  | .set r b :: as, K, h, hu, hl, hk => by
    obtain ⟨hr, -, -, hu⟩ := hu
    have hlen : (actHeap h (.set r b)).length = h.length := by
      unfold actHeap; simp only; split <;> simp
    have hst : ∀ x ∈ S, (actHeap h (.set r b))[x]? = h[x]? := by
      intro x hx
      unfold actHeap
      simp only
      split
      · rename_i b0 hb0
        have hne : r ≠ x := by
          rintro rfl
          obtain ⟨b1, hb1⟩ := hk r hr hx
          rw [hb1] at hb0; cases hb0
        rw [List.getElem?_set_ne hne]
      · rfl
    intro x hx
    have := uses_heap hu (fun y hy => by rw [hlen]; exact hl y hy)
      (fun y hy hyS => by rw [hst y hyS]; exact hk y hy hyS) x hx
    exact this.trans (hst x hx)
  | .new c :: as, K, h, hu, hl, hk => by
    obtain ⟨-, -, hu⟩ := hu
    have hst : ∀ x ∈ S, (actHeap h (.new c))[x]? = h[x]? := fun x hx =>
      List.getElem?_append_left (hl x hx)
    intro x hx
    have := uses_heap hu (fun y hy => Nat.lt_of_lt_of_le (hl y hy) (by simp [actHeap]))
      (fun y hy hyS => by
        rw [hst y hyS]
        rcases List.mem_cons.1 hy with rfl | hy
        · exact absurd (hl _ hyS) (Nat.lt_irrefl _)
        · exact hk y hy hyS) x hx
    exact this.trans (hst x hx)
  | .poke a b :: as, K, h, hu, hl, hk => by
    exact uses_heap (as := as) (h := h) hu.2 hl hk

/-- `bytearray`s a program does not know stay as they are. -/
theorem uses_mem {A : Nat → Prop} {a : Nat} (ha : ¬ A a) : ∀ {as : List Act} {K : List Ref} {h : Heap} {m : Mem},
    Uses A K h as → runMem m as a = m a
  | [], _, _, _, _ => rfl
  | .set r b :: as, K, h, m, hu => uses_mem (as := as) (m := m) ha hu.2.2.2
  | .new c :: as, K, h, m, hu => uses_mem (as := as) (m := m) ha hu.2.2
  | .poke a' b :: as, K, h, m, hu => by
    have := uses_mem (as := as) (m := m.write (a', b)) ha hu.2
    refine (show runMem m (.poke a' b :: as) a = m.write (a', b) a from this).trans ?_
    unfold Mem.write
    rw [if_neg]
    rintro rfl
    exact ha hu.1

theorem read_congr {m m' : Mem} {b : Buf} (h : ∀ a, b = .array a → m' a = m a) : b.read m' = b.read m := by
  cases b with
  | bytes _ => rfl
  | array a => exact h a rfl

theorem mem_txArrays {h : Heap} {r x : Ref} {c : ObjCell} {a : Nat} (hx : x ∈ txParts h r) (hc : h[x]? = some c)
    (ha : a ∈ c.body.arrays) : a ∈ txArrays h r :=
  List.mem_flatMap.2 ⟨x, hx, by rw [hc]; exact ha⟩

/-- What a transaction shows depends only on the `bytearray`s it holds. -/
theorem viewTx_mem {m m' : Mem} {h : Heap} {r : Ref} (hm : ∀ a ∈ txArrays h r, m' a = m a) : viewTx m' h r = viewTx m h r := by
  unfold viewTx
  cases hc : h[r]? with
  | none => rfl
  | some c =>
    obtain ⟨c, b⟩ := c
    cases b with
    | tx v i o l w =>
      have hw : w ∈ refsAt h r := by rw [refsAt_eq hc]; exact List.mem_append_right _ (List.mem_singleton.2 rfl)
      have : viewWit m' h w = viewWit m h w := by
        unfold viewWit
        cases hcw : h[w]? with
        | none => rfl
        | some cw =>
          obtain ⟨cw, bw⟩ := cw
          cases bw with
          | wit iw ow =>
            have part : ∀ x, x ∈ iw ∨ x ∈ ow → x ∈ txParts h r := fun x hx =>
              mem_reach_succ hw (mem_reach_succ (by rw [refsAt_eq hcw]; exact List.mem_append.2 hx) (self_mem_reach ..))
            simp only
            rw [viewAll_congr (g := viewInWit m h) (l := iw), viewAll_congr (g := viewOutWit m h) (l := ow)]
            · intro x hx
              unfold viewOutWit
              split
              · rename_i s p hcx
                have hA := fun a ha => hm a (mem_txArrays (part x (.inr hx)) hcx ha)
                rw [read_congr (b := s) (fun a e => hA a (by subst e; simp [Body.arrays])),
                  read_congr (b := p) (fun a e => hA a (by subst e; simp [Body.arrays]))]
              · rfl
            · intro x hx
              unfold viewInWit
              split
              · rename_i s p q t hcx
                have hA := fun a ha => hm a (mem_txArrays (part x (.inl hx)) hcx ha)
                rw [read_congr (b := p) (fun a e => hA a (by subst e; simp [Body.arrays])),
                  read_congr (b := q) (fun a e => hA a (by subst e; simp [Body.arrays]))]
              · rfl
          | _ => rfl
      simp only [this]
    | _ => rfl

theorem uses_view {A : Nat → Prop} {m : Mem} {h : Heap} {r : Ref} {t : Tx} {K : List Ref} {as : List Act} (hv : viewTx m h r = some t)
    (hu : Uses A K h as) (hk : ∀ x ∈ K, x ∈ txParts h r → ∃ b, h[x]? = some (ObjCell.mk false b))
    (ha : ∀ a ∈ txArrays h r, runMem m as a = m a) : viewTx (runMem m as) (runHeap h as) r = viewTx m h r := by
  have hS := (seen_tx m).present hv
  rw [(seen_tx (runMem m as)).loc (uses_heap hu hS hk)]
  exact viewTx_mem ha

/-- A part of both the original and the copy is immutable. -/
theorem shared_immutable {renew : Bool} {m : Mem} {mt : Bool} {h h' : Heap} {r r' : Ref} {t : Tx} (hw : WellMade h)
    (hv : viewTx m h r = some t) (hc : copyTx renew m mt h r = .ok (r', h')) :
    ∀ y, y ∈ txParts h' r' → y ∈ txParts h' r → ∃ b, h'[y]? = some (ObjCell.mk false b) := by
  obtain ⟨t', C, -⟩ := copyTx_copied renew m h r t r' h' hv hc
  obtain ⟨x, hx⟩ := C.ext
  intro y hy1 hy2
  cases mt with
  | true =>
    unfold txParts at hy2
    rw [hx, ((seen_tx m).keeps hv x).2] at hy2
    exact absurd ((seen_tx m).present hv y hy2) (Nat.not_lt.2 (C.fresh rfl y hy1).1)
  | false =>
    obtain ⟨b, hb⟩ := C.top
    exact reach_immut (C.made hw) hb y hy1

/-- Field updates: assignments, edits of lists, new objects; no change of a `bytearray` in
place. -/
def FieldUpdates (as : List Act) : Prop := ∀ a b, Act.poke a b ∉ as

theorem runMem_updates {as : List Act} (h : FieldUpdates as) (m : Mem) : runMem m as = m := by
  induction as generalizing m with
  | nil => rfl
  | cons a as ih =>
    have h2 := ih (fun x b hx => h x b (List.mem_cons_of_mem _ hx))
    cases a with
    | poke x b => exact absurd (List.mem_cons_self ..) (h x b)
    | set => exact h2 m
    | new => exact h2 m

/-- Whatever fields of the copy and its parts a program updates, the original shows the same
transaction; and the other way round. -/
theorem C47_updates {renew : Bool} {m : Mem} {mt : Bool} {h h' : Heap} {r r' : Ref} {t : Tx} (hw : WellMade h)
    (hv : viewTx m h r = some t) (hc : copyTx renew m mt h r = .ok (r', h')) {as : List Act} (hf : FieldUpdates as) :
    (Uses (fun _ => True) (txParts h' r') h' as → viewTx m (runHeap h' as) r = some t) ∧
      (Uses (fun _ => True) (txParts h' r) h' as → viewTx m (runHeap h' as) r' = viewTx m h' r') := by
  obtain ⟨t', C, -⟩ := copyTx_copied renew m h r t r' h' hv hc
  obtain ⟨x, hx⟩ := C.ext
  have hv' : viewTx m h' r = some t := by rw [hx]; exact ((seen_tx m).keeps hv x).1
  have sh := shared_immutable hw hv hc
  constructor
  · intro hu
    have := uses_view hv' hu sh (fun a _ => by rw [runMem_updates hf])
    rw [runMem_updates hf] at this
    rw [this, hv']
  · intro hu
    have := uses_view C.shows hu (fun y h1 h2 => sh y h2 h1) (fun a _ => by rw [runMem_updates hf])
    rwa [runMem_updates hf] at this

/-- Programs holding one of two transactions do not affect the other one, even by changing
`bytearray`s in place. -/
def Isolated (m : Mem) (h : Heap) (r r' : Ref) : Prop :=
  (∀ as, UsesTx h r' as → viewTx (runMem m as) (runHeap h as) r = viewTx m h r) ∧
    ∀ as, UsesTx h r as → viewTx (runMem m as) (runHeap h as) r' = viewTx m h r'

/-- The property extended to changes in place. -/
def C47_inplace_statement : Prop :=
  ∀ (renew : Bool) (m : Mem) (mt : Bool) (h : Heap) (r : Ref) (t : Tx) (r' : Ref) (h' : Heap), WellMade h →
    viewTx m h r = some t → copyTx renew m mt h r = .ok (r', h') → Isolated m h' r r'

/-- The extended property whenever the output witnesses of the original hold `bytes`, as they
do in deserialized transactions.  Missing: output witnesses holding `bytearray`s, for which
the extension is false. -/
theorem C47_inplace_partial {renew : Bool} {m : Mem} {mt : Bool} {h h' : Heap} {r r' : Ref} {t : Tx} (hw : WellMade h)
    (hv : viewTx m h r = some t) (hp : PlainProofs h r) (hc : copyTx renew m mt h r = .ok (r', h')) : Isolated m h' r r' := by
  obtain ⟨t', C, -⟩ := copyTx_copied renew m h r t r' h' hv hc
  obtain ⟨x, hx⟩ := C.ext
  have hv' : viewTx m h' r = some t := by rw [hx]; exact ((seen_tx m).keeps hv x).1
  have hno : txArrays h' r' = [] := by
    refine List.flatMap_eq_nil_iff.2 fun y hy => ?_
    have q := C.quiet hw hp y hy
    cases hcy : h'[y]? with
    | none => rfl
    | some c => exact q c hcy
  have sh := shared_immutable hw hv hc
  constructor
  · intro as hu
    refine uses_view hv' hu sh fun a ha => uses_mem ?_ hu
    rintro (h1 | h1)
    · rw [hno] at h1; cases h1
    · obtain ⟨y, hy, hay⟩ := List.mem_flatMap.1 ha
      cases hcy : h'[y]? with
      | none => rw [hcy] at hay; cases hay
      | some c => rw [hcy] at hay; exact h1 ⟨y, c, hcy, hay⟩
  · intro as hu
    refine uses_view C.shows hu (fun y h1 h2 => sh y h2 h1) fun a ha => ?_
    rw [hno] at ha; cases ha

/-- A heap with one mutable transaction whose only output witness holds a `bytearray`. -/
def aliasHeap : Heap :=
  [⟨true, .txout [1, 0, 0, 0, 0, 0, 0, 0, 1] [] (1 :: List.replicate 32 7) [0]⟩,
   ⟨true, .outwit (.array 0) (.bytes [5])⟩, ⟨true, .wit [] [1]⟩, ⟨true, .tx 2 [] [0] 0 2⟩]

/-- A mutable copy shares the `bytearray` of an output witness with the original: changing it
through the copy changes the original. -/
theorem C47_inplace_statement_false : ¬ C47_inplace_statement := fun H => by
  have h1 := (H false (fun _ => [1]) true aliasHeap 3 _ 7 _ ⟨?_, ?_⟩ rfl rfl).1 [.poke 0 [2]] ⟨.inl (by decide), trivial⟩
  · revert h1; decide
  · intro r b hb
    have := get_lt hb
    have h2 : ∀ r < 4, ∀ c, aliasHeap[r]? = some c → c.mutable = true := by
      intro r hr c
      match r, hr with
      | 0, _ | 1, _ | 2, _ | 3, _ => intro e; cases e; rfl
    have := h2 r this _ hb
    cases this
  · intro r s a k p hb
    have := get_lt hb
    have h2 : ∀ r < 4, ∀ c, aliasHeap[r]? = some c → c.mutable = true := by
      intro r hr c
      match r, hr with
      | 0, _ | 1, _ | 2, _ | 3, _ => intro e; cases e; rfl
    have := h2 r this _ hb
    cases this

/-- A transaction with an input, an output and witnesses; its input witness holds a
`bytearray`. -/
def sampleHeap : Heap :=
  [⟨true, .outpoint (List.replicate 32 3) 1⟩,
   ⟨true, .txin 0 [] 0 ⟨List.replicate 32 0, List.replicate 32 0, [0], [0]⟩ false⟩,
   ⟨true, .txout [1, 0, 0, 0, 0, 0, 0, 0, 1] [] (1 :: List.replicate 32 7) [0]⟩,
   ⟨true, .inwit [[9]] (.array 0) (.bytes []) []⟩,
   ⟨true, .outwit (.bytes [4]) (.bytes [5])⟩, ⟨true, .wit [3] [4]⟩, ⟨true, .tx 2 [1] [2] 0 5⟩]

/-- The theorems apply to it, in both directions of conversion; editing the copy changes the
copy. -/
example : PlainProofs sampleHeap 6 ∧ (∃ t, viewTx (fun _ => [1]) sampleHeap 6 = some t ∧ ∀ i ∈ t.vin, OutPointOk i.prevout) ∧
    (∃ r' h', copyTx false (fun _ => [1]) false sampleHeap 6 = .ok (r', h')) ∧
    ∃ r' h', copyTx false (fun _ => [1]) true sampleHeap 6 = .ok (r', h') ∧
      UsesTx h' r' [.set r' (.tx 3 [] [] 0 13)] ∧
      viewTx (fun _ => [1]) (runHeap h' [.set r' (.tx 3 [] [] 0 13)]) r' ≠ viewTx (fun _ => [1]) h' r' := by
  refine ⟨?_, ⟨_, rfl, ?_⟩, ⟨_, _, rfl⟩, 14, _, rfl, ?_, ?_⟩
  · intro x hx c s p hc
    have hx' : x ∈ [6, 1, 0, 2, 5, 3, 4] := hx
    simp only [List.mem_cons, List.not_mem_nil, or_false] at hx'
    rcases hx' with rfl | rfl | rfl | rfl | rfl | rfl | rfl <;> cases hc
    rfl
  · intro i hi
    cases List.mem_singleton.1 hi
    exact ⟨rfl, by decide⟩
  · exact ⟨by decide, by decide, fun a ha => by (cases ha), trivial⟩
  · decide

end Verif
