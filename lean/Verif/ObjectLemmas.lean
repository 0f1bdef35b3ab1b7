import Verif.Spec.Objects
/-
Lemmas on the heap of objects.
-/
namespace Verif

theorem app_left {h x : Heap} {r : Ref} {c : ObjCell} (hc : h[r]? = some c) : (h ++ x)[r]? = some c := by
  rw [List.getElem?_append_left (List.getElem?_eq_some_iff.1 hc).1, hc]

theorem app_last (h : Heap) (c : ObjCell) : (h ++ [c])[h.length]? = some c := by simp

theorem get_lt {h : Heap} {r : Ref} {c : ObjCell} (hc : h[r]? = some c) : r < h.length := (List.getElem?_eq_some_iff.1 hc).1

theorem self_mem_reach (k : Nat) (h : Heap) (r : Ref) : r ∈ reach k h r := by
  cases k <;> simp [reach]

theorem flatMap_congr' {α β} {l : List α} {f g : α → List β} (h : ∀ x ∈ l, f x = g x) : l.flatMap f = l.flatMap g := by
  induction l with
  | nil => rfl
  | cons x l ih =>
    rw [List.flatMap_cons, List.flatMap_cons, h x (List.mem_cons_self ..), ih fun y hy => h y (List.mem_cons_of_mem _ hy)]

theorem reach_congr {k : Nat} {h h' : Heap} {r : Ref} (hs : ∀ x ∈ reach k h r, h'[x]? = h[x]?) :
    reach k h' r = reach k h r := by
  induction k generalizing r with
  | zero => rfl
  | succ k ih =>
    have hr : refsAt h' r = refsAt h r := by unfold refsAt; rw [hs r (self_mem_reach _ _ _)]
    simp only [reach, hr, List.cons.injEq, true_and]
    refine flatMap_congr' fun x hx => ih fun y hy => hs y ?_
    exact List.mem_cons_of_mem _ (List.mem_flatMap.2 ⟨x, hx, hy⟩)

theorem refsAt_eq {h : Heap} {r : Ref} {c : Bool} {b : Body} (hc : h[r]? = some ⟨c, b⟩) : refsAt h r = b.refs := by
  unfold refsAt; rw [hc]

theorem mem_reach_succ {k : Nat} {h : Heap} {r x y : Ref} (hx : x ∈ refsAt h r) (hy : y ∈ reach k h x) :
    y ∈ reach (k + 1) h r := List.mem_cons_of_mem _ (List.mem_flatMap.2 ⟨x, hx, hy⟩)

/-- What is seen of an object depends on the objects within `k` steps, and they exist. -/
structure Seen {α} (k : Nat) (view : Heap → Ref → Option α) : Prop where
  loc : ∀ {h h' r}, (∀ x ∈ reach k h r, h'[x]? = h[x]?) → view h' r = view h r
  present : ∀ {h r v}, view h r = some v → ∀ x ∈ reach k h r, x < h.length

theorem Seen.keeps {α k} {view : Heap → Ref → Option α} (S : Seen k view) {h : Heap} {r : Ref} {v : α}
    (hv : view h r = some v) (x : Heap) : view (h ++ x) r = some v ∧ reach k (h ++ x) r = reach k h r := by
  have hs : ∀ y ∈ reach k h r, (h ++ x)[y]? = h[y]? := fun y hy =>
    List.getElem?_append_left (S.present hv y hy)
  exact ⟨(S.loc hs).trans hv, reach_congr hs⟩

theorem viewAll_congr {α} {f g : Ref → Option α} {l : List Ref} (h : ∀ r ∈ l, f r = g r) : viewAll f l = viewAll g l := by
  induction l with
  | nil => rfl
  | cons r l ih =>
    simp only [viewAll, h r (List.mem_cons_self ..), ih fun x hx => h x (List.mem_cons_of_mem _ hx)]

theorem viewAll_mem {α} {f : Ref → Option α} {l : List Ref} {xs : List α} (h : viewAll f l = some xs) :
    ∀ r ∈ l, ∃ x, f r = some x := by
  induction l generalizing xs with
  | nil => simp
  | cons r l ih =>
    simp only [viewAll] at h
    cases hf : f r with
    | none => rw [hf] at h; cases h
    | some x =>
      rw [hf] at h
      cases ha : viewAll f l with
      | none => rw [ha] at h; cases h
      | some ys =>
        intro y hy
        rcases List.mem_cons.1 hy with rfl | hy
        · exact ⟨x, hf⟩
        · exact ih ha y hy

theorem viewAll_cons {α} {f : Ref → Option α} {r : Ref} {l : List Ref} {xs : List α} :
    viewAll f (r :: l) = some xs ↔ ∃ x ys, f r = some x ∧ viewAll f l = some ys ∧ xs = x :: ys := by
  simp only [viewAll]
  cases f r with
  | none => simp
  | some x => cases viewAll f l with
    | none => simp
    | some ys => simp [eq_comm]

theorem viewAll_length {α} {f : Ref → Option α} {l : List Ref} {xs : List α} (h : viewAll f l = some xs) :
    xs.length = l.length := by
  induction l generalizing xs with
  | nil => cases h; rfl
  | cons r l ih => obtain ⟨x, ys, -, h2, rfl⟩ := viewAll_cons.1 h; simp [ih h2]

theorem seen_outPoint : Seen 0 viewOutPoint where
  loc := by intro h h' r hs; unfold viewOutPoint; rw [hs r (self_mem_reach ..)]
  present := by
    intro h r v hv x hx
    cases List.mem_singleton.1 hx
    unfold viewOutPoint at hv
    split at hv
    · rename_i hc; exact get_lt hc
    · cases hv

theorem seen_txOut : Seen 0 viewTxOut where
  loc := by intro h h' r hs; unfold viewTxOut; rw [hs r (self_mem_reach ..)]
  present := by
    intro h r v hv x hx
    cases List.mem_singleton.1 hx
    unfold viewTxOut at hv
    split at hv
    · rename_i hc; exact get_lt hc
    · cases hv

theorem seen_inWit (m : Mem) : Seen 0 (viewInWit m) where
  loc := by intro h h' r hs; unfold viewInWit; rw [hs r (self_mem_reach ..)]
  present := by
    intro h r v hv x hx
    cases List.mem_singleton.1 hx
    unfold viewInWit at hv
    split at hv
    · rename_i hc; exact get_lt hc
    · cases hv

theorem seen_outWit (m : Mem) : Seen 0 (viewOutWit m) where
  loc := by intro h h' r hs; unfold viewOutWit; rw [hs r (self_mem_reach ..)]
  present := by
    intro h r v hv x hx
    cases List.mem_singleton.1 hx
    unfold viewOutWit at hv
    split at hv
    · rename_i hc; exact get_lt hc
    · cases hv

theorem viewTxIn_some {h : Heap} {r : Ref} {v : TxIn} (hv : viewTxIn h r = some v) :
    ∃ c p s q i g o, h[r]? = some ⟨c, .txin p s q i g⟩ ∧ viewOutPoint h p = some o ∧ v = ⟨o, s, q, i, g⟩ := by
  unfold viewTxIn at hv
  split at hv
  · rename_i c p s q i g hc
    cases ho : viewOutPoint h p with
    | none => rw [ho] at hv; cases hv
    | some o => rw [ho] at hv; cases hv; exact ⟨c, p, s, q, i, g, o, hc, ho, rfl⟩
  · cases hv

theorem seen_txIn : Seen 1 viewTxIn where
  loc := by
    intro h h' r hs
    have hr := hs r (self_mem_reach ..)
    unfold viewTxIn
    rw [hr]
    cases hc : h[r]? with
    | none => rfl
    | some c =>
      obtain ⟨c, b⟩ := c
      cases b with
      | txin p s q i g =>
        simp only
        rw [seen_outPoint.loc fun x hx => hs x (mem_reach_succ (by rw [refsAt_eq hc]; simp [Body.refs]) hx)]
      | _ => rfl
  present := by
    intro h r v hv x hx
    obtain ⟨c, p, s, q, i, g, o, hc, ho, -⟩ := viewTxIn_some hv
    rcases List.mem_cons.1 hx with rfl | hx
    · exact get_lt hc
    · rw [refsAt_eq hc] at hx
      obtain ⟨y, hy, hx⟩ := List.mem_flatMap.1 hx
      cases List.mem_singleton.1 hy
      exact seen_outPoint.present ho x hx

theorem viewWit_some {m : Mem} {h : Heap} {r : Ref} {v : TxWitness} (hv : viewWit m h r = some v) :
    ∃ c i o, h[r]? = some ⟨c, .wit i o⟩ ∧ viewAll (viewInWit m h) i = some v.vtxinwit ∧
      viewAll (viewOutWit m h) o = some v.vtxoutwit := by
  unfold viewWit at hv
  split at hv
  · rename_i c i o hc
    split at hv
    · rename_i a b ha hb; cases hv; exact ⟨c, i, o, hc, ha, hb⟩
    · cases hv
  · cases hv

theorem seen_wit (m : Mem) : Seen 1 (viewWit m) where
  loc := by
    intro h h' r hs
    have hr := hs r (self_mem_reach ..)
    unfold viewWit
    rw [hr]
    cases hc : h[r]? with
    | none => rfl
    | some c =>
      obtain ⟨c, b⟩ := c
      cases b with
      | wit i o =>
        simp only
        rw [viewAll_congr fun x hx => (seen_inWit m).loc fun y hy => hs y (mem_reach_succ (by
            rw [refsAt_eq hc]; exact List.mem_append_left _ hx) hy),
          viewAll_congr fun x hx => (seen_outWit m).loc fun y hy => hs y (mem_reach_succ (by
            rw [refsAt_eq hc]; exact List.mem_append_right _ hx) hy)]
      | _ => rfl
  present := by
    intro h r v hv x hx
    obtain ⟨c, i, o, hc, hi, ho⟩ := viewWit_some hv
    rcases List.mem_cons.1 hx with rfl | hx
    · exact get_lt hc
    · rw [refsAt_eq hc] at hx
      obtain ⟨y, hy, hx⟩ := List.mem_flatMap.1 hx
      rcases List.mem_append.1 hy with hy | hy
      · obtain ⟨z, hz⟩ := viewAll_mem hi y hy
        exact (seen_inWit m).present hz x hx
      · obtain ⟨z, hz⟩ := viewAll_mem ho y hy
        exact (seen_outWit m).present hz x hx

theorem viewTx_some {m : Mem} {h : Heap} {r : Ref} {t : Tx} (hv : viewTx m h r = some t) :
    ∃ c i o w, h[r]? = some ⟨c, .tx t.nVersion i o t.nLockTime w⟩ ∧ viewAll (viewTxIn h) i = some t.vin ∧
      viewAll (viewTxOut h) o = some t.vout ∧ viewWit m h w = some t.wit := by
  unfold viewTx at hv
  split at hv
  · rename_i c v i o l w hc
    split at hv
    · rename_i x y z hx hy hz; cases hv; exact ⟨c, i, o, w, hc, hx, hy, hz⟩
    · cases hv
  · cases hv

theorem reach_le {j k : Nat} (hjk : j ≤ k) {h : Heap} {r x : Ref} (hx : x ∈ reach j h r) : x ∈ reach k h r := by
  induction j generalizing k r with
  | zero => cases List.mem_singleton.1 hx; exact self_mem_reach ..
  | succ j ih =>
    cases k with
    | zero => omega
    | succ k =>
      rcases List.mem_cons.1 hx with rfl | hx
      · exact self_mem_reach ..
      · obtain ⟨y, hy, hx⟩ := List.mem_flatMap.1 hx
        exact mem_reach_succ hy (ih (by omega) hx)

theorem seen_tx (m : Mem) : Seen 2 (viewTx m) where
  loc := by
    intro h h' r hs
    have hr := hs r (self_mem_reach ..)
    unfold viewTx
    rw [hr]
    cases hc : h[r]? with
    | none => rfl
    | some c =>
      obtain ⟨c, b⟩ := c
      cases b with
      | tx v i o l w =>
        simp only
        rw [viewAll_congr fun x hx => seen_txIn.loc fun y hy => hs y (mem_reach_succ (by
            rw [refsAt_eq hc]; exact List.mem_append_left _ (List.mem_append_left _ hx)) hy),
          viewAll_congr fun x hx => seen_txOut.loc fun y hy => hs y (mem_reach_succ (by
            rw [refsAt_eq hc]; exact List.mem_append_left _ (List.mem_append_right _ hx)) (reach_le (by omega) hy)),
          (seen_wit m).loc fun y hy => hs y (mem_reach_succ (by
            rw [refsAt_eq hc]; exact List.mem_append_right _ (List.mem_singleton.2 rfl)) hy)]
      | _ => rfl
  present := by
    intro h r v hv x hx
    obtain ⟨c, i, o, w, hc, hi, ho, hw⟩ := viewTx_some hv
    rcases List.mem_cons.1 hx with rfl | hx
    · exact get_lt hc
    · rw [refsAt_eq hc] at hx
      obtain ⟨y, hy, hx⟩ := List.mem_flatMap.1 hx
      rcases List.mem_append.1 hy with hy | hy
      · rcases List.mem_append.1 hy with hy | hy
        · obtain ⟨z, hz⟩ := viewAll_mem hi y hy
          exact seen_txIn.present hz x hx
        · obtain ⟨z, hz⟩ := viewAll_mem ho y hy
          rcases List.mem_cons.1 hx with rfl | hx
          · exact seen_txOut.present hz _ (self_mem_reach ..)
          · -- an output refers to nothing
            have : refsAt h y = [] := by
              unfold viewTxOut at hz
              split at hz
              · rename_i hcy; rw [refsAt_eq hcy]; rfl
              · cases hz
            rw [this] at hx; cases hx
      · cases List.mem_singleton.1 hy
        exact (seen_wit m).present hw x hx

/-! ### Copies -/

/-- Output witnesses near an object hold `bytes`. -/
def PlainAt (k : Nat) (h : Heap) (r : Ref) : Prop :=
  ∀ x ∈ reach k h r, ∀ c s p, h[x]? = some (ObjCell.mk c (.outwit s p)) → (Body.outwit s p).arrays = []

/-- No `bytearray` is held near an object. -/
def NoArr (k : Nat) (h : Heap) (r : Ref) : Prop :=
  ∀ x ∈ reach k h r, ∀ c : ObjCell, h[x]? = some c → c.body.arrays = []

theorem WellMade.snoc {h : Heap} (hc : WellMade h) {c : ObjCell}
    (hr : c.mutable = false → ∀ x ∈ c.body.refs, ∃ b, h[x]? = some ⟨false, b⟩)
    (hf : c.mutable = false → ∀ s a k p, c.body = .inwit s a k p → c.body.arrays = []) : WellMade (h ++ [c]) := by
  have key : ∀ (r : Ref) (d : ObjCell), (h ++ [c])[r]? = some d → h[r]? = some d ∨ d = c := by
    intro r d hd
    rcases Nat.lt_or_ge r h.length with hlt | hge
    · rw [List.getElem?_append_left hlt] at hd; exact .inl hd
    · rw [List.getElem?_append_right hge] at hd
      have h0 : r - h.length = 0 := by
        have := (List.getElem?_eq_some_iff.1 hd).1
        simp at this; omega
      rw [h0] at hd
      exact .inr (Option.some.inj hd).symm
  constructor
  · intro r b hb x hx
    rcases key r _ hb with hb | rfl
    · obtain ⟨b', hb'⟩ := hc.closed r b hb x hx
      exact ⟨b', app_left hb'⟩
    · obtain ⟨b', hb'⟩ := hr rfl x hx
      exact ⟨b', app_left hb'⟩
  · intro r s a k p hb
    rcases key r _ hb with hb | rfl
    · exact hc.frozen r s a k p hb
    · exact hf rfl s a k p rfl

theorem reach_immut {h : Heap} (hc : WellMade h) {k : Nat} {r : Ref} {b : Body} (hr : h[r]? = some ⟨false, b⟩) :
    ∀ x ∈ reach k h r, ∃ b', h[x]? = some ⟨false, b'⟩ := by
  induction k generalizing r b with
  | zero => intro x hx; cases List.mem_singleton.1 hx; exact ⟨b, hr⟩
  | succ k ih =>
    intro x hx
    rcases List.mem_cons.1 hx with rfl | hx
    · exact ⟨b, hr⟩
    · rw [refsAt_eq hr] at hx
      obtain ⟨y, hy, hx⟩ := List.mem_flatMap.1 hx
      obtain ⟨b', hb'⟩ := hc.closed r b hr y hy
      exact ih hb' x hx

theorem noArr_self {h : Heap} (hc : WellMade h) {k : Nat} {r : Ref} {b : Body} (hr : h[r]? = some ⟨false, b⟩)
    (hp : PlainAt k h r) : NoArr k h r := by
  intro x hx c hxc
  obtain ⟨b', hb'⟩ := reach_immut hc hr x hx
  rw [hb'] at hxc
  cases hxc
  cases b' with
  | inwit s a k p => exact hc.frozen x s a k p hb'
  | outwit s p => exact hp x hx _ s p hb'
  | _ => rfl

theorem Seen.plain {α k} {view : Heap → Ref → Option α} (S : Seen k view) {h : Heap} {r : Ref} {v : α}
    (hv : view h r = some v) (x : Heap) (hp : PlainAt k h r) : PlainAt k (h ++ x) r := by
  intro y hy c s p hc
  rw [(S.keeps hv x).2] at hy
  rw [List.getElem?_append_left (S.present hv y hy)] at hc
  exact hp y hy c s p hc

theorem Seen.noArr {α k} {view : Heap → Ref → Option α} (S : Seen k view) {h : Heap} {r : Ref} {v : α}
    (hv : view h r = some v) (x : Heap) (hp : NoArr k h r) : NoArr k (h ++ x) r := by
  intro y hy c hc
  rw [(S.keeps hv x).2] at hy
  rw [List.getElem?_append_left (S.present hv y hy)] at hc
  exact hp y hy c hc

/-- `r'` in `h'` is a copy, of the wanted mutability, of `r` in `h`, which shows `v`. -/
structure Copied {α} (k : Nat) (view : Heap → Ref → Option α) (mt : Bool) (h : Heap) (r : Ref) (v : α) (r' : Ref) (h' : Heap) : Prop where
  ext : ∃ x, h' = h ++ x
  shows : view h' r' = some v
  top : ∃ b, h'[r']? = some ⟨mt, b⟩
  fresh : mt = true → ∀ x ∈ reach k h' r', h.length ≤ x ∧ ∃ b, h'[x]? = some ⟨true, b⟩
  made : WellMade h → WellMade h'
  quiet : WellMade h → PlainAt k h r → NoArr k h' r'

/-- The same for a list. -/
structure CopiedAll {α} (k : Nat) (view : Heap → Ref → Option α) (mt : Bool) (h : Heap) (rs : List Ref) (vs : List α) (rs' : List Ref) (h' : Heap) : Prop where
  ext : ∃ x, h' = h ++ x
  shows : viewAll (view h') rs' = some vs
  top : ∀ r' ∈ rs', ∃ b, h'[r']? = some ⟨mt, b⟩
  fresh : mt = true → ∀ r' ∈ rs', ∀ x ∈ reach k h' r', h.length ≤ x ∧ ∃ b, h'[x]? = some ⟨true, b⟩
  made : WellMade h → WellMade h'
  quiet : WellMade h → (∀ r ∈ rs, PlainAt k h r) → ∀ r' ∈ rs', NoArr k h' r'

/-- A copy stays one when the heap grows. -/
theorem Copied.grow {α k} {view : Heap → Ref → Option α} (S : Seen k view) {mt h r v r' h'} (H : Copied k view mt h r v r' h')
    (x : Heap) : view (h' ++ x) r' = some v ∧ (∃ b, (h' ++ x)[r']? = some ⟨mt, b⟩) ∧
      (mt = true → ∀ y ∈ reach k (h' ++ x) r', h.length ≤ y ∧ ∃ b, (h' ++ x)[y]? = some ⟨true, b⟩) ∧
      (WellMade h → PlainAt k h r → NoArr k (h' ++ x) r') := by
  have hk := S.keeps H.shows x
  refine ⟨hk.1, ?_, ?_, fun a b => S.noArr H.shows x (H.quiet a b)⟩
  · obtain ⟨b, hb⟩ := H.top; exact ⟨b, app_left hb⟩
  · intro hm y hy
    rw [hk.2] at hy
    obtain ⟨h1, b, hb⟩ := H.fresh hm y hy
    exact ⟨h1, b, app_left hb⟩

theorem viewAll_grow {α k} {view : Heap → Ref → Option α} (S : Seen k view) {h : Heap} {rs : List Ref} {vs : List α}
    (hv : viewAll (view h) rs = some vs) (x : Heap) : viewAll (view (h ++ x)) rs = some vs := by
  rw [viewAll_congr (g := view h), hv]
  intro r hr
  obtain ⟨v, hv⟩ := viewAll_mem hv r hr
  rw [hv]
  exact (S.keeps hv x).1

theorem CopiedAll.grow {α k} {view : Heap → Ref → Option α} (S : Seen k view) {mt h rs vs rs' h'} (H : CopiedAll k view mt h rs vs rs' h')
    (x : Heap) : viewAll (view (h' ++ x)) rs' = some vs ∧ (∀ r' ∈ rs', ∃ b, (h' ++ x)[r']? = some ⟨mt, b⟩) ∧
      (mt = true → ∀ r' ∈ rs', ∀ y ∈ reach k (h' ++ x) r', h.length ≤ y ∧ ∃ b, (h' ++ x)[y]? = some ⟨true, b⟩) ∧
      (WellMade h → (∀ r ∈ rs, PlainAt k h r) → ∀ r' ∈ rs', NoArr k (h' ++ x) r') := by
  refine ⟨viewAll_grow S H.shows x, ?_, ?_, ?_⟩
  · intro r hr
    obtain ⟨b, hb⟩ := H.top r hr; exact ⟨b, app_left hb⟩
  · intro hm r hr y hy
    obtain ⟨v, hv⟩ := viewAll_mem H.shows r hr
    rw [(S.keeps hv x).2] at hy
    obtain ⟨h1, b, hb⟩ := H.fresh hm r hr y hy
    exact ⟨h1, b, app_left hb⟩
  · intro a b r hr
    obtain ⟨v, hv⟩ := viewAll_mem H.shows r hr
    exact S.noArr hv x (H.quiet a b r hr)

/-- Copying lists, given how to copy the elements. -/
theorem copyList_copied {α k} {view : Heap → Ref → Option α} (S : Seen k view) {mt : Bool}
    {f : Heap → Ref → Except PyErr (Ref × Heap)}
    (hf : ∀ h r v r' h', view h r = some v → f h r = .ok (r', h') → Copied k view mt h r v r' h') :
    ∀ (rs : List Ref) (h : Heap) (vs : List α) (rs' : List Ref) (h' : Heap),
      viewAll (view h) rs = some vs → copyList f h rs = .ok (rs', h') → CopiedAll k view mt h rs vs rs' h'
  | [], h, vs, rs', h', hv, hc => by
    cases hc; cases hv
    exact ⟨⟨[], by simp⟩, rfl, by simp, by simp, id, by simp⟩
  | r :: rs, h, vs, rs', h', hv, hc => by
    obtain ⟨v, ws, h1, h2, rfl⟩ := viewAll_cons.1 hv
    unfold copyList at hc
    cases hfr : f h r with
    | error e => rw [hfr] at hc; cases hc
    | ok p =>
      obtain ⟨r1, g1⟩ := p
      rw [hfr] at hc
      simp only at hc
      cases hl : copyList f g1 rs with
      | error e => rw [hl] at hc; cases hc
      | ok q =>
        obtain ⟨rs1, g2⟩ := q
        rw [hl] at hc
        cases hc
        have C1 := hf h r v r1 g1 h1 hfr
        obtain ⟨x1, hx1⟩ := C1.ext
        have hv2 : viewAll (view g1) rs = some ws := by rw [hx1]; exact viewAll_grow S h2 x1
        have C2 := copyList_copied S hf rs g1 ws rs1 h' hv2 hl
        obtain ⟨x2, hx2⟩ := C2.ext
        have G := C1.grow S x2
        rw [← hx2] at G
        refine ⟨⟨x1 ++ x2, by rw [hx2, hx1, List.append_assoc]⟩, viewAll_cons.2 ⟨v, ws, G.1, C2.shows, rfl⟩, ?_, ?_,
          fun hcl => C2.made (C1.made hcl), ?_⟩
        · intro y hy
          rcases List.mem_cons.1 hy with rfl | hy
          · exact G.2.1
          · exact C2.top y hy
        · intro hm y hy z hz
          rcases List.mem_cons.1 hy with rfl | hy
          · exact G.2.2.1 hm z hz
          · obtain ⟨h3, h4⟩ := C2.fresh hm y hy z hz
            refine ⟨?_, h4⟩
            rw [hx1, List.length_append] at h3
            omega
        · intro hw hp y hy
          rcases List.mem_cons.1 hy with rfl | hy
          · exact G.2.2.2 hw (hp r (List.mem_cons_self ..))
          · refine C2.quiet (C1.made hw) (fun z hz => ?_) y hy
            obtain ⟨u, hu⟩ := viewAll_mem h2 z hz
            rw [hx1]
            exact S.plain hu x1 (hp z (List.mem_cons_of_mem _ hz))

/-- A new object without references. -/
theorem copied_leaf {α} {view : Heap → Ref → Option α} {mt : Bool} {h : Heap} {r : Ref} {b : Body} {v : α} (hb : b.refs = [])
    (hi : ∀ s a k p, b = .inwit s a k p → b.arrays = []) (hq : PlainAt 0 h r → b.arrays = [])
    (hv : view (h ++ [⟨mt, b⟩]) h.length = some v) : Copied 0 view mt h r v h.length (h ++ [⟨mt, b⟩]) where
  ext := ⟨_, rfl⟩
  shows := hv
  top := ⟨b, app_last ..⟩
  fresh := by
    intro hm x hx
    cases List.mem_singleton.1 hx
    exact ⟨Nat.le_refl _, b, by rw [app_last, hm]⟩
  made hc := hc.snoc (fun _ x hx => by simp [hb] at hx) (fun _ => hi)
  quiet := by
    intro hw hp x hx c hc
    cases List.mem_singleton.1 hx
    rw [app_last] at hc
    cases hc
    exact hq hp

/-- The object itself. -/
theorem copied_self {α} {k : Nat} {view : Heap → Ref → Option α} {h : Heap} {b : Body} {r : Ref} {v : α}
    (hr : h[r]? = some ⟨false, b⟩) (hv : view h r = some v) : Copied k view false h r v r h where
  ext := ⟨[], by simp⟩
  shows := hv
  top := ⟨b, hr⟩
  fresh hm := by cases hm
  made := id
  quiet hw hp := noArr_self hw hr hp

theorem outPointNew_ok {x : Bytes} {n : Nat} {o : OutPoint} (h : outPointNew x n = .ok o) : o = ⟨x, n⟩ := by
  unfold outPointNew at h
  repeat' split at h
  all_goals first | (cases h; rfl) | cases h

theorem copyOutPoint_copied {mt : Bool} (h : Heap) (r : Ref) (v : OutPoint) (r' : Ref) (h' : Heap) (hv : viewOutPoint h r = some v)
    (hc : copyOutPoint mt h r = .ok (r', h')) : Copied 0 viewOutPoint mt h r v r' h' := by
  unfold copyOutPoint at hc
  split at hc
  · rename_i c x n hr
    have hv' : v = ⟨x, n⟩ := by unfold viewOutPoint at hv; rw [hr] at hv; exact (Option.some.inj hv).symm
    subst hv'
    split at hc
    · rename_i hm
      simp only [Bool.and_eq_true, Bool.not_eq_true'] at hm
      obtain ⟨rfl, rfl⟩ := hm
      cases hc
      exact copied_self hr hv
    · cases ho : outPointNew x n with
      | error e => rw [ho] at hc; cases hc
      | ok o =>
        rw [ho] at hc
        cases hc
        cases outPointNew_ok ho
        exact copied_leaf rfl (fun _ _ _ _ _ => rfl) (fun _ => rfl) (by unfold viewOutPoint; rw [app_last])
  · cases hc

theorem copyTxOut_copied {mt : Bool} (h : Heap) (r : Ref) (v : TxOut) (r' : Ref) (h' : Heap) (hv : viewTxOut h r = some v)
    (hc : copyTxOut mt h r = .ok (r', h')) : Copied 0 viewTxOut mt h r v r' h' := by
  unfold copyTxOut at hc
  split at hc
  · rename_i c x y z w hr
    have hv' : v = ⟨x, y, z, w⟩ := by unfold viewTxOut at hv; rw [hr] at hv; exact (Option.some.inj hv).symm
    subst hv'
    split at hc
    · rename_i hm
      simp only [Bool.and_eq_true, Bool.not_eq_true'] at hm
      obtain ⟨rfl, rfl⟩ := hm
      cases hc
      exact copied_self hr hv
    · cases hc
      exact copied_leaf rfl (fun _ _ _ _ _ => rfl) (fun _ => rfl) (by unfold viewTxOut; rw [app_last])
  · cases hc

theorem copyInWit_copied (m : Mem) {mt : Bool} (h : Heap) (r : Ref) (v : TxInWitness) (r' : Ref) (h' : Heap)
    (hv : viewInWit m h r = some v) (hc : copyInWit m mt h r = .ok (r', h')) : Copied 0 (viewInWit m) mt h r v r' h' := by
  unfold copyInWit at hc
  split at hc
  · rename_i c s a k p hr
    have hv' : v = ⟨s, a.read m, k.read m, p⟩ := by unfold viewInWit at hv; rw [hr] at hv; exact (Option.some.inj hv).symm
    subst hv'
    split at hc
    · rename_i hm
      simp only [Bool.and_eq_true, Bool.not_eq_true'] at hm
      obtain ⟨rfl, rfl⟩ := hm
      cases hc
      exact copied_self hr hv
    · cases hc
      exact copied_leaf rfl (fun _ _ _ _ _ => rfl) (fun _ => rfl) (by unfold viewInWit; rw [app_last]; rfl)
  · cases hc

theorem copyOutWit_copied (m : Mem) {mt : Bool} (h : Heap) (r : Ref) (v : TxOutWitness) (r' : Ref) (h' : Heap)
    (hv : viewOutWit m h r = some v) (hc : copyOutWit m mt h r = .ok (r', h')) : Copied 0 (viewOutWit m) mt h r v r' h' := by
  unfold copyOutWit at hc
  split at hc
  · rename_i c s p hr
    have hv' : v = ⟨s.read m, p.read m⟩ := by unfold viewOutWit at hv; rw [hr] at hv; exact (Option.some.inj hv).symm
    subst hv'
    split at hc
    · rename_i hm
      simp only [Bool.and_eq_true, Bool.not_eq_true'] at hm
      obtain ⟨rfl, rfl⟩ := hm
      cases hc
      exact copied_self hr hv
    · cases hc
      exact copied_leaf rfl (fun _ _ _ _ h => by cases h) (fun hp => hp r (self_mem_reach ..) c s p hr)
        (by unfold viewOutWit; rw [app_last]; rfl)
  · cases hc

theorem plainAt_of_refs {k : Nat} {h : Heap} {r x : Ref} (hx : x ∈ refsAt h r) (hp : PlainAt (k + 1) h r) : PlainAt k h x :=
  fun y hy => hp y (mem_reach_succ hx hy)

theorem plainAt_le {j k : Nat} (hjk : j ≤ k) {h : Heap} {r : Ref} (hp : PlainAt k h r) : PlainAt j h r :=
  fun y hy => hp y (reach_le hjk hy)

theorem copyTxIn_copied {mt : Bool} (h : Heap) (r : Ref) (v : TxIn) (r' : Ref) (h' : Heap) (hv : viewTxIn h r = some v)
    (hc : copyTxIn mt h r = .ok (r', h')) : Copied 1 viewTxIn mt h r v r' h' := by
  obtain ⟨c, p, s, q, i, g, o, hr, ho, rfl⟩ := viewTxIn_some hv
  unfold copyTxIn at hc
  rw [hr] at hc
  simp only at hc
  cases h1 : copyOutPoint mt h p with
  | error e => rw [h1] at hc; cases hc
  | ok a =>
    obtain ⟨p1, g1⟩ := a
    rw [h1] at hc
    simp only at hc
    have C1 := copyOutPoint_copied h p o p1 g1 ho h1
    obtain ⟨x1, hx1⟩ := C1.ext
    split at hc
    · rename_i hm
      simp only [Bool.and_eq_true, Bool.not_eq_true'] at hm
      obtain ⟨rfl, rfl⟩ := hm
      cases hc
      refine ⟨C1.ext, ?_, ?_, fun hm => (by cases hm), C1.made, ?_⟩
      · rw [hx1]; exact (seen_txIn.keeps hv x1).1
      · exact ⟨_, by rw [hx1]; exact app_left hr⟩
      · intro hw hp
        rw [hx1]
        exact seen_txIn.noArr hv x1 (noArr_self hw hr hp)
    · cases h2 : copyOutPoint mt g1 p1 with
      | error e => rw [h2] at hc; cases hc
      | ok b =>
        obtain ⟨p2, g2⟩ := b
        rw [h2] at hc
        cases hc
        have C2 := copyOutPoint_copied g1 p1 o p2 g2 C1.shows h2
        obtain ⟨x2, hx2⟩ := C2.ext
        have G := C2.grow seen_outPoint [⟨mt, .txin p2 s q i g⟩]
        have hlast := app_last g2 ⟨mt, .txin p2 s q i g⟩
        have hle : h.length ≤ g1.length := by rw [hx1]; simp
        have hle2 : g1.length ≤ g2.length := by rw [hx2]; simp
        refine ⟨⟨x1 ++ x2 ++ [⟨mt, .txin p2 s q i g⟩], by rw [hx2, hx1]; simp⟩, ?_, ⟨_, hlast⟩, ?_, ?_, ?_⟩
        · unfold viewTxIn
          rw [hlast]
          simp only [G.1, Option.map_some]
        · intro hm x hx
          rcases List.mem_cons.1 hx with rfl | hx
          · exact ⟨by omega, _, by rw [hlast, hm]⟩
          · rw [refsAt_eq hlast] at hx
            obtain ⟨y, hy, hx⟩ := List.mem_flatMap.1 hx
            cases List.mem_singleton.1 hy
            obtain ⟨ha, hb⟩ := G.2.2.1 hm x hx
            exact ⟨by omega, hb⟩
        · intro hcl
          refine (C2.made (C1.made hcl)).snoc (fun hm x hx => ?_) (fun _ _ _ _ _ h => by cases h)
          simp only at hm
          cases List.mem_singleton.1 hx
          obtain ⟨b, hb⟩ := C2.top
          exact ⟨b, by rw [hb, hm]⟩
        · intro hw hp x hx d hd
          rcases List.mem_cons.1 hx with rfl | hx
          · rw [hlast] at hd; cases hd; rfl
          · rw [refsAt_eq hlast] at hx
            obtain ⟨y, hy, hx⟩ := List.mem_flatMap.1 hx
            cases List.mem_singleton.1 hy
            have Q1 := C1.quiet hw (plainAt_of_refs (by rw [refsAt_eq hr]; exact List.mem_singleton.2 rfl) hp)
            exact G.2.2.2 (C1.made hw) (fun y hy c s p hc => Q1 y hy _ hc) x hx d hd

theorem copyWit_copied (m : Mem) {mt : Bool} (h : Heap) (r : Ref) (v : TxWitness) (r' : Ref) (h' : Heap)
    (hv : viewWit m h r = some v) (hc : copyWit m mt h r = .ok (r', h')) : Copied 1 (viewWit m) mt h r v r' h' := by
  obtain ⟨c, i, o, hr, hi, ho⟩ := viewWit_some hv
  unfold copyWit at hc
  rw [hr] at hc
  simp only at hc
  split at hc
  · rename_i hm
    simp only [Bool.and_eq_true, Bool.not_eq_true'] at hm
    obtain ⟨rfl, rfl⟩ := hm
    cases hc
    exact copied_self hr hv
  cases h1 : copyList (copyInWit m mt) h i with
  | error e => rw [h1] at hc; cases hc
  | ok a =>
    obtain ⟨i', g1⟩ := a
    rw [h1] at hc
    simp only at hc
    cases h2 : copyList (copyOutWit m mt) g1 o with
    | error e => rw [h2] at hc; cases hc
    | ok b =>
      obtain ⟨o', g2⟩ := b
      rw [h2] at hc
      cases hc
      have C1 := copyList_copied (seen_inWit m) (fun h r v r' h' hv hc => copyInWit_copied m h r v r' h' hv hc) i h _ i' g1 hi h1
      obtain ⟨x1, hx1⟩ := C1.ext
      have ho2 : viewAll (viewOutWit m g1) o = some v.vtxoutwit := by rw [hx1]; exact viewAll_grow (seen_outWit m) ho x1
      have C2 := copyList_copied (seen_outWit m) (fun h r v r' h' hv hc => copyOutWit_copied m h r v r' h' hv hc) o g1 _ o' g2 ho2 h2
      obtain ⟨x2, hx2⟩ := C2.ext
      have hlast := app_last g2 ⟨mt, .wit i' o'⟩
      have G1 := C1.grow (seen_inWit m) (x2 ++ [⟨mt, .wit i' o'⟩])
      rw [← List.append_assoc, ← hx2] at G1
      have G2 := C2.grow (seen_outWit m) [⟨mt, .wit i' o'⟩]
      have hle : h.length ≤ g1.length := by rw [hx1]; simp
      have hle2 : g1.length ≤ g2.length := by rw [hx2]; simp
      refine ⟨⟨x1 ++ x2 ++ [⟨mt, .wit i' o'⟩], by rw [hx2, hx1]; simp⟩, ?_, ⟨_, hlast⟩, ?_, ?_, ?_⟩
      · unfold viewWit
        rw [hlast]
        simp only [G1.1, G2.1]
      · intro hm x hx
        rcases List.mem_cons.1 hx with rfl | hx
        · exact ⟨by omega, _, by rw [hlast, hm]⟩
        · rw [refsAt_eq hlast] at hx
          obtain ⟨y, hy, hx⟩ := List.mem_flatMap.1 hx
          rcases List.mem_append.1 hy with hy | hy
          · exact G1.2.2.1 hm y hy x hx
          · obtain ⟨ha, hb⟩ := G2.2.2.1 hm y hy x hx
            exact ⟨by omega, hb⟩
      · intro hcl
        refine (C2.made (C1.made hcl)).snoc (fun hm x hx => ?_) (fun _ _ _ _ _ h => by cases h)
        simp only at hm
        rcases List.mem_append.1 hx with hx | hx
        · obtain ⟨b, hb⟩ := C1.top x hx
          exact ⟨b, by rw [hx2, app_left hb, hm]⟩
        · obtain ⟨b, hb⟩ := C2.top x hx
          exact ⟨b, by rw [hb, hm]⟩
      · intro hw hp x hx d hd
        rcases List.mem_cons.1 hx with rfl | hx
        · rw [hlast] at hd; cases hd; rfl
        · rw [refsAt_eq hlast] at hx
          obtain ⟨y, hy, hx⟩ := List.mem_flatMap.1 hx
          rcases List.mem_append.1 hy with hy | hy
          · refine G1.2.2.2 hw (fun z hz => ?_) y hy x hx d hd
            exact plainAt_of_refs (by rw [refsAt_eq hr]; exact List.mem_append_left _ hz) hp
          · refine G2.2.2.2 (C1.made hw) (fun z hz => ?_) y hy x hx d hd
            obtain ⟨u, hu⟩ := viewAll_mem ho z hz
            rw [hx1]
            exact (seen_outWit m).plain hu x1 (plainAt_of_refs (by rw [refsAt_eq hr]; exact List.mem_append_right _ hz) hp)

/-! ### Whole transactions -/

theorem wellMade_replicate {h : Heap} (hw : WellMade h) {c : ObjCell} (hr : c.body.refs = [])
    (hf : c.body.arrays = []) (n : Nat) : WellMade (h ++ List.replicate n c) := by
  induction n with
  | zero => simpa using hw
  | succ n ih =>
    rw [List.replicate_succ', ← List.append_assoc]
    exact ih.snoc (fun _ x hx => by rw [hr] at hx; cases hx) (fun _ _ _ _ _ _ => hf)

theorem get_replicate {h : Heap} {c : ObjCell} {n j : Nat} (hj : j < n) (y : Heap) :
    (h ++ List.replicate n c ++ y)[h.length + j]? = some c := by
  rw [List.append_assoc, List.getElem?_append_right (by omega)]
  rw [List.getElem?_append_left (by simp; omega)]
  simp [hj]

theorem viewAll_const {α} {f : Ref → Option α} {l : List Ref} {x : α} (h : ∀ r ∈ l, f r = some x) :
    viewAll f l = some (List.replicate l.length x) := by
  induction l with
  | nil => rfl
  | cons r l ih =>
    exact viewAll_cons.2 ⟨x, _, h r (List.mem_cons_self ..), ih fun y hy => h y (List.mem_cons_of_mem _ hy), by
      simp [List.replicate_succ]⟩

theorem freshWit_copied (m : Mem) (mt : Bool) (h : Heap) (w : Ref) (nin nout : Nat) :
    Copied 1 (viewWit m) mt h w (emptyWitness nin nout) (freshWit mt h nin nout).1 (freshWit mt h nin nout).2 := by
  generalize hA : (⟨mt, .inwit [] (.bytes []) (.bytes []) []⟩ : ObjCell) = A
  generalize hB : (⟨mt, .outwit (.bytes []) (.bytes [])⟩ : ObjCell) = B
  generalize hI : (List.range nin).map (h.length + ·) = I
  generalize hO : (List.range nout).map ((h ++ List.replicate nin A).length + ·) = O
  have e1 : (freshWit mt h nin nout).2 = h ++ List.replicate nin A ++ List.replicate nout B ++ [⟨mt, .wit I O⟩] := by
    unfold freshWit; simp only [hA, hB, hI, hO]
  have e2 : (freshWit mt h nin nout).1 = (h ++ List.replicate nin A ++ List.replicate nout B).length := by
    unfold freshWit; simp only [hA, hB]
  rw [e1, e2]
  generalize hG : h ++ List.replicate nin A ++ List.replicate nout B = G
  have hlast := app_last G ⟨mt, .wit I O⟩
  have gI : ∀ x ∈ I, h.length ≤ x ∧ (G ++ [⟨mt, .wit I O⟩])[x]? = some A := by
    intro x hx
    rw [← hI] at hx
    obtain ⟨j, hj, rfl⟩ := List.mem_map.1 hx
    refine ⟨by omega, ?_⟩
    rw [← hG, List.append_assoc (h ++ List.replicate nin A)]
    exact get_replicate (List.mem_range.1 hj) _
  have gO : ∀ x ∈ O, h.length ≤ x ∧ (G ++ [⟨mt, .wit I O⟩])[x]? = some B := by
    intro x hx
    rw [← hO] at hx
    obtain ⟨j, hj, rfl⟩ := List.mem_map.1 hx
    refine ⟨by rw [List.length_append]; omega, ?_⟩
    rw [← hG]
    exact get_replicate (List.mem_range.1 hj) _
  have hlen : h.length ≤ G.length := by rw [← hG]; simp only [List.length_append]; omega
  have hmem : ∀ x ∈ reach 1 (G ++ [⟨mt, .wit I O⟩]) G.length, x = G.length ∨ x ∈ I ∨ x ∈ O := by
    intro x hx
    rcases List.mem_cons.1 hx with rfl | hx
    · exact .inl rfl
    · rw [refsAt_eq hlast] at hx
      obtain ⟨y, hy, hx⟩ := List.mem_flatMap.1 hx
      cases List.mem_singleton.1 hx
      exact .inr (List.mem_append.1 hy)
  refine ⟨⟨List.replicate nin A ++ List.replicate nout B ++ [⟨mt, .wit I O⟩], by rw [← hG]; simp⟩, ?_, ⟨_, hlast⟩, ?_, ?_, ?_⟩
  · unfold viewWit
    rw [hlast]
    simp only
    rw [viewAll_const (x := ⟨[], [], [], []⟩) (fun x hx => by unfold viewInWit; rw [(gI x hx).2, ← hA]; rfl),
      viewAll_const (x := ⟨[], []⟩) (fun x hx => by unfold viewOutWit; rw [(gO x hx).2, ← hB]; rfl)]
    simp [← hI, ← hO, emptyWitness]
  · intro hm x hx
    rcases hmem x hx with rfl | hx | hx
    · exact ⟨hlen, _, by rw [hlast, hm]⟩
    · exact ⟨(gI x hx).1, _, by rw [(gI x hx).2, ← hA, hm]⟩
    · exact ⟨(gO x hx).1, _, by rw [(gO x hx).2, ← hB, hm]⟩
  · intro hw
    have w1 : WellMade G := by
      rw [← hG]
      exact wellMade_replicate (wellMade_replicate hw (by rw [← hA]; rfl) (by rw [← hA]; rfl) nin)
        (by rw [← hB]; rfl) (by rw [← hB]; rfl) nout
    refine w1.snoc (fun hm x hx => ?_) (fun _ _ _ _ _ h => by cases h)
    simp only at hm
    have hlt : x < G.length := by
      rw [← hG]
      rcases List.mem_append.1 hx with hx | hx
      · rw [← hI] at hx
        obtain ⟨j, hj, rfl⟩ := List.mem_map.1 hx
        have := List.mem_range.1 hj
        show h.length + j < _
        simp only [List.length_append, List.length_replicate]; omega
      · rw [← hO] at hx
        obtain ⟨j, hj, rfl⟩ := List.mem_map.1 hx
        have := List.mem_range.1 hj
        show (h ++ List.replicate nin A).length + j < _
        simp only [List.length_append, List.length_replicate]; omega
    rcases List.mem_append.1 hx with hx | hx
    · have := (gI x hx).2
      rw [List.getElem?_append_left hlt] at this
      exact ⟨_, by rw [this, ← hA, hm]⟩
    · have := (gO x hx).2
      rw [List.getElem?_append_left hlt] at this
      exact ⟨_, by rw [this, ← hB, hm]⟩
  · intro _ _ x hx d hd
    rcases hmem x hx with rfl | hx | hx
    · rw [hlast] at hd; cases hd; rfl
    · rw [(gI x hx).2, ← hA] at hd; cases hd; rfl
    · rw [(gO x hx).2, ← hB] at hd; cases hd; rfl

theorem initWit_copied (renew : Bool) (m : Mem) {mt : Bool} (h : Heap) (r : Ref) (v : TxWitness) (nin nout : Nat) (r' : Ref) (h' : Heap)
    (hv : viewWit m h r = some v) (hc : initWit renew m mt h r nin nout = .ok (r', h')) :
    ∃ v', Copied 1 (viewWit m) mt h r v' r' h' ∧
      (v' = v ∨ renew = true ∧ v.isNull = true ∧ v' = emptyWitness nin nout) := by
  unfold initWit at hc
  rw [hv] at hc
  simp only at hc
  split at hc
  · rename_i hn
    simp only [Bool.and_eq_true] at hn
    have F := freshWit_copied m mt h r nin nout
    rw [Except.ok.inj hc] at F
    exact ⟨_, F, .inr ⟨hn.1, hn.2, rfl⟩⟩
  · exact ⟨v, copyWit_copied m h r v r' h' hv hc, .inl rfl⟩

theorem copyTx_copied (renew : Bool) (m : Mem) {mt : Bool} (h : Heap) (r : Ref) (t : Tx) (r' : Ref) (h' : Heap)
    (hv : viewTx m h r = some t) (hc : copyTx renew m mt h r = .ok (r', h')) :
    ∃ t', Copied 2 (viewTx m) mt h r t' r' h' ∧
      (t' = t ∨ renew = true ∧ t.wit.isNull = true ∧ t' = { t with wit := emptyWitness t.vin.length t.vout.length }) := by
  obtain ⟨c, i, o, w, hr, hi, ho, hw⟩ := viewTx_some hv
  unfold copyTx at hc
  rw [hr] at hc
  simp only at hc
  split at hc
  · rename_i hm
    simp only [Bool.and_eq_true, Bool.not_eq_true'] at hm
    obtain ⟨rfl, rfl⟩ := hm
    cases hc
    exact ⟨t, copied_self hr hv, .inl rfl⟩
  cases h1 : copyList (copyTxIn mt) h i with
  | error e => rw [h1] at hc; cases hc
  | ok a =>
  obtain ⟨i', g1⟩ := a
  rw [h1] at hc
  simp only at hc
  cases h2 : copyList (copyTxOut mt) g1 o with
  | error e => rw [h2] at hc; cases hc
  | ok b =>
  obtain ⟨o', g2⟩ := b
  rw [h2] at hc
  simp only at hc
  cases h3 : initWit renew m mt g2 w i'.length o'.length with
  | error e => rw [h3] at hc; cases hc
  | ok d =>
  obtain ⟨w', g3⟩ := d
  rw [h3] at hc
  cases hc
  have C1 := copyList_copied seen_txIn (fun h r v r' h' hv hc => copyTxIn_copied h r v r' h' hv hc) i h _ i' g1 hi h1
  obtain ⟨x1, hx1⟩ := C1.ext
  have ho2 : viewAll (viewTxOut g1) o = some t.vout := by rw [hx1]; exact viewAll_grow seen_txOut ho x1
  have C2 := copyList_copied seen_txOut (fun h r v r' h' hv hc => copyTxOut_copied h r v r' h' hv hc) o g1 _ o' g2 ho2 h2
  obtain ⟨x2, hx2⟩ := C2.ext
  have hw2 : viewWit m g2 w = some t.wit := by
    rw [hx2, hx1, List.append_assoc]; exact ((seen_wit m).keeps hw (x1 ++ x2)).1
  obtain ⟨v', C3, hv'⟩ := initWit_copied renew m g2 w t.wit _ _ w' g3 hw2 h3
  obtain ⟨x3, hx3⟩ := C3.ext
  have hlast := app_last g3 ⟨mt, .tx t.nVersion i' o' t.nLockTime w'⟩
  have G1 := C1.grow seen_txIn (x2 ++ x3 ++ [⟨mt, .tx t.nVersion i' o' t.nLockTime w'⟩])
  rw [← List.append_assoc, ← List.append_assoc, ← hx2, ← hx3] at G1
  have G2 := C2.grow seen_txOut (x3 ++ [⟨mt, .tx t.nVersion i' o' t.nLockTime w'⟩])
  rw [← List.append_assoc, ← hx3] at G2
  have G3 := C3.grow (seen_wit m) [⟨mt, .tx t.nVersion i' o' t.nLockTime w'⟩]
  have le1 : h.length ≤ g1.length := by rw [hx1]; simp
  have le2 : g1.length ≤ g2.length := by rw [hx2]; simp
  have le3 : g2.length ≤ g3.length := by rw [hx3]; simp
  have n1 : i'.length = t.vin.length := (viewAll_length C1.shows).symm
  have n2 : o'.length = t.vout.length := (viewAll_length C2.shows).symm
  have hout : ∀ y ∈ o', ∀ x ∈ reach 1 (g3 ++ [⟨mt, .tx t.nVersion i' o' t.nLockTime w'⟩]) y,
      x ∈ reach 0 (g3 ++ [⟨mt, .tx t.nVersion i' o' t.nLockTime w'⟩]) y := by
    intro y hy x hx
    rcases List.mem_cons.1 hx with rfl | hx
    · exact self_mem_reach ..
    · obtain ⟨z, hz⟩ := viewAll_mem G2.1 y hy
      have : refsAt (g3 ++ [⟨mt, .tx t.nVersion i' o' t.nLockTime w'⟩]) y = [] := by
        unfold viewTxOut at hz
        split at hz
        · rename_i hcy; rw [refsAt_eq hcy]; rfl
        · cases hz
      rw [this] at hx; cases hx
  refine ⟨{ t with wit := v' }, ⟨⟨x1 ++ x2 ++ x3 ++ [⟨mt, .tx t.nVersion i' o' t.nLockTime w'⟩], by
    rw [hx3, hx2, hx1]; simp⟩, ?_, ⟨_, hlast⟩, ?_, ?_, ?_⟩, ?_⟩
  · unfold viewTx
    rw [hlast]
    simp only [G1.1, G2.1, G3.1]
  · intro hm x hx
    rcases List.mem_cons.1 hx with rfl | hx
    · exact ⟨by omega, _, by rw [hlast, hm]⟩
    · rw [refsAt_eq hlast] at hx
      obtain ⟨y, hy, hx⟩ := List.mem_flatMap.1 hx
      rcases List.mem_append.1 hy with hy | hy
      · rcases List.mem_append.1 hy with hy | hy
        · exact G1.2.2.1 hm y hy x hx
        · obtain ⟨ha, hb⟩ := G2.2.2.1 hm y hy x (hout y hy x hx)
          exact ⟨by omega, hb⟩
      · cases List.mem_singleton.1 hy
        obtain ⟨ha, hb⟩ := G3.2.2.1 hm x hx
        exact ⟨by omega, hb⟩
  · intro hcl
    refine (C3.made (C2.made (C1.made hcl))).snoc (fun hm x hx => ?_) (fun _ _ _ _ _ h => by cases h)
    simp only at hm
    rcases List.mem_append.1 hx with hx | hx
    · rcases List.mem_append.1 hx with hx | hx
      · obtain ⟨b, hb⟩ := C1.top x hx
        exact ⟨b, by rw [hx3, hx2, List.append_assoc, app_left hb, hm]⟩
      · obtain ⟨b, hb⟩ := C2.top x hx
        exact ⟨b, by rw [hx3, app_left hb, hm]⟩
    · cases List.mem_singleton.1 hx
      obtain ⟨b, hb⟩ := C3.top
      exact ⟨b, by rw [hb, hm]⟩
  · intro hwm hp x hx d hd
    rcases List.mem_cons.1 hx with rfl | hx
    · rw [hlast] at hd; cases hd; rfl
    · rw [refsAt_eq hlast] at hx
      obtain ⟨y, hy, hx⟩ := List.mem_flatMap.1 hx
      rcases List.mem_append.1 hy with hy | hy
      · rcases List.mem_append.1 hy with hy | hy
        · refine G1.2.2.2 hwm (fun z hz => ?_) y hy x hx d hd
          exact plainAt_of_refs (by rw [refsAt_eq hr]; exact List.mem_append_left _ (List.mem_append_left _ hz)) hp
        · refine G2.2.2.2 (C1.made hwm) (fun z hz => ?_) y hy x (hout y hy x hx) d hd
          obtain ⟨u, hu⟩ := viewAll_mem ho z hz
          rw [hx1]
          exact seen_txOut.plain hu x1 (plainAt_le (by omega) (plainAt_of_refs (by
            rw [refsAt_eq hr]; exact List.mem_append_left _ (List.mem_append_right _ hz)) hp))
      · cases List.mem_singleton.1 hy
        refine G3.2.2.2 (C2.made (C1.made hwm)) ?_ x hx d hd
        rw [hx2, hx1, List.append_assoc]
        exact (seen_wit m).plain hw (x1 ++ x2) (plainAt_of_refs (by
          rw [refsAt_eq hr]; exact List.mem_append_right _ (List.mem_singleton.2 rfl)) hp)
  · rcases hv' with rfl | ⟨ha, hb, rfl⟩
    · exact .inl rfl
    · exact .inr ⟨ha, hb, by rw [n1, n2]⟩

end Verif
