import Verif.Spec.BlechClass
import Verif.Props.Blech
import Verif.Wallet
/-
C89: blech32 data of any hierarchy of classes.
-/
namespace Verif.BlechClass
open Verif Spec Spec.BlechClass

/-! ### from_bytes -/

/-- C89: exactly when bytes become data of a class: the version is given by the class or the caller, the two agree, it is at most 16, and a class of the wallet has a
version and the length of the data. -/
theorem C89_from_bytes (c : Cls) (data : Bytes) (w : Option Int) (o : Obj) :
    c.fromBytes data w = .ok o ↔
      o.cls = c ∧ o.data = data ∧ 0 ≤ o.witver ∧ o.witver ≤ 16
      ∧ (0 ≤ c.witver → o.witver = c.witver) ∧ (∀ v, w = some v → o.witver = v) ∧ (w = none → 0 ≤ c.witver)
      ∧ (c.dispatched = true → 0 ≤ c.witver ∧ c.dataLen = some data.length) := by
  have init : (∃ u, c.init data = .ok u) ↔ (c.dispatched = true → 0 ≤ c.witver ∧ c.dataLen = some data.length) := by
    unfold Cls.init
    cases hd : c.dispatched <;> cases hn : c.dataLen <;> simp <;> split <;> try split
    all_goals simp_all
    all_goals omega
  obtain ⟨cls, d, v⟩ := o
  have bind : ∀ v0, c.version w = .ok v0 → (c.fromBytes data w = .ok ⟨cls, d, v⟩ ↔ (0 ≤ v0 ∧ v0 ≤ 16) ∧ (∃ u, c.init data = .ok u)
      ∧ c = cls ∧ data = d ∧ (if c.witver < 0 then v0 else c.witver) = v) := by
    intro v0 h0
    simp only [Cls.fromBytes, h0]
    by_cases hr : 0 ≤ v0 ∧ v0 ≤ 16
    · cases hi : c.init data <;> simp [hr, bind, Except.bind, pure, Except.pure]
    · simp [hr, bind, Except.bind, throw, throwThe, MonadExceptOf.throw]
  cases hv : c.version w with
  | error e =>
    constructor
    · intro h; simp [Cls.fromBytes, hv, Bind.bind, Except.bind] at h
    · rintro ⟨-, -, h1, h2, h3, h4, h5, -⟩
      exfalso
      dsimp only at h1 h2 h3 h4
      unfold Cls.version at hv
      cases w with
      | none =>
        have := h5 rfl
        simp only at hv
        rw [if_neg (by omega)] at hv
        cases hv
      | some x =>
        have := h4 x rfl
        subst this
        simp only at hv
        rw [if_neg (by omega)] at hv
        split at hv
        · next g => exact g.2 (h3 g.1)
        · cases hv
  | ok v0 =>
    rw [bind v0 hv, init]
    unfold Cls.version at hv
    cases w with
    | none =>
      simp only at hv
      split at hv
      · cases hv
      · injection hv with hv
        subst hv
        rename_i hw
        rw [if_neg hw]
        constructor
        · rintro ⟨hr, hi, rfl, rfl, rfl⟩
          exact ⟨rfl, rfl, hr.1, hr.2, fun _ => rfl, fun _ h => (by cases h), fun _ => hr.1, hi⟩
        · rintro ⟨h1, h2, h3, h4, h5, -, -, hi⟩
          dsimp only at h1 h2 h3 h4 h5
          have := h5 (by omega)
          exact ⟨⟨by omega, by omega⟩, hi, h1.symm, h2.symm, this.symm⟩
    | some x =>
      simp only at hv
      split at hv
      · cases hv
      · rename_i hx
        split at hv
        · cases hv
        · rename_i hne
          injection hv with hv
          subst hv
          constructor
          · rintro ⟨hr, hi, rfl, rfl, h⟩
            dsimp only
            split at h
            · subst h
              exact ⟨rfl, rfl, hr.1, hr.2, fun _ => (by omega), fun _ h => (by injection h), fun h => (by cases h), hi⟩
            · subst h
              have hxe : x = c.witver := by
                by_cases he : x = c.witver
                · exact he
                · exact absurd ⟨by omega, he⟩ hne
              exact ⟨rfl, rfl, by omega, by omega, fun _ => rfl, fun _ h => (by injection h with h; omega), fun h => (by cases h), hi⟩
          · rintro ⟨h1, h2, h3, h4, h5, h6, -, hi⟩
            dsimp only at h1 h2 h3 h4 h5 h6
            have e := h6 x rfl
            subst e
            refine ⟨⟨h3, h4⟩, hi, h1.symm, h2.symm, ?_⟩
            split
            · rfl
            · exact (h5 (by omega)).symm

/-! ### reading -/

theorem tryExact_eq (k : Cls) (data : Bytes) (v : Nat) (hv : v ≤ 16) (hk : 0 ≤ k.witver) (hn : k.dataLen ≠ none) :
    k.tryExact data v = .ok (if fits v data k then some ⟨k, data, v⟩ else none) := by
  unfold Cls.tryExact
  cases hl : k.dataLen with
  | none => exact absurd hl hn
  | some n =>
    simp only [fits, hl]
    by_cases h : data.length = n ∧ (v : Int) = k.witver
    · have : k.fromBytes data (some v) = .ok ⟨k, data, v⟩ := by
        rw [C89_from_bytes]
        refine ⟨rfl, rfl, by dsimp only; omega, by dsimp only; omega, fun _ => h.2, fun _ h => (by injection h), fun h => (by cases h), fun _ => ⟨hk, ?_⟩⟩
        rw [hl, h.1]
      rw [if_pos h, this, if_pos (by simp [h.1, h.2])]
      rfl
    · rw [if_neg h, if_neg]
      intro hf
      simp at hf
      exact h ⟨hf.2.symm, hf.1.symm⟩

/-- What reading a version and a program gives. -/
def found (v : Nat) (data : Bytes) (l : List Cls) : Option Obj := (l.find? (fits v data)).map fun k => ⟨k, data, v⟩

theorem found_append (v : Nat) (data : Bytes) (l l' : List Cls) :
    found v data (l ++ l') = (found v data l).or (found v data l') := by
  unfold found
  rw [List.find?_append]
  cases l.find? (fits v data) <;> rfl

theorem orRaise_eq (c : Cls) (n : Nat) (h : n = 1 → c.dataLen ≠ none) (r : Option Obj) :
    c.orRaise n (.ok r) = match r with | some o => .ok o | none => .error .blech32Unexpected := by
  cases r with
  | some o => rfl
  | none =>
    unfold Cls.orRaise Cls.unexpected
    simp only
    rw [if_neg (fun hh => h hh.1 hh.2)]

mutual
theorem matchProg_eq (v : Nat) (hv : v ≤ 16) (data : Bytes) : (c : Cls) → Complete c → Named c →
    c.matchProg data v = match found v data (offers c) with | some o => .ok o | none => .error .blech32Unexpected
  | .mk i false h w n m, hc, _ => by simp [Complete] at hc
  | .mk i true h w n [], hc, _ => by
    simp only [Complete, true_implies, true_and] at hc
    have hw := hc.1.1
    unfold Cls.matchProg
    simp only
    rw [if_neg (by omega), tryExact_eq (.mk i true h w n []) data v hv hw hc.1.2,
      orRaise_eq (.mk i true h w n []) 1 (fun _ => hc.1.2)]
    simp only [offers, found, ne_eq, not_true_eq_false, and_false, if_false, List.find?]
    cases fits v data (.mk i true h w n []) <;> rfl
  | .mk i true h w n (k :: ks), hc, hn => by
    simp only [Complete] at hc
    simp only [Named] at hn
    unfold Cls.matchProg
    rw [tryAll_eq v hv data (k :: ks) hc.2.2 hn.2,
      orRaise_eq (.mk i true h w n (k :: ks)) _ (fun he => hn.1 (by simpa using he))]
    simp only [offers, ne_eq, reduceCtorEq, not_false_eq_true, and_self, if_true]

theorem tryAll_eq (v : Nat) (hv : v ≤ 16) (data : Bytes) : (l : List Cls) → CompleteAll l → NamedAll l →
    tryAll l data v = .ok (found v data (offersAll l))
  | [], _, _ => rfl
  | k :: ks, hc, hn => by
    simp only [CompleteAll] at hc
    simp only [NamedAll] at hn
    have ih := tryAll_eq v hv data ks hc.2 hn.2
    unfold tryAll
    simp only [offersAll, found_append]
    by_cases hk : 0 ≤ k.witver
    · rw [if_neg (by omega), if_pos hk]
      rw [if_pos hk] at hc
      rw [tryExact_eq _ _ _ hv hk hc.1]
      simp only [found, List.find?]
      by_cases hf : fits v data k = true
      · simp [hf]
      · simp only [hf, Option.map_none, Option.none_or]
        exact ih
    · rw [if_pos (by omega), if_neg hk]
      rw [if_neg hk] at hc
      rw [matchProg_eq v hv data k hc.1 (hn.1.resolve_left hk)]
      cases found v data (offers k) with
      | some o => rfl
      | none => simpa using ih
end

/-- C89: reading a text with a class of a complete hierarchy.  It is data of the first class offered that the version and the program belong to; if there is none,
that is what the error says. -/
theorem C89_reads_partial (c : Cls) (h : PyStr) (s : PyStr) (hh : c.hrp = some (some h)) (hc : Complete c) (hn : Named c) :
    c.new s = match blechDecode h s with
      | none => .error .blech32
      | some (v, data) =>
        match (offers c).find? (fits v data) with
        | some k => .ok ⟨k, data, v⟩
        | none => .error .blech32Unexpected := by
  unfold Cls.new
  simp only [hh]
  cases hd : blechDecode h s with
  | none => rfl
  | some r =>
    obtain ⟨v, data⟩ := r
    simp only
    rw [matchProg_eq v (C26_strict h s v data hd).1 data c hc hn, found]
    cases (offers c).find? (fits v data) <;> rfl

/-- The full claim: a text that does not belong to any class of a complete hierarchy is refused as an unexpected version or length. -/
def C89_statement : Prop := ∀ (c : Cls) (h s : PyStr) (v : Nat) (data : Bytes), c.hrp = some (some h) → Complete c →
  blechDecode h s = some (v, data) → (offers c).find? (fits v data) = none → c.new s = .error .blech32Unexpected

/-- Whatever is read is data of a class offered, with the version and the program of the text. -/
def Reads (data : Bytes) (v : Nat) (l : List Cls) (o : Obj) : Prop :=
  o.cls ∈ l ∧ o.data = data ∧ o.witver = v ∧ (0 ≤ o.cls.witver → fits v data o.cls = true)
    ∧ (o.cls.witver < 0 → o.cls.dispatched = false)

theorem tryExact_reads (k : Cls) (data : Bytes) (v : Nat) (o : Obj) (hk : 0 ≤ k.witver) (h : k.tryExact data v = .ok (some o)) :
    Reads data v [k] o := by
  unfold Cls.tryExact at h
  cases hl : k.dataLen with
  | none => rw [hl] at h; cases h
  | some n =>
    rw [hl] at h
    simp only at h
    split at h
    · next g =>
      cases hf : k.fromBytes data (some v) with
      | error e => rw [hf] at h; cases h
      | ok o' =>
        rw [hf] at h
        have : o' = o := by injection h with h; injection h
        subst this
        obtain ⟨h1, h2, -, -, h3, h4, -, -⟩ := (C89_from_bytes _ _ _ _).1 hf
        refine ⟨by simp [h1], h2, h4 _ rfl, fun _ => ?_, fun hw => ?_⟩
        · rw [h1, fits, hl, g.1, g.2]; simp
        · rw [h1] at hw; omega
    · cases h

theorem orRaise_ok {c : Cls} {n : Nat} {r : Except PyErr (Option Obj)} {o : Obj} (h : c.orRaise n r = .ok o) : r = .ok (some o) := by
  match r, h with
  | .ok (some o'), h => injection h with h; rw [h]
  | .ok none, h => cases h
  | .error _, h => cases h

mutual
theorem matchProg_reads (v : Nat) (data : Bytes) (o : Obj) : (c : Cls) → c.matchProg data v = .ok o → Reads data v (offers c) o
  | .mk i false h w n m, hr => by
    unfold Cls.matchProg at hr
    simp only at hr
    simp only [offers, Bool.false_eq_true, false_and, if_false]
    split at hr
    · exact tryExact_reads _ _ _ _ ‹_› (orRaise_ok hr)
    · obtain ⟨h1, h2, -, -, h3, h4, -, -⟩ := (C89_from_bytes _ _ _ _).1 hr
      refine ⟨by simp [h1], h2, h4 _ rfl, fun hw => ?_, fun hw => ?_⟩
      · rw [h1] at hw; exact absurd hw ‹_›
      · rw [h1]; rfl
  | .mk i true h w n [], hr => by
    unfold Cls.matchProg at hr
    simp only at hr
    simp only [offers, ne_eq, not_true_eq_false, and_false, if_false]
    split at hr
    · cases hr
    · exact tryExact_reads _ _ _ _ (by have : ¬ w < 0 := ‹_›; simp only [Cls.witver]; omega) (orRaise_ok hr)
  | .mk i true h w n (k :: ks), hr => by
    unfold Cls.matchProg at hr
    simp only [offers, ne_eq, reduceCtorEq, not_false_eq_true, and_self, if_true]
    exact tryAll_reads v data o (k :: ks) (orRaise_ok hr)

theorem tryAll_reads (v : Nat) (data : Bytes) (o : Obj) : (l : List Cls) → tryAll l data v = .ok (some o) → Reads data v (offersAll l) o
  | [], h => by cases h
  | k :: ks, h => by
    have left : ∀ {l l' : List Cls}, Reads data v l o → Reads data v (l ++ l') o := fun r => ⟨List.mem_append_left _ r.1, r.2⟩
    have right : ∀ {l l' : List Cls}, Reads data v l' o → Reads data v (l ++ l') o := fun r => ⟨List.mem_append_right _ r.1, r.2⟩
    unfold tryAll at h
    simp only [offersAll]
    split at h
    · rename_i hk
      rw [if_neg (by omega)]
      split at h
      · next o' he =>
        have : o' = o := by injection h with h; injection h
        subst this
        exact left (matchProg_reads v data _ k he)
      · exact right (tryAll_reads v data o ks h)
      · cases h
    · rename_i hk
      rw [if_pos (by omega)]
      split at h
      · next o' he =>
        have : o' = o := by injection h with h; injection h
        subst this
        exact left (tryExact_reads _ _ _ _ (by omega) he)
      · exact right (tryAll_reads v data o ks h)
      · cases h
end

/-- C89: whatever class a text is read with, and whatever is missing in its hierarchy: what is read has the version and the program of the text and is data of one of the classes offered; if that
class has a version and a length, they are those of the text; if it has none, it is not one of the wallet. -/
theorem C89_sound (c : Cls) (s : PyStr) (o : Obj) (hr : c.new s = .ok o) :
    ∃ h v, c.hrp = some (some h) ∧ blechDecode h s = some (v, o.data) ∧ o.witver = v ∧ o.cls ∈ offers c
      ∧ (0 ≤ o.cls.witver → o.cls.witver = v ∧ o.cls.dataLen = some o.data.length)
      ∧ (o.cls.witver < 0 → o.cls.dispatched = false) := by
  unfold Cls.new at hr
  split at hr
  · cases hr
  · cases hr
  · next h hh =>
    split at hr
    · cases hr
    · next v data hd =>
      obtain ⟨h1, h2, h3, h4, h5⟩ := matchProg_reads v data o c hr
      refine ⟨h, v, hh, by rw [hd, h2], h3, h1, fun hw => ?_, h5⟩
      have := h4 hw
      rw [fits] at this
      simp at this
      rw [h2]
      exact this

/-! ### text -/

/-- C89: exactly when data of a class has a text, and which. -/
theorem C89_str (o : Obj) (h : PyStr) (hh : o.cls.hrp = some (some h)) (hv : 0 ≤ o.witver ∧ o.witver ≤ 16) :
    (∀ s, o.str = .ok s ↔ blechEncode h o.witver.toNat o.data = .ok (some s))
    ∧ ((∃ s, o.str = .ok s) ↔ HrpOk h ∧ ProgOk o.witver.toNat o.data.length ∧ h.length + 1 + 1 + (8 * o.data.length + 4) / 5 + 12 ≤ 1000)
    ∧ ((∃ s, o.str = .ok s) ∨ o.str = .error .assertion) := by
  have hs : ∀ s, o.str = .ok s ↔ blechEncode h o.witver.toNat o.data = .ok (some s) := by
    intro s
    unfold Obj.str
    simp only [hh]
    split <;> simp_all
  refine ⟨hs, ?_, ?_⟩
  · rw [← C22_encode_iff]
    exact exists_congr hs
  · obtain ⟨r, hr⟩ := (C22_encode_total h o.witver.toNat o.data).1 (by omega)
    cases r with
    | some s => exact .inl ⟨s, (hs s).2 hr⟩
    | none =>
      right
      unfold Obj.str
      simp only [hh, hr]

/-- C89: exactly when a class that is not dispatched reads back the text of its data: when it has no version, or has the length of the data. -/
theorem C89_back (c : Cls) (data : Bytes) (w : Option Int) (o : Obj) (s : PyStr) (hm : c.dispatched = true → c.mapped = [])
    (ho : c.fromBytes data w = .ok o) (hs : o.str = .ok s) :
    c.new s = .ok o ↔ c.witver < 0 ∨ c.dataLen = some data.length := by
  obtain ⟨h1, h2, h3, h4, h5, h6, h7, h8⟩ := (C89_from_bytes _ _ _ _).1 ho
  have hh : ∃ h, c.hrp = some (some h) := by
    unfold Obj.str at hs
    rw [h1] at hs
    split at hs
    · cases hs
    · cases hs
    · next h hh => exact ⟨h, hh⟩
  obtain ⟨h, hh⟩ := hh
  have hd := C22_roundtrip h o.witver.toNat o.data s (((C89_str o h (by rw [h1]; exact hh) ⟨h3, h4⟩).1 s).1 hs)
  have hv : ((o.witver.toNat : Nat) : Int) = o.witver := by omega
  have hnew : c.new s = c.matchProg o.data o.witver.toNat := by
    unfold Cls.new
    simp only [hh, hd]
  have hof : offers c = [c] := by
    obtain ⟨i, d, hr, w, n, m⟩ := c
    simp only [offers]
    rw [if_neg]
    rintro ⟨rfl, hne⟩
    exact hne (hm rfl)
  constructor
  · intro hr
    rw [hnew] at hr
    obtain ⟨-, -, -, g, -⟩ := matchProg_reads _ _ _ _ hr
    by_cases hw : c.witver < 0
    · exact .inl hw
    · right
      have := g (by rw [h1]; omega)
      rw [h1, fits] at this
      simp at this
      rw [← h2]
      exact this.2
  · intro hor
    rw [hnew, h2]
    have self : c.fromBytes data (some o.witver) = .ok o := by
      rw [C89_from_bytes]
      exact ⟨h1, h2, h3, h4, h5, fun _ h => (by injection h), fun h => (by cases h), h8⟩
    by_cases hw : c.witver < 0
    · obtain ⟨i, d, hr, wv, n, m⟩ := c
      cases d with
      | true => have := (h8 rfl).1; omega
      | false =>
        unfold Cls.matchProg
        simp only
        rw [if_neg (by simpa [Cls.witver] using hw), hv]
        exact self
    · have hn := hor.resolve_left hw
      have ht : c.tryExact data o.witver.toNat = .ok (some o) := by
        rw [tryExact_eq c data _ (by omega) (by omega) (by rw [hn]; simp), if_pos]
        · obtain ⟨oc, od, ow⟩ := o
          dsimp only at h1 h2 hv
          subst h1 h2
          rw [hv]
        · rw [fits, hn, hv, h5 (by omega)]; simp
      obtain ⟨i, d, hr, wv, n, m⟩ := c
      have hw' : ¬ wv < 0 := hw
      cases d with
      | false =>
        unfold Cls.matchProg
        simp only
        rw [if_pos (by omega), ht]
        rfl
      | true =>
        have := hm rfl
        simp only [Cls.mapped] at this
        subst this
        unfold Cls.matchProg
        simp only
        rw [if_neg (by omega), ht]
        rfl

/-! ### the classes of the wallet -/

/-- A class of one kind of a chain: wallet.py:249-268 with 354-376 and 456-477. -/
def kindCls (c : Chain) (k : Kind) : Cls :=
  .mk (match k with | .p2wpkh => 10 | .p2wsh => 11 | _ => 12) true (some (some c.blechHrp)) k.witver (some k.confLen) []

/-- The kinds with a blech32 text. -/
def blechKinds : List Kind := [.p2wpkh, .p2wsh, .p2tr]

/-- `CBlech32ElementsConfidentialAddress` and `CBlech32ElementsLiquidV1ConfidentialAddress`, wallet.py:313-315 and 415-417: dispatched to the
three classes of the chain. -/
def chainCls (c : Chain) : Cls := .mk 1 true (some (some c.blechHrp)) (-1) none (blechKinds.map (kindCls c))

/-- `P2WSHCoinConfidentialAddress` and the like, wallet.py:249-268: dispatched to the class of the chain. -/
def coinKindCls (c : Chain) (k : Kind) : Cls := .mk 2 true (some (some c.blechHrp)) k.witver (some k.confLen) [kindCls c k]

/-- `CBlech32CoinConfidentialAddress`, wallet.py:233-238, when it is itself the class that looks for candidates: its one candidate is the class of the chain,
and it has no `_data_length`. -/
def coinCls (c : Chain) : Cls := .mk 3 true (some (some c.blechHrp)) (-1) none [chainCls c]

theorem complete_kind (c : Chain) {k : Kind} (hk : k ∈ blechKinds) : Complete (kindCls c k) ∧ Named (kindCls c k) := by
  simp only [blechKinds, List.mem_cons, List.not_mem_nil, or_false] at hk
  rcases hk with rfl | rfl | rfl <;> simp [kindCls, Complete, CompleteAll, Named, NamedAll, Kind.witver]

theorem complete_coinKind (c : Chain) {k : Kind} (hk : k ∈ blechKinds) : Complete (coinKindCls c k) ∧ Named (coinKindCls c k) := by
  simp only [blechKinds, List.mem_cons, List.not_mem_nil, or_false] at hk
  rcases hk with rfl | rfl | rfl <;>
    simp [coinKindCls, kindCls, Complete, CompleteAll, Named, NamedAll, Kind.witver, Cls.witver, Cls.dataLen]

theorem complete_chain (c : Chain) : Complete (chainCls c) ∧ Named (chainCls c) := by
  simp [chainCls, blechKinds, kindCls, Complete, CompleteAll, Named, NamedAll, Kind.witver, Cls.witver, Cls.dataLen]

/-- Reading with a list of kinds of a chain is reading with the classes of the kinds. -/
theorem blechMatch_eq (c : Chain) (v : Nat) (data : Bytes) : ∀ ks : List Kind, (∀ k ∈ ks, k ∈ blechKinds) →
    (∀ k, (ks.map (kindCls c)).find? (fits v data) = some k → ∃ x ∈ ks, k = kindCls c x ∧ blechMatch c ks data v = .ok ⟨c, x, true, data⟩)
    ∧ ((ks.map (kindCls c)).find? (fits v data) = none → blechMatch c ks data v = .error .blech32Unexpected)
  | [], _ => ⟨fun _ h => (by cases h), fun _ => rfl⟩
  | x :: ks, hk => by
    have ih := blechMatch_eq c v data ks fun k h => hk k (List.mem_cons_of_mem _ h)
    have hx : fits v data (kindCls c x) = decide (data.length = x.confLen ∧ (v : Int) = x.witver) := by
      rw [fits, Bool.eq_iff_iff]
      simp only [kindCls, Cls.witver, Cls.dataLen, Option.some.injEq, Bool.and_eq_true, decide_eq_true_eq]
      constructor
      · rintro ⟨a, b⟩; exact ⟨b.symm, (of_decide_eq_true a).symm⟩
      · rintro ⟨a, b⟩; exact ⟨decide_eq_true b.symm, a.symm⟩
    simp only [List.map_cons, List.find?, hx, blechMatch]
    by_cases h : data.length = x.confLen ∧ (v : Int) = x.witver
    · rw [if_pos h]
      simp only [h, and_self, decide_true]
      refine ⟨fun k hk => ?_, fun hn => (by cases hn)⟩
      injection hk with hk
      refine ⟨x, List.mem_cons_self, hk.symm, ?_⟩
      rw [addrFromBytes, if_neg]
      simp [classLen, h.1]
    · rw [if_neg h]
      simp only [h, decide_false]
      refine ⟨fun k hk => ?_, ih.2⟩
      obtain ⟨y, hy, h1, h2⟩ := ih.1 k hk
      exact ⟨y, List.mem_cons_of_mem _ hy, h1, h2⟩

theorem wallet_reads (cls : Cls) (c : Chain) (ks : List Kind) (hks : ∀ k ∈ ks, k ∈ blechKinds) (hh : cls.hrp = some (some c.blechHrp))
    (hc : Complete cls) (hn : Named cls) (ho : offers cls = ks.map (kindCls c)) (s : PyStr) :
    match cls.new s with
    | .ok o => ∃ k ∈ ks, o.cls = kindCls c k ∧ o.witver = k.witver ∧ blechNew c ks s = .ok ⟨c, k, true, o.data⟩
    | .error e => blechNew c ks s = .error e := by
  rw [C89_reads_partial cls _ s hh hc hn, ho, blechNew]
  cases hd : blechDecode c.blechHrp s with
  | none => rfl
  | some r =>
    obtain ⟨v, data⟩ := r
    obtain ⟨h1, h2⟩ := blechMatch_eq c v data ks hks
    simp only
    cases hf : (ks.map (kindCls c)).find? (fits v data) with
    | none => exact h2 hf
    | some k =>
      obtain ⟨x, hx, rfl, he⟩ := h1 k hf
      refine ⟨x, hx, rfl, ?_, he⟩
      have := List.find?_some hf
      rw [fits] at this
      simp at this
      exact this.1.symm

/-- C89: reading with the blech32 class of a chain, with a class of a kind, and with the general class of a kind, is what `blechNew` says of the kinds (C30, C88). -/
theorem C89_wallet (c : Chain) (s : PyStr) :
    (match (chainCls c).new s with
      | .ok o => ∃ k ∈ blechKinds, o.cls = kindCls c k ∧ o.witver = k.witver ∧ blechNew c blechKinds s = .ok ⟨c, k, true, o.data⟩
      | .error e => blechNew c blechKinds s = .error e)
    ∧ ∀ k ∈ blechKinds, ∀ cls ∈ [kindCls c k, coinKindCls c k], match cls.new s with
      | .ok o => o.cls = kindCls c k ∧ o.witver = k.witver ∧ blechNew c [k] s = .ok ⟨c, k, true, o.data⟩
      | .error e => blechNew c [k] s = .error e := by
  constructor
  · refine wallet_reads (chainCls c) c blechKinds (fun _ h => h) rfl (complete_chain c).1 (complete_chain c).2 ?_ s
    simp [chainCls, blechKinds, offers, offersAll, kindCls, Kind.witver, Cls.witver]
  · intro k hk cls hcls
    have hoff : offers cls = [k].map (kindCls c) := by
      simp only [blechKinds, List.mem_cons, List.not_mem_nil, or_false] at hk hcls
      rcases hk with rfl | rfl | rfl <;> rcases hcls with rfl | rfl <;>
        simp [coinKindCls, offers, offersAll, kindCls, Kind.witver, Cls.witver]
    have hprop : Complete cls ∧ Named cls ∧ cls.hrp = some (some c.blechHrp) := by
      simp only [List.mem_cons, List.not_mem_nil, or_false] at hcls
      rcases hcls with rfl | rfl
      · exact ⟨(complete_kind c hk).1, (complete_kind c hk).2, rfl⟩
      · exact ⟨(complete_coinKind c hk).1, (complete_coinKind c hk).2, rfl⟩
    have := wallet_reads cls c [k] (by simpa using hk) hprop.2.2 hprop.1 hprop.2.1 hoff s
    cases hr : cls.new s with
    | error e => rw [hr] at this; exact this
    | ok o =>
      rw [hr] at this
      obtain ⟨x, hx, h1, h2, h3⟩ := this
      simp only [List.mem_cons, List.not_mem_nil, or_false] at hx
      subst hx
      exact ⟨h1, h2, h3⟩

/-- A text with a version no class has. -/
theorem exists_text (c : Chain) : ∃ s, blechDecode c.blechHrp s = some (2, List.replicate 65 7) := by
  obtain ⟨s, hs⟩ := (C22_encode_iff c.blechHrp 2 (List.replicate 65 7)).2 (by
    cases c <;> simp [HrpOk, ProgOk, Chain.blechHrp])
  exact ⟨s, C22_roundtrip _ _ _ _ hs⟩

/-- C89 fails: with one candidate and no `_data_length`, a text of a version no class has ends in an `AttributeError` raised while the message is written. -/
theorem C89_statement_false : ¬ C89_statement := by
  intro h
  obtain ⟨s, hs⟩ := exists_text .elements
  have hc : Complete (coinCls .elements) := by
    have := (complete_chain .elements).1
    simp only [coinCls, Complete, CompleteAll, and_true, true_and]
    refine ⟨fun h => (by cases h), ?_⟩
    rw [if_neg (by simp [chainCls, Cls.witver])]
    exact this
  have hoff : (offers (coinCls .elements)).find? (fits 2 (List.replicate 65 7)) = none := by
    simp [coinCls, chainCls, offers, offersAll, blechKinds, kindCls, Kind.witver, Cls.witver, fits]
  have := h (coinCls .elements) _ s 2 _ rfl hc hs hoff
  unfold Cls.new at this
  simp only [coinCls, Cls.hrp, hs] at this
  rw [Cls.matchProg] at this
  simp [tryAll, chainCls, blechKinds, kindCls, Cls.matchProg, Cls.tryExact, Cls.dataLen, Cls.witver, Cls.orRaise, Cls.unexpected, Kind.witver, Kind.confLen] at this

/-- Something is read, and something is refused for its version. -/
example : (∃ s o, (chainCls .elements).new s = .ok o ∧ o.cls.id = 12) ∧ ∃ s, (chainCls .liquid).new s = .error .blech32Unexpected := by
  constructor
  · obtain ⟨s, hs⟩ := (C22_encode_iff Chain.elements.blechHrp 1 (List.replicate 65 7)).2 (by simp [HrpOk, ProgOk, Chain.blechHrp])
    have hd := C22_roundtrip _ _ _ _ hs
    refine ⟨s, ⟨kindCls .elements .p2tr, List.replicate 65 7, 1⟩, ?_, rfl⟩
    rw [C89_reads_partial (chainCls .elements) _ s rfl (complete_chain _).1 (complete_chain _).2, hd]
    simp [chainCls, offers, offersAll, blechKinds, kindCls, Kind.witver, Kind.confLen, Cls.witver, Cls.dataLen, fits, List.find?]
  · obtain ⟨s, hs⟩ := exists_text .liquid
    refine ⟨s, ?_⟩
    rw [C89_reads_partial (chainCls .liquid) _ s rfl (complete_chain _).1 (complete_chain _).2, hs]
    simp [chainCls, offers, offersAll, blechKinds, kindCls, Kind.witver, Cls.witver, fits, List.find?]

/-- A class of python-bitcointx's kind without a version takes any version up to 16, and reads back what it prints; one with a version and another length does not. -/
example : (∃ o s, (Cls.mk 0 false (some (some [101, 108])) (-1) none []).fromBytes [1, 2, 3] (some 5) = .ok o ∧ o.str = .ok s
      ∧ (Cls.mk 0 false (some (some [101, 108])) (-1) none []).new s = .ok o)
    ∧ (∃ o s, (Cls.mk 0 false (some (some [101, 108])) 5 (some 4) []).fromBytes [1, 2, 3] none = .ok o ∧ o.str = .ok s
      ∧ (Cls.mk 0 false (some (some [101, 108])) 5 (some 4) []).new s ≠ .ok o) := by
  have key : ∀ c : Cls, c.hrp = some (some [101, 108]) → ∃ s, (⟨c, [1, 2, 3], 5⟩ : Obj).str = .ok s := fun c hc =>
    ((C89_str ⟨c, [1, 2, 3], 5⟩ _ hc ⟨by simp, by simp⟩).2.1).2 (by simp [HrpOk, ProgOk])
  constructor
  · obtain ⟨s, hs⟩ := key (.mk 0 false (some (some [101, 108])) (-1) none []) rfl
    have ho : (Cls.mk 0 false (some (some [101, 108])) (-1) none []).fromBytes [1, 2, 3] (some 5) = .ok ⟨_, [1, 2, 3], 5⟩ := rfl
    exact ⟨_, s, ho, hs, (C89_back _ _ _ _ _ (by decide) ho hs).2 (.inl (by decide))⟩
  · obtain ⟨s, hs⟩ := key (.mk 0 false (some (some [101, 108])) 5 (some 4) []) rfl
    have ho : (Cls.mk 0 false (some (some [101, 108])) 5 (some 4) []).fromBytes [1, 2, 3] none = .ok ⟨_, [1, 2, 3], 5⟩ := rfl
    refine ⟨_, s, ho, hs, fun h => ?_⟩
    have := (C89_back _ _ _ _ _ (by decide) ho hs).1 h
    simp [Cls.witver, Cls.dataLen] at this

end Verif.BlechClass
