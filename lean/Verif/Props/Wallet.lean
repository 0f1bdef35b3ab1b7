import Verif.Wallet
import Verif.Props.Blech
import Verif.SerializeLemmas
/-
C28-C31: confidential addresses.
-/
namespace Verif
open Spec

/-- An address object as its class constructs it: the payload has the length of the class. -/
def AddrOk (a : Addr) : Prop := a.payload.length = if a.conf then a.kind.dataLen + 33 else a.kind.dataLen

theorem classLen_eq (k : Kind) (c : Bool) : classLen k c = if c then k.dataLen + 33 else k.dataLen := by
  cases k <;> cases c <;> rfl

theorem addrFromBytes_iff (c : Chain) (k : Kind) (conf : Bool) (p : Bytes) (a : Addr) :
    addrFromBytes c k conf p = .ok a ↔ a = ⟨c, k, conf, p⟩ ∧ AddrOk a := by
  rw [addrFromBytes, classLen_eq]
  by_cases h : p.length = if conf then k.dataLen + 33 else k.dataLen
  · rw [if_neg (by simpa using h)]
    constructor
    · intro he; cases he; exact ⟨rfl, h⟩
    · rintro ⟨rfl, _⟩; rfl
  · rw [if_pos h]
    constructor
    · intro he; cases he
    · rintro ⟨rfl, h'⟩; exact absurd h' h

/-! ### C28: composition -/

/-- Which addresses a class accepts: the general class of a chain all kinds, its base58 and
blech32 classes their kinds, a concrete class its own kind. -/
def Accepts : ConfClass → Kind → Prop
  | .general _, _ => True
  | .base58 _, k => k = .p2pkh ∨ k = .p2sh
  | .blech32 _, k => k = .p2wpkh ∨ k = .p2wsh ∨ k = .p2tr
  | .exact _ k', k => k' = k

/-- Public keys are 33 or 65 bytes long. -/
def KeyLens (fullyValid : Bytes → Bool) : Prop := ∀ p, fullyValid p = true → p.length = 33 ∨ p.length = 65

theorem loop_eq (cur : Chain) (cls : ConfClass) (adr : Addr) (pub : Bytes) (hc : cls.chain = cur) :
    fromUnconfLoop cur cls adr pub clsmap =
      match cls with
      | .general _ => addrFromBytes cur adr.kind true (pub ++ adr.payload)
      | .base58 _ => if adr.kind = .p2pkh ∨ adr.kind = .p2sh then addrFromBytes cur adr.kind true (pub ++ adr.payload)
          else .error .address
      | .blech32 _ => if adr.kind = .p2pkh ∨ adr.kind = .p2sh then .error .address
          else addrFromBytes cur adr.kind true (pub ++ adr.payload)
      | .exact _ k => if adr.kind = k then addrFromBytes cur adr.kind true (pub ++ adr.payload)
          else .error .typeError := by
  obtain ⟨c, k, f, p⟩ := adr
  cases cls with
  | general d =>
    cases hc
    cases k <;> simp [fromUnconfLoop, clsmap, ConfClass.below, ConfClass.above, ConfClass.chain]
  | base58 d =>
    cases hc
    cases k <;> simp [fromUnconfLoop, clsmap, ConfClass.below, ConfClass.above, ConfClass.chain, Kind.segwit]
  | blech32 d =>
    cases hc
    cases k <;> simp [fromUnconfLoop, clsmap, ConfClass.below, ConfClass.above, ConfClass.chain, Kind.segwit]
  | exact d k' =>
    cases hc
    cases k <;> cases k' <;> simp [fromUnconfLoop, clsmap, ConfClass.below, ConfClass.above, ConfClass.chain]

/-- C28: whenever a confidential address is made, the key was valid and 33 bytes long, the address
was an unconfidential one of the class's chain, and the result has its kind, carries exactly the
key and pays to the same script. -/
theorem C28_sound (fv : Bytes → Bool) (hfv : KeyLens fv) (cur : Chain) (cls : ConfClass) (adr : Addr) (pub : Bytes)
    (ca : Addr) (hadr : AddrOk adr) (h : fromUnconfidential fv cur cls adr pub = .ok ca) :
    fv pub = true ∧ pub.length = 33 ∧ cls.chain = adr.chain ∧ adr.conf = false
    ∧ ca.conf = true ∧ ca.kind = adr.kind ∧ AddrOk ca ∧ ca.blindingPubkey = pub
    ∧ ca.toScriptPubKey = adr.toScriptPubKey
    ∧ ca.chain = cur ∧ (cur = adr.chain → ca.toUnconfidential = .ok adr) := by
  rw [fromUnconfidential] at h
  by_cases h1 : fv pub = true
  · rw [if_neg (by simp [h1])] at h
    by_cases h2 : cls.chain = adr.chain
    · rw [if_neg (by simpa using h2)] at h
      have hl : addrFromBytes cur adr.kind true (pub ++ adr.payload) = .ok ca := by
        generalize clsmap = l at h
        induction l with
        | nil => cases h
        | cons k l ih =>
          rw [fromUnconfLoop] at h
          by_cases h3 : adr.kind = k ∧ (cls.below k = true ∨ cls.above cur k = true)
          · rw [if_pos h3] at h; rw [h3.1]; exact h
          · rw [if_neg h3] at h
            by_cases h4 : cls.below k = true
            · rw [if_pos h4] at h; cases h
            · rw [if_neg h4] at h; exact ih h
      rw [addrFromBytes_iff] at hl
      obtain ⟨rfl, hok⟩ := hl
      obtain ⟨c, k, f, p⟩ := adr
      have hlen := hfv pub h1
      simp only [AddrOk, List.length_append, if_true] at hok hadr
      have hf : f = false := by
        cases f with
        | false => rfl
        | true => rw [if_pos rfl] at hadr; omega
      subst hf
      rw [if_neg (by simp)] at hadr
      have h33 : pub.length = 33 := by omega
      have hdrop : (pub ++ p).drop 33 = p := List.drop_left' h33
      refine ⟨h1, h33, h2, rfl, rfl, rfl, by simpa [AddrOk] using hok, List.take_left' h33, ?_, rfl, ?_⟩
      · have hu : (Addr.mk cur k true (pub ++ p)).toUnconfidential = .ok ⟨cur, k, false, p⟩ := by
          rw [Addr.toUnconfidential, addrFromBytes_iff]
          simp only [hdrop, AddrOk]
          exact ⟨trivial, hadr⟩
        simp only [Addr.toScriptPubKey, hu]
        rfl
      · intro hc
        replace hc : cur = c := hc
        subst hc
        rw [Addr.toUnconfidential, addrFromBytes_iff]
        simp only [hdrop, AddrOk]
        exact ⟨trivial, hadr⟩
    · rw [if_pos h2] at h; cases h
  · rw [if_pos (by simpa using h1)] at h; cases h

/-- C28: with the chain of the class selected, exactly the right arguments are accepted. -/
theorem C28_iff_partial (fv : Bytes → Bool) (hfv : KeyLens fv) (cls : ConfClass) (adr : Addr) (pub : Bytes)
    (hadr : AddrOk adr) :
    (∃ ca, fromUnconfidential fv cls.chain cls adr pub = .ok ca) ↔
      fv pub = true ∧ pub.length = 33 ∧ adr.chain = cls.chain ∧ adr.conf = false ∧ Accepts cls adr.kind := by
  constructor
  · rintro ⟨ca, h⟩
    obtain ⟨a1, a2, a3, a4, _⟩ := C28_sound fv hfv cls.chain cls adr pub ca hadr h
    refine ⟨a1, a2, a3.symm, a4, ?_⟩
    rw [fromUnconfidential, if_neg (by simp [a1]), if_neg (by simpa using a3), loop_eq _ _ _ _ rfl] at h
    cases cls with
    | general c => trivial
    | base58 c =>
      by_cases hk : adr.kind = .p2pkh ∨ adr.kind = .p2sh
      · exact hk
      · simp only [if_neg hk] at h; cases h
    | blech32 c =>
      by_cases hk : adr.kind = .p2pkh ∨ adr.kind = .p2sh
      · simp only [if_pos hk] at h; cases h
      · show adr.kind = .p2wpkh ∨ adr.kind = .p2wsh ∨ adr.kind = .p2tr
        revert hk
        cases adr.kind <;> simp
    | exact c k =>
      by_cases hk : adr.kind = k
      · exact hk.symm
      · simp only [if_neg hk] at h; cases h
  · rintro ⟨a1, a2, a3, a4, a5⟩
    obtain ⟨c, k, f, p⟩ := adr
    simp only at a3 a4 a5
    subst a3 a4
    refine ⟨⟨cls.chain, k, true, pub ++ p⟩, ?_⟩
    have hb : addrFromBytes cls.chain k true (pub ++ p) = .ok ⟨cls.chain, k, true, pub ++ p⟩ := by
      rw [addrFromBytes_iff]
      refine ⟨rfl, ?_⟩
      simp only [AddrOk, if_true, List.length_append] at hadr ⊢
      rw [if_neg (by simp)] at hadr
      omega
    rw [fromUnconfidential, if_neg (by simp [a1]), if_neg (by simp), loop_eq _ _ _ _ rfl]
    cases cls with
    | general c => exact hb
    | base58 c => simp only [if_pos (show k = .p2pkh ∨ k = .p2sh from a5)]; exact hb
    | blech32 c =>
      have : ¬ (k = .p2pkh ∨ k = .p2sh) := by
        have h5 : k = .p2wpkh ∨ k = .p2wsh ∨ k = .p2tr := a5
        rcases h5 with rfl | rfl | rfl <;> simp
      simp only [if_neg this]; exact hb
    | exact c k' => simp only [if_pos (show k = k' from a5.symm)]; exact hb

/-- C28: a foreign chain, an invalid key or a mismatched kind is refused, whatever chain is
selected. -/
theorem C28_refused (fv : Bytes → Bool) (cur : Chain) (cls : ConfClass) (adr : Addr) (pub : Bytes) :
    (fv pub = false → fromUnconfidential fv cur cls adr pub = .error .valueError)
    ∧ (fv pub = true → cls.chain ≠ adr.chain → fromUnconfidential fv cur cls adr pub = .error .typeError)
    ∧ (∀ c k, cls = .exact c k → fv pub = true → c = adr.chain → adr.kind ≠ k →
        fromUnconfidential fv cur cls adr pub = .error .typeError) := by
  refine ⟨fun h => by rw [fromUnconfidential, if_pos (by simp [h])], fun h1 h2 => by
    rw [fromUnconfidential, if_neg (by simp [h1]), if_pos h2], ?_⟩
  rintro c k rfl h1 rfl h3
  rw [fromUnconfidential, if_neg (by simp [h1]), if_neg (by simp [ConfClass.chain])]
  obtain ⟨c, k', f, p⟩ := adr
  cases k <;> cases k' <;> simp [fromUnconfLoop, clsmap, ConfClass.below, ConfClass.above] at h3 ⊢

/-- The full claim: converting back gives the address, whatever chain is selected. -/
def C28_statement : Prop :=
  ∀ (fv : Bytes → Bool), KeyLens fv → ∀ (cur : Chain) (cls : ConfClass) (adr : Addr) (pub : Bytes) (ca : Addr),
    AddrOk adr → fromUnconfidential fv cur cls adr pub = .ok ca → ca.toUnconfidential = .ok adr

/-- It is false: a concrete Liquid class called while Elements parameters are selected makes an
Elements address out of a Liquid one, because the result is built by the general class of the kind
(wallet.py:119). -/
theorem C28_statement_false : ¬ C28_statement := by
  intro h
  have := h (fun p => p.length == 33) (fun p hp => Or.inl (by simpa using hp)) .elements (.exact .liquid .p2pkh)
    ⟨.liquid, .p2pkh, false, List.replicate 20 7⟩ (List.replicate 33 2)
    ⟨.elements, .p2pkh, true, List.replicate 33 2 ++ List.replicate 20 7⟩ (by rfl) (by rfl)
  revert this
  decide

example : fromUnconfidential (fun p => p.length == 33) .liquid (.general .liquid)
    ⟨.liquid, .p2tr, false, List.replicate 32 7⟩ (List.replicate 33 2)
    = .ok ⟨.liquid, .p2tr, true, List.replicate 33 2 ++ List.replicate 32 7⟩ := by rfl

/-! ### C29: prefixes -/

/-- All base58 address classes of both chains. -/
def IsBase58 (x : Chain × Kind × Bool) : Prop := x.2.1 = .p2pkh ∨ x.2.1 = .p2sh

/-- C29: no prefix begins another. -/
theorem C29_prefix_free (x y : Chain × Kind × Bool) (hx : IsBase58 x) (hy : IsBase58 y)
    (h : base58Prefix x.1 x.2.1 x.2.2 <+: base58Prefix y.1 y.2.1 y.2.2) : x = y := by
  obtain ⟨c, k, f⟩ := x
  obtain ⟨c', k', f'⟩ := y
  simp only [IsBase58] at hx hy h
  rcases hx with rfl | rfl <;> rcases hy with rfl | rfl <;> cases c <;> cases c' <;> cases f <;> cases f' <;>
    first | rfl | (revert h; simp [base58Prefix])

theorem take_prefix {p d : Bytes} (h : d.take p.length = p) : p <+: d := by
  rw [← h]; exact List.take_prefix _ _

theorem base58Match_sound (l : List (Chain × Kind × Bool)) (d : Bytes) (a : Addr) (h : base58Match l d = .ok a) :
    (a.chain, a.kind, a.conf) ∈ l ∧ AddrOk a ∧ d = base58Prefix a.chain a.kind a.conf ++ a.payload := by
  induction l with
  | nil => cases h
  | cons x l ih =>
    obtain ⟨c, k, f⟩ := x
    rw [base58Match] at h
    by_cases hp : d.take (base58Prefix c k f).length = base58Prefix c k f
    · rw [if_pos hp, addrFromBytes_iff] at h
      obtain ⟨rfl, hok⟩ := h
      refine ⟨List.mem_cons_self, hok, ?_⟩
      conv => lhs; rw [← List.take_append_drop (base58Prefix c k f).length d, hp]
    · rw [if_neg hp] at h
      obtain ⟨h1, h2⟩ := ih h
      exact ⟨List.mem_cons_of_mem _ h1, h2⟩

/-- C29: whatever classes are tried, in whatever order, a base58 payload is read as an address of
one class only; in particular no address of one chain is read as one of the other. -/
theorem C29_base58_unambiguous (l l' : List (Chain × Kind × Bool)) (hl : ∀ x ∈ l, IsBase58 x)
    (hl' : ∀ x ∈ l', IsBase58 x) (d : Bytes) (a a' : Addr)
    (h : base58Match l d = .ok a) (h' : base58Match l' d = .ok a') : a = a' := by
  obtain ⟨m, _, e⟩ := base58Match_sound l d a h
  obtain ⟨m', _, e'⟩ := base58Match_sound l' d a' h'
  have hp : base58Prefix a.chain a.kind a.conf <+: d := ⟨_, e.symm⟩
  have hp' : base58Prefix a'.chain a'.kind a'.conf <+: d := ⟨_, e'.symm⟩
  have key : (a.chain, a.kind, a.conf) = (a'.chain, a'.kind, a'.conf) := by
    rcases Nat.le_total (base58Prefix a.chain a.kind a.conf).length (base58Prefix a'.chain a'.kind a'.conf).length
      with hle | hle
    · exact C29_prefix_free _ _ (hl _ m) (hl' _ m') (List.prefix_of_prefix_length_le hp hp' hle)
    · exact (C29_prefix_free _ _ (hl' _ m') (hl _ m) (List.prefix_of_prefix_length_le hp' hp hle)).symm
  obtain ⟨c, k, f, p⟩ := a
  obtain ⟨c', k', f', p'⟩ := a'
  simp only [Prod.mk.injEq] at key
  obtain ⟨rfl, rfl, rfl⟩ := key
  have : p = p' := List.append_cancel_left (e.symm.trans e')
  rw [this]

/-- C29: every address of a class is read back by any list of classes that contains it. -/
theorem C29_base58_complete (l : List (Chain × Kind × Bool)) (hl : ∀ x ∈ l, IsBase58 x) (a : Addr) (ha : AddrOk a)
    (hm : (a.chain, a.kind, a.conf) ∈ l) :
    base58Match l (base58Prefix a.chain a.kind a.conf ++ a.payload) = .ok a := by
  induction l with
  | nil => cases hm
  | cons x l ih =>
    obtain ⟨c, k, f⟩ := x
    rw [base58Match]
    by_cases hp : (base58Prefix a.chain a.kind a.conf ++ a.payload).take (base58Prefix c k f).length = base58Prefix c k f
    · rw [if_pos hp]
      have h1 := take_prefix hp
      have h2 : base58Prefix a.chain a.kind a.conf <+: base58Prefix a.chain a.kind a.conf ++ a.payload := ⟨_, rfl⟩
      have hx : IsBase58 (c, k, f) := hl _ List.mem_cons_self
      have ha' : IsBase58 (a.chain, a.kind, a.conf) := hl _ hm
      have key : (a.chain, a.kind, a.conf) = (c, k, f) := by
        rcases Nat.le_total (base58Prefix a.chain a.kind a.conf).length (base58Prefix c k f).length with hle | hle
        · exact C29_prefix_free _ _ ha' hx (List.prefix_of_prefix_length_le h2 h1 hle)
        · exact (C29_prefix_free _ _ hx ha' (List.prefix_of_prefix_length_le h1 h2 hle)).symm
      simp only [Prod.mk.injEq] at key
      obtain ⟨rfl, rfl, rfl⟩ := key
      rw [addrFromBytes_iff, List.drop_left' rfl]
      exact ⟨rfl, ha⟩
    · rw [if_neg hp]
      apply ih (fun x hx => hl x (List.mem_cons_of_mem _ hx))
      rcases List.mem_cons.1 hm with he | hm
      · exfalso
        apply hp
        simp only [Prod.mk.injEq] at he
        obtain ⟨rfl, rfl, rfl⟩ := he
        exact List.take_left' rfl
      · exact hm

theorem blechMatch_sound (c : Chain) (l : List Kind) (d : Bytes) (v : Nat) (a : Addr)
    (h : blechMatch c l d v = .ok a) :
    a.chain = c ∧ a.kind ∈ l ∧ a.conf = true ∧ a.payload = d ∧ AddrOk a ∧ (v : Int) = a.kind.witver := by
  induction l with
  | nil => cases h
  | cons k l ih =>
    rw [blechMatch] at h
    by_cases hc : d.length = k.confLen ∧ (v : Int) = k.witver
    · rw [if_pos hc, addrFromBytes_iff] at h
      obtain ⟨rfl, hok⟩ := h
      exact ⟨rfl, List.mem_cons_self, rfl, rfl, hok, hc.2⟩
    · rw [if_neg hc] at h
      obtain ⟨a1, a2, a3⟩ := ih h
      exact ⟨a1, List.mem_cons_of_mem _ a2, a3⟩

theorem blechHrp_elements : Chain.elements.blechHrp = hrpEl := by decide
theorem blechHrp_liquid : Chain.liquid.blechHrp = hrpLq := by decide

/-- C29: no segwit confidential address string is accepted by both chains. -/
theorem C29_blech32_chains (s : PyStr) (l l' : List Kind) (a a' : Addr)
    (h : blechNew .elements l s = .ok a) (h' : blechNew .liquid l' s = .ok a') : False := by
  rw [blechNew, blechHrp_elements] at h
  rw [blechNew, blechHrp_liquid] at h'
  rcases C25_chains s with hn | hn
  · rw [hn] at h; cases h
  · rw [hn] at h'; cases h'

/-- C29: the four human readable parts are distinct, so a decoder of any kind that compares the
part of the lower-cased string before the last '1' with the expected one (as those of blech32 and
bech32 do) accepts no string under two of them. -/
theorem C29_hrps_distinct (c c' : Chain) :
    c.blechHrp ≠ c'.bechHrp ∧ (c ≠ c' → c.blechHrp ≠ c'.blechHrp ∧ c.bechHrp ≠ c'.bechHrp) := by
  cases c <;> cases c' <;> decide

/-- C29: a confidential segwit address is not base58 text: it contains an 'l', which the alphabet
"123456789ABCDEFGHJKLMNPQRSTUVWXYZabcdefghijkmnopqrstuvwxyz" lacks — in lower case; an address
written in capitals contains an 'L' instead. -/
theorem C29_blech32_has_l (c : Chain) (s : PyStr) (r : Nat × Bytes) (h : blechDecode c.blechHrp s = some r) :
    108 ∈ lower s := by
  obtain ⟨v, p⟩ := r
  rw [blechDecode_iff] at h
  rw [h.2.2.2, blechText]
  cases c
  · exact List.mem_append_left _ (by decide)
  · exact List.mem_append_left _ (by decide)

/-! ### C30: strings -/

theorem witver_conflen (k k' : Kind) (hs : k.segwit = true) (hl : k.confLen = k'.confLen) (hv : k.witver = k'.witver) :
    k = k' := by
  cases k <;> cases k' <;> first | rfl | (revert hs hl hv; decide)

/-- C30: every confidential segwit address has a string, and every class that dispatches to its
class (its own, the chain's blech32 class, the general ones — in whatever order the candidates are
tried) reads it back as the same address. -/
theorem C30_roundtrip (a : Addr) (hok : AddrOk a) (hconf : a.conf = true) (hseg : a.kind.segwit = true) :
    ∃ s, a.blechStr = .ok s ∧ ∀ cands : List Kind, a.kind ∈ cands → blechNew a.chain cands s = .ok a := by
  obtain ⟨c, k, f, p⟩ := a
  simp only at hconf hseg
  subst hconf
  simp only [AddrOk, if_true] at hok
  have hv : (k.witver.toNat : Int) = k.witver := by cases k <;> first | rfl | (revert hseg; decide)
  have henc : ∃ s, blechEncode c.blechHrp k.witver.toNat p = .ok (some s) := by
    rw [C22_encode_iff]
    refine ⟨?_, ?_, ?_⟩
    · cases c <;> (unfold HrpOk; decide)
    · cases k <;> first
        | exact absurd hseg (by decide)
        | exact ⟨by decide, by rw [hok]; decide, by rw [hok]; decide, fun _ => by rw [hok]; decide⟩
    · rw [hok]; cases c <;> cases k <;> decide
  obtain ⟨s, hs⟩ := henc
  refine ⟨s, ?_, ?_⟩
  · simp only [Addr.blechStr, hs]; rfl
  · intro cands hm
    have hd := C22_roundtrip _ _ _ _ hs
    simp only [blechNew, hd]
    have hlen : p.length = k.confLen := by rw [hok]; cases k <;> rfl
    simp only at hm
    induction cands with
    | nil => cases hm
    | cons k' l ih =>
      rw [blechMatch]
      by_cases hc : p.length = k'.confLen ∧ (k.witver.toNat : Int) = k'.witver
      · rw [if_pos hc]
        have : k = k' := witver_conflen k k' hseg (by rw [← hlen, hc.1]) (by rw [← hv, hc.2])
        subst this
        rw [addrFromBytes_iff]
        exact ⟨rfl, hok⟩
      · rw [if_neg hc]
        rcases List.mem_cons.1 hm with rfl | hm
        · exact absurd ⟨hlen, hv⟩ hc
        · exact ih hm

/-- C30: whatever is read is an address of the class it names, and its string is the one read, in
lower case. -/
theorem C30_canonical (c : Chain) (cands : List Kind) (s : PyStr) (a : Addr) (h : blechNew c cands s = .ok a) :
    a.chain = c ∧ a.kind ∈ cands ∧ AddrOk a ∧ a.conf = true ∧ a.blechStr = .ok (lower s) := by
  rw [blechNew] at h
  cases hd : blechDecode c.blechHrp s with
  | none => rw [hd] at h; cases h
  | some r =>
    obtain ⟨v, d⟩ := r
    rw [hd] at h
    obtain ⟨rfl, h2, h3, rfl, h5, h6⟩ := blechMatch_sound c cands d v a h
    refine ⟨rfl, h2, h5, h3, ?_⟩
    have hv : a.kind.witver.toNat = v := by omega
    rw [Addr.blechStr, hv, C23_canonical _ _ _ _ hd]
    rfl

/-- C30: a string is read as at most one address, whatever classes are tried. -/
theorem C30_unique (c c' : Chain) (l l' : List Kind) (hl : ∀ k ∈ l, k.segwit = true) (s : PyStr) (a a' : Addr)
    (h : blechNew c l s = .ok a) (h' : blechNew c' l' s = .ok a') : a = a' := by
  rw [blechNew] at h h'
  cases hd : blechDecode c.blechHrp s with
  | none => rw [hd] at h; cases h
  | some r =>
    cases hd' : blechDecode c'.blechHrp s with
    | none => rw [hd'] at h'; cases h'
    | some r' =>
      have hh := C25_hrp_unique _ _ _ _ _ hd hd'
      have hcc : c = c' := by
        cases c <;> cases c' <;> first | rfl | exact absurd hh (by decide)
      subst hcc
      rw [hd] at hd' h
      cases hd'
      rw [hd] at h'
      obtain ⟨v, d⟩ := r
      obtain ⟨a1, a2, a3, a4, a5, a6⟩ := blechMatch_sound _ _ _ _ _ h
      obtain ⟨b1, _, b3, b4, b5, b6⟩ := blechMatch_sound _ _ _ _ _ h'
      obtain ⟨ac, ak, af, ap⟩ := a
      obtain ⟨bc, bk, bf, bp⟩ := a'
      simp only at a1 a2 a3 a4 a6 b1 b3 b4 b6
      subst a1 b1 a3 b3 a4 b4
      have hk : ak = bk := by
        apply witver_conflen ak bk (hl _ a2)
        · simp only [AddrOk, if_true] at a5 b5
          have : ∀ k : Kind, k.confLen = k.dataLen + 33 := by intro k; cases k <;> rfl
          rw [this, this]; omega
        · omega
      rw [hk]

example : AddrOk ⟨.liquid, .p2tr, true, List.replicate 65 3⟩ := by rfl

/-! ### C31: output sizes -/

theorem confScript (a : Addr) (hok : AddrOk a) (hc : a.conf = true) :
    ∃ h, h.length = a.kind.dataLen ∧ a.toScriptPubKey = .ok (scriptOf a.kind h) := by
  obtain ⟨c, k, f, p⟩ := a
  simp only at hc
  subst hc
  simp only [AddrOk, if_true] at hok
  have hd : (p.drop 33).length = k.dataLen := by rw [List.length_drop]; omega
  refine ⟨p.drop 33, hd, ?_⟩
  have hu : (Addr.mk c k true p).toUnconfidential = .ok ⟨c, k, false, p.drop 33⟩ := by
    rw [Addr.toUnconfidential, addrFromBytes_iff]
    exact ⟨rfl, hd⟩
  simp only [Addr.toScriptPubKey, hu]
  rfl

/-- Length of the script of each kind. -/
def scriptLen : Kind → Nat
  | .p2pkh => 25
  | .p2sh => 23
  | .p2wpkh => 22
  | .p2wsh => 34
  | .p2tr => 34

theorem scriptOf_length (k : Kind) (h : Bytes) (hl : h.length = k.dataLen) : (scriptOf k h).length = scriptLen k := by
  cases k <;> simp [scriptOf, scriptLen, Kind.dataLen] at hl ⊢ <;> omega

theorem serVarBytes_short (b : Bytes) (h : b.length < 0xfd) :
    serVarBytes b = .ok (UInt8.ofNat b.length :: b) := by
  simp only [serVarBytes, serVarInt]
  rw [if_pos h]
  rfl

theorem serTxOut_len (o : TxOut) (k : Kind) (h : o.scriptPubKey.length = scriptLen k) (n : Nat)
    (hn : (serConf o.nAsset).length + (serConf o.nValue).length + (serConf o.nNonce).length = n) :
    ∃ s, serTxOut o = .ok s ∧ s.length = n + 1 + scriptLen k := by
  have hlt : o.scriptPubKey.length < 0xfd := by rw [h]; cases k <;> decide
  refine ⟨serConf o.nAsset ++ serConf o.nValue ++ serConf o.nNonce
    ++ (UInt8.ofNat o.scriptPubKey.length :: o.scriptPubKey), ?_, ?_⟩
  · simp only [serTxOut, serVarBytes_short _ hlt]; rfl
  · simp only [List.length_append, List.length_cons, h]; omega

/-- C31: for a confidential class the size is that of any output to any address of the class with
committed value, asset and nonce. -/
theorem C31_confidential (c : Chain) (k : Kind) (a : Addr) (hok : AddrOk a) (hc : a.conf = true) (hk : a.kind = k)
    (o : TxOut) (hs : a.toScriptPubKey = .ok o.scriptPubKey) (hv : o.nValue.length = 33) (ha : o.nAsset.length = 33)
    (hn : o.nNonce.length = 33) :
    ∃ n s, confOutputSize c k = .ok n ∧ serTxOut o = .ok s ∧ s.length = n := by
  subst hk
  have hconf : ∀ b : Bytes, b.length = 33 → (serConf b).length = 33 := by
    intro b hb; rw [serConf, if_pos (by omega)]; exact hb
  obtain ⟨h, hl, he⟩ := confScript a hok hc
  rw [hs, Except.ok.injEq] at he
  obtain ⟨s, e1, e2⟩ := serTxOut_len o a.kind (by rw [he]; exact scriptOf_length _ _ hl) 99
    (by rw [hconf _ ha, hconf _ hv, hconf _ hn])
  have hz : AddrOk ⟨c, a.kind, true, List.replicate a.kind.confLen 0⟩ := by
    simp only [AddrOk, List.length_replicate, if_true]; cases a.kind <;> rfl
  obtain ⟨h', hl', he'⟩ := confScript ⟨c, a.kind, true, List.replicate a.kind.confLen 0⟩ hz rfl
  obtain ⟨s', e1', e2'⟩ := serTxOut_len
    { scriptPubKey := scriptOf a.kind h', nValue := List.replicate 33 0, nAsset := List.replicate 33 0,
      nNonce := List.replicate 33 0 } a.kind (scriptOf_length _ _ hl') 99 (by
        rw [hconf _ (by simp)])
  refine ⟨s'.length, s, ?_, e1, by rw [e2, e2']⟩
  simp only [confOutputSize, (addrFromBytes_iff c a.kind true _ _).2 ⟨rfl, hz⟩, bind, Except.bind, he', e1']
  rfl

/-- The full claim for unconfidential classes: the size of an output with an explicit amount and
an explicit asset. -/
def C31_plain_statement : Prop :=
  ∀ (c : Chain) (k : Kind) (a : Addr), AddrOk a → a.conf = false → a.kind = k →
    ∀ o : TxOut, a.toScriptPubKey = .ok o.scriptPubKey → o.nValue.length = 9 → o.nAsset.length = 33 →
      o.nNonce = [] → ∃ n s, plainOutputSize c k = .ok n ∧ serTxOut o = .ok s ∧ s.length = n

/-- What the unconfidential size is: 32 bytes short of every such output. -/
theorem C31_plain_partial (c : Chain) (k : Kind) (a : Addr) (hok : AddrOk a) (hc : a.conf = false) (hk : a.kind = k)
    (o : TxOut) (hs : a.toScriptPubKey = .ok o.scriptPubKey) (hv : o.nValue.length = 9)
    (hn : o.nNonce = []) :
    ∃ n s, plainOutputSize c k = .ok n ∧ serTxOut o = .ok s
      ∧ (o.nAsset.length = 33 → s.length = n + 32) ∧ (o.nAsset = [] → s.length = n) := by
  subst hk
  have hscript : o.scriptPubKey.length = scriptLen a.kind := by
    obtain ⟨c', k', f, p⟩ := a
    simp only at hc; subst hc
    simp only [Addr.toScriptPubKey] at hs
    rw [if_neg (by simp), Except.ok.injEq] at hs
    rw [← hs]
    exact scriptOf_length _ _ (by simpa [AddrOk] using hok)
  obtain ⟨s, e1, e2⟩ := serTxOut_len o a.kind hscript _ rfl
  have hz : AddrOk ⟨c, a.kind, false, List.replicate a.kind.dataLen 0⟩ := by
    simp [AddrOk]
  have hv0 : ∃ v, valueFromAmount 0 = .ok v ∧ v.length = 9 := ⟨_, rfl, rfl⟩
  obtain ⟨v, ev0, lv⟩ := hv0
  obtain ⟨s', e1', e2'⟩ := serTxOut_len
    { scriptPubKey := scriptOf a.kind (List.replicate a.kind.dataLen 0), nValue := v } a.kind
    (scriptOf_length _ _ (by simp)) _ rfl
  have hval : (serConf o.nValue).length = 9 := by rw [serConf, if_pos (by omega)]; exact hv
  have hval' : (serConf v).length = 9 := by rw [serConf, if_pos (by omega)]; exact lv
  have hnull : (serConf ([] : Bytes)).length = 1 := rfl
  simp only [hval', hnull] at e2'
  refine ⟨s'.length, s, ?_, e1, ?_, ?_⟩
  · simp only [plainOutputSize, (addrFromBytes_iff c a.kind false _ _).2 ⟨rfl, hz⟩, bind, Except.bind,
      Addr.toScriptPubKey, ev0]
    rw [if_neg (by simp)]
    simp only [e1']
    rfl
  · intro ha
    have : (serConf o.nAsset).length = 33 := by rw [serConf, if_pos (by omega)]; exact ha
    rw [e2, e2', this, hval, hn, hnull]; omega
  · intro ha
    rw [e2, e2', ha, hval, hn, hnull]

theorem C31_plain_statement_false : ¬ C31_plain_statement := by
  intro h
  have := h .liquid .p2wpkh ⟨.liquid, .p2wpkh, false, List.replicate 20 1⟩ rfl rfl rfl
    { scriptPubKey := scriptOf .p2wpkh (List.replicate 20 1), nValue := 1 :: List.replicate 8 0,
      nAsset := 1 :: List.replicate 32 5 } rfl rfl rfl rfl
  obtain ⟨n, s, h1, h2, h3⟩ := this
  have e1 : plainOutputSize .liquid .p2wpkh = .ok 34 := by rfl
  rw [e1, Except.ok.injEq] at h1
  subst h1
  have hlen : (serTxOut ⟨1 :: List.replicate 8 0, scriptOf .p2wpkh (List.replicate 20 1),
      1 :: List.replicate 32 5, []⟩).map List.length = .ok 66 := by rfl
  rw [h2] at hlen
  simp only [Except.map, Except.ok.injEq] at hlen
  omega

/-- The sizes are the ones python-elementstx documents in its tests. -/
example : confOutputSize .elements .p2pkh = .ok (34 + 91) ∧ confOutputSize .liquid .p2wsh = .ok (43 + 91)
    ∧ plainOutputSize .liquid .p2sh = .ok (32 + 3) := ⟨by rfl, by rfl, by rfl⟩

end Verif
