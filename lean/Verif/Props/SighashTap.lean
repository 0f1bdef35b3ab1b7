import Verif.Spec.SighashTap
import Verif.Props.SighashV0
/-
Taproot signature hashes: C16, C17, C18.
-/
namespace Verif
open Spec

/-! ### Pieces -/

theorem serN_pure {α : Type} (f : α → Bytes) (xs : List α) :
    serN (fun x => .ok (f x)) xs = .ok (xs.map f).flatten := by
  induction xs with
  | nil => rfl
  | cons x xs ih => rw [serN, ih]; rfl

theorem optPart_ok {α : Type} {b : Bool} {x : Except PyErr α} {y : Option α} (h : optPart b x = .ok y) :
    (b = true ∧ ∃ a, x = .ok a ∧ y = some a) ∨ (b = false ∧ y = none) := by
  unfold optPart at h
  cases b
  · right; exact ⟨rfl, (Except.ok.inj h).symm⟩
  · left
    simp only [if_true, Except.map_ok] at h
    exact ⟨rfl, h⟩

theorem htByte_inj {a b : TapArgs} (h : a.htByte = b.htByte) : a.hashtype = b.hashtype := by
  unfold TapArgs.htByte at h
  revert h
  generalize a.hashtype = x
  generalize b.hashtype = y
  rcases x with _ | ⟨xo, xa⟩ <;> rcases y with _ | ⟨yo, ya⟩ <;>
    (try cases xo) <;> (try cases xa) <;> (try cases yo) <;> (try cases ya) <;> decide

theorem spendType_inj {e e' : Nat} {a b : TapArgs} (he : e < 2) (he' : e' < 2)
    (h : spendType e a = spendType e' b) : e = e' ∧ a.annexHash.isSome = b.annexHash.isSome := by
  unfold spendType at h
  revert h
  generalize a.annexHash.isSome = x
  generalize b.annexHash.isSome = y
  have h1 : e = 0 ∨ e = 1 := by omega
  have h2 : e' = 0 ∨ e' = 1 := by omega
  rcases h1 with rfl | rfl <;> rcases h2 with rfl | rfl <;> cases x <;> cases y <;> decide

theorem badHash_len {x : Bytes} (h : badHash (some x) = false) : x.length = 32 := by
  simpa [badHash] using h

/-- What the argument checks ensure. -/
theorem tapCheck_ok {tx : Tx} {i : Nat} {spent : List TxOut} {a : TapArgs} {ext : Nat} :
    tapCheck tx i spent a = .ok ext ↔ i < tx.vin.length ∧ badHash a.tapleafHash = false ∧
      badHash a.annexHash = false ∧ a.genesisHash.length = 32 ∧ spent.length = tx.vin.length ∧
      (a.sigversion = .taproot ∧ ext = 0 ∨ a.sigversion = .tapscript ∧ ext = 1) := by
  unfold tapCheck
  rw [if_neg (by omega)]
  by_cases h1 : i < tx.vin.length
  · rw [if_neg (by omega)]
    cases h2 : badHash a.tapleafHash
    · cases h3 : badHash a.annexHash
      · by_cases h4 : a.genesisHash.length = 32
        · by_cases h5 : spent.length = tx.vin.length
          · cases h6 : a.sigversion <;> simp [h1, h4, h5, eq_comm]
          · cases h6 : a.sigversion <;> simp [h1, h4, h5]
        · simp [h4]
      · simp
    · simp
  · rw [if_pos (by omega)]; simp [h1]

theorem tapParts_ok {tx : Tx} {i : Nat} {spent : List TxOut} {t : HashType} {p : TapParts}
    (h : tapParts tx i spent t = .ok p) :
    optPart (!t.acp) (tapInputs tx spent) = .ok p.inputs ∧ optPart (t.out == .all) (tapOutputs tx) = .ok p.outputs ∧
    optPart t.acp (tapSigned tx i spent) = .ok p.signed ∧ optPart (t.out == .single) (tapSingle tx i) = .ok p.single := by
  unfold tapParts at h
  simp only [Except.bind_ok, Except.pure_ok] at h
  obtain ⟨a, ha, b, hb, c, hc, d, hd, rfl⟩ := h
  exact ⟨ha, hb, hc, hd⟩

theorem tapMessage_ok {h : HashFn} {tx : Tx} {i : Nat} {a : TapArgs} {ext : Nat} {p : TapParts} {m : Bytes} :
    tapMessage h tx i a ext p = .ok m ↔ ∃ v l x n t, packS 4 tx.nVersion = .ok v ∧ packU 4 tx.nLockTime = .ok l ∧
      tapIdx i a = .ok x ∧ tapAnnex a.annexHash = .ok n ∧ tapTrailer a = .ok t ∧
      m = [a.htByte] ++ (v ++ (l ++ (optBytes (·.bytes h) p.inputs ++ (optBytes (·.bytes h) p.outputs ++
        ([spendType ext a] ++ ((optBytes (·.bytes h) p.signed ++ x) ++ (n ++ (optBytes (·.bytes h) p.single ++ t)))))))) := by
  unfold tapMessage
  simp only [Except.bind_ok, Except.pure_ok]
  constructor
  · rintro ⟨v, h1, l, h2, x, h3, n, h4, t, h5, rfl⟩
    exact ⟨v, l, x, n, t, h1, h2, h3, h4, h5, by simp only [List.append_assoc]⟩
  · rintro ⟨v, l, x, n, t, h1, h2, h3, h4, h5, rfl⟩
    exact ⟨v, h1, l, h2, x, h3, n, h4, t, h5, by simp only [List.append_assoc]⟩

theorem TapInputs.bytes_len (h : HashFn) (p : TapInputs) : (p.bytes h).length = 224 := by
  simp [TapInputs.bytes, h.len]
theorem TapOutputs.bytes_len (h : HashFn) (p : TapOutputs) : (p.bytes h).length = 64 := by
  simp [TapOutputs.bytes, h.len]

theorem tapAnnex_len {x : Option Bytes} {n : Bytes} (hb : badHash x = false) (h : tapAnnex x = .ok n) :
    n = optBytes (0x20 :: ·) x ∧ n.length = if x.isSome then 33 else 0 := by
  cases x with
  | none => cases h; exact ⟨rfl, rfl⟩
  | some y =>
    have hl := badHash_len hb
    have : n = 0x20 :: y := by
      simp only [tapAnnex, serVarBytes, Except.bind_ok, Except.pure_ok, hl] at h
      obtain ⟨l, h1, rfl⟩ := h
      have : l = [0x20] := (Except.ok.inj h1).symm
      rw [this]; rfl
    exact ⟨this, by simp [this, hl]⟩

theorem tapTrailer_ok {a : TapArgs} {t : Bytes} (hb : badHash a.tapleafHash = false) (h : tapTrailer a = .ok t) :
    (a.sigversion ≠ .tapscript ∧ t = []) ∨
    (a.sigversion = .tapscript ∧ t.length = 37 ∧ ∃ l c p, a.tapleafHash = some l ∧ a.codeseparatorPos = some c ∧
      packS 4 c = .ok p ∧ l.length = 32 ∧ t = l ++ ([0] ++ p)) := by
  unfold tapTrailer at h
  by_cases hs : a.sigversion = .tapscript
  · rw [if_pos hs] at h
    right
    cases hl : a.tapleafHash with
    | none => rw [hl] at h; cases h
    | some l =>
      cases hc : a.codeseparatorPos with
      | none => rw [hl, hc] at h; cases h
      | some c =>
        rw [hl, hc] at h
        simp only [Except.bind_ok, Except.pure_ok] at h
        obtain ⟨p, hp, rfl⟩ := h
        rw [hl] at hb
        have hll := badHash_len hb
        exact ⟨hs, by simp [hll, packS_len hp], l, c, p, rfl, rfl, hp, hll, by simp⟩
  · rw [if_neg hs] at h
    exact Or.inl ⟨hs, (Except.ok.inj h).symm⟩

theorem optBytes_len {α : Type} {b : Bool} {x y : Except PyErr α} {u v : Option α} {f : α → Bytes} {n : Nat}
    (hf : ∀ a, (f a).length = n) (h1 : optPart b x = .ok u) (h2 : optPart b y = .ok v) :
    (optBytes f u).length = (optBytes f v).length := by
  rcases optPart_ok h1 with ⟨hb, a, _, rfl⟩ | ⟨hb, rfl⟩ <;> rcases optPart_ok h2 with ⟨hb', a', _, rfl⟩ | ⟨hb', rfl⟩
  · simp [optBytes, hf]
  · rw [hb] at hb'; cases hb'
  · rw [hb] at hb'; cases hb'
  · rfl

/-- A successful call, opened up. -/
structure TapRun (h : HashFn) (c : TapCall) (dig : Bytes) where
  ext : Nat
  p : TapParts
  m : Bytes
  v : Bytes
  l : Bytes
  x : Bytes
  n : Bytes
  t : Bytes
  hcheck : tapCheck c.tx c.idx c.spent c.args = .ok ext
  hparts : tapParts c.tx c.idx c.spent c.args.ht = .ok p
  hmsg : tapMessage h c.tx c.idx c.args ext p = .ok m
  hv : packS 4 c.tx.nVersion = .ok v
  hl : packU 4 c.tx.nLockTime = .ok l
  hx : tapIdx c.idx c.args = .ok x
  hn : tapAnnex c.args.annexHash = .ok n
  ht : tapTrailer c.args = .ok t
  hm : m = [c.args.htByte] ++ (v ++ (l ++ (optBytes (·.bytes h) p.inputs ++ (optBytes (·.bytes h) p.outputs ++
        ([spendType ext c.args] ++ ((optBytes (·.bytes h) p.signed ++ x) ++ (n ++ (optBytes (·.bytes h) p.single ++ t))))))))
  hdig : dig = h.fn (taggedPreimage h tapSighashTag (c.args.genesisHash ++ c.args.genesisHash ++ m))

theorem tapRun {h : HashFn} {c : TapCall} {dig : Bytes} (e : c.digest h = .ok dig) : Nonempty (TapRun h c dig) := by
  unfold TapCall.digest sighashSchnorr at e
  simp only [Except.bind_ok, Except.pure_ok, Int.toNat_natCast] at e
  obtain ⟨ext, h1, p, h2, m, h3, h4⟩ := e
  obtain ⟨v, l, x, n, t, g1, g2, g3, g4, g5, g6⟩ := tapMessage_ok.1 h3
  exact ⟨⟨ext, p, m, v, l, x, n, t, h1, h2, h3, g1, g2, g3, g4, g5, g6, h4⟩⟩

theorem noColl {h : HashFn} {c d : TapCall} (hcol : ¬ TapCollision h c d) {x y : Bytes}
    (hx : TapHashed h c x) (hy : TapHashed h d y) (e : h.fn x = h.fn y) : x = y := by
  by_cases hxy : x = y
  · exact hxy
  · exact absurd ⟨x, y, hx, hy, hxy, e⟩ hcol

/-- Everything around the parts that depend on the input and output types. -/
theorem tap_header {h : HashFn} {c d : TapCall} {dig : Bytes} (r : TapRun h c dig) (s : TapRun h d dig)
    (hcol : ¬ TapCollision h c d) :
    TapAgreeBase c d ∧ r.m = s.m ∧ optBytes (·.bytes h) r.p.inputs = optBytes (·.bytes h) s.p.inputs ∧
    optBytes (·.bytes h) r.p.outputs = optBytes (·.bytes h) s.p.outputs ∧
    optBytes (·.bytes h) r.p.single = optBytes (·.bytes h) s.p.single ∧
    optBytes (·.bytes h) r.p.signed ++ r.x = optBytes (·.bytes h) s.p.signed ++ s.x := by
  obtain ⟨_, ctl, can, cg, _, csv⟩ := tapCheck_ok.1 r.hcheck
  obtain ⟨_, dtl, dan, dg, _, dsv⟩ := tapCheck_ok.1 s.hcheck
  have e0 : taggedPreimage h tapSighashTag (c.args.genesisHash ++ c.args.genesisHash ++ r.m) =
      taggedPreimage h tapSighashTag (d.args.genesisHash ++ d.args.genesisHash ++ s.m) :=
    noColl hcol ⟨_, _, _, r.hcheck, r.hparts, r.hmsg, by simp⟩ ⟨_, _, _, s.hcheck, s.hparts, s.hmsg, by simp⟩
      (r.hdig.symm.trans s.hdig)
  have e1 := List.append_cancel_left e0
  rw [List.append_assoc, List.append_assoc] at e1
  obtain ⟨g1, e2⟩ := append_split e1 (by rw [cg, dg])
  obtain ⟨_, em⟩ := append_split e2 (by rw [cg, dg])
  have e3 := em
  rw [r.hm, s.hm] at e3
  obtain ⟨g2, e4⟩ := append_split e3 rfl
  have hht : c.args.hashtype = d.args.hashtype := htByte_inj (List.cons.inj g2).1
  have hht' : c.args.ht = d.args.ht := by unfold TapArgs.ht; rw [hht]
  obtain ⟨p1, p2, p3, p4⟩ := tapParts_ok r.hparts
  obtain ⟨q1, q2, q3, q4⟩ := tapParts_ok s.hparts
  rw [← hht'] at q1 q2 q3 q4
  obtain ⟨g3, e5⟩ := append_split e4 (by rw [packS_len r.hv, packS_len s.hv])
  obtain ⟨g4, e6⟩ := append_split e5 (by rw [packU_len r.hl, packU_len s.hl])
  obtain ⟨g5, e7⟩ := append_split e6 (optBytes_len (TapInputs.bytes_len h) p1 q1)
  obtain ⟨g6, e8⟩ := append_split e7 (optBytes_len (TapOutputs.bytes_len h) p2 q2)
  obtain ⟨g7, e9⟩ := append_split e8 rfl
  obtain ⟨hext, hann⟩ := spendType_inj (by rcases csv with h | h <;> omega) (by rcases dsv with h | h <;> omega)
    (List.cons.inj g7).1
  have hsv : c.args.sigversion = d.args.sigversion := by
    rcases csv with ⟨h1, h2⟩ | ⟨h1, h2⟩ <;> rcases dsv with ⟨h3, h4⟩ | ⟨h3, h4⟩
    · rw [h1, h3]
    · omega
    · omega
    · rw [h1, h3]
  obtain ⟨cn, cnl⟩ := tapAnnex_len can r.hn
  obtain ⟨dn, dnl⟩ := tapAnnex_len dan s.hn
  have hnl : r.n.length = s.n.length := by rw [cnl, dnl, hann]
  have hgl := optBytes_len (TapOutputs.bytes_len h) p4 q4
  have htr := tapTrailer_ok ctl r.ht
  have hts := tapTrailer_ok dtl s.ht
  have htl : r.t.length = s.t.length := by
    rcases htr with ⟨h1, h2⟩ | ⟨h1, h2, _⟩ <;> rcases hts with ⟨h3, h4⟩ | ⟨h3, h4, _⟩
    · rw [h2, h4]
    · exact absurd (hsv.trans h3) h1
    · exact absurd (hsv.symm.trans h1) h3
    · rw [h2, h4]
  obtain ⟨g8, e10⟩ := List.append_inj' e9 (by simp only [List.length_append, hnl, hgl, htl])
  obtain ⟨g9, e11⟩ := append_split e10 hnl
  obtain ⟨g10, e12⟩ := append_split e11 hgl
  refine ⟨⟨g1, hht, ?_, ?_, hsv, ?_, ?_, ?_⟩, em, g5, g6, g10, g8⟩
  · exact packS_inj r.hv (g3 ▸ s.hv)
  · exact packU_inj r.hl (g4 ▸ s.hl)
  · rw [cn, dn] at g9
    revert g9
    cases c.args.annexHash <;> cases d.args.annexHash <;> simp [optBytes]
  · intro hts'
    rcases htr with ⟨h1, _⟩ | ⟨_, _, l, cc, pp, a1, a2, a3, a4, a5⟩
    · exact absurd hts' h1
    · rcases hts with ⟨h1, _⟩ | ⟨_, _, l', cc', pp', b1, b2, b3, b4, b5⟩
      · exact absurd (hsv ▸ hts') h1
      · rw [a5, b5] at e12
        obtain ⟨z1, _⟩ := append_split e12 (by rw [a4, b4])
        rw [a1, b1, z1]
  · intro hts'
    rcases htr with ⟨h1, _⟩ | ⟨_, _, l, cc, pp, a1, a2, a3, a4, a5⟩
    · exact absurd hts' h1
    · rcases hts with ⟨h1, _⟩ | ⟨_, _, l', cc', pp', b1, b2, b3, b4, b5⟩
      · exact absurd (hsv ▸ hts') h1
      · rw [a5, b5] at e12
        obtain ⟨_, z1⟩ := append_split e12 (by rw [a4, b4])
        obtain ⟨_, z2⟩ := append_split z1 rfl
        rw [a2, b2, packS_inj a3 (z2 ▸ b3)]

/-! ### Inputs -/

theorem outpointFlag_inj {i j : TxIn} (h : outpointFlag i = outpointFlag j) :
    i.assetIssuance.isNull = j.assetIssuance.isNull ∧ i.isPegin = j.isPegin := by
  unfold outpointFlag at h
  revert h
  generalize i.assetIssuance.isNull = a
  generalize j.assetIssuance.isNull = b
  generalize i.isPegin = p
  generalize j.isPegin = q
  cases a <;> cases b <;> cases p <;> cases q <;> decide +kernel

theorem outpointFlag_len (i : TxIn) : (outpointFlag i).length = 1 := rfl

theorem flags_inj {xs ys : List TxIn} (h : (xs.map outpointFlag).flatten = (ys.map outpointFlag).flatten) :
    xs.map (·.assetIssuance.isNull) = ys.map (·.assetIssuance.isNull) ∧ xs.map (·.isPegin) = ys.map (·.isPegin) := by
  induction xs generalizing ys with
  | nil =>
    cases ys with
    | nil => exact ⟨rfl, rfl⟩
    | cons y ys => simp [outpointFlag] at h
  | cons x xs ih =>
    cases ys with
    | nil => simp [outpointFlag] at h
    | cons y ys =>
      simp only [List.map_cons, List.flatten_cons] at h
      obtain ⟨h1, h2⟩ := append_split h rfl
      obtain ⟨e1, e2⟩ := outpointFlag_inj h1
      obtain ⟨e3, e4⟩ := ih h2
      simp only [List.map_cons, e1, e2, e3, e4, and_self]

theorem asset_prefix {a b r s : Bytes} (ha : ValidField 33 10 11 a) (hb : ValidField 33 10 11 b)
    (e : serConf a ++ r = serConf b ++ s) : a = b ∧ r = s := by
  obtain ⟨h1, _, h3⟩ := Reads.asset.unique (assetEnc_iff.2 ⟨ha, rfl⟩) (assetEnc_iff.2 ⟨hb, rfl⟩) e
  exact ⟨h1, h3⟩

theorem value_prefix {a b r s : Bytes} (ha : ValidField 9 8 9 a) (hb : ValidField 9 8 9 b)
    (e : serConf a ++ r = serConf b ++ s) : a = b ∧ r = s := by
  obtain ⟨h1, _, h3⟩ := Reads.value.unique (valueEnc_iff.2 ⟨ha, rfl⟩) (valueEnc_iff.2 ⟨hb, rfl⟩) e
  exact ⟨h1, h3⟩

theorem assets_prefix : PrefixInj WFOut (fun o : TxOut => .ok (serConf o.nAsset ++ serConf o.nValue))
    (fun o => (o.nAsset, o.nValue)) := by
  intro x y a b r s hx hy ha hb e
  cases ha; cases hb
  rw [List.append_assoc, List.append_assoc] at e
  obtain ⟨e1, e2⟩ := asset_prefix hx.asset hy.asset e
  obtain ⟨e3, _⟩ := value_prefix hx.value hy.value e2
  simp [e1, e3]

theorem scripts_prefix : PrefixInj WFOut (fun o : TxOut => serVarBytes o.scriptPubKey) (·.scriptPubKey) :=
  fun x y a b r s hx hy ha hb e => serVarBytes_prefix _ _ a b r s hx.script hy.script ha hb e

def serProofs (w : TxInWitness) : Except PyErr Bytes := do
  let a ← serVarBytes w.issuanceAmountRangeproof
  let k ← serVarBytes w.inflationKeysRangeproof
  return a ++ k

theorem proofs_prefix : PrefixInj WFInWitness serProofs proofsView := by
  intro x y a b r s hx hy ha hb e
  simp only [serProofs, Except.bind_ok, Except.pure_ok] at ha hb
  obtain ⟨a1, h1, a2, h2, rfl⟩ := ha
  obtain ⟨b1, h3, b2, h4, rfl⟩ := hb
  rw [List.append_assoc, List.append_assoc] at e
  obtain ⟨e1, rfl⟩ := serVarBytes_prefix _ _ _ _ _ _ hx.amount hy.amount h1 h3 e
  obtain ⟨e2, rfl⟩ := serVarBytes_prefix _ _ _ _ _ _ hx.keys hy.keys h2 h4 (List.append_cancel_left e)
  exact ⟨by unfold proofsView; exact Prod.ext e1 e2, rfl⟩

theorem serProofs_ne {w : TxInWitness} {a : Bytes} (h : serProofs w = .ok a) : a ≠ [] := by
  simp only [serProofs, Except.bind_ok, Except.pure_ok] at h
  obtain ⟨s, hs, r, hr, rfl⟩ := h
  simp [serVarBytes_ne hs]

theorem zipWit_ok {α β : Type} {xs : List α} {ys : List β} {z : List (α × β)} (h : zipWit xs ys = .ok z) :
    xs.length ≤ ys.length ∧ z.map Prod.snd = ys.take xs.length := by
  induction xs generalizing ys z with
  | nil => cases h; simp
  | cons x xs ih =>
    cases ys with
    | nil => cases h
    | cons y ys =>
      simp only [zipWit, Except.map_ok] at h
      obtain ⟨z', h1, rfl⟩ := h
      obtain ⟨h2, h3⟩ := ih h1
      exact ⟨by simpa using h2, by simp [h3]⟩

theorem zipWit_exists {α β : Type} {xs : List α} {ys : List β} (h : xs.length ≤ ys.length) :
    ∃ z, zipWit xs ys = .ok z := by
  induction xs generalizing ys with
  | nil => exact ⟨[], rfl⟩
  | cons x xs ih =>
    cases ys with
    | nil => simp at h
    | cons y ys =>
      obtain ⟨z, hz⟩ := ih (ys := ys) (by simpa using h)
      exact ⟨(x, y) :: z, by simp [zipWit, hz, Except.map]⟩

theorem serN_snd {α β : Type} {f : β → Except PyErr Bytes} {z : List (α × β)} {w : Bytes}
    (h : serN (fun p : α × β => f p.2) z = .ok w) : serN f (z.map Prod.snd) = .ok w := by
  rw [serN_map]; exact h

theorem tapInputs_ok {tx : Tx} {spent : List TxOut} {q : TapInputs} (h : tapInputs tx spent = .ok q) :
    q.flags = (tx.vin.map outpointFlag).flatten ∧ serN (fun i : TxIn => serOutPoint i.prevout) tx.vin = .ok q.prevouts ∧
    serN (fun o : TxOut => .ok (serConf o.nAsset ++ serConf o.nValue)) spent = .ok q.assets ∧
    serN (fun o : TxOut => serVarBytes o.scriptPubKey) spent = .ok q.scripts ∧
    serN (fun i : TxIn => packU 4 i.nSequence) tx.vin = .ok q.sequences ∧
    q.issuances = (tx.vin.map fun i => issuanceOrZero i.assetIssuance).flatten ∧
    tx.vin.length ≤ tx.wit.vtxinwit.length ∧ serN serProofs (tx.wit.vtxinwit.take tx.vin.length) = .ok q.proofs := by
  unfold tapInputs at h
  simp only [Except.bind_ok, Except.pure_ok] at h
  obtain ⟨s, hs, p, hp, e, he, w, hw, r, hr, rfl⟩ := h
  obtain ⟨z1, z2⟩ := zipWit_ok hw
  refine ⟨rfl, hp, serN_pure _ _, hs, he, rfl, z1, ?_⟩
  rw [← z2]
  rw [serN_map, ← hr]
  rfl

theorem tap_inputs_commit {h : HashFn} {c d : TapCall} (hc : c.WF) (hd : d.WF) {q r : TapInputs}
    (hq : tapInputs c.tx c.spent = .ok q) (hr : tapInputs d.tx d.spent = .ok r)
    (key : ∀ x y, (x = q.flags ∨ x = q.prevouts ∨ x = q.assets ∨ x = q.scripts ∨ x = q.sequences ∨
        x = q.issuances ∨ x = q.proofs) → (y = r.flags ∨ y = r.prevouts ∨ y = r.assets ∨ y = r.scripts ∨ y = r.sequences ∨
        y = r.issuances ∨ y = r.proofs) → h.fn x = h.fn y → x = y)
    (hidx : c.idx = d.idx) (e : q.bytes h = r.bytes h) : TapAgreeInputs c d := by
  simp only [TapInputs.bytes, List.append_assoc] at e
  obtain ⟨k1, e1⟩ := append_split e (by simp [h.len])
  obtain ⟨k2, e2⟩ := append_split e1 (by simp [h.len])
  obtain ⟨k3, e3⟩ := append_split e2 (by simp [h.len])
  obtain ⟨k4, e4⟩ := append_split e3 (by simp [h.len])
  obtain ⟨k5, e5⟩ := append_split e4 (by simp [h.len])
  obtain ⟨k6, k7⟩ := append_split e5 (by simp [h.len])
  have f1 := key _ _ (by simp) (by simp) k1
  have f2 := key _ _ (by simp) (by simp) k2
  have f3 := key _ _ (by simp) (by simp) k3
  have f4 := key _ _ (by simp) (by simp) k4
  have f5 := key _ _ (by simp) (by simp) k5
  have f6 := key _ _ (by simp) (by simp) k6
  have f7 := key _ _ (by simp) (by simp) k7
  obtain ⟨a1, a2, a3, a4, a5, a6, a7, a8⟩ := tapInputs_ok hq
  obtain ⟨b1, b2, b3, b4, b5, b6, b7, b8⟩ := tapInputs_ok hr
  obtain ⟨g1, g2⟩ := flags_inj (a1.symm.trans (f1.trans b1))
  have g3 := serN_inj assets_prefix (fun x a _ hz => by cases hz; simp [serConf_ne]) hc.spent hd.spent a3 (f3 ▸ b3)
  have g4 := serN_inj scripts_prefix (fun x a _ hz => serVarBytes_ne hz) hc.spent hd.spent a4 (f4 ▸ b4)
  refine ⟨hidx, ?_, g2, ?_, ?_, ?_, ?_⟩
  · exact serN_inj prevouts_prefix (fun z a _ hz => by
      have := serOutPoint_len hz
      intro e; subst e; simp at this) (fun _ _ => trivial) (fun _ _ => trivial) a2 (f2 ▸ b2)
  · exact serN_inj sequences_prefix (fun z a _ hz => by
      have := packU_len hz
      intro e; subst e; simp at this) (fun _ _ => trivial) (fun _ _ => trivial) a5 (f5 ▸ b5)
  · exact issuances_inj hc.vin hd.vin g1 (a6.symm.trans (f6.trans b6))
  · have e1 : c.spent.map spentView = (c.spent.map fun o => (o.nAsset, o.nValue)).zipWith (fun p s => (p.1, p.2, s))
        (c.spent.map (·.scriptPubKey)) := by
      rw [List.zipWith_map, List.zipWith_self]; rfl
    have e2 : d.spent.map spentView = (d.spent.map fun o => (o.nAsset, o.nValue)).zipWith (fun p s => (p.1, p.2, s))
        (d.spent.map (·.scriptPubKey)) := by
      rw [List.zipWith_map, List.zipWith_self]; rfl
    rw [e1, e2, g3, g4]
  · exact serN_inj proofs_prefix (fun x a _ hz => serProofs_ne hz)
      (fun w hw => hc.inwit w (List.mem_of_mem_take hw)) (fun w hw => hd.inwit w (List.mem_of_mem_take hw)) a8 (f7 ▸ b8)

/-! ### Outputs -/

theorem tapOutputs_ok {tx : Tx} {q : TapOutputs} (h : tapOutputs tx = .ok q) :
    serN serTxOut tx.vout = .ok q.outputs ∧ tx.vout.length ≤ tx.wit.vtxoutwit.length ∧
    serN serTxOutWitness (tx.wit.vtxoutwit.take tx.vout.length) = .ok q.witnesses := by
  unfold tapOutputs at h
  simp only [Except.bind_ok, Except.pure_ok] at h
  obtain ⟨s, hs, w, hw, r, hr, rfl⟩ := h
  obtain ⟨z1, z2⟩ := zipWit_ok hw
  refine ⟨hs, z1, ?_⟩
  rw [← z2, serN_map, ← hr]

theorem tap_outputs_commit {h : HashFn} {c d : TapCall} (hc : c.WF) (hd : d.WF) {q r : TapOutputs}
    (hq : tapOutputs c.tx = .ok q) (hr : tapOutputs d.tx = .ok r)
    (key : ∀ x y, (x = q.outputs ∨ x = q.witnesses) → (y = r.outputs ∨ y = r.witnesses) → h.fn x = h.fn y → x = y)
    (e : q.bytes h = r.bytes h) : TapAgreeOutputs c d := by
  simp only [TapOutputs.bytes] at e
  obtain ⟨k1, k2⟩ := append_split e (by simp [h.len])
  have f1 := key _ _ (by simp) (by simp) k1
  have f2 := key _ _ (by simp) (by simp) k2
  obtain ⟨a1, _, a2⟩ := tapOutputs_ok hq
  obtain ⟨b1, _, b2⟩ := tapOutputs_ok hr
  have g1 := serN_inj outputs_prefix (fun _ _ _ => serTxOut_ne) hc.vout hd.vout a1 (f1 ▸ b1)
  have g2 := serN_inj outWitness_prefix (fun _ _ _ => serTxOutWitness_ne)
    (fun w hw => hc.outwit w (List.mem_of_mem_take hw)) (fun w hw => hd.outwit w (List.mem_of_mem_take hw)) a2 (f2 ▸ b2)
  exact ⟨by simpa using g1, by simpa using g2⟩

theorem tapSingle_ok {tx : Tx} {i : Nat} {q : TapOutputs} (h : tapSingle tx i = .ok q) :
    ∃ o w, tx.vout[i]? = some o ∧ tx.wit.vtxoutwit[i]? = some w ∧ serTxOut o = .ok q.outputs ∧
      serTxOutWitness w = .ok q.witnesses := by
  unfold tapSingle at h
  split at h
  · cases h
  · simp only [Except.bind_ok, Except.pure_ok, pyGet_nat_ok] at h
    obtain ⟨o, ho, s, hs, w, hw, r, hr, rfl⟩ := h
    exact ⟨o, w, ho, hw, hs, hr⟩

theorem tap_single_commit {h : HashFn} {c d : TapCall} (hc : c.WF) (hd : d.WF) {q r : TapOutputs}
    (hq : tapSingle c.tx c.idx = .ok q) (hr : tapSingle d.tx d.idx = .ok r)
    (key : ∀ x y, (x = q.outputs ∨ x = q.witnesses) → (y = r.outputs ∨ y = r.witnesses) → h.fn x = h.fn y → x = y)
    (e : q.bytes h = r.bytes h) : TapAgreeSingle c d := by
  simp only [TapOutputs.bytes] at e
  obtain ⟨k1, k2⟩ := append_split e (by simp [h.len])
  have f1 := key _ _ (by simp) (by simp) k1
  have f2 := key _ _ (by simp) (by simp) k2
  obtain ⟨o, w, a1, a2, a3, a4⟩ := tapSingle_ok hq
  obtain ⟨o', w', b1, b2, b3, b4⟩ := tapSingle_ok hr
  have g1 := (outputs_prefix o o' _ _ [] [] (hc.vout _ (List.mem_of_getElem? a1)) (hd.vout _ (List.mem_of_getElem? b1))
    a3 (f1 ▸ b3) rfl).1
  have g2 := (outWitness_prefix w w' _ _ [] [] (hc.outwit _ (List.mem_of_getElem? a2)) (hd.outwit _ (List.mem_of_getElem? b2))
    a4 (f2 ▸ b4) rfl).1
  exact ⟨⟨o, a1, by rw [b1]; exact congrArg some g1.symm⟩, ⟨w, a2, by rw [b2]; exact congrArg some g2.symm⟩⟩

/-! ### C16 -/

theorem acp_iff {c : TapCall} : c.args.ht.acp = true ↔ c.acp := by
  unfold TapArgs.ht TapCall.acp
  cases c.args.hashtype <;> simp

theorem all_iff {c : TapCall} : (c.args.ht.out == .all) = true ↔ c.all := by
  unfold TapArgs.ht TapCall.all
  cases c.args.hashtype <;> simp

theorem single_iff {c : TapCall} : (c.args.ht.out == .single) = true ↔ c.single := by
  unfold TapArgs.ht TapCall.single
  cases c.args.hashtype <;> simp

/-- The two calls' output parts, whatever the input type. -/
theorem tap_outs {h : HashFn} {c d : TapCall} (hc : c.WF) (hd : d.WF) {dig : Bytes}
    (r : TapRun h c dig) (s : TapRun h d dig) (hcol : ¬ TapCollision h c d) :
    (c.all → TapAgreeOutputs c d) ∧ (c.single → TapAgreeSingle c d) := by
  obtain ⟨hb, _, _, eo, es, _⟩ := tap_header r s hcol
  have hht' : c.args.ht = d.args.ht := by unfold TapArgs.ht; rw [hb.hashtype]
  obtain ⟨_, p2, _, p4⟩ := tapParts_ok r.hparts
  obtain ⟨_, q2, _, q4⟩ := tapParts_ok s.hparts
  rw [← hht'] at q2 q4
  constructor
  · intro ha
    rcases optPart_ok p2 with ⟨_, x, hx, hx'⟩ | ⟨hf, _⟩
    · rcases optPart_ok q2 with ⟨_, y, hy, hy'⟩ | ⟨hf, _⟩
      · refine tap_outputs_commit hc hd hx hy ?_ (by rw [hx', hy'] at eo; exact eo)
        intro a b ha hb e
        exact noColl hcol ⟨_, _, _, r.hcheck, r.hparts, r.hmsg, Or.inr (Or.inl ⟨x, hx', ha⟩)⟩
          ⟨_, _, _, s.hcheck, s.hparts, s.hmsg, Or.inr (Or.inl ⟨y, hy', hb⟩)⟩ e
      · rw [all_iff.2 ha] at hf; cases hf
    · rw [all_iff.2 ha] at hf; cases hf
  · intro ha
    rcases optPart_ok p4 with ⟨_, x, hx, hx'⟩ | ⟨hf, _⟩
    · rcases optPart_ok q4 with ⟨_, y, hy, hy'⟩ | ⟨hf, _⟩
      · refine tap_single_commit hc hd hx hy ?_ (by rw [hx', hy'] at es; exact es)
        intro a b ha hb e
        exact noColl hcol ⟨_, _, _, r.hcheck, r.hparts, r.hmsg, Or.inr (Or.inr (Or.inl ⟨x, hx', ha⟩))⟩
          ⟨_, _, _, s.hcheck, s.hparts, s.hmsg, Or.inr (Or.inr (Or.inl ⟨y, hy', hb⟩))⟩ e
      · rw [single_iff.2 ha] at hf; cases hf
    · rw [single_iff.2 ha] at hf; cases hf

/-- C16: without ANYONECANPAY, two calls with the same hash agree on everything the hash type
covers, unless a collision among the hashed strings is exhibited.  Under ALL or the default
type that includes every output and output witness. -/
theorem C16_tap_commits {h : HashFn} {c d : TapCall} (hc : c.WF) (hd : d.WF) (hacp : ¬ c.acp) {dig : Bytes}
    (h1 : c.digest h = .ok dig) (h2 : d.digest h = .ok dig) :
    (TapAgreeBase c d ∧ TapAgreeInputs c d ∧ (c.all → TapAgreeOutputs c d) ∧ (c.single → TapAgreeSingle c d)) ∨
    TapCollision h c d := by
  by_cases hcol : TapCollision h c d
  · exact Or.inr hcol
  left
  obtain ⟨r⟩ := tapRun h1
  obtain ⟨s⟩ := tapRun h2
  obtain ⟨hb, _, ei, eo, es, ex⟩ := tap_header r s hcol
  have hht' : c.args.ht = d.args.ht := by unfold TapArgs.ht; rw [hb.hashtype]
  obtain ⟨p1, p2, p3, p4⟩ := tapParts_ok r.hparts
  obtain ⟨q1, q2, q3, q4⟩ := tapParts_ok s.hparts
  rw [← hht'] at q1 q3
  have ha : c.args.ht.acp = false := (not_true_iff_false acp_iff).2 hacp
  rw [ha] at p1 q1 p3 q3
  have hs1 : r.p.signed = none := by
    rcases optPart_ok p3 with ⟨hf, _⟩ | ⟨_, h⟩
    · cases hf
    · exact h
  have hs2 : s.p.signed = none := by
    rcases optPart_ok q3 with ⟨hf, _⟩ | ⟨_, h⟩
    · cases hf
    · exact h
  rw [hs1, hs2] at ex
  have hx := r.hx
  have hy := s.hx
  unfold tapIdx at hx hy
  rw [ha] at hx
  rw [← hht', ha] at hy
  have hidx : c.idx = d.idx := packU_inj (k := 4) (by simpa using hx) (by rw [show r.x = s.x from ex]; simpa using hy)
  refine ⟨hb, ?_, tap_outs hc hd r s hcol⟩
  rcases optPart_ok p1 with ⟨_, x, hx, hx'⟩ | ⟨hf, _⟩
  · rcases optPart_ok q1 with ⟨_, y, hy, hy'⟩ | ⟨hf, _⟩
    · refine tap_inputs_commit hc hd hx hy ?_ hidx (by rw [hx', hy'] at ei; exact ei)
      intro a b ha hb e
      exact noColl hcol ⟨_, _, _, r.hcheck, r.hparts, r.hmsg, Or.inl ⟨x, hx', ha⟩⟩
        ⟨_, _, _, s.hcheck, s.hparts, s.hmsg, Or.inl ⟨y, hy', hb⟩⟩ e
    · cases hf
  · cases hf

/-! ### C17 -/

/-- C17 as one would want it: under ANYONECANPAY the script of the spent output … -/
def C17_script_statement : Prop :=
  ∀ (h : HashFn) (c d : TapCall) (dig : Bytes), c.WF → d.WF → c.acp → c.digest h = .ok dig → d.digest h = .ok dig →
    (c.spent[c.idx]?).map (·.scriptPubKey) = (d.spent[d.idx]?).map (·.scriptPubKey) ∨ TapCollision h c d
/-- … and the rangeproofs of the signed input are committed to. -/
def C17_proofs_statement : Prop :=
  ∀ (h : HashFn) (c d : TapCall) (dig : Bytes), c.WF → d.WF → c.acp → c.digest h = .ok dig → d.digest h = .ok dig →
    (c.tx.wit.vtxinwit[c.idx]?).map proofsView = (d.tx.wit.vtxinwit[d.idx]?).map proofsView ∨ TapCollision h c d

theorem tapSigned_ok {tx : Tx} {k : Nat} {spent : List TxOut} {q : TapSigned} (h : tapSigned tx k spent = .ok q) :
    ∃ i o s b r, tx.vin[k]? = some i ∧ serOutPoint i.prevout = .ok o ∧ spent[k]? = some s ∧
      packU 4 i.nSequence = .ok b ∧ tapSignedIssuance tx k i.assetIssuance = .ok r ∧
      q = ⟨outpointFlag i ++ (o ++ (serConf s.nAsset ++ (serConf s.nValue ++ (s.scriptPubKey ++ (b ++ r.1))))), r.2⟩ := by
  unfold tapSigned at h
  simp only [Except.bind_ok, Except.pure_ok, pyGet_nat_ok] at h
  obtain ⟨i, hi, o, ho, s, hs, b, hb, r, hr, rfl⟩ := h
  exact ⟨i, o, s, b, r, hi, ho, hs, hb, hr, by simp only [List.append_assoc]⟩

theorem tapSignedIssuance_ok {tx : Tx} {k : Nat} {i : Issuance} {r : Bytes × Option Bytes}
    (h : tapSignedIssuance tx k i = .ok r) :
    (i.isNull = true ∧ r = ([0], none)) ∨
    (i.isNull = false ∧ ∃ w, tx.wit.vtxinwit[k]? = some w ∧
      r = (serIssuance i, some (w.issuanceAmountRangeproof ++ w.inflationKeysRangeproof))) := by
  unfold tapSignedIssuance at h
  cases hn : i.isNull
  · right
    rw [hn] at h
    simp only [Bool.false_eq_true, if_false, Except.bind_ok, Except.pure_ok, pyGet_nat_ok] at h
    obtain ⟨w, hw, rfl⟩ := h
    exact ⟨rfl, w, hw, rfl⟩
  · left
    rw [hn] at h
    exact ⟨rfl, (Except.ok.inj h).symm⟩

/-- C17 under ANYONECANPAY: the signed input, what it spends and its rangeproofs are committed
to, provided that, *if the signed input carries an issuance*, the spent scripts have the same
length and so have the amount rangeproofs.  Missing: those two lengths are not written by the
code (`C17_script_statement_false`, `C17_proofs_statement_false`); without an issuance nothing
is missing. -/
theorem C17_tap_acp_commits_partial {h : HashFn} {c d : TapCall} (hc : c.WF) (hd : d.WF) (hacp : c.acp) {dig : Bytes}
    (h1 : c.digest h = .ok dig) (h2 : d.digest h = .ok dig)
    (hlen : ∀ i s t, c.tx.vin[c.idx]? = some i → ¬ NoIssue i.assetIssuance →
      c.spent[c.idx]? = some s → d.spent[d.idx]? = some t → s.scriptPubKey.length = t.scriptPubKey.length)
    (hlen' : ∀ i w x, c.tx.vin[c.idx]? = some i → ¬ NoIssue i.assetIssuance →
      c.tx.wit.vtxinwit[c.idx]? = some w → d.tx.wit.vtxinwit[d.idx]? = some x →
      w.issuanceAmountRangeproof.length = x.issuanceAmountRangeproof.length) :
    (TapAgreeBase c d ∧ TapAgreeSigned c d ∧ (c.all → TapAgreeOutputs c d) ∧ (c.single → TapAgreeSingle c d)) ∨
    TapCollision h c d := by
  by_cases hcol : TapCollision h c d
  · exact Or.inr hcol
  left
  obtain ⟨r⟩ := tapRun h1
  obtain ⟨s⟩ := tapRun h2
  obtain ⟨hb, _, _, _, _, ex⟩ := tap_header r s hcol
  refine ⟨hb, ?_, tap_outs hc hd r s hcol⟩
  have hht' : c.args.ht = d.args.ht := by unfold TapArgs.ht; rw [hb.hashtype]
  obtain ⟨_, _, p3, _⟩ := tapParts_ok r.hparts
  obtain ⟨_, _, q3, _⟩ := tapParts_ok s.hparts
  rw [← hht'] at q3
  have ha : c.args.ht.acp = true := acp_iff.2 hacp
  rw [ha] at p3 q3
  have hx := r.hx
  have hy := s.hx
  unfold tapIdx at hx hy
  rw [ha] at hx
  rw [← hht', ha] at hy
  have hx : r.x = [] := (Except.ok.inj hx).symm
  have hy : s.x = [] := (Except.ok.inj hy).symm
  rw [hx, hy, List.append_nil, List.append_nil] at ex
  rcases optPart_ok p3 with ⟨_, S, hS, hS'⟩ | ⟨hf, _⟩
  rotate_left
  · cases hf
  rcases optPart_ok q3 with ⟨_, T, hT, hT'⟩ | ⟨hf, _⟩
  rotate_left
  · cases hf
  rw [hS', hT'] at ex
  obtain ⟨i, o, u, b, e, a1, a2, a3, a4, a5, rfl⟩ := tapSigned_ok hS
  obtain ⟨j, o', u', b', e', b1, b2, b3, b4, b5, rfl⟩ := tapSigned_ok hT
  have wi := hc.vin _ (List.mem_of_getElem? a1)
  have wj := hd.vin _ (List.mem_of_getElem? b1)
  have wu := hc.spent _ (List.mem_of_getElem? a3)
  have wu' := hd.spent _ (List.mem_of_getElem? b3)
  simp only [optBytes, TapSigned.bytes, List.append_assoc] at ex
  obtain ⟨k1, ex⟩ := append_split ex rfl
  obtain ⟨en, ep⟩ := outpointFlag_inj k1
  obtain ⟨k2, ex⟩ := append_split ex (by rw [serOutPoint_len a2, serOutPoint_len b2])
  obtain ⟨k3, ex⟩ := asset_prefix wu.asset wu'.asset ex
  obtain ⟨k4, ex⟩ := value_prefix wu.value wu'.value ex
  have hprev : i.prevout = j.prevout := serOutPoint_inj a2 (k2 ▸ b2)
  have hl1 := packU_len a4
  have hl2 := packU_len b4
  rcases tapSignedIssuance_ok a5 with ⟨n1, rfl⟩ | ⟨n1, w, hw, rfl⟩
  · rcases tapSignedIssuance_ok b5 with ⟨n2, rfl⟩ | ⟨n2, _⟩
    rotate_left
    · rw [n1, n2] at en; cases en
    obtain ⟨k5, ex⟩ := List.append_inj' ex (by simp [hl1, hl2])
    obtain ⟨k6, ex⟩ := append_split ex (by rw [hl1, hl2])
    refine ⟨⟨i, j, a1, b1, hprev, ep, packU_inj a4 (k6 ▸ b4), ?_⟩, ⟨u, u', a3, b3, ?_⟩, ?_⟩
    · rw [wi.null (Issuance.isNull_iff.1 n1), wj.null (Issuance.isNull_iff.1 n2)]
    · simp only [spentView, k3, k4, k5]
    · intro i' hi' hne
      rw [a1] at hi'
      cases hi'
      exact absurd (Issuance.isNull_iff.1 n1) hne
  · rcases tapSignedIssuance_ok b5 with ⟨n2, _⟩ | ⟨n2, x, hx, rfl⟩
    · rw [n1, n2] at en; cases en
    have hne := Issuance.isNull_false.1 n1
    obtain ⟨k5, ex⟩ := append_split ex (hlen i u u' a1 hne a3 b3)
    obtain ⟨k6, ex⟩ := append_split ex (by rw [hl1, hl2])
    obtain ⟨k7, k8⟩ := serIssuance_prefix wi wj ex
    have k9 := noColl hcol
      ⟨_, _, _, r.hcheck, r.hparts, r.hmsg, Or.inr (Or.inr (Or.inr (Or.inl ⟨_, hS', rfl⟩)))⟩
      ⟨_, _, _, s.hcheck, s.hparts, s.hmsg, Or.inr (Or.inr (Or.inr (Or.inl ⟨_, hT', rfl⟩)))⟩ k8
    obtain ⟨k10, k11⟩ := append_split k9 (hlen' i w x a1 hne hw hx)
    refine ⟨⟨i, j, a1, b1, hprev, ep, packU_inj a4 (k6 ▸ b4), k7⟩, ⟨u, u', a3, b3, ?_⟩, ?_⟩
    · simp only [spentView, k3, k4, k5]
    · intro i' hi' _
      exact ⟨w, x, hw, hx, by simp only [proofsView, k10, k11]⟩

/-- A hash function that tells short strings from long ones. -/
def lenHash : HashFn := ⟨fun x => List.replicate 32 (if x.length < 10 then 0 else 1), fun _ => by simp⟩

def acpArgs : TapArgs := { hashtype := some ⟨.none, true⟩, genesisHash := List.replicate 32 6 }

/-- One input with an issuance, NONE|ANYONECANPAY. -/
def acpCall (seq : Nat) (iss : Issuance) (script : Bytes) (amt keys : Bytes) : TapCall where
  tx := { nVersion := 2, vin := [{ prevout := ⟨List.replicate 32 5, 3⟩, nSequence := seq, assetIssuance := iss }],
          vout := [], nLockTime := 0,
          wit := ⟨[{ issuanceAmountRangeproof := amt, inflationKeysRangeproof := keys }], []⟩ }
  idx := 0
  spent := [{ nValue := [1, 0, 0, 0, 0, 0, 0, 0, 9], nAsset := 1 :: List.replicate 32 2, scriptPubKey := script }]
  args := acpArgs

theorem acpCall_wf {seq : Nat} {iss : Issuance} {script amt keys : Bytes} (h1 : WFIssuance iss)
    (h2 : script.length ≤ maxItem) (h3 : amt.length ≤ maxItem) (h4 : keys.length ≤ maxItem) :
    (acpCall seq iss script amt keys).WF := by
  refine ⟨?_, ?_, ?_, ?_, ?_⟩
  · intro i hi
    simp only [acpCall, List.mem_cons, List.not_mem_nil, or_false] at hi
    subst hi; exact h1
  · intro o ho; cases ho
  · intro o ho
    simp only [acpCall, List.mem_cons, List.not_mem_nil, or_false] at ho
    subst ho
    exact ⟨Or.inr (Or.inl ⟨rfl, rfl⟩), Or.inr (Or.inl ⟨rfl, rfl⟩), Or.inl rfl, h2⟩
  · intro w hw
    simp only [acpCall, List.mem_cons, List.not_mem_nil, or_false] at hw
    subst hw
    exact ⟨h3, h4, ⟨by simp, by simp⟩, ⟨by simp, by simp⟩⟩
  · intro o ho; cases ho

theorem acpCall_acp (seq : Nat) (iss : Issuance) (script amt keys : Bytes) : (acpCall seq iss script amt keys).acp :=
  ⟨⟨.none, true⟩, rfl, rfl⟩

/-- The hash is a function of the signed part. -/
theorem acpCall_congr (h : HashFn) {s1 s2 : Nat} {i1 i2 : Issuance} {c1 c2 a1 a2 k1 k2 : Bytes}
    (e : tapSigned (acpCall s1 i1 c1 a1 k1).tx 0 (acpCall s1 i1 c1 a1 k1).spent =
      tapSigned (acpCall s2 i2 c2 a2 k2).tx 0 (acpCall s2 i2 c2 a2 k2).spent) :
    (acpCall s1 i1 c1 a1 k1).digest h = (acpCall s2 i2 c2 a2 k2).digest h := by
  have hp : tapParts (acpCall s1 i1 c1 a1 k1).tx 0 (acpCall s1 i1 c1 a1 k1).spent ⟨.none, true⟩ =
      tapParts (acpCall s2 i2 c2 a2 k2).tx 0 (acpCall s2 i2 c2 a2 k2).spent ⟨.none, true⟩ := by
    unfold tapParts
    rw [e]; rfl
  unfold TapCall.digest sighashSchnorr
  have hc1 : tapCheck (acpCall s1 i1 c1 a1 k1).tx ((acpCall s1 i1 c1 a1 k1).idx : Nat) (acpCall s1 i1 c1 a1 k1).spent
    (acpCall s1 i1 c1 a1 k1).args = .ok 0 := rfl
  have hc2 : tapCheck (acpCall s2 i2 c2 a2 k2).tx ((acpCall s2 i2 c2 a2 k2).idx : Nat) (acpCall s2 i2 c2 a2 k2).spent
    (acpCall s2 i2 c2 a2 k2).args = .ok 0 := rfl
  rw [hc1, hc2, ok_bind, ok_bind]
  have e0 : ∀ s i c a k, tapParts (acpCall s i c a k).tx ((acpCall s i c a k).idx : Int).toNat (acpCall s i c a k).spent
      (acpCall s i c a k).args.ht = tapParts (acpCall s i c a k).tx 0 (acpCall s i c a k).spent ⟨.none, true⟩ :=
    fun _ _ _ _ _ => rfl
  rw [e0, e0, hp]
  rfl

/-- With `lenHash`, two such calls with the same signed part exhibit no collision. -/
theorem acpCall_nocoll {s1 s2 : Nat} {i1 i2 : Issuance} {c1 c2 a1 a2 k1 k2 : Bytes} {q : TapSigned} {x0 : Bytes}
    (e1 : tapSigned (acpCall s1 i1 c1 a1 k1).tx 0 (acpCall s1 i1 c1 a1 k1).spent = .ok q)
    (e2 : tapSigned (acpCall s2 i2 c2 a2 k2).tx 0 (acpCall s2 i2 c2 a2 k2).spent = .ok q)
    (hq : q.proofs = some x0) (hx0 : x0.length < 10) :
    ¬ TapCollision lenHash (acpCall s1 i1 c1 a1 k1) (acpCall s2 i2 c2 a2 k2) := by
  have parts : ∀ s i c a k, tapSigned (acpCall s i c a k).tx 0 (acpCall s i c a k).spent = .ok q →
      ∀ p, tapParts (acpCall s i c a k).tx (acpCall s i c a k).idx (acpCall s i c a k).spent
        (acpCall s i c a k).args.ht = .ok p → p = ⟨none, none, some q, none⟩ := by
    intro s i c a k e p hp
    obtain ⟨p1, p2, p3, p4⟩ := tapParts_ok hp
    cases p
    simp only [TapParts.mk.injEq]
    refine ⟨(Except.ok.inj p1).symm, (Except.ok.inj p2).symm, ?_, (Except.ok.inj p4).symm⟩
    have p3' : (tapSigned (acpCall s i c a k).tx 0 (acpCall s i c a k).spent).map some = .ok _ := p3
    rw [e] at p3'
    exact (Except.ok.inj p3').symm
  have hashed : ∀ s i c a k, tapSigned (acpCall s i c a k).tx 0 (acpCall s i c a k).spent = .ok q →
      ∀ x, TapHashed lenHash (acpCall s i c a k) x → x = x0 ∨
        ∃ m, tapMessage lenHash (acpCall 0 {} [] [] []).tx 0 acpArgs 0 ⟨none, none, some q, none⟩ = .ok m ∧
          x = taggedPreimage lenHash tapSighashTag (acpArgs.genesisHash ++ acpArgs.genesisHash ++ m) := by
    intro s i c a k e x ⟨ext, p, m, hc, hp, hm, hx⟩
    have hpe := parts s i c a k e p hp
    subst hpe
    have hext : ext = 0 := by
      rcases (tapCheck_ok.1 hc).2.2.2.2.2 with ⟨_, h⟩ | ⟨h, _⟩
      · exact h
      · cases h
    subst hext
    rcases hx with ⟨_, h, _⟩ | ⟨_, h, _⟩ | ⟨_, h, _⟩ | ⟨q', h, hq'⟩ | h
    · cases h
    · cases h
    · cases h
    · left
      cases h
      rw [hq] at hq'
      exact (Option.some.inj hq').symm
    · exact Or.inr ⟨m, hm, h⟩
  have long : ∀ m, ¬ (taggedPreimage lenHash tapSighashTag (acpArgs.genesisHash ++ acpArgs.genesisHash ++ m)).length < 10 := by
    intro m
    simp only [taggedPreimage, List.length_append, lenHash.len]
    omega
  rintro ⟨x, y, hx, hy, hne, heq⟩
  rcases hashed _ _ _ _ _ e1 x hx with rfl | ⟨m, hm, rfl⟩ <;> rcases hashed _ _ _ _ _ e2 y hy with rfl | ⟨m', hm', rfl⟩
  · exact hne rfl
  · have := congrArg List.head? heq
    simp [lenHash, hx0, taggedPreimage, List.replicate_succ] at this
  · have := congrArg List.head? heq
    simp [lenHash, hx0, taggedPreimage, List.replicate_succ] at this
  · rw [hm] at hm'
    cases hm'
    exact hne rfl

def proofIss : Issuance := ⟨zero32, List.replicate 32 7, [1, 0, 0, 0, 0, 0, 0, 0, 5], []⟩

theorem proofIss_wf : WFIssuance proofIss :=
  ⟨rfl, rfl, Or.inr (Or.inl ⟨rfl, rfl⟩), Or.inl rfl, fun h => absurd h.1 (by decide)⟩

/-- C17: rangeproofs `([1], [2])` and `([1, 2], [])` have the same hash under ANYONECANPAY,
whatever the hash function. -/
theorem C17_proofs_ambiguous (h : HashFn) : ∃ dig,
    (acpCall 7 proofIss [0x51] [1] [2]).digest h = .ok dig ∧ (acpCall 7 proofIss [0x51] [1, 2] []).digest h = .ok dig := by
  have e : (acpCall 7 proofIss [0x51] [1] [2]).digest h = (acpCall 7 proofIss [0x51] [1, 2] []).digest h :=
    acpCall_congr h (by decide +kernel)
  have : ∃ dig, (acpCall 7 proofIss [0x51] [1] [2]).digest h = .ok dig := ⟨_, rfl⟩
  obtain ⟨dig, hd⟩ := this
  exact ⟨dig, hd, e ▸ hd⟩

theorem C17_proofs_statement_false : ¬ C17_proofs_statement := by
  intro hall
  obtain ⟨dig, h1, h2⟩ := C17_proofs_ambiguous lenHash
  rcases hall lenHash _ _ dig (acpCall_wf proofIss_wf (by decide) (by decide) (by decide))
    (acpCall_wf proofIss_wf (by decide) (by decide) (by decide)) (acpCall_acp _ _ _ _ _) h1 h2 with h | h
  · exact absurd h (by decide)
  · exact acpCall_nocoll (q := ⟨_, some [1, 2]⟩) (x0 := [1, 2]) rfl (by decide +kernel) rfl (by decide) h

/-- Two issuances and scripts with the same concatenation. -/
def scriptIss1 : Issuance :=
  ⟨List.replicate 32 7, List.replicate 24 7 ++ [1, 0, 0, 0, 0, 0, 0, 3], [1, 1, 0, 0, 0, 0, 0, 0, 5], []⟩
def scriptIss2 : Issuance :=
  ⟨List.replicate 4 0 ++ [7, 0, 0, 0] ++ List.replicate 24 7, List.replicate 32 7, [1, 0, 0, 0, 0, 0, 0, 3, 1],
    [1, 0, 0, 0, 0, 0, 0, 5, 0]⟩

theorem scriptIss1_wf : WFIssuance scriptIss1 :=
  ⟨rfl, rfl, Or.inr (Or.inl ⟨rfl, rfl⟩), Or.inl rfl, fun h => absurd h.1 (by decide)⟩
theorem scriptIss2_wf : WFIssuance scriptIss2 :=
  ⟨rfl, rfl, Or.inr (Or.inl ⟨rfl, rfl⟩), Or.inr (Or.inl ⟨rfl, rfl⟩), fun h => absurd h.1 (by decide)⟩

/-- C17: spending the script `51 00000000 00000000` and spending the script `51` (with other
sequence number and issuance) have the same hash under ANYONECANPAY, whatever the hash function. -/
theorem C17_script_ambiguous (h : HashFn) : ∃ dig,
    (acpCall 7 scriptIss1 [0x51, 0, 0, 0, 0, 0, 0, 0, 0] [] []).digest h = .ok dig ∧
    (acpCall 0 scriptIss2 [0x51] [] []).digest h = .ok dig := by
  have e : (acpCall 7 scriptIss1 [0x51, 0, 0, 0, 0, 0, 0, 0, 0] [] []).digest h =
      (acpCall 0 scriptIss2 [0x51] [] []).digest h := acpCall_congr h (by decide +kernel)
  have : ∃ dig, (acpCall 0 scriptIss2 [0x51] [] []).digest h = .ok dig := ⟨_, rfl⟩
  obtain ⟨dig, hd⟩ := this
  exact ⟨dig, e ▸ hd, hd⟩

theorem C17_script_statement_false : ¬ C17_script_statement := by
  intro hall
  obtain ⟨dig, h1, h2⟩ := C17_script_ambiguous lenHash
  rcases hall lenHash _ _ dig (acpCall_wf scriptIss1_wf (by decide) (by decide) (by decide))
    (acpCall_wf scriptIss2_wf (by decide) (by decide) (by decide)) (acpCall_acp _ _ _ _ _) h1 h2 with h | h
  · exact absurd h (by decide)
  · exact acpCall_nocoll (q := ⟨_, some []⟩) (x0 := []) rfl (by decide +kernel) rfl (by decide) h

end Verif
