import Verif.Spec.AssetSwap
import Verif.Props.Joint
import Verif.Props.SighashBase
import Verif.Props.SpendAddr
import Verif.Props.BlindWire
/-
C71: examples/asset-atomic-swap.py.
-/
namespace Verif.AssetSwap
open Verif Spec CrossSwap SpendAddr

/-! ### Signing -/

theorem _root_.Verif.Spec.SameBut.refl (p : Nat → Prop) (t : Tx) : SameBut p t t := ⟨rfl, rfl, rfl, rfl, rfl, fun _ _ => ⟨rfl, rfl⟩⟩

theorem _root_.Verif.Spec.SameBut.trans {p q r : Nat → Prop} {a b c : Tx} (h : SameBut p a b) (g : SameBut q b c) (hp : ∀ i, p i → r i) (hq : ∀ i, q i → r i) :
    SameBut r a c :=
  ⟨g.version.trans h.version, g.lockTime.trans h.lockTime, g.inputs.trans h.inputs, g.outputs.trans h.outputs,
    g.outputWitness.trans h.outputWitness, fun i hi =>
      ⟨(g.others i fun x => hi (hq i x)).1.trans (h.others i fun x => hi (hp i x)).1,
       (g.others i fun x => hi (hq i x)).2.trans (h.others i fun x => hi (hp i x)).2⟩⟩

theorem _root_.Verif.Spec.SameBut.view {α : Type} {p : Nat → Prop} {t t' : Tx} (h : SameBut p t t') (f : TxIn → α) (g : OutPoint × Nat × Issuance × Bool → α)
    (hf : ∀ i, f i = g (inputView i)) : t'.vin.map f = t.vin.map f := by
  have : ∀ l : List TxIn, l.map f = (l.map inputView).map g := by
    intro l
    rw [List.map_map]
    apply List.map_congr_left
    intro i _
    exact hf i
  rw [this, this, h.inputs]

theorem _root_.Verif.Spec.SameBut.base {p : Nat → Prop} {t t' : Tx} (h : SameBut p t t') (H : HashFn) (code : Bytes) (i ht : Nat) :
    sighashBase H code t' i ht = sighashBase H code t i ht :=
  C19_free H code t t' i ht h.version h.lockTime h.outputs
    (h.view (fun i => { i with scriptSig := [] }) (fun x => ⟨x.1, [], x.2.1, x.2.2.1, x.2.2.2⟩) (fun _ => rfl))

theorem _root_.Verif.Spec.SameBut.v0 {p : Nat → Prop} {t t' : Tx} (h : SameBut p t t') (H : HashFn) (code : Bytes) (i ht : Nat) (v : Option Bytes) :
    sighashV0 H code t' i ht v = sighashV0 H code t i ht v := by
  have hs := h.view signedView (fun x => (x.1, x.2.1, x.2.2.1)) (fun _ => rfl)
  apply C14_free
  · exact h.version
  · exact h.lockTime
  · have := congrArg (fun l : List (OutPoint × Nat × Issuance) => l[i]?) hs
    simpa using this
  · intro _; exact h.view spendView (fun x => (x.1, x.2.2.1)) (fun _ => rfl)
  · intro _ _; exact h.view _ (fun x => x.2.1) (fun _ => rfl)
  · intro _; exact h.outputs
  · intro _; rw [h.outputs]

/-- A signed input stays signed when others are. -/
theorem _root_.Verif.Spec.SameBut.spends {p : Nat → Prop} {t t' : Tx} (h : SameBut p t t') {E : Env} {W : World} {u : Utxo} {i : Nat} (hi : ¬ p i)
    (hs : Spends E W u t i) : Spends E W u t' i := by
  obtain ⟨value, ha, hu⟩ := hs
  obtain ⟨h1, h2⟩ := h.others i hi
  refine ⟨value, ha, ?_⟩
  generalize u.addr.kind = k at hu
  cases hu with
  | p2pkh x digest hx hd hp => exact .p2pkh x digest (by rw [h1, hx]) (by rw [h.base, hd]) hp
  | p2wpkh x digest hx hd hp hw => exact .p2wpkh x digest (by rw [h1, hx]) (by rw [h.v0, hd]) hp (by rw [h2, hw])
  | p2sh x digest inner hx hd hp hq hw => exact .p2sh x digest inner (by rw [h1, hx]) (by rw [h.v0, hd]) hp hq (by rw [h2, hw])

theorem put_ok {t t' : Tx} {i : Nat} {u : Bytes × Option TxInWitness} (h : put t i u = .ok t') :
    SameBut (· = i) t t' ∧ (∃ x, t'.vin[i]? = some x ∧ x.scriptSig = u.1) ∧ ∀ w, u.2 = some w → t'.inWit i = w := by
  unfold put at h
  split at h
  · cases h
  · rename_i hl
    have hi : i < t.vin.length := by omega
    have hview : (t.vin.modify i fun x => { x with scriptSig := u.1 }).map inputView = t.vin.map inputView := by
      apply List.ext_getElem?
      intro k
      rw [List.getElem?_map, List.getElem?_map, List.getElem?_modify, Option.map_eq_map, Option.map_map]
      congr 1
      funext x
      simp only [Function.comp_apply]
      split <;> rfl
    have hother : ∀ k, k ≠ i → (t.vin.modify i fun x => { x with scriptSig := u.1 })[k]? = t.vin[k]? := by
      intro k hk
      rw [List.getElem?_modify]
      simp only [if_neg (fun e : i = k => hk e.symm)]
      cases t.vin[k]? <;> rfl
    have hself : (t.vin.modify i fun x => { x with scriptSig := u.1 })[i]? = some { t.vin[i] with scriptSig := u.1 } := by
      rw [List.getElem?_modify, List.getElem?_eq_getElem hi]
      simp
    dsimp only at h
    split at h
    · rename_i hn
      cases h
      refine ⟨⟨rfl, rfl, hview, rfl, rfl, fun k hk => ⟨hother k hk, rfl⟩⟩, ⟨_, hself, rfl⟩, ?_⟩
      intro w hw
      rw [hn] at hw
      cases hw
    · rename_i w hn
      split at h
      · cases h
      · rename_i hwl
        cases h
        refine ⟨⟨rfl, rfl, hview, rfl, rfl, fun k hk => ⟨hother k hk, ?_⟩⟩, ⟨_, hself, rfl⟩, ?_⟩
        · unfold Tx.inWit
          dsimp only
          rw [List.getElem?_set_ne (fun e => hk e.symm)]
        · intro w' hw
          rw [hn] at hw
          cases hw
          unfold Tx.inWit
          dsimp only
          rw [List.getElem?_set_self (by simpa using hwl)]
          rfl

/-- Sizes of hashes, keys and signatures. -/
structure Sizes (E : Env) (W : World) : Prop where
  hash : ∀ b, (W.hash160 b).length = 20
  signature : ∀ k d, (W.sign k d).length ≤ 72
  pub : ∀ k : Bytes, k.length = 32 → (E.z.pubOf k).length ≤ 33

/-- What the node told is plausible. -/
structure UtxoOk (u : Utxo) : Prop where
  nonneg : 0 ≤ u.amount
  money : u.amount ≤ 21 * 10 ^ 14
  hash : u.prevout.hash.length = 32
  index : u.prevout.n < 2 ^ 32
  key : u.key.length = 32

theorem amount_ok {u : Utxo} (hu : UtxoOk u) {v : Bytes} (h : u.signedAmount = .ok v) : Amount u v := by
  unfold Utxo.signedAmount at h
  split at h
  · rename_i c hc
    unfold confNew at h
    split at h
    · cases h; exact .inl hc
    · cases h
  · rename_i hc
    have h1 := hu.nonneg
    have h2 := hu.money
    refine .inr ⟨hc, amount_bytes (by omega) ?_⟩
    rw [show ((u.amount.toNat : Nat) : Int) = u.amount by omega]
    exact h

theorem parse_push {b s : Bytes} {f : Nat} (h : b.length ≤ 75) :
    Interp.parseFuel (f + 1) (pushData b ++ s) = (Interp.parseFuel f s).map (Interp.Op.push b :: ·) := by
  have hp : pushData b = UInt8.ofNat b.length :: b := by rw [pushData, if_pos (by omega)]
  have ht : (UInt8.ofNat b.length).toNat = b.length := by
    rw [UInt8.toNat_ofNat']
    omega
  rw [hp, List.cons_append, Interp.parseFuel, Interp.opAt, ht, if_pos h, Interp.takeData, if_neg (by simp)]
  simp only [Option.bind_eq_bind, Option.bind_some, List.take_left, List.drop_left]
  cases Interp.parseFuel f s <;> rfl

theorem pushStack_two {a b : Bytes} (ha : a.length ≤ 75) (hb : b.length ≤ 75) :
    Interp.pushStack (pushData a ++ pushData b) = some [b, a] := by
  have hp : ∀ c : Bytes, c.length ≤ 75 → (pushData c).length = c.length + 1 := by
    intro c hc
    rw [pushData, if_pos (by omega)]
    rfl
  have hl : (pushData a ++ pushData b).length = a.length + b.length + 1 + 1 := by
    rw [List.length_append, hp a ha, hp b hb]; omega
  unfold Interp.pushStack Interp.parse
  rw [hl, parse_push ha]
  have : pushData b = pushData b ++ [] := by simp
  rw [this, parse_push hb]
  cases hx : a.length + b.length with
  | zero => simp [Interp.parseFuel, Interp.Op.data?]
  | succ n => simp [Interp.parseFuel, Interp.Op.data?]

theorem signScript_code {E : Env} {W : World} (hz : Sizes E W) (pub : Bytes) : signScript W pub = keyHashCode W.hash160 pub := by
  simp [signScript, keyHashCode, CrossSwap.script, Elem.bytes, pushData_20 (hz.hash _)]

theorem innerScript_code {E : Env} {W : World} (hz : Sizes E W) (pub : Bytes) : innerScript W pub = [0, 0x14] ++ W.hash160 pub := by
  simp [innerScript, CrossSwap.script, Elem.bytes, pushData_20 (hz.hash _)]

theorem sighash_all {h : HashFn} {s : Bytes} {t : Tx} {i : Nat} {v : Bytes} {sv : SigVersion} {d : Bytes}
    (hd : sighash h s t i SIGHASH_ALL (some v) sv = .ok d) :
    (sv = .base → sighashBase h s t i 1 = .ok (d, false)) ∧ (sv = .witnessV0 → sighashV0 h s t i 1 (some v) = .ok d) := by
  unfold sighash at hd
  obtain ⟨ht, e1, hd⟩ := exc_bind_ok.1 hd
  obtain ⟨⟨dd, err⟩, e2, hd⟩ := exc_bind_ok.1 hd
  cases e1
  cases err with
  | true => cases hd
  | false =>
    cases hd
    constructor
    · rintro rfl
      exact e2
    · rintro rfl
      simp only [rawSighash] at e2
      rw [show SIGHASH_ALL = 1 from rfl] at e2
      cases e3 : sighashV0 h s t i 1 (some v) with
      | error e => rw [e3] at e2; cases e2
      | ok x => rw [e3] at e2; cases e2; rfl

/-- Signing an input leaves everything else as it was, and the input unlocked. -/
theorem signInput_ok {E : Env} {W : World} {t t' : Tx} {i : Nat} {u : Utxo} (hz : Sizes E W) (hu : UtxoOk u)
    (h : signInput E W t i u = .ok t') : SameBut (· = i) t t' ∧ Spends E W u t' i := by
  unfold signInput at h
  obtain ⟨sv, h1, h⟩ := exc_bind_ok.1 h
  obtain ⟨value, h2, h⟩ := exc_bind_ok.1 h
  obtain ⟨digest, h3, h⟩ := exc_bind_ok.1 h
  obtain ⟨t1, h4, h⟩ := exc_bind_ok.1 h
  obtain ⟨spk, -, h⟩ := exc_bind_ok.1 h
  obtain ⟨_, -, h⟩ := exc_bind_ok.1 h
  cases h
  obtain ⟨p1, ⟨x, p2, p3⟩, p4⟩ := put_ok h4
  obtain ⟨d1, d2⟩ := sighash_all h3
  have hl : (W.sign u.key digest ++ [UInt8.ofNat SIGHASH_ALL]).length ≤ 75 := by
    have := hz.signature u.key digest
    simp; omega
  refine ⟨p1, value, amount_ok hu h2, ?_⟩
  rw [signScript_code hz] at d1 d2
  unfold Utxo.sigVersion at h1
  generalize u.addr.kind = k at h1 p3 p4
  cases k with
  | p2pkh =>
    cases h1
    refine .p2pkh x digest p2 (by rw [p1.base]; exact d1 rfl) ?_
    rw [p3]
    have hpub := hz.pub u.key hu.key
    have := pushStack_two hl (b := E.z.pubOf u.key) (by omega)
    rw [show (unlock W Kind.p2pkh (W.sign u.key digest ++ [UInt8.ofNat SIGHASH_ALL]) (E.z.pubOf u.key)).1
      = pushData (W.sign u.key digest ++ [UInt8.ofNat SIGHASH_ALL]) ++ pushData (E.z.pubOf u.key) by
        simp [unlock, CrossSwap.script, Elem.bytes], this]
    rfl
  | p2wpkh =>
    cases h1
    exact .p2wpkh x digest p2 (by rw [p1.v0]; exact d2 rfl) p3 (by rw [p4 _ rfl]; rfl)
  | p2sh =>
    cases h1
    refine .p2sh x digest (innerScript W (E.z.pubOf u.key)) p2 (by rw [p1.v0]; exact d2 rfl) ?_ ?_ (by rw [p4 _ rfl]; rfl)
    · rw [p3, show (unlock W Kind.p2sh (W.sign u.key digest ++ [UInt8.ofNat SIGHASH_ALL]) (E.z.pubOf u.key)).1
        = pushData (innerScript W (E.z.pubOf u.key)) by simp [unlock, CrossSwap.script, Elem.bytes]]
      exact pushStack_22 (by rw [innerScript_code hz]; simp [hz.hash])
    · rw [innerScript_code hz]
      simp [Interp.witnessProgram, hz.hash]
  | p2wsh => cases h1
  | p2tr => cases h1

/-- Signing inputs one after the other: each signature is good for the final transaction. -/
theorem signAll_ok {E : Env} {W : World} (hz : Sizes E W) : ∀ {us : List Utxo} {t t' : Tx} {i : Nat}, (∀ u ∈ us, UtxoOk u) →
    signAll E W t i us = .ok t' →
    SameBut (fun k => i ≤ k ∧ k < i + us.length) t t' ∧ ∀ k u, us[k]? = some u → Spends E W u t' (i + k)
  | [], t, t', i, _, h => by
    cases h
    exact ⟨.refl _ _, by simp⟩
  | u :: us, t, t', i, hu, h => by
    obtain ⟨t1, h1, h2⟩ := exc_bind_ok.1 h
    obtain ⟨a1, a2⟩ := signInput_ok hz (hu u List.mem_cons_self) h1
    obtain ⟨b1, b2⟩ := signAll_ok hz (fun v hv => hu v (List.mem_cons_of_mem _ hv)) h2
    refine ⟨a1.trans b1 ?_ ?_, ?_⟩
    · rintro k rfl; simp
    · rintro k ⟨x, y⟩; simp; omega
    · intro k v hk
      cases k with
      | zero =>
        cases hk
        exact b1.spends (by omega) a2
      | succ k =>
        have := b2 k v hk
        rwa [show i + 1 + k = i + (k + 1) by omega] at this

/-! ### What is sent can be read -/

theorem script_short {x : Addr} {s : Bytes} (hc : x.conf = true) (h : x.toScriptPubKey = .ok s) : s.length ≤ 75 := by
  unfold Addr.toScriptPubKey at h
  rw [if_pos hc] at h
  obtain ⟨u, h1, h⟩ := exc_bind_ok.1 h
  cases h
  unfold Addr.toUnconfidential addrFromBytes at h1
  split at h1
  · cases h1
  · rename_i hl
    cases h1
    simp only [ne_eq, not_not] at hl
    have : classLen x.kind false ≤ 32 := by cases x.kind <;> decide
    show (scriptOf x.kind (x.payload.drop 33)).length ≤ 75
    unfold scriptOf
    generalize x.payload.drop 33 = d at *
    cases x.kind <;> simp <;> omega

theorem put_wf {t t' : Tx} {i : Nat} {u : Bytes × Option TxInWitness} (h : WFTx t) (h1 : u.1.length ≤ maxItem)
    (h2 : ∀ w, u.2 = some w → WFInWitness w) (hp : put t i u = .ok t') : WFTx t' := by
  have hv : WFTx { t with vin := t.vin.modify i fun x => { x with scriptSig := u.1 } } :=
    { h with
      nin := by show (t.vin.modify i _).length < _; rw [List.length_modify]; exact h.nin
      vin := mem_modify h.vin fun x hx => { h.vin x hx with script := h1 }
      witin := by show _ = (t.vin.modify i _).length; rw [List.length_modify]; exact h.witin }
  unfold put at hp
  split at hp
  · cases hp
  · dsimp only at hp
    split at hp
    · cases hp; exact hv
    · rename_i w hw
      split at hp
      · cases hp
      · cases hp
        refine { hv with witin := ?_, vtxinwit := ?_ }
        · show (t.wit.vtxinwit.set i w).length = (t.vin.modify i _).length
          rw [List.length_set, List.length_modify]; exact h.witin
        · intro x hx
          rcases List.mem_or_eq_of_mem_set hx with hx | rfl
          · exact h.vtxinwit x hx
          · exact h2 _ hw

theorem unlock_short {E : Env} {W : World} (hz : Sizes E W) (kind : Kind) (k d : Bytes) (hk : k.length = 32) :
    (unlock W kind (W.sign k d ++ [UInt8.ofNat SIGHASH_ALL]) (E.z.pubOf k)).1.length ≤ maxItem ∧
    ∀ w, (unlock W kind (W.sign k d ++ [UInt8.ofNat SIGHASH_ALL]) (E.z.pubOf k)).2 = some w → WFInWitness w := by
  have h1 := hz.signature k d
  have h2 := hz.pub k hk
  have h3 : (W.sign k d ++ [UInt8.ofNat SIGHASH_ALL]).length ≤ 73 := by simp; omega
  generalize W.sign k d ++ [UInt8.ofNat SIGHASH_ALL] = sig at *
  generalize E.z.pubOf k = pub at *
  have hp : ∀ b : Bytes, b.length ≤ 75 → (pushData b).length ≤ 76 := by
    intro b hb
    unfold pushData
    rw [if_pos (by omega)]
    simp; omega
  have hi : (innerScript W pub).length = 22 := by rw [innerScript_code hz]; simp [hz.hash]
  have hw : WFInWitness { scriptWitness := [sig, pub] } :=
    ⟨by simp [maxItem], by simp [maxItem], ⟨by simp, by
      intro x hx
      simp only [List.mem_cons, List.not_mem_nil, or_false] at hx
      unfold maxItem
      rcases hx with rfl | rfl <;> omega⟩, ⟨by simp, by simp⟩⟩
  have g1 := hp sig (by omega)
  have g2 := hp pub (by omega)
  have g3 := hp (innerScript W pub) (by omega)
  have e1 : (CrossSwap.script [.data sig, .data pub]).length ≤ maxItem := by
    simp only [CrossSwap.script, List.map_cons, List.map_nil, List.flatten_cons, List.flatten_nil, Elem.bytes, List.length_append, List.length_nil]
    unfold maxItem; omega
  have e2 : (CrossSwap.script [.data (innerScript W pub)]).length ≤ maxItem := by
    simp only [CrossSwap.script, List.map_cons, List.map_nil, List.flatten_cons, List.flatten_nil, Elem.bytes, List.length_append, List.length_nil]
    unfold maxItem; omega
  unfold unlock
  cases kind <;> dsimp only
  · exact ⟨e1, by intro w h; cases h⟩
  · exact ⟨by simp [maxItem], by intro w h; cases h; exact hw⟩
  · exact ⟨e2, by intro w h; cases h; exact hw⟩
  · exact ⟨e2, by intro w h; cases h; exact hw⟩
  · exact ⟨e2, by intro w h; cases h; exact hw⟩

theorem signInput_wf {E : Env} {W : World} {t t' : Tx} {i : Nat} {u : Utxo} (hz : Sizes E W) (hu : UtxoOk u)
    (h : signInput E W t i u = .ok t') (hw : WFTx t) : WFTx t' := by
  unfold signInput at h
  obtain ⟨sv, h1, h⟩ := exc_bind_ok.1 h
  obtain ⟨value, h2, h⟩ := exc_bind_ok.1 h
  obtain ⟨digest, h3, h⟩ := exc_bind_ok.1 h
  obtain ⟨t1, h4, h⟩ := exc_bind_ok.1 h
  obtain ⟨spk, -, h⟩ := exc_bind_ok.1 h
  obtain ⟨_, -, h⟩ := exc_bind_ok.1 h
  cases h
  obtain ⟨g1, g2⟩ := unlock_short hz u.addr.kind u.key digest hu.key
  exact put_wf hw g1 g2 h4

theorem signAll_wf {E : Env} {W : World} (hz : Sizes E W) : ∀ {us : List Utxo} {t t' : Tx} {i : Nat}, (∀ u ∈ us, UtxoOk u) →
    signAll E W t i us = .ok t' → WFTx t → WFTx t'
  | [], t, t', i, _, h, hw => by cases h; exact hw
  | u :: us, t, t', i, hu, h, hw => by
    obtain ⟨t1, h1, h2⟩ := exc_bind_ok.1 h
    exact signAll_wf hz (fun v hv => hu v (List.mem_cons_of_mem _ hv)) h2 (signInput_wf hz (hu u List.mem_cons_self) h1 hw)

theorem wf_txin {u : Utxo} (hu : UtxoOk u) (hn : u.prevout.n < 2 ^ 30) : WFIn u.txin :=
  ⟨hu.hash, by simp [Utxo.txin, maxItem], by simp [Utxo.txin], ⟨by simp [Utxo.txin, zero32], by simp [Utxo.txin, zero32], .inl rfl, .inl rfl, fun _ => rfl⟩,
    .inr ⟨hn, fun h => h.2.2 ⟨rfl, rfl⟩⟩⟩

theorem wf_paid {asset s : Bytes} {n : Nat} (ha : asset.length = 32) (hs : s.length ≤ maxItem) :
    WFOut { nValue := 1 :: beBytes 8 n, nAsset := 1 :: asset, scriptPubKey := s } :=
  ⟨.inr (.inl ⟨by simp [ha], rfl⟩), .inr (.inl ⟨by simp [beBytes_length], rfl⟩), .inl rfl, hs⟩

theorem wf_noWit : WFInWitness {} := ⟨by simp [maxItem], by simp [maxItem], ⟨by simp, by simp⟩, ⟨by simp, by simp⟩⟩
theorem wf_noOutWit : WFOutWitness {} := ⟨by simp [maxItem], by simp [maxItem]⟩

/-! ### Alice -/

theorem up_ok {α : Type} {x : Except PyErr α} {y : α} (h : up x = .ok y) : x = .ok y := by
  cases x with
  | error => cases h
  | ok => cases h; rfl

theorem pyGet_outWit {t : Tx} {n : Nat} {w : TxOutWitness} (h : pyGet t.wit.vtxoutwit n = .ok w) : t.outWit n = w := by
  unfold Tx.outWit
  rw [pyGet_nat_ok.1 h]
  rfl

/-- A check that passes. -/
theorem checkOffer_ok {E : Env} {key : Bytes} {o : TxOut} {w : TxOutWitness} {f : Offer} (h : checkOffer E key o w f = .ok ()) :
    ∃ (n : Nat) (bf abf : Bytes), (n : Int) = f.amount ∧ Opens E key o.nValue o.nAsset o.nNonce o.scriptPubKey w.rangeproof f.asset n bf abf := by
  unfold checkOffer at h
  obtain ⟨r, h1, h⟩ := exc_bind_ok.1 h
  obtain ⟨ro, h2, h⟩ := exc_bind_ok.1 h
  have h1 := up_ok h1
  have h2 := up_ok h2
  cases ro with
  | unblindingSuccess asset amount bf abf =>
    dsimp only at h
    split at h
    · cases h
    · rename_i ha
      split at h
      · cases h
      · rename_i hm
        simp only [ne_eq, not_not] at ha hm
        rw [← ha, ← hm]
        cases r with
        | failure m =>
          simp only [UnblindResult.obj, unblindingFailureNew] at h2
          obtain ⟨_, -, h2⟩ := exc_bind_ok.1 h2
          cases h2
        | success asset' amount' bf' abf' =>
          simp only [UnblindResult.obj, unblindingSuccessNew] at h2
          split at h2
          · cases h2
            exact ⟨amount', bf, abf, rfl, (C37_success_iff ..).1 h1⟩
          · cases h2
  | blindingFailure | unblindingFailure | blindingSuccess => cases h

theorem payTo_ok {asset : Bytes} {amount : Int} {s : Bytes} {o : TxOut} (h0 : 0 ≤ amount) (h1 : amount < 2 ^ 63)
    (h : payTo asset amount s = .ok o) :
    asset.length = 32 ∧ o = { nValue := 1 :: beBytes 8 amount.toNat, nAsset := 1 :: asset, scriptPubKey := s } := by
  unfold payTo at h
  obtain ⟨value, h2, h⟩ := exc_bind_ok.1 h
  obtain ⟨as, h3, h⟩ := exc_bind_ok.1 h
  cases h
  have hv : value = 1 :: beBytes 8 amount.toNat := by
    refine amount_bytes (by omega) ?_
    rw [show ((amount.toNat : Nat) : Int) = amount by omega]
    exact h2
  have hasset : asset.length = 32 := by
    unfold assetFromAsset confNew at h3
    split at h3
    · rename_i hh
      rw [List.length_cons] at hh
      have e1 : assetKind.explicitSize = 33 := rfl
      have e2 : committedSize = 33 := rfl
      omega
    · cases h3
  have := (C04_asset_recovered.1 asset hasset).1
  rw [h3] at this
  cases this
  rw [hv]
  exact ⟨hasset, rfl⟩

theorem pubkeyOf_ok {x : Addr} {p : Bytes} (h : pubkeyOf x = .ok p) : x.conf = true ∧ p = x.blindingPubkey := by
  unfold pubkeyOf at h
  split at h
  · rename_i hc
    cases h
    exact ⟨hc, rfl⟩
  · cases h

/-- Alice's outputs before blinding. -/
def aliceOuts (a : Alice) (s1 s2 s3 : Bytes) : List TxOut :=
  [{ nValue := 1 :: beBytes 8 a.asset1.amount.toNat, nAsset := 1 :: a.asset1.asset, scriptPubKey := s1 },
   { nValue := 1 :: beBytes 8 a.asset2.amount.toNat, nAsset := 1 :: a.asset2.asset, scriptPubKey := s2 },
   { nValue := 1 :: beBytes 8 (a.fee.amount - fixedFee).toNat, nAsset := 1 :: a.feeAsset, scriptPubKey := s3 },
   { nValue := 1 :: beBytes 8 10000, nAsset := 1 :: a.feeAsset }]

/-- The combined transaction before blinding. -/
def joined (a : Alice) (p : Tx) (s1 s2 s3 : Bytes) : Tx :=
  { p with
    vin := p.vin ++ a.utxos.map Utxo.txin
    vout := p.vout ++ aliceOuts a s1 s2 s3
    wit := ⟨p.wit.vtxinwit ++ [{}, {}, {}], p.wit.vtxoutwit ++ [{}, {}, {}, {}]⟩ }

/-- What Alice relies on before the swap begins: plausible outputs, enough for the fee, and a
confidential address of the right length. -/
structure AliceOk (a : Alice) : Prop where
  utxos : ∀ u ∈ a.utxos, UtxoOk u
  fee : 20000 ≤ a.fee.amount

/-- All that happened when Alice sends a transaction. -/
structure Joined (E : Env) (W : World) (a : Alice) (offer : Offer) (p : Tx) (bob1 bob2 : Addr) (bobC : Bytes) (t : Tx)
    (o i : _) (s1 s2 s3 : Bytes) (num : Nat) (bfs abfs : List Bytes) (tb : Tx) : Prop where
  vout : p.vout = [o]
  vin : p.vin = [i]
  opens : ∃ (n : Nat) (bf abf : Bytes), (n : Int) = offer.amount ∧
    Opens E a.bkey o.nValue o.nAsset o.nNonce o.scriptPubKey (p.outWit 0).rangeproof offer.asset n bf abf
  wits : p.wit.vtxoutwit ≠ []
  script1 : bob1.toScriptPubKey = .ok s1
  script2 : bob2.toScriptPubKey = .ok s2
  script3 : a.change.toScriptPubKey = .ok s3
  conf1 : bob1.conf = true
  conf2 : bob2.conf = true
  conf3 : a.change.conf = true
  assets : a.asset1.asset.length = 32 ∧ a.asset2.asset.length = 32 ∧ a.feeAsset.length = 32
  blind : blindTransaction E (aliceArgs a [[], bob1.blindingPubkey, bob2.blindingPubkey, a.change.blindingPubkey, []] bobC)
    (joined a p s1 s2 s3) = (.ok (.success num bfs abfs), tb)
  count : num = 3
  sign : signAll E W tb 1 a.utxos = .ok t

theorem joined_of {E : Env} {W : World} {a : Alice} {offer : Offer} {p : Tx} {addrs : List Addr} {bobC : Bytes} {t : Tx} (ha : AliceOk a)
    (h : aliceJoin E W a offer p addrs bobC = .ok t) :
    ∃ bob1 bob2 o i s1 s2 s3 num bfs abfs tb, addrs = [bob1, bob2] ∧
      Joined E W a offer p bob1 bob2 bobC t o i s1 s2 s3 num bfs abfs tb := by
  unfold aliceJoin at h
  obtain ⟨_, h1, h⟩ := exc_bind_ok.1 h
  unfold aliceAdd at h
  split at h
  · cases h
  · rename_i hl
    simp only [ne_eq, not_not] at hl
    match addrs, hl with
    | [bob1, bob2], _ =>
      obtain ⟨⟨tx, pubs⟩, h2, h⟩ := exc_bind_ok.1 h
      have h2 := up_ok h2
      dsimp only at h
      unfold checkPartial at h1
      split at h1
      · cases h1
      · rename_i hv
        simp only [ne_eq, not_not] at hv
        obtain ⟨o, o1, h1⟩ := exc_bind_ok.1 h1
        obtain ⟨w, w1, h1⟩ := exc_bind_ok.1 h1
        have o1 := pyGet_nat_ok (i := 0).1 (up_ok o1)
        have w1 := up_ok w1
        have w2 := pyGet_nat_ok (i := 0).1 w1
        have hw : p.outWit 0 = w := pyGet_outWit (n := 0) w1
        have hvo : p.vout = [o] := by
          match hp : p.vout, hv with
          | [x], _ => rw [hp] at o1; cases o1; rfl
        have hop := checkOffer_ok h1
        rw [← hw] at hop
        have u1 := ha.utxos a.asset1 (by simp [Alice.utxos])
        have u2 := ha.utxos a.asset2 (by simp [Alice.utxos])
        have u3 := ha.utxos a.fee (by simp [Alice.utxos])
        have hfee := ha.fee
        unfold combine at h2
        obtain ⟨⟨outs, ps⟩, c1, h2⟩ := exc_bind_ok.1 h2
        obtain ⟨s3, c2, h2⟩ := exc_bind_ok.1 h2
        obtain ⟨co, c3, h2⟩ := exc_bind_ok.1 h2
        obtain ⟨cp, c4, h2⟩ := exc_bind_ok.1 h2
        obtain ⟨fo, c5, h2⟩ := exc_bind_ok.1 h2
        cases h2
        simp only [Alice.offers, List.zip_cons_cons, List.zip_nil_right] at c1
        unfold payOffers at c1
        obtain ⟨s1, d1, c1⟩ := exc_bind_ok.1 c1
        obtain ⟨o1', d2, c1⟩ := exc_bind_ok.1 c1
        obtain ⟨p1, d3, c1⟩ := exc_bind_ok.1 c1
        obtain ⟨⟨outs', ps'⟩, d4, c1⟩ := exc_bind_ok.1 c1
        cases c1
        unfold payOffers at d4
        obtain ⟨s2, e1, d4⟩ := exc_bind_ok.1 d4
        obtain ⟨o2', e2, d4⟩ := exc_bind_ok.1 d4
        obtain ⟨p2, e3, d4⟩ := exc_bind_ok.1 d4
        obtain ⟨⟨outs'', ps''⟩, e4, d4⟩ := exc_bind_ok.1 d4
        cases d4
        cases e4
        have hfix : fixedFee = 10000 := rfl
        obtain ⟨q1, rfl⟩ := payTo_ok u1.nonneg (by have := u1.money; omega) d2
        obtain ⟨q2, rfl⟩ := payTo_ok u2.nonneg (by have := u2.money; omega) e2
        obtain ⟨q3, rfl⟩ := payTo_ok (by omega) (by have := u3.money; omega) c3
        obtain ⟨-, rfl⟩ := payTo_ok (by omega) (by omega) c5
        obtain ⟨r1, rfl⟩ := pubkeyOf_ok d3
        obtain ⟨r2, rfl⟩ := pubkeyOf_ok e3
        obtain ⟨r3, rfl⟩ := pubkeyOf_ok c4
        split at h
        · cases h
        · cases h
        · rename_i num bfs abfs tb hb
          split at h
          · cases h
          · rename_i hnum
            simp only [ne_eq, not_not] at hnum
            obtain ⟨C, s', hC, -⟩ := blind_success hb
            have hlen : (4 : Nat) = _ := hC.lengths.descs
            have hvi : ∃ i, p.vin = [i] := by
              simp only [List.length_append, List.length_map, Alice.utxos, List.length_cons, List.length_nil] at hlen
              match hp : p.vin, hlen with
              | [], hlen => simp at hlen
              | [x], _ => exact ⟨x, rfl⟩
              | x :: y :: l, hlen => simp at hlen
            obtain ⟨i, hvi⟩ := hvi
            exact ⟨bob1, bob2, o, i, s1, s2, s3, num, bfs, abfs, tb, rfl, hvo, hvi, hop, (by intro hx; rw [hx] at w2; cases w2),
              d1, e1, c2, r1, r2, r3, ⟨q1, q2, q3⟩, hb, hnum, up_ok h⟩

/-- Without issuance keys blinding leaves the inputs. -/
theorem same_inputs {A : BlindArgs} {t t' : Tx} (hA : A.assetKeys = []) (hT : A.tokenKeys = []) (h : OnlyAsked A t t') :
    t'.vin = t.vin := by
  apply List.ext_getElem?
  intro i
  have h1 := congrArg (fun l : List (OutPoint × Bytes × Nat × Bool × Bytes × Bytes) => l[i]?) h.inputs
  have h2 := h.amount i (by simp [hA])
  have h3 := h.tokens i (by simp [hT])
  simp only [List.getElem?_map] at h1
  cases e1 : t'.vin[i]? with
  | none =>
    cases e2 : t.vin[i]? with
    | none => rfl
    | some y => rw [e1, e2] at h1; cases h1
  | some x =>
    cases e2 : t.vin[i]? with
    | none => rw [e1, e2] at h1; cases h1
    | some y =>
      rw [e1, e2] at h1 h2 h3
      obtain ⟨a, b, c, ⟨d, e, f, g⟩, k⟩ := x
      obtain ⟨a', b', c', ⟨d', e', f', g'⟩, k'⟩ := y
      simp [TxIn.fixed] at h1 h2 h3
      obtain ⟨rfl, rfl, rfl, rfl, rfl, rfl⟩ := h1
      subst h2 h3
      rfl

section
variable {E : Env} {W : World} {a : Alice} {offer : Offer} {p : Tx} {bob1 bob2 : Addr} {bobC : Bytes} {t : Tx}
  {o : TxOut} {i : TxIn} {s1 s2 s3 : Bytes} {num : Nat} {bfs abfs : List Bytes} {tb : Tx}

theorem Joined.asked (J : Joined E W a offer p bob1 bob2 bobC t o i s1 s2 s3 num bfs abfs tb) :
    OnlyAsked (aliceArgs a [[], bob1.blindingPubkey, bob2.blindingPubkey, a.change.blindingPubkey, []] bobC) (joined a p s1 s2 s3) tb := by
  have := C32_only_asked E (aliceArgs a [[], bob1.blindingPubkey, bob2.blindingPubkey, a.change.blindingPubkey, []] bobC) (joined a p s1 s2 s3)
  rwa [J.blind] at this

/-- What Alice sends can be read if what came from Bob could be written. -/
theorem Joined.wire (hz : Sizes E W) (ha : AliceOk a) (J : Joined E W a offer p bob1 bob2 bobC t o i s1 s2 s3 num bfs abfs tb)
    (Z : WireSizes E.z) (hn : ∀ u ∈ a.utxos, u.prevout.n < 2 ^ 30) (hp : WFTx p) : WFTx t := by
  have hj : WFTx (joined a p s1 s2 s3) := by
    have l1 := script_short J.conf1 J.script1
    have l2 := script_short J.conf2 J.script2
    have l3 := script_short J.conf3 J.script3
    have hm : 75 ≤ maxItem := by unfold maxItem; omega
    refine { version := hp.version, locktime := hp.locktime, nin := ?_, nout := ?_, vin := ?_, vout := ?_, witin := ?_, witout := ?_, vtxinwit := ?_, vtxoutwit := ?_ }
    · simp [joined, J.vin, Alice.utxos]
    · simp [joined, J.vout, aliceOuts]
    · intro x hx
      rcases List.mem_append.1 hx with hx | hx
      · exact hp.vin x hx
      · obtain ⟨u, hu, rfl⟩ := List.mem_map.1 hx
        exact wf_txin (ha.utxos u hu) (hn u hu)
    · intro x hx
      rcases List.mem_append.1 hx with hx | hx
      · exact hp.vout x hx
      · simp only [aliceOuts, List.mem_cons, List.not_mem_nil, or_false] at hx
        obtain ⟨q1, q2, q3⟩ := J.assets
        rcases hx with rfl | rfl | rfl | rfl
        · exact wf_paid q1 (by omega)
        · exact wf_paid q2 (by omega)
        · exact wf_paid q3 (by omega)
        · exact wf_paid q3 (by simp)
    · simp [joined, Alice.utxos, hp.witin]
    · simp [joined, aliceOuts, hp.witout]
    · intro w hw
      rcases List.mem_append.1 hw with hw | hw
      · exact hp.vtxinwit w hw
      · simp only [List.mem_cons, List.not_mem_nil, or_false, or_self] at hw
        subst hw; exact wf_noWit
    · intro w hw
      rcases List.mem_append.1 hw with hw | hw
      · exact hp.vtxoutwit w hw
      · simp only [List.mem_cons, List.not_mem_nil, or_false, or_self] at hw
        subst hw; exact wf_noOutWit
  have hb := blind_wf E Z (aliceArgs a [[], bob1.blindingPubkey, bob2.blindingPubkey, a.change.blindingPubkey, []] bobC) hj
  rw [J.blind] at hb
  exact signAll_wf hz ha.utxos J.sign hb

theorem Joined.sends (hz : Sizes E W) (ha : AliceOk a) (J : Joined E W a offer p bob1 bob2 bobC t o i s1 s2 s3 num bfs abfs tb) :
    AliceSends E W a offer p bob1 bob2 t := by
  have hA := J.asked
  have hvin := same_inputs rfl rfl hA
  obtain ⟨S, hs⟩ := signAll_ok hz ha.utxos J.sign
  have hw0 : tb.outWit 0 = p.outWit 0 := by
    rw [hA.outputWitness 0 rfl]
    unfold Tx.outWit joined
    dsimp only
    rw [List.getElem?_append_left (List.length_pos_of_ne_nil J.wits)]
  have hwt : t.outWit 0 = p.outWit 0 := by
    rw [← hw0]
    unfold Tx.outWit
    rw [S.outputWitness]
  have hv0 : t.vout[0]? = some o := by
    rw [S.outputs, hA.outputs 0 rfl]
    simp [joined, J.vout]
  refine ⟨⟨i, J.vin, ?_⟩, ⟨o, s1, s2, s3, J.vout, J.script1, J.script2, J.script3, ?_, hv0, hwt⟩, ?_, ?_, ?_, ?_, ?_, J.wire hz ha⟩
  · rw [S.inputs, hvin]
    simp [joined, J.vin, Alice.utxos, Utxo.txin, plainView, inputView]
  · rw [S.outputs, hA.scripts]
    simp [joined, J.vout, aliceOuts]
  · obtain ⟨n, bf, abf, h1, h2⟩ := J.opens
    refine ⟨n, bf, abf, h1, ?_⟩
    rw [List.getD_eq_getElem?_getD, hv0, hwt]
    exact h2
  · rw [S.outputs, hA.outputs 4 rfl]
    simp [joined, J.vout, aliceOuts]
  · exact ⟨S.version.trans hA.version, S.lockTime.trans hA.lockTime⟩
  · intro i' hi'
    have hh := (S.others 0 (by omega)).1
    have hw := (S.others 0 (by omega)).2
    constructor
    · rw [List.head?_eq_getElem?, hh, hvin]
      simp [joined, hi']
    · rw [hw, hA.scriptWitness 0]
      unfold Tx.inWit joined
      dsimp only
      cases p.wit.vtxinwit with
      | nil => rfl
      | cons => rfl
  · exact ⟨hs 0 _ rfl, hs 1 _ rfl, hs 2 _ rfl⟩

/-- Blinding with keys for outputs 1 to 3: outputs 1 and 2 are hidden, output 3 may be left as it was. -/
theorem Joined.found (F : Formats E.z) (R : Rewinds E.z) (hz : Sizes E W) (ha : AliceOk a) (hi : InputSizes i) (hc : AddrOk a.change)
    (J : Joined E W a offer p bob1 bob2 bobC t o i s1 s2 s3 num bfs abfs tb) {j : Nat} {key asset : Bytes} {amount : Int}
    (hj : [([] : Bytes), bob1.blindingPubkey, bob2.blindingPubkey, a.change.blindingPubkey, []].getD j [] = E.z.pubOf key)
    (hk : E.z.secValid key = true) (hne : E.z.pubOf key ≠ [])
    (h0 : 0 ≤ amount) (h1 : amount ≤ 21 * 10 ^ 14)
    (ho : ((joined a p s1 s2 s3).vout.getD j {}).nAsset = 1 :: asset ∧
      ((joined a p s1 s2 s3).vout.getD j {}).nValue = 1 :: beBytes 8 amount.toNat) :
    Finds E key t j asset amount ∨ (3 ≤ j ∧ t.vout[j]? = (joined a p s1 s2 s3).vout[j]?) := by
  obtain ⟨S, -⟩ := signAll_ok hz ha.utxos J.sign
  have hsz : ∀ x ∈ (joined a p s1 s2 s3).vin, InputSizes x := by
    intro x hx
    simp only [joined, J.vin, List.mem_append, List.mem_cons, List.not_mem_nil, or_false, List.mem_map] at hx
    rcases hx with rfl | ⟨u, hu, rfl⟩
    · exact hi
    · exact ⟨(ha.utxos u hu).hash, (ha.utxos u hu).index, by rfl⟩
  have := C36_strict (j := j) (key := key) F R J.blind rfl hsz hj hk hne
  unfold Finds
  rw [S.outputs, show t.outWit j = tb.outWit j by unfold Tx.outWit; rw [S.outputWitness]]
  rcases this with ⟨as, v, e1, e2, e3⟩ | ⟨⟨-, hl⟩, hu, -⟩
  · left
    rw [ho.1] at e1
    rw [ho.2] at e2
    cases e1
    cases e2
    have hb : beVal (beBytes 8 amount.toNat) = amount.toNat := beVal_beBytes_of_lt (by omega)
    rw [hb] at e3
    exact ⟨amount.toNat, _, _, by omega, (C37_success_iff ..).1 (e3 (by omega))⟩
  · right
    refine ⟨?_, hu⟩
    refine Nat.le_of_not_lt fun hlt => ?_
    exact blindingPubkey_ne hc J.conf3 (hl 3 hlt)

end

/-- C71: what Alice sends has Bob's input and output, Alice's three inputs, both signed over the whole
of what is sent, and four more outputs; the first output opens with Alice's key to what Bob offered. -/
theorem C71_alice {E : Env} {W : World} {a : Alice} {offer : Offer} {p : Tx} {addrs : List Addr} {bobC : Bytes} {t : Tx}
    (hz : Sizes E W) (ha : AliceOk a) (h : aliceJoin E W a offer p addrs bobC = .ok t) :
    ∃ bob1 bob2, addrs = [bob1, bob2] ∧ AliceSends E W a offer p bob1 bob2 t := by
  obtain ⟨bob1, bob2, o, i, s1, s2, s3, num, bfs, abfs, tb, rfl, J⟩ := joined_of ha h
  exact ⟨bob1, bob2, rfl, J.sends hz ha⟩

/-- C71: Bob finds both of Alice's assets, whole, in the outputs to the addresses sent to Alice, and
the change is hidden from all but Alice, or left as it was. -/
theorem C71_pays {E : Env} {W : World} {a : Alice} {offer : Offer} {p : Tx} {bob1 bob2 : Addr} {bobC : Bytes} {t : Tx}
    (F : Formats E.z) (R : Rewinds E.z) (Z : WireSizes E.z) (hz : Sizes E W) (ha : AliceOk a) (hp : ∀ i ∈ p.vin, InputSizes i)
    (hc : AddrOk a.change) (h : aliceJoin E W a offer p [bob1, bob2] bobC = .ok t) {key1 key2 key3 : Bytes}
    (hk : E.z.secValid key1 = true ∧ E.z.secValid key2 = true ∧ E.z.secValid key3 = true)
    (h1 : bob1.blindingPubkey = E.z.pubOf key1) (h2 : bob2.blindingPubkey = E.z.pubOf key2)
    (h3 : a.change.blindingPubkey = E.z.pubOf key3) :
    Finds E key1 t 1 a.asset1.asset a.asset1.amount ∧ Finds E key2 t 2 a.asset2.asset a.asset2.amount ∧
    (Finds E key3 t 3 a.feeAsset (a.fee.amount - 10000) ∨
      ∃ s, a.change.toScriptPubKey = .ok s ∧ t.vout[3]? = some
        { nValue := 1 :: beBytes 8 (a.fee.amount - 10000).toNat, nAsset := 1 :: a.feeAsset, scriptPubKey := s }) := by
  obtain ⟨b1, b2, o, i, s1, s2, s3, num, bfs, abfs, tb, hab, J⟩ := joined_of ha h
  cases hab
  have hpub : ∀ k, E.z.secValid k = true → E.z.pubOf k ≠ [] := by
    intro k hk hx
    have := Z.pubPrefix _ hk
    rw [hx] at this
    simp at this
  have hi := hp i (by rw [J.vin]; simp)
  have u1 := ha.utxos a.asset1 (by simp [Alice.utxos])
  have u2 := ha.utxos a.asset2 (by simp [Alice.utxos])
  have u3 := ha.utxos a.fee (by simp [Alice.utxos])
  have hfee := ha.fee
  refine ⟨?_, ?_, ?_⟩
  · rcases J.found F R hz ha hi hc (j := 1) h1 hk.1 (hpub _ hk.1) u1.nonneg u1.money (asset := a.asset1.asset)
      (by simp [joined, J.vout, aliceOuts]) with h | ⟨h, -⟩
    · exact h
    · omega
  · rcases J.found F R hz ha hi hc (j := 2) h2 hk.2.1 (hpub _ hk.2.1) u2.nonneg u2.money (asset := a.asset2.asset)
      (by simp [joined, J.vout, aliceOuts]) with h | ⟨h, -⟩
    · exact h
    · omega
  · rcases J.found F R hz ha hi hc (j := 3) h3 hk.2.2 (hpub _ hk.2.2) (amount := a.fee.amount - 10000) (by omega)
      (by have := u3.money; omega) (asset := a.feeAsset) (by simp [joined, J.vout, aliceOuts, fixedFee]) with h | ⟨-, h⟩
    · exact .inl h
    · refine .inr ⟨s3, J.script3, ?_⟩
      rw [h]
      simp [joined, J.vout, aliceOuts, fixedFee]

/-! ### Bob -/

/-- Outputs before blinding: asset, amount and script. -/
def paid (l : List (Bytes × Nat × Bytes)) : List TxOut :=
  l.map fun x => { nValue := 1 :: beBytes 8 x.2.1, nAsset := 1 :: x.1, scriptPubKey := x.2.2 }

/-- What happened when Bob begins. -/
theorem bobStart_ok {E : Env} {b : Bob} {alice : Addr} {cs : List Bytes} {p : Tx} (hb : UtxoOk b.utxo) (h : bobStart E b alice cs = .ok p) :
    ∃ own s bfs abfs, alice.toScriptPubKey = .ok s ∧ alice.conf = true ∧ b.utxo.asset.length = 32 ∧
      blindTransaction E { descs := [b.utxo.desc], pubkeys := [alice.blindingPubkey], auxGens := own :: cs, rand := b.rand }
        (newTx [b.utxo.txin] (paid [(b.utxo.asset, b.utxo.amount.toNat, s)])) = (.ok (.success 1 bfs abfs), p) := by
  unfold bobStart at h
  cases hc : b.utxo.assetCommitment with
  | none => rw [hc] at h; cases h
  | some own =>
  rw [hc] at h
  dsimp only at h
  obtain ⟨_, h0, h⟩ := exc_bind_ok.1 h
  cases h0
  obtain ⟨s, h2, h⟩ := exc_bind_ok.1 h
  obtain ⟨out, h3, h⟩ := exc_bind_ok.1 h
  obtain ⟨pub, h4, h⟩ := exc_bind_ok.1 h
  obtain ⟨h5, rfl⟩ := payTo_ok hb.nonneg (by have := hb.money; omega) (up_ok h3)
  obtain ⟨h6, rfl⟩ := pubkeyOf_ok (up_ok h4)
  split at h
  · cases h
  · cases h
  · rename_i num bfs abfs t ht
    split at h
    · cases h
    · rename_i hn
      simp only [ne_eq, not_not] at hn
      cases h
      subst hn
      exact ⟨own, s, bfs, abfs, up_ok h2, h6, h5, ht⟩

theorem utxo_sizes {u : Utxo} (h : UtxoOk u) : InputSizes u.txin := ⟨h.hash, h.index, by rfl⟩

/-- C71: Bob's part is one input and one output to Alice's address, which opens with Alice's key to
what Bob has, all of it. -/
theorem C71_bob_begins {E : Env} {b : Bob} {alice : Addr} {cs : List Bytes} {p : Tx} (F : Formats E.z) (R : Rewinds E.z)
    (hb : UtxoOk b.utxo) (ha : AddrOk alice) (h : bobStart E b alice cs = .ok p) : BobBegins E b alice p := by
  obtain ⟨own, s, bfs, abfs, h1, h2, h3, h4⟩ := bobStart_ok hb h
  have hA := C32_only_asked E { descs := [b.utxo.desc], pubkeys := [alice.blindingPubkey], auxGens := own :: cs, rand := b.rand }
        (newTx [b.utxo.txin] (paid [(b.utxo.asset, b.utxo.amount.toNat, s)]))
  rw [h4] at hA
  refine ⟨same_inputs rfl rfl hA, ⟨s, h1, by rw [hA.scripts]; rfl⟩, ⟨hA.version, hA.lockTime⟩, ?_, fun Z hn => ?_⟩
  rotate_left
  · have hj : WFTx (newTx [b.utxo.txin] (paid [(b.utxo.asset, b.utxo.amount.toNat, s)])) := by
      have l1 := script_short h2 h1
      have hm : 75 ≤ maxItem := by unfold maxItem; omega
      refine { version := ?_, locktime := ?_, nin := ?_, nout := ?_, vin := ?_, vout := ?_, witin := ?_, witout := ?_, vtxinwit := ?_, vtxoutwit := ?_ }
      · simp [newTx]
      · simp [newTx]
      · simp [newTx]
      · simp [newTx, paid]
      · intro x hx
        rw [List.mem_singleton.1 hx]
        exact wf_txin hb hn
      · intro x hx
        rw [List.mem_singleton.1 hx]
        exact wf_paid h3 (show s.length ≤ maxItem by omega)
      · rfl
      · rfl
      · intro w hw
        rw [List.mem_singleton.1 hw]; exact wf_noWit
      · intro w hw
        rw [List.mem_singleton.1 hw]; exact wf_noOutWit
    have hbw := blind_wf E Z { descs := [b.utxo.desc], pubkeys := [alice.blindingPubkey], auxGens := own :: cs, rand := b.rand } hj
    rw [h4] at hbw
    exact hbw
  intro key hk hp
  have hne := blindingPubkey_ne ha h2
  have := C36_strict (j := 0) (key := key) F R h4 rfl
    (by intro x hx; simp only [newTx, List.mem_cons, List.not_mem_nil, or_false] at hx; subst hx; exact utxo_sizes hb)
    hp hk (by rw [← hp]; exact hne)
  have hb0 := hb.nonneg
  have hb1 := hb.money
  rcases this with ⟨as, v, e1, e2, e3⟩ | ⟨-, hu, -⟩
  · left
    cases e1
    cases e2
    have hb : beVal (beBytes 8 b.utxo.amount.toNat) = b.utxo.amount.toNat := beVal_beBytes_of_lt (by omega)
    rw [hb] at e3
    exact ⟨b.utxo.amount.toNat, _, _, by omega, (C37_success_iff ..).1 (e3 (by omega))⟩
  · right
    rw [List.getD_eq_getElem?_getD, hu]
    exact ⟨rfl, rfl⟩

theorem checkOffers_ok {E : Env} {t : Tx} : ∀ {l : List (Offer × Bytes)} {n : Nat}, checkOffers E t n l = .ok () →
    ∀ k f key, l[k]? = some (f, key) → Finds E key t (n + k + 1) f.asset f.amount
  | [], _, _, k, f, key, hk => by simp at hk
  | (f', key') :: l, n, h, k, f, key, hk => by
    unfold checkOffers at h
    obtain ⟨o, h1, h⟩ := exc_bind_ok.1 h
    obtain ⟨w, h2, h⟩ := exc_bind_ok.1 h
    obtain ⟨_, h3, h⟩ := exc_bind_ok.1 h
    cases k with
    | zero =>
      cases hk
      obtain ⟨m, bf, abf, e1, e2⟩ := checkOffer_ok h3
      have h1 : t.vout[n + 1]? = some o := pyGet_nat_ok.1 (up_ok h1)
      have h2 : t.outWit (n + 1) = w := pyGet_outWit (up_ok h2)
      refine ⟨m, bf, abf, e1, ?_⟩
      rw [Nat.add_zero, List.getD_eq_getElem?_getD, h1, h2]
      exact e2
    | succ k =>
      have := checkOffers_ok h k f key hk
      rwa [show n + 1 + k = n + (k + 1) by omega] at this

theorem _root_.Verif.Spec.SameBut.finds {p : Nat → Prop} {t t' : Tx} (h : SameBut p t t') {E : Env} {key asset : Bytes} {j : Nat} {amount : Int} :
    Finds E key t' j asset amount ↔ Finds E key t j asset amount := by
  unfold Finds
  rw [h.outputs, show t'.outWit j = t.outWit j by unfold Tx.outWit; rw [h.outputWitness]]

theorem pyGet_last {α : Type} {l : List α} {x : α} (h : pyGet l (-1) = .ok x) : l.getLast? = some x := by
  unfold pyGet at h
  simp only [show ((-1 : Int) < 0) from by decide, if_true] at h
  split at h
  · cases h
  · rename_i hl
    have : (-1 + (l.length : Int)).toNat = l.length - 1 := by omega
    rw [this] at h
    rw [List.getLast?_eq_getElem?]
    split at h
    · rename_i y hy
      cases h
      exact hy
    · cases h

/-- C71: Bob signs only if there are as many outputs as agreed, the last pays the fee, and the others
after the first open with Bob's keys to what Alice offered; nothing but the first input is changed, and
it is signed over the whole of what is sent. -/
theorem C71_bob {E : Env} {W : World} {b : Bob} {offers : List (Offer × Bytes)} {semi t : Tx} (hz : Sizes E W) (hb : UtxoOk b.utxo)
    (h : bobFinish E W b offers semi = .ok t) : BobSends E W b offers semi t := by
  unfold bobFinish at h
  split at h
  · cases h
  · rename_i hl
    simp only [ne_eq, not_not] at hl
    obtain ⟨last, h1, h⟩ := exc_bind_ok.1 h
    split at h
    · cases h
    · rename_i hf
      simp only [Bool.not_eq_true', Bool.not_eq_false] at hf
      obtain ⟨_, h2, h⟩ := exc_bind_ok.1 h
      obtain ⟨S, hs⟩ := signInput_ok hz hb (up_ok h)
      refine ⟨by rw [S.outputs, hl], ⟨last, by rw [S.outputs]; exact pyGet_last (up_ok h1), SpendAddr.isFee_iff.1 hf⟩, ?_, S, hs, signInput_wf hz hb (up_ok h)⟩
      intro n f key hn
      rw [S.finds]
      have := checkOffers_ok h2 n f key hn
      rwa [Nat.zero_add] at this

/-! ### Nothing but that is checked -/

theorem lockScript_ok {W : World} {pub s : Bytes} {addr : Addr} (hz : ∀ b, (W.hash160 b).length = 20) (hk : addr.kind ≠ .p2wsh ∧ addr.kind ≠ .p2tr)
    (h : lockScript W addr pub = .ok s) : LockedBy W.hash160 pub addr s := by
  unfold lockScript at h
  split at h
  · rename_i hk; exact .address s (.inl hk) h
  · rename_i hk; exact .address s (.inr hk) h
  · rename_i h1 h2
    cases h
    have hsh : addr.kind = .p2sh := by
      cases hc : addr.kind with
      | p2pkh => exact absurd hc h1
      | p2wpkh => exact absurd hc h2
      | p2sh => rfl
      | p2wsh => exact absurd hc hk.1
      | p2tr => exact absurd hc hk.2
    have : script [.op 0xa9, .data (W.hash160 (innerScript W pub)), .op 0x87]
        = [0xa9, 0x14] ++ W.hash160 ([0, 0x14] ++ W.hash160 pub) ++ [0x87] := by
      simp [innerScript, CrossSwap.script, Elem.bytes, pushData_20 (hz _)]
    rw [this]
    exact .nested hsh

/-- C71: every input that is signed has been checked against the script of the output it spends, with
the amount of that output. -/
theorem C71_checked {E : Env} {W : World} {t t' : Tx} {i : Nat} {u : Utxo} (hz : Sizes E W) (hu : UtxoOk u)
    (h : signInput E W t i u = .ok t') :
    ∃ spk value, LockedBy W.hash160 (E.z.pubOf u.key) u.addr spk ∧ Amount u value ∧ W.verify spk value t' i = .ok () := by
  unfold signInput at h
  obtain ⟨sv, h1, h⟩ := exc_bind_ok.1 h
  obtain ⟨value, h2, h⟩ := exc_bind_ok.1 h
  obtain ⟨digest, h3, h⟩ := exc_bind_ok.1 h
  obtain ⟨t1, h4, h⟩ := exc_bind_ok.1 h
  obtain ⟨spk, h5, h⟩ := exc_bind_ok.1 h
  obtain ⟨_, h6, h⟩ := exc_bind_ok.1 h
  cases h
  refine ⟨spk, value, lockScript_ok hz.hash ?_ h5, amount_ok hu h2, h6⟩
  unfold Utxo.sigVersion at h1
  split at h1
  · rename_i hk; simp [hk]
  · rename_i hk; simp [hk]
  · rename_i hk; simp [hk]
  · cases h1

/-- The check passes exactly if the output opens to what was offered. -/
theorem checkOffer_iff {E : Env} {key : Bytes} {o : TxOut} {w : TxOutWitness} {f : Offer} : checkOffer E key o w f = .ok () ↔
    ∃ (n : Nat) (bf abf : Bytes), (n : Int) = f.amount ∧ Opens E key o.nValue o.nAsset o.nNonce o.scriptPubKey w.rangeproof f.asset n bf abf := by
  refine ⟨checkOffer_ok, ?_⟩
  rintro ⟨n, bf, abf, h1, h2⟩
  have hm := h2.money
  unfold checkOffer
  rw [(C37_success_iff ..).2 h2]
  have hr : moneyRangeInt (n : Int) = true := by
    unfold moneyRangeInt
    simp
    omega
  rw [← h1]
  have hx : (UnblindResult.success f.asset n bf abf).obj = .ok (.unblindingSuccess f.asset n bf abf) := by
    simp only [UnblindResult.obj, unblindingSuccessNew, hr, if_true]
  simp only [up, bind, Except.bind, hx, ne_eq, not_true_eq_false, if_false]
  rfl

/-- C71: what Alice looks at is one output that opens to what Bob offered, and nothing else. -/
theorem C71_alice_accepts {E : Env} {a : Alice} {offer : Offer} {p : Tx} : checkPartial E a offer p = .ok () ↔
    p.vout.length = 1 ∧ p.wit.vtxoutwit ≠ [] ∧ Finds E a.bkey p 0 offer.asset offer.amount := by
  constructor
  · intro h
    unfold checkPartial at h
    split at h
    · cases h
    · rename_i hv
      simp only [ne_eq, not_not] at hv
      obtain ⟨o, o1, h⟩ := exc_bind_ok.1 h
      obtain ⟨w, w1, h⟩ := exc_bind_ok.1 h
      have o1 := pyGet_nat_ok (i := 0).1 (up_ok o1)
      have w2 := pyGet_nat_ok (i := 0).1 (up_ok w1)
      have hw : p.outWit 0 = w := pyGet_outWit (n := 0) (up_ok w1)
      refine ⟨hv, (by intro hx; rw [hx] at w2; cases w2), ?_⟩
      unfold Finds
      rw [List.getD_eq_getElem?_getD, o1, hw]
      exact checkOffer_iff.1 h
  · rintro ⟨h1, h2, h3⟩
    obtain ⟨o, ho⟩ : ∃ o, p.vout = [o] := List.length_eq_one_iff.1 h1
    obtain ⟨w, ws, hw⟩ : ∃ w ws, p.wit.vtxoutwit = w :: ws := by
      cases hc : p.wit.vtxoutwit with
      | nil => exact absurd hc h2
      | cons w ws => exact ⟨w, ws, rfl⟩
    unfold Finds at h3
    rw [ho, show p.outWit 0 = w by unfold Tx.outWit; rw [hw]; rfl] at h3
    unfold checkPartial
    rw [ho, hw]
    exact checkOffer_iff.2 h3

theorem checkOffers_iff {E : Env} {t : Tx} : ∀ {l : List (Offer × Bytes)} {n : Nat}, n + l.length < t.vout.length →
    n + l.length < t.wit.vtxoutwit.length → (∀ k f key, l[k]? = some (f, key) → Finds E key t (n + k + 1) f.asset f.amount) →
    checkOffers E t n l = .ok ()
  | [], _, _, _, _ => rfl
  | (f, key) :: l, n, h1, h2, h => by
    simp only [List.length_cons] at h1 h2
    unfold checkOffers
    have e1 : t.vout[n + 1]? = some t.vout[n + 1] := List.getElem?_eq_getElem (by omega)
    have e2 : t.wit.vtxoutwit[n + 1]? = some t.wit.vtxoutwit[n + 1] := List.getElem?_eq_getElem (by omega)
    have g1 : pyGet t.vout ((n : Int) + 1) = .ok t.vout[n + 1] := pyGet_nat_ok (i := n + 1) |>.2 e1
    have g2 : pyGet t.wit.vtxoutwit ((n : Int) + 1) = .ok t.wit.vtxoutwit[n + 1] := pyGet_nat_ok (i := n + 1) |>.2 e2
    have h0 := h 0 f key rfl
    unfold Finds at h0
    rw [Nat.add_zero, List.getD_eq_getElem?_getD, e1, show t.outWit (n + 1) = t.wit.vtxoutwit[n + 1] by unfold Tx.outWit; rw [e2]; rfl] at h0
    rw [g1, g2]
    have : checkOffer E key t.vout[n + 1] t.wit.vtxoutwit[n + 1] f = .ok () := checkOffer_iff.2 h0
    simp only [up, bind, Except.bind]
    rw [this]
    exact checkOffers_iff (by omega) (by omega) (fun k f' key' hk => by
      have := h (k + 1) f' key' hk
      rwa [show n + (k + 1) + 1 = n + 1 + k + 1 by omega] at this)

/-- C71: Bob refuses nothing that has as many outputs as agreed, a fee at the end, and opens to what Alice offered. -/
theorem C71_bob_accepts {E : Env} {W : World} {b : Bob} {offers : List (Offer × Bytes)} {semi : Tx}
    (h1 : semi.vout.length = offers.length + 3) (h2 : LastIsFee semi.vout) (h3 : offers.length < semi.wit.vtxoutwit.length)
    (h4 : ∀ n f key, offers[n]? = some (f, key) → Finds E key semi (n + 1) f.asset f.amount) :
    bobFinish E W b offers semi = up (signInput E W semi 0 b.utxo) := by
  obtain ⟨o, ho, hf⟩ := h2
  have hf := SpendAddr.isFee_iff.2 hf
  have hl : pyGet semi.vout (-1) = .ok o := by
    unfold pyGet
    have : ((-1 : Int) + (semi.vout.length : Int)).toNat = semi.vout.length - 1 := by omega
    rw [List.getLast?_eq_getElem?] at ho
    simp only [show ((-1 : Int) < 0) from by decide, if_true, this, ho]
    rw [if_neg (by omega)]
  unfold bobFinish
  rw [if_neg (by simpa using h1), hl]
  simp only [up, bind, Except.bind, hf]
  rw [checkOffers_iff (by omega) (by omega) (by intro k f key hk; rw [Nat.zero_add]; exact h4 k f key hk)]
  rfl

/-! ### What Alice publishes -/

theorem final_iff {l l' : List TxIn} {n : Nat} :
    ((l'.zipIdx n).all fun x => match l[x.2]? with | some i => i.prevout == x.1.prevout | none => false) = true ↔
      l'.map TxIn.prevout <+: (l.drop n).map TxIn.prevout := by
  induction l' generalizing n with
  | nil => simp
  | cons x l' ih =>
    rw [List.zipIdx_cons, List.all_cons, Bool.and_eq_true, ih]
    cases hd : l[n]? with
    | none =>
      have : l.drop n = [] := List.drop_eq_nil_of_le (List.getElem?_eq_none_iff.1 hd)
      simp [this]
    | some y =>
      obtain ⟨hlt, hy⟩ := List.getElem?_eq_some_iff.1 hd
      rw [List.drop_eq_getElem_cons hlt, hy]
      simp only [beq_iff_eq, List.map_cons, List.cons_prefix_cons]
      constructor
      · rintro ⟨h1, h2⟩; exact ⟨h1.symm, h2⟩
      · rintro ⟨h1, h2⟩; exact ⟨h1.symm, h2⟩

/-- C71: Alice publishes what Bob sends, as it is, exactly if its inputs spend what the first inputs of
the agreed transaction spend. -/
theorem C71_final (tx signed s : Tx) : aliceFinal tx signed = some s ↔
    s = signed ∧ signed.vin.map TxIn.prevout <+: tx.vin.map TxIn.prevout := by
  have := final_iff (l := tx.vin) (l' := signed.vin) (n := 0)
  rw [List.drop_zero] at this
  unfold aliceFinal
  dsimp only
  split
  · rename_i h
    have h := this.1 h
    simp [h, eq_comm]
  · rename_i h
    constructor
    · intro h'; cases h'
    · rintro ⟨-, h'⟩; exact absurd (this.2 h') h

/-- C71, what the comment says: what is published spends the same inputs as what was agreed. -/
def C71_final_statement : Prop := ∀ tx signed s, aliceFinal tx signed = some s →
  s.vin.map TxIn.prevout = tx.vin.map TxIn.prevout

/-- Only Bob's input. -/
theorem C71_final_statement_false : ¬ C71_final_statement := by
  intro h
  have := h { nVersion := 2, vin := [{ prevout := ⟨zero32, 0⟩ }, { prevout := ⟨zero32, 1⟩ }], vout := [], nLockTime := 0, wit := {} }
    { nVersion := 2, vin := [{ prevout := ⟨zero32, 0⟩ }], vout := [], nLockTime := 0, wit := {} } _
    ((C71_final _ _ _).2 ⟨rfl, ⟨[⟨zero32, 1⟩], rfl⟩⟩)
  exact absurd (congrArg List.length this) (by decide)

/-! ### The fee output -/

theorem insert_mem {u v : Utxo} {l : List Utxo} : v ∈ insertUtxo u l ↔ v = u ∨ v ∈ l := by
  induction l with
  | nil => simp [insertUtxo]
  | cons x l ih =>
    unfold insertUtxo
    split
    · simp
    · simp only [List.mem_cons, ih]
      tauto

theorem sort_mem {v : Utxo} {l : List Utxo} : v ∈ sortUtxos l ↔ v ∈ l := by
  induction l with
  | nil => simp [sortUtxos]
  | cons x l ih =>
    show v ∈ insertUtxo x (sortUtxos l) ↔ _
    rw [insert_mem, ih, List.mem_cons]

theorem insert_sorted {u : Utxo} {l : List Utxo} (h : l.Pairwise fun x y => x.amount ≤ y.amount) :
    (insertUtxo u l).Pairwise fun x y => x.amount ≤ y.amount := by
  induction l with
  | nil => simp [insertUtxo]
  | cons x l ih =>
    unfold insertUtxo
    have h' := List.pairwise_cons.1 h
    split
    · rename_i hle
      refine List.pairwise_cons.2 ⟨?_, h⟩
      intro y hy
      rcases List.mem_cons.1 hy with rfl | hy
      · exact hle
      · exact Int.le_trans hle (h'.1 y hy)
    · rename_i hle
      refine List.pairwise_cons.2 ⟨?_, ih h'.2⟩
      intro y hy
      rcases insert_mem.1 hy with rfl | hy
      · omega
      · exact h'.1 y hy

theorem sort_sorted (l : List Utxo) : (sortUtxos l).Pairwise fun x y => x.amount ≤ y.amount := by
  induction l with
  | nil => simp [sortUtxos]
  | cons x l ih => exact insert_sorted ih

theorem find_first {l : List Utxo} (hs : l.Pairwise fun x y => x.amount ≤ y.amount) {p : Utxo → Bool} {u : Utxo} (h : l.find? p = some u) :
    ∀ v ∈ l, p v = true → u.amount ≤ v.amount := by
  induction l with
  | nil => simp at h
  | cons x l ih =>
    have hs' := List.pairwise_cons.1 hs
    intro v hv hp
    rw [List.find?_cons] at h
    split at h
    · cases h
      rcases List.mem_cons.1 hv with rfl | hv
      · exact Int.le_refl _
      · exact hs'.1 v hv
    · rename_i hx
      rcases List.mem_cons.1 hv with rfl | hv
      · rw [hp] at hx; cases hx
      · exact ih hs'.2 h v hv hp

/-- C71: the output to pay the fee from is the smallest that is enough, twice over, and hides its asset. -/
theorem C71_fee {l : List Utxo} {u : Utxo} (h : findFeeUtxo l = .ok u) :
    u ∈ l ∧ 20000 ≤ u.amount ∧ (∀ v ∈ l, 20000 ≤ v.amount → u.amount ≤ v.amount) ∧ u.assetCommitment ≠ none := by
  unfold findFeeUtxo pickFee at h
  split at h
  · cases h
  · rename_i v hv
    split at h
    · cases h
    · rename_i hn
      cases h
      have h1 := List.mem_of_find?_eq_some hv
      have h2 := List.find?_some hv
      have h3 := find_first (sort_sorted l) hv
      have hf : fixedFee * 2 = 20000 := rfl
      refine ⟨sort_mem.1 h1, by simpa [hf] using h2, ?_, by simpa using hn⟩
      intro w hw hle
      exact h3 w (sort_mem.2 hw) (by simpa [hf] using hle)

/-- C71: Alice dies exactly if nothing is enough; if the first of the smallest that are enough does not
hide its asset, the misspelt method is called. -/
theorem C71_fee_stops (l : List Utxo) :
    (findFeeUtxo l = .error .died ↔ ∀ v ∈ l, v.amount < 20000) ∧
    ((∃ v ∈ l, 20000 ≤ v.amount) → (∀ v ∈ l, 20000 ≤ v.amount → v.assetCommitment = none) →
      findFeeUtxo l = .error (.raised .attributeError)) := by
  have hf : fixedFee * 2 = 20000 := rfl
  unfold findFeeUtxo pickFee
  cases hc : (sortUtxos l).find? fun u => fixedFee * 2 ≤ u.amount with
  | none =>
    have hall : ∀ v ∈ l, v.amount < 20000 := by
      intro v hv
      have := List.find?_eq_none.1 hc v (sort_mem.2 hv)
      simp only [hf, decide_eq_true_eq] at this
      omega
    refine ⟨⟨fun _ => hall, fun _ => rfl⟩, ?_⟩
    rintro ⟨v, hv, hle⟩
    have := hall v hv
    omega
  | some u =>
    have h1 := sort_mem.1 (List.mem_of_find?_eq_some hc)
    have h2 := List.find?_some hc
    simp only [hf, decide_eq_true_eq] at h2
    dsimp only
    refine ⟨⟨?_, ?_⟩, ?_⟩
    · intro h
      split at h <;> cases h
    · intro h
      have := h u h1
      omega
    · intro _ h
      rw [h u h1 h2]
      rfl

end Verif.AssetSwap
