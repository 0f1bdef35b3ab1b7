import Verif.Props.BlindUnblind
import Verif.Props.BlindEnd
import Verif.Spec.OnlyKey
/-
C105: a blinded output opens for its recipient only.
-/
namespace Verif

/-- The script goes into the proof in a way that tells scripts apart. -/
theorem extra_inj {s t : Bytes} (h : (if s = [] then none else some s) = (if t = [] then none else some t)) : s = t := by
  by_cases hs : s = [] <;> by_cases ht : t = [] <;> simp_all

/-- C105.  An output that blinding equipped with a rangeproof, shown with any commitments, script
and key: if unblinding it with the nonce it has succeeds, then the key is one of the pubkey it
was blinded for and the script is the one it had, unless the secret it shares with the nonce has the
hash of the recipient's by accident. -/
theorem C105_only {E : Env} {A : BlindArgs} {tx tx' : Tx} {num bfs abfs} {j : Nat} {key l : Bytes} (W : Rewinds E.z) (K : Keyed E.z)
    (h : blindTransaction E A tx = (.ok (.success num bfs abfs), tx')) (hj : A.pubkeys.getD j [] = E.z.pubOf key)
    (hk : E.z.secValid key = true) (hne : E.z.pubOf key ≠ []) (hp : (tx'.outWit j).rangeproof ≠ [])
    (hl : E.z.secValid l = true) {cv ca script asset amount bf abf}
    (hu : unblind E l cv ca (tx'.vout.getD j {}).nNonce script (tx'.outWit j).rangeproof = .ok (.success asset amount bf abf)) :
    Clash E l key (tx'.vout.getD j {}).nNonce ∨ E.z.pubOf l = E.z.pubOf key ∧ script = (tx.vout.getD j {}).scriptPubKey := by
  have hb := blinded_of_proof h (by rw [hj]; exact hne) hp
  obtain ⟨-, ⟨a1, v, gen, com, seed, x, a, p, hh, n1, n2, n3, n4, ha, hsig, hpp⟩, -⟩ := hb
  obtain ⟨nonce, extra, g, c, msg, hn, -, -, hr, -⟩ := ((C37_success_iff ..).1 hu).rewound
  rw [hpp] at hr
  obtain ⟨e1, e2⟩ := K.sealed _ _ _ _ _ _ _ hsig hr
  rw [ha.nonce_eq] at e1
  rw [ha.extra_eq] at e2
  rw [hj, W.ecdh seed key n1 hk] at n4
  cases hn with
  | direct hd => rw [n2] at hd; rw [hd] at n3; cases n3
  | shared s h1 h2 h3 =>
    by_cases hs : s = x
    · subst hs
      rw [n2] at h3
      exact .inr ⟨K.apart l key seed s hl hk n1 h3 n4, extra_inj e2⟩
    · exact .inl ⟨s, x, h3, by rw [n2]; exact n4, hs, e1⟩

/-- C105, both ways: if no hashes clash, the keys that open the output as it stands in the
transaction are those of its pubkey, given that its amount is one a transaction can have. -/
theorem C105_exactly {E : Env} {A : BlindArgs} {tx tx' : Tx} {num bfs abfs} {j : Nat} {key l : Bytes} (F : Formats E.z)
    (W : Rewinds E.z) (K : Keyed E.z) (hc : ¬ Clash E l key (tx'.vout.getD j {}).nNonce)
    (h : blindTransaction E A tx = (.ok (.success num bfs abfs), tx')) (hj : A.pubkeys.getD j [] = E.z.pubOf key)
    (hk : E.z.secValid key = true) (hne : E.z.pubOf key ≠ []) (hp : (tx'.outWit j).rangeproof ≠ [])
    (hm : ∀ v, (tx.vout.getD j {}).nValue = 1 :: v → beVal v ≤ 21 * 10 ^ 14) (hl : E.z.secValid l = true) :
    (∃ asset amount bf abf, unblind E l (tx'.vout.getD j {}).nValue (tx'.vout.getD j {}).nAsset (tx'.vout.getD j {}).nNonce
      (tx'.vout.getD j {}).scriptPubKey (tx'.outWit j).rangeproof = .ok (.success asset amount bf abf)) ↔
    E.z.pubOf l = E.z.pubOf key := by
  constructor
  · rintro ⟨asset, amount, bf, abf, hu⟩
    exact ((C105_only W K h hj hk hne hp hl hu).resolve_left hc).1
  · intro e
    obtain ⟨asset, v, -, h2, -, -, h5⟩ := C36_unblinds F W h (hj.trans e.symm) hl hp (by rw [e]; exact hne)
    exact ⟨_, _, _, _, h5 (hm v h2)⟩

/-- C105, of issued amounts: whatever blinding ends with, a proof it made for an issued amount or a
number of tokens lets no key open the amount but the very key given for it. -/
theorem C105_issuance (E : Env) (A : BlindArgs) (tx : Tx) (K : Keyed E.z) (hsz : ∀ txin ∈ tx.vin, InputSizes txin) (i : Nat) (token : Bool)
    (h : ((blindTransaction E A tx).2.inWit i).issuedProof token ≠ (tx.inWit i).issuedProof token)
    {l cv ca script asset amount bf abf}
    (hu : unblind E l cv ca [] script (((blindTransaction E A tx).2.inWit i).issuedProof token) = .ok (.success asset amount bf abf)) :
    A.issuanceKey i token = some l := by
  obtain ⟨key, hk, -, v, gen, com, bf', a, p, -, -, -, -, -, -, ha, hs, hp⟩ := C61_issuance_proof E A tx hsz i token h
  obtain ⟨nonce, extra, g, c, msg, hn, -, -, hr, -⟩ := ((C37_success_iff ..).1 hu).rewound
  rw [hp] at hr
  have e := (K.sealed _ _ _ _ _ _ _ hs hr).1
  rw [ha.nonce_eq] at e
  cases hn with
  | direct _ => rw [hk, e]
  | shared s h1 _ _ => exact absurd rfl h1

/-! A library of the toy kind that keeps these promises as well. -/
namespace Toy

def encExtra : Option Bytes → Bytes
  | none => [0]
  | some e => 1 :: e

theorem encExtra_inj {e e' : Option Bytes} (h : encExtra e = encExtra e') : e = e' := by
  cases e <;> cases e' <;> simp_all [encExtra]

/-- Secrets are added, so that they can be told apart; a proof names nonce and extra data. -/
def keyed : Zkp :=
  { zkp with
    secValid := fun k => k.length == 32 && decide (beVal k < secpN)
    ecdh := fun k pk => some (beBytes 32 ((num k + num (pk.drop 1)) % secpN))
    rangeSign := fun a =>
      if a.nonce.length = 32 ∧ (proofOf a).length = 105 ∧ (encExtra a.extraCommit).length ≤ 4997 then
        some (proofOf a ++ (a.nonce ++ encExtra a.extraCommit)) else none
    rangeRewind := fun n c p e g =>
      if n.length = 32 ∧ p.drop 105 = n ++ encExtra e then zkp.rangeRewind n c (p.take 105) e g else none
    rangeRewind_len := fun n c p e g x h => by
      split at h
      · exact zkp.rangeRewind_len _ _ _ _ _ _ h
      · cases h }

theorem keyed_formats : Formats keyed :=
  { formats with
    proof := fun a p h => by
      simp only [keyed] at h
      split at h
      · cases h; simp [proofOf]
      · cases h }

theorem keyed_rewinds : Rewinds keyed where
  rewind a p cs c gs g h hm hb hv h1 h2 h3 h4 h5 := by
    simp only [keyed] at h
    split at h
    · rename_i hc
      cases h
      have : zkp.rangeSign a = some (proofOf a) := by
        show (if (proofOf a).length ≤ 5134 then some (proofOf a) else none) = _
        rw [if_pos (by omega)]
      obtain ⟨msg, hr, hg⟩ := rewinds.rewind a _ cs c gs g this hm hb hv h1 h2 h3 h4 h5
      refine ⟨msg, ?_, hg⟩
      show (if _ then _ else _) = _
      rw [if_pos ⟨hc.1, List.drop_left' hc.2.1⟩, List.take_left' hc.2.1]
      exact hr
    · cases h
  pubValid k h := by simp [keyed] at h; simp [keyed, zkp, h.1]
  ecdh k l _ _ := by simp [keyed, zkp, Nat.add_comm]

theorem keyed_keyed : Keyed keyed where
  «sealed» a p n c e g x h hr := by
    simp only [keyed] at h hr
    split at h
    · rename_i hc
      cases h
      split at hr
      · rename_i hd
        rw [List.drop_left' hc.2.1] at hd
        obtain ⟨h1, h2⟩ := List.append_inj hd.2 (by rw [hc.1, hd.1])
        exact ⟨h1.symm, (encExtra_inj h2).symm⟩
      · cases hr
    · cases h
  apart k l m s hk hl _ h h' := by
    simp [keyed] at hk hl
    have := h.trans h'.symm
    simp only [keyed, Option.some.injEq] at this
    have := congrArg beVal this
    have hlt : ∀ n, n % secpN < 256 ^ 32 := fun n => (Nat.mod_lt _ secpN_pos).trans secpN_lt
    rw [beVal_beBytes_of_lt (hlt _), beVal_beBytes_of_lt (hlt _)] at this
    have e : num k ≡ num l [MOD secpN] := Nat.ModEq.add_right_cancel' _ this
    have e' : beVal k = beVal l := by
      have : num k % secpN = num l % secpN := e
      simp only [num, Nat.mod_mod] at this
      rwa [Nat.mod_eq_of_lt hk.2, Nat.mod_eq_of_lt hl.2] at this
    show 2 :: k = 2 :: l
    rw [← beBytes_beVal hk.1, ← beBytes_beVal hl.1, e']

def keyedEnv : Env := { Toy.env with z := keyed }

end Toy

-- the keys of a concrete run: the one of the pubkey opens the output, another one does not
example : ∃ b a t', blindTransaction Toy.keyedEnv Toy.balArgs Toy.balTx = (.ok (.success 4 b a), t') ∧
    Toy.balArgs.pubkeys.getD 0 [] = Toy.keyedEnv.z.pubOf (Toy.b32 3) ∧ (t'.outWit 0).rangeproof ≠ [] ∧
    Toy.keyedEnv.z.secValid (Toy.b32 3) = true ∧ Toy.keyedEnv.z.secValid (Toy.b32 4) = true ∧
    ¬ Clash Toy.keyedEnv (Toy.b32 4) (Toy.b32 3) (t'.vout.getD 0 {}).nNonce ∧
    ∀ cv ca script asset amount bf abf,
      unblind Toy.keyedEnv (Toy.b32 4) cv ca (t'.vout.getD 0 {}).nNonce script (t'.outWit 0).rangeproof ≠ .ok (.success asset amount bf abf) := by
  obtain ⟨b, a, t', hx⟩ := success_of (x := blindTransaction Toy.keyedEnv Toy.balArgs Toy.balTx) (n := 4) (by decide +kernel)
  have h3 : ((blindTransaction Toy.keyedEnv Toy.balArgs Toy.balTx).2.outWit 0).rangeproof ≠ [] := by decide +kernel
  have hf : (((Toy.keyedEnv.z.ecdh (Toy.b32 4) ((blindTransaction Toy.keyedEnv Toy.balArgs Toy.balTx).2.vout.getD 0 {}).nNonce).map Toy.keyedEnv.h.fn) ≠
      ((Toy.keyedEnv.z.ecdh (Toy.b32 3) ((blindTransaction Toy.keyedEnv Toy.balArgs Toy.balTx).2.vout.getD 0 {}).nNonce).map Toy.keyedEnv.h.fn)) := by decide +kernel
  rw [hx] at h3 hf
  have hc : ¬ Clash Toy.keyedEnv (Toy.b32 4) (Toy.b32 3) (t'.vout.getD 0 {}).nNonce := by
    rintro ⟨s, t, hs, ht, -, e⟩
    exact hf (by dsimp only; rw [hs, ht, Option.map_some, Option.map_some, e])
  refine ⟨b, a, t', hx, by decide +kernel, h3, by decide +kernel, by decide +kernel, hc, fun cv ca script asset amount bf abf hu => ?_⟩
  have := ((C105_only (E := Toy.keyedEnv) Toy.keyed_rewinds Toy.keyed_keyed hx (key := Toy.b32 3) (by decide +kernel) (by decide +kernel)
    (by decide +kernel) h3 (by decide +kernel) hu).resolve_left hc).1
  revert this
  decide +kernel

-- the issued amount of the same run: the key given for it opens it, and others do not
example : let t' := (blindTransaction Toy.keyedEnv Toy.balArgs Toy.balTx).2
    (t'.inWit 0).issuedProof false ≠ (Toy.balTx.inWit 0).issuedProof false ∧ Toy.balArgs.issuanceKey 0 false = some (Toy.b32 8) ∧
    (∃ amount bf abf, unblind Toy.keyedEnv (Toy.b32 8) ((t'.vin.getD 0 default).issued false)
      (1 :: pseudoId Toy.keyedEnv (Toy.balTx.vin.getD 0 default) false) [] [] ((t'.inWit 0).issuedProof false) =
      .ok (.success (pseudoId Toy.keyedEnv (Toy.balTx.vin.getD 0 default) false) amount bf abf)) ∧
    unblind Toy.keyedEnv (Toy.b32 9) ((t'.vin.getD 0 default).issued false)
      (1 :: pseudoId Toy.keyedEnv (Toy.balTx.vin.getD 0 default) false) [] [] ((t'.inWit 0).issuedProof false) = .ok (.failure "unable to rewind rangeproof") := by
  refine ⟨by decide +kernel, by decide +kernel, ⟨1, Toy.b32 5, List.replicate 32 0, ?_⟩, ?_⟩ <;> decide +kernel

end Verif
