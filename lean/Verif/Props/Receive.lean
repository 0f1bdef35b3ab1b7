import Verif.Props.OnlyKey
import Verif.Props.NodeAddress
import Verif.Props.Issue
/-
C107: a wallet that keeps one secret opens what is paid to its addresses, and nothing else.
-/
namespace Verif.Receive
open Verif Spec AddrText

/-- A confidential address of a wallet: the blinding key is derived from the secret and the script. -/
structure Given (E : Env) (secret : Bytes) (adr ca : Addr) (spk key : Bytes) : Prop where
  ok : AddrOk adr
  script : adr.toScriptPubKey = .ok spk
  derived : deriveBlindingKey E.h E.z.secValid secret (.elements spk) = .ok key
  made : ∃ cur cls, fromUnconfidential (fullyValid E.z) cur cls adr (E.z.pubOf key) = .ok ca

/-- The payer puts script and pubkey of an address into output `j` and has it blinded. -/
structure Pays (E : Env) (A : BlindArgs) (tx tx' : Tx) (j : Nat) (bfs abfs : List Bytes) (a : Addr) : Prop where
  script : a.toScriptPubKey = .ok (tx.vout.getD j {}).scriptPubKey
  pubkey : A.pubkeys.getD j [] = a.blindingPubkey
  blinds : ∃ num, blindTransaction E A tx = (.ok (.success num bfs abfs), tx')
  proof : (tx'.outWit j).rangeproof ≠ []

theorem scripts_same {E : Env} {A : BlindArgs} {tx tx' : Tx} {r} (h : blindTransaction E A tx = (r, tx')) (j : Nat) :
    (tx'.vout.getD j {}).scriptPubKey = (tx.vout.getD j {}).scriptPubKey := by
  have := (C32_only_asked E A tx).scripts
  rw [h] at this
  have := congrArg (fun l : List Bytes => l.getD j []) this
  simp only [List.getD_eq_getElem?_getD, List.getElem?_map] at this
  rw [List.getD_eq_getElem?_getD, List.getD_eq_getElem?_getD]
  revert this
  show ((Option.map TxOut.scriptPubKey tx'.vout[j]?).getD [] = (Option.map TxOut.scriptPubKey tx.vout[j]?).getD []) → _
  cases tx'.vout[j]? <;> cases tx.vout[j]? <;> exact fun h => h

variable {H : Bytes → Bytes} {S : SegwitCodec}

/-- C107.  The wallet gives out the text of an address; whoever reads it, with whatever classes, and
pays to what was read, has made an output from whose script the wallet derives the key again, and
the key opens it. -/
theorem C107_received {E : Env} {secret : Bytes} {adr ca ca' : Addr} {spk key : Bytes} {s : PyStr} {l} {A : BlindArgs} {tx tx' : Tx} {j : Nat} {bfs abfs}
    (F : Formats E.z) (W : Rewinds E.z) (hfv : KeyLens (fullyValid E.z)) (hH : ∀ x, (H x).length = 32) (hS : S.Standard lower)
    (g : Given E secret adr ca spk key) (hs : addrStr H S ca = .ok s) (hr : addrParse H S l s = .ok ca') (p : Pays E A tx tx' j bfs abfs ca') :
    deriveBlindingKey E.h E.z.secValid secret (.elements (tx'.vout.getD j {}).scriptPubKey) = .ok key ∧
    ∃ asset v, (tx.vout.getD j {}).nAsset = 1 :: asset ∧ (tx.vout.getD j {}).nValue = 1 :: v ∧ asset.length = 32 ∧ v.length = 8 ∧
      (beVal v ≤ 21 * 10 ^ 14 →
        unblind E key (tx'.vout.getD j {}).nValue (tx'.vout.getD j {}).nAsset (tx'.vout.getD j {}).nNonce
          (tx'.vout.getD j {}).scriptPubKey (tx'.outWit j).rangeproof
          = .ok (.success asset (beVal v) (bfs.getD j []) (abfs.getD j []))) := by
  obtain ⟨cur, cls, hm⟩ := g.made
  obtain ⟨-, hl, -, -, -, -, hok, hpk, hsp, -⟩ := C28_sound _ hfv cur cls adr _ ca g.ok hm
  have e : ca = ca' := C88_one hH hS [clsOf ca] l s ca ca' (by rw [addrParse, addrNew_str hH hS hok hs]) hr
  subst e
  obtain ⟨num, hb⟩ := p.blinds
  have hsame := scripts_same hb j
  have hscript : (tx.vout.getD j {}).scriptPubKey = spk := by
    have := p.script
    rw [hsp, g.script] at this
    exact (Except.ok.inj this).symm
  obtain ⟨_, -, -, hval⟩ := deriveBlindingKey_ok g.derived
  refine ⟨by rw [hsame, hscript]; exact g.derived, ?_⟩
  exact C36_unblinds F W hb (p.pubkey.trans hpk) hval p.proof (fun h => by rw [h] at hl; cases hl)

/-- C107, nobody else: a key derived from any secret and any script opens the output only if these are
the secret of the wallet and the script of the address, unless hashes clash.  `hinj`: different keys
have different pubkeys. -/
theorem C107_only {E : Env} {secret secret' : Bytes} {adr ca : Addr} {spk key key' : Bytes} {script' : ScriptArg} {A : BlindArgs} {tx tx' : Tx} {j : Nat} {bfs abfs}
    (W : Rewinds E.z) (K : Keyed E.z) (hfv : KeyLens (fullyValid E.z))
    (hinj : ∀ k k', E.z.secValid k = true → E.z.secValid k' = true → E.z.pubOf k = E.z.pubOf k' → k = k')
    (hn : secret.length = 32) (hn' : secret'.length = 32)
    (g : Given E secret adr ca spk key) (p : Pays E A tx tx' j bfs abfs ca)
    (hd : deriveBlindingKey E.h E.z.secValid secret' script' = .ok key')
    {cv ca' script asset amount bf abf}
    (hu : unblind E key' cv ca' (tx'.vout.getD j {}).nNonce script (tx'.outWit j).rangeproof = .ok (.success asset amount bf abf)) :
    (secret' = secret ∧ script'.accepted = some spk) ∨ Clash E key' key (tx'.vout.getD j {}).nNonce ∨
    ∃ t, script'.accepted = some t ∧
      (CollAt E.h.fn (hmacInner secret' t) (hmacInner secret spk) ∨ CollAt E.h.fn (hmacOuter E.h secret' t) (hmacOuter E.h secret spk)) := by
  obtain ⟨cur, cls, hm⟩ := g.made
  obtain ⟨-, hl, -, -, -, -, hok, hpk, hsp, -⟩ := C28_sound _ hfv cur cls adr _ ca g.ok hm
  obtain ⟨num, hb⟩ := p.blinds
  obtain ⟨_, -, -, hval⟩ := deriveBlindingKey_ok g.derived
  obtain ⟨_, -, -, hval'⟩ := deriveBlindingKey_ok hd
  rcases C105_only W K hb (p.pubkey.trans hpk) hval (fun h => by rw [h] at hl; cases hl) p.proof hval' hu with hc | ⟨hc, -⟩
  · exact .inr (.inl hc)
  · have e := hinj _ _ hval' hval hc
    subst e
    rcases C42_script_specific E.h _ secret' secret script' (.elements spk) key' hn' hn hd g.derived with h | ⟨t, u, h1, h2, h3⟩
    · exact .inl ⟨h.1, h.2⟩
    · cases h2
      exact .inr (.inr ⟨t, h1, h3⟩)

/-! A wallet, an address of it, and a payment. -/

def adr : Addr := ⟨.liquid, .p2wpkh, false, List.replicate 20 255⟩
def spk : Bytes := [0, 20] ++ List.replicate 20 255
def key : Bytes := hmacSha256 Toy.keyedEnv.h (Toy.b32 9) spk
def ca : Addr := ⟨.liquid, .p2wpkh, true, Toy.keyedEnv.z.pubOf key ++ adr.payload⟩

theorem ca_ok : AddrOk ca := by
  show ca.payload.length = 20 + 33
  decide +kernel

theorem keyLens : KeyLens (fullyValid Toy.keyedEnv.z) := by
  intro p h
  simp [fullyValid, Toy.keyedEnv, Toy.keyed, Toy.zkp] at h
  exact .inl h.2.1

theorem given : Given Toy.keyedEnv (Toy.b32 9) adr ca spk key where
  ok := rfl
  script := rfl
  derived := by decide +kernel
  made := ⟨.liquid, .general .liquid, by decide +kernel⟩

def payTx : Tx := { Toy.balTx with vout := Toy.balTx.vout.set 0 { Toy.balTx.vout.getD 0 {} with scriptPubKey := spk } }
def payArgs : BlindArgs := { Toy.balArgs with pubkeys := Toy.balArgs.pubkeys.set 0 ca.blindingPubkey }

theorem pays : ∃ b a t', Pays Toy.keyedEnv payArgs payTx t' 0 b a ca := by
  obtain ⟨b, a, t', hx⟩ := success_of (x := blindTransaction Toy.keyedEnv payArgs payTx) (n := 4) (by decide +kernel)
  have h3 : ((blindTransaction Toy.keyedEnv payArgs payTx).2.outWit 0).rangeproof ≠ [] := by decide +kernel
  rw [hx] at h3
  exact ⟨b, a, t', by decide +kernel, by decide +kernel, ⟨_, hx⟩, h3⟩

theorem pub_inj (k k' : Bytes) (h : Toy.keyedEnv.z.pubOf k = Toy.keyedEnv.z.pubOf k') : k = k' := (List.cons.inj h).2

-- the wallet finds the three coins
example : ∃ b a t', Pays Toy.keyedEnv payArgs payTx t' 0 b a ca ∧
    deriveBlindingKey Toy.keyedEnv.h Toy.keyedEnv.z.secValid (Toy.b32 9) (.elements (t'.vout.getD 0 {}).scriptPubKey) = .ok key ∧
    unblind Toy.keyedEnv key (t'.vout.getD 0 {}).nValue (t'.vout.getD 0 {}).nAsset (t'.vout.getD 0 {}).nNonce
      (t'.vout.getD 0 {}).scriptPubKey (t'.outWit 0).rangeproof = .ok (.success (Toy.b32 5) 3 (b.getD 0 []) (a.getD 0 [])) := by
  obtain ⟨b, a, t', p⟩ := pays
  obtain ⟨s, hs, -⟩ := C88_reads (H := AddrText.Toy.hash) (S := AddrText.Toy.codec) AddrText.Toy.hash_len AddrText.Toy.standard ca ca_ok
  have hr : addrParse AddrText.Toy.hash AddrText.Toy.codec [clsOf ca] s = .ok ca := by
    rw [addrParse, addrNew_str AddrText.Toy.hash_len AddrText.Toy.standard ca_ok hs]
  obtain ⟨h1, asset, v, e1, e2, -, -, h⟩ := C107_received (E := Toy.keyedEnv) Toy.keyed_formats Toy.keyed_rewinds keyLens
    AddrText.Toy.hash_len AddrText.Toy.standard given hs hr p
  have f1 : (payTx.vout.getD 0 {}).nAsset = 1 :: Toy.b32 5 := by decide +kernel
  have f2 : (payTx.vout.getD 0 {}).nValue = 1 :: beBytes 8 3 := by decide +kernel
  have g1 : asset = Toy.b32 5 := (List.cons.inj (e1.symm.trans f1)).2
  have g2 : v = beBytes 8 3 := (List.cons.inj (e2.symm.trans f2)).2
  subst g1 g2
  have hv : beVal (beBytes 8 3) = 3 := by decide
  rw [hv] at h
  exact ⟨b, a, t', p, h1, h (by omega)⟩

-- the premises of `C107_only` are met by the wallet itself; the key of another address does not open the output
example : ∃ k, deriveBlindingKey Toy.keyedEnv.h Toy.keyedEnv.z.secValid (Toy.b32 9) (.elements ([0, 20] ++ List.replicate 20 254)) = .ok k ∧ k ≠ key ∧
    (let t' := (blindTransaction Toy.keyedEnv payArgs payTx).2
     unblind Toy.keyedEnv k (t'.vout.getD 0 {}).nValue (t'.vout.getD 0 {}).nAsset (t'.vout.getD 0 {}).nNonce
      (t'.vout.getD 0 {}).scriptPubKey (t'.outWit 0).rangeproof = .ok (.failure "unable to rewind rangeproof")) :=
  ⟨hmacSha256 Toy.keyedEnv.h (Toy.b32 9) ([0, 20] ++ List.replicate 20 254), by decide +kernel, by decide +kernel, by decide +kernel⟩

end Verif.Receive
