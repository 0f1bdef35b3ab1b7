import Verif.Spec.SwapSpend
import Verif.Props.AssetSwap
import Verif.Props.KeyReveal
/-
C76: the Elements side of examples/confidential-cross-chain-atomic-swap.py.
-/
namespace Verif.SwapSpend
open Verif Spec CrossSwap SpendAddr

theorem up_ok {α : Type} {x : Except PyErr α} {a : α} : up x = .ok a ↔ x = .ok a := by
  cases x <;> simp [up]

theorem p2sh_eq {W : World} (h : ∀ b, (W.hash160 b).length = 20) (redeem : Bytes) :
    p2sh W redeem = [0xa9, 0x14] ++ W.hash160 redeem ++ [0x87] := by
  simp [p2sh, CrossSwap.script, Elem.bytes, pushData_20 (h _)]

theorem openVout_ok {E : Env} {W : World} {key : Bytes} {wits : List TxOutWitness} {n : Nat} {o : TxOut} {u : Opened}
    (h : openVout E W key wits n o = .ok u) :
    u.n = n ∧ ∃ w amount, wits[n]? = some w ∧ u.amount = (amount : Nat) ∧ amount ≤ 21 * 10 ^ 14 ∧
      unblind E key o.nValue o.nAsset o.nNonce o.scriptPubKey w.rangeproof = .ok (.success W.asset amount u.bf u.abf) := by
  unfold openVout at h
  obtain ⟨w, h1, h⟩ := exc_bind_ok.1 h
  obtain ⟨r, h2, h⟩ := exc_bind_ok.1 h
  obtain ⟨ro, h3, h⟩ := exc_bind_ok.1 h
  rw [up_ok] at h1 h2 h3
  have hw : wits[n]? = some w := by
    unfold pyGet at h1
    have : ¬ ((n : Int) < 0) := by omega
    simp only [if_neg this, Int.toNat_natCast] at h1
    cases hg : wits[n]? with
    | none => rw [hg] at h1; cases h1
    | some x => rw [hg] at h1; cases h1; rfl
  cases ro with
  | unblindingSuccess asset amount bf abf =>
    dsimp only at h
    split at h
    · cases h
    · rename_i ha
      simp only [ne_eq, not_not] at ha
      cases h
      cases r with
      | failure m =>
        simp only [UnblindResult.obj, unblindingFailureNew] at h3
        obtain ⟨_, -, h3⟩ := exc_bind_ok.1 h3
        cases h3
      | success asset' amount' bf' abf' =>
        simp only [UnblindResult.obj, unblindingSuccessNew] at h3
        split at h3
        · cases h3
          subst ha
          exact ⟨rfl, w, amount', hw, rfl, ((C37_success_iff ..).1 h2).money, h2⟩
        · cases h3
  | blindingFailure | unblindingFailure | blindingSuccess => cases h

theorem findVout_ok {E : Env} {W : World} {spk key : Bytes} {wits : List TxOutWitness} {u : Opened} :
    ∀ {os : List TxOut} {n : Nat}, findVout E W spk key wits n os = .ok u →
    ∃ k o, u.n = n + k ∧ FirstTo spk os k o ∧ openVout E W key wits (n + k) o = .ok u
  | [], n, h => by cases h
  | o :: os, n, h => by
    unfold findVout at h
    split at h
    · rename_i hs
      have := (openVout_ok h).1
      exact ⟨0, o, by omega, ⟨rfl, hs, fun m p hm => absurd hm (by omega)⟩, h⟩
    · rename_i hs
      obtain ⟨k, p, h1, ⟨h2, h3, h4⟩, h5⟩ := findVout_ok h
      refine ⟨k + 1, p, by omega, ⟨h2, h3, ?_⟩, by rwa [show n + (k + 1) = n + 1 + k by omega]⟩
      intro i q hi hq
      cases i with
      | zero => cases hq; exact hs
      | succ i => exact h4 i q (by omega) hq

/-- What is found is a deposit. -/
theorem findVout_deposit {E : Env} {W : World} {key contract : Bytes} {tx : Tx} {u : Opened} (hh : ∀ b, (W.hash160 b).length = 20)
    (h : findVout E W (p2sh W contract) key tx.wit.vtxoutwit 0 tx.vout = .ok u) :
    ∃ o amount, Deposit E W key contract tx u.n o amount u.bf u.abf ∧ u.amount = (amount : Nat) ∧ amount ≤ 21 * 10 ^ 14 := by
  obtain ⟨k, o, h1, h2, h3⟩ := findVout_ok h
  rw [Nat.zero_add] at h1 h3
  obtain ⟨-, w, amount, h4, h5, h6, h7⟩ := openVout_ok h3
  rw [p2sh_eq hh] at h2
  refine ⟨o, amount, ⟨h1 ▸ h2, ?_, ?_⟩, h5, h6⟩
  · rw [h1]
    exact (List.getElem?_eq_some_iff.1 h4).1
  · have : tx.outWit u.n = w := by
      unfold Tx.outWit
      rw [h1, h4]
      rfl
    rw [this]
    exact h7

/-- The transaction before blinding. -/
def plainElt (asset pub dpub s id : Bytes) (n : Nat) : Tx :=
  ⟨2, [{ prevout := ⟨id, n⟩ }],
    [{ nValue := 1 :: beBytes 8 100000000, nAsset := 1 :: asset, scriptPubKey := s, nNonce := pub },
     { nValue := 1 :: beBytes 8 0, nAsset := 1 :: asset, scriptPubKey := [0x6a], nNonce := dpub },
     { nValue := 1 :: beBytes 8 1000000, nAsset := 1 :: asset }], 0, ⟨[{}], [{}, {}, {}]⟩⟩

theorem eltPlain_ok {E : Env} {W : World} {j : Job} {tx : Tx} {pubs : List Bytes} (h : eltPlain E W j = .ok (tx, pubs)) :
    ∃ s, E.z.secValid j.dummy = true ∧ j.txid.length = 32 ∧ j.n < 2 ^ 32 ∧ W.asset.length = 32 ∧ j.dst.conf = true ∧
      j.dst.toScriptPubKey = .ok s ∧ pubs = [j.dst.blindingPubkey, E.z.pubOf j.dummy] ∧
      tx = plainElt W.asset j.dst.blindingPubkey (E.z.pubOf j.dummy) s j.txid j.n ∧
      ((E.z.pubOf j.dummy).length = 0 ∨ (E.z.pubOf j.dummy).length = 33) := by
  unfold eltPlain at h
  split at h
  · cases h
  · rename_i hsec
    simp only [Bool.not_eq_true', Bool.not_eq_false] at hsec
    split at h
    · cases h
    · rename_i hid
      obtain ⟨value, h1, h⟩ := exc_bind_ok.1 h
      obtain ⟨asset, h2, h⟩ := exc_bind_ok.1 h
      obtain ⟨s, h3, h⟩ := exc_bind_ok.1 h
      obtain ⟨pub, h4, h⟩ := exc_bind_ok.1 h
      obtain ⟨nonce, h5, h⟩ := exc_bind_ok.1 h
      obtain ⟨zero, h6, h⟩ := exc_bind_ok.1 h
      obtain ⟨dn, h7, h⟩ := exc_bind_ok.1 h
      obtain ⟨fv, h8, h⟩ := exc_bind_ok.1 h
      cases h
      have e1 := amount_bytes (n := 100000000) (by decide) h1
      have e2 := amount_bytes (n := 0) (by decide) h6
      have e3 := amount_bytes (n := 1000000) (by decide) h8
      have hasset : W.asset.length = 32 := by
        unfold assetFromAsset confNew at h2
        split at h2
        · rename_i hh
          rw [List.length_cons] at hh
          have e1 : assetKind.explicitSize = 33 := rfl
          have e2 : committedSize = 33 := rfl
          omega
        · cases h2
      have e4 : asset = 1 :: W.asset := by
        have := (C04_asset_recovered.1 W.asset hasset).1
        rw [h2] at this
        exact Except.ok.inj this
      have e5 : j.dst.conf = true ∧ pub = j.dst.blindingPubkey := by
        unfold AssetSwap.pubkeyOf at h4
        split at h4
        · cases h4
          exact ⟨by assumption, rfl⟩
        · cases h4
      have new : ∀ {b c : Bytes}, confNew nonceKind b = .ok c → c = b := by
        intro b c h
        unfold confNew at h
        split at h
        · cases h; rfl
        · cases h
      have e6 := new h5
      have e7 := new h7
      have e8 : (E.z.pubOf j.dummy).length = 0 ∨ (E.z.pubOf j.dummy).length = 33 := by
        unfold confNew at h7
        split at h7
        · rename_i hh
          exact hh.imp_right fun x => x.elim id id
        · cases h7
      obtain ⟨e5, rfl⟩ := e5
      subst e1 e2 e3 e4 e6 e7
      refine ⟨s, hsec, by omega, by omega, hasset, e5, h3, rfl, rfl, e8⟩

/-- Everything known when a spend was made. -/
structure Facts (E : Env) (W : World) (j : Job) (reveal : Option (Bytes × Bytes)) (t : Tx) (s : Bytes) (num : Nat) (bfs abfs : List Bytes)
    (tb : Tx) : Prop where
  dummy : E.z.secValid j.dummy = true
  id : j.txid.length = 32
  index : j.n < 2 ^ 32
  asset : W.asset.length = 32
  conf : j.dst.conf = true
  script : j.dst.toScriptPubKey = .ok s
  blind : blindTransaction E { descs := [⟨W.asset, agreed, j.bf, j.abf⟩], pubkeys := [j.dst.blindingPubkey, E.z.pubOf j.dummy], rand := j.rand }
    (plainElt W.asset j.dst.blindingPubkey (E.z.pubOf j.dummy) s j.txid j.n) = (.ok (.success num bfs abfs), tb)
  sign : eltSign E W j reveal tb = .ok t
  nonce : (E.z.pubOf j.dummy).length = 0 ∨ (E.z.pubOf j.dummy).length = 33

theorem eltSpend_ok {E : Env} {W : World} {j : Job} {reveal : Option (Bytes × Bytes)} {t : Tx} (h : eltSpend E W j reveal = .ok t) :
    ∃ s num bfs abfs tb, Facts E W j reveal t s num bfs abfs tb := by
  unfold eltSpend at h
  obtain ⟨⟨tx, pubs⟩, h1, h⟩ := exc_bind_ok.1 h
  rw [up_ok] at h1
  obtain ⟨s, a1, a2, a3, a4, a5, a6, rfl, rfl, a7⟩ := eltPlain_ok h1
  dsimp only at h
  split at h
  · cases h
  · cases h
  · rename_i num bfs abfs tb hb
    exact ⟨s, num, bfs, abfs, tb, a1, a2, a3, a4, a5, a6, hb, up_ok.1 h, a7⟩

section facts
variable {E : Env} {W : World} {j : Job} {reveal : Option (Bytes × Bytes)} {t : Tx} {s : Bytes} {num : Nat} {bfs abfs : List Bytes} {tb : Tx}

theorem Facts.asked (F : Facts E W j reveal t s num bfs abfs tb) :
    OnlyAsked { descs := [⟨W.asset, agreed, j.bf, j.abf⟩], pubkeys := [j.dst.blindingPubkey, E.z.pubOf j.dummy], rand := j.rand }
      (plainElt W.asset j.dst.blindingPubkey (E.z.pubOf j.dummy) s j.txid j.n) tb := by
  have := C32_only_asked E { descs := [⟨W.asset, agreed, j.bf, j.abf⟩], pubkeys := [j.dst.blindingPubkey, E.z.pubOf j.dummy], rand := j.rand }
      (plainElt W.asset j.dst.blindingPubkey (E.z.pubOf j.dummy) s j.txid j.n)
  rwa [F.blind] at this

theorem Facts.vin (F : Facts E W j reveal t s num bfs abfs tb) : tb.vin = [{ prevout := ⟨j.txid, j.n⟩ }] := by
  have h1 := F.asked.inputs
  have h2 := F.asked.amount 0 (by simp)
  have h3 := F.asked.tokens 0 (by simp)
  simp only [plainElt] at h1 h2 h3
  cases hv : tb.vin with
  | nil => rw [hv] at h1; simp at h1
  | cons i l =>
    rw [hv] at h1 h2 h3
    cases l with
    | cons => simp at h1
    | nil =>
      obtain ⟨p, ss, q, ⟨x, e, am, tk⟩, pg⟩ := i
      simp [TxIn.fixed] at h1 h2 h3
      obtain ⟨rfl, rfl, rfl, rfl, rfl, rfl⟩ := h1
      subst h2 h3
      rfl

/-- What signing leaves. -/
theorem Facts.signed (F : Facts E W j reveal t s num bfs abfs tb) :
    ∃ digest ss, sighashBase E.h j.contract t 0 1 = .ok (digest, false) ∧
      t = { tb with vin := [{ prevout := ⟨j.txid, j.n⟩, nSequence := eltSequence reveal.isSome, scriptSig := ss }] } ∧
      (reveal = none → ss = timeoutScriptSig j.contract (W.sign j.key digest ++ [1])) ∧
      (∀ ck bk, reveal = some (ck, bk) → ∃ q, W.addKeys ck bk = .ok q ∧
        revealScriptSig j.contract (W.sign j.key digest ++ [1]) (W.revealSign q) W.r = .ok ss) := by
  have h := F.sign
  unfold eltSign at h
  obtain ⟨amount, h1, h⟩ := exc_bind_ok.1 h
  obtain ⟨digest, h2, h⟩ := exc_bind_ok.1 h
  obtain ⟨ss, h3, h⟩ := exc_bind_ok.1 h
  cases h
  have h2 := (AssetSwap.sighash_all (i := 0) h2).1 rfl
  refine ⟨digest, ss, ?_, ?_, ?_, ?_⟩
  · rw [← h2]
    refine C19_free _ _ _ _ _ _ ?_ ?_ ?_ ?_
    · rfl
    · rfl
    · rfl
    · cases reveal <;> simp [F.vin]
  · cases reveal <;> simp [F.vin, eltSequence]
  · rintro rfl
    cases h3
    rfl
  · rintro ck bk rfl
    obtain ⟨q, h4, h3⟩ := exc_bind_ok.1 h3
    exact ⟨q, h4, h3⟩

theorem Facts.sizes (F : Facts E W j reveal t s num bfs abfs tb) :
    ∀ i ∈ (plainElt W.asset j.dst.blindingPubkey (E.z.pubOf j.dummy) s j.txid j.n).vin, InputSizes i := by
  intro i hi
  simp only [plainElt, List.mem_cons, List.not_mem_nil, or_false] at hi
  subst hi
  exact ⟨F.id, F.index, rfl⟩

theorem Facts.dummyPub (Z : WireSizes E.z) (F : Facts E W j reveal t s num bfs abfs tb) : E.z.pubOf j.dummy ≠ [] := by
  intro hx
  have := Z.pubPrefix _ F.dummy
  rw [hx] at this
  simp at this

/-- The output to the address is hidden. -/
theorem Facts.hidden (Z : WireSizes E.z) (ha : AddrOk j.dst) (F : Facts E W j reveal t s num bfs abfs tb) :
    Blinded E { descs := [⟨W.asset, agreed, j.bf, j.abf⟩], pubkeys := [j.dst.blindingPubkey, E.z.pubOf j.dummy], rand := j.rand }
      (plainElt W.asset j.dst.blindingPubkey (E.z.pubOf j.dummy) s j.txid j.n) tb 0 (bfs.getD 0 []) (abfs.getD 0 []) := by
  obtain ⟨-, -, h⟩ := C33_strict F.blind rfl F.sizes
  cases h 0 (blindingPubkey_ne ha F.conf) with
  | blinded hb => exact hb
  | zero v hl => exact absurd (hl.2 1 (by omega)) (F.dummyPub Z)

theorem Facts.swept (Z : WireSizes E.z) (Fz : Formats E.z) (ha : AddrOk j.dst) (F : Facts E W j reveal t s num bfs abfs tb)
    (hw : ∃ b, serializeTx t = .ok b) : Swept W.asset j.dst j.txid j.n (eltSequence reveal.isSome) t := by
  obtain ⟨digest, ss, -, ht, -⟩ := F.signed
  have hb := F.hidden Z ha
  have hv : t.vout = tb.vout := by rw [ht]
  have hwit : ∀ k, t.outWit k = tb.outWit k := by rw [ht]; exact fun _ => rfl
  refine ⟨?_, ⟨s, F.script, ?_⟩, ?_, ?_, ?_, hw⟩
  · rw [ht]; rfl
  · rw [hv, F.asked.scripts]; rfl
  · rw [hv, hwit]
    exact ⟨hb.committed, (C33_formats Fz hb).2, hb.surjection⟩
  · rw [hv, F.asked.outputs 2 rfl]; rfl
  · rw [ht]
    exact ⟨F.asked.version, F.asked.lockTime⟩

/-- The holder of the key of the address sees the amount. -/
theorem Facts.recipient (Z : WireSizes E.z) (Fz : Formats E.z) (R : Rewinds E.z) (ha : AddrOk j.dst)
    (F : Facts E W j reveal t s num bfs abfs tb) {key : Bytes} (hk : E.z.secValid key = true)
    (hp : j.dst.blindingPubkey = E.z.pubOf key) :
    ∃ bf abf, unblind E key (t.vout.getD 0 {}).nValue (t.vout.getD 0 {}).nAsset (t.vout.getD 0 {}).nNonce
      (t.vout.getD 0 {}).scriptPubKey (t.outWit 0).rangeproof = .ok (.success W.asset 100000000 bf abf) := by
  obtain ⟨digest, ss, -, ht, -⟩ := F.signed
  have hv : t.vout = tb.vout := by rw [ht]
  have hwit : ∀ k, t.outWit k = tb.outWit k := by rw [ht]; exact fun _ => rfl
  rw [hv, hwit]
  have hne := blindingPubkey_ne ha F.conf
  rcases C36_strict (j := 0) (key := key) Fz R F.blind rfl F.sizes hp hk (by rw [← hp]; exact hne) with ⟨asset, v, h1, h2, h3⟩ | ⟨hl, -⟩
  · cases h1
    cases h2
    have hb : beVal (beBytes 8 100000000) = 100000000 := beVal_beBytes_of_lt (by decide)
    rw [hb] at h3
    exact ⟨_, _, h3 (by decide)⟩
  · exact absurd (hl.2 1 (by omega)) (F.dummyPub Z)

variable {M : Type} [AddCommGroup M] [Module Scalar M]

theorem Facts.amounts (F : Facts E W j reveal t s num bfs abfs tb) :
    AmountsBalance E { descs := [⟨W.asset, agreed, j.bf, j.abf⟩], pubkeys := [j.dst.blindingPubkey, E.z.pubOf j.dummy], rand := j.rand }
      (plainElt W.asset j.dst.blindingPubkey (E.z.pubOf j.dummy) s j.txid j.n) := by
  refine ⟨?_, ?_, ?_⟩
  · intro p hp
    simp only [plainElt, List.mem_cons, List.not_mem_nil, or_false] at hp
    rcases hp with rfl | rfl | rfl
    · exact ⟨⟨_, rfl, by simp⟩, ⟨_, rfl, F.asset⟩⟩
    · exact ⟨⟨_, rfl, by simp⟩, ⟨_, rfl, F.asset⟩⟩
    · exact ⟨⟨_, rfl, by simp⟩, ⟨_, rfl, F.asset⟩⟩
  · intro i hi
    simp only [plainElt, List.mem_cons, List.not_mem_nil, or_false] at hi
    subst hi
    exact ⟨.inl rfl, .inl rfl⟩
  · intro x
    have e1 : beVal (beBytes 8 100000000) = 100000000 := beVal_beBytes_of_lt (by decide)
    have e2 : beVal (beBytes 8 1000000) = 1000000 := beVal_beBytes_of_lt (by decide)
    have e3 : beVal (beBytes 8 0) = 0 := beVal_beBytes_of_lt (by decide)
    have hz : ∀ y : Bytes, total y [] = 0 := fun _ => rfl
    have hl : total x (spentAmounts [⟨W.asset, agreed, j.bf, j.abf⟩] ++
        issuedAmounts E { descs := [⟨W.asset, agreed, j.bf, j.abf⟩], pubkeys := [j.dst.blindingPubkey, E.z.pubOf j.dummy], rand := j.rand }
        (plainElt W.asset j.dst.blindingPubkey (E.z.pubOf j.dummy) s j.txid j.n)) = if W.asset = x then 101000000 else 0 := by
      have e3 : ∃ i t, issuedAmounts E { descs := [⟨W.asset, agreed, j.bf, j.abf⟩], pubkeys := [j.dst.blindingPubkey, E.z.pubOf j.dummy], rand := j.rand }
        (plainElt W.asset j.dst.blindingPubkey (E.z.pubOf j.dummy) s j.txid j.n) = [(i, 0), (t, 0)] := ⟨_, _, rfl⟩
      obtain ⟨i, t, e3⟩ := e3
      rw [e3]
      simp only [spentAmounts, List.map_cons, List.map_nil, List.cons_append, List.nil_append, Toy.total_cons, hz, ite_self, add_zero]
      rfl
    have hr : total x (outAmounts (plainElt W.asset j.dst.blindingPubkey (E.z.pubOf j.dummy) s j.txid j.n))
        = if W.asset = x then 101000000 else 0 := by
      simp only [outAmounts, plainElt, List.map_cons, List.map_nil, Toy.total_cons, amountOf, e1, e2, e3, List.drop_succ_cons,
          List.drop_zero, hz]
      split <;> rfl
    exact hl.trans hr.symm

theorem Facts.described (F : Facts E W j reveal t s num bfs abfs tb) {o : TxOut} {w : TxOutWitness} {key : Bytes}
    (ho : unblind E key o.nValue o.nAsset o.nNonce o.scriptPubKey w.rangeproof = .ok (.success W.asset 101000000 j.bf j.abf)) :
    DescribedBy E o w ⟨W.asset, agreed, j.bf, j.abf⟩ := by
  refine .unblinded key W.asset 101000000 j.bf j.abf (.unblindingSuccess W.asset agreed j.bf j.abf) _ ho ?_ rfl
  rfl

theorem Facts.balancedBefore (Z : WireSizes E.z) (P : Pedersen E.z M) (hP : RewindSound P) (ha : AddrOk j.dst)
    (F : Facts E W j reveal t s num bfs abfs tb) {o : TxOut} {w : TxOutWitness} {key : Bytes}
    (ho : unblind E key o.nValue o.nAsset o.nNonce o.scriptPubKey w.rangeproof = .ok (.success W.asset 101000000 j.bf j.abf)) :
    SpendsBalanced P E [o] tb := by
  have hb := F.amounts
  have hd := F.described ho
  have hnone : ∀ i token, ({ descs := [⟨W.asset, agreed, j.bf, j.abf⟩], pubkeys := [j.dst.blindingPubkey, E.z.pubOf j.dummy], rand := j.rand } : BlindArgs).issuanceKey i token = none := by
    intro i token
    cases token <;> simp [BlindArgs.issuanceKey]
  obtain ⟨-, -, hend⟩ := C33_strict F.blind rfl F.sizes
  have hpub := F.dummyPub Z
  have h0 := F.hidden Z ha
  cases hend 1 hpub with
  | blinded hbl =>
    have hf : List.Forall₂ (fun (x : TxOut × TxOutWitness) d => DescribedBy E x.1 x.2 d) [(o, w)] [⟨W.asset, agreed, j.bf, j.abf⟩] :=
      .cons hd .nil
    refine C57_spend_partial P hP _ hf F.blind F.sizes hb
      (fun i token key _ hk => by rw [hnone] at hk; cases hk) (fun i key hk => by rw [hnone] at hk; cases hk) ⟨1, hpub⟩ ?_
    intro k hk
    match k, hk with
    | 0, _ => exact h0.committed
    | 1, _ => exact hbl.committed
    | k + 2, hk => exact absurd rfl hk
  | zero v _ hu _ _ hv _ =>
    have hk : KeysFine { descs := [⟨W.asset, agreed, j.bf, j.abf⟩], pubkeys := [j.dst.blindingPubkey, E.z.pubOf j.dummy], rand := j.rand }
        (plainElt W.asset j.dst.blindingPubkey (E.z.pubOf j.dummy) s j.txid j.n) := by
      refine ⟨?_, ?_, ?_⟩
      · intro i token key _ hk
        rw [hnone] at hk
        cases hk
      · intro i key hk
        rw [hnone] at hk
        cases hk
      · intro d hd
        simp only [List.mem_cons, List.not_mem_nil, or_false] at hd
        subst hd
        show agreed < _
        decide
    obtain ⟨k, w, hw, he⟩ := C34_zero P F.blind rfl F.sizes hb hk 1 hpub hu
    cases hw
    have e3 : beVal (beBytes 8 0) = 0 := beVal_beBytes_of_lt (by decide)
    rw [e3, Nat.cast_zero, zero_mul, zero_smul, add_zero] at he
    unfold SpendsBalanced
    simp only [List.map_cons, List.map_nil] at he ⊢
    rw [C57_opening P hP hd]
    exact he

theorem Facts.balanced (Z : WireSizes E.z) (P : Pedersen E.z M) (hP : RewindSound P) (ha : AddrOk j.dst)
    (F : Facts E W j reveal t s num bfs abfs tb) {o : TxOut} {w : TxOutWitness} {key : Bytes}
    (ho : unblind E key o.nValue o.nAsset o.nNonce o.scriptPubKey w.rangeproof = .ok (.success W.asset 101000000 j.bf j.abf)) :
    SpendsBalanced P E [o] t := by
  have hx := F.balancedBefore Z P hP ha ho
  obtain ⟨digest, ss, -, ht, -⟩ := F.signed
  unfold SpendsBalanced at hx ⊢
  rw [F.vin] at hx
  rw [ht]
  exact hx

end facts

theorem redeemable_ok {limit : Nat} {c c' : Bytes} : redeemable limit c = .ok c' ↔ c.length ≤ limit ∧ c = c' := by
  unfold redeemable
  split
  · constructor
    · intro h
      cases h
    · omega
  · constructor
    · intro h
      cases h
      exact ⟨by omega, rfl⟩
    · rintro ⟨-, rfl⟩
      rfl

theorem le_pushData (d : Bytes) : d.length ≤ (pushData d).length := by
  unfold pushData
  split
  · simp
  · split <;> simp <;> omega

/-- The keys are part of the contract. -/
theorem keys_fit {r : Nat} {p b s : Bytes} (h : (eltContract r p b s).length ≤ 520) : p.length ≤ 520 ∧ b.length ≤ 520 ∧ s.length ≤ 520 := by
  have l2 := le_pushData p
  have l3 := le_pushData b
  have l4 := le_pushData s
  simp [eltContract, script, Elem.bytes] at h
  omega

theorem bobClaim_ok {E : Env} {W : World} {b : Bob} {txid : Bytes} {confirmations : Int} {tx t : Tx} (hh : ∀ x, (W.hash160 x).length = 20)
    (h : bobClaim E W b txid confirmations tx = .ok t) :
    ∃ p n o bf abf s num bfs abfs tb, W.addPubs (E.z.pubOf b.contractKey) (E.z.pubOf b.blindingKey) = .ok p ∧ 2 ≤ confirmations ∧
      (eltContract W.r p (E.z.pubOf b.spendKey) b.alicePub).length ≤ 520 ∧
      Deposit E W b.blindingKey (eltContract W.r p (E.z.pubOf b.spendKey) b.alicePub) tx n o 101000000 bf abf ∧
      Facts E W ⟨b.dst, txid, n, eltContract W.r p (E.z.pubOf b.spendKey) b.alicePub, b.spendKey, bf, abf, b.dummy, b.rand⟩
        (some (b.contractKey, b.blindingKey)) t s num bfs abfs tb ∧ ∃ x, serializeTx t = .ok x := by
  unfold bobClaim at h
  obtain ⟨contract, h1, h⟩ := exc_bind_ok.1 h
  rw [up_ok] at h1
  unfold bobContract at h1
  obtain ⟨p, h0, h1⟩ := exc_bind_ok.1 h1
  obtain ⟨hl, rfl⟩ := redeemable_ok.1 h1
  split at h
  · cases h
  · rename_i hc
    obtain ⟨u, h2, h⟩ := exc_bind_ok.1 h
    split at h
    · cases h
    · rename_i hu
      split at h
      · cases h
      · obtain ⟨t', h3, h⟩ := exc_bind_ok.1 h
        obtain ⟨x, h4, h⟩ := exc_bind_ok.1 h
        cases h
        obtain ⟨o, amount, d1, d2, -⟩ := findVout_deposit hh h2
        obtain ⟨s, num, bfs, abfs, tb, F⟩ := eltSpend_ok h3
        have : amount = 101000000 := by
          have : u.amount = 101000000 := by simpa [agreed] using hu
          omega
        subst this
        exact ⟨p, u.n, o, u.bf, u.abf, s, num, bfs, abfs, tb, h0, by omega, hl, d1, F, x, up_ok.1 h4⟩

theorem aliceReclaim_ok {E : Env} {W : World} {a : Alice} {txid : Bytes} {tx t : Tx} (hh : ∀ x, (W.hash160 x).length = 20)
    (h : aliceReclaim E W a txid tx = .ok t) :
    ∃ p n o amount bf abf s num bfs abfs tb, W.addPubs a.contractPub (E.z.pubOf a.blindingKey) = .ok p ∧
      (eltContract W.r p a.bobPub (E.z.pubOf a.exitKey)).length ≤ 520 ∧
      Deposit E W a.blindingKey (eltContract W.r p a.bobPub (E.z.pubOf a.exitKey)) tx n o amount bf abf ∧
      Facts E W ⟨a.dst, txid, n, eltContract W.r p a.bobPub (E.z.pubOf a.exitKey), a.exitKey, bf, abf, a.dummy, a.rand⟩
        none t s num bfs abfs tb ∧ ∃ x, serializeTx t = .ok x := by
  unfold aliceReclaim at h
  obtain ⟨contract, h1, h⟩ := exc_bind_ok.1 h
  rw [up_ok] at h1
  unfold aliceContract at h1
  obtain ⟨p, h0, h1⟩ := exc_bind_ok.1 h1
  obtain ⟨hl, rfl⟩ := redeemable_ok.1 h1
  obtain ⟨u, h2, h⟩ := exc_bind_ok.1 h
  obtain ⟨t', h3, h⟩ := exc_bind_ok.1 h
  obtain ⟨x, h4, h⟩ := exc_bind_ok.1 h
  cases h
  obtain ⟨o, amount, d1, d2, -⟩ := findVout_deposit hh h2
  obtain ⟨s, num, bfs, abfs, tb, F⟩ := eltSpend_ok h3
  exact ⟨p, u.n, o, amount, u.bf, u.abf, s, num, bfs, abfs, tb, h0, hl, d1, F, x, up_ok.1 h4⟩

theorem _root_.Verif.Spec.Deposit.unique {E : Env} {W : World} {key contract : Bytes} {tx : Tx} {n n' : Nat} {o o' : TxOut} {x x' : Nat}
    {bf bf' abf abf' : Bytes} (h : Deposit E W key contract tx n o x bf abf) (g : Deposit E W key contract tx n' o' x' bf' abf') :
    n = n' ∧ o = o' ∧ x = x' ∧ bf = bf' ∧ abf = abf' := by
  obtain ⟨rfl, rfl⟩ := FirstTo.unique h.first g.first
  have := h.opens.symm.trans g.opens
  cases this
  exact ⟨rfl, rfl, rfl, rfl, rfl⟩

variable {M : Type} [AddCommGroup M] [Module Scalar M]

/-- **C76.** Bob claims only a deposit with two confirmations whose first output to the contract opens to
the agreed amount of the agreed asset.  The claim spends that output alone, balances, and pays 1 to Bob's
address, hidden but for the holder of the blinding key, and the fee. -/
theorem C76_claim {E : Env} {W : World} {b : Bob} {txid : Bytes} {confirmations : Int} {tx t : Tx} (Z : WireSizes E.z) (Fz : Formats E.z)
    (R : Rewinds E.z) (hz : KeySizes E W) (ha : AddrOk b.dst) (h : bobClaim E W b txid confirmations tx = .ok t) :
    2 ≤ confirmations ∧ ∃ p n o bf abf, W.addPubs (E.z.pubOf b.contractKey) (E.z.pubOf b.blindingKey) = .ok p ∧
      Deposit E W b.blindingKey (eltContract W.r p (E.z.pubOf b.spendKey) b.alicePub) tx n o 101000000 bf abf ∧
      Swept W.asset b.dst txid n 0xffffffff t ∧
      (∀ (M : Type) [AddCommGroup M] [Module Scalar M] (P : Pedersen E.z M), RewindSound P → SpendsBalanced P E [o] t) ∧
      ∀ key, E.z.secValid key = true → b.dst.blindingPubkey = E.z.pubOf key →
        ∃ bf abf, unblind E key (t.vout.getD 0 {}).nValue (t.vout.getD 0 {}).nAsset (t.vout.getD 0 {}).nNonce
          (t.vout.getD 0 {}).scriptPubKey (t.outWit 0).rangeproof = .ok (.success W.asset 100000000 bf abf) := by
  obtain ⟨p, n, o, bf, abf, s, num, bfs, abfs, tb, h1, h2, hl, h3, F, h4⟩ := bobClaim_ok hz.hash h
  exact ⟨h2, p, n, o, bf, abf, h1, h3, F.swept Z Fz ha h4, fun M _ _ P hP => F.balanced Z P hP ha h3.opens,
    fun key hk hp => F.recipient Z Fz R ha hk hp⟩

/-- **C76.** Alice reclaims the first output to the contract, which has to open to the agreed asset, under
the relative lock of the contract.  If it opens to the agreed amount, which is not checked, the transaction
balances. -/
theorem C76_reclaim {E : Env} {W : World} {a : Alice} {txid : Bytes} {tx t : Tx} (Z : WireSizes E.z) (Fz : Formats E.z)
    (R : Rewinds E.z) (hz : KeySizes E W) (ha : AddrOk a.dst) (h : aliceReclaim E W a txid tx = .ok t) :
    ∃ p n o amount bf abf, W.addPubs a.contractPub (E.z.pubOf a.blindingKey) = .ok p ∧
      Deposit E W a.blindingKey (eltContract W.r p a.bobPub (E.z.pubOf a.exitKey)) tx n o amount bf abf ∧
      Swept W.asset a.dst txid n 10 t ∧
      (amount = 101000000 → ∀ (M : Type) [AddCommGroup M] [Module Scalar M] (P : Pedersen E.z M), RewindSound P →
        SpendsBalanced P E [o] t) ∧
      ∀ key, E.z.secValid key = true → a.dst.blindingPubkey = E.z.pubOf key →
        ∃ bf abf, unblind E key (t.vout.getD 0 {}).nValue (t.vout.getD 0 {}).nAsset (t.vout.getD 0 {}).nNonce
          (t.vout.getD 0 {}).scriptPubKey (t.outWit 0).rangeproof = .ok (.success W.asset 100000000 bf abf) := by
  obtain ⟨p, n, o, amount, bf, abf, s, num, bfs, abfs, tb, h1, hl, h3, F, h4⟩ := aliceReclaim_ok hz.hash h
  refine ⟨p, n, o, amount, bf, abf, h1, h3, F.swept Z Fz ha h4, ?_, fun key hk hp => F.recipient Z Fz R ha hk hp⟩
  rintro rfl M _ _ P hP
  exact F.balanced Z P hP ha h3.opens

/-- **C76.** Nodes accept Bob's claim: the unlocking script satisfies the contract, whose hash the deposit
pays to. -/
theorem C76_claim_unlocks {E : Env} {W : World} {b : Bob} {txid : Bytes} {confirmations : Int} {tx t : Tx} (hz : KeySizes E W)
    (hadd : Adds E W) (hk : E.z.secValid b.spendKey = true)
    (h : bobClaim E W b txid confirmations tx = .ok t) :
    ∃ p n o, W.addPubs (E.z.pubOf b.contractKey) (E.z.pubOf b.blindingKey) = .ok p ∧ tx.vout[n]? = some o ∧
      (t.vin.map TxIn.prevout) = [⟨txid, n⟩] ∧
      o.scriptPubKey = [0xa9, 0x14] ++ W.hash160 (eltContract W.r p (E.z.pubOf b.spendKey) b.alicePub) ++ [0x87] ∧
      ∀ c, Checks E W (eltContract W.r p (E.z.pubOf b.spendKey) b.alicePub) t c →
        Interp.SpendsP2SH c (eltContract W.r p (E.z.pubOf b.spendKey) b.alicePub) (t.vin.getD 0 default).scriptSig := by
  obtain ⟨p, n, o, bf, abf, s, num, bfs, abfs, tb, h1, h2, hl, h3, F, h4⟩ := bobClaim_ok hz.hash h
  obtain ⟨digest, ss, f1, rfl, -, f3⟩ := F.signed
  obtain ⟨q, f4, f5⟩ := f3 _ _ rfl
  refine ⟨p, n, o, h1, h3.first.1, rfl, h3.first.2.1, ?_⟩
  intro c hc
  obtain ⟨g1, g2⟩ := hadd _ _ _ f4
  rw [h1] at g2
  cases g2
  have l1 := hz.pub q g1
  have l2 := hz.pub b.spendKey hk
  have l3 := hz.sig b.spendKey digest
  have l4 := hz.reveal q
  have l5 := (keys_fit hl).2.2
  refine (C65_unlock c W.r _ _ _ _ (by omega) (by omega) (by omega) ?_).1 _ _ (by omega) (hc.data _ _ q f4) ?_ f5
  · rw [List.length_append, List.length_singleton]
    show (W.sign b.spendKey digest).length + 1 ≤ 520
    omega
  · exact hc.sig _ _ hk f1

/-- **C76.** Nodes accept Alice's reclaim. -/
theorem C76_reclaim_unlocks {E : Env} {W : World} {a : Alice} {txid : Bytes} {tx t : Tx} (hz : KeySizes E W)
    (hk : E.z.secValid a.exitKey = true) (h : aliceReclaim E W a txid tx = .ok t) :
    ∃ p n o, W.addPubs a.contractPub (E.z.pubOf a.blindingKey) = .ok p ∧ tx.vout[n]? = some o ∧
      (t.vin.map TxIn.prevout) = [⟨txid, n⟩] ∧
      o.scriptPubKey = [0xa9, 0x14] ++ W.hash160 (eltContract W.r p a.bobPub (E.z.pubOf a.exitKey)) ++ [0x87] ∧
      ∀ c, Checks E W (eltContract W.r p a.bobPub (E.z.pubOf a.exitKey)) t c →
        Interp.SpendsP2SH c (eltContract W.r p a.bobPub (E.z.pubOf a.exitKey)) (t.vin.getD 0 default).scriptSig := by
  obtain ⟨p, n, o, amount, bf, abf, s, num, bfs, abfs, tb, h1, hl, h3, F, h4⟩ := aliceReclaim_ok hz.hash h
  obtain ⟨digest, ss, f1, ht, f3, -⟩ := F.signed
  have f3 := f3 rfl
  have hv := F.asked.version
  subst ht
  refine ⟨p, n, o, h1, h3.first.1, rfl, h3.first.2.1, ?_⟩
  intro c hc
  have l1 := hz.sum _ _ _ h1
  have l2 := hz.pub a.exitKey hk
  have l3 := hz.sig a.exitKey digest
  have l5 := (keys_fit hl).2.1
  have v := hc.version
  have sq := hc.sequence _ rfl
  show Interp.SpendsP2SH c _ ss
  rw [f3]
  refine (C65_unlock c W.r _ _ _ _ (by omega) (by omega) (by omega) ?_).2 (hc.sig _ _ hk f1) ?_ sq.symm
  · rw [List.length_append, List.length_singleton]
    show (W.sign a.exitKey digest).length + 1 ≤ 520
    omega
  · have e : tb.nVersion = (c.version : Int) := v
    have e2 : tb.nVersion = 2 := hv
    omega

/-- **C76.** Whoever sees Bob's claim accepted and knows the nonce learns the key: Alice's computation on the
unlocking script gives it (C66). -/
theorem C76_reveals {E : Env} {W : World} {b : Bob} {txid : Bytes} {confirmations : Int} {tx t : Tx} {C : Curve M} {k m rInv q : Nat}
    {pub : Nat → Option Bytes} {c : Interp.Ctx} (hz : KeySizes E W) (hadd : Adds E W) (hk : E.z.secValid b.spendKey = true)
    (hn : KnownNonce C k W.r) (hpub : PubOf C pub) (hm : ChecksData C m c) (hi : rInv * W.r % secpN = 1)
    (hq : 0 < q) (hqn : q < secpN) (hkey : (W.r * q + 2 * m) % secpN ≠ 0)
    (hsum : W.addPubs (E.z.pubOf b.contractKey) (E.z.pubOf b.blindingKey) = .ok (C.enc ((q : Scalar) • C.G)))
    (hc : Checks E W (eltContract W.r (C.enc ((q : Scalar) • C.G)) (E.z.pubOf b.spendKey) b.alicePub) t c)
    (h : bobClaim E W b txid confirmations tx = .ok t) :
    recoverKey pub secpN k m rInv (C.enc ((q : Scalar) • C.G)) (t.vin.getD 0 default).scriptSig = .ok q := by
  obtain ⟨p', -, -, h1', -, -, -, hsp⟩ := C76_claim_unlocks hz hadd hk h
  rw [hsum] at h1'
  cases h1'
  have hsp := hsp c hc
  obtain ⟨p, n, o, bf, abf, s, num, bfs, abfs, tb, h1, h2, hl, h3, F, h4⟩ := bobClaim_ok hz.hash h
  rw [hsum] at h1
  cases h1
  obtain ⟨digest, ss, f1, rfl, -, f3⟩ := F.signed
  obtain ⟨q', f4, f5⟩ := f3 _ _ rfl
  obtain ⟨g1, g2⟩ := hadd _ _ _ f4
  have l1 := hz.sum _ _ _ hsum
  have l2 := hz.pub b.spendKey hk
  have l3 := hz.sig b.spendKey digest
  have l4 := hz.reveal q'
  obtain ⟨Q, r', s', -, ⟨RR, S, hR, hS, hsig⟩, -⟩ := (hm _ _).1 (hc.data _ _ q' f4)
  change Interp.SpendsP2SH c _ ss at hsp
  show recoverKey pub secpN k m rInv _ ss = _
  unfold revealScriptSig at f5
  dsimp only at f5
  split at f5
  · cases f5
  · rename_i e1
    split at f5
    · cases f5
    · cases f5
      simp only [ne_eq, not_not] at e1
      have hlen : UInt8.ofNat RR.length = UInt8.ofNat (rBytes W.r).length := by
        rw [hsig] at e1
        simp at e1
        have hb := hR.2.1
        rw [Nat.mod_eq_of_lt (by omega)] at e1
        rw [e1]
      have htake : (W.revealSign q').take 4 = [0x30, UInt8.ofNat (4 + RR.length + S.length), 0x02, UInt8.ofNat (rBytes W.r).length] := by
        rw [hsig, ← hlen]
        rfl
      rw [htake] at hsp ⊢
      have l9 := (keys_fit hl).2.2
      refine C66_recovers_partial C k W.r m rInv q pub c _ _ _ _ _ hn hpub hm hi hq hqn hkey (by omega) (by omega) (by omega) ?_ ?_ ?_ hsp
      · rw [List.length_append, List.length_singleton]
        show (W.sign b.spendKey digest).length + 1 ≤ 520
        omega
      · rw [List.length_drop]; omega
      · exact (hc.sequence _ rfl).symm

end Verif.SwapSpend
