import Verif.Spec.SwapBtc
import Verif.SwapRun
/-
What the participants of the cross-chain swap may do, given what has happened so far.
-/
namespace Verif.Spec
open Verif SwapSpend SwapBtc SwapRun

/-- The call was made and this was the answer. -/
def Answered (t : List Event) (q : Query) (a : Val q) : Prop := Event.did q (.ok a) ∈ t

/-- That message arrived. -/
def Received (t : List Event) (k : SwapRun.Kind) (d : List Bytes) : Prop := Answered t .recv (some (⟨k, d⟩ : Msg))

/-- The node said that the transaction has at least so many confirmations. -/
def Confirmed (t : List Event) (c : SwapRun.Chain) (txid : Bytes) (n : Int) : Prop :=
  ∃ i : Info, Answered t (.tx c txid) i ∧ ∃ m, i.confirmations = some m ∧ n ≤ m

/-- The asset was sent, to the hash of the contract made with these keys of Bob, which is not too long. -/
def AlicePaid (K : Kit) (o : AliceOwn) (t : List Event) (contractPub bobPub txid : Bytes) : Prop :=
  ∃ p, K.W.addPubs contractPub (K.E.z.pubOf o.blindingKey) = .ok p ∧
    Answered t (.payElt ([0xa9, 0x14] ++ K.W.hash160 (CrossSwap.eltContract K.W.r p bobPub (K.E.z.pubOf o.exitKey)) ++ [0x87])
      (K.E.z.pubOf o.blindingKey) 101000000) txid ∧
    (CrossSwap.eltContract K.W.r p bobPub (K.E.z.pubOf o.exitKey)).length ≤ 520

/-- Bob told of a transaction that has six confirmations and whose first output to the contract, output `n`, is 1.01. -/
def BobsDeposit (K : Kit) (o : AliceOwn) (t : List Event) (contractPub exitPub btcTxid : Bytes) (n : Nat) : Prop :=
  Received t .btcTxid [btcTxid] ∧ ∃ p, K.W.addPubs contractPub (K.E.z.pubOf o.btcKey) = .ok p ∧
    ∃ (i : Info) (c : Int) (tx : BtcTx), Answered t (.tx .btc btcTxid) i ∧ i.confirmations = some c ∧ 6 ≤ c ∧ K.parseBtc i.hex = .ok tx ∧
      FirstPays ([0x00, 0x20] ++ K.B.sha256 (CrossSwap.btcContract p exitPub)) 101000000 tx.vout n

/-- What Alice may do when `t` has happened. -/
def AliceMay (K : Kit) (o : AliceOwn) (t : List Event) : Query → Prop
  /- public keys, the shared key, the id of a deposit with two confirmations -/
  | .send m => m = ⟨.pubkeys, [K.E.z.pubOf o.btcKey, K.E.z.pubOf o.exitKey]⟩ ∨ m = ⟨.blindingKey, [o.blindingKey]⟩ ∨
      (∃ cp bp txid, m = ⟨.eltTxid, [txid]⟩ ∧ AlicePaid K o t cp bp txid ∧ Confirmed t .elt txid 2) ∨ m = ⟨.bye, []⟩
  /- pay once, after Bob -/
  | .payElt spk pub amount => amount = 101000000 ∧ pub = K.E.z.pubOf o.blindingKey ∧ (∀ s p x r, Event.did (.payElt s p x) r ∉ t) ∧
      ∃ cp bp xp p btcTxid n, Received t .pubkeys [cp, bp, xp] ∧ K.W.addPubs cp (K.E.z.pubOf o.blindingKey) = .ok p ∧
        spk = [0xa9, 0x14] ++ K.W.hash160 (CrossSwap.eltContract K.W.r p bp (K.E.z.pubOf o.exitKey)) ++ [0x87] ∧
        (CrossSwap.eltContract K.W.r p bp (K.E.z.pubOf o.exitKey)).length ≤ 520 ∧ BobsDeposit K o t cp xp btcTxid n
  /- claim Bob's deposit with what a transaction with two confirmations reveals -/
  | .sendBtc c => ∃ cp bp xp p btcTxid n txid, Received t .pubkeys [cp, bp, xp] ∧ BobsDeposit K o t cp xp btcTxid n ∧
      AlicePaid K o t cp bp txid ∧ BtcSwept o.btcDst btcTxid n 0xffffffff c ∧ K.W.addPubs cp (K.E.z.pubOf o.blindingKey) = .ok p ∧
      ∃ (id : Bytes) (i : Info) (r : Tx) (s : Bytes), Answered t (.tx .elt id) i ∧ deserializeTx i.hex = .ok r ∧ Confirmed t .elt id 2 ∧
        FirstReveal txid (CrossSwap.eltContract K.W.r p bp (K.E.z.pubOf o.exitKey)) r.vin s
  /- take the asset back as the last wish, after ten blocks -/
  | .sendElt c => Event.wished ∈ t ∧ ∃ cp bp txid n, AlicePaid K o t cp bp txid ∧ Confirmed t .elt txid 10 ∧ Swept K.W.asset o.dst txid n 10 c
  | .payBtc _ _ => False
  | .recv | .tx _ _ | .look _ | .ping _ => True

/-- The bitcoins were sent, to the hash of the contract made with this key of Alice. -/
def BobPaid (K : Kit) (o : BobOwn) (t : List Event) (alicePub txid : Bytes) : Prop :=
  ∃ p, K.W.addPubs (K.E.z.pubOf o.contractKey) alicePub = .ok p ∧
    Answered t (.payBtc ([0x00, 0x20] ++ K.B.sha256 (CrossSwap.btcContract p (K.E.z.pubOf o.exitKey))) 101000000) txid

/-- What Bob may do when `t` has happened. -/
def BobMay (K : Kit) (o : BobOwn) (t : List Event) : Query → Prop
  /- public keys, the id of a deposit with six confirmations -/
  | .send m => m = ⟨.pubkeys, [K.E.z.pubOf o.contractKey, K.E.z.pubOf o.spendKey, K.E.z.pubOf o.exitKey]⟩ ∨
      (∃ ap txid, m = ⟨.btcTxid, [txid]⟩ ∧ BobPaid K o t ap txid ∧ Confirmed t .btc txid 6) ∨ m = ⟨.bye, []⟩
  /- pay once, when the keys are known -/
  | .payBtc spk amount => amount = 101000000 ∧ (∀ s x r, Event.did (.payBtc s x) r ∉ t) ∧
      ∃ ap ep bk p, Received t .pubkeys [ap, ep] ∧ Received t .blindingKey [bk] ∧ K.W.addPubs (K.E.z.pubOf o.contractKey) ap = .ok p ∧
        spk = [0x00, 0x20] ++ K.B.sha256 (CrossSwap.btcContract p (K.E.z.pubOf o.exitKey))
  /- claim, and reveal the key, only against a deposit with two confirmations that opens to 1.01 of the asset -/
  | .sendElt c => Event.wished ∉ t ∧ ∃ ap ep bk p id n q bf abf, Received t .pubkeys [ap, ep] ∧ Received t .blindingKey [bk] ∧
      Received t .eltTxid [id] ∧ K.W.addPubs (K.E.z.pubOf o.contractKey) (K.E.z.pubOf bk) = .ok p ∧
      (∃ (i : Info) (m : Int) (tx : Tx), Answered t (.tx .elt id) i ∧ i.confirmations = some m ∧ 2 ≤ m ∧ deserializeTx i.hex = .ok tx ∧
        Deposit K.E K.W bk (CrossSwap.eltContract K.W.r p (K.E.z.pubOf o.spendKey) ep) tx n q 101000000 bf abf) ∧
      Swept K.W.asset o.dst id n 0xffffffff c
  /- take the bitcoins back as the last wish, after fifteen blocks -/
  | .sendBtc c => Event.wished ∈ t ∧ ∃ ap txid n, BobPaid K o t ap txid ∧ Confirmed t .btc txid 15 ∧ BtcSwept o.btcDst txid n 15 c
  | .payElt _ _ _ => False
  | .recv | .tx _ _ | .look _ | .ping _ => True

/-- How often the last wish began. -/
def wishes (t : List Event) : Nat := t.countP fun
  | .wished => true
  | _ => false

/-- Everything that was asked was allowed when it was asked. -/
def Allowed (may : List Event → Query → Prop) (t : List Event) : Prop :=
  ∀ pre q a post, t = pre ++ Event.did q a :: post → may pre q

/-- How many messages were waited for. -/
def waits (t : List Event) : Nat := t.countP fun
  | .did .recv _ => true
  | _ => false

/-- Sixty times in a row the node did not say that the transaction has so many confirmations. -/
def Unconfirmed (c : SwapRun.Chain) (txid : Bytes) (n : Int) (t : List Event) : Prop :=
  ∃ pre ext, t = pre ++ ext ∧ ext.length = 60 ∧
    ∀ e ∈ ext, e = .did (.tx c txid) (.error .rpc) ∨ ∃ i : Info, e = .did (.tx c txid) (.ok i) ∧ ∀ m, i.confirmations = some m → m < n

/-- What Alice waits for: three public keys, then a transaction id. -/
def AliceExpects (n : Nat) (m : Msg) : Prop := n = 0 ∧ m.kind = .pubkeys ∧ m.data.length = 3 ∨ n = 1 ∧ m.kind = .btcTxid ∧ m.data.length = 1

/-- Why Alice gives up when `t` has happened. -/
inductive AliceGivesUp (K : Kit) (o : AliceOwn) (t : List Event) : Prop
  /- the last call failed -/
  | failed (pre : List Event) (q : Query) (e : Fault) : t = pre ++ [.did q (.error e)] → AliceGivesUp K o t
  /- no message, or another than expected -/
  | silence (pre : List Event) : t = pre ++ [.did .recv (.ok none)] → AliceGivesUp K o t
  | message (pre : List Event) (m : Msg) : t = pre ++ [.did .recv (.ok (some m))] → ¬ AliceExpects (waits pre) m → AliceGivesUp K o t
  /- keys without a sum -/
  | keys (cp bp xp : Bytes) (e : PyErr) : Received t .pubkeys [cp, bp, xp] →
      (K.W.addPubs cp (K.E.z.pubOf o.blindingKey) = .error e ∨ K.W.addPubs cp (K.E.z.pubOf o.btcKey) = .error e) → AliceGivesUp K o t
  /- keys that make a contract too long -/
  | long (cp bp xp p : Bytes) : Received t .pubkeys [cp, bp, xp] →
      (K.W.addPubs cp (K.E.z.pubOf o.blindingKey) = .ok p ∧ 520 < (CrossSwap.eltContract K.W.r p bp (K.E.z.pubOf o.exitKey)).length ∨
        K.W.addPubs cp (K.E.z.pubOf o.btcKey) = .ok p ∧ 10000 < (CrossSwap.btcContract p xp).length) → AliceGivesUp K o t
  /- a deposit that is not as agreed -/
  | deposit (pre : List Event) (cp bp xp p id : Bytes) (i : Info) : t = pre ++ [.did (.tx .btc id) (.ok i)] → Received t .pubkeys [cp, bp, xp] →
      Received t .btcTxid [id] → K.W.addPubs cp (K.E.z.pubOf o.btcKey) = .ok p →
      (¬ ∃ c tx n, i.confirmations = some c ∧ 6 ≤ c ∧ K.parseBtc i.hex = .ok tx ∧
        FirstPays ([0x00, 0x20] ++ K.B.sha256 (CrossSwap.btcContract p xp)) 101000000 tx.vout n) → AliceGivesUp K o t
  /- too few confirmations: of their deposit or Bob's claim, or of their claim -/
  | unconfirmed (id : Bytes) : Unconfirmed .elt id 2 t ∨ Unconfirmed .btc id 3 t → AliceGivesUp K o t
  /- the timeout -/
  | late (pre : List Event) (id : Bytes) (v : SwapWatch.View) : t = pre ++ [.did (.look id) (.ok v)] → v.confirmations > 10 → AliceGivesUp K o t
  /- a transaction that spends the deposit, from which no claim can be made -/
  | claim (cp bp xp id btcTxid sr : Bytes) (n : Nat) (i : Info) : Received t .pubkeys [cp, bp, xp] → BobsDeposit K o t cp xp btcTxid n →
      AlicePaid K o t cp bp id → Answered t (.tx .elt sr) i → Confirmed t .elt sr 2 →
      (¬ ∃ tx c, deserializeTx i.hex = .ok tx ∧ aliceClaim K.E K.W K.B ⟨o.exitKey, o.blindingKey, cp, bp, o.dst, o.dummy, o.rand⟩
        ⟨o.btcKey, xp, o.btcDst⟩ id tx btcTxid n = .ok c) → AliceGivesUp K o t

/-- What Bob waits for: two public keys, the shared key, a transaction id. -/
def BobExpects (n : Nat) (m : Msg) : Prop :=
  n = 0 ∧ m.kind = .pubkeys ∧ m.data.length = 2 ∨ n = 1 ∧ m.kind = .blindingKey ∧ m.data.length = 1 ∨ n = 2 ∧ m.kind = .eltTxid ∧ m.data.length = 1

/-- Why Bob gives up when `t` has happened. -/
inductive BobGivesUp (K : Kit) (o : BobOwn) (t : List Event) : Prop
  | failed (pre : List Event) (q : Query) (e : Fault) : t = pre ++ [.did q (.error e)] → BobGivesUp K o t
  | silence (pre : List Event) : t = pre ++ [.did .recv (.ok none)] → BobGivesUp K o t
  | message (pre : List Event) (m : Msg) : t = pre ++ [.did .recv (.ok (some m))] → ¬ BobExpects (waits pre) m → BobGivesUp K o t
  /- a shared key that is none, or keys without a sum -/
  | keys (ap ep bk : Bytes) (e : PyErr) : Received t .pubkeys [ap, ep] → Received t .blindingKey [bk] →
      (K.E.z.secValid bk = false ∨ K.W.addPubs (K.E.z.pubOf o.contractKey) (K.E.z.pubOf bk) = .error e ∨
        K.W.addPubs (K.E.z.pubOf o.contractKey) ap = .error e) → BobGivesUp K o t
  /- keys that make a contract too long -/
  | long (ap ep bk p : Bytes) : Received t .pubkeys [ap, ep] → Received t .blindingKey [bk] →
      (K.W.addPubs (K.E.z.pubOf o.contractKey) (K.E.z.pubOf bk) = .ok p ∧ 520 < (CrossSwap.eltContract K.W.r p (K.E.z.pubOf o.spendKey) ep).length ∨
        K.W.addPubs (K.E.z.pubOf o.contractKey) ap = .ok p ∧ 10000 < (CrossSwap.btcContract p (K.E.z.pubOf o.exitKey)).length) → BobGivesUp K o t
  /- too few confirmations: of their deposit or of their claim -/
  | unconfirmed (id : Bytes) : Unconfirmed .btc id 6 t ∨ Unconfirmed .elt id 2 t → BobGivesUp K o t
  /- a deposit with too few confirmations, or from which no claim can be made -/
  | claim (pre : List Event) (ap ep bk id : Bytes) (i : Info) : t = pre ++ [.did (.tx .elt id) (.ok i)] → Received t .pubkeys [ap, ep] →
      Received t .blindingKey [bk] → Received t .eltTxid [id] →
      (¬ ∃ m tx c, i.confirmations = some m ∧ 2 ≤ m ∧ deserializeTx i.hex = .ok tx ∧
        bobClaim K.E K.W ⟨o.contractKey, bk, o.spendKey, ep, o.dst, o.dummy, o.rand⟩ id m tx = .ok c) → BobGivesUp K o t

end Verif.Spec
