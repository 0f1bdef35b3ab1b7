import Verif.Spec.AssetSwap
import Verif.AssetRun
/-
What the participants of the asset swap may do, given what has happened so far.
-/
namespace Verif.Spec.Assets
open Verif AssetSwap AssetRun

/-- The call was made and this was the answer. -/
def Answered (t : List Event) (q : Query) (a : Val q) : Prop := Event.did q (.ok a) ∈ t

/-- That message arrived. -/
def Received (t : List Event) (k : MsgKind) (d : Data) : Prop := ∃ n, Answered t (.recv n) (some (⟨k, d⟩ : Msg))

/-- That message was sent. -/
def Sent (t : List Event) (k : MsgKind) (d : Data) : Prop := Answered t (.send ⟨k, d⟩) ()

/-- The node said that the transaction is confirmed. -/
def Confirmed (t : List Event) (txid : Bytes) : Prop := ∃ n : Int, Answered t (.tx txid) (some n) ∧ 0 < n

/-- What the node told, with the asset that was asked for and the key. -/
def keyed (v : Utxo) (asset key : Bytes) : Utxo := { v with asset := asset, key := key }

/-- The smallest that is enough. -/
def Enough (l : List Utxo) (v : Utxo) : Prop := v ∈ l ∧ 20000 ≤ v.amount ∧ ∀ x ∈ l, 20000 ≤ x.amount → v.amount ≤ x.amount

/-- How it began for Alice: two assets were issued, the output for the fee was found, and a change address made. -/
def AliceBegan (K : Kit) (t : List Event) (a : Alice) : Prop :=
  ∃ id1 v1 k1 id2 v2 k2 l v3 k3 kc,
    [Event.did .issue (.ok id1), .did (.unspent 0 0 id1) (.ok [v1]), .did (.key v1.addr) (.ok k1),
      .did .issue (.ok id2), .did (.unspent 0 0 id2) (.ok [v2]), .did (.key v2.addr) (.ok k2),
      .did (.unspent 1 9999999 K.feeAsset) (.ok l), .did (.key v3.addr) (.ok k3), .did .newAddr (.ok (a.change, kc))] <+: t ∧
    a.asset1 = keyed v1 id1 k1 ∧ a.asset2 = keyed v2 id2 k2 ∧ a.fee = keyed v3 K.feeAsset k3 ∧ Enough l v3 ∧ a.feeAsset = K.feeAsset

/-- Alice and Bob have told each other all that is needed for `tx`. -/
structure AliceAgrees (K : Kit) (t : List Event) (a : Alice) (f : Offer) (p : Tx) (bob1 bob2 : Addr) (tx : Tx) : Prop where
  began : AliceBegan K t a
  told : ∃ cs, Sent t .address (.address a.dst cs)
  key : Answered t .newAddr (a.dst, a.bkey)
  offer : Received t .offer (.offer f)
  begins : ∃ b, Received t .partialTx (.bytes b) ∧ deserializeTx b = .ok p
  addrs : ∃ c, Received t .addresses (.addresses [bob1, bob2] c)
  sends : AliceSends K.E K.W a f p bob1 bob2 tx

/-- How often an asset was issued. -/
def issues (t : List Event) : Nat := t.countP fun
  | .did .issue _ => true
  | _ => false

/-- The swap transaction `s` with the bytes `b`, as it came from Bob. -/
def Swap (K : Kit) (t : List Event) (b : Bytes) : Prop :=
  ∃ a f p bob1 bob2 tx b' h s, AliceAgrees K t a f p bob1 bob2 tx ∧ serializeTx tx = .ok b' ∧ Sent t .semiSigned (.bytes b') ∧
    Received t .final (.bytes h) ∧ deserializeTx h = .ok s ∧ serializeTx s = .ok b ∧ s.vin.map TxIn.prevout <+: tx.vin.map TxIn.prevout

/-- The transaction that takes all three outputs back, to addresses that were just made. -/
def TakesBack (K : Kit) (t : List Event) (b : Bytes) : Prop :=
  ∃ a f p bob1 bob2 tx b' addrs c pre, AliceAgrees K t a f p bob1 bob2 tx ∧ serializeTx tx = .ok b' ∧ Sent t .semiSigned (.bytes b') ∧
    claimBack K.E K.W K.feeAsset addrs K.rand2 a.utxos = .ok c ∧ Claims K.E K.W K.feeAsset addrs a.utxos c ∧ serializeTx c = .ok b ∧
    ∃ k1 k2 k3, t = pre ++ [Event.did .newAddr (.ok (addrs 0, k1)), .did .newAddr (.ok (addrs 1, k2)), .did .newAddr (.ok (addrs 2, k3))]

/-- What Alice may do when `t` has happened. -/
def AliceMay (K : Kit) (t : List Event) : Query → Prop
  | .send m => m = ⟨.ready, .nothing⟩ ∨
      /- the offer, when what it is about is confirmed -/
      (∃ a id, m = ⟨.offer, .offers [⟨a.asset1.asset, a.asset1.amount⟩, ⟨a.asset2.asset, a.asset2.amount⟩]⟩ ∧ AliceBegan K t a ∧
        Received t .waitTxid (.bytes id) ∧ Confirmed t a.asset1.prevout.hash ∧ Confirmed t a.asset2.prevout.hash ∧ Confirmed t id) ∨
      /- a new address and the commitments of the outputs, once -/
      (∃ a c1 c2 c3 pre, m = ⟨.address, .address a.dst [c1, c2, c3]⟩ ∧ AliceBegan K t a ∧ a.asset1.assetCommitment = some c1 ∧
        a.asset2.assetCommitment = some c2 ∧ a.fee.assetCommitment = some c3 ∧ t = pre ++ [Event.did .newAddr (.ok (a.dst, a.bkey))] ∧
        ∀ d r, Event.did (.send ⟨.address, d⟩) r ∉ t) ∨
      /- signatures, once, when Bob's part pays what Bob offered -/
      (∃ a f p bob1 bob2 tx b, m = ⟨.semiSigned, .bytes b⟩ ∧ AliceAgrees K t a f p bob1 bob2 tx ∧ serializeTx tx = .ok b ∧
        ∀ d r, Event.did (.send ⟨.semiSigned, d⟩) r ∉ t) ∨
      /- the end, when the swap is confirmed and Bob's asset is there -/
      (∃ f b id pre post, m = ⟨.goodbye, .nothing⟩ ∧ Received t .offer (.offer f) ∧ t = pre ++ Event.did (.balance f.asset) (.ok f.amount) :: post ∧
        Swap K pre b ∧ Answered pre (.publish b) id ∧ Confirmed pre id) ∨
      m = ⟨.bye, .nothing⟩
  /- the swap, or taking everything back unless the swap was accepted -/
  | .publish b => Swap K t b ∧ (∀ b r, Event.did (.publish b) r ∉ t) ∨ TakesBack K t b ∧ ∀ b id, ¬ Answered t (.publish b) id
  /- five seconds once Bob has the signatures -/
  | .recv n => n = 60 ∧ (∀ d, ¬ Sent t .semiSigned d) ∨ n = 5 ∧ ∃ d, Sent t .semiSigned d
  | .issue => issues t < 2
  | .unspent _ _ _ | .key _ | .newAddr | .generate | .tx _ | .balance _ => True

/-- How it began for Bob: an asset was issued. -/
def BobBegan (t : List Event) (u : Utxo) : Prop :=
  ∃ id v k, [Event.did .issue (.ok id), .did (.unspent 0 0 id) (.ok [v]), .did (.key v.addr) (.ok k)] <+: t ∧ u = keyed v id k

/-- What Bob may do when `t` has happened. -/
def BobMay (K : Kit) (t : List Event) : Query → Prop
  | .send m => (∃ u, m = ⟨.waitTxid, .bytes u.prevout.hash⟩ ∧ BobBegan t u ∧ ∃ d, Received t .ready d) ∨
      (∃ u fs, m = ⟨.offer, .offer ⟨u.asset, u.amount⟩⟩ ∧ BobBegan t u ∧ Received t .offer (.offers fs)) ∨
      /- one input and one output, to Alice's address -/
      (∃ u a cs p b, m = ⟨.partialTx, .bytes b⟩ ∧ BobBegan t u ∧ Received t .address (.address a cs) ∧ BobBegins K.E ⟨u, K.rand⟩ a p ∧
        serializeTx p = .ok b) ∨
      /- as many new addresses as there are offers, once -/
      (∃ (u : Utxo) (fs : List Offer) (l : List (Addr × Bytes)) (c : Bytes) (pre : List Event), m = ⟨.addresses, .addresses (l.map Prod.fst) c⟩ ∧ BobBegan t u ∧ Received t .offer (.offers fs) ∧
        u.assetCommitment = some c ∧ l.length = fs.length ∧ t = pre ++ l.map (fun x => Event.did .newAddr (.ok x)) ∧
        ∀ d r, Event.did (.send ⟨.addresses, d⟩) r ∉ t) ∨
      /- the signature, once, when Alice's transaction pays everything that was offered -/
      (∃ (u : Utxo) (fs : List Offer) (l : List (Addr × Bytes)) (c sb : Bytes) (semi tx : Tx) (b : Bytes), m = ⟨.final, .bytes b⟩ ∧ BobBegan t u ∧ Received t .offer (.offers fs) ∧ l.length = fs.length ∧
        (∀ x ∈ l, Answered t .newAddr x) ∧ Sent t .addresses (.addresses (l.map Prod.fst) c) ∧ Received t .semiSigned (.bytes sb) ∧
        deserializeTx sb = .ok semi ∧ BobSends K.E K.W ⟨u, K.rand⟩ (fs.zip (l.map Prod.snd)) semi tx ∧ serializeTx tx = .ok b ∧
        ∀ d r, Event.did (.send ⟨.final, d⟩) r ∉ t) ∨
      m = ⟨.bye, .nothing⟩
  /- the transaction that was sent to Alice, once -/
  | .publish b => Sent t .final (.bytes b) ∧ ∀ b r, Event.did (.publish b) r ∉ t
  | .recv n => n = 60
  | .issue => issues t = 0
  | .unspent _ _ _ | .key _ | .newAddr | .generate | .tx _ | .balance _ => True

/-- Everything that was asked was allowed when it was asked. -/
def Allowed (may : List Event → Query → Prop) (t : List Event) : Prop :=
  ∀ pre q a post, t = pre ++ Event.did q a :: post → may pre q

/-- How many messages were waited for. -/
def waits (t : List Event) : Nat := t.countP fun
  | .did (.recv _) _ => true
  | _ => false

/-- The node was asked sixty times and did not say that the transaction is confirmed; nothing else was done. -/
def Unconfirmed (txid : Bytes) (t : List Event) : Prop :=
  ∃ pre ext, t = pre ++ ext ∧ (ext.countP fun | .did (.tx _) _ => true | _ => false) = 60 ∧
    ∀ e ∈ ext, (∃ r, e = .did .generate r) ∨ e = .did (.tx txid) (.error .rpc) ∨
      ∃ c : Option Int, e = .did (.tx txid) (.ok c) ∧ ∀ n, c = some n → n ≤ 0

/-- What Alice waits for. -/
def AliceExpects : Nat → Msg → Prop
  | 0, m => m.kind = .waitTxid ∧ ∃ b, m.data = .bytes b
  | 1, m => m.kind = .offer ∧ ∃ f, m.data = .offer f
  | 2, m => m.kind = .partialTx ∧ ∃ b, m.data = .bytes b
  | 3, m => m.kind = .addresses ∧ ∃ l c, m.data = .addresses l c
  | _, _ => False

/-- Why Alice stops with an exception when `t` has happened. -/
inductive AliceGivesUp (K : Kit) (t : List Event) : Prop
  /- the last call failed, and it was not the last message of Bob, and not the swap that was refused -/
  | failed (pre : List Event) (q : Query) (e : Fault) : t = pre ++ [.did q (.error e)] → q ≠ .recv 5 →
      (∀ b, q = .publish b → TakesBack K pre b) → AliceGivesUp K t
  /- no message, or another than expected -/
  | silence (pre : List Event) : t = pre ++ [.did (.recv 60) (.ok none)] → AliceGivesUp K t
  | message (pre : List Event) (m : Msg) : t = pre ++ [.did (.recv 60) (.ok (some m))] → m.kind ≠ .bye → ¬ AliceExpects (waits pre) m →
      AliceGivesUp K t
  /- not one output of a new asset -/
  | unspent (pre : List Event) (id : Bytes) (l : List Utxo) : t = pre ++ [.did (.unspent 0 0 id) (.ok l)] → l.length ≠ 1 → AliceGivesUp K t
  /- nothing to pay the fee, or only with an asset that is not hidden -/
  | poor (pre : List Event) (l : List Utxo) : t = pre ++ [.did (.unspent 1 9999999 K.feeAsset) (.ok l)] → (∀ v ∈ l, v.amount < 20000) →
      AliceGivesUp K t
  | plainFee (pre : List Event) (l : List Utxo) (v : Utxo) (k : Bytes) :
      t = pre ++ [.did (.unspent 1 9999999 K.feeAsset) (.ok l), .did (.key v.addr) (.ok k)] → Enough l v → v.assetCommitment = none → AliceGivesUp K t
  /- a blinding key that is none -/
  | badKey (pre : List Event) (a : Addr) (k : Bytes) : t = pre ++ [.did .newAddr (.ok (a, k))] → K.E.z.secValid k = false → AliceGivesUp K t
  | unconfirmed (id : Bytes) : Unconfirmed id t → AliceGivesUp K t
  /- a new asset that is not hidden -/
  | plain (a : Alice) : AliceBegan K t a → a.asset1.assetCommitment = none ∨ a.asset2.assetCommitment = none → AliceGivesUp K t
  /- Bob's part does not pay what Bob offered -/
  | partialTx (pre : List Event) (a : Alice) (f : Offer) (b : Bytes) : t = pre ++ [.did (.recv 60) (.ok (some ⟨.partialTx, .bytes b⟩))] →
      AliceBegan K t a → Received t .offer (.offer f) → Answered t .newAddr (a.dst, a.bkey) →
      (¬ ∃ p, deserializeTx b = .ok p ∧ p.vout.length = 1 ∧ p.wit.vtxoutwit ≠ [] ∧ Finds K.E a.bkey p 0 f.asset f.amount) → AliceGivesUp K t
  /- the transaction cannot be made -/
  | join (pre : List Event) (a : Alice) (b : Bytes) (p : Tx) (l : List Addr) (c : Bytes) :
      t = pre ++ [.did (.recv 60) (.ok (some ⟨.addresses, .addresses l c⟩))] → AliceBegan K t a → Answered t .newAddr (a.dst, a.bkey) →
      a.rand = K.rand → Received t .partialTx (.bytes b) → deserializeTx b = .ok p →
      (¬ ∃ tx b', aliceAdd K.E K.W a p l c = .ok tx ∧ serializeTx tx = .ok b') → AliceGivesUp K t
  /- after the swap, not the balance that was expected -/
  | balance (pre : List Event) (f : Offer) (n : Int) : t = pre ++ [.did (.balance f.asset) (.ok n)] → Received t .offer (.offer f) → n ≠ f.amount →
      (∃ b id, Answered t (.publish b) id) → AliceGivesUp K t
  /- nothing can be taken back: an asset that is there twice, or too little for the fee, or the transaction cannot be made -/
  | back (a : Alice) : AliceBegan K t a → (∃ b, Sent t .semiSigned b) → (∀ b id, ¬ Answered t (.publish b) id) →
      (¬ (a.utxos.map Utxo.asset).Nodup ∨ (∃ u ∈ a.utxos, u.asset = K.feeAsset ∧ u.amount < 20000) ∨
        ∃ pre a1 k1 a2 k2 a3 k3, t = pre ++ [.did .newAddr (.ok (a1, k1)), .did .newAddr (.ok (a2, k2)), .did .newAddr (.ok (a3, k3))] ∧
          ¬ ∃ c b, claimBack K.E K.W K.feeAsset (fun n => [a1, a2, a3].getD n a.change) K.rand2 a.utxos = .ok c ∧ serializeTx c = .ok b) →
      AliceGivesUp K t

/-- What Bob waits for. -/
def BobExpects : Nat → Msg → Prop
  | 0, m => m.kind = .ready
  | 1, m => m.kind = .offer ∧ ∃ l, m.data = .offers l
  | 2, m => m.kind = .address ∧ ∃ a cs, m.data = .address a cs
  | 3, m => m.kind = .semiSigned ∧ ∃ b, m.data = .bytes b
  | 4, m => m.kind = .goodbye
  | _, _ => False

/-- Why Bob stops with an exception when `t` has happened. -/
inductive BobGivesUp (K : Kit) (t : List Event) : Prop
  | failed (pre : List Event) (q : Query) (e : Fault) : t = pre ++ [.did q (.error e)] → BobGivesUp K t
  | silence (pre : List Event) : t = pre ++ [.did (.recv 60) (.ok none)] → BobGivesUp K t
  | message (pre : List Event) (m : Msg) : t = pre ++ [.did (.recv 60) (.ok (some m))] → m.kind ≠ .bye → ¬ BobExpects (waits pre) m → BobGivesUp K t
  | unspent (pre : List Event) (id : Bytes) (l : List Utxo) : t = pre ++ [.did (.unspent 0 0 id) (.ok l)] → l.length ≠ 1 → BobGivesUp K t
  | badKey (pre : List Event) (a : Addr) (k : Bytes) : t = pre ++ [.did .newAddr (.ok (a, k))] → K.E.z.secValid k = false → BobGivesUp K t
  /- Bob's part cannot be made -/
  | start (u : Utxo) (a : Addr) (cs : List Bytes) : BobBegan t u → Received t .address (.address a cs) →
      (¬ ∃ p b, bobStart K.E ⟨u, K.rand⟩ a cs = .ok p ∧ serializeTx p = .ok b) → BobGivesUp K t
  /- Alice's transaction is not one, or does not pay what Alice offered, or cannot be signed -/
  | semi (pre : List Event) (u : Utxo) (fs : List Offer) (l : List (Addr × Bytes)) (b : Bytes) :
      t = pre ++ [.did (.recv 60) (.ok (some ⟨.semiSigned, .bytes b⟩))] → BobBegan t u → Received t .offer (.offers fs) → l.length = fs.length →
      (∀ x ∈ l, Answered t .newAddr x) →
      (¬ ∃ semi tx b', deserializeTx b = .ok semi ∧ bobFinish K.E K.W ⟨u, K.rand⟩ (fs.zip (l.map Prod.snd)) semi = .ok tx ∧
        serializeTx tx = .ok b') → BobGivesUp K t
  /- after the swap, not the balance that was expected -/
  | balance (pre : List Event) (fs : List Offer) (f : Offer) (n : Int) : t = pre ++ [.did (.balance f.asset) (.ok n)] → Received t .offer (.offers fs) →
      f ∈ fs → n ≠ f.amount → (∃ b id, Answered t (.publish b) id) → BobGivesUp K t

/-! ### How it ends -/

/-- The node accepted a transaction, or was given the one that takes everything back. -/
def Settled (K : Kit) (t : List Event) : Prop :=
  ∃ pre b r post, t = pre ++ Event.did (.publish b) r :: post ∧ ((∃ id, r = .ok id) ∨ TakesBack K pre b)

/-- Nothing can be taken back. -/
inductive Stuck (K : Kit) (t : List Event) : Prop
  | noAddress (pre : List Event) (e : Fault) : t = pre ++ [.did .newAddr (.error e)] → Stuck K t
  | badKey (pre : List Event) (a : Addr) (k : Bytes) : t = pre ++ [.did .newAddr (.ok (a, k))] → K.E.z.secValid k = false → Stuck K t
  | same (a : Alice) : AliceBegan K t a → ¬ (a.utxos.map Utxo.asset).Nodup → Stuck K t
  | poor (a : Alice) (u : Utxo) : AliceBegan K t a → u ∈ a.utxos → u.asset = K.feeAsset → u.amount < 20000 → Stuck K t
  | failed (a : Alice) (pre : List Event) (a1 : Addr) (k1 : Bytes) (a2 : Addr) (k2 : Bytes) (a3 : Addr) (k3 : Bytes) : AliceBegan K t a →
      t = pre ++ [.did .newAddr (.ok (a1, k1)), .did .newAddr (.ok (a2, k2)), .did .newAddr (.ok (a3, k3))] →
      (¬ ∃ c b, claimBack K.E K.W K.feeAsset (fun n => [a1, a2, a3].getD n a.change) K.rand2 a.utxos = .ok c ∧ serializeTx c = .ok b) → Stuck K t

/-- How it ends for Alice. -/
def AliceEnds (K : Kit) : End → List Event → Prop
  /- the swap is confirmed, what Bob offered is there, and Bob was told -/
  | .finished, t => ∃ f b id pre mid, t = pre ++ Event.did (.balance f.asset) (.ok f.amount) :: (mid ++ [.did (.send ⟨.goodbye, .nothing⟩) (.ok ())]) ∧
      Received pre .offer (.offer f) ∧ Swap K pre b ∧ Answered pre (.publish b) id ∧ Confirmed pre id
  /- everything was taken back, and that is confirmed -/
  | .exited true, t => ∃ pre b id post, t = pre ++ Event.did (.publish b) (.ok id) :: post ∧ TakesBack K pre b ∧ Confirmed post id
  /- Bob said bye -/
  | .exited false, t => ∃ pre n d, t = pre ++ [Event.did (.recv n) (.ok (some (⟨.bye, d⟩ : Msg)))]
  | .raised, t => AliceGivesUp K t

/-- What becomes of the funds when Bob has the signatures. -/
def AliceSafe (K : Kit) (t : List Event) : Prop :=
  (∃ d, Sent t .semiSigned d) → Settled K t ∨ Stuck K t ∨ ∃ pre d, t = pre ++ [Event.did (.recv 5) (.ok (some (⟨.bye, d⟩ : Msg)))]

/-- How it ends for Bob. -/
def BobEnds (K : Kit) : End → List Event → Prop
  /- the transaction was sent to Alice and accepted, Alice said goodbye, and then all that was offered was there -/
  | .finished, t => ∃ (fs : List Offer) (b id : Bytes) (pre : List Event), t = pre ++ (fs.map fun f => Event.did (.balance f.asset) (.ok f.amount)) ∧
      Received pre .offer (.offers fs) ∧ Sent pre .final (.bytes b) ∧ Answered pre (.publish b) id ∧ ∃ d, Received pre .goodbye d
  | .exited true, _ => False
  | .exited false, t => ∃ pre n d, t = pre ++ [Event.did (.recv n) (.ok (some (⟨.bye, d⟩ : Msg)))]
  | .raised, t => BobGivesUp K t

/-- How the process of a participant ends: only an exception makes it say bye. -/
def Ended (ends : End → List Event → Prop) : Over × List Event → Prop
  | (.done, t) => ends .finished t
  | (.exit0, t) => ends (.exited true) t
  | (.exit, t) => ends (.exited false) t ∨ ∃ t', t = t' ++ [Event.did (.send ⟨.bye, .nothing⟩) (.ok ())] ∧ ends .raised t'
  | (.crash, t) => ∃ t' e, t = t' ++ [Event.did (.send ⟨.bye, .nothing⟩) (.error e)] ∧ ends .raised t'

/-- What has happened are answers of this world. -/
def From (w : Environment) (t : List Event) : Prop := ∀ pre q a post, t = pre ++ Event.did q a :: post → w pre q = a

/-- Taking back is possible: there are new addresses, no asset is there twice, and with the addresses of the node the transaction can be made. -/
structure CanTakeBack (K : Kit) (w : Environment) : Prop where
  addrs : ∀ t, ∃ x : Addr × Bytes, w t .newAddr = .ok x ∧ K.E.z.secValid x.2 = true
  distinct : ∀ t a, From w t → AliceBegan K t a → (a.utxos.map Utxo.asset).Nodup
  rich : ∀ t a, From w t → AliceBegan K t a → ∀ u ∈ a.utxos, u.asset = K.feeAsset → 20000 ≤ u.amount
  claim : ∀ t a t1 a1 k1 t2 a2 k2 t3 a3 k3, From w t → AliceBegan K t a → w t1 .newAddr = .ok (a1, k1) → w t2 .newAddr = .ok (a2, k2) →
    w t3 .newAddr = .ok (a3, k3) →
    ∃ c b, claimBack K.E K.W K.feeAsset (fun n => [a1, a2, a3].getD n a.change) K.rand2 a.utxos = .ok c ∧ serializeTx c = .ok b

end Verif.Spec.Assets
