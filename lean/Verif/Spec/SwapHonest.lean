import Verif.Spec.SwapJoint
import Verif.Spec.SwapWatch
import Verif.Spec.NodeSpend
import Verif.SwapPair
import Verif.Props.Wallet
/-
When the two processes of examples/confidential-cross-chain-atomic-swap.py have to finish: the pipe loses nothing, nobody has
to wait too long, and the nodes do what nodes do.
-/
namespace Verif.Spec.Cross
open Verif CrossSwap SwapSpend SwapBtc SwapRun SwapPair

/-- What a node may answer, when this has happened to the one who asks and this to the other. -/
abbrev Node : Type := List Event → List Event → (q : Query) → Ans q → Prop

/-- One of the two takes a step; messages arrive. -/
inductive HonestStep (N : Node) : State → State → Prop
  | aliceAsks (q : Query) (k : Ans q → Proc) (r : Ans q) (t : List Event) (l : List Msg) (b : Side) : ofNode q = true → N t b.trace q r →
      HonestStep N ⟨⟨.asks q k, t, l⟩, b⟩ ⟨⟨k r, t ++ [.did q r], l⟩, b⟩
  | aliceSends (m : Msg) (k : Ans (.send m) → Proc) (t : List Event) (l : List Msg) (b : Side) :
      HonestStep N ⟨⟨.asks (.send m) k, t, l⟩, b⟩ ⟨⟨k (.ok ()), t ++ [.did (.send m) (.ok ())], l⟩, { b with inbox := b.inbox ++ [m] }⟩
  | aliceReceives (m : Msg) (k : Ans .recv → Proc) (t : List Event) (l : List Msg) (b : Side) :
      HonestStep N ⟨⟨.asks .recv k, t, m :: l⟩, b⟩ ⟨⟨k (.ok (some m)), t ++ [.did .recv (.ok (some m))], l⟩, b⟩
  | aliceWishes (p : Proc) (t : List Event) (l : List Msg) (b : Side) : HonestStep N ⟨⟨.wishes p, t, l⟩, b⟩ ⟨⟨p, t ++ [.wished], l⟩, b⟩
  | bobAsks (q : Query) (k : Ans q → Proc) (r : Ans q) (t : List Event) (l : List Msg) (a : Side) : ofNode q = true → N t a.trace q r →
      HonestStep N ⟨a, ⟨.asks q k, t, l⟩⟩ ⟨a, ⟨k r, t ++ [.did q r], l⟩⟩
  | bobSends (m : Msg) (k : Ans (.send m) → Proc) (t : List Event) (l : List Msg) (a : Side) :
      HonestStep N ⟨a, ⟨.asks (.send m) k, t, l⟩⟩ ⟨{ a with inbox := a.inbox ++ [m] }, ⟨k (.ok ()), t ++ [.did (.send m) (.ok ())], l⟩⟩
  | bobReceives (m : Msg) (k : Ans .recv → Proc) (t : List Event) (l : List Msg) (a : Side) :
      HonestStep N ⟨a, ⟨.asks .recv k, t, m :: l⟩⟩ ⟨a, ⟨k (.ok (some m)), t ++ [.did .recv (.ok (some m))], l⟩⟩
  | bobWishes (p : Proc) (t : List Event) (l : List Msg) (a : Side) : HonestStep N ⟨a, ⟨.wishes p, t, l⟩⟩ ⟨a, ⟨p, t ++ [.wished], l⟩⟩

/-- Any number of steps. -/
inductive HonestRun (N : Node) (s : State) : State → Prop
  | here : HonestRun N s s
  | step {s1 s2 : State} : HonestRun N s s1 → HonestStep N s1 s2 → HonestRun N s s2

/-- How often this transaction was asked for. -/
def lookups (t : List Event) (c : SwapRun.Chain) (id : Bytes) : Nat := t.countP fun
  | .did (.tx x y) _ => x == c && y == id
  | _ => false

/-- How often Alice has looked for Bob's claim. -/
def looks (t : List Event) : Nat := t.countP fun
  | .did (.look _) _ => true
  | _ => false

/-- Who swaps, and what with. -/
structure Scene where
  K : Kit
  /-- the checks of the network -/
  N : Verifier
  o : AliceOwn
  ob : BobOwn
  /-- the transactions that have these ids -/
  elt : Bytes → Tx
  btc : Bytes → BtcTx
  /-- the transactions with which Alice and Bob pay, and Bob's claim -/
  eltId : Bytes
  btcId : Bytes
  claimId : Bytes
  /-- the chain of the asset, the block with Alice's payment, and block and place of Bob's claim -/
  chain : Chain
  paidAt : Nat
  claimedAt : Nat
  place : Nat

namespace Scene

/-- Both are started. -/
def start (S : Scene) : State := .start S.K S.K S.o S.ob

/-- What Alice and Bob have, when each has got the public keys of the other. -/
def alice (S : Scene) : Alice :=
  ⟨S.o.exitKey, S.o.blindingKey, S.K.E.z.pubOf S.ob.contractKey, S.K.E.z.pubOf S.ob.spendKey, S.o.dst, S.o.dummy, S.o.rand⟩
def aliceBtc (S : Scene) : AliceBtc := ⟨S.o.btcKey, S.K.E.z.pubOf S.ob.exitKey, S.o.btcDst⟩
def bob (S : Scene) : Bob :=
  ⟨S.ob.contractKey, S.o.blindingKey, S.ob.spendKey, S.K.E.z.pubOf S.o.exitKey, S.ob.dst, S.ob.dummy, S.ob.rand⟩
def bobBtc (S : Scene) : BobBtc := ⟨S.ob.exitKey, S.K.E.z.pubOf S.o.btcKey, S.ob.btcDst⟩

/-- The transaction of this id pays so much to this script, hidden for this key: with the first output to it, opened by these. -/
def PaysElt (S : Scene) (id spk pub : Bytes) (v : Int) (bf abf : Bytes) : Prop :=
  id.length = 32 ∧ WFTx (S.elt id) ∧ ∃ n out, n < 2 ^ 30 ∧ FirstTo spk (S.elt id).vout n out ∧ n < (S.elt id).wit.vtxoutwit.length ∧
    0 ≤ v ∧ ∀ key, S.K.E.z.secValid key = true → S.K.E.z.pubOf key = pub →
      unblind S.K.E key out.nValue out.nAsset out.nNonce out.scriptPubKey ((S.elt id).outWit n).rangeproof = .ok (.success S.K.W.asset v.toNat bf abf)

/-- The transaction of this id pays so much to this script. -/
def PaysBtc (S : Scene) (id spk : Bytes) (v : Int) : Prop :=
  id.length = 32 ∧ (∃ hex, S.K.parseBtc hex = .ok (S.btc id)) ∧ ∃ n, n < 2 ^ 32 ∧ FirstPays spk v (S.btc id).vout n

/-- A transaction that nodes accept: it spends an output of Alice's payment with a script that unlocks it, and the amounts are right. -/
def GoodElt (S : Scene) (c : Tx) : Prop :=
  ∃ n out contract, c.vin.map TxIn.prevout = [⟨S.eltId, n⟩] ∧ (S.elt S.eltId).vout[n]? = some out ∧
    out.scriptPubKey = [0xa9, 0x14] ++ S.K.W.hash160 contract ++ [0x87] ∧
    (∀ x, Checks S.K.E S.K.W contract c x → Interp.SpendsP2SH x contract (c.vin.getD 0 default).scriptSig) ∧
    verifyAmounts S.K.E S.N [out] (fillWitness c) = true ∧ ∃ b, serializeTx c = .ok b

/-- The same on the other side. -/
def GoodBtc (S : Scene) (c : BtcTx) : Prop :=
  ∃ n contract, c.vin.map BtcIn.prevout = [⟨S.btcId, n⟩] ∧ (S.btc S.btcId).vout[n]? = some ⟨101000000, [0x00, 0x20] ++ S.K.B.sha256 contract⟩ ∧
    (∀ x, BtcChecks S.K.E S.K.W S.K.B contract c x → SpendsP2WSH S.K.B x (S.K.B.sha256 contract) (c.witness.getD 0 [])) ∧
    (c.vout.map BtcOut.nValue).sum ≤ 101000000 ∧ ∃ w, S.K.B.serialize c = .ok w

/-- The nodes: every transaction is confirmed within the time that `wait_confirm` waits; what one of the two has been told is
confirmed stays so, for both. -/
def node (S : Scene) : Node := fun t o q => match q with
  | .payBtc spk v => fun r => S.PaysBtc S.btcId spk v → r = .ok S.btcId
  | .payElt spk pub v => fun r => (∃ bf abf, S.PaysElt S.eltId spk pub v bf abf) → r = .ok S.eltId
  | .sendElt c => fun r => S.GoodElt c → S.elt S.claimId = c → r = .ok S.claimId
  | .sendBtc c => fun r => S.GoodBtc c → ∃ id, r = .ok id
  | .tx c id => fun r =>
      (r = .error .rpc ∨ ∃ i : Info, r = .ok i ∧ (c = .elt → id = S.eltId ∨ id = S.claimId → serializeTx (S.elt id) = .ok i.hex) ∧
        (c = .btc → id = S.btcId → S.K.parseBtc i.hex = .ok (S.btc id))) ∧
      (59 ≤ lookups t c id → ∃ (i : Info) (m : Int), r = .ok i ∧ i.confirmations = some m ∧ 6 ≤ m) ∧
      (∀ n, Confirmed t c id n ∨ Confirmed o c id n → ∃ (i : Info) (m : Int), r = .ok i ∧ i.confirmations = some m ∧ n ≤ m) ∧
      /- what is in a block that the node has shown is known -/
      ((∃ (x : Bytes) (v : SwapWatch.View) (h : Bytes) (b : SwapWatch.Block), Answered t (.look x) v ∧ c = .elt ∧ v.block h = some b ∧
        ∃ s ∈ b.txs, s.id = id) → ∃ i, r = .ok i)
  /- the node has a part of the chain: Bob's claim only after Bob has sent it, and in time -/
  | .look id => fun r => id = S.eltId → ∃ v len, r = .ok v ∧ Answers S.chain S.paidAt len v ∧ v.confirmations ≤ 10 ∧
      (S.claimedAt < len → ∃ c, Answered o (.sendElt c) S.claimId) ∧
      (S.K.passes ≤ looks t + (S.claimedAt - S.paidAt + 2) → S.claimedAt < len)
  | .ping _ => fun r => r = .ok ()
  | _ => fun _ => True

variable {M M' : Type} [AddCommGroup M] [Module Scalar M] [AddCommGroup M'] [Module Scalar M']

/-- Library, curve and network do what they should; the keys are keys and can be added; the wallets can pay; Bob's secrets are usable;
Bob's claim gets into the chain of the asset before Alice's patience and the timeout end. -/
structure Honest (S : Scene) (C : Curve M) (P : Pedersen S.K.E.z M') (Good Asset : Bytes → Prop) : Prop where
  wire : WireSizes S.K.E.z
  formats : Formats S.K.E.z
  rewinds : Rewinds S.K.E.z
  exact : RewindExact S.K.E.z
  works : Works S.K.E.z Good Asset 0 52
  keeps : S.N.Keeps P
  sizes : KeySizes S.K.E S.K.W
  hash : ∀ b, (S.K.B.sha256 b).length = 32
  addrA : AddrOk S.o.dst
  addrB : AddrOk S.ob.dst
  curve : OnCurve C S.K.E S.K.W
  adds : Adds S.K.E S.K.W
  pub : PubOf C S.K.B.pub
  order : S.K.B.order = secpN
  nonce : KnownNonce C S.K.B.k S.K.W.r
  inverse : S.K.B.rInv * S.K.W.r % secpN = 1
  keys : ∀ k ∈ [S.o.blindingKey, S.o.btcKey, S.o.exitKey, S.ob.contractKey, S.ob.spendKey, S.ob.exitKey], IsKey k
  sumElt : (beVal S.ob.contractKey + beVal S.o.blindingKey) % secpN ≠ 0
  sumBtc : (beVal S.ob.contractKey + beVal S.o.btcKey) % secpN ≠ 0
  /-- the one key that cannot be found (C66) -/
  found : (S.K.W.r * (beVal S.ob.contractKey + beVal S.o.blindingKey) + 2 * beVal (S.K.B.sha256 [1])) % secpN ≠ 0
  reveals : Reveals S.K.W S.ob.contractKey S.o.blindingKey
  /-- what the wallets can pay with -/
  paysBtc : ∀ c, CoinContract S.K S.o S.ob c → S.PaysBtc S.btcId ([0x00, 0x20] ++ S.K.B.sha256 c) 101000000
  paysElt : ∃ bf abf, Usable S.K.E S.K.W Good Asset S.ob.dst S.ob.dummy S.ob.rand bf abf ∧ ∀ c, AssetContract S.K S.o S.ob c →
    S.PaysElt S.eltId ([0xa9, 0x14] ++ S.K.W.hash160 c ++ [0x87]) (S.K.E.z.pubOf S.o.blindingKey) 101000000 bf abf
  /-- a bitcoin transaction like Alice's can be written -/
  written : ∀ n t, n < 2 ^ 32 → BtcSwept S.o.btcDst S.btcId n 0xffffffff t → ∃ w, S.K.B.serialize t = .ok w
  /-- the id of Bob's claim, and a node that checks it -/
  claim : ∀ m c, bobClaim S.K.E S.K.W S.bob S.eltId m (S.elt S.eltId) = .ok c → S.elt S.claimId = c ∧
    ∀ k, AssetContract S.K S.o S.ob k → ∃ x, Checks S.K.E S.K.W k c x ∧ ChecksData C (beVal (S.K.B.sha256 [1])) x
  first : FirstSpends S.chain S.paidAt S.eltId S.claimedAt S.place S.claimId
  inTime : ∃ v, v.confirmations ≤ 10 ∧ Answers S.chain S.paidAt S.chain.length v
  patience : S.claimedAt - S.paidAt + 2 ≤ S.K.passes

end Scene
end Verif.Spec.Cross
