import Verif.Spec.SwapRun
/-
Both participants of the cross-chain swap, connected by a pipe.
-/
namespace Verif.Spec
open Verif SwapSpend SwapBtc SwapRun

/-- What one receives, the other has sent. -/
def Hears (t t' : List Event) : Prop := ∀ m : Msg, Event.did .recv (.ok (some m)) ∈ t → Event.did (.send m) (.ok ()) ∈ t'

/-- The pipe between the two. -/
structure Linked (tA tB : List Event) : Prop where
  alice : Hears tA tB
  bob : Hears tB tA

/-- The contract for the asset, with the keys both have drawn: Bob can take it with the sum of the contract key and the
shared key revealed, Alice after the timeout. -/
def AssetContract (K : Kit) (o : AliceOwn) (ob : BobOwn) (c : Bytes) : Prop :=
  ∃ p, K.W.addPubs (K.E.z.pubOf ob.contractKey) (K.E.z.pubOf o.blindingKey) = .ok p ∧
    c = CrossSwap.eltContract K.W.r p (K.E.z.pubOf ob.spendKey) (K.E.z.pubOf o.exitKey)

/-- The contract for the bitcoins: Alice can take them with the sum of the contract key and their own, Bob after the timeout. -/
def CoinContract (K : Kit) (o : AliceOwn) (ob : BobOwn) (c : Bytes) : Prop :=
  ∃ p, K.W.addPubs (K.E.z.pubOf ob.contractKey) (K.E.z.pubOf o.btcKey) = .ok p ∧
    c = CrossSwap.btcContract p (K.E.z.pubOf ob.exitKey)

/-- Alice paid the asset to the contract, once, with this transaction. -/
def AssetPaid (K : Kit) (o : AliceOwn) (ob : BobOwn) (tA : List Event) (id : Bytes) : Prop :=
  (∃ c, AssetContract K o ob c ∧
    Answered tA (.payElt ([0xa9, 0x14] ++ K.W.hash160 c ++ [0x87]) (K.E.z.pubOf o.blindingKey) 101000000) id) ∧
  ∀ s p x r, Event.did (.payElt s p x) r ∈ tA → r = .ok id

/-- Bob paid the bitcoins to the contract, once, with this transaction. -/
def CoinsPaid (K : Kit) (o : AliceOwn) (ob : BobOwn) (tB : List Event) (id : Bytes) : Prop :=
  (∃ c, CoinContract K o ob c ∧ Answered tB (.payBtc ([0x00, 0x20] ++ K.B.sha256 c) 101000000) id) ∧
  ∀ s x r, Event.did (.payBtc s x) r ∈ tB → r = .ok id

/-- Alice has seen that the transaction has six confirmations and pays to the contract first with output `n`. -/
def CoinsSeen (K : Kit) (o : AliceOwn) (ob : BobOwn) (tA : List Event) (id : Bytes) (n : Nat) : Prop :=
  ∃ c, CoinContract K o ob c ∧ ∃ (i : Info) (m : Int) (tx : BtcTx), Answered tA (.tx .btc id) i ∧ i.confirmations = some m ∧ 6 ≤ m ∧
    K.parseBtc i.hex = .ok tx ∧ FirstPays ([0x00, 0x20] ++ K.B.sha256 c) 101000000 tx.vout n

/-- Bob has seen that the transaction has two confirmations and that its first output to the contract, output `n`, opens
to the agreed asset and amount with the key Alice has shared. -/
def AssetSeen (K : Kit) (o : AliceOwn) (ob : BobOwn) (tB : List Event) (id : Bytes) (n : Nat) : Prop :=
  ∃ c, AssetContract K o ob c ∧ ∃ (i : Info) (m : Int) (tx : Tx) (q : TxOut) (bf abf : Bytes), Answered tB (.tx .elt id) i ∧
    i.confirmations = some m ∧ 2 ≤ m ∧ deserializeTx i.hex = .ok tx ∧ Deposit K.E K.W o.blindingKey c tx n q 101000000 bf abf

/-- Alice has seen a transaction with two confirmations that spends the asset with the contract. -/
def AssetTaken (K : Kit) (o : AliceOwn) (ob : BobOwn) (tA : List Event) (id : Bytes) : Prop :=
  ∃ c, AssetContract K o ob c ∧ ∃ (sr : Bytes) (i : Info) (r : Tx) (s : Bytes), Answered tA (.tx .elt sr) i ∧
    deserializeTx i.hex = .ok r ∧ Confirmed tA .elt sr 2 ∧ FirstReveal id c r.vin s

/-- The swap has taken place: both have paid once, and each has taken what the other paid, with confirmed transactions; nobody
has taken anything back. -/
def Swapped (K : Kit) (o : AliceOwn) (ob : BobOwn) (tA tB : List Event) : Prop :=
  ∃ btc elt n m cA cB idA idB, CoinsPaid K o ob tB btc ∧ AssetPaid K o ob tA elt ∧ CoinsSeen K o ob tA btc n ∧ AssetSeen K o ob tB elt m ∧
    BtcSwept o.btcDst btc n 0xffffffff cA ∧ Answered tA (.sendBtc cA) idA ∧ Confirmed tA .btc idA 3 ∧
    Swept K.W.asset ob.dst elt m 0xffffffff cB ∧ Answered tB (.sendElt cB) idB ∧ Confirmed tB .elt idB 2 ∧
    (∀ c a, Event.did (.sendElt c) a ∉ tA) ∧ ∀ c a, Event.did (.sendBtc c) a ∉ tB

end Verif.Spec
