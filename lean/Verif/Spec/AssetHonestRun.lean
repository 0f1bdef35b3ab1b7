import Verif.Spec.AssetHonest
import Verif.Spec.AssetRun
import Verif.AssetPair
/-
When the two processes of examples/asset-atomic-swap.py have to finish: the pipe loses nothing, nobody has to wait too long,
and the nodes do what nodes do.
-/
namespace Verif.Spec.Assets
open Verif AssetSwap AssetRun AssetPair

/-- What a node may answer, when this has happened to the one who asks and this to the other. -/
abbrev Node : Type := List Event → List Event → (q : Query) → Ans q → Prop

/-- One of the two takes a step; messages arrive. -/
inductive HonestStep (A B : Node) : State → State → Prop
  | aliceAsks (q : Query) (k : Ans q → Proc) (r : Ans q) (t : List Event) (l : List Msg) (b : Side) : ofNode q = true → A t b.trace q r →
      HonestStep A B ⟨⟨.asks q k, t, l⟩, b⟩ ⟨⟨k r, t ++ [.did q r], l⟩, b⟩
  | aliceSends (m : Msg) (k : Ans (.send m) → Proc) (t : List Event) (l : List Msg) (b : Side) :
      HonestStep A B ⟨⟨.asks (.send m) k, t, l⟩, b⟩ ⟨⟨k (.ok ()), t ++ [.did (.send m) (.ok ())], l⟩, { b with inbox := b.inbox ++ [m] }⟩
  | aliceReceives (n : Nat) (m : Msg) (k : Ans (.recv n) → Proc) (t : List Event) (l : List Msg) (b : Side) :
      HonestStep A B ⟨⟨.asks (.recv n) k, t, m :: l⟩, b⟩ ⟨⟨k (.ok (some m)), t ++ [.did (.recv n) (.ok (some m))], l⟩, b⟩
  | bobAsks (q : Query) (k : Ans q → Proc) (r : Ans q) (t : List Event) (l : List Msg) (a : Side) : ofNode q = true → B t a.trace q r →
      HonestStep A B ⟨a, ⟨.asks q k, t, l⟩⟩ ⟨a, ⟨k r, t ++ [.did q r], l⟩⟩
  | bobSends (m : Msg) (k : Ans (.send m) → Proc) (t : List Event) (l : List Msg) (a : Side) :
      HonestStep A B ⟨a, ⟨.asks (.send m) k, t, l⟩⟩ ⟨{ a with inbox := a.inbox ++ [m] }, ⟨k (.ok ()), t ++ [.did (.send m) (.ok ())], l⟩⟩
  | bobReceives (n : Nat) (m : Msg) (k : Ans (.recv n) → Proc) (t : List Event) (l : List Msg) (a : Side) :
      HonestStep A B ⟨a, ⟨.asks (.recv n) k, t, m :: l⟩⟩ ⟨a, ⟨k (.ok (some m)), t ++ [.did (.recv n) (.ok (some m))], l⟩⟩

/-- Any number of steps. -/
inductive HonestRun (A B : Node) (s : State) : State → Prop
  | here : HonestRun A B s s
  | step {s1 s2 : State} : HonestRun A B s s1 → HonestStep A B s1 s2 → HonestRun A B s s2

/-- How often a new address was asked for. -/
def addrs (t : List Event) : Nat := t.countP fun
  | .did .newAddr _ => true
  | _ => false

/-- How often it was asked whether this transaction is confirmed. -/
def lookups (t : List Event) (id : Bytes) : Nat := t.countP fun
  | .did (.tx x) _ => x == id
  | _ => false

/-- Who swaps, and what with. -/
structure Scene where
  E : Env
  W : World
  /-- the checks of the network -/
  N : Verifier
  a : Alice
  b : Bob
  /-- addresses of Bob, with their blinding keys -/
  x1 : Addr × Bytes
  x2 : Addr × Bytes
  /-- the blinding key of the change address -/
  changeKey : Bytes
  /-- the outputs that are spent: Bob's, then Alice's -/
  spent : List TxOut
  /-- what else may be drawn at random -/
  rest : Nat → Bytes

namespace Scene

/-- What Alice uses, and what Bob uses. -/
def kit (S : Scene) : Kit := ⟨S.E, S.W, S.a.feeAsset, S.a.rand, S.rest⟩
def bobKit (S : Scene) : Kit := ⟨S.E, S.W, S.a.feeAsset, S.b.rand, S.rest⟩

/-- Both are started. -/
def start (S : Scene) : State := .start S.kit S.bobKit

/-- A transaction that nodes accept: it spends these outputs, all of it is signed by the owners, and the amounts are right. -/
def Good (S : Scene) (x : Bytes) : Prop :=
  ∃ t, deserializeTx x = .ok t ∧ t.vin.map inputView = (S.b.utxo :: S.a.utxos).map plainView ∧
    (∀ k u, (S.b.utxo :: S.a.utxos)[k]? = some u → Spends S.E S.W u t k) ∧ verifyAmounts S.E S.N S.spent (fillWitness t) = true

/-- The transaction is in the chain within the time that `wait_confirm` waits: there may be none, or errors, until then. -/
def Confirms (t : List Event) (id : Bytes) (r : Ans (.tx id)) : Prop :=
  (r = .error .rpc ∨ ∃ c, r = .ok c) ∧ (59 ≤ lookups t id → ∃ c : Int, 0 < c ∧ r = .ok (some c))

/-- The node of Alice. -/
def aliceNode (S : Scene) : Node := fun t _ q => match q with
  | .issue => fun r => r = .ok (if issues t = 0 then S.a.asset1.asset else S.a.asset2.asset)
  | .unspent _ _ asset => fun r =>
      /- a new asset is in one output -/
      (∀ w ∈ [S.a.asset1, S.a.asset2], asset = w.asset → ∃ u, r = .ok [u] ∧ keyed u asset w.key = w) ∧
      /- there is something to pay the fee -/
      (asset = S.a.feeAsset → ∃ l u, r = .ok l ∧ keyed u asset S.a.fee.key = S.a.fee ∧ Enough l u ∧ ∀ v, Enough l v → v = u)
  | .key x => fun r => ∀ w ∈ S.a.utxos, x = w.addr → r = .ok w.key
  | .newAddr => fun r => r = .ok (if addrs t = 0 then (S.a.change, S.changeKey) else (S.a.dst, S.a.bkey))
  | .generate => fun r => r = .ok ()
  | .tx id => fun r => Confirms t id r
  /- after a swap that is confirmed, what Bob had is there -/
  | .balance asset => fun r => ∃ n, r = .ok n ∧ (asset = S.b.utxo.asset → (∃ x id, Answered t (.publish x) id ∧ Confirmed t id) → n = S.b.utxo.amount)
  | .publish x => fun r => S.Good x → ∃ id, r = .ok id
  | _ => fun _ => True

/-- The node of Bob, apart from what it says about a transaction that is given to it. -/
def bobNode (S : Scene) : Node := fun t _ q => match q with
  | .issue => fun r => r = .ok S.b.utxo.asset
  | .unspent _ _ asset => fun r => asset = S.b.utxo.asset → ∃ u, r = .ok [u] ∧ keyed u asset S.b.utxo.key = S.b.utxo
  | .key x => fun r => x = S.b.utxo.addr → r = .ok S.b.utxo.key
  | .newAddr => fun r => r = .ok (if addrs t = 0 then S.x1 else S.x2)
  /- when Alice has seen the swap confirmed, what Alice had is there -/
  | .balance asset => fun r => ∃ n, r = .ok n ∧ ∀ w ∈ [S.a.asset1, S.a.asset2], asset = w.asset → Received t .goodbye .nothing → n = w.amount
  | .publish x => fun r => S.Good x → ∃ id, r = .ok id
  | _ => fun _ => True

/-- The node of Bob as it is: a transaction that is in the chain already is refused. -/
def bobRealNode (S : Scene) : Node := fun t t' q => match q with
  | .publish x => fun r => S.Good x → (∃ id, r = .ok id) ∨ r = .error .rpc ∧ ∃ id, Answered t' (.publish x) id ∧ Confirmed t' id
  | q => S.bobNode t t' q

/-- Both are honest and have what they offer; a different key for every address, and different assets. -/
structure Honest (S : Scene) (Usable Asset : Bytes → Prop) : Prop where
  works : AllWorks S.E S.W Usable Asset
  owned : HonestSwap S.E S.W Usable Asset S.a S.b S.x1 S.x2 S.spent
  change : Receives S.E S.a.change S.changeKey
  assets : (S.a.utxos.map Utxo.asset).Nodup
  keys : ∀ u ∈ S.a.utxos, ∀ v ∈ S.a.utxos, u.addr = v.addr → u.key = v.key

/-- The swap has taken place: one transaction, that gives to each what the other had, and that the network accepts. -/
structure Swapped (S : Scene) (tA tB : List Event) (x : Bytes) (t : Tx) : Prop where
  bytes : serializeTx t = .ok x
  swaps : Swaps S.E S.W S.a S.b S.x1 S.x2 t
  accepted : verifyAmounts S.E S.N S.spent (fillWitness t) = true
  confirmed : ∃ id, Answered tA (.publish x) id ∧ Confirmed tA id
  alice : Answered tA (.balance S.b.utxo.asset) S.b.utxo.amount
  bob : Answered tB (.balance S.a.asset1.asset) S.a.asset1.amount ∧ Answered tB (.balance S.a.asset2.asset) S.a.asset2.amount

end Scene
end Verif.Spec.Assets
