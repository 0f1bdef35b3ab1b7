import Verif.Spec.AssetRun
/-
Both participants of the asset swap, connected by a pipe.
-/
namespace Verif.Spec.Assets
open Verif AssetSwap AssetRun

/-- What one receives, the other has sent. -/
def Hears (t t' : List Event) : Prop := ∀ n (m : Msg), Event.did (.recv n) (.ok (some m)) ∈ t → Event.did (.send m) (.ok ()) ∈ t'

/-- The pipe between the two. -/
structure Linked (tA tB : List Event) : Prop where
  alice : Hears tA tB
  bob : Hears tB tA

/-- The swap: Bob's asset goes to Alice and Alice's two assets go to Bob, whole, and Alice pays the fee.  `x1` and `x2` are
addresses of Bob, with their blinding keys. -/
structure Fair (K : Kit) (tA tB : List Event) (u : Utxo) (a : Alice) (x1 x2 : Addr × Bytes) (s : Tx) : Prop where
  /-- Bob has issued `u`, Alice the assets of `a` -/
  bob : BobBegan tB u
  alice : AliceBegan K tA a
  /-- nothing else is spent, issued or pegged in -/
  inputs : s.vin.map inputView = [u, a.asset1, a.asset2, a.fee].map plainView
  /-- everything is signed by the owner, over the whole of the transaction -/
  signed : Spends K.E K.W u s 0 ∧ Spends K.E K.W a.asset1 s 1 ∧ Spends K.E K.W a.asset2 s 2 ∧ Spends K.E K.W a.fee s 3
  /-- the addresses are those of the recipients -/
  own : Answered tA .newAddr (a.dst, a.bkey)
  theirs : Answered tB .newAddr x1 ∧ Answered tB .newAddr x2
  scripts : ∃ s0 s1 s2 s3, a.dst.toScriptPubKey = .ok s0 ∧ x1.1.toScriptPubKey = .ok s1 ∧ x2.1.toScriptPubKey = .ok s2 ∧
    a.change.toScriptPubKey = .ok s3 ∧ s.vout.map TxOut.scriptPubKey = [s0, s1, s2, s3, []]
  /-- all that Bob has, to Alice -/
  gets : Finds K.E a.bkey s 0 u.asset u.amount
  /-- all that Alice has issued, to Bob -/
  pays : Finds K.E x1.2 s 1 a.asset1.asset a.asset1.amount ∧ Finds K.E x2.2 s 2 a.asset2.asset a.asset2.amount
  fee : s.vout[4]? = some { nValue := 1 :: beBytes 8 10000, nAsset := 1 :: K.feeAsset }
  rest : s.nVersion = 2 ∧ s.nLockTime = 0

/-- The bytes of such a transaction, which Bob sent to Alice, once. -/
def Agreed (K : Kit) (tA tB : List Event) (u : Utxo) (a : Alice) (b : Bytes) : Prop :=
  Sent tB .final (.bytes b) ∧ (∀ d, Sent tB .final d → d = .bytes b) ∧
    ∃ x1 x2 s, deserializeTx b = .ok s ∧ serializeTx s = .ok b ∧ Fair K tA tB u a x1 x2 s

/-- The swap has taken place for Alice: it was accepted and nothing else was, it is confirmed, and Bob's asset is there. -/
def SwappedAlice (K : Kit) (tA tB : List Event) (u : Utxo) (a : Alice) (b : Bytes) : Prop :=
  Agreed K tA tB u a b ∧ (∃ id, Answered tA (.publish b) id ∧ Confirmed tA id) ∧
    (∀ b' id, Answered tA (.publish b') id → b' = b) ∧ Answered tA (.balance u.asset) u.amount

/-- ... and for Bob: it was published, and Alice's assets are there. -/
def SwappedBob (tB : List Event) (a : Alice) (b : Bytes) : Prop :=
  (∃ id, Answered tB (.publish b) id) ∧ Answered tB (.balance a.asset1.asset) a.asset1.amount ∧
    Answered tB (.balance a.asset2.asset) a.asset2.amount

end Verif.Spec.Assets
