import Verif.Props.SwapWhy
import Verif.Props.SwapBtcToy
/-
C79 holds of something: a swap that both finish, and runs in which it fails; and the claim that whoever has paid takes the money back is
false while the deposit is not in a block.
-/
namespace Verif.SwapRun.Toy
open Verif Spec CrossSwap SwapSpend SwapBtc SwapRun Verif.Toy SwapSpend.Toy SwapBtc.Toy

def K : Kit := ⟨env, W2, B, fun _ => .ok (btcDeposit 101000000), 3⟩
def o : AliceOwn := ⟨b32 3, b32 11, b32 7, SpendAddr.Toy.confDst, b32 30, fun k => b32 (k % 1000 + 40), [0x51]⟩
def ob : BobOwn := ⟨b32 (secpN - 2), b32 6, b32 12, SpendAddr.Toy.confDst, b32 30, fun k => b32 (k % 1000 + 40), [0x52]⟩

theorem fit : Fit K o.dst := ⟨wireSizes, formats, rewinds, keySizes2, hash, SpendAddr.Toy.confDst_ok⟩
theorem fitBob : Fit K ob.dst := ⟨wireSizes, formats, rewinds, keySizes2, hash, SpendAddr.Toy.confDst_ok⟩

def bytesOf (t : Tx) : Bytes := match serializeTx t with | .ok b => b | .error _ => []

/-- The bytes of Alice's deposit, and of Bob's claim. -/
@[irreducible] def depositHex : Bytes := bytesOf (deposit 101000000)
@[irreducible] def claimHex : Bytes := match bobClaim env W2 SwapSpend.Toy.bob (b32 8) 2 (deposit 101000000) with | .ok t => bytesOf t | .error _ => []

def received (t : List Event) : Nat := t.countP fun | .did .recv _ => true | _ => false

/-- What the nodes say: the deposits are `b32 8` and `b32 21`, the claims `b32 9` and `b32 22`, and with so many confirmations. -/
def node (conf : Option Int) : (q : Query) → Ans q
  | .send _ => .ok ()
  | .recv => .ok none
  | .tx .elt id => if id = b32 8 then .ok (⟨conf, depositHex, []⟩ : Info) else .ok ⟨conf, claimHex, []⟩
  | .tx .btc _ => .ok (⟨conf, [], listed⟩ : Info)
  | .look _ => .ok (⟨(conf.getD 0).toNat, some (b32 40), fun _ => some ⟨[⟨b32 9, [b32 8]⟩], none⟩⟩ : SwapWatch.View)
  | .payBtc _ _ => .ok (b32 21)
  | .payElt _ _ _ => .ok (b32 8)
  | .sendBtc _ => .ok (b32 22)
  | .sendElt _ => .ok (b32 9)
  | .ping _ => .ok ()

/-- What Bob sends to Alice. -/
def fromBob (t : List Event) : Msg :=
  if received t = 0 then ⟨.pubkeys, [2 :: b32 (secpN - 2), 2 :: b32 6, 2 :: b32 12]⟩ else ⟨.btcTxid, [b32 21]⟩

/-- What Alice sends to Bob. -/
def fromAlice (t : List Event) : Msg :=
  if received t = 0 then ⟨.pubkeys, [2 :: b32 11, 2 :: b32 7]⟩ else if received t = 1 then ⟨.blindingKey, [b32 3]⟩ else ⟨.eltTxid, [b32 8]⟩

/-- Worlds in which everything goes well, for Alice and for Bob, if there are confirmations. -/
def toAlice (btc elt : Option Int) : Environment := fun t q => match q with
  | .recv => .ok (some (fromBob t))
  | .tx .btc id => node btc (.tx .btc id)
  | q => node elt q
def toBob (btc elt : Option Int) : Environment := fun t q => match q with
  | .recv => .ok (some (fromAlice t))
  | .tx .btc id => node btc (.tx .btc id)
  | q => node elt q

theorem aliceDone : (participant (toAlice (some 6) (some 6)) (alice K o)).1 = .done := by decide +kernel
theorem bobDone : (participant (toBob (some 6) (some 6)) (bob K ob)).1 = .done := by decide +kernel

/-- Alice has claimed the bitcoins, and Bob the asset. -/
example : ∃ c id, Answered (participant (toAlice (some 6) (some 6)) (alice K o)).2 (.sendBtc c) id :=
  let ⟨c, id, h, _⟩ := ((C79_alice_ends fit).2.1 aliceDone).2
  ⟨c, id, h⟩
example : ∃ c id, Answered (participant (toBob (some 6) (some 6)) (bob K ob)).2 (.sendElt c) id :=
  let ⟨c, id, h, _⟩ := ((C79_bob_ends fitBob).2.1 bobDone).2
  ⟨c, id, h⟩

def isPaid : Event → Bool
  | .did (.payElt _ _ _) (.ok _) => true
  | .did (.payBtc _ _) (.ok _) => true
  | _ => false
def isSent : Event → Bool
  | .did (.sendElt _) _ => true
  | .did (.sendBtc _) _ => true
  | _ => false

/-- Bob does not claim: Alice takes the asset back. -/
example : (participant (toAlice (some 6) (some 11)) (alice K o)).1 = .exit ∧
    (participant (toAlice (some 6) (some 11)) (alice K o)).2.any isSent = true := by decide +kernel
/-- Too few confirmations of Bob's deposit: Alice does not pay. -/
example : (participant (toAlice (some 5) (some 6)) (alice K o)).1 = .exit ∧
    (participant (toAlice (some 5) (some 6)) (alice K o)).2.any isPaid = false := by decide +kernel
/-- Alice does not pay: Bob takes the bitcoins back. -/
example : (participant (toBob (some 15) (some 1)) (bob K ob)).1 = .exit ∧
    (participant (toBob (some 15) (some 1)) (bob K ob)).2.any isSent = true := by decide +kernel
/-- In these they have a reason. -/
example : ∃ t, AliceGivesUp K o t :=
  let ⟨t, _, _, _, h, _⟩ := C79_alice_why (w := toAlice (some 5) (some 6)) fit (.inl (by decide +kernel))
  ⟨t, h⟩
example : ∃ t, BobGivesUp K ob t :=
  let ⟨t, _, _, _, h, _⟩ := C79_bob_why (w := toBob (some 15) (some 1)) (.inl (by decide +kernel))
  ⟨t, h⟩
/-- Before the timeout they wait. -/
example : (participant (toBob (some 14) (some 1)) (bob K ob)).1 = .waiting := by decide +kernel

theorem any_of {p : Event → Bool} {t : List Event} (h : t.any p = true) : ∃ e ∈ t, p e = true := List.any_eq_true.1 h

theorem none_of {p : Event → Bool} {t : List Event} (h : t.any p = false) {e : Event} (he : e ∈ t) : p e = false := by
  have := List.any_eq_false.1 h e he
  simpa using this

def other : Event → Bool
  | .did .recv (.ok (some (m : Msg))) => m.kind = .pubkeys && m.data ≠ [2 :: b32 (secpN - 2), 2 :: b32 6, 2 :: b32 12]
  | .did (.payElt _ _ _) (.ok (id : Bytes)) => id ≠ b32 8
  | _ => false
def otherBob : Event → Bool
  | .did .recv (.ok (some (m : Msg))) => m.kind = .pubkeys && m.data ≠ [2 :: b32 11, 2 :: b32 7] || m.kind = .blindingKey && m.data ≠ [b32 3]
  | .did (.payBtc _ _) (.ok (id : Bytes)) => id ≠ b32 21
  | _ => false

theorem reclaimable : ∃ tx c, deserializeTx depositHex = .ok tx ∧
    aliceReclaim K.E K.W ⟨o.exitKey, o.blindingKey, 2 :: b32 (secpN - 2), 2 :: b32 6, o.dst, o.dummy, o.rand⟩ (b32 8) tx = .ok c := by
  have h : (made (up (deserializeTx depositHex) >>= fun tx => aliceReclaim K.E K.W
    ⟨o.exitKey, o.blindingKey, 2 :: b32 (secpN - 2), 2 :: b32 6, o.dst, o.dummy, o.rand⟩ (b32 8) tx)).isSome = true := by decide +kernel
  obtain ⟨c, hc⟩ := made_of h
  obtain ⟨tx, h1, h2⟩ := exc_bind_ok.1 hc
  exact ⟨tx, c, up_ok.1 h1, h2⟩

def madeBtc (x : Except CrossSwap.Stop BtcTx) : Bool := match x with | .ok _ => true | _ => false

theorem reclaimableBob : ∃ c, bobReclaim K.E K.W K.B ⟨ob.contractKey, b32 3, ob.spendKey, 2 :: b32 7, ob.dst, ob.dummy, ob.rand⟩
    ⟨ob.exitKey, 2 :: b32 11, ob.btcDst⟩ (b32 21) listed = .ok c := by
  have h : madeBtc (bobReclaim K.E K.W K.B ⟨ob.contractKey, b32 3, ob.spendKey, 2 :: b32 7, ob.dst, ob.dummy, ob.rand⟩
    ⟨ob.exitKey, 2 :: b32 11, ob.btcDst⟩ (b32 21) listed) = true := by decide +kernel
  unfold madeBtc at h
  split at h
  · exact ⟨_, ‹_›⟩
  · cases h

/-- The conditions of the claims, for every number of confirmations. -/
theorem answers (c1 c2 : Option Int) {extra : Info → Prop} (hx : extra ⟨c2, depositHex, []⟩)
    (h : (participant (toAlice c1 c2) (alice K o)).2.any other = false) {cp bp xp id : Bytes}
    (hr : Received (participant (toAlice c1 c2) (alice K o)).2 .pubkeys [cp, bp, xp])
    (hp : AlicePaid K o (participant (toAlice c1 c2) (alice K o)).2 cp bp id) (t : List Event) :
    ∃ i : Info, toAlice c1 c2 t (.tx .elt id) = .ok i ∧ extra i ∧ ∃ tx c, deserializeTx i.hex = .ok tx ∧
        aliceReclaim K.E K.W ⟨o.exitKey, o.blindingKey, cp, bp, o.dst, o.dummy, o.rand⟩ id tx = .ok c := by
  obtain ⟨p, -, hp, -⟩ := hp
  have h1 := none_of h hr
  have h2 := none_of h hp
  simp [other] at h1 h2
  obtain ⟨rfl, rfl, rfl⟩ := h1
  subst h2
  exact ⟨⟨c2, depositHex, []⟩, (by simp [toAlice, node]), hx, reclaimable⟩

theorem answersBob (c1 c2 : Option Int) {extra : Info → Prop} (hx : extra ⟨c1, [], listed⟩)
    (h : (participant (toBob c1 c2) (bob K ob)).2.any otherBob = false) {ap ep bk id : Bytes}
    (hr : Received (participant (toBob c1 c2) (bob K ob)).2 .pubkeys [ap, ep])
    (hk : Received (participant (toBob c1 c2) (bob K ob)).2 .blindingKey [bk])
    (hp : BobPaid K ob (participant (toBob c1 c2) (bob K ob)).2 ap id) (t : List Event) :
    ∃ i : Info, toBob c1 c2 t (.tx .btc id) = .ok i ∧ extra i ∧
      ∃ c, bobReclaim K.E K.W K.B ⟨ob.contractKey, bk, ob.spendKey, ep, ob.dst, ob.dummy, ob.rand⟩ ⟨ob.exitKey, ap, ob.btcDst⟩ id i.vout = .ok c := by
  obtain ⟨p, -, hp⟩ := hp
  have h1 := none_of h hr
  have h2 := none_of h hp
  have h3 := none_of h hk
  simp [otherBob] at h1 h2 h3
  obtain ⟨rfl, rfl⟩ := h1
  subst h2 h3
  exact ⟨_, rfl, hx, reclaimableBob⟩

/-- The conditions of `C79_back_partial` are met, with a payment. -/
example : ∃ c a, Event.did (.sendElt c) a ∈ (participant (toAlice (some 6) (some 11)) (alice K o)).2 := by
  suffices h : _ by
    obtain ⟨_, _, _, _, _, _, c, a, -, -, -, -, -, h⟩ := C79_back_partial K o (toAlice (some 6) (some 11)) fit (fun _ => rfl) (fun _ _ _ _ hr hp => answers (some 6) (some 11) (by simp) (by decide +kernel) hr hp)
      (.inl (by decide +kernel)) h
    exact ⟨c, a, h⟩
  exact ((C79_alice_ends fit).2.2 (.inl (by decide +kernel))).1 (by
    obtain ⟨e, he, h⟩ := any_of (p := fun | .wished => true | _ => false)
      (by decide +kernel : (participant (toAlice (some 6) (some 11)) (alice K o)).2.any _ = true)
    cases e with
    | did => cases h
    | wished => exact he)
example : ∃ c a, Event.did (.sendBtc c) a ∈ (participant (toBob (some 15) (some 1)) (bob K ob)).2 := by
  suffices h : _ by
    obtain ⟨_, _, _, _, _, c, a, -, -, -, -, -, h⟩ := C79_back_bob_partial K ob (toBob (some 15) (some 1)) fitBob (fun _ => rfl) (fun _ _ _ _ hr hk hp => answersBob (some 15) (some 1) (by simp) (by decide +kernel) hr hk hp)
      (.inl (by decide +kernel)) h
    exact ⟨c, a, h⟩
  exact ((C79_bob_ends fitBob).2.2 (.inl (by decide +kernel))).1 (by
    obtain ⟨e, he, h⟩ := any_of (p := fun | .wished => true | _ => false)
      (by decide +kernel : (participant (toBob (some 15) (some 1)) (bob K ob)).2.any _ = true)
    cases e with
    | did => cases h
    | wished => exact he)

/-- The deposit does not get into a block within the sixty attempts. -/
theorem slow : (participant (toAlice (some 6) none) (alice K o)).1 = .exit ∧ (participant (toAlice (some 6) none) (alice K o)).2.any isPaid = true ∧
    (participant (toAlice (some 6) none) (alice K o)).2.any isSent = false := by decide +kernel
theorem slowBob : (participant (toBob none none) (bob K ob)).1 = .exit ∧ (participant (toBob none none) (bob K ob)).2.any isPaid = true ∧
    (participant (toBob none none) (bob K ob)).2.any isSent = false := by decide +kernel

end Verif.SwapRun.Toy

namespace Verif.SwapRun
open Verif Spec SwapRun.Toy

/-- Alice pays, the deposit is not in a block after sixty attempts, `int(tx_json['confirmations'])` of the last wish raises `KeyError`, and
the process ends without the reclaim. -/
theorem C79_backed_false : ¬ C79_backed (fun _ => True) := by
  intro h
  obtain ⟨h1, h2, h3⟩ := slow
  obtain ⟨_, _, _, _, _, _, c, a, -, -, -, -, -, hc⟩ := h K o (toAlice (some 6) none) fit (fun _ => rfl)
    (fun _ _ _ _ hr hp => answers (some 6) none trivial (by decide +kernel) hr hp) (.inl h1) (by
      obtain ⟨e, he, hp⟩ := any_of h2
      obtain ⟨q, a⟩ | _ := e
      · cases q with
        | payElt s p x =>
          cases a with
          | ok id => exact ⟨s, p, x, id, he⟩
          | error => cases hp
        | payBtc s x => exact absurd trivial (by
            obtain ⟨pre, post, e⟩ := List.append_of_mem he
            exact fun _ => C79_alice fit pre _ _ post e)
        | _ => cases hp
      · cases hp)
  have := none_of h3 hc
  cases this

/-- And Bob, when the bitcoins are not in a block. -/
theorem C79_backed_bob_false : ¬ C79_backed_bob (fun _ => True) := by
  intro h
  obtain ⟨h1, h2, h3⟩ := slowBob
  obtain ⟨_, _, _, _, _, c, a, -, -, -, -, -, hc⟩ := h K ob (toBob none none) fitBob (fun _ => rfl)
    (fun _ _ _ _ hr hk hp => answersBob none none trivial (by decide +kernel) hr hk hp) (.inl h1) (by
      obtain ⟨e, he, hp⟩ := any_of h2
      obtain ⟨q, a⟩ | _ := e
      · cases q with
        | payBtc s x =>
          cases a with
          | ok id => exact ⟨s, x, id, he⟩
          | error => cases hp
        | payElt s p x => exact absurd trivial (by
            obtain ⟨pre, post, e⟩ := List.append_of_mem he
            exact fun _ => C79_bob fitBob pre _ _ post e)
        | _ => cases hp
      · cases hp)
  have := none_of h3 hc
  cases this

/-- **C79.** The claim as it stands is false of the code. -/
theorem C79_statement_false : ¬ C79_statement := fun h => C79_backed_false h.1

end Verif.SwapRun
