import Verif.Props.AssetRun
import Verif.Props.AssetSwapToy
/-
C80: worlds in which the participants of the asset swap finish, and in which they do not.
-/
namespace Verif.AssetRun
open Verif Spec Spec.Assets AssetSwap AssetSwap.Toy
namespace Toy
open Verif.Toy

def bytesOf (x : Except AssetSwap.Stop Tx) : Bytes :=
  match x with
  | .ok t => match serializeTx t with | .ok b => b | .error _ => []
  | .error _ => []

def K : Kit := ⟨env, W, b32 7, fun k => b32 (k + 5), fun k => b32 (k + 5)⟩

def KB : Kit := ⟨env, W, b32 7, fun k => b32 (k + 40), fun k => b32 (k + 40)⟩

def offers : List Offer := [⟨b32 5, 30⟩, ⟨b32 6, 40⟩]

def commitments : List Bytes := [10 :: b32 9, 10 :: b32 10, 10 :: b32 11]

/-- The transaction as it goes back and forth. -/
def first : Except AssetSwap.Stop Tx := bobStart env AssetSwap.Toy.bob (addr 21 1) commitments
def second : Except AssetSwap.Stop Tx := do
  aliceJoin env W { AssetSwap.Toy.alice 3 with change := addr 21 1 } ⟨b32 8, 50⟩ (← first) [addr 31 2, addr 32 3] (10 :: b32 12)
def third : Except AssetSwap.Stop Tx := do
  bobFinish env W AssetSwap.Toy.bob [(⟨b32 5, 30⟩, b32 31), (⟨b32 6, 40⟩, b32 32)] (← second)

/-- The node of Alice, and a Bob that says `last` in the end. -/
def toAlice (last : Option Msg) : Environment := fun t q =>
  match q with
  | .send _ => .ok ()
  | .recv 5 => .ok last
  | .recv _ =>
    match waits t with
    | 0 => .ok (some (⟨.waitTxid, .bytes (b32 13)⟩ : Msg))
    | 1 => .ok (some (⟨.offer, .offer ⟨b32 8, 50⟩⟩ : Msg))
    | 2 => .ok (some (⟨.partialTx, .bytes (bytesOf first)⟩ : Msg))
    | 3 => .ok (some (⟨.addresses, .addresses [addr 31 2, addr 32 3] (10 :: b32 12)⟩ : Msg))
    | _ => .ok none
  | .issue => if Assets.issues t = 0 then .ok (b32 5) else .ok (b32 6)
  | .unspent _ _ id =>
    if id = b32 5 then .ok [utxo 1 5 30 .p2pkh] else if id = b32 6 then .ok [utxo 2 6 40 .p2wpkh] else if id = b32 7 then .ok [utxo 3 7 30000 .p2sh]
    else .ok []
  | .key a => .ok (b32 (match a.kind with | .p2pkh => 1 | .p2wpkh => 2 | _ => 3))
  | .newAddr => .ok (addr 21 1, b32 21)
  | .generate => .ok ()
  | .tx _ => .ok (some 1)
  | .balance _ => .ok 50
  | .publish _ => .ok (b32 99)

/-- The node of Bob, and an Alice. -/
def toBob (semi : Bytes) : Environment := fun t q =>
  match q with
  | .send _ => .ok ()
  | .recv _ =>
    match waits t with
    | 0 => .ok (some (⟨.ready, .nothing⟩ : Msg))
    | 1 => .ok (some (⟨.offer, .offers offers⟩ : Msg))
    | 2 => .ok (some (⟨.address, .address (addr 21 1) commitments⟩ : Msg))
    | 3 => .ok (some (⟨.semiSigned, .bytes semi⟩ : Msg))
    | _ => .ok (some (⟨.goodbye, .nothing⟩ : Msg))
  | .issue => .ok (b32 8)
  | .unspent _ _ id => if id = b32 8 then .ok [utxo 4 8 50 .p2wpkh] else .ok []
  | .key _ => .ok (b32 4)
  | .newAddr => if t.any (fun | .did .newAddr _ => true | _ => false) then .ok (addr 32 3, b32 32) else .ok (addr 31 2, b32 31)
  | .generate => .ok ()
  | .tx _ => .ok (some 1)
  | .balance x => .ok (if x = b32 5 then 30 else 40)
  | .publish _ => .ok (b32 99)

theorem utxo_keyed {u : Utxo} (h : UtxoOk u) (id : Bytes) {k : Bytes} (hk : k.length = 32) : UtxoOk (Assets.keyed u id k) :=
  ⟨h.nonneg, h.money, h.hash, h.index, hk⟩

theorem fit (last : Option Msg) : Fit K (toAlice last) where
  sizes := sizes
  utxos t lo hi id l v k h hv hk := by
    refine utxo_keyed ?_ id hk
    simp only [toAlice] at h
    split at h
    · cases h
      rw [List.mem_singleton.1 hv]
      exact utxo_ok (by decide) (by decide)
    · split at h
      · cases h
        rw [List.mem_singleton.1 hv]
        exact utxo_ok (by decide) (by decide)
      · split at h
        · cases h
          rw [List.mem_singleton.1 hv]
          exact utxo_ok (by decide) (by decide)
        · cases h
          cases hv
  keys t a k h := by
    cases h
    simp [b32]

theorem fitBob (semi : Bytes) : FitBob KB (toBob semi) where
  sizes := sizes
  utxos t lo hi id l v k h hv hk := by
    refine utxo_keyed ?_ id hk
    simp only [toBob] at h
    split at h
    · cases h
      rw [List.mem_singleton.1 hv]
      exact utxo_ok (by decide) (by decide)
    · cases h
      cases hv
  keys t a k h := by
    cases h
    simp [b32]
  formats := formats
  rewinds := rewinds
  addrs t n a cs h := by
    simp only [toBob] at h
    split at h <;> first | (cases h; exact addr_ok _ _) | (exfalso; simp at h)

theorem bobDone : (participant (toBob (bytesOf second)) (bob KB)).1 = .done := by decide +kernel

theorem aliceDone : (participant (toAlice (some ⟨.final, .bytes (bytesOf third)⟩)) (alice K)).1 = .done := by decide +kernel

/-- Bob says nothing: Alice takes everything back. -/
theorem aliceBack : (participant (toAlice none) (alice K)).1 = .exit0 := by decide +kernel

def isSemi : Event → Bool
  | .did (.send ⟨.semiSigned, _⟩) (.ok _) => true
  | _ => false

def isPublish : Event → Bool
  | .did (.publish _) _ => true
  | _ => false

/-- Bob says bye: Alice takes nothing back. -/
theorem aliceBye : (participant (toAlice (some ⟨.bye, .nothing⟩)) (alice K)).1 = .exit ∧
    (participant (toAlice (some ⟨.bye, .nothing⟩)) (alice K)).2.any isSemi = true ∧
    (participant (toAlice (some ⟨.bye, .nothing⟩)) (alice K)).2.any isPublish = false := by decide +kernel

theorem aliceSemi : (participant (toAlice none) (alice K)).2.any isSemi = true := by decide +kernel

theorem sent_of {t : List Event} (h : t.any isSemi = true) : ∃ d, Sent t .semiSigned d := by
  obtain ⟨e, he, hs⟩ := List.any_eq_true.1 h
  revert he hs
  rcases e with ⟨q, a⟩
  cases q with
  | send m =>
    obtain ⟨k, d⟩ := m
    cases a with
    | ok u =>
      cases k <;> intro he hs <;> first | exact ⟨d, he⟩ | cases hs
    | error e => cases k <;> intro he hs <;> cases hs
  | _ => intro he hs; cases hs

theorem claimable : (match claimBack env W (b32 7) (fun n => [addr 21 1, addr 21 1, addr 21 1].getD n (addr 21 1)) (fun k => b32 (k + 5))
    [utxo 1 5 30 .p2pkh, utxo 2 6 40 .p2wpkh, utxo 3 7 30000 .p2sh] with
    | .ok c => (serializeTx c).toOption.isSome
    | .error _ => false) = true := by decide +kernel

theorem unspent6 (last : Option Msg) (t : List Event) : toAlice last t (.unspent 0 0 (b32 6)) = .ok [utxo 2 6 40 .p2wpkh] := by
  simp only [toAlice, if_neg (show b32 6 ≠ b32 5 by decide +kernel), if_true]

theorem unspent7 (last : Option Msg) (t : List Event) : toAlice last t (.unspent 1 9999999 (b32 7)) = .ok [utxo 3 7 30000 .p2sh] := by
  simp only [toAlice, if_neg (show b32 7 ≠ b32 5 by decide +kernel), if_neg (show b32 7 ≠ b32 6 by decide +kernel), if_true]

/-- What Alice begins with. -/
theorem began {last : Option Msg} {t : List Event} {a : Alice} (hf : From (toAlice last) t) (h : AliceBegan K t a) :
    a.utxos = [utxo 1 5 30 .p2pkh, utxo 2 6 40 .p2wpkh, utxo 3 7 30000 .p2sh] ∧ a.change = addr 21 1 := by
  obtain ⟨id1, v1, k1, id2, v2, k2, l, v3, k3, kc, ⟨s, rfl⟩, h1, h2, h3, h4, -⟩ := h
  have e1 := hf [] _ _ _ rfl
  change Except.ok (b32 5) = _ at e1
  cases e1
  have e2 := hf [_] (.unspent 0 0 (b32 5)) _ _ rfl
  simp only [toAlice, if_true] at e2
  cases e2
  have e3 := hf [_, _] _ _ _ rfl
  change Except.ok (b32 1) = _ at e3
  cases e3
  have e4 := hf [_, _, _] _ _ _ rfl
  change Except.ok (b32 6) = _ at e4
  cases e4
  have e5 := hf [_, _, _, _] (.unspent 0 0 (b32 6)) _ _ rfl
  rw [unspent6] at e5
  cases e5
  have e6 := hf [_, _, _, _, _] _ _ _ rfl
  change Except.ok (b32 2) = _ at e6
  cases e6
  have e7 := hf [_, _, _, _, _, _] (.unspent 1 9999999 (b32 7)) _ _ rfl
  rw [unspent7] at e7
  cases e7
  have := List.mem_singleton.1 h4.1
  subst this
  have e8 := hf [_, _, _, _, _, _, _] _ _ _ rfl
  change Except.ok (b32 3) = _ at e8
  cases e8
  have e9 := hf [_, _, _, _, _, _, _, _] _ _ _ rfl
  change Except.ok (addr 21 1, b32 21) = _ at e9
  simp only [Except.ok.injEq, Prod.mk.injEq] at e9
  refine ⟨?_, e9.1.symm⟩
  rw [Alice.utxos, h1, h2, h3]
  rfl

theorem canTakeBack (last : Option Msg) : CanTakeBack K (toAlice last) where
  addrs t := ⟨_, rfl, by decide +kernel⟩
  distinct t a hf h := by
    rw [(began hf h).1]
    decide +kernel
  rich t a hf h := by
    rw [(began hf h).1]
    decide +kernel
  claim t a t1 a1 k1 t2 a2 k2 t3 a3 k3 hf h h1 h2 h3 := by
    obtain ⟨e1, e2⟩ := began hf h
    cases h1
    cases h2
    cases h3
    rw [e1, e2]
    have := claimable
    split at this
    · rename_i c hc
      cases hb : serializeTx c with
      | ok b => exact ⟨c, b, hc, hb⟩
      | error e => rw [hb] at this; cases this
    · cases this

end Toy

/-- C80, in full: whatever Bob says last, Alice takes everything back if the swap does not come about. -/
def C80_statement : Prop := C80_backed fun _ => True

/-- Bob has the signatures and says bye: `recv` exits, and `SystemExit` is not an `Exception`, so that Alice takes nothing back. -/
theorem C80_statement_false : ¬ C80_statement := by
  intro h
  have := h Toy.K (Toy.toAlice (some ⟨.bye, .nothing⟩)) (Toy.fit _) (Toy.canTakeBack _) (fun _ _ _ => trivial) (Toy.sent_of Toy.aliceBye.2.1)
  obtain ⟨pre, b, r, post, e, -⟩ := this
  have h2 := Toy.aliceBye.2.2
  rw [e] at h2
  simp [Toy.isPublish] at h2

theorem ended_done {F : End → List Event → Prop} {w : Environment} {p : Prog} (h : Ended F (participant w p)) (hx : (participant w p).1 = .done) :
    ∃ t, participant w p = (.done, t) ∧ F .finished t := by
  revert h hx
  obtain ⟨o, t⟩ := participant w p
  rintro h rfl
  exact ⟨t, rfl, h⟩

theorem ended_exit0 {F : End → List Event → Prop} {w : Environment} {p : Prog} (h : Ended F (participant w p)) (hx : (participant w p).1 = .exit0) :
    ∃ t, participant w p = (.exit0, t) ∧ F (.exited true) t := by
  revert h hx
  obtain ⟨o, t⟩ := participant w p
  rintro h rfl
  exact ⟨t, rfl, h⟩

attribute [local irreducible] Ended participant

/- Both finish. -/
example : ∃ t, participant (Toy.toAlice (some ⟨.final, .bytes (Toy.bytesOf Toy.third)⟩)) (alice Toy.K) = (.done, t) ∧ AliceEnds Toy.K .finished t :=
  ended_done (C80_alice_ends (Toy.fit _)) Toy.aliceDone

example : ∃ t, participant (Toy.toBob (Toy.bytesOf Toy.second)) (bob Toy.KB) = (.done, t) ∧ BobEnds Toy.KB .finished t :=
  ended_done (C80_bob_ends (Toy.fitBob _)) Toy.bobDone

/- Bob says nothing in the end: everything is taken back. -/
example : ∃ t, participant (Toy.toAlice none) (alice Toy.K) = (.exit0, t) ∧ AliceEnds Toy.K (.exited true) t :=
  ended_exit0 (C80_alice_ends (Toy.fit _)) Toy.aliceBack

example : Settled Toy.K (participant (Toy.toAlice none) (alice Toy.K)).2 :=
  C80_back_partial _ _ (Toy.fit none) (Toy.canTakeBack none) (fun t m h => by simp [Toy.toAlice] at h) (Toy.sent_of Toy.aliceSemi)

/- Bob gets something that is no transaction, and stops. -/
example : (participant (Toy.toBob [1, 2, 3]) (bob Toy.KB)).1 = .exit := by decide +kernel

end Verif.AssetRun
