import Verif.Props.HonestRun
import Verif.Props.AssetHonest
/-
C96: two honest participants of the asset swap get to the end.
-/
namespace Verif.AssetPair
open Verif Spec Spec.Assets AssetSwap AssetRun

/-! ### Parts of the programs -/

theorem compute_ok {α : Type} (a : α) (next : α → Prog) : compute (.ok a) next = next a := rfl

section
variable {R : Part} {t : List Event} {l : List Item}

theorem follows_node {q : Query} {k : Ans q → Prog} (hq : ofNode q = true) (he : ∀ o, ∃ r, R.node t o q r)
    (h : ∀ o r, R.node t o q r → Follows R (t ++ [.did q r]) (k r) l) : Follows R t (.ask q k) l :=
  .asks (fun r => ∃ o, R.node t o q r) hq (fun o => (he o).imp fun _ h => ⟨h, o, h⟩) (fun o _ h => .inl ⟨o, h⟩) fun r ⟨o, hr⟩ => h o r hr

theorem follows_call {q : Query} {next : Val q → Prog} (hq : ofNode q = true) (he : ∀ o, ∃ r, R.node t o q r)
    (h : ∀ o r, R.node t o q r → ∃ v, r = .ok v ∧ Follows R (t ++ [.did q (.ok v)]) (next v) l) : Follows R t (call q next) l := by
  refine follows_node hq he fun o r hr => ?_
  obtain ⟨v, rfl, hv⟩ := h o r hr
  exact hv

theorem follows_send {m : Msg} {next : Unit → Prog} (h : Follows R (t ++ [.did (.send m) (.ok ())]) (next ()) l) :
    Follows R t (call (.send m) next) (.out m :: l) := .out h

theorem follows_recv {handler : Prog} {n : Nat} {k : MsgKind} {d : Data} {next : Data → Prog} (he : R.early t) (hk : k ≠ .bye)
    (h : Follows R (t ++ [.did (.recv n) (.ok (some ⟨k, d⟩))]) (next d) l) : Follows R t (recvElse handler n k next) (.inp ⟨k, d⟩ :: l) := by
  refine .inp he ?_
  simpa [hk] using h

/-- No transaction was given to the node. -/
def Unpublished (t : List Event) : Prop := ∀ x r, Event.did (.publish x) r ∉ t

theorem Unpublished.more {t : List Event} (h : Unpublished t) {q : Query} {r : Ans q} (hp : ∀ x, q ≠ .publish x := by simp) : Unpublished (t ++ [.did q r]) := by
  intro x r' hm
  rcases List.mem_append.1 hm with hm | hm
  · exact h x r' hm
  · cases List.mem_singleton.1 hm
    exact hp x rfl

/-- More has happened, but nobody has asked for an address or published anything. -/
structure Later (t t' : List Event) : Prop where
  sub : ∀ e ∈ t, e ∈ t'
  same : addrs t' = addrs t
  un : Unpublished t → Unpublished t'

theorem Later.refl (t : List Event) : Later t t := ⟨fun _ h => h, rfl, fun h => h⟩

theorem Later.more {t t' : List Event} (h : Later t t') {q : Query} {r : Ans q} (hq : q ≠ .newAddr) (hp : ∀ x, q ≠ .publish x := by simp) :
    Later t (t' ++ [.did q r]) := by
  refine ⟨fun e he => List.mem_append_left _ (h.sub e he), ?_, fun hu => (h.un hu).more hp⟩
  rw [← h.same]
  unfold addrs
  rw [List.countP_append]
  cases q <;> first | rfl | exact absurd rfl hq

theorem follows_balances (fs : List Offer) {next : Prog} (he : ∀ t o asset, ∃ r, R.node t o (.balance asset) r)
    (hv : ∀ t o asset r, R.node t o (.balance asset) r → ∃ n, r = .ok n) (h : ∀ t', Later t t' → Follows R t' next l) : Follows R t (balances fs next) l := by
  have key : ∀ fs t', Later t t' → Follows R t' (balances fs next) l := by
    intro fs
    induction fs with
    | nil => exact fun t' ht => h t' ht
    | cons f fs ih =>
      intro t' ht
      refine follows_call rfl (fun o => he _ o _) fun o r hr => ?_
      obtain ⟨n, rfl⟩ := hv _ o _ r hr
      exact ⟨n, rfl, ih _ (ht.more (by simp))⟩
  exact key fs t (.refl t)

end

/-! ### Alice -/

section

/-- The end for Alice. -/
def AliceThere (S : Scene) (x : Bytes) (t : List Event) (p : Prog) : Prop :=
  p = .finish ∧ (∃ id, Answered t (.publish x) id ∧ Confirmed t id) ∧ Answered t (.balance S.b.utxo.asset) S.b.utxo.amount

/-- Alice, who is to publish this. -/
def aliceR (S : Scene) (x : Bytes) : Part := ⟨S.aliceNode, Unpublished, fun _ => False, AliceThere S x⟩

variable {S : Scene} {x : Bytes} {t : List Event} {l : List Item}

theorem follows_wait {id : Bytes} {next : Prog} (h : ∀ t', Later t t' → Confirmed t' id → Follows (aliceR S x) t' next l) :
    Follows (aliceR S x) t (waitConfirm id 60 next) l := by
  have key : ∀ k t', 1 ≤ k → 60 ≤ lookups t' id + k → Later t t' → Follows (aliceR S x) t' (waitConfirm id k next) l := by
    intro k
    induction k with
    | zero => intro _ h0; omega
    | succ k ih =>
      intro t' _ hk ht
      have hone : ∀ r : Ans (.tx id), lookups (t' ++ [.did (.tx id) r]) id = lookups t' id + 1 := by
        intro r
        simp [lookups]
      have hgen : ∀ (r : Ans (.tx id)) (r' : Ans .generate), lookups (t' ++ [.did (.tx id) r] ++ [.did .generate r']) id = lookups t' id + 1 := by
        intro r r'
        simp [lookups]
      refine follows_node rfl (fun o => ?_) fun o r hr => ?_
      · exact ⟨.ok (some 1), .inr ⟨_, rfl⟩, fun _ => ⟨1, by decide, rfl⟩⟩
      · obtain ⟨h1, h2⟩ := hr
        have hlate : 1 ≤ k ∨ ∃ c : Int, 0 < c ∧ r = .ok (some c) := by
          rcases Nat.eq_zero_or_pos k with hz | hz
          · exact .inr (h2 (by omega))
          · exact .inl hz
        rcases h1 with rfl | ⟨c, rfl⟩
        · rcases hlate with hk1 | ⟨c, -, hc⟩
          · exact ih _ hk1 (by rw [hone]; omega) (ht.more (by simp))
          · cases hc
        · by_cases hc : c.getD 0 > 0
          · simp only [hc, if_true]
            refine h _ (ht.more (by simp)) ?_
            cases c with
            | none => cases hc
            | some c => exact ⟨c, by simp [Answered], hc⟩
          · simp only [hc, if_false]
            have hk1 : 1 ≤ k := by
              rcases hlate with hk1 | ⟨c', hc', hcc⟩
              · exact hk1
              · cases hcc; exact absurd hc' hc
            refine follows_node rfl (fun o => ⟨.ok (), rfl⟩) fun o r' hr' => ?_
            cases hr'
            exact ih _ hk1 (by rw [hgen]; omega) ((ht.more (by simp)).more (by simp))
  exact key 60 t (by omega) (by omega) (.refl t)

theorem follows_balances_alice (fs : List Offer) {next : Prog} (h : ∀ t', Later t t' → Follows (aliceR S x) t' next l) :
    Follows (aliceR S x) t (balances fs next) l :=
  follows_balances fs (fun _ _ _ => ⟨.ok S.b.utxo.amount, S.b.utxo.amount, rfl, fun _ _ => rfl⟩) (fun _ _ _ _ ⟨n, hn, _⟩ => ⟨n, hn⟩) h

theorem follows_generate {next : Unit → Prog} (h : ∀ t', Later t t' → Follows (aliceR S x) t' (next ()) l) :
    Follows (aliceR S x) t (call .generate next) l := by
  refine follows_call rfl (fun o => ⟨.ok (), rfl⟩) fun o r hr => ?_
  cases hr
  exact ⟨(), rfl, h _ ((Later.refl t).more (by simp))⟩

/-- The key of an address. -/
theorem alice_key {y : Bytes} {Usable Asset : Bytes → Prop} (hS : S.Honest Usable Asset) (t o : List Event) (x : Addr) : ∃ r, (aliceR S y).node t o (.key x) r := by
  by_cases h : ∃ w ∈ S.a.utxos, x = w.addr
  · obtain ⟨w, hw, rfl⟩ := h
    exact ⟨.ok w.key, fun w' hw' e => by rw [hS.keys w hw w' hw' e]⟩
  · exact ⟨.ok [], fun w hw e => absurd ⟨w, hw, e⟩ h⟩

theorem alice_unspent {Usable Asset : Bytes → Prop} (hS : S.Honest Usable Asset) (t o : List Event) (n m : Nat) (asset : Bytes) :
    ∃ r, (aliceR S x).node t o (.unspent n m asset) r := by
  have hd := hS.assets
  have hf := hS.owned.fee
  simp only [Alice.utxos, List.map_cons, List.map_nil, List.nodup_cons, List.mem_cons, List.not_mem_nil, or_false, not_or, not_false_eq_true,
    List.nodup_nil, and_true] at hd
  obtain ⟨⟨h12, h13⟩, h23⟩ := hd
  rw [hf.1] at h13 h23
  by_cases h1 : asset = S.a.asset1.asset
  · refine ⟨.ok [S.a.asset1], ?_, fun e => absurd (h1.symm.trans e) h13⟩
    intro w hw e
    simp only [List.mem_cons, List.not_mem_nil, or_false] at hw
    rcases hw with rfl | rfl
    · exact ⟨_, rfl, by rw [e]; rfl⟩
    · exact absurd (h1.symm.trans e) h12
  · by_cases h2 : asset = S.a.asset2.asset
    · refine ⟨.ok [S.a.asset2], ?_, fun e => absurd (h2.symm.trans e) h23⟩
      intro w hw e
      simp only [List.mem_cons, List.not_mem_nil, or_false] at hw
      rcases hw with rfl | rfl
      · exact absurd e h1
      · exact ⟨_, rfl, by rw [e]; rfl⟩
    · refine ⟨.ok [S.a.fee], ?_, ?_⟩
      · intro w hw e
        simp only [List.mem_cons, List.not_mem_nil, or_false] at hw
        rcases hw with rfl | rfl
        · exact absurd e h1
        · exact absurd e h2
      · intro e
        refine ⟨_, S.a.fee, rfl, by rw [e, ← hf.1]; rfl, ⟨by simp, hf.2, ?_⟩, ?_⟩
        · intro x hx _
          rw [List.mem_singleton.1 hx]
        · exact fun v hv => List.mem_singleton.1 hv.1

/-- One asset is issued. -/
theorem follows_issue {Usable Asset : Bytes → Prop} (hS : S.Honest Usable Asset) {w : Utxo} {next : Utxo → Prog} (hw : w ∈ [S.a.asset1, S.a.asset2])
    (hi : (if Assets.issues t = 0 then S.a.asset1.asset else S.a.asset2.asset) = w.asset)
    (h : ∀ t', Later t t' → Assets.issues t' = Assets.issues t + 1 → Follows (aliceR S x) t' (next w) l) : Follows (aliceR S x) t (issueAsset next) l := by
  refine follows_call rfl (fun o => ⟨_, rfl⟩) fun o r hr => ⟨w.asset, hr.trans (by rw [hi]), ?_⟩
  refine follows_call rfl (alice_unspent hS _ · _ _ _) fun o r hr => ?_
  obtain ⟨u, rfl, hu⟩ := hr.1 w hw rfl
  refine ⟨[u], rfl, ?_⟩
  have ha : u.addr = w.addr := (congrArg Utxo.addr hu :)
  refine follows_call rfl (alice_key hS _ · _) fun o r hr => ?_
  have hw' : w ∈ S.a.utxos := by
    simp only [Alice.utxos, List.mem_cons, List.not_mem_nil, or_false] at hw ⊢
    tauto
  refine ⟨w.key, hr w hw' ha, ?_⟩
  have : ({ u with asset := w.asset, key := w.key } : Utxo) = w := hu
  rw [this]
  refine h _ ((((Later.refl t).more (by simp)).more (by simp)).more (by simp)) ?_
  simp [Assets.issues]

theorem pickFee_only {l : List Utxo} {u : Utxo} (h : Enough l u) (h' : ∀ v, Enough l v → v = u) : pickFee l = some u := by
  cases hp : pickFee l with
  | none => exact absurd (pickFee_none hp u h.1) (by have := h.2.1; omega)
  | some v => rw [h' v (pickFee_some hp)]

theorem follows_fee {Usable Asset : Bytes → Prop} (hS : S.Honest Usable Asset) {c : Bytes} (hc : S.a.fee.assetCommitment = some c) {next : Utxo → Prog}
    (h : ∀ t', Later t t' → Follows (aliceR S x) t' (next S.a.fee) l) : Follows (aliceR S x) t (feeUtxo S.kit next) l := by
  refine follows_call rfl (alice_unspent hS _ · _ _ _) fun o r hr => ?_
  obtain ⟨l', u, rfl, hu, h1, h2⟩ := hr.2 rfl
  refine ⟨l', rfl, ?_⟩
  rw [pickFee_only h1 h2]
  have ha : u.addr = S.a.fee.addr := (congrArg Utxo.addr hu :)
  have hcc : u.assetCommitment = S.a.fee.assetCommitment := (congrArg Utxo.assetCommitment hu :)
  refine follows_call rfl (alice_key hS _ · _) fun o r hr => ?_
  refine ⟨S.a.fee.key, hr _ (by simp [Alice.utxos]) ha, ?_⟩
  have : ({ u with asset := S.kit.feeAsset, key := S.a.fee.key } : Utxo) = S.a.fee := hu
  rw [this, hcc, hc]
  exact h _ (((Later.refl t).more (by simp)).more (by simp))

theorem follows_newAddr {y : Addr × Bytes} (hx : (if addrs t = 0 then (S.a.change, S.changeKey) else (S.a.dst, S.a.bkey)) = y) (hv : S.E.z.secValid y.2 = true)
    {next : Addr → Bytes → Prog} (h : ∀ t', (Unpublished t → Unpublished t') → addrs t' = addrs t + 1 → Follows (aliceR S x) t' (next y.1 y.2) l) :
    Follows (aliceR S x) t (newAddr S.kit next) l := by
  refine follows_call rfl (fun o => ⟨_, rfl⟩) fun o r hr => ⟨y, hr.trans (by rw [hx]), ?_⟩
  have : S.kit.E.z.secValid y.2 = true := hv
  simp only [this, Bool.not_true, if_false, Bool.false_eq_true]
  refine h _ (fun hu => hu.more) ?_
  simp [addrs]

/-- What they have to send, and what comes of it. -/
structure Talk (S : Scene) where
  p : Tx
  t : Tx
  t' : Tx
  cb : Bytes
  c1 : Bytes
  c2 : Bytes
  c3 : Bytes
  bp : Bytes
  bt : Bytes
  bx : Bytes

structure Talk.Right (S : Scene) (T : Talk S) : Prop where
  commitments : S.b.utxo.assetCommitment = some T.cb ∧ S.a.asset1.assetCommitment = some T.c1 ∧ S.a.asset2.assetCommitment = some T.c2 ∧
    S.a.fee.assetCommitment = some T.c3
  starts : bobStart S.E S.b S.a.dst [T.c1, T.c2, T.c3] = .ok T.p
  joins : aliceJoin S.E S.W S.a ⟨S.b.utxo.asset, S.b.utxo.amount⟩ T.p [S.x1.1, S.x2.1] T.cb = .ok T.t
  finishes : bobFinish S.E S.W S.b [(⟨S.a.asset1.asset, S.a.asset1.amount⟩, S.x1.2), (⟨S.a.asset2.asset, S.a.asset2.amount⟩, S.x2.2)] T.t = .ok T.t'
  final : aliceFinal T.t T.t' = some T.t'
  wireP : serializeTx T.p = .ok T.bp ∧ deserializeTx T.bp = .ok T.p
  wireT : serializeTx T.t = .ok T.bt ∧ deserializeTx T.bt = .ok T.t
  wireX : serializeTx T.t' = .ok T.bx ∧ deserializeTx T.bx = .ok T.t'
  swaps : Swaps S.E S.W S.a S.b S.x1 S.x2 T.t'
  accepted : verifyAmounts S.E S.N S.spent (fillWitness T.t') = true

theorem talk {M : Type} [AddCommGroup M] [Module Scalar M] {P : Pedersen S.E.z M} {Usable Asset : Bytes → Prop} (hN : S.N.Keeps P) (hS : S.Honest Usable Asset) :
    ∃ T : Talk S, T.Right := by
  have ho := hS.owned.owned
  have h := hS.owned
  generalize hsp : S.spent = spent at ho h
  match spent, ho with
  | [sb, s1, s2, s3], ho =>
    simp only [Alice.utxos, List.forall₂_cons, List.forall₂_nil_left_iff, and_true] at ho
    obtain ⟨ob, o1, o2, o3⟩ := ho
    obtain ⟨p, t, t', h1, h2, h3, h4, h5, h6, h7⟩ := C95_made hS.works h
    obtain ⟨bp, p1, p2⟩ := (C05_roundtrip p).2 h2
    obtain ⟨bt, t1, t2⟩ := (C05_roundtrip t).2 h4
    obtain ⟨bx, x1, x2⟩ := (C05_roundtrip t').2 h7.wire
    exact ⟨⟨p, t, t', sb.nAsset, s1.nAsset, s2.nAsset, s3.nAsset, bp, bt, bx⟩,
      ⟨ob.commitments.1, o1.commitments.1, o2.commitments.1, o3.commitments.1⟩, h1, h3, h5, h6, ⟨p1, p2⟩, ⟨t1, t2⟩, ⟨x1, x2⟩, h7,
      by rw [hsp]; exact C95_accepted hN hS.works h h1 h3 h5⟩

theorem Talk.Right.good {T : Talk S} (h : T.Right) : S.Good T.bx := ⟨T.t', h.wireX.2, h.swaps.inputs, h.swaps.signed, h.accepted⟩

/-- What Alice says and hears. -/
def aliceTalk (T : Talk S) : List Item :=
  [.out ⟨.ready, .nothing⟩, .inp ⟨.waitTxid, .bytes S.b.utxo.prevout.hash⟩,
   .out ⟨.offer, .offers [⟨S.a.asset1.asset, S.a.asset1.amount⟩, ⟨S.a.asset2.asset, S.a.asset2.amount⟩]⟩,
   .inp ⟨.offer, .offer ⟨S.b.utxo.asset, S.b.utxo.amount⟩⟩, .out ⟨.address, .address S.a.dst [T.c1, T.c2, T.c3]⟩,
   .inp ⟨.partialTx, .bytes T.bp⟩, .inp ⟨.addresses, .addresses [S.x1.1, S.x2.1] T.cb⟩, .out ⟨.semiSigned, .bytes T.bt⟩,
   .inp ⟨.final, .bytes T.bx⟩, .out ⟨.goodbye, .nothing⟩]

theorem follows_done {T : Talk S} {id : Bytes} (hp : Answered t (.publish T.bx) id) :
    Follows (aliceR S T.bx) t (aliceDone S.a ⟨S.b.utxo.asset, S.b.utxo.amount⟩ id) [.out ⟨.goodbye, .nothing⟩] := by
  refine follows_generate fun t1 h1 => follows_wait fun t2 h2 hc => ?_
  have hp2 : Answered t2 (.publish T.bx) id := h2.sub _ (h1.sub _ hp)
  refine follows_call rfl (fun o => ⟨.ok S.b.utxo.amount, _, rfl, fun _ _ => rfl⟩) fun o r hr => ?_
  obtain ⟨n, rfl, hn⟩ := hr
  refine ⟨n, rfl, ?_⟩
  rw [hn rfl ⟨_, _, hp2, hc⟩]
  simp only [ne_eq, not_true_eq_false, if_false]
  refine follows_balances_alice _ fun t3 h3 => follows_send (.fin ?_)
  have hsub : ∀ e ∈ t2, e ∈ t3 ++ [Event.did (.send ⟨.goodbye, .nothing⟩) (.ok ())] := fun e he => List.mem_append_left _ (h3.sub _ (List.mem_append_left _ he))
  obtain ⟨c, hc1, hc2⟩ := hc
  exact ⟨rfl, ⟨id, hsub _ hp2, c, hsub _ hc1, hc2⟩, List.mem_append_left _ (h3.sub _ (by simp))⟩

theorem follows_last {T : Talk S} (hT : T.Right) (hu : Unpublished t) :
    Follows (aliceR S T.bx) t (aliceLast S.kit S.a ⟨S.b.utxo.asset, S.b.utxo.amount⟩ T.t)
      [.inp ⟨.final, .bytes T.bx⟩, .out ⟨.goodbye, .nothing⟩] := by
  refine follows_recv hu (by decide) ?_
  simp only [hT.wireX.1, hT.wireX.2, hT.final]
  refine follows_node rfl (fun o => ⟨.ok [], fun _ => ⟨_, rfl⟩⟩) fun o r hr => ?_
  obtain ⟨id, rfl⟩ := hr hT.good
  exact follows_done (by simp [Answered])

theorem follows_partial {T : Talk S} (hT : T.Right) (hu : Unpublished t) :
    Follows (aliceR S T.bx) t (alicePartial S.kit S.a ⟨S.b.utxo.asset, S.b.utxo.amount⟩ T.bp)
      [.inp ⟨.addresses, .addresses [S.x1.1, S.x2.1] T.cb⟩, .out ⟨.semiSigned, .bytes T.bt⟩, .inp ⟨.final, .bytes T.bx⟩, .out ⟨.goodbye, .nothing⟩] := by
  have hj := hT.joins
  unfold aliceJoin at hj
  obtain ⟨u, h1, h2⟩ := exc_bind_ok.1 hj
  unfold alicePartial
  rw [hT.wireP.2]
  show Follows _ _ (compute (checkPartial S.E S.a _ T.p) _) _
  rw [h1, compute_ok]
  refine follows_recv hu (by decide) ?_
  show Follows _ _ (compute (aliceAdd S.E S.W S.a T.p _ _) _) _
  rw [h2]
  show Follows _ _ (compute (up (serializeTx T.t)) _) _
  rw [hT.wireT.1]
  exact follows_send (follows_last hT hu.more.more)

theorem alice_follows {Usable Asset : Bytes → Prop} (hS : S.Honest Usable Asset) {T : Talk S} (hT : T.Right) :
    Follows (aliceR S T.bx) [] (AssetRun.alice S.kit) (aliceTalk T) := by
  refine follows_issue hS (w := S.a.asset1) (by simp) rfl fun t1 a1 b1 => ?_
  refine follows_issue hS (w := S.a.asset2) (by simp) (by rw [b1]; rfl) fun t2 a2 b2 => ?_
  refine follows_fee hS hT.commitments.2.2.2 fun t3 a3 => ?_
  have h3 : addrs t3 = 0 := by rw [a3.same, a2.same, a1.same]; rfl
  have u3 : Unpublished t3 := a3.un (a2.un (a1.un (by intro x r h; cases h)))
  refine follows_newAddr (y := (S.a.change, S.changeKey)) (by rw [h3]; rfl) hS.change.secret fun t4 a4 b4 => ?_
  have u4 := a4 u3
  refine follows_send (follows_recv u4.more (by decide) ?_)
  have h4 : Later t4 _ := ((Later.refl t4).more (q := .send ⟨.ready, .nothing⟩) (r := .ok ()) (by simp)).more (q := .recv 60)
    (r := .ok (some ⟨.waitTxid, .bytes S.b.utxo.prevout.hash⟩)) (by simp)
  refine follows_generate fun t5 a5 => follows_wait fun t6 a6 _ => follows_wait fun t7 a7 _ => follows_wait fun t8 a8 _ => ?_
  have u8 : Unpublished t8 := a8.un (a7.un (a6.un (a5.un (h4.un u4))))
  refine follows_send (follows_recv u8.more (by decide) ?_)
  refine follows_balances_alice _ fun t9 a9 => ?_
  have u9 : Unpublished t9 := a9.un u8.more.more
  have h9 : addrs t9 ≠ 0 := by
    rw [a9.same, ((((Later.refl t8).more (by simp)).more (by simp)).same), a8.same, a7.same, a6.same, a5.same, h4.same, b4]
    omega
  refine follows_newAddr (y := (S.a.dst, S.a.bkey)) (by rw [if_neg h9]) hS.owned.dst.secret fun t10 a10 _ => ?_
  have u10 := a10 u9
  simp only [hT.commitments.2.1, hT.commitments.2.2.1, hT.commitments.2.2.2]
  exact follows_send (follows_recv u10.more (by decide) (follows_partial hT u10.more.more))

end

/-! ### Bob -/

section
/-- Bob, with this node. -/
def bobR (node : Node) (drop : List Event → Prop) (fin : List Event → Prog → Prop) : Part := ⟨node, fun _ => True, drop, fin⟩

variable {S : Scene} {node : Node} {drop : List Event → Prop} {Fin : List Event → Prog → Prop} {t : List Event} {l : List Item}

/-- The node of Bob, whatever it says about transactions. -/
def BobLike (S : Scene) (node : Node) : Prop := ∀ t o q r, (∀ x, q ≠ .publish x) → (node t o q r ↔ S.bobNode t o q r)

theorem bob_balance {Usable Asset : Bytes → Prop} (hS : S.Honest Usable Asset) (hn : BobLike S node) (t o : List Event) (asset : Bytes) :
    ∃ r, node t o (.balance asset) r := by
  have hd := hS.assets
  simp only [Alice.utxos, List.map_cons, List.map_nil, List.nodup_cons, List.mem_cons, List.not_mem_nil, or_false, not_or, not_false_eq_true,
    List.nodup_nil, and_true] at hd
  obtain ⟨⟨h12, -⟩, -⟩ := hd
  refine ⟨.ok (if asset = S.a.asset1.asset then S.a.asset1.amount else S.a.asset2.amount), (hn _ _ _ _ (by simp)).2 ⟨_, rfl, ?_⟩⟩
  intro w hw e _
  simp only [List.mem_cons, List.not_mem_nil, or_false] at hw
  rcases hw with rfl | rfl
  · rw [if_pos e]
  · rw [if_neg (by rw [e]; exact fun h => h12 h.symm)]

theorem follows_balances_bob {Usable Asset : Bytes → Prop} (hS : S.Honest Usable Asset) (hn : BobLike S node) (fs : List Offer) {next : Prog}
    (h : ∀ t', Later t t' → Follows (bobR node drop Fin) t' next l) : Follows (bobR node drop Fin) t (balances fs next) l :=
  follows_balances fs (bob_balance hS hn) (fun _ _ _ _ hr => by
    obtain ⟨n, e, -⟩ := (hn _ _ _ _ (by simp)).1 hr
    exact ⟨n, e⟩) h

theorem follows_issue_bob (hn : BobLike S node) {next : Utxo → Prog}
    (h : ∀ t', Later t t' → Follows (bobR node drop Fin) t' (next S.b.utxo) l) : Follows (bobR node drop Fin) t (issueAsset next) l := by
  refine follows_call rfl (fun o => ⟨.ok S.b.utxo.asset, (hn _ _ _ _ (by simp)).2 rfl⟩) fun o r hr => ⟨S.b.utxo.asset, (hn _ _ _ _ (by simp)).1 hr, ?_⟩
  refine follows_call rfl (fun o => ⟨.ok [S.b.utxo], (hn _ _ _ _ (by simp)).2 fun _ => ⟨_, rfl, rfl⟩⟩) fun o r hr => ?_
  obtain ⟨u, rfl, hu⟩ := (hn _ _ _ _ (by simp)).1 hr rfl
  refine ⟨[u], rfl, ?_⟩
  have ha : u.addr = S.b.utxo.addr := (congrArg Utxo.addr hu :)
  refine follows_call rfl (fun o => ⟨.ok S.b.utxo.key, (hn _ _ _ _ (by simp)).2 fun _ => rfl⟩) fun o r hr => ⟨S.b.utxo.key, (hn _ _ _ _ (by simp)).1 hr ha, ?_⟩
  have : ({ u with asset := S.b.utxo.asset, key := S.b.utxo.key } : Utxo) = S.b.utxo := hu
  rw [this]
  exact h _ ((((Later.refl t).more (by simp)).more (by simp)).more (by simp))

theorem follows_newAddr_bob (hn : BobLike S node) {x : Addr × Bytes} (hx : (if addrs t = 0 then S.x1 else S.x2) = x) (hv : S.E.z.secValid x.2 = true)
    {next : Addr → Bytes → Prog} (h : ∀ t', (∀ e ∈ t, e ∈ t') → addrs t' = addrs t + 1 → Follows (bobR node drop Fin) t' (next x.1 x.2) l) :
    Follows (bobR node drop Fin) t (newAddr S.bobKit next) l := by
  refine follows_call rfl (fun o => ⟨_, (hn _ _ _ _ (by simp)).2 rfl⟩) fun o r hr => ⟨x, ((hn _ _ _ _ (by simp)).1 hr).trans (by rw [hx]), ?_⟩
  have : S.bobKit.E.z.secValid x.2 = true := hv
  simp only [this, Bool.not_true, if_false, Bool.false_eq_true]
  refine h _ (fun e he => List.mem_append_left _ he) ?_
  simp [addrs]

/-- What Alice offers. -/
def fs (S : Scene) : List Offer := [⟨S.a.asset1.asset, S.a.asset1.amount⟩, ⟨S.a.asset2.asset, S.a.asset2.amount⟩]

/-- What Bob does once Alice has the transaction. -/
def bobLast (S : Scene) (x : Bytes) : Prog :=
  call (.publish x) fun _ =>
  recv .goodbye fun _ =>
  balances (fs S ++ [⟨S.b.utxo.asset, S.b.utxo.amount⟩]) <|
  checkBalances (fs S) .finish

/-- What Bob says and hears until then. -/
def bobTalk (T : Talk S) (l : List Item) : List Item :=
  .inp ⟨.ready, .nothing⟩ :: .out ⟨.waitTxid, .bytes S.b.utxo.prevout.hash⟩ :: .inp ⟨.offer, .offers (fs S)⟩ ::
   .out ⟨.offer, .offer ⟨S.b.utxo.asset, S.b.utxo.amount⟩⟩ :: .inp ⟨.address, .address S.a.dst [T.c1, T.c2, T.c3]⟩ ::
   .out ⟨.partialTx, .bytes T.bp⟩ :: .out ⟨.addresses, .addresses [S.x1.1, S.x2.1] T.cb⟩ :: .inp ⟨.semiSigned, .bytes T.bt⟩ ::
   .out ⟨.final, .bytes T.bx⟩ :: l

theorem follows_semi {T : Talk S} (hT : T.Right) (h : ∀ t', Follows (bobR node drop Fin) t' (bobLast S T.bx) l) :
    Follows (bobR node drop Fin) t (bobSemi S.bobKit S.b.utxo (fs S) [S.x1.2, S.x2.2] T.bt) (.out ⟨.final, .bytes T.bx⟩ :: l) := by
  unfold bobSemi
  rw [hT.wireT.2]
  show Follows _ _ (compute (bobFinish S.E S.W S.b [(⟨S.a.asset1.asset, S.a.asset1.amount⟩, S.x1.2), (⟨S.a.asset2.asset, S.a.asset2.amount⟩, S.x2.2)] T.t) _) _
  rw [hT.finishes, compute_ok, hT.wireX.1]
  exact follows_send (h _)

theorem follows_told {Usable Asset : Bytes → Prop} (hS : S.Honest Usable Asset) (hn : BobLike S node) {T : Talk S} (hT : T.Right) (ht : addrs t = 0)
    (h : ∀ t', Follows (bobR node drop Fin) t' (bobLast S T.bx) l) :
    Follows (bobR node drop Fin) t (bobTold S.bobKit S.b.utxo (fs S) S.a.dst [T.c1, T.c2, T.c3])
      (.out ⟨.partialTx, .bytes T.bp⟩ :: .out ⟨.addresses, .addresses [S.x1.1, S.x2.1] T.cb⟩ :: .inp ⟨.semiSigned, .bytes T.bt⟩ :: .out ⟨.final, .bytes T.bx⟩ :: l) := by
  refine follows_balances_bob hS hn _ fun t1 h1 => ?_
  show Follows _ _ (compute (bobStart S.E S.b S.a.dst [T.c1, T.c2, T.c3]) _) _
  rw [hT.starts, compute_ok, hT.wireP.1]
  refine follows_send ?_
  have h2 : addrs (t1 ++ [Event.did (.send ⟨.partialTx, .bytes T.bp⟩) (.ok ())]) = 0 := by
    rw [((Later.refl t1).more (by simp)).same, h1.same, ht]
  refine follows_newAddr_bob hn (x := S.x1) (by rw [h2]; rfl) hS.owned.receives.1.secret fun t3 _ h3 => ?_
  refine follows_newAddr_bob hn (x := S.x2) (by rw [h3, h2]; rfl) hS.owned.receives.2.secret fun t4 _ h4 => ?_
  simp only [newAddrs, hT.commitments.1]
  exact follows_send (follows_recv trivial (by decide) (follows_semi hT h))

theorem bob_follows {Usable Asset : Bytes → Prop} (hS : S.Honest Usable Asset) (hn : BobLike S node) {T : Talk S} (hT : T.Right)
    (h : ∀ t', Follows (bobR node drop Fin) t' (bobLast S T.bx) l) : Follows (bobR node drop Fin) [] (AssetRun.bob S.bobKit) (bobTalk T l) := by
  refine follows_issue_bob hn fun t1 h1 => ?_
  refine follows_recv trivial (by decide) (follows_send (follows_recv trivial (by decide) (follows_send (follows_recv trivial (by decide) ?_))))
  refine follows_told hS hn hT ?_ h
  rw [((((((Later.refl t1).more (by simp)).more (by simp)).more (by simp)).more (by simp)).more (by simp)).same, h1.same]
  rfl

/-- The end for Bob. -/
def BobThere (S : Scene) (t : List Event) (p : Prog) : Prop :=
  p = .finish ∧ Answered t (.balance S.a.asset1.asset) S.a.asset1.amount ∧ Answered t (.balance S.a.asset2.asset) S.a.asset2.amount

/-- The rest, if nodes accept the transaction or it is in the chain already. -/
theorem follows_goodbye {Usable Asset : Bytes → Prop} (hS : S.Honest Usable Asset) (hn : BobLike S node) {T : Talk S}
    (hp : ∀ t o r, node t o (.publish T.bx) r → (∃ id, r = .ok id) ∨ (∃ e, r = .error e) ∧ drop o) (he : ∀ t o, ∃ id, node t o (.publish T.bx) (.ok id)) :
    Follows (bobR node drop (BobThere S)) t (bobLast S T.bx) [.inp ⟨.goodbye, .nothing⟩] := by
  refine .asks (fun r => ∃ id, r = .ok id) rfl (fun o => ?_) (fun o r hr => ?_) ?_
  · obtain ⟨id, h⟩ := he t o
    exact ⟨_, h, id, rfl⟩
  · rcases hp _ _ _ hr with h | ⟨⟨e, rfl⟩, h⟩
    · exact .inl h
    · exact .inr ⟨rfl, h⟩
  rintro _ ⟨id, rfl⟩
  refine follows_recv trivial (by decide) (follows_balances_bob hS hn _ fun t1 h1 => ?_)
  have hg : Received t1 .goodbye .nothing := ⟨60, h1.sub _ (by simp)⟩
  refine follows_call rfl (fun o => bob_balance hS hn _ _ _) fun o r hr => ?_
  obtain ⟨n, rfl, hb⟩ := (hn _ _ _ _ (by simp)).1 hr
  refine ⟨n, rfl, ?_⟩
  rw [hb S.a.asset1 (by simp) rfl hg]
  simp only [ne_eq, not_true_eq_false, if_false]
  refine follows_call rfl (fun o => bob_balance hS hn _ _ _) fun o r hr => ?_
  obtain ⟨n, rfl, hb⟩ := (hn _ _ _ _ (by simp)).1 hr
  refine ⟨n, rfl, ?_⟩
  rw [hb S.a.asset2 (by simp) rfl ⟨_, List.mem_append_left _ hg.choose_spec⟩]
  simp only [ne_eq, not_true_eq_false, if_false]
  exact .fin ⟨rfl, by simp [Answered], by simp [Answered]⟩

theorem talk_sched (T : Talk S) : Sched [] (aliceTalk T) [] (bobTalk T [.inp ⟨.goodbye, .nothing⟩]) :=
  .outA <| .inB <| .outB <| .inA <| .outA <| .inB <| .outB <| .inA <| .outA <| .inB <| .outB <| .inA <| .outB <| .inA <| .outA <| .inB <| .outB <|
    .inA <| .outA <| .inB .nil

theorem talk_sched' (T : Talk S) : Sched [] (aliceTalk T) [] (bobTalk T []) :=
  .outA <| .inB <| .outB <| .inA <| .outA <| .inB <| .outB <| .inA <| .outA <| .inB <| .outB <| .inA <| .outB <| .inA <| .outA <| .inB <| .outB <|
    .inA <| .outA .nil

theorem real_like : BobLike S S.bobRealNode := by
  intro t o q r hq
  cases q <;> first | exact Iff.rfl | exact absurd rfl (hq _)

theorem unpublished_back (t : List Event) (e : Event) (h : Unpublished (t ++ [e])) : Unpublished t := fun x r hm => h x r (List.mem_append_left _ hm)

end

/-! ### Both -/

section
variable {S : Scene} {M : Type} [AddCommGroup M] [Module Scalar M] {P : Pedersen S.E.z M} {Usable Asset : Bytes → Prop}

/-- **C96.** Two honest participants get to the end: at any time something can be done, or both are done and the swap has taken place.
Not claimed for a node that refuses a transaction because it is in the chain already. -/
theorem C96_goes_partial (hN : S.N.Keeps P) (hS : S.Honest Usable Asset) {s : State} (h : HonestRun S.aliceNode S.bobNode S.start s) :
    (∃ s', HonestStep S.aliceNode S.bobNode s s') ∨
      s.alice.proc = .over .done ∧ s.bob.proc = .over .done ∧ ∃ x t, S.Swapped s.alice.trace s.bob.trace x t := by
  obtain ⟨T, hT⟩ := talk hN hS
  have hn : BobLike S S.bobNode := fun _ _ _ _ _ => Iff.rfl
  have h0 : Goes (aliceR S T.bx) (bobR S.bobNode (fun _ => False) (BobThere S)) S.start _ _ _ _ :=
    ⟨rfl, rfl, alice_follows hS hT, bob_follows hS hn hT fun _ => follows_goodbye hS hn (fun _ _ _ hr => .inl (hr hT.good)) fun _ _ => ⟨[], fun _ => ⟨_, rfl⟩⟩,
      talk_sched T⟩
  have hf : Fits (aliceR S T.bx) (bobR S.bobNode (fun _ => False) (BobThere S)) :=
    ⟨fun _ _ h => h.1, fun _ _ h => h.1, fun _ h => h, unpublished_back, fun _ h => h.elim⟩
  rcases h0.always hf h with
    h1 | ⟨p', q', e1, e2, ha, hb⟩ | ⟨⟨_, h1⟩, _⟩
  · exact .inl h1
  · rw [ha.1] at e1
    rw [hb.1] at e2
    exact .inr ⟨e1, e2, T.bx, T.t', hT.wireX.1, hT.swaps, hT.accepted, ha.2.1, ha.2.2, hb.2⟩
  · exact h1.elim

/-- **C96.** They cannot go on for ever. -/
theorem C96_ends (A B : Node) : WellFounded fun s' s : State => HonestStep A B s s' := honest_wf A B

/-- **C96.** From wherever they have got to, they get to the end, with the swap. -/
theorem C96_swaps_partial (hN : S.N.Keeps P) (hS : S.Honest Usable Asset) {s : State} (h : HonestRun S.aliceNode S.bobNode S.start s) :
    ∃ s', HonestRun S.aliceNode S.bobNode s s' ∧ s'.alice.proc = .over .done ∧ s'.bob.proc = .over .done ∧
      ∃ x t, S.Swapped s'.alice.trace s'.bob.trace x t := by
  induction s using (honest_wf S.aliceNode S.bobNode).induction with
  | _ s ih =>
    rcases C96_goes_partial hN hS h with ⟨s', hs⟩ | h'
    · obtain ⟨s2, hr, h2⟩ := ih s' hs (.step h hs)
      exact ⟨s2, honest_trans (.step .here hs) hr, h2⟩
    · exact ⟨s, .here, h'⟩

/-- **C96.** With nodes as they are: Alice is done in the end, and the swap has taken place; Bob is done too, or has stopped with an exception. -/
theorem C96_real (hN : S.N.Keeps P) (hS : S.Honest Usable Asset) {s : State} (h : HonestRun S.aliceNode S.bobRealNode S.start s) :
    (∃ s', HonestStep S.aliceNode S.bobRealNode s s') ∨
      s.alice.proc = .over .done ∧ (s.bob.proc = .over .done ∨ s.bob.proc = .over .exit) ∧ ∃ x t id, serializeTx t = .ok x ∧
        Swaps S.E S.W S.a S.b S.x1 S.x2 t ∧ verifyAmounts S.E S.N S.spent (fillWitness t) = true ∧ Answered s.alice.trace (.publish x) id ∧
        Confirmed s.alice.trace id ∧ Answered s.alice.trace (.balance S.b.utxo.asset) S.b.utxo.amount := by
  obtain ⟨T, hT⟩ := talk hN hS
  have h0 : Goes (aliceR S T.bx) (bobR S.bobRealNode (fun o => ∃ id, Answered o (.publish T.bx) id) (BobThere S)) S.start _ _ _ _ :=
    ⟨rfl, rfl, alice_follows hS hT, bob_follows hS real_like hT fun _ => follows_goodbye hS real_like (fun _ _ _ hr => by
      rcases hr hT.good with h | ⟨rfl, id, h, -⟩
      · exact .inl h
      · exact .inr ⟨⟨_, rfl⟩, id, h⟩) fun _ _ => ⟨[], fun _ => .inl ⟨_, rfl⟩⟩, talk_sched T⟩
  have hf : Fits (aliceR S T.bx) (bobR S.bobRealNode (fun o => ∃ id, Answered o (.publish T.bx) id) (BobThere S)) :=
    ⟨fun _ _ h => h.1, fun _ _ h => h.1, fun _ h => h, unpublished_back, fun _ ⟨_, h⟩ hu => hu _ _ h⟩
  rcases h0.always hf h with
    h1 | ⟨p', q', e1, e2, ha, hb⟩ | ⟨-, p', e1, ha, hb⟩
  · exact .inl h1
  · rw [ha.1] at e1
    rw [hb.1] at e2
    obtain ⟨id, h1, h2⟩ := ha.2.1
    exact .inr ⟨e1, .inl e2, T.bx, T.t', id, hT.wireX.1, hT.swaps, hT.accepted, h1, h2, ha.2.2⟩
  · rw [ha.1] at e1
    obtain ⟨id, h1, h2⟩ := ha.2.1
    exact .inr ⟨e1, .inr hb, T.bx, T.t', id, hT.wireX.1, hT.swaps, hT.accepted, h1, h2, ha.2.2⟩

/-- **C96.** The full claim: with nodes as they are, both are done in the end. -/
def C96_statement : Prop :=
  ∀ (S : Scene) (M : Type) [AddCommGroup M] [Module Scalar M] (P : Pedersen S.E.z M) (Usable Asset : Bytes → Prop), S.N.Keeps P → S.Honest Usable Asset →
    ∀ s, HonestRun S.aliceNode S.bobRealNode S.start s → (∃ s', HonestStep S.aliceNode S.bobRealNode s s') ∨ s.alice.proc = .over .done ∧ s.bob.proc = .over .done

/-- **C96.** Bob gives the transaction to Alice first, and then to the node (lines 571-573).  If Alice was faster, Bob's node may refuse it, and
Bob stops with an exception although the swap has taken place. -/
theorem C96_race (hN : S.N.Keeps P) (hS : S.Honest Usable Asset) :
    ∃ s, HonestRun S.aliceNode S.bobRealNode S.start s ∧ s.alice.proc = .over .done ∧ s.bob.proc = .over .exit ∧
      ∃ x t id, serializeTx t = .ok x ∧ Swaps S.E S.W S.a S.b S.x1 S.x2 t ∧ Answered s.alice.trace (.publish x) id ∧ Confirmed s.alice.trace id := by
  obtain ⟨T, hT⟩ := talk hN hS
  have h0 : Goes (aliceR S T.bx) (bobR S.bobRealNode (fun _ => False) (fun _ p => p = bobLast S T.bx)) S.start _ _ _ _ :=
    ⟨rfl, rfl, alice_follows hS hT, bob_follows hS real_like hT fun _ => .fin rfl, talk_sched' T⟩
  obtain ⟨⟨⟨pa, ta, la⟩, ⟨pb, tb, lb⟩⟩, hr, p, q, e1, e2, ⟨rfl, ⟨id, hp, hc⟩, -⟩, rfl⟩ := h0.gets
  simp only at e1 e2 hp hc
  subst e1 e2
  have s1 : HonestStep S.aliceNode S.bobRealNode ⟨⟨proc .finish, ta, la⟩, ⟨proc (bobLast S T.bx), tb, lb⟩⟩
      ⟨⟨proc .finish, ta, la⟩, ⟨proc .raise, tb ++ [.did (.publish T.bx) (.error .rpc)], lb⟩⟩ :=
    .bobAsks (.publish T.bx) _ (.error .rpc) tb lb ⟨proc .finish, ta, la⟩ rfl (fun _ => .inr ⟨rfl, id, hp, hc⟩)
  have s2 : HonestStep S.aliceNode S.bobRealNode ⟨⟨proc .finish, ta, la⟩, ⟨proc .raise, tb ++ [.did (.publish T.bx) (.error .rpc)], lb⟩⟩
      ⟨⟨proc .finish, ta, la ++ [⟨.bye, .nothing⟩]⟩,
        ⟨.over .exit, tb ++ [.did (.publish T.bx) (.error .rpc)] ++ [.did (.send ⟨.bye, .nothing⟩) (.ok ())], lb⟩⟩ :=
    .bobSends ⟨.bye, .nothing⟩ _ (tb ++ [.did (.publish T.bx) (.error .rpc)]) lb ⟨proc .finish, ta, la⟩
  exact ⟨_, .step (.step hr s1) s2, rfl, rfl, T.bx, T.t', id, hT.wireX.1, hT.swaps, hp, hc⟩

end
end Verif.AssetPair
