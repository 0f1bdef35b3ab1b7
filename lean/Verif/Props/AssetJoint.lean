import Verif.Spec.AssetJoint
import Verif.Props.AssetRun
/-
C84: both participants of the asset swap, connected by a pipe.
-/
namespace Verif.AssetRun
open Verif Spec Spec.Assets AssetSwap

variable {K KB : Kit} {tA tB : List Event}

/-- Everything that happens is an answer of the world. -/
theorem participant_from {w : Environment} (p : Prog) : From w (participant w p).2 := by
  have h : From w (exec w p []).2 := exec_from from_nil
  have key : ∀ t (a : Ans (.send ⟨.bye, .nothing⟩)), From w t → w t (.send ⟨.bye, .nothing⟩) = a → From w (t ++ [.did (.send ⟨.bye, .nothing⟩) a]) := by
    intro t a h ha pre q a' post e
    rcases List.eq_nil_or_concat post with rfl | ⟨post', x, rfl⟩
    · obtain ⟨rfl, e2⟩ := List.append_inj' e rfl
      cases e2
      exact ha
    · rw [List.concat_eq_append, ← List.cons_append, ← List.append_assoc] at e
      obtain ⟨e1, -⟩ := List.append_inj' e rfl
      exact h pre q a' post' e1
  unfold participant
  split
  · rename_i t e; rw [e] at h; exact h
  · rename_i t e; rw [e] at h; exact h
  · rename_i t e; rw [e] at h; exact h
  · rename_i t e
    rw [e] at h
    split
    · rename_i a ha; exact key t _ h ha
    · rename_i a ha; exact key t _ h ha

section helpers

theorem mem_allowed {may : List Event → Query → Prop} {t : List Event} {q : Query} {a : Ans q} (h : Allowed may t) (hm : Event.did q a ∈ t) :
    ∃ pre post, t = pre ++ Event.did q a :: post ∧ may pre q := by
  obtain ⟨pre, post, e⟩ := List.append_of_mem hm
  exact ⟨pre, post, e, h pre q a post e⟩

theorem pre_of {t pre post : List Event} {e : Event} (h : t = pre ++ e :: post) : pre <+: t := ⟨_, h.symm⟩

/-- What is sent once is sent once. -/
theorem once {may : List Event → Query → Prop} {t : List Event} {k : MsgKind} (h : Allowed may t)
    (ho : ∀ pre d, may pre (.send ⟨k, d⟩) → ∀ d' r, Event.did (.send ⟨k, d'⟩) r ∉ pre) {d d' : Data} {r : Ans (.send ⟨k, d⟩)}
    {r' : Ans (.send ⟨k, d'⟩)} (h1 : Event.did (.send ⟨k, d⟩) r ∈ t) (h2 : Event.did (.send ⟨k, d'⟩) r' ∈ t) : d = d' := by
  obtain ⟨pre, post, e, hm⟩ := mem_allowed h h1
  rw [e] at h2
  rcases List.mem_append.1 h2 with h2 | h2
  · exact absurd h2 (ho _ _ hm _ _)
  · rcases List.mem_cons.1 h2 with h2 | h2
    · cases h2; rfl
    · obtain ⟨p2, q2, e2⟩ := List.append_of_mem h2
      have := h (pre ++ Event.did (.send ⟨k, d⟩) r :: p2) (.send ⟨k, d'⟩) r' q2 (by rw [e, e2]; simp)
      exact absurd (by simp) (ho _ _ this d r)

theorem alice_once_semi (h : Allowed (AliceMay K) tA) {d d' : Data} (h1 : Sent tA .semiSigned d) (h2 : Sent tA .semiSigned d') : d = d' := by
  refine once h (fun pre d hm => ?_) h1 h2
  rcases hm with h | ⟨_, _, h, _⟩ | ⟨_, _, _, _, _, h, _⟩ | ⟨_, _, _, _, _, _, _, h, _, _, hn⟩ | ⟨_, _, _, _, _, h, _⟩ | h <;> first | cases h | skip
  exact hn

theorem alice_once_address (h : Allowed (AliceMay K) tA) {d d' : Data} (h1 : Sent tA .address d) (h2 : Sent tA .address d') : d = d' := by
  refine once h (fun pre d hm => ?_) h1 h2
  rcases hm with h | ⟨_, _, h, _⟩ | ⟨_, _, _, _, _, h, _, _, _, _, _, hn⟩ | ⟨_, _, _, _, _, _, _, h, _⟩ | ⟨_, _, _, _, _, h, _⟩ | h <;>
    first | cases h | skip
  exact hn

theorem bob_once_addresses (h : Allowed (BobMay KB) tB) {d d' : Data} (h1 : Sent tB .addresses d) (h2 : Sent tB .addresses d') : d = d' := by
  refine once h (fun pre d hm => ?_) h1 h2
  rcases hm with ⟨_, h, _⟩ | ⟨_, _, h, _⟩ | ⟨_, _, _, _, _, h, _⟩ | ⟨_, _, _, _, _, h, _, _, _, _, _, hn⟩ | ⟨_, _, _, _, _, _, _, _, h, _⟩ | h <;>
    first | cases h | skip
  exact hn

theorem bob_once_final (h : Allowed (BobMay KB) tB) {d d' : Data} (h1 : Sent tB .final d) (h2 : Sent tB .final d') : d = d' := by
  refine once h (fun pre d hm => ?_) h1 h2
  rcases hm with ⟨_, h, _⟩ | ⟨_, _, h, _⟩ | ⟨_, _, _, _, _, h, _⟩ | ⟨_, _, _, _, _, h, _⟩ | ⟨_, _, _, _, _, _, _, _, h, _, _, _, _, _, _, _, _, _, hn⟩ | h <;>
    first | cases h | skip
  exact hn

theorem prefix_eq {α : Type} {l l' t : List α} (h : l <+: t) (h' : l' <+: t) (hl : l.length = l'.length) : l = l' := by
  obtain ⟨s, rfl⟩ := h
  obtain ⟨s', e⟩ := h'
  exact ((List.append_inj e.symm hl).1)

theorem alice_began {t : List Event} {a a' : Alice} (h : AliceBegan K t a) (h' : AliceBegan K t a') :
    a.asset1 = a'.asset1 ∧ a.asset2 = a'.asset2 := by
  obtain ⟨id1, v1, k1, id2, v2, k2, l, v3, k3, kc, p, h1, h2, -⟩ := h
  obtain ⟨id1', v1', k1', id2', v2', k2', l', v3', k3', kc', p', h1', h2', -⟩ := h'
  have := prefix_eq p p' rfl
  injection this with e1 this
  cases e1
  injection this with e1 this
  cases e1
  injection this with e1 this
  cases e1
  injection this with e1 this
  cases e1
  injection this with e1 this
  cases e1
  injection this with e1 this
  cases e1
  rw [h1, h2, h1', h2']
  exact ⟨rfl, rfl⟩

theorem bob_began {t : List Event} {u u' : Utxo} (h : BobBegan t u) (h' : BobBegan t u') : u = u' := by
  obtain ⟨id, v, k, p, h1⟩ := h
  obtain ⟨id', v', k', p', h1'⟩ := h'
  have := prefix_eq p p' rfl
  injection this with e1 this
  cases e1
  injection this with e1 this
  cases e1
  injection this with e1 this
  cases e1
  rw [h1, h1']

theorem read_back {t : Tx} {b : Bytes} (hw : WFTx t) (h : serializeTx t = .ok b) : deserializeTx b = .ok t := by
  obtain ⟨b', h1, h2⟩ := (C05_roundtrip t).2 hw
  rw [h1] at h
  cases h
  exact h2

/-- Alice hears Bob's offer. -/
theorem heard_offer (hB : Allowed (BobMay KB) tB) (hl : Linked tA tB) {f : Offer} {u : Utxo} (hf : Received tA .offer (.offer f))
    (hu : BobBegan tB u) : f = ⟨u.asset, u.amount⟩ := by
  obtain ⟨nf, hf⟩ := hf
  obtain ⟨q, q', eq, hm⟩ := mem_allowed hB (hl.alice _ _ hf)
  rcases hm with ⟨_, h', _⟩ | ⟨u', _, h', g, _⟩ | ⟨_, _, _, _, _, h', _⟩ | ⟨_, _, _, _, _, h', _⟩ | ⟨_, _, _, _, _, _, _, _, h', _⟩ | h' <;>
    first | cases h' | skip
  rw [bob_began (g.mono (pre_of eq)) hu]

/-- Bob hears Alice's. -/
theorem heard_offers (hA : Allowed (AliceMay K) tA) (hl : Linked tA tB) {fs : List Offer} {a : Alice} (hf : Received tB .offer (.offers fs))
    (ha : AliceBegan K tA a) : fs = [⟨a.asset1.asset, a.asset1.amount⟩, ⟨a.asset2.asset, a.asset2.amount⟩] := by
  obtain ⟨nf, hf⟩ := hf
  obtain ⟨q, q', eq, hm⟩ := mem_allowed hA (hl.bob _ _ hf)
  rcases hm with h' | ⟨a', _, h', g, _⟩ | ⟨_, _, _, _, _, h', _⟩ | ⟨_, _, _, _, _, _, _, h', _⟩ | ⟨_, _, _, _, _, h', _⟩ | h' <;>
    first | cases h' | skip
  obtain ⟨e1, e2⟩ := alice_began (g.mono (pre_of eq)) ha
  rw [e1, e2]

/-- Only one transaction of Alice is accepted. -/
theorem accepted_once (hA : Allowed (AliceMay K) tA) {b b' id id' : Bytes} (h : Answered tA (.publish b) id) (h' : Answered tA (.publish b') id') :
    b = b' := by
  have key : ∀ {pre : List Event} {b b' id : Bytes}, AliceMay K pre (.publish b) → ¬ Answered pre (.publish b') id := by
    rintro pre b b' id (⟨-, hn⟩ | ⟨-, hn⟩)
    · exact hn _ _
    · exact hn _ _
  obtain ⟨pre, post, e, hm⟩ := mem_allowed hA h
  rw [e] at h'
  rcases List.mem_append.1 h' with h' | h'
  · exact absurd h' (key hm)
  · rcases List.mem_cons.1 h' with h' | h'
    · cases h'; rfl
    · obtain ⟨p2, q2, e2⟩ := List.append_of_mem h'
      have := hA (pre ++ Event.did (.publish b) (.ok id) :: p2) (.publish b') (.ok id') q2 (by rw [e, e2]; simp)
      exact absurd (show Answered _ (.publish b) id from by simp [Answered]) (key this)

end helpers

/-- A run of both, connected, and what is taken for granted. -/
structure Run (K KB : Kit) (w w' : Environment) : Prop where
  env : KB.E = K.E
  world : KB.W = K.W
  linked : Linked (participant w (alice K)).2 (participant w' (bob KB)).2
  fit : Fit K w
  fitBob : FitBob KB w'
  wire : WireSizes K.E.z
  index : ∀ t lo hi id l v, w t (.unspent lo hi id) = .ok l → v ∈ l → v.prevout.n < 2 ^ 30
  indexBob : ∀ t lo hi id l v, w' t (.unspent lo hi id) = .ok l → v ∈ l → v.prevout.n < 2 ^ 30

section
variable {w w' : Environment}

theorem Run.alice_index (h : Run K KB w w') {a : Alice} (ha : AliceBegan K (participant w (alice K)).2 a) : ∀ u ∈ a.utxos, u.prevout.n < 2 ^ 30 := by
  have hf := participant_from (w := w) (alice K)
  obtain ⟨id1, v1, k1, id2, v2, k2, l, v3, k3, kc, ⟨s, p⟩, h1, h2, h3, h4, -⟩ := ha
  generalize (participant w (alice K)).2 = t at *
  subst p
  have e1 := hf [_] (.unspent 0 0 id1) _ _ rfl
  have e2 := hf [_, _, _, _] (.unspent 0 0 id2) _ _ rfl
  have e3 := hf [_, _, _, _, _, _] (.unspent 1 9999999 K.feeAsset) _ _ rfl
  intro u hu
  simp only [Alice.utxos, List.mem_cons, List.not_mem_nil, or_false] at hu
  rcases hu with rfl | rfl | rfl
  · rw [h1]; exact h.index _ _ _ _ _ v1 e1 (by simp)
  · rw [h2]; exact h.index _ _ _ _ _ v2 e2 (by simp)
  · rw [h3]; exact h.index _ _ _ _ _ v3 e3 h4.1

theorem Run.bob_index (h : Run K KB w w') {u : Utxo} (hu : BobBegan (participant w' (bob KB)).2 u) : u.prevout.n < 2 ^ 30 := by
  have hf := participant_from (w := w') (bob KB)
  obtain ⟨id, v, k, ⟨s, p⟩, h1⟩ := hu
  generalize (participant w' (bob KB)).2 = t at *
  subst p
  have e1 := hf [_] (.unspent 0 0 id) _ _ rfl
  rw [h1]
  exact h.indexBob _ _ _ _ _ v e1 (by simp)

/-- What Bob sends in the end. -/
theorem Run.final (h : Run K KB w w') {b : Bytes} (hs : Sent (participant w' (bob KB)).2 .final (.bytes b)) :
    ∃ u a, Agreed K (participant w (alice K)).2 (participant w' (bob KB)).2 u a b := by
  have hA := C80_alice h.fit
  have hB := C80_bob h.fitBob
  have hl := h.linked
  have iA := fun a => h.alice_index (a := a)
  have iB := fun u => h.bob_index (u := u)
  generalize (participant w (alice K)).2 = tA at *
  generalize (participant w' (bob KB)).2 = tB at *
  have hs' := hs
  obtain ⟨pre, post, e, hm⟩ := mem_allowed hB hs
  have hpre := pre_of e
  rcases hm with ⟨_, h', _⟩ | ⟨_, _, h', _⟩ | ⟨_, _, _, _, _, h', _⟩ | ⟨_, _, _, _, _, h', _⟩ |
    ⟨u, fs, l, c, sb, semi, tx, b', h', b1, b2, b3, b4, b5, b6, b7, b8, b9, -⟩ | h' <;> first | cases h' | skip
  rw [h.env, h.world] at b8
  replace b1 := b1.mono hpre
  replace b2 := b2.mono hpre
  replace b5 := b5.mono hpre
  replace b6 := b6.mono hpre
  -- what came from Alice
  obtain ⟨n6, b6⟩ := b6
  obtain ⟨preA, postA, eA, hm⟩ := mem_allowed hA (hl.bob _ _ b6)
  have hpreA := pre_of eA
  rcases hm with h' | ⟨_, _, h', _⟩ | ⟨_, _, _, _, _, h', _⟩ | ⟨a, f, p, bob1, bob2, txA, bA, h', a1, a2, -⟩ | ⟨_, _, _, _, _, h', _⟩ | h' <;>
    first | cases h' | skip
  replace a1 := a1.mono hpreA
  -- Bob's offer
  have hf := heard_offer hB hl a1.offer b1
  subst hf
  have hfs := heard_offers hA hl b2 a1.began
  subst hfs
  -- Bob's addresses
  obtain ⟨cA, nA, hadr⟩ := a1.addrs
  have hll : l.map Prod.fst = [bob1, bob2] := by
    have := bob_once_addresses hB b5 (hl.alice _ _ hadr)
    injection this with e1 e2
  obtain ⟨x1, x2, rfl, rfl, rfl⟩ : ∃ x1 x2 : Addr × Bytes, l = [x1, x2] ∧ x1.1 = bob1 ∧ x2.1 = bob2 := by
    match l, hll with
    | [x1, x2], hll =>
      simp only [List.map_cons, List.map_nil, List.cons.injEq, and_true] at hll
      exact ⟨x1, x2, rfl, hll.1, hll.2⟩
  -- Bob's part
  obtain ⟨bp, ⟨np, hbp⟩, hp⟩ := a1.begins
  obtain ⟨al, cs, pB, g1, g2, g3⟩ : ∃ al cs pB, Received tB .address (.address al cs) ∧ BobBegins K.E ⟨u, KB.rand⟩ al pB ∧ serializeTx pB = .ok bp := by
    obtain ⟨q, q', eq, hm⟩ := mem_allowed hB (hl.alice _ _ hbp)
    rcases hm with ⟨_, h', _⟩ | ⟨_, _, h', _⟩ | ⟨u', al, cs, pB, bb, h', g1, g2, g3, g4⟩ | ⟨_, _, _, _, _, h', _⟩ | ⟨_, _, _, _, _, _, _, _, h', _⟩ | h' <;>
      first | cases h' | skip
    rw [h.env, bob_began (g1.mono (pre_of eq)) b1] at g3
    exact ⟨al, cs, pB, g2.mono (pre_of eq), g3, g4⟩
  have wp := g2.wire h.wire (iB _ b1)
  have hpe : p = pB := by
    have := read_back wp g3
    rw [this] at hp
    cases hp; rfl
  subst hpe
  -- Alice's address
  obtain ⟨csA, htold⟩ := a1.told
  obtain ⟨ng, g1⟩ := g1
  have hal : al = a.dst := by
    have := alice_once_address hA htold (hl.bob _ _ g1)
    injection this with e1 e2
    exact e1.symm
  subst hal
  -- Alice's transaction
  have S := a1.sends
  have wA := S.wire h.wire (iA _ a1.began) wp
  have hse : semi = txA := by
    have := read_back wA a2
    rw [this] at b7
    cases b7; rfl
  subst hse
  have wB := b8.wire wA
  refine ⟨u, a, hs', fun d hd => bob_once_final hB hd hs', x1, x2, tx, read_back wB b9, b9, ?_⟩
  obtain ⟨i, i1, i2⟩ := S.inputs
  obtain ⟨o, s1, s2, s3, o1, o2, o3, o4, o5, o6, o7⟩ := S.outputs
  obtain ⟨s0, q1, q2⟩ := g2.outputs
  have hsame := b8.same
  rw [g2.inputs] at i1
  cases i1
  rw [o1] at q2
  cases q2
  exact {
    bob := b1
    alice := a1.began
    inputs := by rw [hsame.inputs, i2]; rfl
    signed := ⟨b8.signed, hsame.spends (by decide) S.signed.1, hsame.spends (by decide) S.signed.2.1, hsame.spends (by decide) S.signed.2.2⟩
    own := a1.key
    theirs := ⟨(b4 x1 (by simp)).mono hpre, (b4 x2 (by simp)).mono hpre⟩
    scripts := ⟨_, s1, s2, s3, q1, o2, o3, o4, by rw [hsame.outputs, o5]⟩
    gets := hsame.finds.2 S.gets
    pays := ⟨b8.gets 0 _ _ rfl, b8.gets 1 _ _ rfl⟩
    fee := by rw [hsame.outputs, S.fee, began_fee a1.began]
    rest := ⟨(hsame.version.trans S.rest.1).trans g2.rest.1, (hsame.lockTime.trans S.rest.2).trans g2.rest.2⟩ }

/-- What Alice takes for the swap is what Bob sent. -/
theorem Run.swap (h : Run K KB w w') {pre : List Event} {b : Bytes} (hp : pre <+: (participant w (alice K)).2) (hs : Swap K pre b) :
    Sent (participant w' (bob KB)).2 .final (.bytes b) := by
  obtain ⟨a, f, p, bob1, bob2, tx, b', hb, s, -, -, -, h4, h5, h6, -⟩ := hs
  obtain ⟨n, h4⟩ := h4.mono hp
  have hf := h.linked.alice _ _ h4
  obtain ⟨_, _, -, -, _, _, s', e1, e2, -⟩ := h.final hf
  rw [h5] at e1
  cases e1
  rw [h6] at e2
  cases e2
  exact hf

/-- **C84.** What Bob sends to Alice in the end is the swap both have agreed to. -/
theorem C84_bob_signs (h : Run K KB w w') {b : Bytes} (hs : Sent (participant w' (bob KB)).2 .final (.bytes b)) :
    ∃ u a, Agreed K (participant w (alice K)).2 (participant w' (bob KB)).2 u a b := h.final hs

/-- **C84.** Bob publishes nothing but that. -/
theorem C84_bob_publishes (h : Run K KB w w') {b : Bytes} {r : Ans (.publish b)} (hp : Event.did (.publish b) r ∈ (participant w' (bob KB)).2) :
    ∃ u a, Agreed K (participant w (alice K)).2 (participant w' (bob KB)).2 u a b := by
  obtain ⟨pre, post, e, hm, -⟩ := mem_allowed (C80_bob h.fitBob) hp
  exact h.final (hm.mono (pre_of e))

/-- **C84.** Alice publishes nothing but that, or takes everything back. -/
theorem C84_alice_publishes (h : Run K KB w w') {pre post : List Event} {b : Bytes} {r : Ans (.publish b)}
    (hp : (participant w (alice K)).2 = pre ++ Event.did (.publish b) r :: post) :
    (∃ u a, Agreed K (participant w (alice K)).2 (participant w' (bob KB)).2 u a b) ∨ TakesBack K pre b := by
  rcases C80_alice h.fit pre _ _ post hp with ⟨hs, -⟩ | ⟨hs, -⟩
  · exact .inl (h.final (h.swap (pre_of hp) hs))
  · exact .inr hs

/-- What is true when Alice has seen the swap confirmed and Bob's asset arrive. -/
theorem Run.swapped (h : Run K KB w w') {pre : List Event} {f : Offer} {b id : Bytes} (hp : pre <+: (participant w (alice K)).2)
    (hf : Received (participant w (alice K)).2 .offer (.offer f)) (hs : Swap K pre b) (h1 : Answered pre (.publish b) id) (h2 : Confirmed pre id)
    (h3 : Answered (participant w (alice K)).2 (.balance f.asset) f.amount) :
    ∃ u a, SwappedAlice K (participant w (alice K)).2 (participant w' (bob KB)).2 u a b := by
  obtain ⟨u, a, hag⟩ := h.final (h.swap hp hs)
  refine ⟨u, a, hag, ⟨id, h1.mono hp, h2.mem hp.subset⟩, fun b' id' h' => (accepted_once (C80_alice h.fit) (h1.mono hp) h').symm, ?_⟩
  obtain ⟨-, -, _, _, _, -, -, F⟩ := hag
  have := heard_offer (C80_bob h.fitBob) h.linked hf F.bob
  subst this
  exact h3

/-- **C84.** When Alice is done, the swap has taken place for Alice. -/
theorem C84_alice_done (h : Run K KB w w') (hd : (participant w (alice K)).1 = .done) :
    ∃ u a b, SwappedAlice K (participant w (alice K)).2 (participant w' (bob KB)).2 u a b := by
  have hE := C80_alice_ends h.fit
  have key : ∀ x : Over × List Event, x.1 = .done → Ended (AliceEnds K) x → AliceEnds K .finished x.2 := by
    rintro ⟨o, t⟩ rfl hx; exact hx
  obtain ⟨f, b, id, pre, mid, e, h1, h2, h3, h4⟩ := key _ hd hE
  have hp := pre_of e
  obtain ⟨u, a, hs⟩ := h.swapped hp (h1.mono hp) h2 h3 h4 (by rw [e]; simp [Answered])
  exact ⟨u, a, b, hs⟩

/-- **C84.** When Bob is done, the swap has taken place for both. -/
theorem C84_bob_done (h : Run K KB w w') (hd : (participant w' (bob KB)).1 = .done) :
    ∃ u a b, SwappedAlice K (participant w (alice K)).2 (participant w' (bob KB)).2 u a b ∧ SwappedBob (participant w' (bob KB)).2 a b := by
  have hE := C80_bob_ends h.fitBob
  have key : ∀ x : Over × List Event, x.1 = .done → Ended (BobEnds KB) x → BobEnds KB .finished x.2 := by
    rintro ⟨o, t⟩ rfl hx; exact hx
  obtain ⟨fs, b, id, pre, e, h1, h2, h3, d, h4⟩ := key _ hd hE
  have hpB : pre <+: (participant w' (bob KB)).2 := ⟨_, e.symm⟩
  obtain ⟨n, h4⟩ := h4.mono hpB
  obtain ⟨preA, postA, eA, hm⟩ := mem_allowed (C80_alice h.fit) (h.linked.bob _ _ h4)
  rcases hm with h' | ⟨_, _, h', _⟩ | ⟨_, _, _, _, _, h', _⟩ | ⟨_, _, _, _, _, _, _, h', _⟩ | ⟨f, b', id', pre', post', h', g1, g2, g3, g4, g5⟩ | h' <;>
    first | cases h' | skip
  have hpA := pre_of eA
  have hp' : pre' <+: (participant w (alice K)).2 := (show pre' <+: preA from ⟨_, g2.symm⟩).trans hpA
  obtain ⟨u, a, hs⟩ := h.swapped hp' (g1.mono hpA) g3 g4 g5 (hpA.subset (by rw [g2]; simp))
  have hb : b = b' := by
    have := hs.1.2.1 _ (h2.mono hpB)
    injection this
  subst hb
  refine ⟨u, a, b, hs, ⟨id, h3.mono hpB⟩, ?_⟩
  obtain ⟨⟨-, -, _, _, _, -, -, F⟩, -⟩ := hs
  have := heard_offers (C80_alice h.fit) h.linked (h1.mono hpB) F.alice
  subst this
  rw [e]
  simp [Answered]

end

end Verif.AssetRun
