import Verif.Props.AssetSwapBack
/-
C71: concrete swaps, and what does not hold.
-/
namespace Verif.AssetSwap
open Verif Spec CrossSwap SpendAddr
namespace Toy
open Verif.Toy

/-- A hash that keeps the first twenty bytes, and signatures that show the key. -/
def W : World := ⟨fun b => (b ++ List.replicate 20 0).take 20, fun k d => (k ++ d).take 64, fun _ _ _ _ => .ok ()⟩

theorem sizes : Sizes env W where
  hash b := by simp [W]
  signature k d := by simp [W]
  pub k h := by show (2 :: k).length ≤ 33; simp [h]

def utxo (n asset amount : Nat) (kind : Kind) (bf : Nat := 3) : Utxo :=
  ⟨⟨b32 (n + 9), n⟩, b32 asset, amount, b32 bf, b32 4, some (8 :: b32 n), some (10 :: b32 (asset + 4)), b32 n,
    ⟨.elements, kind, false, List.replicate 20 7⟩⟩

theorem utxo_ok {n asset amount : Nat} {kind : Kind} {bf : Nat} (h : amount ≤ 21 * 10 ^ 14) (hn : n < 2 ^ 32) : UtxoOk (utxo n asset amount kind bf) where
  nonneg := by show (0 : Int) ≤ (amount : Int); omega
  money := by show (amount : Int) ≤ 21 * 10 ^ 14; omega
  hash := by show (b32 (n + 9)).length = 32; simp [b32]
  index := hn
  key := by show (b32 n).length = 32; simp [b32]

/-- An address with a blinding key and a hash. -/
def addr (k h : Nat) : Addr := ⟨.elements, .p2pkh, true, Verif.Toy.pub k ++ beBytes 20 h⟩

theorem addr_ok (k h : Nat) : AddrOk (addr k h) := by
  unfold AddrOk
  simp [addr, Verif.Toy.pub]
  rfl

/-- Alice has thirty of asset 5, forty of asset 6 and 30000 of asset 7 for the fee. -/
def alice (bf : Nat) : Alice :=
  { asset1 := utxo 1 5 30 .p2pkh, asset2 := utxo 2 6 40 .p2wpkh, fee := utxo 3 7 30000 .p2sh bf, feeAsset := b32 7
    dst := addr 21 1, bkey := b32 21, change := addr 22 1, rand := fun k => b32 (k + 5) }
/-- Bob has fifty of asset 8. -/
def bob : Bob := ⟨utxo 4 8 50 .p2wpkh, fun k => b32 (k + 40)⟩

theorem alice_ok (bf : Nat) : AliceOk (alice bf) where
  utxos u hu := by
    simp only [Alice.utxos, alice, List.mem_cons, List.not_mem_nil, or_false] at hu
    rcases hu with rfl | rfl | rfl <;> exact utxo_ok (by decide) (by decide)
  fee := by show (20000 : Int) ≤ 30000; decide

theorem fee_asset (bf : Nat) : (alice bf).fee.asset = (alice bf).feeAsset := by simp only [alice, utxo]

theorem bob_ok : UtxoOk bob.utxo := utxo_ok (by decide) (by decide)

/-- Bob takes the hash of the first address from `h1`. -/
def start (h1 : Nat) : Except Stop Tx := bobStart env bob (addr 21 h1) [10 :: b32 9, 10 :: b32 10, 10 :: b32 11]
/-- Alice takes the hash of Bob's second address from `h2`. -/
def join (bf h1 h2 : Nat) : Except Stop Tx := do
  aliceJoin env W (alice bf) ⟨b32 8, 50⟩ (← start h1) [addr 31 2, addr 32 h2] (10 :: b32 12)
def finish (bf h1 h2 : Nat) : Except Stop Tx := do
  bobFinish env W bob [(⟨b32 5, 30⟩, b32 31), (⟨b32 6, 40⟩, b32 32)] (← join bf h1 h2)
/-- What outputs there are: amounts by marker and length, and scripts. -/
def heads (x : Except Stop Tx) : Option (List (Option UInt8 × Nat × Bytes)) :=
  match x with
  | .ok t => some (t.vout.map fun o => (o.nValue.head?, o.nValue.length, o.scriptPubKey))
  | _ => none

def p2pkh (h : Nat) : Bytes := [0x76, 0xa9, 20] ++ beBytes 20 h ++ [0x88, 0xac]

theorem heads_ok {x : Except Stop Tx} {l} (h : heads x = some l) :
    ∃ t, x = .ok t ∧ t.vout.map (fun o => (o.nValue.head?, o.nValue.length, o.scriptPubKey)) = l := by
  unfold heads at h
  split at h
  · exact ⟨_, rfl, Option.some.inj h⟩
  · cases h

theorem heads_start : heads (start 1) = some [(some 8, 33, p2pkh 1)] := by decide +kernel
theorem heads_join : heads (join 3 1 3) = some
    [(some 8, 33, p2pkh 1), (some 8, 33, p2pkh 2), (some 8, 33, p2pkh 3), (some 8, 33, p2pkh 1), (some 1, 9, [])] := by decide +kernel
theorem heads_finish : heads (finish 3 1 3) = some
    [(some 8, 33, p2pkh 1), (some 8, 33, p2pkh 2), (some 8, 33, p2pkh 3), (some 8, 33, p2pkh 1), (some 1, 9, [])] := by decide +kernel

theorem hidden_of {t : Tx} {l} {j : Nat} {s : Bytes} (h : t.vout.map (fun o => (o.nValue.head?, o.nValue.length, o.scriptPubKey)) = l)
    (hj : l[j]? = some (some 8, 33, s)) : IsValueCommitment (t.vout.getD j {}).nValue := by
  subst h
  rw [List.getElem?_map] at hj
  cases ho : t.vout[j]? with
  | none => rw [ho] at hj; cases hj
  | some o =>
    rw [ho] at hj
    simp only [Option.map_some, Option.some.injEq, Prod.mk.injEq] at hj
    rw [List.getD_eq_getElem?_getD, ho]
    show IsValueCommitment o.nValue
    obtain ⟨h1, h2, -⟩ := hj
    cases hv : o.nValue with
    | nil => rw [hv] at h1; cases h1
    | cons x b =>
      rw [hv] at h1 h2
      cases h1
      exact ⟨b, .inl rfl, by simpa using h2⟩

theorem script_of {t : Tx} {l} {j : Nat} {m : Option UInt8 × Nat} {s : Bytes} (h : t.vout.map (fun o => (o.nValue.head?, o.nValue.length, o.scriptPubKey)) = l)
    (hj : l[j]? = some (m.1, m.2, s)) : (t.vout.getD j {}).scriptPubKey = s := by
  subst h
  rw [List.getElem?_map] at hj
  cases ho : t.vout[j]? with
  | none => rw [ho] at hj; cases hj
  | some o =>
    rw [ho] at hj
    simp only [Option.map_some, Option.some.injEq, Prod.mk.injEq] at hj
    rw [List.getD_eq_getElem?_getD, ho]
    exact hj.2.2

end Toy

/- A swap from beginning to end: what Bob begins with, what Alice sends, what Bob makes of it.  Bob's
keys and Alice's open what was offered, all is signed, and the transaction balances. -/
example : ∃ p t t', bobStart Toy.env Toy.bob (Toy.addr 21 1) [10 :: Toy.b32 9, 10 :: Toy.b32 10, 10 :: Toy.b32 11] = .ok p ∧
    aliceJoin Toy.env Toy.W (Toy.alice 3) ⟨Toy.b32 8, 50⟩ p [Toy.addr 31 2, Toy.addr 32 3] (10 :: Toy.b32 12) = .ok t ∧
    bobFinish Toy.env Toy.W Toy.bob [(⟨Toy.b32 5, 30⟩, Toy.b32 31), (⟨Toy.b32 6, 40⟩, Toy.b32 32)] t = .ok t' ∧
    BobBegins Toy.env Toy.bob (Toy.addr 21 1) p ∧
    AliceSends Toy.env Toy.W (Toy.alice 3) ⟨Toy.b32 8, 50⟩ p (Toy.addr 31 2) (Toy.addr 32 3) t ∧
    Finds Toy.env (Toy.b32 31) t 1 (Toy.b32 5) 30 ∧ Finds Toy.env (Toy.b32 32) t 2 (Toy.b32 6) 40 ∧
    BobSends Toy.env Toy.W Toy.bob [(⟨Toy.b32 5, 30⟩, Toy.b32 31), (⟨Toy.b32 6, 40⟩, Toy.b32 32)] t t' ∧
    Balanced Toy.pedersen Toy.env [told Toy.bob.utxo, told (Toy.alice 3).asset1, told (Toy.alice 3).asset2, told (Toy.alice 3).fee] t' ∧
    aliceFinal t t' = some t' := by
  obtain ⟨t', h3, -⟩ := Toy.heads_ok Toy.heads_finish
  unfold Toy.finish at h3
  obtain ⟨t, h2, h3⟩ := exc_bind_ok.1 h3
  have h2' := Toy.heads_join
  rw [h2] at h2'
  have h2' := Option.some.inj h2'
  unfold Toy.join at h2
  obtain ⟨p, h1, h2⟩ := exc_bind_ok.1 h2
  unfold Toy.start at h1
  have hB := C71_bob_begins Toy.formats Toy.rewinds Toy.bob_ok (Toy.addr_ok _ _) h1
  obtain ⟨b1, b2, hb, hA⟩ := C71_alice Toy.sizes (Toy.alice_ok 3) h2
  cases hb
  have hP := C71_pays Toy.formats Toy.rewinds Toy.wireSizes Toy.sizes (Toy.alice_ok 3)
    (by
      intro i hi
      rw [hB.inputs] at hi
      simp only [List.mem_cons, List.not_mem_nil, or_false] at hi
      subst hi
      exact utxo_sizes Toy.bob_ok) (Toy.addr_ok _ _) h2 (key1 := Toy.b32 31) (key2 := Toy.b32 32) (key3 := Toy.b32 22)
    (by decide +kernel) (by decide +kernel) (by decide +kernel) (by decide +kernel)
  have hS := C71_bob Toy.sizes Toy.bob_ok h3
  refine ⟨p, t, t', h1, h2, h3, hB, hA, hP.1, hP.2.1, hS, ?_, ?_⟩
  · have hv : IsValueCommitment (t.vout.getD 3 {}).nValue := Toy.hidden_of h2' (j := 3) (s := Toy.p2pkh 1) rfl
    exact (C71_balanced_partial (E := Toy.env) Toy.pedersen Toy.sizes (Toy.alice_ok 3) Toy.bob_ok (Toy.addr_ok 21 1)
      (Toy.addr_ok 22 1) (Toy.fee_asset 3) h1 h2 hv).2 _ _ h3
  · rw [C71_final]
    refine ⟨rfl, ?_⟩
    have := congrArg (List.map Prod.fst) hS.same.inputs
    simp only [List.map_map] at this
    rw [show TxIn.prevout = Prod.fst ∘ inputView from rfl, this]

/- What Bob does not refuse. -/
example : ∃ semi, Toy.join 3 1 3 = .ok semi ∧ semi.vout.length = 2 + 3 ∧ LastIsFee semi.vout ∧ 2 < semi.wit.vtxoutwit.length ∧
    Finds Toy.env (Toy.b32 31) semi 1 (Toy.b32 5) 30 ∧ Finds Toy.env (Toy.b32 32) semi 2 (Toy.b32 6) 40 := by
  obtain ⟨t', h3, -⟩ := Toy.heads_ok Toy.heads_finish
  unfold Toy.finish at h3
  obtain ⟨t, h2, h3⟩ := exc_bind_ok.1 h3
  have hS := C71_bob Toy.sizes Toy.bob_ok h3
  refine ⟨t, h2, by rw [← hS.same.outputs]; exact hS.count, by rw [← hS.same.outputs]; exact hS.fee, ?_,
    hS.same.finds.1 (hS.gets 0 _ _ rfl), hS.same.finds.1 (hS.gets 1 _ _ rfl)⟩
  have : (match Toy.join 3 1 3 with | .ok t => t.wit.vtxoutwit.length | _ => 0) = 5 := by decide +kernel
  rw [h2] at this
  dsimp only at this
  omega

/-- C71, what Alice might expect: the first output goes to the address sent to Bob. -/
def C71_alice_paid_statement : Prop := ∀ (E : Env) (W : World) (a : Alice) (offer : Offer) (p : Tx) (addrs : List Addr) (bobC : Bytes) (t : Tx),
  Sizes E W → AliceOk a → a.dst.blindingPubkey = E.z.pubOf a.bkey → aliceJoin E W a offer p addrs bobC = .ok t →
  a.dst.toScriptPubKey = .ok (t.vout.getD 0 {}).scriptPubKey

/-- Bob takes the blinding key of Alice's address and another script: Alice can look into the output
but not spend it. -/
theorem C71_alice_paid_statement_false : ¬ C71_alice_paid_statement := by
  intro h
  have h2 : Toy.heads (Toy.join 3 2 3) = some
      [(some 8, 33, Toy.p2pkh 2), (some 8, 33, Toy.p2pkh 2), (some 8, 33, Toy.p2pkh 3), (some 8, 33, Toy.p2pkh 1), (some 1, 9, [])] := by decide +kernel
  obtain ⟨t, h2, h3⟩ := Toy.heads_ok h2
  unfold Toy.join at h2
  obtain ⟨p, h1, h2⟩ := exc_bind_ok.1 h2
  have := h _ _ _ _ _ _ _ _ Toy.sizes (Toy.alice_ok 3) (by decide +kernel) h2
  rw [Toy.script_of (j := 0) (m := (_, _)) h3 rfl] at this
  revert this
  decide +kernel

/-- C71, what Bob might expect: what Alice offered goes to the addresses sent to Alice. -/
def C71_bob_paid_statement : Prop := ∀ (E : Env) (W : World) (b : Bob) (offers : List (Offer × Bytes)) (addrs : List Addr) (semi t : Tx),
  Sizes E W → UtxoOk b.utxo → addrs.map Addr.blindingPubkey = offers.map (fun x => E.z.pubOf x.2) →
  bobFinish E W b offers semi = .ok t →
  ∀ (n : Nat) (a : Addr), addrs[n]? = some a → a.toScriptPubKey = .ok (t.vout.getD (n + 1) {}).scriptPubKey

/-- Alice takes the blinding key of Bob's second address and another script. -/
theorem C71_bob_paid_statement_false : ¬ C71_bob_paid_statement := by
  intro h
  have h2 : Toy.heads (Toy.finish 3 1 1) = some
      [(some 8, 33, Toy.p2pkh 1), (some 8, 33, Toy.p2pkh 2), (some 8, 33, Toy.p2pkh 1), (some 8, 33, Toy.p2pkh 1), (some 1, 9, [])] := by decide +kernel
  obtain ⟨t, h2, h3⟩ := Toy.heads_ok h2
  unfold Toy.finish at h2
  obtain ⟨p, h1, h2⟩ := exc_bind_ok.1 h2
  have := h _ _ _ _ [Toy.addr 31 2, Toy.addr 32 3] _ _ Toy.sizes Toy.bob_ok (by decide +kernel) h2 1 _ rfl
  rw [Toy.script_of (j := 2) (m := (_, _)) h3 rfl] at this
  revert this
  decide +kernel

/-- C71, in full: the transaction of a swap balances. -/
def C71_balanced_statement : Prop := ∀ (M : Type) [AddCommGroup M] [Module Scalar M] (E : Env) (W : World) (a : Alice) (b : Bob) (offer : Offer)
  (p : Tx) (alice bob1 bob2 : Addr) (cs : List Bytes) (bobC : Bytes) (t : Tx) (P : Pedersen E.z M), Sizes E W → AliceOk a → UtxoOk b.utxo →
  AddrOk alice → AddrOk a.change → a.fee.asset = a.feeAsset → bobStart E b alice cs = .ok p → aliceJoin E W a offer p [bob1, bob2] bobC = .ok t →
  Balanced P E [told b.utxo, told a.asset1, told a.asset2, told a.fee] t

/-- The factors of Alice's inputs are such that nothing is left for the change. -/
theorem C71_balanced_statement_false : ¬ C71_balanced_statement := by
  intro h
  have h2 : Toy.heads (Toy.join 160308 1 3) = some
      [(some 8, 33, Toy.p2pkh 1), (some 8, 33, Toy.p2pkh 2), (some 8, 33, Toy.p2pkh 3), (some 1, 9, Toy.p2pkh 1), (some 1, 9, [])] := by decide +kernel
  obtain ⟨t, h2, -⟩ := Toy.heads_ok h2
  have ht : ∃ x, Toy.join 160308 1 3 = .ok x ∧ x = t := ⟨t, h2, rfl⟩
  unfold Toy.join at h2
  obtain ⟨p, h1, h2⟩ := exc_bind_ok.1 h2
  have := h Scalar _ _ _ _ _ _ _ _ _ _ _ _ Toy.pedersen Toy.sizes (Toy.alice_ok 160308) Toy.bob_ok (Toy.addr_ok _ _) (Toy.addr_ok _ _) rfl h1 h2
  have hx : t = (match Toy.join 160308 1 3 with | .ok x => x | _ => ⟨0, [], [], 0, {}⟩) := by
    obtain ⟨x, hx, rfl⟩ := ht
    rw [hx]
  rw [hx] at this
  revert this
  unfold Balanced
  decide +kernel

/-- Taking back all three of Alice's outputs. -/
def Toy.back (l : List Utxo) : Except PyErr Tx :=
  claimBack Toy.env Toy.W (Toy.b32 7) (fun n => Toy.addr (50 + n) n) (fun k => Toy.b32 (k + 5)) l

example : ∃ t, Toy.back (Toy.alice 3).utxos = .ok t ∧
    Claims Toy.env Toy.W (Toy.b32 7) (fun n => Toy.addr (50 + n) n) (Toy.alice 3).utxos t ∧
    Finds Toy.env (Toy.b32 51) t 1 (Toy.b32 6) 40 ∧
    Balanced Toy.pedersen Toy.env ((Toy.alice 3).utxos.map told) t := by
  have h : Toy.heads (match Toy.back (Toy.alice 3).utxos with | .ok x => .ok x | .error e => .error (.raised e)) = some
      [(some 8, 33, Toy.p2pkh 0), (some 8, 33, Toy.p2pkh 1), (some 8, 33, Toy.p2pkh 2), (some 1, 9, [])] := by decide +kernel
  obtain ⟨t, h1, h2⟩ := Toy.heads_ok h
  split at h1
  · rename_i x hx
    cases h1
    refine ⟨t, hx, C71_claim Toy.sizes (Toy.alice_ok 3).utxos hx, ?_, ?_⟩
    · rcases C71_claim_pays Toy.formats Toy.rewinds Toy.sizes (Toy.alice_ok 3).utxos (fun k => Toy.addr_ok _ _) hx (k := 1) rfl
        (key := Toy.b32 51) (by decide +kernel) (by decide +kernel) with h | ⟨h, -⟩
      · exact h
      · exact absurd h (by decide)
    · have hv : IsValueCommitment (t.vout.getD 2 {}).nValue := Toy.hidden_of h2 (j := 2) (s := Toy.p2pkh 2) rfl
      exact C71_claim_balanced_partial (E := Toy.env) Toy.pedersen Toy.sizes (Toy.alice_ok 3).utxos (fun k => Toy.addr_ok _ _)
        ⟨(Toy.alice 3).fee, by simp [Alice.utxos], Toy.fee_asset 3⟩ hx hv
  · cases h1

/- Two outputs of the same asset: one output for both, with the amount of the second, and blinding
reports one instead of two. -/
example : ¬ ([Toy.utxo 1 5 30 .p2pkh, Toy.utxo 2 5 40 .p2pkh, Toy.utxo 3 7 30000 .p2sh].map Utxo.asset).Nodup ∧
    assetAmounts (Toy.b32 7) [Toy.utxo 1 5 30 .p2pkh, Toy.utxo 2 5 40 .p2pkh, Toy.utxo 3 7 30000 .p2sh] []
      = .ok [(Toy.b32 5, 40), (Toy.b32 7, 20000)] := by decide +kernel

/- The fee is paid from the smallest output that is enough. -/
example : (findFeeUtxo [Toy.utxo 1 7 50000 .p2pkh, Toy.utxo 2 7 19999 .p2pkh, Toy.utxo 3 7 20000 .p2sh]).toOption.map Utxo.prevout
    = some ⟨Toy.b32 12, 3⟩ := by decide +kernel

end Verif.AssetSwap
