import Verif.Spec.SwapWatch
import Mathlib.Tactic.ByContra
/-
C78: what Alice finds when waiting for Bob's transaction.
-/
namespace Verif.SwapWatch
open Verif Spec

theorem spender_some {deposit : Bytes} {id : Bytes} : ∀ {ts : List Seen}, spender deposit ts = some id →
    ∃ (p : Nat) (t : Seen), ts[p]? = some t ∧ t.id = id ∧ deposit ∈ t.spends ∧ ∀ (q : Nat) (u : Seen), q < p → ts[q]? = some u → deposit ∉ u.spends
  | [], h => by cases h
  | t :: ts, h => by
    unfold spender at h
    split at h
    · rename_i ht
      cases h
      exact ⟨0, t, rfl, rfl, ht, fun q u hq => absurd hq (by omega)⟩
    · rename_i ht
      obtain ⟨p, u, h1, h2, h3, h4⟩ := spender_some h
      refine ⟨p + 1, u, h1, h2, h3, ?_⟩
      intro q w hq hw
      cases q with
      | zero => cases hw; exact ht
      | succ q => exact h4 q w (by omega) hw

theorem spender_none {deposit : Bytes} : ∀ {ts : List Seen}, spender deposit ts = none ↔ ∀ t ∈ ts, deposit ∉ t.spends
  | [] => by simp [spender]
  | t :: ts => by
    unfold spender
    split
    · rename_i ht
      simp [ht]
    · rename_i ht
      rw [spender_none]
      simp [ht]

/-- Where Alice can be: nowhere, or at a block from the deposit on with nothing before it. -/
def At (chain : Chain) (d : Nat) (deposit : Bytes) (cur : Option Bytes) (k : Nat) : Prop :=
  d ≤ k ∧ (∃ ts, chain[k]?.map Prod.fst = cur ∧ cur.isSome = true ∧ chain[k]?.map Prod.snd = some ts) ∧
    ∀ c p id, c < k → ¬ SpendsAt chain d deposit c p id

theorem at_step {chain : Chain} {d len k : Nat} {deposit : Bytes} {cur : Option Bytes} {v : View} (hv : Answers chain d len v)
    (hc : v.confirmations ≤ 10) (h : At chain d deposit cur k) :
    (len ≤ k ∧ pass deposit cur v = .waiting none) ∨
    (∃ p id, FirstSpends chain d deposit k p id ∧ pass deposit cur v = .found id) ∨
    ((∀ p id, ¬ SpendsAt chain d deposit k p id) ∧ k < len ∧
      ((k + 1 < len ∧ ∃ cur', pass deposit cur v = .waiting cur' ∧ At chain d deposit cur' (k + 1)) ∨
        (len = k + 1 ∧ pass deposit cur v = .waiting cur))) := by
  obtain ⟨h1, ⟨ts, h2, h3, h4⟩, h5⟩ := h
  cases hk : chain[k]? with
  | none => rw [hk] at h4; cases h4
  | some e =>
    obtain ⟨hash, ts'⟩ := e
    rw [hk] at h2 h4
    have h4 : ts' = ts := Option.some.inj h4
    subst h4
    cases h2
    have hc' : ¬ v.confirmations > CrossSwap.elementsTimeout := by
      show ¬ v.confirmations > 10
      omega
    unfold pass
    rw [if_neg hc']
    dsimp only [Option.map_some]
    by_cases hl : k < len
    · rw [hv.known k hash ts' hl hk]
      dsimp only
      right
      cases hs : spender deposit ts' with
      | some id =>
        left
        obtain ⟨p, t, g1, g2, g3, g4⟩ := spender_some hs
        refine ⟨p, id, ⟨⟨h1, hash, ts', t, hk, g1, g2, g3⟩, ?_⟩, rfl⟩
        rintro c' p' id' (hlt | ⟨rfl, hlt⟩)
        · exact h5 c' p' id' hlt
        · rintro ⟨-, hh, tt, u, e1, e2, -, e4⟩
          rw [hk] at e1
          cases e1
          exact g4 p' u hlt e2 e4
      | none =>
        right
        have hno : ∀ p id, ¬ SpendsAt chain d deposit k p id := by
          rintro p id ⟨-, hh, tt, u, e1, e2, -, e4⟩
          rw [hk] at e1
          cases e1
          exact spender_none.1 hs u (List.mem_of_getElem? e2) e4
        refine ⟨hno, hl, ?_⟩
        by_cases hn : k + 1 < len
        · left
          have hlen : k + 1 < chain.length := Nat.lt_of_lt_of_le hn hv.le
          refine ⟨hn, some (chain[k + 1]).1, ?_, by omega, ⟨(chain[k + 1]).2, ?_, rfl, ?_⟩, ?_⟩
          · rw [if_pos hn, List.getElem?_eq_getElem hlen]
            rfl
          · rw [List.getElem?_eq_getElem hlen]; rfl
          · rw [List.getElem?_eq_getElem hlen]; rfl
          · intro c p id hcl
            rcases Nat.lt_succ_iff_lt_or_eq.1 hcl with hlt | rfl
            · exact h5 c p id hlt
            · exact hno p id
        · right
          refine ⟨by omega, ?_⟩
          rw [if_neg hn]
          rfl
    · left
      exact ⟨by omega, by rw [hv.unknown k hash ts' (by omega) hk]⟩

theorem at_start {chain : Chain} {d len : Nat} {deposit : Bytes} {v : View} (hv : Answers chain d len v)
    (hc : v.confirmations ≤ 10) :
    (len ≤ d ∧ pass deposit none v = .waiting none) ∨ (d < len ∧ ∃ cur, pass deposit none v = .waiting cur ∧ At chain d deposit cur d) := by
  have hc' : ¬ v.confirmations > CrossSwap.elementsTimeout := by
    show ¬ v.confirmations > 10
    omega
  unfold pass
  rw [if_neg hc', hv.deposit]
  dsimp only
  by_cases hd : d < len
  · right
    have hlen : d < chain.length := Nat.lt_of_lt_of_le hd hv.le
    refine ⟨hd, some (chain[d]).1, ?_, Nat.le_refl d, ⟨(chain[d]).2, ?_, rfl, ?_⟩, ?_⟩
    · rw [if_pos hd, List.getElem?_eq_getElem hlen]; rfl
    · rw [List.getElem?_eq_getElem hlen]; rfl
    · rw [List.getElem?_eq_getElem hlen]; rfl
    · rintro c p id hlt ⟨hle, -⟩
      omega
  · left
    rw [if_neg hd]
    exact ⟨by omega, rfl⟩

/-- Where Alice can be. -/
def Ok (chain : Chain) (d : Nat) (deposit : Bytes) (cur : Option Bytes) : Prop := cur = none ∨ ∃ k, At chain d deposit cur k

theorem ok_pass {chain : Chain} {d len : Nat} {deposit : Bytes} {cur : Option Bytes} {v : View} (hv : Answers chain d len v)
    (h : Ok chain d deposit cur) :
    (v.confirmations > 10 ∧ pass deposit cur v = .die) ∨ v.confirmations ≤ 10 ∧ ((∃ cur', pass deposit cur v = .waiting cur' ∧ Ok chain d deposit cur') ∨
      ∃ c p id, FirstSpends chain d deposit c p id ∧ pass deposit cur v = .found id) := by
  by_cases hc : v.confirmations ≤ 10
  · right
    refine ⟨hc, ?_⟩
    rcases h with rfl | ⟨k, h⟩
    · rcases at_start (deposit := deposit) hv hc with ⟨-, e⟩ | ⟨-, cur, e, g⟩
      · exact .inl ⟨_, e, .inl rfl⟩
      · exact .inl ⟨_, e, .inr ⟨d, g⟩⟩
    · rcases at_step hv hc h with ⟨-, e⟩ | ⟨p, id, g, e⟩ | ⟨-, -, ⟨-, cur', e, g⟩ | ⟨-, e⟩⟩
      · exact .inl ⟨_, e, .inl rfl⟩
      · exact .inr ⟨k, p, id, g, e⟩
      · exact .inl ⟨_, e, .inr ⟨_, g⟩⟩
      · exact .inl ⟨_, e, .inr ⟨_, h⟩⟩
  · left
    refine ⟨by omega, ?_⟩
    unfold pass
    have : v.confirmations > CrossSwap.elementsTimeout := by
      show v.confirmations > 10
      omega
    rw [if_pos this]

theorem first_unique {chain : Chain} {d c p c' p' : Nat} {deposit id id' : Bytes} (h : FirstSpends chain d deposit c p id)
    (h' : FirstSpends chain d deposit c' p' id') : c = c' ∧ id = id' := by
  have e : c = c' ∧ p = p' := by
    by_contra hne
    have : (c < c' ∨ c = c' ∧ p < p') ∨ (c' < c ∨ c' = c ∧ p' < p) := by omega
    rcases this with g | g
    · exact h'.2 _ _ _ g h.1
    · exact h.2 _ _ _ g h'.1
  obtain ⟨rfl, rfl⟩ := e
  refine ⟨rfl, ?_⟩
  obtain ⟨-, h1, t1, u1, a1, a2, a3, -⟩ := h.1
  obtain ⟨-, h2, t2, u2, b1, b2, b3, -⟩ := h'.1
  rw [a1] at b1
  cases b1
  rw [a2] at b2
  cases b2
  rw [← a3, ← b3]

theorem passes_sound {chain : Chain} {d : Nat} {deposit : Bytes} : ∀ {vs : List View} {cur : Option Bytes},
    (∀ v ∈ vs, ∃ len, Answers chain d len v) → Ok chain d deposit cur →
    (∃ cur', passes deposit cur vs = .waiting cur' ∧ Ok chain d deposit cur' ∧ ∀ v ∈ vs, v.confirmations ≤ 10) ∨
    (passes deposit cur vs = .die ∧ ∃ v ∈ vs, v.confirmations > 10) ∨
      ∃ c p id, FirstSpends chain d deposit c p id ∧ passes deposit cur vs = .found id
  | [], cur, _, h => .inl ⟨cur, rfl, h, by simp⟩
  | v :: vs, cur, hv, h => by
    obtain ⟨len, hl⟩ := hv v (by simp)
    unfold passes
    rcases ok_pass hl h with ⟨hc, e⟩ | ⟨hc, ⟨cur', e, g⟩ | ⟨c, p, id, g, e⟩⟩
    · rw [e]
      exact .inr (.inl ⟨rfl, v, by simp, hc⟩)
    · rw [e]
      dsimp only
      rcases passes_sound (vs := vs) (fun w hw => hv w (List.mem_cons_of_mem _ hw)) g with ⟨cur'', e', g', hall⟩ | ⟨e', w, hw, hc'⟩ | hf
      · exact .inl ⟨cur'', e', g', by simpa using ⟨hc, hall⟩⟩
      · exact .inr (.inl ⟨e', w, by simp [hw], hc'⟩)
      · exact .inr (.inr hf)
    · rw [e]
      exact .inr (.inr ⟨c, p, id, g, rfl⟩)

/-- **C78.** What Alice takes for Bob's transaction is the first transaction of the chain that spends an output of
the deposit; and they give up only when the deposit has more confirmations than the timeout. -/
theorem C78_first {chain : Chain} {d : Nat} {deposit : Bytes} {vs : List View} (hv : ∀ v ∈ vs, ∃ len, Answers chain d len v) :
    (∀ id, watch deposit vs = .found id → ∃ c p, FirstSpends chain d deposit c p id) ∧
      (watch deposit vs = .die → ∃ v ∈ vs, v.confirmations > 10) := by
  rcases passes_sound (deposit := deposit) (vs := vs) (cur := none) hv (.inl rfl) with ⟨cur, e, -⟩ | ⟨e, hc⟩ | ⟨c, p, id, g, e⟩
  · exact ⟨fun id h => (by rw [watch, e] at h; cases h), fun h => by rw [watch, e] at h; cases h⟩
  · exact ⟨fun id h => (by rw [watch, e] at h; cases h), fun _ => hc⟩
  · exact ⟨fun id' h => by rw [watch, e] at h; cases h; exact ⟨c, p, g⟩, fun h => by rw [watch, e] at h; cases h⟩

theorem passes_append {deposit : Bytes} : ∀ {vs ws : List View} {cur : Option Bytes},
    passes deposit cur (vs ++ ws) = match passes deposit cur vs with
      | .waiting cur => passes deposit cur ws
      | o => o
  | [], ws, cur => rfl
  | v :: vs, ws, cur => by
    show (match pass deposit cur v with | .waiting cur => passes deposit cur (vs ++ ws) | o => o) = _
    rw [show passes deposit cur (v :: vs) = match pass deposit cur v with | .waiting cur => passes deposit cur vs | o => o from rfl]
    cases pass deposit cur v with
    | waiting cur => exact passes_append
    | _ => rfl

/-- From a block not after the spender, with the spender in sight, as many passes as there are blocks are enough. -/
theorem passes_reach {chain : Chain} {d c p : Nat} {deposit id : Bytes} (hf : FirstSpends chain d deposit c p id) :
    ∀ {vs : List View} {cur : Option Bytes} {k : Nat}, (∀ v ∈ vs, v.confirmations ≤ 10 ∧ ∃ len, c < len ∧ Answers chain d len v) →
      At chain d deposit cur k → k + vs.length ≥ c + 1 → passes deposit cur vs = .found id
  | [], cur, k, _, h, hl => by
    have hk : c < k := by simp at hl; omega
    exact absurd hf.1 (h.2.2 c p id hk)
  | v :: vs, cur, k, hv, h, hl => by
    have hk : k ≤ c := by
      by_contra hk
      exact absurd hf.1 (h.2.2 c p id (by omega))
    obtain ⟨hc, len, hcl, ha⟩ := hv v (by simp)
    unfold passes
    rcases at_step ha hc h with ⟨hle, -⟩ | ⟨p', id', g, e⟩ | ⟨hno, -, ⟨-, cur', e, g⟩ | ⟨he, e⟩⟩
    · omega
    · rw [e, (first_unique hf g).2]
    · rw [e]
      exact passes_reach hf (fun w hw => hv w (by simp [hw])) g (by simp at hl; omega)
    · have : k = c := by omega
      subst this
      exact absurd hf.1 (hno p id)

/-- **C78 (in part).** Whatever parts of the chain the node has had in sight so far: once the first transaction that spends an
output of the deposit is in sight, Alice has it after at most two passes more than there are blocks between the deposit and it,
unless the timeout is over. Missing: that it is Bob's; `C78_statement` is false. -/
theorem C78_finds_partial {chain : Chain} {d c p : Nat} {deposit id : Bytes} {vs ws : List View} (hf : FirstSpends chain d deposit c p id)
    (hv : ∀ v ∈ vs, v.confirmations ≤ 10 ∧ ∃ len, Answers chain d len v)
    (hw : ∀ v ∈ ws, v.confirmations ≤ 10 ∧ ∃ len, c < len ∧ Answers chain d len v) (hl : ws.length ≥ c - d + 2) :
    watch deposit (vs ++ ws) = .found id := by
  have hdc := hf.1.1
  unfold watch
  rw [passes_append]
  rcases passes_sound (deposit := deposit) (vs := vs) (cur := none) (fun v h => (hv v h).2) (.inl rfl) with ⟨cur, e, g, -⟩ | ⟨-, v, hvm, hc⟩ | ⟨c', p', id', g, e⟩
  · rw [e]
    dsimp only
    cases ws with
    | nil => simp at hl
    | cons w ws =>
      obtain ⟨hc, len, hcl, ha⟩ := hw w (by simp)
      rcases g with rfl | ⟨k, g⟩
      · unfold passes
        rcases at_start (deposit := deposit) ha hc with ⟨hle, -⟩ | ⟨-, cur, e, g⟩
        · omega
        · rw [e]
          exact passes_reach hf (fun v h => hw v (by simp [h])) g (by simp at hl; omega)
      · exact passes_reach hf hw g (by have := g.1; simp at hl ⊢; omega)
  · have := (hv v hvm).1
    omega
  · rw [e, (first_unique hf g).2]

/-- The full claim: what Alice has in the end is a transaction that spends output `n` of the deposit, if the chain
has one. Which outputs are spent, the node tells as well; `outputs` gives them for each transaction id. -/
def C78_statement : Prop :=
  ∀ (chain : Chain) (d c p : Nat) (deposit id : Bytes) (n : Nat) (outputs : Bytes → List Nat) (vs : List View),
    SpendsAt chain d deposit c p id → n ∈ outputs id → (∀ c' p' id', SpendsAt chain d deposit c' p' id' → n ∈ outputs id' → id' = id) →
    (∀ v ∈ vs, v.confirmations ≤ 10 ∧ ∃ len, c < len ∧ Answers chain d len v) → vs.length ≥ c - d + 2 →
    watch deposit vs = .found id

namespace Toy

def chain : Chain := [([1], [⟨[7], []⟩]), ([2], [⟨[8], [[5], [7]]⟩]), ([3], [⟨[6], [[4]]⟩, ⟨[9], [[7]]⟩])]

/-- A node with that many blocks. -/
def view (len : Nat) : View where
  confirmations := len
  blockhash := if 0 < len then some [1] else none
  block h := if h = [1] ∧ 0 < len then some ⟨[⟨[7], []⟩], if 1 < len then some [2] else none⟩
    else if h = [2] ∧ 1 < len then some ⟨[⟨[8], [[5], [7]]⟩], if 2 < len then some [3] else none⟩
    else if h = [3] ∧ 2 < len then some ⟨[⟨[6], [[4]]⟩, ⟨[9], [[7]]⟩], none⟩ else none

theorem answers {len : Nat} (h : len ≤ 3) : Answers chain 0 len (view len) := by
  have hl : len = 0 ∨ len = 1 ∨ len = 2 ∨ len = 3 := by omega
  have key : ∀ k h ts, chain[k]? = some (h, ts) → (k = 0 ∧ h = [1] ∧ ts = [⟨[7], []⟩]) ∨ (k = 1 ∧ h = [2] ∧ ts = [⟨[8], [[5], [7]]⟩]) ∨
      (k = 2 ∧ h = [3] ∧ ts = [⟨[6], [[4]]⟩, ⟨[9], [[7]]⟩]) := by
    intro k h ts hk
    match k, hk with
    | 0, hk => cases hk; simp
    | 1, hk => cases hk; simp
    | 2, hk => cases hk; simp
    | k + 3, hk => cases hk
  refine ⟨h, ?_, ?_, ?_⟩
  · rcases hl with rfl | rfl | rfl | rfl <;> rfl
  · intro k hh ts hlt hk
    rcases key k hh ts hk with ⟨rfl, rfl, rfl⟩ | ⟨rfl, rfl, rfl⟩ | ⟨rfl, rfl, rfl⟩ <;> rcases hl with rfl | rfl | rfl | rfl <;> first | omega | rfl
  · intro k hh ts hlt hk
    rcases key k hh ts hk with ⟨rfl, rfl, rfl⟩ | ⟨rfl, rfl, rfl⟩ | ⟨rfl, rfl, rfl⟩ <;> rcases hl with rfl | rfl | rfl | rfl <;> first | omega | rfl

theorem first : FirstSpends chain 0 [7] 1 0 [8] := by
  refine ⟨⟨by omega, [2], _, _, rfl, rfl, rfl, by simp⟩, ?_⟩
  rintro c' p' id' (h | ⟨rfl, h⟩)
  · have : c' = 0 := by omega
    subst this
    rintro ⟨-, h, ts, t, e1, e2, -, e4⟩
    cases e1
    cases p' with
    | zero => cases e2; cases e4
    | succ p => cases e2
  · omega

/-- The hypotheses of C78 are met, with a node that loses and regains blocks. -/
example : watch [7] ([view 0, view 1, view 1, view 0, view 2] ++ [view 2, view 3, view 2]) = .found [8] :=
  C78_finds_partial first
    (by
      simp only [List.mem_cons, List.not_mem_nil, or_false]
      rintro v (rfl | rfl | rfl | rfl | rfl) <;> exact ⟨by decide, _, answers (by omega)⟩)
    (by
      simp only [List.mem_cons, List.not_mem_nil, or_false]
      rintro v (rfl | rfl | rfl) <;> exact ⟨by decide, _, by omega, answers (by omega)⟩) (by decide)

end Toy

/-- **C78.** The full claim fails: any transaction that spends another output of the deposit, as Alice's own wallet makes
when it spends the change, is taken for Bob's. -/
theorem C78_statement_false : ¬ C78_statement := by
  intro h
  have := h Toy.chain 0 2 1 [7] [9] 1 (fun id => if id = [9] then [1] else [0]) [Toy.view 3, Toy.view 3, Toy.view 3, Toy.view 3]
    ⟨by omega, [3], _, _, rfl, rfl, rfl, by simp⟩ (by decide)
    (by
      intro c' p' id' _ hn
      by_contra hne
      rw [if_neg hne] at hn
      simp at hn)
    (by
      simp only [List.mem_cons, List.not_mem_nil, or_false]
      rintro v (rfl | rfl | rfl | rfl) <;> exact ⟨by decide, 3, by omega, Toy.answers (by omega)⟩) (by decide)
  revert this
  decide

end Verif.SwapWatch
