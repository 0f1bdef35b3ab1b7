import Verif.Spec.TokenId
import Verif.Props.Balance
/-
C53: the token id used by blinding is that of the network.
-/
namespace Verif

/-- C53, the full statement. -/
def C53_statement : Prop := ∀ (E : Env) (A : BlindArgs) (tx tx' : Tx) (num : Nat) (bfs abfs : List Bytes),
  blindTransaction E A tx = (.ok (.success num bfs abfs), tx') → A.strict = true → (∀ t ∈ tx.vin, InputSizes t) →
  (∀ t ∈ tx.vin, NoReissuedTokens t) → ∀ i, i < tx.vin.length →
  (tx.vin.getD i default).assetIssuance.nInflationKeys ≠ [] → TokenAgrees E A tx tx' i

theorem targetsFrom_token {E : Env} {A : BlindArgs} : ∀ {l : List (TxIn × Desc)} {k : Nat} {L : List Target},
    TargetsFrom E A k l L → ∀ i x, l[i]? = some x → x.1.assetIssuance.nInflationKeys ≠ [] →
    ∃ t ∈ L, t.asset = tokenId E (A.tokenKeys.getD (k + i) none).isSome x.1 := by
  intro l
  induction l with
  | nil => intro k L _ i x hx; simp at hx
  | cons y r ih =>
    intro k L h i x hx hn
    cases h with
    | cons h1 h2 =>
    cases i with
    | zero =>
      simp only [List.getElem?_cons_zero, Option.some.injEq] at hx
      subst hx
      obtain ⟨⟨t, l1, l2, rfl, -, -, ht⟩, -⟩ := h1
      cases ht with
      | none h0 => exact absurd h0 hn
      | some g _ _ => exact ⟨_, List.mem_append_left _ (List.mem_cons_of_mem _ (List.mem_append_right _ (List.mem_singleton.2 rfl))), rfl⟩
    | succ i =>
      simp only [List.getElem?_cons_succ] at hx
      obtain ⟨t, ht, e⟩ := ih h2 i x hx hn
      exact ⟨t, List.mem_append_right _ ht, by rw [e, show k + 1 + i = k + (i + 1) by omega]⟩

theorem tokenId_fixed {E : Env} {c : Bool} {a b : TxIn} (h : a.fixed = b.fixed) : tokenId E c a = tokenId E c b := by
  simp only [TxIn.fixed, Prod.mk.injEq] at h
  obtain ⟨h1, -, -, -, h2, h3⟩ := h
  simp only [tokenId, issuanceEntropy, h1, h2, h3]

theorem targetsFrom_explicit {E : Env} {A : BlindArgs} : ∀ {l : List (TxIn × Desc)} {k : Nat} {L : List Target},
    TargetsFrom E A k l L → ∀ (i : Nat) (x : TxIn × Desc), l[i]? = some x →
    ¬ IsValueCommitment x.1.assetIssuance.nAmount ∧ ¬ IsValueCommitment x.1.assetIssuance.nInflationKeys := by
  intro l
  induction l with
  | nil => intro k L _ i x hx; simp at hx
  | cons y r ih =>
    intro k L h i x hx
    cases h with
    | cons h1 h2 =>
    cases i with
    | zero =>
      simp only [List.getElem?_cons_zero, Option.some.injEq] at hx
      subst hx
      exact ⟨h1.amount, h1.keys⟩
    | succ i => exact ih h2 i x (by simpa using hx)

/-- C53, what the network sees: the token it credits an input with depends on whether there is a key for the issued amount. -/
theorem C53_credited {E : Env} {A : BlindArgs} {tx tx' : Tx} {num bfs abfs}
    (h : blindTransaction E A tx = (.ok (.success num bfs abfs), tx')) (hst : A.strict = true)
    (hsz : ∀ t ∈ tx.vin, InputSizes t) (hre : ∀ t ∈ tx.vin, NoReissuedTokens t) (i : Nat) (hi : i < tx.vin.length)
    (hn : (tx.vin.getD i default).assetIssuance.nInflationKeys ≠ []) :
    networkToken E tx' i = tokenId E (A.issuanceKey i false).isSome (tx.vin.getD i default) := by
  obtain ⟨-, hiss, -⟩ := C33_strict h hst hsz
  have hfr := C32_only_asked E A tx
  rw [h] at hfr
  obtain ⟨L0, hL0, -⟩ := C40_verified_partial h hsz hre
  have hlen : A.descs.length = tx.vin.length := by
    obtain ⟨C, s', hR, -⟩ := blind_success h
    exact hR.lengths.descs
  have hx : tx.vin[i]? = some (tx.vin.getD i default) := by
    rw [List.getD_eq_getElem?_getD, List.getElem?_eq_getElem hi]; rfl
  have hnull : (tx.vin.getD i default).assetIssuance.isNull = false := by
    unfold Issuance.isNull confIsNull
    cases hc : (tx.vin.getD i default).assetIssuance.nInflationKeys with
    | nil => exact absurd hc hn
    | cons => simp
  have hlen' : tx'.vin.length = tx.vin.length := by simpa using congrArg List.length hfr.inputs
  have hx' : tx'.vin[i]? = some (tx'.vin.getD i default) := by
    rw [List.getD_eq_getElem?_getD, List.getElem?_eq_getElem (by omega)]; rfl
  have hfix : (tx'.vin.getD i default).fixed = (tx.vin.getD i default).fixed := by
    have := congrArg (fun l => l[i]?) hfr.inputs
    simp only [List.getElem?_map] at this
    rw [hx, hx'] at this
    exact Option.some.inj this
  have hz : (tx.vin.zip A.descs)[i]? = some (tx.vin.getD i default, A.descs[i]'(by omega)) := by
    rw [List.getElem?_zip_eq_some]
    exact ⟨hx, List.getElem?_eq_getElem _⟩
  obtain ⟨hna, hnk⟩ : ¬ IsValueCommitment (tx.vin.getD i default).assetIssuance.nAmount ∧
      ¬ IsValueCommitment (tx.vin.getD i default).assetIssuance.nInflationKeys := by
    obtain ⟨L1, L2, h1, -⟩ := hL0
    exact targetsFrom_explicit h1 i _ hz
  have hconf : (tx'.vin.getD i default).confidential = (A.assetKeys.getD i none).isSome := by
    cases hk : A.assetKeys.getD i none with
    | some key => exact confidential_iff.2 (hiss i false key hi hnull hk).committed
    | none =>
      have h1 := hfr.amount i (by
        intro k hk'
        rw [List.getD_eq_getElem?_getD, hk'] at hk
        cases hk)
      rw [hx, hx'] at h1
      show _ = false
      rw [← Bool.not_eq_true, confidential_iff]
      have h2 : (tx'.vin.getD i default).assetIssuance.nAmount = _ := Option.some.inj h1
      rw [h2]
      exact hna
  unfold networkToken
  rw [hconf, tokenId_fixed hfix]
  rfl

/-- C53, what blinding offers: the token outputs may be derived from, and a hidden number of tokens is committed to with,
depends on whether there is a key for the tokens. -/
theorem C53_offered {E : Env} {A : BlindArgs} {tx tx' : Tx} {num bfs abfs}
    (h : blindTransaction E A tx = (.ok (.success num bfs abfs), tx')) (hst : A.strict = true)
    (hsz : ∀ t ∈ tx.vin, InputSizes t) (hre : ∀ t ∈ tx.vin, NoReissuedTokens t) (i : Nat) (hi : i < tx.vin.length)
    (hn : (tx.vin.getD i default).assetIssuance.nInflationKeys ≠ []) :
    (∀ L, IsTargets E A tx L → ∃ x ∈ L, x.asset = tokenId E (A.issuanceKey i true).isSome (tx.vin.getD i default)) ∧
    (IsValueCommitment (tx'.vin.getD i default).assetIssuance.nInflationKeys →
      ∃ v gen com bf, (tx.vin.getD i default).assetIssuance.nInflationKeys = 1 :: v ∧
        E.z.generateBlinded (tokenId E (A.issuanceKey i true).isSome (tx.vin.getD i default)) (List.replicate 32 0) = some gen ∧
        E.z.commit bf (beVal v) gen = some com ∧
        E.z.commitSerialize com = some (tx'.vin.getD i default).assetIssuance.nInflationKeys) := by
  obtain ⟨-, hiss, -⟩ := C33_strict h hst hsz
  have hfr := C32_only_asked E A tx
  rw [h] at hfr
  obtain ⟨L0, hL0, -⟩ := C40_verified_partial h hsz hre
  have hlen : A.descs.length = tx.vin.length := by
    obtain ⟨C, s', hR, -⟩ := blind_success h
    exact hR.lengths.descs
  have hx : tx.vin[i]? = some (tx.vin.getD i default) := by
    rw [List.getD_eq_getElem?_getD, List.getElem?_eq_getElem hi]; rfl
  have hnull : (tx.vin.getD i default).assetIssuance.isNull = false := by
    unfold Issuance.isNull confIsNull
    cases hc : (tx.vin.getD i default).assetIssuance.nInflationKeys with
    | nil => exact absurd hc hn
    | cons => simp
  have hlen' : tx'.vin.length = tx.vin.length := by simpa using congrArg List.length hfr.inputs
  have hx' : tx'.vin[i]? = some (tx'.vin.getD i default) := by
    rw [List.getD_eq_getElem?_getD, List.getElem?_eq_getElem (by omega)]; rfl
  have hz : (tx.vin.zip A.descs)[i]? = some (tx.vin.getD i default, A.descs[i]'(by omega)) := by
    rw [List.getElem?_zip_eq_some]
    exact ⟨hx, List.getElem?_eq_getElem _⟩
  have hnk : ¬ IsValueCommitment (tx.vin.getD i default).assetIssuance.nInflationKeys := by
    obtain ⟨L1, L2, h1, -⟩ := hL0
    exact (targetsFrom_explicit h1 i _ hz).2
  refine ⟨?_, ?_⟩
  · rintro L ⟨L1, L2, h1, -, rfl⟩
    obtain ⟨t, ht, e⟩ := targetsFrom_token h1 i _ hz hn
    exact ⟨t, List.mem_append_left _ ht, by rw [e, Nat.zero_add]; rfl⟩
  · intro hc
    cases hk : A.tokenKeys.getD i none with
    | some key =>
      obtain ⟨v, gen, com, bf, a, p, h1, -, -, h2, h3, h4, -⟩ := (hiss i true key hi hnull hk).hidden
      refine ⟨v, gen, com, bf, h1, ?_, h3, h4⟩
      rw [show (A.issuanceKey i true).isSome = true by simp only [BlindArgs.issuanceKey, hk, Option.isSome_some]]
      exact h2
    | none =>
      have h1 := hfr.tokens i (by
        intro k hk'
        rw [List.getD_eq_getElem?_getD, hk'] at hk
        cases hk)
      rw [hx, hx'] at h1
      have h2 : (tx'.vin.getD i default).assetIssuance.nInflationKeys = _ := Option.some.inj h1
      rw [h2] at hc
      exact absurd hc hnk

/-- C53: the two tokens of an issuance are different, or two different strings have the same midstate hash. -/
theorem C53_tokens_differ (E : Env) (t : TxIn) :
    tokenId E true t ≠ tokenId E false t ∨
      E.m.fn (issuanceEntropy E t ++ 2 :: List.replicate 31 0) = E.m.fn (issuanceEntropy E t ++ 1 :: List.replicate 31 0) ∧
        issuanceEntropy E t ++ 2 :: List.replicate 31 0 ≠ issuanceEntropy E t ++ 1 :: List.replicate 31 0 := by
  by_cases h : tokenId E true t = tokenId E false t
  · right
    refine ⟨h, fun e => ?_⟩
    have := List.append_cancel_left e
    injection this with e1 _
    exact absurd e1 (by decide)
  · exact .inl h

/-- C53 for inputs with both keys or none: an amount and the tokens issued with it are either both
hidden or both left as they are. -/
theorem C53_token_partial {E : Env} {A : BlindArgs} {tx tx' : Tx} {num bfs abfs}
    (h : blindTransaction E A tx = (.ok (.success num bfs abfs), tx')) (hst : A.strict = true)
    (hsz : ∀ t ∈ tx.vin, InputSizes t) (hre : ∀ t ∈ tx.vin, NoReissuedTokens t) (i : Nat) (hi : i < tx.vin.length)
    (hn : (tx.vin.getD i default).assetIssuance.nInflationKeys ≠ [])
    (hboth : (A.issuanceKey i false).isSome = (A.issuanceKey i true).isSome) : TokenAgrees E A tx tx' i := by
  have hnet := C53_credited h hst hsz hre i hi hn
  obtain ⟨h1, h2⟩ := C53_offered h hst hsz hre i hi hn
  rw [hboth] at hnet
  rw [← hnet] at h1 h2
  exact ⟨h1, h2⟩

/-- C53, exactly: unless the id of the other token happens to be a target as well, blinding and network agree on the token if
and only if both keys are given or none. -/
theorem C53_exact {E : Env} {A : BlindArgs} {tx tx' : Tx} {num bfs abfs}
    (h : blindTransaction E A tx = (.ok (.success num bfs abfs), tx')) (hst : A.strict = true)
    (hsz : ∀ t ∈ tx.vin, InputSizes t) (hre : ∀ t ∈ tx.vin, NoReissuedTokens t) (i : Nat) (hi : i < tx.vin.length)
    (hn : (tx.vin.getD i default).assetIssuance.nInflationKeys ≠ [])
    (hother : ∀ L, IsTargets E A tx L → ∀ x ∈ L, x.asset ≠ tokenId E (!(A.issuanceKey i true).isSome) (tx.vin.getD i default)) :
    TokenAgrees E A tx tx' i ↔ (A.issuanceKey i false).isSome = (A.issuanceKey i true).isSome := by
  refine ⟨fun ha => ?_, C53_token_partial h hst hsz hre i hi hn⟩
  obtain ⟨L, hL, -⟩ := C40_verified_partial h hsz hre
  obtain ⟨x, hx, e⟩ := ha.target L hL
  rw [C53_credited h hst hsz hre i hi hn] at e
  by_contra hne
  refine hother L hL x hx ?_
  rw [e]
  congr 1
  revert hne
  cases (A.issuanceKey i false).isSome <;> cases (A.issuanceKey i true).isSome <;> simp

/-- One input that issues an asset and a token, and one output. -/
def Toy.tokenTx : Tx := Toy.tx [(5, 8)] ⟨zero32, Toy.b32 7, Toy.amt 1, Toy.amt 1⟩
/-- The issued amount is to be hidden, the number of tokens is not. -/
def Toy.amountOnly : BlindArgs :=
  { descs := [⟨Toy.b32 5, 8, Toy.b32 3, Toy.b32 4⟩], pubkeys := [Toy.pub 3], assetKeys := [some (Toy.b32 8)],
    rand := fun k => Toy.b32 (k + 5) }
/-- Both are to be hidden. -/
def Toy.amountAndToken : BlindArgs := { Toy.amountOnly with tokenKeys := [some (Toy.b32 11)] }

theorem Toy.token_fine : (∀ t ∈ Toy.tokenTx.vin, InputSizes t) ∧ ∀ t ∈ Toy.tokenTx.vin, NoReissuedTokens t := by
  refine ⟨by unfold Toy.tokenTx; exact Toy.sizes _ _ (by decide), ?_⟩
  intro t ht
  simp only [Toy.tokenTx, Toy.tx, List.mem_cons, List.not_mem_nil, or_false] at ht
  subst ht
  exact fun h => absurd (by decide) h

/-- C53 fails as stated: with a key for the issued amount but none for the tokens, the network
credits the issuance with the token of a confidential issuance, but outputs may only be derived
from the other one. -/
theorem C53_statement_false : ¬ C53_statement := by
  intro h
  obtain ⟨b, a, t', hx⟩ := success_of (x := blindTransaction Toy.env Toy.amountOnly Toy.tokenTx) (n := 2) (by decide +kernel)
  have h1 := (h _ _ _ _ _ _ _ hx (by decide) Toy.token_fine.1 Toy.token_fine.2 0 (by decide) (by decide)).target
  have ht : t' = (blindTransaction Toy.env Toy.amountOnly Toy.tokenTx).2 := by rw [hx]
  have hT : ∃ T, surjTargets Toy.env Toy.amountOnly Toy.tokenTx = .ok T ∧
      networkToken Toy.env (blindTransaction Toy.env Toy.amountOnly Toy.tokenTx).2 0 ∉ T.targets := by
    refine ⟨(match surjTargets Toy.env Toy.amountOnly Toy.tokenTx with | .ok T => T | _ => ⟨[], [], []⟩), ?_, ?_⟩ <;> decide +kernel
  obtain ⟨T, hT, hno⟩ := hT
  obtain ⟨L, hL, rfl⟩ := (C40_targets_partial _ _ _ Toy.token_fine.1 Toy.token_fine.2 T).1 hT
  obtain ⟨x, hx', e⟩ := h1 L hL
  rw [ht] at e
  exact hno (List.mem_map.2 ⟨x, hx', e⟩)

-- With the key for the amount only, the other token is no target, and blinding and network disagree.
example : ∃ b a t', blindTransaction Toy.env Toy.amountOnly Toy.tokenTx = (.ok (.success 2 b a), t') ∧
    ¬ TokenAgrees Toy.env Toy.amountOnly Toy.tokenTx t' 0 := by
  obtain ⟨b, a, t', hx⟩ := success_of (x := blindTransaction Toy.env Toy.amountOnly Toy.tokenTx) (n := 2) (by decide +kernel)
  refine ⟨b, a, t', hx, ?_⟩
  rw [C53_exact hx (by decide) Toy.token_fine.1 Toy.token_fine.2 0 (by decide) (by decide) ?_]
  · decide
  · intro L hL x hxL e
    have hT := (C40_targets_partial _ _ _ Toy.token_fine.1 Toy.token_fine.2 _).2 ⟨L, hL, rfl⟩
    have hno : (match surjTargets Toy.env Toy.amountOnly Toy.tokenTx with
        | .ok T => decide (tokenId Toy.env true (Toy.tokenTx.vin.getD 0 default) ∈ T.targets) | _ => true) = false := by decide +kernel
    rw [hT] at hno
    exact of_decide_eq_false hno (List.mem_map.2 ⟨x, hxL, e⟩)

-- With both keys the confidential token is used, and it is not the other one.
example : ∃ b a t', blindTransaction Toy.env Toy.amountAndToken Toy.tokenTx = (.ok (.success 3 b a), t') ∧
    TokenAgrees Toy.env Toy.amountAndToken Toy.tokenTx t' 0 ∧ networkToken Toy.env t' 0 ≠ networkToken Toy.env Toy.tokenTx 0 := by
  obtain ⟨b, a, t', hx⟩ := success_of (x := blindTransaction Toy.env Toy.amountAndToken Toy.tokenTx) (n := 3) (by decide +kernel)
  refine ⟨b, a, t', hx, C53_token_partial hx (by decide) Toy.token_fine.1 Toy.token_fine.2 0 (by decide) (by decide) (by decide), ?_⟩
  rw [show t' = (blindTransaction Toy.env Toy.amountAndToken Toy.tokenTx).2 by rw [hx]]
  decide +kernel

end Verif
