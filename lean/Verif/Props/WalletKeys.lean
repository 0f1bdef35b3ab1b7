import Verif.WalletKeys
import Verif.Props.Wallet
/-
C55: redeem scripts of confidential addresses.  C56: prefixes of all base58 classes.
-/
namespace Verif

/-! ### C55 -/

/-- The hash an address pays to: what follows the blinding pubkey. -/
def Addr.hash (a : Addr) : Bytes := if a.conf then a.payload.drop 33 else a.payload

/-- C55: hiding the address does not change the script to sign for. -/
def C55_statement : Prop :=
  ∀ a u : Addr, AddrOk a → a.conf = true → a.toUnconfidential = .ok u → a.toRedeemScript = u.toRedeemScript

theorem toUnconfidential_ok {a u : Addr} (h : a.toUnconfidential = .ok u) : u = ⟨a.chain, a.kind, false, a.payload.drop 33⟩ := by
  unfold Addr.toUnconfidential at h
  rw [addrFromBytes_iff] at h
  exact h.1

/-- C55: it does for every kind but P2PKH. -/
theorem C55_redeem_partial (a u : Addr) (hc : a.conf = true) (hu : a.toUnconfidential = .ok u) :
    a.toRedeemScript = u.toRedeemScript ↔ a.kind = .p2pkh := by
  have h1 : a.toRedeemScript = u.toScriptPubKey := by
    unfold Addr.toRedeemScript
    rw [if_pos hc, hu]; rfl
  have hu' := toUnconfidential_ok hu
  subst hu'
  rw [h1]
  show Except.ok (scriptOf a.kind (a.payload.drop 33)) = plainRedeem a.kind (a.payload.drop 33) ↔ _
  cases a.kind <;> simp [plainRedeem, scriptOf]

theorem C55_statement_false : ¬ C55_statement := by
  intro h
  let a : Addr := ⟨.elements, .p2wpkh, true, List.replicate 53 7⟩
  have := (C55_redeem_partial a ⟨.elements, .p2wpkh, false, List.replicate 20 7⟩ rfl rfl).1
    (h a ⟨.elements, .p2wpkh, false, List.replicate 20 7⟩ rfl rfl rfl)
  cases this

theorem script_of_addr {x : Addr} (hx : AddrOk x) {s : Bytes} (hs : x.toScriptPubKey = .ok s) :
    x.hash.length = x.kind.dataLen ∧ s = scriptOf x.kind x.hash := by
  obtain ⟨c, k, f, p⟩ := x
  cases f with
  | false => exact ⟨hx, (Except.ok.inj hs).symm⟩
  | true =>
    have hd : (p.drop 33).length = k.dataLen := by
      have : p.length = k.dataLen + 33 := hx
      rw [List.length_drop]; omega
    have hu : (Addr.mk c k true p).toUnconfidential = .ok ⟨c, k, false, p.drop 33⟩ := by
      rw [Addr.toUnconfidential, addrFromBytes_iff]
      exact ⟨rfl, hd⟩
    unfold Addr.toScriptPubKey at hs
    rw [if_pos rfl, hu] at hs
    exact ⟨hd, (Except.ok.inj hs).symm⟩

/-- C55: the output script tells the kind and the hash, so addresses with one script differ at most
in chain and blinding pubkey. -/
theorem C55_script_determines (a b : Addr) (ha : AddrOk a) (hb : AddrOk b) (s : Bytes)
    (h1 : a.toScriptPubKey = .ok s) (h2 : b.toScriptPubKey = .ok s) : a.kind = b.kind ∧ a.hash = b.hash := by
  obtain ⟨l1, e1⟩ := script_of_addr ha h1
  obtain ⟨l2, e2⟩ := script_of_addr hb h2
  rw [e1] at e2
  revert l1 l2 e2
  generalize a.hash = x
  generalize b.hash = y
  cases a.kind <;> cases b.kind <;> intro l1 l2 e2 <;>
    simp [scriptOf, Kind.dataLen] at l1 l2 e2 ⊢
  all_goals exact e2

example : AddrOk ⟨.liquid, .p2wsh, true, List.replicate 65 3⟩ ∧
    (Addr.mk .liquid .p2wsh true (List.replicate 65 3)).toScriptPubKey = .ok ([0x00, 0x20] ++ List.replicate 32 3) :=
  ⟨rfl, rfl⟩

/-! ### C56 -/

/-- Address classes with a prefix are those of base58 kinds. -/
def B58Class.Real : B58Class → Prop
  | .addr _ k _ => k = .p2pkh ∨ k = .p2sh
  | _ => True

/-- C56: the prefix tells the class. -/
def C56_statement : Prop := ∀ x y : B58Class, x.Real → y.Real → x.pre <+: y.pre → x = y

/-- C56: but for the secret keys of the two chains. -/
theorem C56_prefix_partial (x y : B58Class) (hx : x.Real) (hy : y.Real) (h : x.pre <+: y.pre) :
    x = y ∨ ∃ c c', x = .key c ∧ y = .key c' := by
  cases x with
  | key c =>
    cases y with
    | key c' => exact .inr ⟨c, c', rfl, rfl⟩
    | addr c' k f =>
      rcases hy with rfl | rfl <;> cases c <;> cases c' <;> cases f <;> simp [B58Class.pre, base58Prefix] at h
    | extPub c' => cases c <;> cases c' <;> simp [B58Class.pre] at h
    | extKey c' => cases c <;> cases c' <;> simp [B58Class.pre] at h
  | addr c k f =>
    rcases hx with rfl | rfl <;> cases y with
    | addr c' k' f' =>
      rcases hy with rfl | rfl <;> cases c <;> cases c' <;> cases f <;> cases f' <;>
        first | exact .inl rfl | (revert h; simp [B58Class.pre, base58Prefix])
    | key c' => cases c <;> cases c' <;> cases f <;> simp [B58Class.pre, base58Prefix] at h
    | extPub c' => cases c <;> cases c' <;> cases f <;> simp [B58Class.pre, base58Prefix] at h
    | extKey c' => cases c <;> cases c' <;> cases f <;> simp [B58Class.pre, base58Prefix] at h
  | extPub c =>
    cases y with
    | addr c' k f =>
      rcases hy with rfl | rfl <;> cases c <;> cases c' <;> cases f <;> simp [B58Class.pre, base58Prefix] at h
    | key c' => cases c <;> cases c' <;> simp [B58Class.pre] at h
    | extPub c' => cases c <;> cases c' <;> first | exact .inl rfl | (revert h; simp [B58Class.pre])
    | extKey c' => cases c <;> cases c' <;> simp [B58Class.pre] at h
  | extKey c =>
    cases y with
    | addr c' k f =>
      rcases hy with rfl | rfl <;> cases c <;> cases c' <;> cases f <;> simp [B58Class.pre, base58Prefix] at h
    | key c' => cases c <;> cases c' <;> simp [B58Class.pre] at h
    | extPub c' => cases c <;> cases c' <;> simp [B58Class.pre] at h
    | extKey c' => cases c <;> cases c' <;> first | exact .inl rfl | (revert h; simp [B58Class.pre])

/-- A secret key of Liquid reads as one of the test chain. -/
theorem C56_statement_false : ¬ C56_statement := by
  intro h
  have := h (.key .elements) (.key .liquid) trivial trivial ⟨[], rfl⟩
  cases this

/-- C56: bytes that begin with the prefixes of two classes are secret keys or tell one class. -/
theorem C56_unambiguous_partial (x y : B58Class) (hx : x.Real) (hy : y.Real) (d : Bytes) (h1 : x.pre <+: d) (h2 : y.pre <+: d) :
    x = y ∨ ∃ c c', x = .key c ∧ y = .key c' := by
  rcases Nat.le_total x.pre.length y.pre.length with hl | hl
  · exact C56_prefix_partial x y hx hy (List.prefix_of_prefix_length_le h1 h2 hl)
  · rcases C56_prefix_partial y x hy hx (List.prefix_of_prefix_length_le h2 h1 hl) with h | ⟨c, c', h, h'⟩
    · exact .inl h.symm
    · exact .inr ⟨c', c, h', h⟩

example : (B58Class.extPub .liquid).pre <+: [0x04, 0x88, 0xB2, 0x1E, 0, 1, 2] := ⟨[0, 1, 2], rfl⟩

end Verif
