import Verif.Spec.SighashTap
/-
The strings a segwit v0 and a taproot signature hash are defined to be hashes of, field by
field: BIP143 and BIP341/BIP342 with the changes of Elements (issuances, confidential
amounts, outpoint flags, genesis hash).  Written with the wire grammar only.
-/
namespace Verif.Spec

instance (i : Issuance) : Decidable (NoIssue i) := by unfold NoIssue; infer_instance

/-- Transaction id and index. -/
def OutPointEnc (o : OutPoint) (w : Bytes) : Prop :=
  ∃ h x, RawEnc 32 o.hash h ∧ UIntEnc 4 o.n x ∧ w = h ++ x

/-- An issuance, or a zero byte. -/
def IssuanceOrZero (i : Issuance) (w : Bytes) : Prop :=
  (NoIssue i ∧ w = [0]) ∨ (¬ NoIssue i ∧ IssuanceEnc i w)

/-- An issuance, or nothing. -/
def IssuanceOrNothing (i : Issuance) (w : Bytes) : Prop :=
  (NoIssue i ∧ w = []) ∨ (¬ NoIssue i ∧ IssuanceEnc i w)

/-- The hash of a string described by `E`, or 32 zero bytes. -/
def HashedIf (H : Bytes → Bytes) (c : Prop) (E : Bytes → Prop) (w : Bytes) : Prop :=
  (c ∧ ∃ x, E x ∧ w = H x) ∨ (¬ c ∧ w = List.replicate 32 0)

/-- A string described by `E`, or nothing. -/
def PresentIf (c : Prop) (E : Bytes → Prop) (w : Bytes) : Prop := (c ∧ E w) ∨ (¬ c ∧ w = [])

/-! ### Segwit v0 -/

/-- The outputs that are hashed: all, or the one with the index of the input. -/
def v0HashedOutputs (vout : List TxOut) (idx ht : Nat) : List TxOut :=
  if OutSingle ht then vout[idx]?.toList else vout

/-- The string hashed for a segwit v0 signature; `a` are the bytes of the amount.  The hash
type is written as a signed integer, which is the same for hash types below 2^31. -/
def V0LayoutWith (H : Bytes → Bytes) (script : Bytes) (tx : Tx) (idx ht : Nat) (a w : Bytes) : Prop :=
  ∃ v hp hs hi i p c q iss ho l t,
    SIntEnc 4 tx.nVersion v ∧
    HashedIf H (¬ AnyoneCanPay ht) (SeqEnc OutPointEnc (tx.vin.map (·.prevout))) hp ∧
    HashedIf H (¬ AnyoneCanPay ht ∧ OutAll ht) (SeqEnc (UIntEnc 4) (tx.vin.map (·.nSequence))) hs ∧
    HashedIf H (¬ AnyoneCanPay ht) (SeqEnc IssuanceOrZero (tx.vin.map (·.assetIssuance))) hi ∧
    tx.vin[idx]? = some i ∧ OutPointEnc i.prevout p ∧
    BytesEnc VarIntMin script c ∧
    UIntEnc 4 i.nSequence q ∧ IssuanceOrNothing i.assetIssuance iss ∧
    HashedIf H (OutAll ht ∨ OutSingle ht ∧ idx < tx.vout.length)
      (SeqEnc (TxOutEnc true) (v0HashedOutputs tx.vout idx ht)) ho ∧
    UIntEnc 4 tx.nLockTime l ∧ SIntEnc 4 (ht : Int) t ∧
    w = v ++ hp ++ hs ++ hi ++ p ++ c ++ a ++ q ++ iss ++ ho ++ l ++ t

/-- The digest: the amount is written like in an output. -/
def V0Digest (H : Bytes → Bytes) (script : Bytes) (tx : Tx) (idx ht : Nat) (amount d : Bytes) : Prop :=
  ∃ a w, ValueEnc amount a ∧ V0LayoutWith H script tx idx ht a w ∧ d = H w

/-! ### Taproot -/

/-- One byte per input: 128 for an issuance, 64 for a peg-in. -/
def FlagEnc (i : TxIn) (w : Bytes) : Prop :=
  ∃ b : UInt8, w = [b] ∧ b.toNat = (if NoIssue i.assetIssuance then 0 else 128) + if i.isPegin then 64 else 0

/-- The rangeproofs of an issuance, each with its length. -/
def ProofsEnc (x : TxInWitness) (w : Bytes) : Prop :=
  ∃ a k, BytesEnc VarIntMin x.issuanceAmountRangeproof a ∧ BytesEnc VarIntMin x.inflationKeysRangeproof k ∧ w = a ++ k

/-- How three of the fields are written. -/
structure TapWriting where
  /-- the spent script under ANYONECANPAY -/
  script : Bytes → Bytes → Prop
  /-- the rangeproofs of the signed input under ANYONECANPAY -/
  proofs : TxInWitness → Bytes → Prop
  /-- the annex hash -/
  annex : Bytes → Bytes → Prop

/-- What the network verifies: script and rangeproofs with their lengths, the 32 bytes of the
annex hash. -/
def TapWriting.network : TapWriting := ⟨BytesEnc VarIntMin, ProofsEnc, RawEnc 32⟩

/-- The other way round: no lengths for script and rangeproofs, one for the annex hash. -/
def TapWriting.swapped : TapWriting :=
  ⟨fun s w => w = s, fun x w => w = x.issuanceAmountRangeproof ++ x.inflationKeysRangeproof,
   fun a w => a.length = 32 ∧ w = 32 :: a⟩

/-- Seven hashes over all inputs and what they spend. -/
def TapInputsEnc (H : Bytes → Bytes) (tx : Tx) (spent : List TxOut) (w : Bytes) : Prop :=
  ∃ f p a s q i r, SeqEnc FlagEnc tx.vin f ∧ SeqEnc OutPointEnc (tx.vin.map (·.prevout)) p ∧
    SeqEnc (fun o : TxOut => Cat (AssetEnc o.nAsset) (ValueEnc o.nValue)) spent a ∧
    SeqEnc (BytesEnc VarIntMin) (spent.map (·.scriptPubKey)) s ∧
    SeqEnc (UIntEnc 4) (tx.vin.map (·.nSequence)) q ∧
    SeqEnc IssuanceOrZero (tx.vin.map (·.assetIssuance)) i ∧ SeqEnc ProofsEnc tx.wit.vtxinwit r ∧
    w = H f ++ H p ++ H a ++ H s ++ H q ++ H i ++ H r

/-- Two hashes over some outputs and their witnesses. -/
def TapOutputsEnc (H : Bytes → Bytes) (outs : List TxOut) (wits : List TxOutWitness) (w : Bytes) : Prop :=
  ∃ o x, SeqEnc (TxOutEnc true) outs o ∧ SeqEnc (TxOutWitnessEnc true) wits x ∧ w = H o ++ H x

/-- The output with the index of the input. -/
def TapSingleEnc (H : Bytes → Bytes) (tx : Tx) (idx : Nat) (w : Bytes) : Prop :=
  ∃ o x, tx.vout[idx]? = some o ∧ tx.wit.vtxoutwit[idx]? = some x ∧ TapOutputsEnc H [o] [x] w

/-- The signed input under ANYONECANPAY. -/
def TapSignedEnc (W : TapWriting) (H : Bytes → Bytes) (tx : Tx) (idx : Nat) (spent : List TxOut) (w : Bytes) : Prop :=
  ∃ i s x f p a v c q iss r, tx.vin[idx]? = some i ∧ spent[idx]? = some s ∧ tx.wit.vtxinwit[idx]? = some x ∧
    FlagEnc i f ∧ OutPointEnc i.prevout p ∧ AssetEnc s.nAsset a ∧ ValueEnc s.nValue v ∧ W.script s.scriptPubKey c ∧
    UIntEnc 4 i.nSequence q ∧ IssuanceOrZero i.assetIssuance iss ∧
    PresentIf (¬ NoIssue i.assetIssuance) (fun r => ∃ y, W.proofs x y ∧ r = H y) r ∧
    w = f ++ p ++ a ++ v ++ c ++ q ++ iss ++ r

/-- 0 for DEFAULT, 1 to 3 for ALL, NONE and SINGLE, 128 more for ANYONECANPAY. -/
def HashTypeEnc (t : Option HashType) (w : Bytes) : Prop :=
  ∃ b : UInt8, w = [b] ∧ b.toNat = match t with
    | none => 0
    | some t => (match t.out with | .all => 1 | .none => 2 | .single => 3) + if t.acp then 128 else 0

/-- 2 for tapscript, 1 more for an annex. -/
def SpendTypeEnc (a : TapArgs) (w : Bytes) : Prop :=
  ∃ b : UInt8, w = [b] ∧
    b.toNat = (if a.sigversion = .tapscript then 2 else 0) + if a.annexHash = none then 0 else 1

/-- Tapleaf hash, key version 0 and position of the last code separator. -/
def TapTrailerEnc (a : TapArgs) (w : Bytes) : Prop :=
  PresentIf (a.sigversion = .tapscript)
    (fun w => ∃ l c p, a.tapleafHash = some l ∧ a.codeseparatorPos = some c ∧ SIntEnc 4 c p ∧ w = l ++ [0] ++ p) w

/-- The annex hash, if there is an annex. -/
def AnnexEnc (W : TapWriting) (a : TapArgs) (w : Bytes) : Prop :=
  (a.annexHash = none ∧ w = []) ∨ ∃ x, a.annexHash = some x ∧ W.annex x w

/-- The signature message. -/
def TapMessage (W : TapWriting) (H : Bytes → Bytes) (c : TapCall) (m : Bytes) : Prop :=
  ∃ ht v l ins outs sp inp an sg tr,
    HashTypeEnc c.args.hashtype ht ∧ SIntEnc 4 c.tx.nVersion v ∧ UIntEnc 4 c.tx.nLockTime l ∧
    PresentIf (¬ c.acp) (TapInputsEnc H c.tx c.spent) ins ∧
    PresentIf c.all (TapOutputsEnc H c.tx.vout c.tx.wit.vtxoutwit) outs ∧
    SpendTypeEnc c.args sp ∧
    (c.acp ∧ TapSignedEnc W H c.tx c.idx c.spent inp ∨ ¬ c.acp ∧ UIntEnc 4 c.idx inp) ∧
    AnnexEnc W c.args an ∧ PresentIf c.single (TapSingleEnc H c.tx c.idx) sg ∧ TapTrailerEnc c.args tr ∧
    m = ht ++ v ++ l ++ ins ++ outs ++ sp ++ inp ++ an ++ sg ++ tr

/-- The bytes of an ASCII string. -/
def ascii (s : String) : Bytes := s.toList.map fun c => UInt8.ofNat c.toNat

/-- BIP340 tagged hash. -/
def Tagged (H : Bytes → Bytes) (tag : String) (m : Bytes) : Bytes := H (H (ascii tag) ++ H (ascii tag) ++ m)

/-- The digest: a tagged hash of the genesis hash, twice, and the message. -/
def TapDigest (W : TapWriting) (H : Bytes → Bytes) (c : TapCall) (d : Bytes) : Prop :=
  ∃ m, TapMessage W H c m ∧
    d = Tagged H "TapSighash/elements" (c.args.genesisHash ++ c.args.genesisHash ++ m)

/-! ### Script signatures -/

/-- What is hashed for a leaf: version 0xc4 and the script with its length, tagged. -/
def LeafPreimage (H : Bytes → Bytes) (script p : Bytes) : Prop :=
  ∃ s, BytesEnc VarIntMin script s ∧ p = H (ascii "TapLeaf/elements") ++ H (ascii "TapLeaf/elements") ++ ([0xc4] ++ s)

/-- Arguments of `sighash_schnorr` of a script. -/
structure LeafSig where
  script : Bytes
  tx : Tx
  idx : Nat
  spent : List TxOut
  ht : Option HashType
  codesep : Option Int
  annex : Option Bytes
  genesis : Bytes

/-- The call answered by the model. -/
def LeafSig.run (h : HashFn) (c : LeafSig) : Except PyErr Bytes :=
  scriptSighashSchnorr h c.script c.tx c.idx c.spent c.ht c.codesep c.annex c.genesis

/-- The tapscript call for a given leaf hash. -/
def LeafSig.call (c : LeafSig) (leaf : Bytes) : TapCall where
  tx := c.tx
  idx := c.idx
  spent := c.spent
  args :=
    { hashtype := c.ht
      sigversion := .tapscript
      tapleafHash := some leaf
      codeseparatorPos := c.codesep
      annexHash := c.annex
      genesisHash := c.genesis }

end Verif.Spec
