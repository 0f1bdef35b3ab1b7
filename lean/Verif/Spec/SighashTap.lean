import Verif.Spec.Sighash
/-
What a taproot signature hash must commit to.
-/
namespace Verif.Spec

/-- Arguments of a taproot signature hash. -/
structure TapCall where
  tx : Tx
  idx : Nat
  spent : List TxOut
  args : TapArgs

/-- The call answered by the model. -/
def TapCall.digest (h : HashFn) (c : TapCall) : Except PyErr Bytes := sighashSchnorr h c.tx c.idx c.spent c.args

/-- The hash type in force: DEFAULT behaves as ALL. -/
def TapCall.acp (c : TapCall) : Prop := ∃ t, c.args.hashtype = some t ∧ t.acp = true
def TapCall.single (c : TapCall) : Prop := ∃ t, c.args.hashtype = some t ∧ t.out = .single
def TapCall.all (c : TapCall) : Prop := ∀ t, c.args.hashtype = some t → t.out = .all

/-- What is covered of a spent output. -/
def spentView (o : TxOut) : Bytes × Bytes × Bytes := (o.nAsset, o.nValue, o.scriptPubKey)
/-- What is covered of an input witness. -/
def proofsView (w : TxInWitness) : Bytes × Bytes := (w.issuanceAmountRangeproof, w.inflationKeysRangeproof)

/-- Confidential fields are null, explicit or committed; nothing is oversized. -/
structure TapCall.WF (c : TapCall) : Prop where
  vin : ∀ i ∈ c.tx.vin, WFIssuance i.assetIssuance
  vout : ∀ o ∈ c.tx.vout, WFOut o
  spent : ∀ o ∈ c.spent, WFOut o
  inwit : ∀ w ∈ c.tx.wit.vtxinwit, WFInWitness w
  outwit : ∀ w ∈ c.tx.wit.vtxoutwit, WFOutWitness w

/-- Agreement on what every taproot hash covers. -/
structure TapAgreeBase (c d : TapCall) : Prop where
  genesis : c.args.genesisHash = d.args.genesisHash
  hashtype : c.args.hashtype = d.args.hashtype
  version : c.tx.nVersion = d.tx.nVersion
  locktime : c.tx.nLockTime = d.tx.nLockTime
  sigversion : c.args.sigversion = d.args.sigversion
  annex : c.args.annexHash = d.args.annexHash
  tapleaf : c.args.sigversion = .tapscript → c.args.tapleafHash = d.args.tapleafHash
  codesep : c.args.sigversion = .tapscript → c.args.codeseparatorPos = d.args.codeseparatorPos

/-- Agreement on all inputs and what they spend. -/
structure TapAgreeInputs (c d : TapCall) : Prop where
  idx : c.idx = d.idx
  prevouts : c.tx.vin.map (·.prevout) = d.tx.vin.map (·.prevout)
  pegins : c.tx.vin.map (·.isPegin) = d.tx.vin.map (·.isPegin)
  sequences : c.tx.vin.map (·.nSequence) = d.tx.vin.map (·.nSequence)
  issuances : c.tx.vin.map (·.assetIssuance) = d.tx.vin.map (·.assetIssuance)
  spent : c.spent.map spentView = d.spent.map spentView
  proofs : (c.tx.wit.vtxinwit.take c.tx.vin.length).map proofsView =
    (d.tx.wit.vtxinwit.take d.tx.vin.length).map proofsView

/-- Agreement on all outputs and their witnesses. -/
structure TapAgreeOutputs (c d : TapCall) : Prop where
  outputs : c.tx.vout = d.tx.vout
  witnesses : c.tx.wit.vtxoutwit.take c.tx.vout.length = d.tx.wit.vtxoutwit.take d.tx.vout.length

/-- Agreement on the output with the index of the input. -/
structure TapAgreeSingle (c d : TapCall) : Prop where
  output : ∃ o, c.tx.vout[c.idx]? = some o ∧ d.tx.vout[d.idx]? = some o
  witness : ∃ w, c.tx.wit.vtxoutwit[c.idx]? = some w ∧ d.tx.wit.vtxoutwit[d.idx]? = some w

/-- Agreement on the signed input. -/
structure TapAgreeSigned (c d : TapCall) : Prop where
  input : ∃ i j, c.tx.vin[c.idx]? = some i ∧ d.tx.vin[d.idx]? = some j ∧ i.prevout = j.prevout ∧
    i.isPegin = j.isPegin ∧ i.nSequence = j.nSequence ∧ i.assetIssuance = j.assetIssuance
  spent : ∃ s t, c.spent[c.idx]? = some s ∧ d.spent[d.idx]? = some t ∧ spentView s = spentView t
  proofs : ∀ i, c.tx.vin[c.idx]? = some i → ¬ NoIssue i.assetIssuance →
    ∃ w x, c.tx.wit.vtxinwit[c.idx]? = some w ∧ d.tx.wit.vtxinwit[d.idx]? = some x ∧ proofsView w = proofsView x

/-- `x` is one of the strings hashed while the call is answered. -/
def TapHashed (h : HashFn) (c : TapCall) (x : Bytes) : Prop :=
  ∃ ext p m, tapCheck c.tx c.idx c.spent c.args = .ok ext ∧ tapParts c.tx c.idx c.spent c.args.ht = .ok p ∧
    tapMessage h c.tx c.idx c.args ext p = .ok m ∧
    ((∃ q, p.inputs = some q ∧ (x = q.flags ∨ x = q.prevouts ∨ x = q.assets ∨ x = q.scripts ∨ x = q.sequences ∨
        x = q.issuances ∨ x = q.proofs)) ∨
     (∃ q, p.outputs = some q ∧ (x = q.outputs ∨ x = q.witnesses)) ∨
     (∃ q, p.single = some q ∧ (x = q.outputs ∨ x = q.witnesses)) ∨
     (∃ q, p.signed = some q ∧ q.proofs = some x) ∨
     x = taggedPreimage h tapSighashTag (c.args.genesisHash ++ c.args.genesisHash ++ m))

/-- A collision between strings hashed in the two calls. -/
def TapCollision (h : HashFn) (c d : TapCall) : Prop :=
  ∃ x y, TapHashed h c x ∧ TapHashed h d y ∧ CollAt h.fn x y

end Verif.Spec
