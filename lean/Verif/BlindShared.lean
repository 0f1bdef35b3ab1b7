import Verif.Blind
/-
`blind_transaction` on transactions in which one object is listed more than once.

`Blind.lean` takes a transaction for a value.  In Python `tx.vout` is a list of references, and `out.nValue = …`
changes the object, wherever else it is listed.  Here a change goes to all the positions that hold the object.
-/
namespace Verif

/-- Which object each position of the four lists holds. -/
structure Sharing where
  vin : Nat → Nat
  vout : Nat → Nat
  inwit : Nat → Nat
  outwit : Nat → Nat

/-- Whether positions `p` and `q` hold the same object, in a list that had `n` items when the call began: what has been
appended since is new (core/__init__.py:1557-1558, 1609-1610). -/
def sameObj (ids : Nat → Nat) (n p q : Nat) : Bool := p == q || (decide (p < n) && decide (q < n) && ids p == ids q)

/-- Changing an object: every position that holds it shows the change. -/
def touch {α : Type} (same : Nat → Bool) (f : α → α) (l : List α) : List α := l.mapIdx fun k x => if same k then f x else x

/-- The assignments of `blind_transaction`. -/
structure Setters where
  /-- `tx.vin[nIn].assetIssuance = issuance`, core/__init__.py:1582 -/
  issuance : Nat → Issuance → Tx → Tx
  /-- `txinwit.issuanceAmountRangeproof = …`, `txinwit.inflationKeysRangeproof = …`, 1600-1603 -/
  inWit : Nat → (TxInWitness → TxInWitness) → Tx → Tx
  /-- `out.nAsset = …`, `out.nValue = …`, `out.nNonce = …`, 1702, 1707, 1712 -/
  out : Nat → (TxOut → TxOut) → Tx → Tx
  /-- `txoutwit.rangeproof = …`, `txoutwit.surjectionproof = …`, 1728-1729 -/
  outWit : Nat → (TxOutWitness → TxOutWitness) → Tx → Tx

/-- The assignments of `Blind.lean`. -/
def Setters.plain : Setters := ⟨setIssuance, setInWit, setOut, setOutWit⟩

/-- The assignments when objects are shared as `S` says in the transaction `t` given. -/
def Setters.shared (S : Sharing) (t : Tx) : Setters where
  issuance p i tx := { tx with vin := touch (sameObj S.vin t.vin.length p) (fun x => { x with assetIssuance := i }) tx.vin }
  inWit p f tx := { tx with wit := { tx.wit with vtxinwit := touch (sameObj S.inwit t.wit.vtxinwit.length p) f tx.wit.vtxinwit } }
  out p f tx := { tx with vout := touch (sameObj S.vout t.vout.length p) f tx.vout }
  outWit p f tx := { tx with wit := { tx.wit with vtxoutwit := touch (sameObj S.outwit t.wit.vtxoutwit.length p) f tx.wit.vtxoutwit } }

/-! The loops of `Blind.lean`, with the assignments given. -/

/-- Committing to an issuance amount, core/__init__.py:1557-1606. -/
def blindPseudoS (S : Setters) (C : Ctx) (nIn : Nat) (token : Bool) (key : Bytes) (amount : Int) (asset blind : Bytes) : BM Unit := do
  BM.modifyTx fun tx => { tx with wit := { tx.wit with vtxinwit := padTo tx.wit.vtxinwit (nIn + 1) {} } }
  let (_, gen) ← BM.lift (blindedAsset C.E.z asset zero32)
  let (confValue, commit) ← BM.lift (createValueCommitment C.E.z blind gen amount)
  let s ← BM.get
  let issuance := (s.tx.vin.getD nIn default).assetIssuance
  BM.modifyTx (S.issuance nIn
    (if token then { issuance with nInflationKeys := confValue } else { issuance with nAmount := confValue }))
  let nonce ← BM.lift (uint256New key)
  let proof ← BM.lift
    (generateRangeproof C.E.z C.A.ctExponent C.A.ctBits blind nonce amount [] commit gen asset zero32)
  BM.modifyTx (S.inWit nIn fun w =>
    if token then { w with inflationKeysRangeproof := proof } else { w with issuanceAmountRangeproof := proof })
  BM.modify fun s => { s with done := s.done + 1 }

/-- One issuance pseudo-input with key, core/__init__.py:1516-1606. -/
def issuancePseudoS (S : Setters) (C : Ctx) (nIn : Nat) (token : Bool) (key : Bytes) : BM Unit := do
  BM.modify fun s => { s with attempts := s.attempts + 1, issAttempts := s.issAttempts + 1 }
  let s ← BM.get
  let txin := s.tx.vin.getD nIn default
  let explicitValue := if token then txin.assetIssuance.nInflationKeys else txin.assetIssuance.nAmount
  if confIsNull explicitValue then return
  else do
    let amount ← BM.lift (valueToAmount explicitValue)
    BM.modify fun s => { s with amounts := s.amounts ++ [amount] }
    match ← BM.lift (pseudoAsset C.E txin token) with
    | none => return
    | some asset => do
      let r ← BM.rand C.A
      let blind ← BM.lift (uint256New r)
      BM.modify fun s => { s with blinds := s.blinds ++ [blind], assetblinds := s.assetblinds ++ [zero32] }
      let s ← BM.get
      if s.attempts = C.nToBlind then BM.finish C
      else blindPseudoS S C nIn token key amount asset blind

/-- One pseudo-input, core/__init__.py:1506-1516. -/
def issuanceStepS (S : Setters) (C : Ctx) (nIn : Nat) (token : Bool) : BM Unit :=
  match keyAt (if token then C.A.tokenKeys else C.A.assetKeys) nIn with
  | none => pure ()
  | some key => issuancePseudoS S C nIn token key

/-- The loop over inputs, core/__init__.py:1505-1606. -/
def issuanceLoopS (S : Setters) (C : Ctx) : Nat → Nat → BM Unit
  | _, 0 => pure ()
  | i, n + 1 => do
    issuanceStepS S C i false
    issuanceStepS S C i true
    issuanceLoopS S C (i + 1) n

/-- Committing to an output, core/__init__.py:1694-1732. -/
def commitOutputS (S : Setters) (C : Ctx) (nOut : Nat) (pk : Bytes) (script : Bytes) (amount : Int) (asset blind assetblind : Bytes) :
    BM Unit := do
  BM.modify fun s => { s with obf := s.obf.set nOut (some blind), oabf := s.oabf.set nOut (some assetblind) }
  let (confAsset, gen) ← BM.lift (blindedAsset C.E.z asset assetblind)
  BM.modifyTx (S.out nOut fun o => { o with nAsset := confAsset })
  let (confValue, commit) ← BM.lift (createValueCommitment C.E.z blind gen amount)
  BM.modifyTx (S.out nOut fun o => { o with nValue := confValue })
  let seed ← BM.rand C.A
  let (nonce, eph) ← BM.lift (outputNonce C.E pk seed)
  let confNonce ← BM.lift (confNew nonceKind eph)
  BM.modifyTx (S.out nOut fun o => { o with nNonce := confNonce })
  let rangeproof ← BM.lift
    (generateRangeproof C.E.z C.A.ctExponent C.A.ctBits blind nonce amount script commit gen asset assetblind)
  let seed ← BM.rand C.A
  match ← BM.lift (surjectionProof C.E.z C.T.targets C.T.gens C.T.blinders assetblind gen asset seed) with
  | none => return
  | some proof =>
    if proof.length = 0 then return
    else do
      BM.modifyTx (S.outWit nOut fun _ => { rangeproof, surjectionproof := proof })
      BM.modify fun s => { s with done := s.done + 1 }

/-- One output with a valid pubkey, core/__init__.py:1615-1732. -/
def outputBlindS (S : Setters) (C : Ctx) (nOut : Nat) (pk : Bytes) : BM Unit := do
  BM.modify fun s => { s with attempts := s.attempts + 1 }
  let s ← BM.get
  let out := s.tx.vout.getD nOut {}
  let amount ← BM.lift (valueToAmount out.nValue)
  let asset ← BM.lift (assetToAsset out.nAsset)
  BM.modify fun s => { s with amounts := s.amounts ++ [amount] }
  let r ← BM.rand C.A
  let blind ← BM.lift (uint256New r)
  BM.modify fun s => { s with blinds := s.blinds ++ [blind] }
  let r ← BM.rand C.A
  let assetblind ← BM.lift (uint256New r)
  BM.modify fun s => { s with assetblinds := s.assetblinds ++ [assetblind] }
  balanceIfLast C
  let s ← BM.get
  commitOutputS S C nOut pk out.scriptPubKey amount asset (s.blinds.getLastD []) (s.assetblinds.getLastD [])

/-- One entry of `output_pubkeys`, core/__init__.py:1614-1732. -/
def outputStepS (S : Setters) (C : Ctx) (nOut : Nat) (pk : Bytes) : BM Unit :=
  if fullyValid C.E.z pk then outputBlindS S C nOut pk else pure ()

/-- The loop over output pubkeys, core/__init__.py:1614-1732. -/
def outputLoopS (S : Setters) (C : Ctx) : Nat → List Bytes → BM Unit
  | _, [] => pure ()
  | j, pk :: rest => do
    outputStepS S C j pk
    outputLoopS S C (j + 1) rest

/-- Everything from the first change on, core/__init__.py:1504-1734. -/
def blindBodyS (S : Setters) (C : Ctx) (nIn : Nat) : BM Unit := do
  issuanceLoopS S C 0 nIn
  BM.modifyTx fun tx => { tx with wit := { tx.wit with vtxoutwit := padTo tx.wit.vtxoutwit tx.vout.length {} } }
  outputLoopS S C 0 C.A.pubkeys
  BM.finish C

/-- `blind_transaction` with the assignments given, core/__init__.py:1184-1734. -/
def blindS (S : Setters) (E : Env) (A : BlindArgs) (tx : Tx) : Except PyErr BlindResult × Tx :=
  match checks E A tx with
  | .error (.raise e) => (.error e, tx)
  | .error (.ret r) => (.ok r, tx)
  | .ok (T, c) =>
    let r := blindBodyS S ⟨E, A, T, c.nBlindsIn, c.nToBlind⟩ tx.vin.length (startState tx c)
    (endOf r.1, r.2.tx)

/-- `blind_transaction` on a transaction whose lists hold the objects `S` says. -/
def blindShared (S : Sharing) (E : Env) (A : BlindArgs) (tx : Tx) : Except PyErr BlindResult × Tx :=
  blindS (.shared S tx) E A tx

end Verif
