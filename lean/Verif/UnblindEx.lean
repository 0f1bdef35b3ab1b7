import Verif.Results
import Verif.Sighash
import Verif.Wallet
/-
examples/unblind.py: prints what can be found out about the outputs of a transaction with a blinding key.

Reading the files and the command line (lines 32-56) are left out: the script is given the transaction, the
secret bytes of the key and the selected chain.  A printed line is a `Line`; coins are shown as satoshi.
-/
namespace Verif.UnblindEx

/-- Functions of python-bitcointx and of the library the script calls. -/
structure World where
  chain : Chain
  /-- `CCoinAddress.from_scriptPubKey` -/
  address : Bytes → Except PyErr Addr
  /-- `secp256k1_rangeproof_info`: exponent, mantissa, least and largest value -/
  info : Bytes → Option (Int × Int × Nat × Nat)

/-- What a call of `print` shows. -/
inductive Line
  | empty
  | fee (n : Nat) | explicit (n : Nat) | cannot (n : Nat) (error : String) | unblinded (n : Nat)
  | destination (a : Addr) | destinations | confidential (a : Addr) | unconfidential (a : Addr)
  | amount (satoshi : Int) | asset (a : Bytes) | blindingFactor (b : Bytes) | assetBlindingFactor (b : Bytes)
  | exponent (e : Int) | bits (b : Int) | minimum (v : Nat) | maximum (v : Nat)
  deriving DecidableEq, Repr

/-- A part of the script: the lines it prints, and its end. -/
abbrev Printer := List Line × Except PyErr Unit

/-- One part after the other; what was printed stays when the second one raises. -/
def Printer.andThen (p q : Printer) : Printer :=
  match p.2 with
  | .ok () => (p.1 ++ q.1, q.2)
  | .error e => (p.1, .error e)

/-- Lines, then more that depends on an expression which may raise. -/
def sayThen {α : Type} (ls : List Line) (x : Except PyErr α) (f : α → Printer) : Printer :=
  match x with
  | .ok a => Printer.andThen (ls, .ok ()) (f a)
  | .error e => (ls, .error e)

/-- `satoshi_to_coins` (python-bitcointx) with its range check. -/
def satoshiToCoins (v : Int) : Except PyErr Int := if moneyRangeInt v then .ok v else .error .valueError

/-- The common end of lines 74-75. -/
def explicitRest (o : TxOut) : Printer :=
  sayThen [] (do let v ← valueToAmount o.nValue; satoshiToCoins v) fun v =>
    sayThen [.amount v] (assetToAsset o.nAsset) fun a => ([.asset a], .ok ())

/-- An output with explicit value, lines 64-75. -/
def explicitOut (W : World) (n : Nat) (o : TxOut) : Printer :=
  if !confIsExplicit assetKind o.nAsset then ([], .error .assertion)
  else if o.isFee then Printer.andThen ([.fee n], .ok ()) (explicitRest o)
  else sayThen [.explicit n] (W.address o.scriptPubKey) fun ad =>
    Printer.andThen ([.destination ad], .ok ()) (explicitRest o)

/-- What the rangeproof tells, lines 86-94 and `get_rangeproof_info`, core/__init__.py:572-591. -/
def infoLines (W : World) (tx : Tx) (proof : Bytes) : List Line :=
  if tx.wit.isNull then []
  else match W.info proof with
    | none => []
    | some (e, m, lo, hi) => [.exponent e, .bits m, .minimum lo, .maximum hi]

/-- An output that was opened, lines 97-107. -/
def openedOut (E : Env) (W : World) (key : Bytes) (n : Nat) (o : TxOut) (asset : Bytes) (amount : Int) (bf abf : Bytes) :
    Printer :=
  sayThen [.unblinded n] (W.address o.scriptPubKey) fun ad =>
    sayThen [] (fromUnconfidential (fullyValid E.z) W.chain (.general W.chain) ad (E.z.pubOf key)) fun ca =>
      sayThen [.destinations, .confidential ca, .unconfidential ad] (satoshiToCoins amount) fun v =>
        ([.amount v, .blindingFactor bf, .asset asset, .assetBlindingFactor abf], .ok ())

/-- Any other output, lines 77-107. -/
def hiddenOut (E : Env) (W : World) (key : Bytes) (tx : Tx) (n : Nat) (o : TxOut) : Printer :=
  sayThen [] (pyGet tx.wit.vtxoutwit n) fun w =>
    sayThen [] (do (← unblind E key o.nValue o.nAsset o.nNonce o.scriptPubKey w.rangeproof).obj) fun r =>
      if strTruth r.error then
        sayThen [.cannot n r.error] (W.address o.scriptPubKey) fun ad =>
          (.destination ad :: infoLines W tx w.rangeproof, .ok ())
      else match r with
        | .unblindingSuccess asset amount bf abf => openedOut E W key n o asset amount bf abf
        | _ => ([], .error .assertion)

/-- The body of the loop, lines 60-108. -/
def output (E : Env) (W : World) (key : Bytes) (tx : Tx) (n : Nat) (o : TxOut) : Printer :=
  Printer.andThen (if confIsExplicit valueKind o.nValue then explicitOut W n o else hiddenOut E W key tx n o) ([.empty], .ok ())

/-- The loop, lines 59-108. -/
def outputs (E : Env) (W : World) (key : Bytes) (tx : Tx) : Nat → List TxOut → Printer
  | _, [] => ([], .ok ())
  | n, o :: os => Printer.andThen (output E W key tx n o) (outputs E W key tx (n + 1) os)

/-- Lines 58-108. -/
def report (E : Env) (W : World) (key : Bytes) (tx : Tx) : Printer :=
  Printer.andThen ([.empty], .ok ()) (outputs E W key tx 0 tx.vout)

end Verif.UnblindEx
