import Verif.Tx
/-
Hash functions are arbitrary functions with outputs of a fixed length.  Nothing is
assumed about collisions.
-/
namespace Verif

/-- SHA256 as used through `hashlib.sha256(...).digest()`. -/
structure HashFn where
  fn : Bytes → Bytes
  len : ∀ x, (fn x).length = 32

/-- `bitcointx.core.Hash`: SHA256 twice. -/
def HashFn.dbl (h : HashFn) (x : Bytes) : Bytes := h.fn (h.fn x)

/-- `CTransaction.GetTxid` (python-bitcointx, inherited by `CElementsTransaction`). -/
def txid (h : HashFn) (tx : Tx) : Except PyErr Bytes :=
  if tx.wit.isNull then (serTx true false tx).map h.dbl
  else (serTx false false tx).map h.dbl

end Verif
