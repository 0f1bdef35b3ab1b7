import Verif.Spec.AddrText
/-
What a node of Elements makes of the text of an address: `DecodeDestination` of key_io.cpp with the
prefixes of chainparams.cpp, independent of the code.
-/
namespace Verif.Spec

/-- The address prefixes of a chain. -/
structure NodeChain where
  pubkey : UInt8
  script : UInt8
  blinded : UInt8
  bech : List Char
  blech : List Char

/-- The chain `liquidv1`. -/
def NodeChain.liquidv1 : NodeChain := ⟨57, 39, 12, ['e', 'x'], ['l', 'q']⟩

/-- The chain `elementsregtest`. -/
def NodeChain.regtest : NodeChain := ⟨235, 75, 4, ['e', 'r', 't'], ['e', 'l']⟩

/-- A version and a program that have a name: 20 or 32 bytes of version 0, 32 bytes of version 1. -/
def NamedProg (v : Nat) (p : Bytes) : Prop := v = 0 ∧ (p.length = 20 ∨ p.length = 32) ∨ v = 1 ∧ p.length = 32

/-- The script of a witness program: the version as an opcode, then the program. -/
def witnessScript (v : Nat) (p : Bytes) : Bytes := (if v = 0 then 0 else 0x50 + UInt8.ofNat v) :: UInt8.ofNat p.length :: p

/-- The text names the script, and the pubkey to blind for, if any.  A blinded address has the
prefix for blinded ones, then the usual one, then the pubkey, then the hash; in segwit addresses the
pubkey stands before the program. -/
inductive NodeReads (H : Bytes → Bytes) (bech blech : List Nat → List Nat → Option (Nat × Bytes)) (c : NodeChain) (s : List Nat) :
    Bytes → Option Bytes → Prop
  | pubkey (h : Bytes) : h.length = 20 → Base58Check H [c.pubkey] h s → NodeReads H bech blech c s ([0x76, 0xa9, 20] ++ h ++ [0x88, 0xac]) none
  | script (h : Bytes) : h.length = 20 → Base58Check H [c.script] h s → NodeReads H bech blech c s ([0xa9, 20] ++ h ++ [0x87]) none
  | blindedPubkey (k h : Bytes) : k.length = 33 → h.length = 20 → Base58Check H [c.blinded, c.pubkey] (k ++ h) s →
      NodeReads H bech blech c s ([0x76, 0xa9, 20] ++ h ++ [0x88, 0xac]) (some k)
  | blindedScript (k h : Bytes) : k.length = 33 → h.length = 20 → Base58Check H [c.blinded, c.script] (k ++ h) s →
      NodeReads H bech blech c s ([0xa9, 20] ++ h ++ [0x87]) (some k)
  | segwit (v : Nat) (p : Bytes) : bech (c.bech.map Char.toNat) s = some (v, p) → NamedProg v p →
      NodeReads H bech blech c s (witnessScript v p) none
  | blindedSegwit (v : Nat) (k p : Bytes) : blech (c.blech.map Char.toNat) s = some (v, k ++ p) → k.length = 33 → NamedProg v p →
      NodeReads H bech blech c s (witnessScript v p) (some k)

end Verif.Spec
