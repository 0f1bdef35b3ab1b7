import Verif.Bytes
/-
The names of chains.
-/
namespace Verif.Spec.ChainParams

/-- The name says the coin, and may say the network after a slash. -/
def Names (name coin : List Char) : Option (List Char) → Prop
  | none => name = coin ∧ '/' ∉ coin
  | some net => name = coin ++ '/' :: net ∧ '/' ∉ coin ∧ '/' ∉ net

/-- The network a name is for: the coin's regression test network if it says nothing else. -/
def network (coin : List Char) : Option (List Char) → List Char
  | none => coin ++ ['r', 'e', 'g', 't', 'e', 's', 't']
  | some net => net

end Verif.Spec.ChainParams
