import Verif.AssetRun
/-
Both processes of examples/asset-atomic-swap.py and the pipe between them: `main`, lines 599-673.

The processes take steps in any order.  What one sends the other finds in the order it was sent.  The node answers anything;
a call may fail at any time.  The arguments of the program and the interrupt from the keyboard are left out.
-/
namespace Verif.AssetPair
open Verif AssetSwap AssetRun

/-- A process: it has ended, or asks something. -/
inductive Proc
  | over (o : Over)
  | asks (q : Query) (next : Ans q → Proc)

/-- The process of a participant: the function, and the handler of exceptions, lines 712-724. -/
def proc : Prog → Proc
  | .finish => .over .done
  | .exit true => .over .exit0
  | .exit false => .over .exit
  | .raise => .asks (.send ⟨.bye, .nothing⟩) fun
    | .ok _ => .over .exit
    | .error _ => .over .crash
  | .ask q k => .asks q fun a => proc (k a)

/-- One process, what has happened to it, and what is in the pipe for it. -/
structure Side where
  proc : Proc
  trace : List Event := []
  inbox : List Msg := []

/-- `p1` and `p2`, lines 644-653. -/
structure State where
  alice : Side
  bob : Side

/-- Both are started, lines 656-657. -/
def State.start (K KB : Kit) : State := ⟨⟨proc (AssetRun.alice K), [], []⟩, ⟨proc (AssetRun.bob KB), [], []⟩⟩

/-- What is asked of the node. -/
def ofNode : Query → Bool
  | .send _ => false
  | .recv _ => false
  | _ => true

/-- How a question is answered when this is in the pipe: what is in the pipe then, and what goes into the other end.
`Pipe(duplex=True)`, line 640. -/
inductive Answers : List Msg → (q : Query) → Ans q → List Msg → List Msg → Prop
  | sent (l : List Msg) (m : Msg) : Answers l (.send m) (.ok ()) l [m]
  | notSent (l : List Msg) (m : Msg) (e : Fault) : Answers l (.send m) (.error e) l []
  | received (l : List Msg) (n : Nat) (m : Msg) : Answers (m :: l) (.recv n) (.ok (some m)) l []
  /- nothing came in time -/
  | silence (n : Nat) : Answers [] (.recv n) (.ok none) [] []
  | notReceived (l : List Msg) (n : Nat) (e : Fault) : Answers l (.recv n) (.error e) l []
  | node (l : List Msg) (q : Query) (a : Ans q) : ofNode q = true → Answers l q a l []

/-- One of the two takes a step; the answers are such as `ok` says. -/
inductive Step (ok : (q : Query) → Ans q → Prop) : State → State → Prop
  | alice (q : Query) (k : Ans q → Proc) (a : Ans q) (t : List Event) (l l' out : List Msg) (b : Side) : Answers l q a l' out → ok q a →
      Step ok ⟨⟨.asks q k, t, l⟩, b⟩ ⟨⟨k a, t ++ [.did q a], l'⟩, { b with inbox := b.inbox ++ out }⟩
  | bob (q : Query) (k : Ans q → Proc) (a : Ans q) (t : List Event) (l l' out : List Msg) (b : Side) : Answers l q a l' out → ok q a →
      Step ok ⟨b, ⟨.asks q k, t, l⟩⟩ ⟨{ b with inbox := b.inbox ++ out }, ⟨k a, t ++ [.did q a], l'⟩⟩

/-- What can be reached. -/
inductive Reaches (ok : (q : Query) → Ans q → Prop) (s : State) : State → Prop
  | here : Reaches ok s s
  | step {s1 s2 : State} : Reaches ok s s1 → Step ok s1 s2 → Reaches ok s s2

end Verif.AssetPair
