import Verif.SwapRun
/-
Both processes of examples/confidential-cross-chain-atomic-swap.py and the pipe between them: `main`, lines 774-860.

The processes take steps in any order.  What one sends the other finds in the order it was sent.  The nodes answer anything;
a call may fail at any time.  The arguments of the program and the interrupt from the keyboard are left out; the miner (lines 830-832) is a part of the nodes.
-/
namespace Verif.SwapPair
open Verif CrossSwap SwapSpend SwapBtc SwapRun

/-- A process: it has ended, or asks something, or begins with the last wish. -/
inductive Proc
  | over (o : Over)
  | asks (q : Query) (next : Ans q → Proc)
  | wishes (next : Proc)

/-- A function with a last wish, and what comes after it. -/
def body : Prog → Option Prog → (End → Option Prog → Proc) → Proc
  | .finish, l, k => k .finished l
  | .raise, l, k => k .raised l
  | .die p, l, k => k (.died p) l
  | .waiting, l, k => k .waiting l
  | .wish p n, _, k => body n (some p) k
  | .ask q n, l, k => .asks q fun a => body (n a) l k

/-- `do_last_wish`, lines 875-883. -/
def lastly : Option Prog → (End → Proc) → Proc
  | none, k => k .finished
  | some p, k => .wishes (body p none fun e _ => k e)

/-- `send('bye!')` and `sys.exit(-1)`, lines 931-932. -/
def leave : Proc := .asks (.send ⟨.bye, []⟩) fun
  | .ok _ => .over .exit
  | .error _ => .over .crash

/-- The process of a participant: `participant`, lines 863-932. -/
def proc (p : Prog) : Proc := body p none fun e l =>
  match e with
  | .finished => .over .done
  | .waiting => .over .waiting
  | .died peacefully => lastly l fun
    | .finished => if peacefully then .over .exit else leave
    | .waiting => .over .waiting
    | .died true => .over .exit
    | _ => leave
  | .raised => lastly l fun
    | .finished => leave
    | .waiting => .over .waiting
    | .died true => .over .exit
    | _ => .over .crash

/-- One process, what has happened to it, and what is in the pipe for it. -/
structure Side where
  proc : Proc
  trace : List Event := []
  inbox : List Msg := []

/-- `p1` and `p2`, lines 816-827. -/
structure State where
  alice : Side
  bob : Side

/-- Both are started, lines 835-836. -/
def State.start (K KB : Kit) (o : AliceOwn) (ob : BobOwn) : State := ⟨⟨proc (SwapRun.alice K o), [], []⟩, ⟨proc (SwapRun.bob KB ob), [], []⟩⟩

/-- What is asked of a node. -/
def ofNode : Query → Bool
  | .send _ => false
  | .recv => false
  | _ => true

/-- How a question is answered when this is in the pipe: what is in the pipe then, and what goes into the other end.
`Pipe(duplex=True)`, line 811. -/
inductive Answers : List Msg → (q : Query) → Ans q → List Msg → List Msg → Prop
  | sent (l : List Msg) (m : Msg) : Answers l (.send m) (.ok ()) l [m]
  | notSent (l : List Msg) (m : Msg) (e : Fault) : Answers l (.send m) (.error e) l []
  | received (l : List Msg) (m : Msg) : Answers (m :: l) .recv (.ok (some m)) l []
  /- nothing came in time -/
  | silence : Answers [] .recv (.ok none) [] []
  | notReceived (l : List Msg) (e : Fault) : Answers l .recv (.error e) l []
  | node (l : List Msg) (q : Query) (a : Ans q) : ofNode q = true → Answers l q a l []

/-- One of the two takes a step; the answers are such as `ok` says. -/
inductive Step (ok : (q : Query) → Ans q → Prop) : State → State → Prop
  | alice (q : Query) (k : Ans q → Proc) (a : Ans q) (t : List Event) (l l' out : List Msg) (b : Side) : Answers l q a l' out → ok q a →
      Step ok ⟨⟨.asks q k, t, l⟩, b⟩ ⟨⟨k a, t ++ [.did q a], l'⟩, { b with inbox := b.inbox ++ out }⟩
  | bob (q : Query) (k : Ans q → Proc) (a : Ans q) (t : List Event) (l l' out : List Msg) (b : Side) : Answers l q a l' out → ok q a →
      Step ok ⟨b, ⟨.asks q k, t, l⟩⟩ ⟨{ b with inbox := b.inbox ++ out }, ⟨k a, t ++ [.did q a], l'⟩⟩
  | aliceWishes (p : Proc) (t : List Event) (l : List Msg) (b : Side) : Step ok ⟨⟨.wishes p, t, l⟩, b⟩ ⟨⟨p, t ++ [.wished], l⟩, b⟩
  | bobWishes (p : Proc) (t : List Event) (l : List Msg) (b : Side) : Step ok ⟨b, ⟨.wishes p, t, l⟩⟩ ⟨b, ⟨p, t ++ [.wished], l⟩⟩

/-- What can be reached. -/
inductive Reaches (ok : (q : Query) → Ans q → Prop) (s : State) : State → Prop
  | here : Reaches ok s s
  | step {s1 s2 : State} : Reaches ok s s1 → Step ok s1 s2 → Reaches ok s s2

end Verif.SwapPair
