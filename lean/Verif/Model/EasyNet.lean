import Verif.Model.Easy
/-!
# The network thread and the sessions of easy servers and clients

`Model/Easy.lean` takes events from nowhere.  Here they come from sessions: the network thread is told by the system that something has happened to a socket, calls the functions of its session,
and these push events (easy_http_server.cpp:127-214 and the same functions in the other files of the directory `easy`).  The network thread does one thing after another, while fibers run in another
thread: what it has not pushed yet is in `todo`.
-/
namespace Verif.EasyNet
open Verif.Easy

variable {M : Type} [DecidableEq M]

/-- What the system tells about a socket; `reason` is the text of `strerror_r()`.  (network_scheduler.cpp:283-307, tcp_socket.cpp:42-93) -/
inductive In where
  | connected
  | read (data : Bytes)
  /-- the end of the stream, which may be seen again until the socket is closed -/
  | eof
  | closed (reason : Bytes)
deriving DecidableEq, Repr

/-- A class of sessions: for each state and each thing that happens, the next state and what is pushed, in that order; `none` tells that the function does not return. -/
structure Class (M : Type) where
  σ : Type
  init : σ
  on : σ → In → Option (σ × List (Event M))

structure Net (C : Class M) where
  easy : Sys M
  node : Nat → C.σ := fun _ => C.init
  /-- what has happened to the socket of each session -/
  input : Nat → List In := fun _ => []
  /-- the session that the network thread is working on, and what it has not pushed yet -/
  who : Nat := 0
  todo : List (Event M) := []

def In.isClosed : In → Bool
  | .closed _ => true
  | _ => false

/-- The socket is established once, before data arrive, and is closed once, at the end: see C31 and C63.  It may be closed before it is established.  Data are not empty: nothing at all means the end of the stream.  (network_scheduler.cpp:283-307, tcp_socket.cpp:124-131) -/
def admits (h : List In) : In → Bool
  | .connected => h.isEmpty
  | .read data => !data.isEmpty && h.contains .connected && !h.any (·.isClosed)
  | .eof => h.contains .connected && !h.any (·.isClosed)
  | .closed _ => !h.any (·.isClosed)

inductive NAct (M : Type) where
  /-- something that is not done by the network thread, or has nothing to do with what happens to sockets -/
  | easy (a : Act M)
  | socket (sid : Nat) (i : In)
  | push (fail : Fail)

/-- Whether an action may be taken while the network thread is working on a session: it has a reference to the session, and pushes events by itself.  (network_scheduler.cpp:274-276) -/
def mayRun {C : Class M} (n : Net C) : Act M → Bool
  | .push _ _ _ => false
  | .free sid => n.todo.isEmpty || n.who != sid
  | _ => true

def step {C : Class M} (n : Net C) : NAct M → Option (Net C)
  | .easy a =>
    if mayRun n a then
      match Easy.step n.easy a with
      | none => none
      | some s => some { n with easy := s }
    else none
  | .socket sid i =>
    if n.todo.isEmpty && n.easy.mem (n.easy.addr sid) == some sid && decide (sid < n.easy.count) && admits (n.input sid) i then
      match C.on (n.node sid) i with
      | none => none
      | some (x, evs) =>
        some { n with node := fun k => if k = sid then x else n.node k, input := fun k => if k = sid then n.input sid ++ [i] else n.input k, who := sid, todo := evs }
    else none
  | .push fail =>
    match n.todo with
    | [] => none
    | e :: r =>
      match Easy.step n.easy (.push n.who e fail) with
      | none => none
      | some s => some { n with easy := s, todo := r }

def run {C : Class M} : Net C → List (NAct M) → Option (Net C)
  | n, [] => some n
  | n, a :: as => match step n a with
    | none => none
    | some n' => run n' as

inductive Reachable {C : Class M} : Net C → Prop
  | init (careful : Bool) : Reachable { easy := { careful := careful } }
  | step {n n' : Net C} {a : NAct M} : Reachable n → step n a = some n' → Reachable n'

end Verif.EasyNet
