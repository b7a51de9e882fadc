import Verif.Model.Socket
/-!
# The two ends of a stream connection

Two systems of `Model/Socket.lean`, each with its own network thread and any number of other threads, and the two streams of bytes between them.  The streams are not part of this project; they are what
TCP guarantees: what is sent is received in order; the end of a stream is seen after its last byte, when the other end has been shut down, or at
any time when this end has been shut down (`SHUT_RDWR`); and nothing can be sent behind that.
-/
namespace Verif.TcpLink
open Verif.Socket

structure World where
  /-- the two sockets -/
  a : Sys
  b : Sys
  /-- what is on its way from `a` to `b`, and back -/
  ab : Bytes := []
  ba : Bytes := []

/-- The same connection, seen from the other end. -/
def World.swap (w : World) : World := { a := w.b, b := w.a, ab := w.ba, ba := w.ab }

/-- `::shutdown(fd)` has been called. -/
def down (tr : List Ev) : Bool := tr.any fun
  | .shutdown _ => true
  | _ => false

/-- What an event at one end does to the streams: `own` is the history of this end and `peer` that of the other; `inq` is on its way to this end, and `outq` away from it.  `none` tells that TCP does not
allow this event now.  (tcp_socket.cpp:52-66, 117-128, 208-219) -/
def flow (own peer : List Ev) (inq outq : Bytes) : Ev → Option (Bytes × Bytes)
  | .kernel d => if down own then none else some (inq, outq ++ d)
  | .received d => if d.isPrefixOf inq then some (inq.drop d.length, outq) else none
  | .stream _ true => if down own = true ∨ (inq = [] ∧ down peer = true) then some (inq, outq) else none
  | _ => some (inq, outq)

/-- Several events, the latest first. -/
def flows (own peer : List Ev) (inq outq : Bytes) : List Ev → Option (Bytes × Bytes)
  | [] => some (inq, outq)
  | e :: es => match flows own peer inq outq es with
    | none => none
    | some (i, o) => flow (es ++ own) peer i o e

/-- The events that a step has added. -/
def fresh (old new : List Ev) : List Ev := new.take (new.length - old.length)

/-- A step at the end `a`. -/
def stepA (ssl : Bool) (w : World) (x : Act) : Option World :=
  match step ssl w.a x with
  | none => none
  | some s => match flows w.a.trace w.b.trace w.ba w.ab (fresh w.a.trace s.trace) with
    | none => none
    | some (i, o) => some { w with a := s, ab := o, ba := i }

/-- A step at one of the two ends. -/
def step (ssl : Bool) (w : World) (atB : Bool) (x : Act) : Option World :=
  if atB then (stepA ssl w.swap x).map World.swap else stepA ssl w x

def run (ssl : Bool) : World → List (Bool × Act) → Option World
  | w, [] => some w
  | w, x :: xs => match step ssl w x.1 x.2 with
    | none => none
    | some w' => run ssl w' xs

inductive Reachable (ssl : Bool) : World → Prop
  | init (n m : Nat) (e f : Option Flags) : Reachable ssl { a := { threads := n + 1, event := e }, b := { threads := m + 1, event := f } }
  | step {w w' : World} (atB : Bool) (x : Act) : Reachable ssl w → step ssl w atB x = some w' → Reachable ssl w'

end Verif.TcpLink
