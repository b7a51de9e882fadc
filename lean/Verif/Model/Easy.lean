import Verif.Base.Bytes
/-!
# Sessions of easy servers and clients

Models the table of sessions, the fibers and the sockets of `Easy_TCP_Server` (easy/easy_tcp_server.cpp).  The other servers and clients have the same code, but for the types of events:
easy_ssl_server.cpp, easy_http_server.cpp, easy_https_server.cpp, easy_ws_server.cpp, easy_wss_server.cpp, easy_hws_server.cpp, easy_hwss_server.cpp, and the clients of the same names.
Line numbers are those in easy_tcp_server.cpp.

A session is an object in memory at some address.  Objects are numbered; addresses of objects that have been destroyed may be used again.  An object is destroyed when there is no more
reference to it, or some time later, as the user may have one.  All fibers run in one thread, and are suspended only by callbacks; the network thread runs at the same time.
-/
namespace Verif.Easy

variable {M : Type} [DecidableEq M]

/-- The type of an event: closure, data of a stream, or something else. -/
inductive Ty where
  | other | data | close
deriving DecidableEq, Repr

structure Event (M : Type) where
  ty : Ty
  /-- `event.status != http_status_null`: a bad request.  The type of such an event has not been initialized.  (easy_http_server.cpp:193-202) -/
  error : Bool := false
  data : Bytes := []
  /-- What comes with it: a request, a response, or a message.  (easy_http_server.cpp:16-24) -/
  msg : Option M := none
deriving DecidableEq, Repr

/-- `Event_Queue`, where `sid` is the object that `socket` refers to.  (23-35) -/
structure Queue (M : Type) where
  sid : Nat
  events : List (Event M) := []
  active : Bool := false
  /-- `data_stream` -/
  stream : Bytes := []
deriving DecidableEq, Repr

/-- What a fiber is doing: it is at the start of the loop, in a callback for an event of an object, or it has returned. -/
inductive FSt (M : Type) where
  | ready
  | calling (sid : Nat) (ev : Event M)
  | done
deriving DecidableEq, Repr

/-- `Final_Fiber`: `addr` is `m_refptr`.  (43-54) -/
structure Fiber (M : Type) where
  addr : Nat
  st : FSt M := .ready
deriving DecidableEq, Repr

/-- What can be seen. -/
inductive Ev (M : Type) where
  | accepted (sid : Nat)
  /-- Something happens on a socket, and has been noted. -/
  | arrived (sid : Nat) (ev : Event M)
  /-- Something happens, but the server has been stopped, or the session has been closed. -/
  | ignored (sid : Nat) (ev : Event M)
  /-- Something happens, but there is not enough memory. -/
  | failed (sid : Nat) (ev : Event M)
  /-- A fiber calls the callback, with some data. -/
  | called (fid sid : Nat) (ev : Event M) (data : Bytes)
  /-- A fiber responds to a bad request. -/
  | responded (fid sid : Nat) (ev : Event M)
  /-- The callback, or the response, returns; it has consumed some data. -/
  | returned (fid sid : Nat) (consumed : Bytes)
  | stopped
deriving DecidableEq, Repr

structure Sys (M : Type) where
  /-- If this is true, then no object is created at an address for which there is a fiber that has not returned. -/
  careful : Bool
  /-- the object at an address -/
  mem : Nat → Option Nat := fun _ => none
  /-- the address of an object -/
  addr : Nat → Nat := fun _ => 0
  count : Nat := 0
  /-- `session_map` -/
  table : Nat → Option (Queue M) := fun _ => none
  /-- The server has no reference to the table any more. -/
  stopped : Bool := false
  fibs : List (Fiber M) := []
  /-- the fiber that is running -/
  cur : Option Nat := none
  trace : List (Ev M) := []

/-- Whether a fiber refers to the table and to an object, as local variables. -/
def FSt.isCalling : FSt M → Bool
  | .calling _ _ => true
  | _ => false

/-- Whether the table exists: `m_wsessions.lock()`. -/
def alive (s : Sys M) : Bool := !s.stopped || s.fibs.any (·.st.isCalling)

def setFib (s : Sys M) (f : Nat) (st : FSt M) : List (Fiber M) := s.fibs.modify f fun x => { x with st := st }

def setTable (s : Sys M) (a : Nat) (q : Option (Queue M)) : Nat → Option (Queue M) := fun x => if x = a then q else s.table x

/-- Where memory runs out in `do_push_event_common()`: not at all, before a fiber is launched, or after that. -/
inductive Fail where
  | no | launch | push
deriving DecidableEq, Repr

/-- `do_push_event_common()`.  (127-156) -/
def push (s : Sys M) (sid : Nat) (ev : Event M) (fail : Fail) : Sys M :=
  if !alive s then { s with trace := .ignored sid ev :: s.trace }
  else match s.table (s.addr sid) with
    | none => { s with trace := .ignored sid ev :: s.trace }
    | some q =>
      let fibs := if q.active then s.fibs else s.fibs ++ [{ addr := s.addr sid }]
      match fail with
      | .launch => { s with table := setTable s (s.addr sid) none, trace := .failed sid ev :: s.trace }
      | .push => { s with table := setTable s (s.addr sid) none, fibs := fibs, trace := .failed sid ev :: s.trace }
      | .no =>
        { s with fibs := fibs, table := setTable s (s.addr sid) (some { q with events := q.events ++ [ev], active := true }), trace := .arrived sid ev :: s.trace }

/-- What is passed to the callback.  (103-108) -/
def view (q : Queue M) (ev : Event M) : Bytes := if ev.ty = .data then q.stream ++ ev.data else ev.data

/-- One iteration of the loop of a fiber, up to the callback.  (60-108) -/
def loop (s : Sys M) (f : Nat) (a : Nat) : Sys M :=
  let quit := { s with fibs := setFib s f .done, cur := none }
  if !alive s then quit
  else match s.table a with
    | none => quit
    | some q =>
      match q.events with
      | [] => { quit with table := setTable s a (some { q with active := false }) }
      | ev :: r =>
        { s with
          fibs := setFib s f (.calling q.sid ev)
          table := setTable s a (if ev.ty = .close then none else some { q with events := r, stream := if ev.ty = .data then q.stream ++ ev.data else q.stream })
          trace := (if ev.error then .responded f q.sid ev else .called f q.sid ev (view q ev)) :: s.trace }

/-- The callback returns, or throws, after having consumed `n` bytes of data.  Then local variables are destroyed; if the server has been stopped and there is no other reference to
the table, so is the table.  (107-117) -/
def back (s : Sys M) (f : Nat) (sid : Nat) (ev : Event M) (n : Nat) : Sys M :=
  let fibs := setFib s f .ready
  let a := s.addr sid
  let gone := s.stopped && !fibs.any (·.st.isCalling)
  match s.table a with
  | some q =>
    if ev.ty = .data ∧ q.sid = sid then
      { s with
        fibs := fibs, table := if gone then fun _ => none else setTable s a (some { q with stream := q.stream.drop n })
        trace := .returned f sid (q.stream.take n) :: s.trace }
    else { s with fibs := fibs, table := if gone then fun _ => none else s.table, trace := .returned f sid [] :: s.trace }
  | none => { s with fibs := fibs, table := if gone then fun _ => none else s.table, trace := .returned f sid [] :: s.trace }

inductive Act (M : Type) where
  | accept (a : Nat)
  | push (sid : Nat) (ev : Event M) (fail : Fail)
  | free (sid : Nat)
  | stop
  | resume (f : Nat)
  | loop (f : Nat)
  | yield (f : Nat)
  | back (f : Nat) (n : Nat)

def step (s : Sys M) : Act M → Option (Sys M)
  /- An object is created and put into the table.  (201-219; easy_tcp_client.cpp:238-250) -/
  | .accept a =>
    if !alive s ∨ s.mem a ≠ none ∨ s.table a ≠ none then none
    else if s.careful ∧ s.fibs.any (fun x => x.addr = a ∧ x.st ≠ .done) then none
    else
      some { s with
        mem := fun x => if x = a then some s.count else s.mem x
        addr := fun x => if x = s.count then a else s.addr x
        count := s.count + 1
        table := setTable s a (some { sid := s.count })
        trace := .accepted s.count :: s.trace }
  /- The network thread has a reference to the object.  (158-191) -/
  | .push sid ev fail => if s.mem (s.addr sid) = some sid ∧ sid < s.count then some (push s sid ev fail) else none
  | .free sid =>
    if s.mem (s.addr sid) = some sid ∧ sid < s.count ∧ (s.table (s.addr sid)).all (·.sid ≠ sid) ∧ s.fibs.all (fun x => match x.st with | .calling i _ => decide (i ≠ sid) | _ => true) then
      some { s with mem := fun x => if x = s.addr sid then none else s.mem x }
    else none
  /- `m_sessions = nullptr`.  (286-294) -/
  | .stop => some { s with stopped := true, table := if s.fibs.any (·.st.isCalling) then s.table else fun _ => none, trace := .stopped :: s.trace }
  | .resume f =>
    if s.cur = none then
      match s.fibs[f]? with
      | some x => if x.st = .done then none else some { s with cur := some f }
      | none => none
    else none
  | .loop f =>
    if s.cur = some f then
      match s.fibs[f]? with
      | some x => if x.st = .ready then some (loop s f x.addr) else none
      | none => none
    else none
  | .yield f =>
    if s.cur = some f then
      match s.fibs[f]? with
      | some x => if x.st.isCalling then some { s with cur := none } else none
      | none => none
    else none
  | .back f n =>
    if s.cur = some f then
      match s.fibs[f]? with
      | some x => match x.st with
        | .calling sid ev => some (back s f sid ev n)
        | _ => none
      | none => none
    else none

def run : Sys M → List (Act M) → Option (Sys M)
  | s, [] => some s
  | s, a :: as => match step s a with
    | none => none
    | some s' => run s' as

inductive Reachable : Sys M → Prop
  | init (careful : Bool) : Reachable { careful := careful }
  | step {s s' : Sys M} {a : Act M} : Reachable s → step s a = some s' → Reachable s'

end Verif.Easy
