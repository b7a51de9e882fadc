import Verif.Base.Bytes
/-!
# Queues of easy UDP sockets and timers

Models `Easy_UDP_Server` (easy/easy_udp_server.cpp), `Easy_UDP_Client` (easy/easy_udp_client.cpp) and `Easy_Timer` (easy/easy_timer.cpp), which have the same code: a socket or timer, in a network or
timer thread, puts packets or ticks into a queue, from which a fiber takes them and calls the callback.  Line numbers are those in easy_udp_server.cpp.

Each call of `start()` creates a queue and a socket, which have the same number here.  A queue is alive as long as someone refers to it, and so is a socket.  `α` is the type of packets.
-/
namespace Verif.EasyQueue

/-- `Packet_Queue`.  (20-30) -/
structure Queue (α : Type) where
  packets : List α := []
  active : Bool := false
deriving DecidableEq, Repr

/-- What a fiber is doing: it is at the start of the loop; it has references to the queue and to the socket; it is in the callback, still with these references; or it has returned. -/
inductive FSt where
  | ready | entered | calling | done
deriving DecidableEq, Repr

def FSt.holds : FSt → Bool
  | .entered => true
  | .calling => true
  | _ => false

/-- `Final_Fiber`.  (32-42) -/
structure Fiber where
  qid : Nat
  st : FSt := .ready
deriving DecidableEq, Repr

/-- What can be seen. -/
inductive Ev (α : Type) where
  | created (qid : Nat)
  /-- A packet arrives, and is put into the queue. -/
  | arrived (qid : Nat) (x : α)
  /-- A packet arrives, but the queue is no more. -/
  | ignored (qid : Nat) (x : α)
  /-- A packet arrives, but there is not enough memory. -/
  | failed (qid : Nat) (x : α)
  /-- A fiber calls the callback. -/
  | called (fid qid : Nat) (x : α)
  | returned (fid qid : Nat)
  /-- `stop()`, or another `start()`, has dropped the queue. -/
  | stopped (qid : Nat)
deriving DecidableEq, Repr

/-- What the thread that calls `start()` and `stop()` is doing: nothing; it has created a queue and a socket; it has assigned the queue; it has reset the queue. -/
inductive User where
  | idle
  | created (qid : Nat)
  | assigned (qid : Nat)
  | stopping
deriving DecidableEq, Repr

structure Sys (α : Type) where
  queues : List (Queue α) := []
  /-- `m_queue` and `m_socket` -/
  ownQ : Option Nat := none
  ownS : Option Nat := none
  user : User := .idle
  /-- `do_on_udp_packet()` is running, with a reference to the queue. -/
  net : Option (Nat × α) := none
  fibs : List Fiber := []
  /-- the fiber that is running -/
  cur : Option Nat := none
  trace : List (Ev α) := []

/-- Whether there is a reference to a queue. -/
def queueAlive (s : Sys α) (q : Nat) : Bool :=
  s.ownQ == some q || s.user == .created q || s.net.any (·.1 == q) || s.fibs.any fun x => x.qid == q && x.st.holds

/-- Whether there is a reference to a socket, besides those that a user may have. -/
def socketAlive (s : Sys α) (q : Nat) : Bool :=
  s.ownS == some q || s.user == .created q || s.user == .assigned q || s.net.any (·.1 == q) || s.fibs.any fun x => x.qid == q && x.st.holds

def setFib (s : Sys α) (f : Nat) (st : FSt) : List Fiber := s.fibs.modify f fun x => { x with st := st }

/-- Where memory runs out in `do_on_udp_packet()`: not at all, before a fiber is launched, or after that. -/
inductive Fail where
  | no | launch | push
deriving DecidableEq, Repr

/-- `do_on_udp_packet()`, after the mutex has been locked.  (105-121) -/
def push (s : Sys α) (q : Nat) (x : α) (fail : Fail) : Option (Sys α) :=
  match s.queues[q]? with
  | none => none
  | some qu =>
    let fibs := if qu.active then s.fibs else s.fibs ++ [{ qid := q }]
    match fail with
    | .launch => if qu.active then none else some { s with net := none, trace := .failed q x :: s.trace }
    | .push => some { s with net := none, fibs := fibs, queues := s.queues.set q { qu with active := true }, trace := .failed q x :: s.trace }
    | .no => some { s with net := none, fibs := fibs, queues := s.queues.set q { packets := qu.packets ++ [x], active := true }, trace := .arrived q x :: s.trace }

/-- The fiber locks the mutex and takes a packet, or returns.  (61-77) -/
def pop (s : Sys α) (f : Nat) (q : Nat) : Option (Sys α) :=
  match s.queues[q]? with
  | none => none
  | some qu =>
    match qu.packets with
    | [] => some { s with fibs := setFib s f .done, cur := none, queues := s.queues.set q { qu with active := false } }
    | x :: r => some { s with fibs := setFib s f .calling, queues := s.queues.set q { qu with packets := r }, trace := .called f q x :: s.trace }

inductive Act (α : Type) where
  | create
  | assign
  | stop
  | packet (q : Nat) (x : α)
  | push (fail : Fail)
  | resume (f : Nat)
  | enter (f : Nat)
  | pop (f : Nat)
  | yield (f : Nat)
  | back (f : Nat)

/-- Drops the queue that the server has, and replaces it. -/
def setOwn (s : Sys α) (q : Option Nat) : Sys α :=
  match s.ownQ with
  | none => { s with ownQ := q }
  | some p => { s with ownQ := q, trace := .stopped p :: s.trace }

def step (s : Sys α) : Act α → Option (Sys α)
  /- `start()`: a queue and a socket are created, and the socket is inserted into the scheduler.  (146-150) -/
  | .create => if s.user = .idle then some { s with queues := s.queues ++ [{}], user := .created s.queues.length, trace := .created s.queues.length :: s.trace } else none
  /- The queue is assigned, then the socket.  (151-153) -/
  | .assign => match s.user with
    | .created q => some { setOwn s (some q) with user := .assigned q }
    | .assigned q => some { s with ownS := some q, user := .idle }
    | _ => none
  /- `stop()`: the queue is reset, then the socket.  (171-178) -/
  | .stop => match s.user with
    | .idle => some { setOwn s none with user := .stopping }
    | .stopping => some { s with ownS := none, user := .idle }
    | _ => none
  /- The network thread calls `do_on_udp_packet()`.  The socket is alive, maybe because the user has a reference to it.  (98-102) -/
  | .packet q x =>
    if s.net.isNone ∧ q < s.queues.length then
      if queueAlive s q then some { s with net := some (q, x) } else some { s with trace := .ignored q x :: s.trace }
    else none
  | .push fail => match s.net with
    | some (q, x) => push s q x fail
    | none => none
  | .resume f =>
    if s.cur = none then
      match s.fibs[f]? with
      | some x => if x.st = .done then none else some { s with cur := some f }
      | none => none
    else none
  /- (48-57) -/
  | .enter f =>
    if s.cur = some f then
      match s.fibs[f]? with
      | some x =>
        if x.st = .ready then
          if queueAlive s x.qid && socketAlive s x.qid then some { s with fibs := setFib s f .entered } else some { s with fibs := setFib s f .done, cur := none }
        else none
      | none => none
    else none
  | .pop f =>
    if s.cur = some f then
      match s.fibs[f]? with
      | some x => if x.st = .entered then pop s f x.qid else none
      | none => none
    else none
  /- The callback waits for something. -/
  | .yield f =>
    if s.cur = some f then
      match s.fibs[f]? with
      | some x => if x.st = .calling then some { s with cur := none } else none
      | none => none
    else none
  /- The callback returns or throws, and local variables are destroyed.  (79-85) -/
  | .back f =>
    if s.cur = some f then
      match s.fibs[f]? with
      | some x => if x.st = .calling then some { s with fibs := setFib s f .ready, trace := .returned f x.qid :: s.trace } else none
      | none => none
    else none

def run : Sys α → List (Act α) → Option (Sys α)
  | s, [] => some s
  | s, a :: as => match step s a with
    | none => none
    | some s' => run s' as

inductive Reachable : Sys α → Prop
  | init : Reachable {}
  | step {s s' : Sys α} {a : Act α} : Reachable s → step s a = some s' → Reachable s'

end Verif.EasyQueue
