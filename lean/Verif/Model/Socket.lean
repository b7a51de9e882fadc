import Verif.Base.Bytes
/-!
# Stream sockets: `TCP_Socket` and `SSL_Socket` under the network scheduler

Models `poseidon/src/socket/tcp_socket.cpp`, `poseidon/src/socket/ssl_socket.cpp`, `poseidon/src/socket/abstract_socket.cpp` and
the part of `Network_Scheduler::thread_loop()` (`poseidon/src/static/network_scheduler.cpp`) that serves one socket, as a
transition system over all interleavings of the network thread (thread 0) with any number of other threads.

Each thread has a call stack.  One transition is one access to shared data (the atomic state, the queues, which are only accessed
under the socket's recursive mutex, or one system call).  A `recursive_mutex::unique_lock` lives exactly as long as the
frame that declares it, so the mutex is held by the thread that has a frame with such a lock on its stack; a frame can take
the lock when no other thread holds it.

Simplifications: exceptions from memory allocation (`reserve_after_end`) are left out; log output is left out; an SSL
connection is the same system as a TCP one, with `SSL_write_ex`, `SSL_read_ex` for `send`, `recv` (whose errors
`SSL_ERROR_WANT_*` are `EAGAIN`, and a clean or unexpected end of stream is end of file), and `SSL_shutdown` as an additional event.
-/
namespace Verif.Socket

/-- `Socket_State`.  (poseidon/socket/enums.hpp) -/
inductive State where
  | pending | established | closing | closed
deriving DecidableEq, Repr

/-- The numeric value of the enumerator, with which states are compared. -/
def State.rank : State → Nat
  | .pending => 0 | .established => 1 | .closing => 2 | .closed => 3

/-- The events of `epoll_event::events` that are looked at.  (network_scheduler.cpp:272-297) -/
structure Flags where
  err : Bool
  out : Bool
  in_ : Bool
  hup : Bool
deriving DecidableEq, Repr

/-- What happens, as seen from outside.  `id` identifies a call of `tcp_send` or `ssl_send`. -/
inductive Ev where
  /-- `tcp_send(data)` is called -/
  | call_send (id : Nat) (data : Bytes)
  /-- `tcp_send(data)` returns `true` -/
  | sent (id : Nat) (data : Bytes)
  /-- `tcp_send()` returns `false` -/
  | refused (id : Nat)
  /-- `tcp_shut_down()` returns -/
  | shut (result : Bool)
  /-- the kernel accepts some bytes -/
  | kernel (data : Bytes)
  /-- `send()` fails, not because it would block -/
  | write_error
  /-- `SSL_shutdown` -/
  | notify
  /-- `::shutdown(fd)`, by a graceful shutdown or by `quick_shut_down()` for any other reason -/
  | shutdown (graceful : Bool)
  /-- the kernel delivers some bytes -/
  | received (data : Bytes)
  | on_writeable | on_readable | on_closed
  /-- the callback `do_on_tcp_connected()` begins -/
  | connected
  /-- the callback `do_on_tcp_stream(data, eof)` begins -/
  | stream (data : Bytes) (eof : Bool)
  /-- the stream callback removes the first bytes of its buffer -/
  | consume (n : Nat)
  /-- the stream callback returns (or throws) -/
  | stream_done
  /-- the subscription of the socket is (re-)decided -/
  | subscribed (write_only : Bool) (queued limit : Nat)
deriving DecidableEq, Repr

/-- Program positions.  The suffix of a comment says whether the mutex is held. -/
inductive Frame where
  -- tcp_send()
  | send_check (id : Nat) (d : Bytes)
  | send_lock (id : Nat) (d : Bytes)
  | send_top (id : Nat) (d : Bytes)
  | send_loop (id : Nat) (d w : Bytes)
  | send_fail (id : Nat)
  -- tcp_shut_down()
  | shut_check
  | shut_lock
  | shut_top
  | shut_ok
  | shut_pending
  | shut_pending_x
  | shut_established
  | shut_established_x
  -- quick_shut_down()
  | quick (graceful : Bool)
  | quick_store
  -- do_abstract_socket_on_writeable()
  | wr_top
  | wr_top_x
  | cb_connected
  | wr_loop
  | wr_closing
  | wr_closing_x
  | wr_eof
  -- do_abstract_socket_on_readable()
  | rd_loop
  | cb_stream (eof : Bool)
  /-- return after `quick_shut_down()` in one of the two functions above -/
  | leave
  -- thread_loop()
  | net_lock (fl : Flags) (limit : Nat)
  | net_top (fl : Flags) (limit : Nat)
  | net_in (fl : Flags) (limit : Nat)
  | net_hup (fl : Flags) (limit : Nat)
  | cb_closed
  | net_fin (del : Bool) (limit : Nat)
deriving DecidableEq, Repr

/-- Frames with a `unique_lock` on `m_sched_mutex` that is locked. -/
def Frame.locked : Frame → Bool
  | .send_top .. | .send_loop .. | .send_fail .. | .shut_top | .shut_ok | .shut_pending | .shut_pending_x | .shut_established
  | .shut_established_x | .wr_top | .wr_top_x | .cb_connected | .wr_loop | .wr_closing | .wr_closing_x | .wr_eof | .rd_loop
  | .cb_stream _ | .leave | .net_top .. | .net_in .. | .net_hup .. | .cb_closed | .net_fin .. => true
  | .send_check .. | .send_lock .. | .shut_check | .shut_lock | .quick _ | .quick_store | .net_lock .. => false

/-- Frames in which user code runs. -/
def Frame.callback : Frame → Bool
  | .cb_connected | .cb_stream _ | .cb_closed => true
  | _ => false

structure Sys where
  /-- number of threads; thread 0 is the network thread -/
  threads : Nat
  /-- `m_state` -/
  state : State := .pending
  /-- `m_sched_write_queue` -/
  wq : Bytes := []
  /-- `m_sched_read_queue` -/
  rq : Bytes := []
  /-- call stacks, innermost frame first -/
  stk : Nat → List Frame := fun _ => []
  /-- whether the descriptor is in the epoll set -/
  registered : Bool := true
  /-- an event for this address in `m_event_buf` -/
  event : Option Flags := none
  /-- `m_sched_throttled` -/
  throttled : Bool := false
  /-- whether epoll reports only writability -/
  write_only : Bool := false
  /-- history, latest event first -/
  trace : List Ev := []
  /-- calls of `tcp_send` so far -/
  ids : Nat := 0

/-- What the environment decides in a step: the result of a system call, or what user code does. -/
inductive Choice where
  | none
  /-- `send()` accepts `k` bytes -/
  | io (k : Nat)
  /-- `EAGAIN` -/
  | block
  /-- another error -/
  | fail
  /-- `recv()` delivers data -/
  | data (d : Bytes)
  /-- end of stream -/
  | eof
  /-- the callback returns -/
  | ok
  /-- the callback throws -/
  | throw
  /-- the stream callback removes `k` bytes -/
  | consume (k : Nat)
deriving DecidableEq, Repr

/-- Functions that any thread may call. -/
inductive Call where
  | send (d : Bytes) | shut_down | quick_shut_down
deriving DecidableEq, Repr

inductive Act where
  /-- thread `t` calls a function, either on its own or from a callback -/
  | call (t : Nat) (c : Call)
  /-- thread `t` goes on -/
  | run (t : Nat) (o : Choice)
  /-- `epoll_wait()` reports events of the socket -/
  | poll (fl : Flags)
  /-- the network thread takes the event out of the buffer; `limit` is the throttle size at this time -/
  | take (limit : Nat)
deriving DecidableEq, Repr

namespace Sys

/-- Replace the stack of one thread. -/
def go (s : Sys) (t : Nat) (fs : List Frame) : Sys := { s with stk := fun u => if u = t then fs else s.stk u }

def emit (s : Sys) (e : Ev) : Sys := { s with trace := e :: s.trace }

end Sys

/-- Whether the thread has the mutex. -/
def holds (s : Sys) (t : Nat) : Bool := (s.stk t).any Frame.locked

/-- `lock()` can succeed in thread `t` when no other thread has the mutex. -/
def free (s : Sys) (t : Nat) : Bool := (List.range s.threads).all fun u => u == t || !holds s u

/-- One transition of the innermost frame `f` of thread `t`, above the frames `r`.  Taking the lock is done in `step`. -/
def advance (ssl : Bool) (s : Sys) (t : Nat) (f : Frame) (r : List Frame) (o : Choice) : Option Sys :=
  match f with
  /- `tcp_send`, `ssl_send`.  (tcp_socket.cpp:179-233, ssl_socket.cpp:227-285) -/
  | .send_check id d =>
    if s.state.rank ≥ State.closing.rank then some ((s.go t r).emit (.refused id)) else some (s.go t (.send_lock id d :: r))
  | .send_lock id d => some (s.go t (.send_top id d :: r))
  | .send_top id d =>
    if s.wq = [] ∧ s.state = .established then some (s.go t (.send_loop id d d :: r))
    else some ({ s.go t r with wq := s.wq ++ d }.emit (.sent id d))
  | .send_loop id d w =>
    if w = [] then some ((s.go t r).emit (.sent id d))
    else match o with
      | .io k => if k ≤ w.length then some ((s.go t (.send_loop id d (w.drop k) :: r)).emit (.kernel (w.take k))) else none
      | .block => some ({ s.go t r with wq := s.wq ++ w }.emit (.sent id d))
      | .fail => some ((s.go t (.quick false :: .send_fail id :: r)).emit .write_error)
      | _ => none
  | .send_fail id => some ((s.go t r).emit (.refused id))
  /- `tcp_shut_down`, `ssl_shut_down`, with `do_socket_test_change`.  (tcp_socket.cpp:235-258, ssl_socket.cpp:287-317,
  abstract_socket.hpp:57-63) -/
  | .shut_check =>
    if s.state.rank ≥ State.closing.rank then some ((s.go t r).emit (.shut false)) else some (s.go t (.shut_lock :: r))
  | .shut_lock => some (s.go t (.shut_top :: r))
  | .shut_top =>
    if s.wq = [] then
      let s' := s.go t (.quick true :: .shut_ok :: r)
      some (if ssl then s'.emit .notify else s')
    else some (s.go t (.shut_pending :: r))
  | .shut_ok => some ((s.go t r).emit (.shut true))
  | .shut_pending => some (s.go t ((if s.state = .pending then .shut_pending_x else .shut_established) :: r))
  | .shut_pending_x =>
    if s.state = .pending then some ({ s.go t r with state := .closing }.emit (.shut true)) else some (s.go t (.shut_established :: r))
  | .shut_established =>
    if s.state = .established then some (s.go t (.shut_established_x :: r)) else some ((s.go t r).emit (.shut false))
  | .shut_established_x =>
    if s.state = .established then some ({ s.go t r with state := .closing }.emit (.shut true)) else some ((s.go t r).emit (.shut false))
  /- `quick_shut_down`.  (abstract_socket.cpp:135-142) -/
  | .quick g => some ((s.go t (.quick_store :: r)).emit (.shutdown g))
  | .quick_store => some { s.go t r with state := .closed }
  /- `do_abstract_socket_on_writeable`.  (tcp_socket.cpp:94-149, ssl_socket.cpp:133-197) -/
  | .wr_top => some (s.go t ((if s.state = .pending then .wr_top_x else .wr_loop) :: r))
  | .wr_top_x =>
    if s.state = .pending then some ({ s.go t (.cb_connected :: r) with state := .established }.emit .connected)
    else some (s.go t (.wr_loop :: r))
  | .cb_connected =>
    match o with
    | .ok => some (s.go t (.wr_loop :: r))
    | .throw => some (s.go t (.quick false :: .leave :: r))
    | _ => none
  | .wr_loop =>
    if s.wq = [] then some (s.go t (.wr_closing :: r))
    else match o with
      | .io k =>
        if k ≤ s.wq.length then some ({ s.go t (.wr_loop :: r) with wq := s.wq.drop k }.emit (.kernel (s.wq.take k))) else none
      | .block => some (s.go t r)
      | .fail => some ((s.go t (.quick false :: .leave :: r)).emit .write_error)
      | _ => none
  | .wr_closing => some (s.go t (if s.state = .closing then .wr_closing_x :: r else r))
  | .wr_closing_x => if s.state = .closing then some { s.go t (.wr_eof :: r) with state := .closed } else some (s.go t r)
  | .wr_eof =>
    let s' := if ssl then (s.go t r).emit .notify else s.go t r
    some (s'.emit (.shutdown true))
  /- `do_abstract_socket_on_readable`.  (tcp_socket.cpp:40-92, ssl_socket.cpp:67-131) -/
  | .rd_loop =>
    match o with
    | .data d =>
      if d = [] then none
      else some (({ s.go t (.cb_stream false :: r) with rq := d }.emit (.received d)).emit (.stream d false))
    | .eof => some ({ s.go t (.cb_stream true :: r) with rq := [] }.emit (.stream [] true))
    | .block => some { s.go t r with rq := [] }
    | .fail => some { s.go t (.quick false :: .leave :: r) with rq := [] }
    | _ => none
  | .cb_stream eof =>
    match o with
    | .consume k => if k ≤ s.rq.length then some ({ s with rq := s.rq.drop k }.emit (.consume k)) else none
    | .ok => some ((s.go t (if eof then .quick false :: .leave :: r else .rd_loop :: r)).emit .stream_done)
    | .throw => some ((s.go t (.quick false :: .leave :: r)).emit .stream_done)
    | _ => none
  | .leave => some (s.go t r)
  /- `thread_loop`.  (network_scheduler.cpp:265-324) -/
  | .net_lock fl n => some (s.go t (.net_top fl n :: r))
  | .net_top fl n =>
    if fl.err then some ({ s.go t (.cb_closed :: .net_fin true n :: r) with state := .closed }.emit .on_closed)
    else if fl.out then some ((s.go t (.wr_top :: .net_in fl n :: r)).emit .on_writeable)
    else some (s.go t (.net_in fl n :: r))
  | .net_in fl n =>
    if fl.in_ then some ((s.go t (.rd_loop :: .net_hup fl n :: r)).emit .on_readable) else some (s.go t (.net_hup fl n :: r))
  | .net_hup fl n =>
    if fl.hup then some ({ s.go t (.cb_closed :: .net_fin true n :: r) with state := .closed }.emit .on_closed)
    else some (s.go t (.net_fin false n :: r))
  | .cb_closed =>
    match o with
    | .ok => some (s.go t r)
    | .throw => some (s.go t (.quick false :: r))
    | _ => none
  | .net_fin del n =>
    if del then some { s.go t r with registered := false }
    else
      let should_throttle : Bool := decide (s.wq.length > n)
      let s' := if s.throttled ≠ should_throttle then { s.go t r with throttled := should_throttle, write_only := should_throttle } else s.go t r
      some (s'.emit (.subscribed s'.write_only s.wq.length n))

/-- Frames that wait for the mutex. -/
def Frame.waits : Frame → Bool
  | .send_lock .. | .shut_lock | .net_lock .. => true
  | _ => false

/-- One transition of the system. -/
def step (ssl : Bool) (s : Sys) : Act → Option Sys
  | .call t c =>
    match s.stk t with
    | [] =>
      if t = 0 ∨ t ≥ s.threads then none
      else match c with
        | .send d => some ({ s.go t [.send_check s.ids d] with ids := s.ids + 1 }.emit (.call_send s.ids d))
        | .shut_down => some (s.go t [.shut_check])
        | .quick_shut_down => some (s.go t [.quick false])
    | f :: r =>
      if f.callback then
        match c with
        | .send d => some ({ s.go t (.send_check s.ids d :: f :: r) with ids := s.ids + 1 }.emit (.call_send s.ids d))
        | .shut_down => some (s.go t (.shut_check :: f :: r))
        | .quick_shut_down => some (s.go t (.quick false :: f :: r))
      else none
  | .run t o =>
    match s.stk t with
    | [] => none
    | f :: r => if f.waits && !free s t then none else advance ssl s t f r o
  | .poll fl => if s.stk 0 = [] ∧ s.event = none ∧ s.registered = true then some { s with event := some fl } else none
  | .take n =>
    match s.event with
    | none => none
    | some fl => if s.stk 0 = [] then some { s.go 0 [.net_lock fl n] with event := none } else none

/-- Several transitions. -/
def run (ssl : Bool) (s : Sys) : List Act → Option Sys
  | [] => some s
  | a :: as => (step ssl s a).bind fun s' => run ssl s' as

/-- States that the system can reach from a socket that was just registered; the event buffer may still hold an event of an
object that was destroyed and whose address is now used by this socket. -/
inductive Reachable (ssl : Bool) : Sys → Prop
  | init (n : Nat) (e : Option Flags) : Reachable ssl { threads := n + 1, event := e }
  | step {s s' : Sys} (a : Act) : Reachable ssl s → step ssl s a = some s' → Reachable ssl s'

end Verif.Socket
