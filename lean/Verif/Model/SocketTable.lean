/-!
# The table of sockets of the network scheduler

Models `poseidon/src/static/network_scheduler.cpp`: `do_find_socket_nolock()`, the part of `thread_loop()` that
turns an event into a socket, and `insert_weak()`.

An object is identified by a number that is never used again; `addr` gives its address, which may be the address of an object
that was destroyed before.  A slot of the table is a `weak_ptr`, which is null or belongs to one object.

Simplification: `new_capacity` is a natural number, while in the program it wraps around when there are more than
1431655759 sockets.
-/
namespace Verif.SocketTable

abbrev Obj := Nat

/-- `m_epoll_map_stor` and `m_epoll_map_used`.  (network_scheduler.hpp:23-24) -/
structure Map where
  stor : List (Option Obj) := []
  used : Nat := 0
deriving DecidableEq, Repr

/-- `ratio`, with the arithmetic of `uint32_t`.  (network_scheduler.cpp:39) -/
def ratio (a : Nat) : Nat := (a / 8 % 2 ^ 32) * 0x9E3779B9 % 2 ^ 32

/-- The index of `origin`.  (network_scheduler.cpp:41) -/
def origin (dist a : Nat) : Nat := (dist * ratio a) >>> 32

/-- The order in which the two loops visit the slots.  (network_scheduler.cpp:51-57) -/
def order (dist a : Nat) : List Nat :=
  (List.range' (origin dist a) (dist - origin dist a)) ++ List.range (origin dist a)

/-- Whether a slot is null or has this address.  (network_scheduler.cpp:52, 56) -/
def fits (addr : Obj → Nat) (a : Nat) : Option Obj → Bool
  | none => true
  | some o => addr o == a

/-- `do_find_socket_nolock()`: the index of the slot; `none` when an assertion fails or the end of the function is reached.
(network_scheduler.cpp:25-60) -/
def find (addr : Obj → Nat) (m : Map) (a : Nat) : Option Nat :=
  if m.stor.length = 0 ∨ m.used > m.stor.length / 2 then none
  else (order m.stor.length a).find? fun i => fits addr a (m.stor.getD i none)

/-- Store into the slot that was found, and count it.  (network_scheduler.cpp:358-359, 374-375) -/
def put (addr : Obj → Nat) (m : Map) (o : Obj) : Option Map :=
  (find addr m (addr o)).map fun i => { stor := m.stor.set i (some o), used := m.used + 1 }

/-- The loop that moves sockets into the new map.  (network_scheduler.cpp:352-360) -/
def move (addr : Obj → Nat) (keep : Obj → Bool) : List (Option Obj) → Map → Option Map
  | [], m => some m
  | none :: t, m => move addr keep t m
  | some o :: t, m => if keep o then (put addr m o).bind (move addr keep t) else move addr keep t m

/-- `new_capacity`.  (network_scheduler.cpp:343-346) -/
def capacity (count : Obj → Bool) (stor : List (Option Obj)) : Nat :=
  17 + 3 * stor.countP fun x => x.any count

/-- `insert_weak()` after the socket has passed `epoll_ctl()`; that call does not depend on the map.  Sockets may be destroyed by other threads
in the meantime, so the two loops may see different sets of sockets alive, `count` and `keep`.  (network_scheduler.cpp:339-375) -/
def insert (addr : Obj → Nat) (count keep : Obj → Bool) (m : Map) (o : Obj) : Option Map :=
  if m.used ≥ m.stor.length / 2 then
    (move addr keep m.stor { stor := List.replicate (capacity count m.stor) none, used := 0 }).bind fun m' => put addr m' o
  else put addr m o

/-- What `.lock()` gives for the slot of an event.  (network_scheduler.cpp:255-260).  The outer `none` is a failure as in `find`. -/
def lookup (addr : Obj → Nat) (alive : Obj → Bool) (m : Map) (a : Nat) : Option (Option Obj) :=
  if m.stor.length = 0 then some none
  else (find addr m a).map fun i => (m.stor.getD i none).filter alive

/-- The scheduler, the objects that exist, and the objects that have been registered. -/
structure Sys where
  addr : Obj → Nat
  alive : Obj → Bool := fun _ => false
  registered : Obj → Bool := fun _ => false
  map : Map := {}
  /-- `m_event_buf`: objects for which `epoll_wait()` reported an event -/
  events : List Obj := []
  /-- a failed assertion or undefined behaviour -/
  failed : Bool := false
  /-- deliveries, latest first: the object for which the event was reported, and the one which got it -/
  delivered : List (Obj × Option Obj) := []

inductive Act where
  /-- a socket is created -/
  | create (o : Obj)
  /-- the last reference is dropped -/
  | destroy (o : Obj)
  /-- `insert_weak()`, with the sockets that its loops see alive -/
  | insert (o : Obj) (count keep : Obj → Bool)
  /-- `epoll_wait()` reports an event for a socket -/
  | poll (o : Obj)
  /-- `thread_loop()` takes an event -/
  | deliver

/-- One step.  The conditions are those that memory allocation, reference counts and epoll guarantee: an object that is created has
not existed before and has an address not in use; a socket that is registered or for which an event is reported is alive; `count` and `keep`
contain all sockets that are alive afterwards, and what is no longer alive for `count` is not for `keep`. -/
inductive Step : Sys → Act → Sys → Prop
  | create {s : Sys} {o : Obj} (fresh : s.alive o = false) (new : s.registered o = false) (addr : ∀ p, s.alive p = true → s.addr p ≠ s.addr o) :
      Step s (.create o) { s with alive := fun x => if x = o then true else s.alive x }
  | destroy {s : Sys} {o : Obj} (h : s.alive o = true) : Step s (.destroy o) { s with alive := fun x => if x = o then false else s.alive x }
  | insert {s : Sys} {o : Obj} {count keep : Obj → Bool} {m : Map} (h : s.alive o = true) (hk : ∀ x, s.alive x = true → keep x = true)
      (hc : ∀ x, keep x = true → count x = true) (hm : SocketTable.insert s.addr count keep s.map o = some m) :
      Step s (.insert o count keep) { s with map := m, registered := fun x => if x = o then true else s.registered x }
  | insert_fail {s : Sys} {o : Obj} {count keep : Obj → Bool} (h : s.alive o = true) (hk : ∀ x, s.alive x = true → keep x = true)
      (hc : ∀ x, keep x = true → count x = true) (hm : SocketTable.insert s.addr count keep s.map o = none) :
      Step s (.insert o count keep) { s with failed := true }
  | poll {s : Sys} {o : Obj} (h : s.alive o = true) (hr : s.registered o = true) : Step s (.poll o) { s with events := s.events ++ [o] }
  | deliver {s : Sys} {o : Obj} {t : List Obj} {r : Option Obj} (h : s.events = o :: t) (hl : lookup s.addr s.alive s.map (s.addr o) = some r) :
      Step s .deliver { s with events := t, delivered := (o, r) :: s.delivered }
  | deliver_fail {s : Sys} {o : Obj} {t : List Obj} (h : s.events = o :: t) (hl : lookup s.addr s.alive s.map (s.addr o) = none) :
      Step s .deliver { s with failed := true }

/-- States reachable from an empty scheduler. -/
inductive Reachable : Sys → Prop
  | init (addr : Obj → Nat) : Reachable { addr := addr }
  | step {s s' : Sys} (a : Act) : Reachable s → Step s a s' → Reachable s'

end Verif.SocketTable
