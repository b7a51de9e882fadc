import Verif.Base.Bytes
/-!
# Addresses of sockets

Models `Abstract_Socket::local_address()` and `remote_address()` (abstract_socket.cpp:82-133), called by any number of threads at the same
time.  The two functions are the same up to names, except for what an error of the system call means.  The fields that cache the address
(`m_sockname` and `m_sockname_ready`, or `m_peername` and `m_peername_ready`) are shared; each step of a thread accesses one byte or the flag.

Simplifications: bytes are written and read one at a time, the address first, and accesses happen in one order that all threads see, although
C++ leaves concurrent accesses to the same bytes undefined; `races` says when that is the case.  The caller is supposed to read all bytes of
the address that is referred to as a part of the call.  `errno` is not modelled.
-/
namespace Verif.Address

/-- An IPv6 address of 16 bytes, and a port. -/
structure Addr where
  addr : Bytes
  port : UInt16
deriving DecidableEq, Repr

/-- `ipv6_unspecified`.  (ipv6_address.cpp:128) -/
def unspecified : Addr := ⟨List.replicate 16 0, 0⟩

/-- `ipv6_invalid`, whose first twelve bytes are `DOCUMENTATION_`.  (ipv6_address.cpp:125-130) -/
def invalid : Addr := ⟨[32, 1, 13, 184, 243, 151, 214, 23, 74, 162, 130, 224, 44, 95, 237, 217], 0⟩

/-- What `getsockname()` or `getpeername()` says. -/
inductive Answer where
  /-- It fails with `ENOTCONN`. -/
  | notConnected
  /-- It fails with another error. -/
  | failed
  /-- It succeeds with an address which is not an IPv6 one, or is too short. -/
  | other
  /-- It succeeds with an IPv6 address. -/
  | name (a : Addr)
deriving DecidableEq, Repr

/-- What can be seen, in the order of time. -/
inductive Ev where
  | called (t : Nat)
  | asked (t : Nat) (a : Answer)
  | returned (t : Nat) (a : Addr)
deriving DecidableEq, Repr

/-- The bytes of an `IPv6_Address` in memory, with a little-endian port.  (ipv6_address.hpp:13-19) -/
def cells (a : Addr) : Bytes := a.addr ++ [UInt8.ofNat (a.port.toNat % 256), UInt8.ofNat (a.port.toNat / 256)]

/-- The address that bytes in memory stand for. -/
def ofCells (m : Bytes) : Addr := ⟨m.take 16, UInt16.ofNat ((m.getD 16 0).toNat + 256 * (m.getD 17 0).toNat)⟩

/-- Where a thread is. -/
inductive Pc where
  /-- It is not in the function. -/
  | out
  /-- It is to load the flag. -/
  | entered
  /-- It is to call the system. -/
  | asking
  /-- It is to write the byte with an index, of an address. -/
  | writing (a : Addr) (i : Nat)
  /-- It is to read a byte of the cache, having read others. -/
  | reading (m : Bytes)
deriving DecidableEq, Repr

structure State where
  /-- `m_sockname` or `m_peername` -/
  mem : Nat → UInt8 := fun _ => 0
  /-- `m_sockname_ready` or `m_peername_ready` -/
  ready : Bool := false
  /-- The name which the kernel has for the socket, or for its peer. -/
  kernel : Option Addr := none
  pc : Nat → Pc := fun _ => .out
  trace : List Ev := []

inductive Act where
  /-- The socket is bound or connected. -/
  | assign (a : Addr)
  /-- The socket is disconnected. -/
  | drop
  /-- A thread calls the function. -/
  | call (t : Nat)
  /-- A thread goes on.  If it calls the system, the latter may have an error. -/
  | go (t : Nat) (error : Option Answer)
deriving DecidableEq, Repr

/-- What the kernel says if there is no error.  `getsockname()` of a socket that has not been bound gives `[::]:0`; `getpeername()` of a
socket that has not been connected fails with `ENOTCONN`. -/
def honest (remote : Bool) : Option Addr → Answer
  | some a => .name a
  | none => if remote then .notConnected else .name unspecified

def setPc (s : State) (t : Nat) (p : Pc) : Nat → Pc := fun u => if u = t then p else s.pc u

/-- The function returns. -/
def ret (s : State) (t : Nat) (a : Addr) (tr : List Ev) : State :=
  { s with pc := setPc s t .out, trace := s.trace ++ tr ++ [.returned t a] }

/-- What is done with the answer.  (abstract_socket.cpp:95-104 and 122-131) -/
def answered (remote : Bool) (s : State) (t : Nat) (x : Answer) : State :=
  match x with
  /- `return (old_err == ENOTCONN) ? ipv6_unspecified : ipv6_invalid;` in `remote_address()`, and `return ipv6_invalid;` in the other -/
  | .notConnected => ret s t (if remote then unspecified else invalid) [.asked t x]
  | .failed => ret s t invalid [.asked t x]
  /- `if((sa.sin6_family != AF_INET6) || (salen < sizeof(sa))) return ipv6_invalid;` -/
  | .other => ret s t invalid [.asked t x]
  | .name a =>
    /- `if(sa.sin6_port == 0) return ipv6_unspecified;` -/
    if a.port = 0 then ret s t unspecified [.asked t x]
    else { s with pc := setPc s t (.writing a 0), trace := s.trace ++ [.asked t x] }

/-- One step of a thread.  (abstract_socket.cpp:82-107 and 109-133) -/
def go (remote : Bool) (s : State) (t : Nat) (error : Option Answer) : Option State :=
  match s.pc t with
  | .out => none
  /- `if(this->m_sockname_ready.load()) return this->m_sockname;` -/
  | .entered => some { s with pc := setPc s t (if s.ready then .reading [] else .asking) }
  | .asking =>
    match error with
    | some (.name _) => none
    | some x => some (answered remote s t x)
    | none => some (answered remote s t (honest remote s.kernel))
  | .writing a i =>
    /- `set_addr()` and `set_port()` -/
    if i < 18 then some { s with mem := fun j => if j = i then (cells a).getD i 0 else s.mem j, pc := setPc s t (.writing a (i + 1)) }
    /- `this->m_sockname_ready.store(true);`, then `return this->m_sockname;` -/
    else some { s with ready := true, pc := setPc s t (.reading []) }
  | .reading m =>
    if m.length < 18 then some { s with pc := setPc s t (.reading (m ++ [s.mem m.length])) }
    else some (ret s t (ofCells m) [])

def step (remote : Bool) (s : State) : Act → Option State
  | .assign a => some { s with kernel := some a }
  | .drop => some { s with kernel := none }
  | .call t => if s.pc t = .out then some { s with pc := setPc s t .entered, trace := s.trace ++ [.called t] } else none
  | .go t e => go remote s t e

def run (remote : Bool) (s : State) : List Act → Option State
  | [] => some s
  | a :: as => (step remote s a).bind (fun s' => run remote s' as)

/-- The byte that a thread writes next. -/
def writes (s : State) (t : Nat) : Option Nat :=
  match s.pc t with
  | .writing _ i => if i < 18 then some i else none
  | _ => none

/-- The byte that a thread reads next. -/
def reads (s : State) (t : Nat) : Option Nat :=
  match s.pc t with
  | .reading m => if m.length < 18 then some m.length else none
  | _ => none

/-- Two threads are about to access the same byte, and one of them is to write it: what the program does is undefined ([intro.races]). -/
def races (s : State) : Prop :=
  ∃ t u i, t ≠ u ∧ writes s t = some i ∧ (writes s u = some i ∨ reads s u = some i)

end Verif.Address
