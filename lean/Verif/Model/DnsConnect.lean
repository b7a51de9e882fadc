import Verif.Base.Bytes
/-!
# Connecting to a host

Models `DNS_Connect_Task` (dns_connect_task.cpp:13-102), which clients use to connect their sockets to a host that is given by name.  `getaddrinfo()` and `connect()` are given by an environment.
The resolver, and the number of addresses, are arbitrary.
-/
namespace Verif.DnsConnect

/-- `struct addrinfo`, with a 4-byte or a 16-byte address -/
inductive Addr where
  | v4 (a : Bytes)
  | v6 (a : Bytes)
  | other
deriving DecidableEq, Repr

/-- How `connect()` ends; the socket is not blocking. -/
inductive Conn where
  | connected
  | inProgress
  | failed
deriving DecidableEq, Repr

structure Env where
  /-- `getaddrinfo()`; `none` if it fails -/
  resolve : Bytes → Option (List Addr)
  /-- The `n`-th call of `connect()` with this address and port -/
  connect : Nat → Bytes → Nat → Conn
  /-- The socket still exists when the host has been resolved. -/
  alive : Bool := true
  /-- `insert_weak()` does not throw. -/
  insert : Bool := true

structure Result where
  /-- The calls of `connect()`, with 16-byte addresses -/
  attempts : List (Bytes × Nat) := []
  /-- The network thread watches the socket. -/
  watched : Bool := false
  /-- The socket has been shut down. -/
  shut : Bool := false
deriving DecidableEq, Repr

/-- `ipv4_unspecified`, the first twelve bytes (ipv6_address.cpp) -/
def v4Prefix : Bytes := [0, 0, 0, 0, 0, 0, 0, 0, 0, 0, 0xFF, 0xFF]

/-- `success`, dns_connect_task.cpp:66-69, 76-79 -/
def ok (c : Conn) : Bool := c == .connected || c == .inProgress

/-- The loop over addresses; the result tells whether a call of `connect()` has succeeded.  (dns_connect_task.cpp:57-80) -/
def tryAll (env : Env) (port : Nat) (n : Nat) : List Addr → List (Bytes × Nat) × Bool
  | [] => ([], false)
  | .v4 a :: t =>
    if ok (env.connect n (v4Prefix ++ a) port) then ([(v4Prefix ++ a, port)], true)
    else let r := tryAll env port (n + 1) t; ((v4Prefix ++ a, port) :: r.1, r.2)
  | .v6 a :: t =>
    if ok (env.connect n a port) then ([(a, port)], true)
    else let r := tryAll env port (n + 1) t; ((a, port) :: r.1, r.2)
  | .other :: t => tryAll env port n t

/-- `do_on_abstract_task_execute()`.  (dns_connect_task.cpp:31-102) -/
def execute (env : Env) (host : Bytes) (port : Nat) : Result :=
  match env.resolve host with
  | none => { shut := env.alive }
  | some addrs =>
    if !env.alive then {}
    else
      let r := tryAll env port 0 addrs
      if r.2 then
        if env.insert then { attempts := r.1, watched := true }
        else { attempts := r.1, shut := true }
      else { attempts := r.1, shut := true }

end Verif.DnsConnect
