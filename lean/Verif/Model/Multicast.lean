import Verif.Model.Ipv6
/-!
# Multicast groups of UDP sockets

Models `UDP_Socket::join_multicast_group()` and `leave_multicast_group()` (udp_socket.cpp:117-232).  What the kernel knows about a socket is
modelled too: `setsockopt()` either fails and changes nothing, or succeeds.  A group can be joined only if its address is a multicast
one and it has not been joined on the same interface, and left only if it has been joined; apart from that any call may fail.
Messages are not modelled.
-/
namespace Verif.Multicast

/-- A group on an interface, as the kernel knows it: whether it is an IPv4 one, its address of 4 or 16 bytes, and the index of the interface. -/
structure Group where
  v4 : Bool
  addr : Bytes
  ifindex : Nat
deriving DecidableEq, Repr

/-- What the kernel knows about a socket. -/
structure Sock where
  groups : List Group := []
  /-- `IP_MULTICAST_TTL` and `IPV6_MULTICAST_HOPS` -/
  ttl : Bool → Nat := fun _ => 1
  /-- `IP_MULTICAST_LOOP` and `IPV6_MULTICAST_LOOP` -/
  loop : Bool → Nat := fun _ => 1

/-- `if_nametoindex()`, which gives zero for names that it does not know. -/
abbrev Interfaces := Bytes → Nat

/-- 224.0.0.0/4 and ff00::/8. -/
def isMulticast (g : Group) : Bool := if g.v4 then g.addr.headD 0 >>> 4 == 14 else g.addr.headD 0 == 0xFF

/-- `setsockopt()` with `IP_ADD_MEMBERSHIP` or `IPV6_ADD_MEMBERSHIP`. -/
def add (k : Sock) (g : Group) (fault : Bool) : Option Sock :=
  if fault ∨ ¬ isMulticast g ∨ g ∈ k.groups then none else some { k with groups := g :: k.groups }

/-- `setsockopt()` with `IP_DROP_MEMBERSHIP` or `IPV6_DROP_MEMBERSHIP`. -/
def dropGroup (k : Sock) (g : Group) (fault : Bool) : Option Sock :=
  if fault ∨ g ∉ k.groups then none else some { k with groups := k.groups.filter (· ≠ g) }

/-- `setsockopt()` with `IP_MULTICAST_TTL` or `IPV6_MULTICAST_HOPS`. -/
def setTtl (k : Sock) (v4 : Bool) (n : Nat) (fault : Bool) : Option Sock :=
  if fault then none else some { k with ttl := fun b => if b = v4 then n else k.ttl b }

/-- `setsockopt()` with `IP_MULTICAST_LOOP` or `IPV6_MULTICAST_LOOP`. -/
def setLoop (k : Sock) (v4 : Bool) (n : Nat) (fault : Bool) : Option Sock :=
  if fault then none else some { k with loop := fun b => if b = v4 then n else k.loop b }

/-- The structure which is passed to `setsockopt()`: the last four bytes of an address in ::ffff:0:0/96, or all of them.
(udp_socket.cpp:129-133, 160-162, 201-205, 214-216) -/
def group (maddr : Bytes) (ifindex : Nat) : Group :=
  if maddr.take 12 = Ipv6.mapped then ⟨true, maddr.drop 12, ifindex⟩ else ⟨false, maddr, ifindex⟩

/-- `join_multicast_group(maddr, ifname, ttl, loopback)`.  The result says whether an exception is thrown.  A name with a null byte is not a C
string (`safe_c_str()`).  (udp_socket.cpp:117-188) -/
def join (ifs : Interfaces) (k : Sock) (maddr ifname : Bytes) (ttl : UInt8) (loopback : Bool) (f1 f2 f3 : Bool) : Sock × Bool :=
  if 0 ∈ ifname ∨ ifs ifname = 0 then (k, true)
  else
    let g := group maddr (ifs ifname)
    match add k g f1 with
    | none => (k, true)
    | some k =>
      match setTtl k g.v4 ttl.toNat f2 with
      | none => (k, true)
      | some k =>
        match setLoop k g.v4 (if loopback then 1 else 0) f3 with
        | none => (k, true)
        | some k => (k, false)

/-- `leave_multicast_group(maddr, ifname)`.  (udp_socket.cpp:190-232) -/
def leave (ifs : Interfaces) (k : Sock) (maddr ifname : Bytes) (f : Bool) : Sock × Bool :=
  if 0 ∈ ifname ∨ ifs ifname = 0 then (k, true)
  else
    match dropGroup k (group maddr (ifs ifname)) f with
    | none => (k, true)
    | some k => (k, false)

/-- A call, and which calls of the system fail without a reason. -/
inductive Call where
  | join (maddr ifname : Bytes) (ttl : UInt8) (loopback : Bool) (f1 f2 f3 : Bool)
  | leave (maddr ifname : Bytes) (f : Bool)
deriving DecidableEq, Repr

def Call.exec (ifs : Interfaces) (k : Sock) : Call → Sock × Bool
  | .join m i t l f1 f2 f3 => Multicast.join ifs k m i t l f1 f2 f3
  | .leave m i f => Multicast.leave ifs k m i f

/-- Calls in order, with whether each of them throws. -/
def run (ifs : Interfaces) (k : Sock) : List Call → Sock × List (Call × Bool)
  | [] => (k, [])
  | c :: cs =>
    let r := run ifs (c.exec ifs k).1 cs
    (r.1, (c, (c.exec ifs k).2) :: r.2)

end Verif.Multicast
