import Verif.Base.Bytes
/-!
# Sockets that receive packets or connections

Models `UDP_Socket::do_abstract_socket_on_readable()` and `udp_send()` (socket/udp_socket.cpp), and `TCP_Acceptor::do_abstract_socket_on_readable()` (socket/tcp_acceptor.cpp).  The kernel is a
parameter.
-/
namespace Verif.Listen

/-- `::sockaddr_in6`: an address, and a port in network byte order. -/
structure Sockaddr where
  addr : Bytes
  port : UInt8 × UInt8
deriving DecidableEq, Repr

/-- `IPv6_Address` -/
structure Address where
  addr : Bytes := List.replicate 16 0
  port : Nat := 0
deriving DecidableEq, Repr

/-- `::ntohs()` -/
def ntohs (p : UInt8 × UInt8) : Nat := p.1.toNat * 256 + p.2.toNat
/-- `::htons()` -/
def htons (n : Nat) : UInt8 × UInt8 := (UInt8.ofNat (n / 256), UInt8.ofNat n)

/-- What `::recvfrom()` meets: no packet, an error other than `EAGAIN`, or a packet. -/
inductive Recv where
  | again
  | error
  | packet (sa : Sockaddr) (data : Bytes)
deriving DecidableEq, Repr

/-- The read queue of a socket, and `m_from_addr`. -/
structure Sock where
  queue : Bytes := []
  from_ : Address := {}
deriving DecidableEq, Repr

/-- What `do_on_udp_packet()`, to which both have been moved, leaves in them; and whether it throws an exception. -/
structure Effect where
  queue : Bytes
  from_ : Address
  threw : Bool
deriving DecidableEq, Repr

/-- How a loop ends, after some calls of a callback: it returns, or it goes on. -/
inductive End where
  | returned | looping
deriving DecidableEq, Repr

structure Out (α : Type) where
  calls : List α
  how : End
deriving DecidableEq, Repr

def Out.prepend (a : α) (o : Out α) : Out α := { o with calls := a :: o.calls }

/-- `do_abstract_socket_on_readable()`, given what `::recvfrom()` meets each time; if that ends then the loop has not ended.  `cap n` is the capacity of the queue for the `n`th packet, where
`reserve_after_end(0xFFFF)` has been called; bytes that do not fit are lost.  `cb n` is what the `n`th callback leaves.  (udp_socket.cpp:58-102) -/
def onPackets (cap : Nat → Nat) (cb : Nat → Effect) : Nat → Sock → List Recv → Out (Address × Bytes)
  | _, _, [] => { calls := [], how := .looping }
  | _, _, .again :: _ => { calls := [], how := .returned }
  | n, s, .error :: r => onPackets cap cb n { s with queue := [] } r
  | n, s, .packet sa data :: r =>
    let queue := ([] : Bytes)
    let queue := queue ++ data.take (cap n)
    let from_ := { s.from_ with addr := sa.addr }
    let from_ := { from_ with port := ntohs sa.port }
    let e := cb n
    if e.threw then (onPackets cap cb (n + 1) { queue := e.queue, from_ := e.from_ } r).prepend (from_, queue)
    else (onPackets cap cb (n + 1) { queue := e.queue, from_ := e.from_ } r).prepend (from_, queue)

/-- `udp_send()`, where `closing` is whether the state is `socket_closing` or later, and `send` is whether `::sendto()` succeeds: what is sent, and what is returned.  (udp_socket.cpp:236-261) -/
def udpSend (closing : Bool) (send : Sockaddr → Bytes → Bool) (addr : Address) (data : Bytes) : Option (Sockaddr × Bytes) × Bool :=
  if closing then (none, false)
  else
    let sa : Sockaddr := { addr := addr.addr, port := htons addr.port }
    if send sa data then (some (sa, data), true) else (none, false)

/-- What the kernel has for an acceptor: connections that have not been accepted, and the number of file descriptors that the process may open. -/
structure Kernel where
  backlog : List Sockaddr
  free : Nat
deriving DecidableEq, Repr

/-- What happens to a connection that has been accepted: `do_accept_socket_opt()` returns a socket which is inserted into the scheduler, or it returns a null pointer; or one of these functions throws
an exception. -/
inductive Taken where
  | kept | refused | threw
deriving DecidableEq, Repr

/-- The descriptor of a connection is closed unless there is a socket for it. -/
def Taken.closed : Taken → Bool
  | .kept => false
  | _ => true

/-- The result of `::accept4()`.  A descriptor is allocated first, so if there is none then `EMFILE` is returned, whether there is a connection or not.  (Linux, net/socket.c) -/
def accept4 (k : Kernel) : Option (Option (Sockaddr × Kernel)) :=
  if k.free = 0 then none
  else match k.backlog with
    | [] => some none
    | sa :: r => some (some (sa, { backlog := r, free := k.free - 1 }))

/-- `do_abstract_socket_on_readable()`, for at most a number of iterations.  `cb` is what happens to the `n`th connection.  No other thread opens or closes a descriptor; the socket of
a connection lives on.  Gives what has been passed to the callback, and what became of it.  (tcp_acceptor.cpp:55-110) -/
def onConnections (cb : Nat → Taken) : Nat → Nat → Kernel → Out (Address × Taken) × Kernel
  | 0, _, k => ({ calls := [], how := .looping }, k)
  | fuel + 1, n, k =>
    match accept4 k with
    | none => onConnections cb fuel n k
    | some none => ({ calls := [], how := .returned }, k)
    | some (some (sa, k)) =>
      let from_ : Address := { addr := sa.addr, port := ntohs sa.port }
      let k := if (cb n).closed then { k with free := k.free + 1 } else k
      let o := onConnections cb fuel (n + 1) k
      (o.1.prepend (from_, cb n), o.2)

end Verif.Listen
