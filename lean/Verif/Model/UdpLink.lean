import Verif.Model.Listen
import Verif.Model.EasyQueue
/-!
# Easy UDP servers and clients on a network

Models any number of `Easy_UDP_Server`s and `Easy_UDP_Client`s (`Model/EasyQueue.lean`), the sockets that they own (`Model/Listen.lean`), and a network between them.  Lines are those in
src/socket/udp_socket.cpp and src/easy/easy_udp_server.cpp; those in easy_udp_client.cpp are the same.  The network may lose, repeat and reorder packets, but it does not change them.  Each call
of `start()` makes a new socket, so a socket is a number of an object and a number of a queue of it.
-/
namespace Verif.UdpLink
open Verif.Listen

/-- What the network is asked about. -/
structure Net where
  /-- the address of a socket, as others see it -/
  name : Nat → Nat → Sockaddr
  /-- Whether packets to an address get to a socket.  For multicast groups and unspecified addresses there may be many such addresses, and many such sockets. -/
  reach : Sockaddr → Nat → Nat → Bool

inductive Ev where
  /-- `udp_send()` has been called, and has returned this. -/
  | sent (i q : Nat) (to : Address) (data : Bytes) (ok : Bool)
  /-- The kernel has got a packet for a socket, from an address. -/
  | delivered (i q : Nat) (src : Sockaddr) (data : Bytes)
deriving DecidableEq, Repr

structure World where
  /-- servers and clients -/
  ends : Nat → EasyQueue.Sys (Address × Bytes) := fun _ => {}
  /-- packets that have been sent: the source, the destination and the data -/
  wire : List (Sockaddr × Sockaddr × Bytes) := []
  /-- the receive buffer of a socket in the kernel -/
  rx : Nat → Nat → List (Sockaddr × Bytes) := fun _ _ => []
  /-- the read queue of a socket, and `m_from_addr` -/
  sock : Nat → Nat → Sock := fun _ _ => {}
  log : List Ev := []

def set1 (f : Nat → α) (i : Nat) (x : α) : Nat → α := fun k => if k = i then x else f k

def set2 (f : Nat → Nat → α) (i q : Nat) (x : α) : Nat → Nat → α := fun k p => if k = i ∧ p = q then x else f k p

inductive Act where
  /-- A thread calls `udp_send()`; the kernel may refuse.  (udp_socket.cpp:237-261) -/
  | send (i q : Nat) (closing ok : Bool) (to : Address) (data : Bytes)
  /-- The network brings a packet to a socket. -/
  | deliver (i q k : Nat)
  /-- One iteration in `do_abstract_socket_on_readable()`: a packet is received, and `do_on_udp_packet()` is called, which leaves something in the buffers.  (udp_socket.cpp:58-102) -/
  | recv (i q cap : Nat) (e : Effect)
  /-- A server, a client, one of their fibers or the network thread goes on. -/
  | easy (i : Nat) (a : EasyQueue.Act (Address × Bytes))

/-- Calls of `do_on_udp_packet()` -/
def handAll (s : EasyQueue.Sys (Address × Bytes)) (q : Nat) : List (Address × Bytes) → Option (EasyQueue.Sys (Address × Bytes))
  | [] => some s
  | x :: r => match EasyQueue.step s (.packet q x) with
    | none => none
    | some s => handAll s q r

def step (N : Net) (w : World) : Act → Option World
  /- A port has 16 bits; the kernel refuses packets that are too long. -/
  | .send i q closing ok to data =>
    if q < (w.ends i).queues.length ∧ to.port < 65536 then
      let r := udpSend closing (fun _ d => ok && decide (d.length ≤ 65535)) to data
      some { w with wire := w.wire ++ r.1.toList.map fun p => (N.name i q, p.1, p.2), log := .sent i q to data r.2 :: w.log }
    else none
  | .deliver i q k => match w.wire[k]? with
    | none => none
    | some (src, dst, data) =>
      if N.reach dst i q then some { w with rx := set2 w.rx i q (w.rx i q ++ [(src, data)]), log := .delivered i q src data :: w.log } else none
  /- `reserve_after_end(0xFFFF)` gives no less than that. -/
  | .recv i q cap e => match w.rx i q with
    | [] => none
    | (src, data) :: r =>
      if 65535 ≤ cap then
        match handAll (w.ends i) q (onPackets (fun _ => cap) (fun _ => e) 0 (w.sock i q) [.packet src data]).calls with
        | none => none
        | some s => some { w with ends := set1 w.ends i s, rx := set2 w.rx i q r, sock := set2 w.sock i q { queue := e.queue, from_ := e.from_ } }
      else none
  | .easy i a => match a with
    | .packet _ _ => none
    | a => match EasyQueue.step (w.ends i) a with
      | none => none
      | some s => some { w with ends := set1 w.ends i s }

def run (N : Net) : World → List Act → Option World
  | w, [] => some w
  | w, a :: as => match step N w a with
    | none => none
    | some w' => run N w' as

inductive Reachable (N : Net) : World → Prop
  | init : Reachable N {}
  | step {w w' : World} (a : Act) : Reachable N w → step N w a = some w' → Reachable N w'

end Verif.UdpLink
