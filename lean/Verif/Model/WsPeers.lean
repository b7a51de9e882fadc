import Verif.Model.WsSession
import Verif.Model.Zlib
/-!
# Threads that send messages to the other end of a WebSocket connection

Models `ws_send()` and `ws_shut_down()` of `WS_Server_Session` and `WS_Client_Session` when they are called by many threads at a time (socket/ws_server_session.cpp:258-389,
ws_client_session.cpp:228-362), with the mutex of `WebSocket_Deflator` (http/websocket_deflator.hpp:36-43) and the check at the beginning of `tcp_send()` (socket/tcp_socket.cpp:181-235).  Each
action below is what one thread does between two points where it may be interrupted.

What `tcp_send()` accepts is on the wire, as a whole, in the order in which it has been accepted, because of the mutex of the socket; how it gets there is modelled in `Verif/Model/Socket.lean`.
The receiver is the session of `Verif/Model/WsSession.lean`, whose decompressor is the one of `Verif/Model/Zlib.lean`.
-/
namespace Verif.WsPeers
open Verif.Ws Verif.Zlib

/-- What a session knows after its handshake: whether it is a server; whether `m_pmce_opt` is not null; `pmce_send_no_context_takeover()`; zlib, and how much space a buffer reserves. -/
structure Sender (S : Type) where
  server : Bool
  pmce : Bool
  noCtx : Bool
  zs : Zlib S
  grow : Bytes → Nat → Nat

/-- Where a thread is: outside of all functions; before `tcp_send()` of a frame; after it has found the socket open; after the frame has been accepted.  `close` is whether this is `ws_shut_down()`. -/
inductive Pc
  | idle
  | ready (frame : Bytes) (close : Bool)
  | checked (frame : Bytes) (close : Bool)
  | accepted (close : Bool)
deriving DecidableEq, Repr

/-- Calls that threads make, and their ends.  The flag tells whether the frame has been accepted by the socket.  A call that throws has not been accepted. -/
inductive Event
  | send (thread : Nat) (opcode : Nat) (data : Bytes)
  | shutDown (thread : Nat) (status : Int) (reason : Bytes)
  | returned (thread : Nat) (ok : Bool)
deriving DecidableEq, Repr

/-- The compressor; the thread that has locked its mutex; whether `socket_state() >= socket_closing`; where each thread is; frames that have been accepted; and what has happened so far. -/
structure Peer (S : Type) where
  strm : S
  owner : Option Nat := none
  closing : Bool := false
  pc : Nat → Pc := fun _ => .idle
  wire : List Bytes := []
  history : List Event := []

/-- `random` is the result of `::random()`. -/
inductive Act
  /-- `ws_send()` is called, and goes on until `tcp_send()`; it waits if the mutex is needed and is locked -/
  | send (thread : Nat) (opcode : Nat) (data : Bytes) (random : Nat)
  /-- `ws_shut_down()` is called, and goes on until `tcp_send()` -/
  | shutDown (thread : Nat) (status : Int) (reason : Bytes) (random : Nat)
  /-- `if(this->socket_state() >= socket_closing) return false;` -/
  | check (thread : Nat)
  /-- the frame is sent, or is appended to the queue -/
  | put (thread : Nat)
  /-- `::send()` fails, and the socket is shut down -/
  | fail (thread : Nat)
  /-- the function returns; `ws_shut_down()` shuts the socket down first -/
  | ret (thread : Nat)
  /-- the socket is shut down for any other reason -/
  | closing
deriving DecidableEq, Repr

def setPc (f : Nat → Pc) (t : Nat) (p : Pc) : Nat → Pc := fun u => if u = t then p else f u

/-- The end of a function; `lock` goes out of scope.  (ws_server_session.cpp:303) -/
def Peer.leave (σ : Peer S) (t : Nat) (ok : Bool) : Peer S :=
  { σ with owner := if σ.owner = some t then none else σ.owner, pc := setPc σ.pc t .idle, history := σ.history ++ [.returned t ok] }

/-- `ws_send()` up to `tcp_send()`.  None if compression does not end within `n` iterations.  When compression throws an exception, the mutex is unlocked before the message is sent as is.
Simplified: memory is always sufficient.  (ws_server_session.cpp:279-347, ws_client_session.cpp:251-320) -/
def Peer.send (c : Sender S) (n : Nat) (σ : Peer S) (t opcode : Nat) (data : Bytes) (random : Nat) : Option (Peer S) :=
  let called := σ.history ++ [.send t opcode data]
  if (opcode = ws_TEXT ∨ opcode = ws_BINARY) ∧ c.pmce = true ∧ data.length ≥ (if c.noCtx then 1024 else 64) then
    if σ.owner.isSome then some σ
    else match sendMessage c.zs c.grow c.noCtx n σ.strm data with
      | none => none
      | some x =>
        let frame := raw_frame c.server random ((if x.compressed then 0b11000000 else 0b10000000) ||| opcode) x.payload
        some { σ with strm := x.strm, owner := if x.compressed then some t else none, pc := setPc σ.pc t (.ready frame false), history := called }
  else match ws_send_frame c.server false c.noCtx random (fun _ => none) opcode data with
    | .ok frame => some { σ with pc := setPc σ.pc t (.ready frame false), history := called }
    | .error _ => some (({ σ with history := called } : Peer S).leave t false)

/-- `ws_shut_down()` up to `tcp_send()`.  If the socket is being closed, it just calls `tcp_shut_down()`, which does nothing.  (ws_server_session.cpp:349-389, ws_client_session.cpp:322-362) -/
def Peer.shutDown (c : Sender S) (σ : Peer S) (t : Nat) (status : Int) (reason : Bytes) (random : Nat) : Peer S :=
  let called := σ.history ++ [.shutDown t status reason]
  if σ.closing then ({ σ with history := called } : Peer S).leave t false
  else
    let status := if 1000 ≤ status ∧ status ≤ 4999 then status.toNat else 1008
    { σ with pc := setPc σ.pc t (.ready (raw_frame c.server random (0b10000000 ||| 8) (close_payload status reason)) true), history := called }

/-- One action.  An action of a thread that is elsewhere has no effect. -/
def Peer.step (c : Sender S) (n : Nat) (σ : Peer S) : Act → Option (Peer S)
  | .send t opcode data random => if σ.pc t = .idle then σ.send c n t opcode data random else some σ
  | .shutDown t status reason random => if σ.pc t = .idle then some (σ.shutDown c t status reason random) else some σ
  | .check t => match σ.pc t with
    -- (tcp_socket.cpp:183-184) `ws_shut_down()` then calls `tcp_shut_down()`, which does nothing
    | .ready f cl => some (if σ.closing then σ.leave t false else { σ with pc := setPc σ.pc t (.checked f cl) })
    | _ => some σ
  | .put t => match σ.pc t with
    -- (tcp_socket.cpp:186-207, 226-234)
    | .checked f cl => some { σ with wire := σ.wire ++ [f], pc := setPc σ.pc t (.accepted cl) }
    | _ => some σ
  | .fail t => match σ.pc t with
    -- (tcp_socket.cpp:210-218)
    | .checked _ _ => some (({ σ with closing := true } : Peer S).leave t false)
    | _ => some σ
  | .ret t => match σ.pc t with
    -- (ws_server_session.cpp:376-377, tcp_socket.cpp:237-258)
    | .accepted cl => some (({ σ with closing := σ.closing || cl } : Peer S).leave t true)
    | _ => some σ
  | .closing => some { σ with closing := true }

def Peer.run (c : Sender S) (n : Nat) (σ : Peer S) : List Act → Option (Peer S)
  | [] => some σ
  | a :: as => match σ.step c n a with
    | some σ => σ.run c n as
    | none => none

/-- The decompressor of a session that accepts messages of up to `limit` bytes, in the environment of that session.  A loop that does not end within `n` iterations is taken for a failure.  Simplified: how much
space a buffer reserves depends on what has been written by the same function.  (websocket_deflator.cpp:97-158) -/
def withInflator (env : Env R) (zr : Zlib R) (grow : Bytes → Nat → Nat) (limit n : Nat) : Env R :=
  { env with
    inflate_stream := fun z b => match inflateStream zr grow limit n { strm := z, buf := [] } b with
      | .done w _ _ => (w.strm, w.buf, false)
      | .threw w => (w.strm, w.buf, true)
      | .stuck => (z, [], true)
    inflate_finish := fun z => match inflateMessageFinish zr grow n { strm := z, buf := [] } with
      | .done w _ _ => (w.strm, w.buf, false)
      | .threw w => (w.strm, w.buf, true)
      | .stuck => (z, [], true) }

end Verif.WsPeers
