import Verif.Model.Ws
import Verif.Model.Utils
/-!
# Model of the WebSocket sessions
(poseidon/src/socket/ws_server_session.cpp, poseidon/src/socket/ws_client_session.cpp, which differ in the handshake and
in the masking of outgoing frames only; `wss_*_session.cpp` are the same over TLS)

The application's callbacks, the socket below and zlib are parameters (`Env`).  Callbacks see the whole history.
-/
namespace Verif.Ws
open Verif.Utils (splice_buffers)

/-- What can be observed at the boundary of a session, in order. -/
inductive Ev
  /-- `do_on_ws_message_data_stream(opcode, data)` -/
  | data (opcode : Nat) (buf : Bytes)
  /-- `do_on_ws_message_finish(opcode, data)` -/
  | finish (opcode : Nat) (msg : Bytes)
  /-- `do_on_ws_close(status, reason)` -/
  | close (status : Nat) (reason : Bytes)
  /-- `tcp_send(bytes)` -/
  | sent (bytes : Bytes)
  /-- `tcp_shut_down()` -/
  | shut_down
  /-- `do_on_ws_accepted()` or `do_on_ws_connected()` -/
  | accepted
deriving Repr, DecidableEq

/-- The environment.  `none` and `true` of the callbacks mean that they throw. -/
structure Env (Z : Type) where
  server : Bool
  /-- `::random()` -/
  random : List Ev → Nat
  /-- `socket_state() >= socket_closing` -/
  closing : List Ev → Bool
  /-- `tcp_send()` throws -/
  send_throws : List Ev → Bool
  /-- overridden `do_on_ws_message_data_stream`: what is left in the buffer -/
  on_data : List Ev → Nat → Bytes → Option Bytes
  /-- overridden `do_on_ws_message_finish`: what is left in the buffer -/
  on_finish : List Ev → Nat → Bytes → Option Bytes
  on_close : List Ev → Nat → Bytes → Bool
  on_accepted : List Ev → Bool
  /-- zlib, `inflate_message_stream`: new state, output, failure -/
  inflate_stream : Z → Bytes → Z × Bytes × Bool
  /-- zlib, `inflate_message_finish` -/
  inflate_finish : Z → Z × Bytes × Bool

/-- `WS_Server_Session` / `WS_Client_Session`: `m_closure_notified`, `m_parser`, `m_msg`, `m_pmce_opt` (zlib state and
output buffer of the inflator), and the history. -/
structure Session (Z : Type) where
  closure_notified : Bool := false
  upgraded : Bool := false
  parser : Parser := {}
  m_msg : Bytes := []
  pmce : Option (Z × Bytes) := none
  trace : List Ev := []

variable {Z : Type}

def Session.push (s : Session Z) (e : Ev) : Session Z := { s with trace := s.trace ++ [e] }

/-! ### Sending -/

/-- The bytes composed by `do_ws_send_raw_frame(rsv_opcode, data)`; `random` is the result of `::random()`, used by
clients.  The address of the payload does not matter (C09).  (ws_server_session.cpp:259-277, ws_client_session.cpp:227-249) -/
def raw_frame (server : Bool) (random rsv_opcode : Nat) (data : Bytes) : Bytes :=
  let h : FrameHeader :=
    { fin := rsv_opcode.testBit 7, rsv1 := rsv_opcode.testBit 6, rsv2 := rsv_opcode.testBit 5, rsv3 := rsv_opcode.testBit 4
      opcode := rsv_opcode &&& 15, payload_len := data.length
      masked := !server
      masking_key := if server then 0 else (0x80 ||| random) % 2 ^ 32 }
  encode h ++ (mask_payload 0 h data).2

/-- `do_ws_send_raw_frame`; the flag says whether it threw. -/
def Session.send_raw (env : Env Z) (s : Session Z) (rsv_opcode : Nat) (data : Bytes) : Session Z × Bool :=
  if env.send_throws s.trace then (s, true)
  else (s.push (.sent (raw_frame env.server (env.random s.trace) rsv_opcode data)), false)

/-- The payload of the CLOSE frame composed by `ws_shut_down(WS_Status, chars_view)`: a `static_vector<char, 125>`.
(ws_server_session.cpp:361-364) -/
def close_payload (status : Nat) (reason : Bytes) : Bytes := beBytes 2 status ++ reason.take (125 - 2)

/-- `ws_shut_down(WS_Status, chars_view)`; exceptions from sending are caught.  (ws_server_session.cpp:349-378) -/
def Session.ws_shut_down (env : Env Z) (s : Session Z) (status : Nat) (reason : Bytes) : Session Z :=
  if !s.upgraded || env.closing s.trace then s.push .shut_down
  else (s.send_raw env (0b10000000 ||| 8) (close_payload status reason)).1.push .shut_down

/-- `ws_shut_down(int, chars_view)`.  (ws_server_session.cpp:380-389) -/
def Session.ws_shut_down_int (env : Env Z) (s : Session Z) (status : Int) (reason : Bytes) : Session Z :=
  s.ws_shut_down env (if 1000 ≤ status ∧ status ≤ 4999 then status.toNat else 1008) reason

/-- What `ws_send(opcode, data)` sends, or the exception.  `pmce`: the session has been upgraded and the extension is
active; `no_ctx`: `pmce_send_no_context_takeover()`; `deflate`: the compressed message, `none` if zlib failed.
(ws_server_session.cpp:279-347) -/
def ws_send_frame (server pmce no_ctx : Bool) (random : Nat) (deflate : Bytes → Option Bytes) (opcode : Nat) (data : Bytes) :
    Except String Bytes :=
  if opcode = ws_TEXT ∨ opcode = ws_BINARY then
    let threshold := if no_ctx then 1024 else 64
    if pmce ∧ data.length ≥ threshold then
      match deflate data with
      | some z => .ok (raw_frame server random (0b11000000 ||| opcode) z)
      | none => .ok (raw_frame server random (0b10000000 ||| opcode) data)
    else .ok (raw_frame server random (0b10000000 ||| opcode) data)
  else if opcode = ws_PING ∨ opcode = ws_PONG then
    if data.length > 125 then .error "Control frame too large"
    else .ok (raw_frame server random (0b10000000 ||| opcode) data)
  else .error "WebSocket opcode not supported"

/-! ### Closing -/

/-- `do_call_on_ws_close_once(status, reason)`; the flag says whether the callback threw.  (ws_server_session.cpp:20-31) -/
def Session.close_once (env : Env Z) (s : Session Z) (status : Nat) (reason : Bytes) : Session Z × Bool :=
  if s.closure_notified then (s, false)
  else
    let threw := env.on_close s.trace status reason
    let s := { s with closure_notified := true }.push (.close status reason)
    if threw then (s, true) else (s.ws_shut_down env 1000 [], false)

/-- Bytes of an error description. -/
def descBytes (s : Option String) : Bytes := ((s.getD "").toUTF8.data.toList)

/-! ### Receiving -/

/-- Outcome of one iteration: go on with the rest of the data, return, or propagate an exception. -/
inductive Iter (Z : Type)
  | next (s : Session Z) (data : Bytes)
  | stop (s : Session Z) (data : Bytes)
  | throw (s : Session Z) (data : Bytes)

/-- `return` after a callback that may have thrown. -/
def Iter.leave (r : Session Z × Bool) (data : Bytes) : Iter Z := if r.2 then .throw r.1 data else .stop r.1 data

/-- Start of a message: the buffers are cleared.  This happens for every piece of the frame.
(ws_server_session.cpp:113-122) -/
def Session.start_message (s : Session Z) : Session Z :=
  if s.parser.frm_header.opcode ≠ 0 then { s with m_msg := [], pmce := s.pmce.map (fun z => (z.1, [])) } else s

/-- Inflation of a piece of a compressed message; `none` if zlib fails or the limit is exceeded, which throws.
(ws_server_session.cpp:132-142, websocket_deflator.cpp:99-162) -/
def Session.inflate (env : Env Z) (s : Session Z) (z : Z) (out : Bytes) : Option (Session Z) :=
  let payload := s.parser.frm_payload
  let (z, out, bad) :=
    if payload.isEmpty then (z, out, false)
    else let (z, o, bad) := env.inflate_stream z payload; (z, out ++ o, bad || decide ((out ++ o).length > s.parser.max_message_length))
  if bad then none
  else
    let (z, out, bad) := if s.parser.m_fin then (let (z, o, bad) := env.inflate_finish z; (z, out ++ o, bad)) else (z, out, false)
    if bad then none
    -- `payload.swap(out_buf)`
    else some { s with parser := { s.parser with frm_payload := out }, pmce := some (z, payload) }

/-- The default check of the message size is part of `on_data`; the buffer is `m_msg` with the payload moved to it.
(ws_server_session.cpp:144-148) -/
def Session.combine (env : Env Z) (s : Session Z) : Session Z × Bool :=
  let (msg, payload) := splice_buffers s.m_msg s.parser.frm_payload
  let s := { s with m_msg := msg, parser := { s.parser with frm_payload := payload } }
  let r := env.on_data s.trace s.parser.m_opcode msg
  let s := s.push (.data s.parser.m_opcode msg)
  match r with
  | some left => ({ s with m_msg := left }, false)
  | none => (s, true)

/-- Outcome of the handling of a data frame: go on, propagate an exception, or return after closing. -/
inductive DataResult (Z : Type)
  | go (s : Session Z)
  | threw (s : Session Z)
  | closed (r : Session Z × Bool)

def Session.combined (env : Env Z) (s : Session Z) : DataResult Z :=
  if (s.combine env).2 then .threw (s.combine env).1 else .go (s.combine env).1

/-- A data frame.  (ws_server_session.cpp:110-149) -/
def Session.data_frame (env : Env Z) (s : Session Z) : DataResult Z :=
  let s := s.start_message
  if s.parser.m_rsv1 then
    match s.pmce with
    | none => .closed (s.close_once env 1011 (descBytes (some "PMCE not initialized")))
    | some (z, out) => match s.inflate env z out with | some s => s.combined env | none => .threw s
  else s.combined env

/-- A complete frame with FIN.  (ws_server_session.cpp:154-193) -/
def Session.frame_done (env : Env Z) (s : Session Z) (data : Bytes) : Iter Z :=
  let payload := s.parser.frm_payload
  let op := s.parser.frm_header.opcode
  let go (s : Session Z) : Iter Z := .next { s with parser := s.parser.next_frame } data
  if !s.parser.frm_header.fin then go s
  else if op = ws_CONTINUATION ∨ op = ws_TEXT ∨ op = ws_BINARY then
    let r := env.on_finish s.trace s.parser.m_opcode s.m_msg
    let s := s.push (.finish s.parser.m_opcode s.m_msg)
    match r with
    | some left => go { s with m_msg := left }
    | none => .throw s data
  else if op = ws_CLOSE then
    -- `payload.getn(temp, 2)` removes up to two bytes; missing bytes stay those of 1005 (`no_status_code`)
    let temp := payload.take 2 ++ (beBytes 2 1005).drop (payload.take 2).length
    let status := beNat temp
    let threw := env.on_close s.trace status (payload.drop 2)
    Iter.leave ({ s with closure_notified := true }.push (.close status (payload.drop 2)), threw) []
  else if op = ws_PING then
    match s.send_raw env 0x8A payload with
    | (s, true) => .throw s data
    | (s, false) =>
      let r := env.on_finish s.trace ws_PING payload
      let s := s.push (.finish ws_PING payload)
      if r.isNone then .throw s data else go s
  else if op = ws_PONG then
    let r := env.on_finish s.trace ws_PONG payload
    let s := s.push (.finish ws_PONG payload)
    if r.isNone then .throw s data else go s
  else go s

/-- The payload part of an iteration.  (ws_server_session.cpp:101-193) -/
def Session.payload_part (env : Env Z) (addr : Nat) (s : Session Z) (data : Bytes) : Iter Z :=
  match s.parser.parse_frame_payload addr data with
  | .error _ => .throw s data
  | .ok (p, data) =>
    let s := { s with parser := p }
    if p.error then Iter.leave (s.close_once env 1002 (descBytes p.error_desc)) []
    else
      let rest (s : Session Z) : Iter Z := if !s.parser.frame_payload_complete then .stop s data else s.frame_done env data
      if p.frm_header.opcode ≤ 7 then
        match s.data_frame env with
        | .go s => rest s
        | .threw s => .throw s data
        | .closed r => Iter.leave r []
      else rest s

/-- One iteration of the loop.  (ws_server_session.cpp:79-196) -/
def Session.iterate (env : Env Z) (addr : Nat) (s : Session Z) (data : Bytes) : Iter Z :=
  if s.parser.error || s.closure_notified then .stop s []
  else
    let body (s : Session Z) (data : Bytes) : Iter Z :=
      if !s.parser.frame_payload_complete then s.payload_part env addr data
      else .next { s with parser := s.parser.next_frame } data
    if !s.parser.frame_header_complete then
      match s.parser.parse_frame_header data with
      | .error _ => .throw s data
      | .ok (p, data) =>
        let s := { s with parser := p }
        if p.error then Iter.leave (s.close_once env 1002 (descBytes p.error_desc)) []
        else if !p.frame_header_complete then .stop s data
        else body s data
    else body s data

/-- `do_on_http_upgraded_stream(data, eof)` with the iterations bounded by `fuel`; the last component is `none` if the
bound was reached (see `stream_total`), otherwise whether an exception was thrown.  (ws_server_session.cpp:75-198) -/
def Session.stream_fuel (env : Env Z) (addr : Nat) : Nat → Session Z → Bytes → Session Z × Bytes × Option Bool
  | 0, s, data => (s, data, none)
  | fuel + 1, s, data =>
    match s.iterate env addr data with
    | .next s data => stream_fuel env addr fuel s data
    | .stop s data => (s, data, some false)
    | .throw s data => (s, data, some true)

/-- `do_on_http_upgraded_stream(data, eof)`. -/
def Session.stream (env : Env Z) (addr : Nat) (s : Session Z) (data : Bytes) : Session Z × Bytes × Option Bool :=
  s.stream_fuel env addr (2 * data.length + 2) data

/-! ### Histories -/

/-- What the layers below may do with a session. -/
inductive Input
  /-- data (the unconsumed bytes followed by new ones) are passed to `do_on_http_upgraded_stream()` -/
  | stream (addr : Nat) (data : Bytes)
  /-- a successful handshake -/
  | handshake
  /-- a failed handshake, or a request error: `do_call_on_ws_close_once(…)` -/
  | fail (status : Nat) (reason : Bytes)
  /-- `do_abstract_socket_on_closed()` -/
  | closed
  /-- the application sends a message or a CLOSE frame, from any thread -/
  | send (bytes : Bytes)
  | app_shut_down (status : Int) (reason : Bytes)

/-- (ws_server_session.cpp:33-73, 75, 228-257) -/
def Session.input (env : Env Z) (s : Session Z) : Input → Session Z
  | .stream addr data => (s.stream env addr data).1
  | .handshake => s.push .accepted
  | .fail status reason => (s.close_once env status reason).1
  | .closed => (s.close_once env 1006 (descBytes (some "no CLOSE frame received"))).1
  | .send bytes => s.push (.sent bytes)
  | .app_shut_down status reason => s.ws_shut_down_int env status reason

end Verif.Ws
