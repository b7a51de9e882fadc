import Verif.Base.Bytes
/-!
# Streams of compressed data

Models `Abstract_Deflator` (base/abstract_deflator.cpp), `Abstract_Inflator` (base/abstract_inflator.cpp), `WebSocket_Deflator` (http/websocket_deflator.cpp), and the functions of sessions that
use the latter.  zlib itself is not part of the repository.  It is a parameter here; what is expected of it is in `Verif/Spec/Zlib.lean`.
-/
namespace Verif.Zlib

/-- Return values of zlib functions; `other` is any other one. -/
inductive Err where
  | ok | bufError | streamEnd | other
deriving DecidableEq, Repr

inductive Flush where
  | no | sync | full | finish
deriving DecidableEq, Repr

/-- `deflate()` or `inflate()`: given a state, how to flush, some input and the size of the output buffer, it gives a new state, the number of bytes that have been consumed, the bytes that
have been written, and a return value. -/
structure Zlib (S : Type) where
  call : S → Flush → Bytes → Nat → S × Nat × Bytes × Err
  reset : S → S

/-- A stream, and all output so far. -/
structure Wrap (S : Type) where
  strm : S
  buf : Bytes
deriving DecidableEq, Repr

/-- `INT_MAX` -/
def intMax : Nat := 2147483647

/-- `set_buffers()`, followed by a call of zlib.  (details/zlib_fwd.hpp:83-90, 152-159) -/
def callZlib (z : Zlib S) (s : S) (fl : Flush) (inp : Bytes) (avail : Nat) : S × Nat × Bytes × Err := z.call s fl (inp.take intMax) (min avail intMax)

/-- The body of a loop: an output buffer is requested from the derived class, which gives `grow buf request` bytes that are not initialized; zlib writes into it, and the derived class is told
how many bytes in the end have not been used.  None if the buffer is too small.  (abstract_deflator.cpp:40-54, abstract_inflator.cpp:40-53) -/
def truncRound (z : Zlib S) (grow : Bytes → Nat → Nat) (request : Nat) (fl : Flush) (w : Wrap S) (inp : Bytes) : Option (Wrap S × Nat × Err) :=
  let size := grow w.buf request
  if size < request then none
  else
    let area := w.buf ++ List.replicate size 0
    match callZlib z w.strm fl inp size with
    | (s, c, p, e) =>
      let area := w.buf ++ p ++ area.drop (w.buf.length + p.length)
      let backup := size - p.length
      let area := if backup ≠ 0 then area.take (area.length - backup) else area
      some ({ strm := s, buf := area }, c, e)

/-- The body of a loop: space is reserved in a `linear_buffer`, whose size is `grow buf request`, zlib writes into it, and what has been written is accepted.
(websocket_deflator.cpp:45-52, 75-82, 110-117, 141-148) -/
def acceptRound (z : Zlib S) (grow : Bytes → Nat → Nat) (request : Nat) (fl : Flush) (w : Wrap S) (inp : Bytes) : Option (Wrap S × Nat × Err) :=
  match callZlib z w.strm fl inp (grow w.buf request) with
  | (s, c, p, e) => some ({ strm := s, buf := w.buf ++ p }, c, e)

/-- How a function ends: it returns, an exception is thrown, or neither within a number of iterations. -/
inductive Out (S : Type) where
  | done (w : Wrap S) (rest : Bytes) (err : Err)
  | threw (w : Wrap S)
  | stuck
deriving DecidableEq, Repr

/-- What differs between loops: the return values that are not errors, whether the loop ends when there is no more input, and the maximum length of output. -/
structure Loop where
  good : List Err
  atEnd : Bool
  limit : Option Nat := none

/-- `do … while(…)` -/
def loop (round : Wrap S → Bytes → Option (Wrap S × Nat × Err)) (l : Loop) : Nat → Wrap S → Bytes → Out S
  | 0, _, _ => .stuck
  | n + 1, w, inp =>
    match round w inp with
    | none => .threw w
    | some (w, c, e) =>
      if e ∉ l.good then .threw w
      else if l.limit.any (w.buf.length > ·) then .threw w
      else
        let inp := inp.drop c
        if (!l.atEnd || inp ≠ []) && e = .ok then loop round l n w inp else .done w inp e

/-- `Abstract_Deflator::deflate()`, without its first two lines.  (abstract_deflator.cpp:36-67) -/
def deflate (z : Zlib S) (grow : Bytes → Nat → Nat) : Nat → Wrap S → Bytes → Out S := loop (truncRound z grow 128 .no) { good := [.ok, .bufError], atEnd := true }
/-- `Abstract_Deflator::sync_flush()`, which returns whether the last return value is `Z_BUF_ERROR`.  (abstract_deflator.cpp:70-104) -/
def syncFlush (z : Zlib S) (grow : Bytes → Nat → Nat) (n : Nat) (w : Wrap S) : Out S := loop (truncRound z grow 16 .sync) { good := [.ok, .bufError], atEnd := false } n w []
/-- `Abstract_Deflator::full_flush()`.  (abstract_deflator.cpp:106-140) -/
def fullFlush (z : Zlib S) (grow : Bytes → Nat → Nat) (n : Nat) (w : Wrap S) : Out S := loop (truncRound z grow 16 .full) { good := [.ok, .bufError], atEnd := false } n w []
/-- `Abstract_Deflator::finish()`, which returns whether the last return value is `Z_STREAM_END`.  (abstract_deflator.cpp:142-182) -/
def finish (z : Zlib S) (grow : Bytes → Nat → Nat) (n : Nat) (w : Wrap S) : Out S := loop (truncRound z grow 16 .finish) { good := [.ok, .bufError, .streamEnd], atEnd := false } n w []
/-- `Abstract_Inflator::inflate()`, without its first two lines.  (abstract_inflator.cpp:36-66) -/
def inflate (z : Zlib S) (grow : Bytes → Nat → Nat) : Nat → Wrap S → Bytes → Out S :=
  loop (truncRound z grow 128 .sync) { good := [.ok, .bufError, .streamEnd], atEnd := true }
/-- `Abstract_Inflator::finish()`.  (abstract_inflator.cpp:68-105) -/
def inflateFinish (z : Zlib S) (grow : Bytes → Nat → Nat) (n : Nat) (w : Wrap S) : Out S :=
  loop (truncRound z grow 16 .sync) { good := [.ok, .bufError, .streamEnd], atEnd := false } n w []

/-- `"\x00\x00\xFF\xFF"` -/
def marker : Bytes := [0x00, 0x00, 0xFF, 0xFF]

/-- `deflate_message_stream()`.  (websocket_deflator.cpp:31-62) -/
def deflateStream (z : Zlib S) (grow : Bytes → Nat → Nat) (n : Nat) (w : Wrap S) (data : Bytes) : Out S :=
  if data.length = 0 then .done w [] .ok else loop (acceptRound z grow 1024 .no) { good := [.ok, .bufError], atEnd := true } n w data

/-- (websocket_deflator.cpp:92-94) -/
def strip (b : Bytes) : Bytes := if b.length ≥ 4 ∧ b.drop (b.length - 4) = marker then b.take (b.length - 4) else b

/-- `deflate_message_finish()`.  (websocket_deflator.cpp:64-95) -/
def deflateFinish (z : Zlib S) (grow : Bytes → Nat → Nat) (n : Nat) (w : Wrap S) : Out S :=
  match loop (acceptRound z grow 16 .sync) { good := [.ok, .bufError], atEnd := false } n w [] with
  | .done w r e => .done { w with buf := strip w.buf } r e
  | o => o

/-- `inflate_message_stream()`.  (websocket_deflator.cpp:97-131) -/
def inflateStream (z : Zlib S) (grow : Bytes → Nat → Nat) (limit : Nat) (n : Nat) (w : Wrap S) (data : Bytes) : Out S :=
  if data.length = 0 then .done w [] .ok else loop (acceptRound z grow 1024 .sync) { good := [.ok, .bufError], atEnd := true, limit := some limit } n w data

/-- `inflate_message_finish()`.  (websocket_deflator.cpp:133-158) -/
def inflateMessageFinish (z : Zlib S) (grow : Bytes → Nat → Nat) (n : Nat) (w : Wrap S) : Out S :=
  loop (acceptRound z grow 16 .sync) { good := [.ok, .bufError], atEnd := false } n w marker

/-- What is sent for a message: the payload and whether it is compressed; and the state of the stream. -/
structure Sent (S : Type) where
  strm : S
  payload : Bytes
  compressed : Bool

/-- `ws_send()` of a message, up to `do_ws_send_raw_frame()`, where `noCtx` is `pmce_send_no_context_takeover()`.  None if it does not return within `n` iterations of some loop.
(socket/ws_server_session.cpp:288-324, ws_client_session.cpp) -/
def sendMessage (z : Zlib S) (grow : Bytes → Nat → Nat) (noCtx : Bool) (n : Nat) (s : S) (data : Bytes) : Option (Sent S) :=
  let threshold := if noCtx then 1024 else 64
  if data.length ≥ threshold then
    let s := if noCtx then z.reset s else s
    match deflateStream z grow n { strm := s, buf := [] } data with
    | .stuck => none
    | .threw w => some { strm := z.reset w.strm, payload := data, compressed := false }
    | .done w _ _ => match deflateFinish z grow n w with
      | .stuck => none
      | .threw w => some { strm := z.reset w.strm, payload := data, compressed := false }
      | .done w _ _ => some { strm := w.strm, payload := w.buf, compressed := true }
  else some { strm := s, payload := data, compressed := false }

/-- A message in one frame, whose payload has been received as a whole: the output buffer is cleared, the payload is decompressed, and the result is taken.  For frames that arrive in pieces and
messages in several frames see `Verif/Model/WsSession.lean`.  (socket/ws_server_session.cpp:113-146, ws_client_session.cpp) -/
def recvMessage (z : Zlib S) (grow : Bytes → Nat → Nat) (limit : Nat) (n : Nat) (s : S) (compressed : Bool) (payload : Bytes) : Out S :=
  if compressed then
    match inflateStream z grow limit n { strm := s, buf := [] } payload with
    | .done w _ _ => inflateMessageFinish z grow n w
    | o => o
  else .done { strm := s, buf := payload } [] .ok

end Verif.Zlib
