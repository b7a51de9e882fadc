import Verif.Base.Bytes
/-!
# Model of WebSocket frame headers and the frame parser
(poseidon/http/websocket_frame_header.hpp, poseidon/src/http/websocket_frame_header.cpp,
poseidon/http/websocket_frame_parser.hpp, poseidon/src/http/websocket_frame_parser.cpp:401-630)
-/
namespace Verif.Ws

/-- `WebSocket_Frame_Header`; the numbers are bit fields (opcode 4 bits, reserved_1 7, masking_key 32, payload_len 64).
(websocket_frame_header.hpp:14-31) -/
structure FrameHeader where
  opcode : Nat := 0
  rsv3 : Bool := false
  rsv2 : Bool := false
  rsv1 : Bool := false
  fin : Bool := false
  reserved_1 : Nat := 0
  masked : Bool := false
  masking_key : Nat := 0
  payload_len : Nat := 0
deriving Repr, DecidableEq

/-- Opcodes.  (poseidon/http/enums.hpp:71-79) -/
abbrev ws_CONTINUATION : Nat := 0
abbrev ws_TEXT : Nat := 1
abbrev ws_BINARY : Nat := 2
abbrev ws_CLOSE : Nat := 8
abbrev ws_PING : Nat := 9
abbrev ws_PONG : Nat := 10

/-- First byte of a header.  (websocket_frame_header.cpp:23-24) -/
def opcode_byte (h : FrameHeader) : Byte :=
  UInt8.ofNat (h.fin.toNat <<< 7 ||| h.rsv1.toNat <<< 6 ||| h.rsv2.toNat <<< 5 ||| h.rsv3.toNat <<< 4 ||| h.opcode)

/-- `WebSocket_Frame_Header::encode(fmt)`: the bytes written.  (websocket_frame_header.cpp:9-51) -/
def encode (h : FrameHeader) : Bytes :=
  let m := h.masked.toNat <<< 7
  let len :=
    if h.payload_len ≤ 125 then [UInt8.ofNat (m ||| h.payload_len)]
    else if h.payload_len ≤ 65535 then UInt8.ofNat (m ||| 126) :: beBytes 2 h.payload_len
    else UInt8.ofNat (m ||| 127) :: beBytes 8 h.payload_len
  opcode_byte h :: len ++ (if h.masked then beBytes 4 h.masking_key else [])

/-! ### Masking -/

/-- `key << 8 | key >> 24` on `uint32_t`.  (websocket_frame_header.cpp:72, 95) -/
def rotl8 (key : Nat) : Nat := (key <<< 8) % 2 ^ 32 ||| (key >>> 24)

/-- The loop that advances to an address which is a multiple of 4; `none` for the rest means that the end of the data was
reached first (early return).  Result: key, bytes already masked, rest.  (websocket_frame_header.cpp:67-75) -/
def mask_align (addr key : Nat) : Bytes → Nat × Bytes × Option Bytes
  | [] => (key, [], if addr % 4 ≠ 0 then none else some [])
  | b :: t =>
    if addr % 4 ≠ 0 then
      let key := rotl8 key
      let (k, done, rest) := mask_align (addr + 1) key t
      (k, (b ^^^ UInt8.ofNat key) :: done, rest)
    else (key, [], some (b :: t))

/-- Bytes of a 32-bit word in memory (x86: little endian). -/
def le32 (w : Nat) : Bytes := (beBytes 4 w).reverse

/-- `load_be<uint32_t>(&key)`: the byte-reversed word.  (websocket_frame_header.cpp:79) -/
def bswap32 (w : Nat) : Nat := beNat (le32 w)

/-- XOR of memory bytes. -/
def xorBytes (a b : Bytes) : Bytes := List.zipWith (· ^^^ ·) a b

/-- The 32-byte SIMD loop: the mask is the word broadcast to 8 lanes.  (websocket_frame_header.cpp:80-86) -/
def mask_simd (bekey : Nat) (data : Bytes) : Bytes × Bytes :=
  if data.length ≥ 32 then
    let ymask := (List.replicate 8 (le32 bekey)).flatten
    let (done, rest) := mask_simd bekey (data.drop 32)
    (xorBytes (data.take 32) ymask ++ done, rest)
  else ([], data)
termination_by data.length
decreasing_by simp; omega

/-- The word loop.  (websocket_frame_header.cpp:88-92) -/
def mask_words (bekey : Nat) : Bytes → Bytes × Bytes
  | a :: b :: c :: d :: t =>
    let (done, rest) := mask_words bekey t
    (xorBytes [a, b, c, d] (le32 bekey) ++ done, rest)
  | data => ([], data)

/-- The byte loop.  (websocket_frame_header.cpp:95-99) -/
def mask_tail (key : Nat) : Bytes → Nat × Bytes
  | [] => (key, [])
  | b :: t =>
    let key := rotl8 key
    let (k, done) := mask_tail key t
    (k, (b ^^^ UInt8.ofNat key) :: done)

/-- `mask_payload(data, size)` where the data are stored at address `addr`: the header with the updated key, and the new
contents.  (websocket_frame_header.cpp:53-103) -/
def mask_payload (addr : Nat) (h : FrameHeader) (data : Bytes) : FrameHeader × Bytes :=
  if !h.masked || h.masking_key == 0 then (h, data)
  else
    match mask_align addr h.masking_key data with
    | (k, done, none) => ({ h with masking_key := k }, done)
    | (k, done, some rest) =>
      if rest.length ≥ 4 then
        let bekey := bswap32 k
        let (d1, r1) := mask_simd bekey rest
        let (d2, r2) := mask_words bekey r1
        let (k', d3) := mask_tail k r2
        ({ h with masking_key := k' }, done ++ d1 ++ d2 ++ d3)
      else
        let (k', d3) := mask_tail k rest
        ({ h with masking_key := k' }, done ++ d3)

/-! ### The frame parser -/

/-- `WSHS_State`.  (websocket_frame_parser.hpp:23-29) -/
inductive Wshs | pending | c_req_sent | s_accepted | c_accepted
deriving Repr, DecidableEq

/-- `WSF_State`.  (websocket_frame_parser.hpp:31-37) -/
inductive Wsf | new | header_done | payload_done | error
deriving Repr, DecidableEq

/-- `WebSocket_Frame_Parser`.  (websocket_frame_parser.hpp:14-57) -/
structure Parser where
  default_compression_level : Nat := 6
  max_message_length : Nat := 1048576
  frm_header : FrameHeader := {}
  frm_payload : Bytes := []
  frm_payload_rem : Nat := 0
  error_desc : Option String := none
  wshs : Wshs := .pending
  pmce_compression_level_m2 : Nat := 0
  pmce_send_no_context_takeover : Bool := false
  pmce_send_window_bits : Nat := 0
  pmce_receive_window_bits : Nat := 0
  wsf : Wsf := .new
  m_opcode : Nat := 0
  m_rsv3 : Bool := false
  m_rsv2 : Bool := false
  m_rsv1 : Bool := false
  m_fin : Bool := false
deriving Repr, DecidableEq

/-- (websocket_frame_parser.hpp:80-83) -/
def Parser.error (p : Parser) : Bool := p.wsf == .error

/-- (websocket_frame_parser.hpp:167-170) -/
def Parser.frame_header_complete (p : Parser) : Bool := p.wsf != .new

/-- (websocket_frame_parser.hpp:187-190) -/
def Parser.frame_payload_complete (p : Parser) : Bool := p.wsf == .payload_done || p.wsf == .error

def Parser.established (p : Parser) : Bool := p.wshs == .s_accepted || p.wshs == .c_accepted

/-- `m_wsf = wsf_error; m_error_desc = …; return;` -/
def Parser.fail (p : Parser) (desc : String) : Parser := { p with wsf := .error, error_desc := some desc }

/-- A finished message is forgotten.  (websocket_frame_parser.cpp:413-421) -/
def Parser.forget (p : Parser) : Parser :=
  if p.m_fin then { p with m_fin := false, m_rsv1 := false, m_rsv2 := false, m_rsv3 := false, m_opcode := 0 } else p

/-- The fields unpacked from the first two bytes; `w` is `mask_len_rsv_opcode`, `w >> i & 1` is written `w.testBit i`.
`masking_key` and `payload_len` are not touched.  (websocket_frame_parser.cpp:429-441) -/
def unpack (old : FrameHeader) (w : Nat) : FrameHeader :=
  { old with
    fin := w.testBit 7
    rsv1 := w.testBit 6
    rsv2 := w.testBit 5
    rsv3 := w.testBit 4
    opcode := w &&& 15
    masked := w.testBit 15
    reserved_1 := (w >>> 8) &&& 127 }

/-- The checks that follow; the result is in the state `error` if the frame is rejected.
(websocket_frame_parser.cpp:443-555) -/
def Parser.check (p : Parser) (w : Nat) : Parser :=
  let h := p.frm_header
  if p.wshs = .s_accepted ∧ h.masked = false then p.fail "clients must mask frames to servers"
  else if h.opcode = ws_TEXT ∨ h.opcode = ws_BINARY then
    if p.m_opcode ≠ 0 then p.fail "continuation frame expected"
    else
      let rsv_reject := w &&& 0b01110000
      let rsv_reject := if rsv_reject ≠ 0 ∧ p.pmce_send_window_bits ≠ 0 then rsv_reject &&& 0b00110000 else rsv_reject
      if rsv_reject ≠ 0 then p.fail "invalid RSV bits in data frame"
      else { p with m_fin := h.fin, m_rsv1 := h.rsv1, m_rsv2 := h.rsv2, m_rsv3 := h.rsv3, m_opcode := h.opcode }
  else if h.opcode = ws_CONTINUATION then
    if w &&& 0b01110000 ≠ 0 then p.fail "invalid RSV bits in continuation frame"
    else if p.m_opcode = 0 then p.fail "dangling continuation frame"
    else if w &&& 0b10000000 ≠ 0 then { p with m_fin := true } else p
  else if h.opcode = ws_CLOSE ∨ h.opcode = ws_PING ∨ h.opcode = ws_PONG then
    if w &&& 0b01110000 ≠ 0 then p.fail "invalid RSV bits in control frame"
    else if h.reserved_1 > 125 then p.fail "control frame length not valid"
    else if h.fin = false then p.fail "control frame not fragmentable"
    else p
  else p.fail "unknown opcode"

def Parser.setLen (p : Parser) (n : Nat) : Parser := { p with frm_header := { p.frm_header with payload_len := n } }
def Parser.setKey (p : Parser) (n : Nat) : Parser := { p with frm_header := { p.frm_header with masking_key := n } }

/-- The masking key, and the end of the header, after `ntotal` bytes.  (websocket_frame_parser.cpp:579-591) -/
def Parser.finish_header (p : Parser) (ntotal : Nat) (data : Bytes) : Parser × Bytes :=
  let done (p : Parser) (ntotal : Nat) : Parser × Bytes :=
    ({ p with frm_payload_rem := p.frm_header.payload_len, wsf := .header_done }, data.drop ntotal)
  if p.frm_header.masked then
    if data.length < ntotal + 4 then (p, data)
    else done (p.setKey (beNat ((data.drop ntotal).take 4))) (ntotal + 4)
  else done p ntotal

/-- The payload length, then the rest.  (websocket_frame_parser.cpp:557-577) -/
def Parser.parse_length (p : Parser) (data : Bytes) : Parser × Bytes :=
  if p.frm_header.reserved_1 ≤ 125 then (p.setLen p.frm_header.reserved_1).finish_header 2 data
  else if p.frm_header.reserved_1 = 126 then
    if data.length < 4 then (p, data)
    else (p.setLen (beNat ((data.drop 2).take 2))).finish_header 4 data
  else
    if data.length < 10 then (p, data)
    else (p.setLen (beNat ((data.drop 2).take 8))).finish_header 10 data

/-- `parse_frame_header_from_stream(data)`: the new state and the remaining data, or an exception.
(websocket_frame_parser.cpp:401-592) -/
def Parser.parse_frame_header (p : Parser) (data : Bytes) : Except String (Parser × Bytes) :=
  if !p.established then .error "WebSocket connection not established or closed"
  else if p.wsf ≠ .new then .ok (p, data)
  else
    let p := p.forget
    match data with
    | b0 :: b1 :: _ =>
      let w := b1.toNat <<< 8 ||| b0.toNat
      let p := { p with frm_header := unpack p.frm_header w }.check w
      if p.wsf = .error then .ok (p, data) else .ok (p.parse_length data)
    | _ => .ok (p, data)

/-- `parse_frame_payload_from_stream(data)` where the data are stored at address `addr`.  An exception leaves the state
unchanged.  (websocket_frame_parser.cpp:594-630) -/
def Parser.parse_frame_payload (p : Parser) (addr : Nat) (data : Bytes) : Except String (Parser × Bytes) :=
  if !p.established then .error "WebSocket connection not established or closed"
  else if p.frame_payload_complete then .ok (p, data)
  else if p.wsf ≠ .header_done then .error "WebSocket header not parsed yet"
  else
    let navail := min data.length p.frm_payload_rem
    if navail ≠ 0 ∧ p.frm_payload.length + navail > p.max_message_length then
      .error "WebSocket message length limit exceeded"
    else
      let (p, data) :=
        if navail ≠ 0 then
          let (h, plain) := mask_payload addr p.frm_header (data.take navail)
          ({ p with frm_header := h, frm_payload := p.frm_payload ++ plain
                    frm_payload_rem := p.frm_payload_rem - navail }, data.drop navail)
        else (p, data)
      if p.frm_payload_rem ≠ 0 then .ok (p, data) else .ok ({ p with wsf := .payload_done }, data)

/-- `next_frame()`; the code asserts that the header is complete.  (websocket_frame_parser.hpp:243-252) -/
def Parser.next_frame (p : Parser) : Parser :=
  { p with frm_header := {}, frm_payload := [], frm_payload_rem := 0, wsf := .new }

end Verif.Ws
