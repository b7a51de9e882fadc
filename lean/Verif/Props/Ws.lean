import Verif.Proofs.WsStream
/-!
# C08 - C12: WebSocket frames

`toHeader` (Proofs/WsHeader.lean) fills the fields of the code's header structure from a frame of the specification.
-/
namespace Verif.Props
open Verif Verif.Spec Verif.Ws

/-- A message is unfinished, as seen through the accessors `message_opcode()` and `message_fin()`. -/
def inMessage (p : Parser) : Bool := p.m_opcode != 0 && !p.m_fin

/-- The parser belongs to a server / permessage-deflate has been negotiated. -/
def isServer (p : Parser) : Bool := p.wshs == .s_accepted
def hasPmce (p : Parser) : Bool := p.pmce_send_window_bits != 0

/-- An established parser that waits for a frame. -/
structure Waiting (p : Parser) : Prop where
  established : p.established = true
  new : p.wsf = .new
  empty : p.frm_payload = []
  /-- the field is an `uint32_t` -/
  key : p.frm_header.masking_key < 2 ^ 32
  /-- no message flags without a message -/
  tidy : p.m_opcode = 0 → p.m_rsv1 = false ∧ p.m_rsv2 = false ∧ p.m_rsv3 = false ∧ p.m_fin = false

/-- A server after the handshake. -/
def freshServer : Parser := { wshs := .s_accepted }
example : Waiting freshServer := ⟨rfl, rfl, rfl, by decide, fun _ => ⟨rfl, rfl, rfl, rfl⟩⟩

theorem inMessage_forget (p : Parser) : (p.forget.m_opcode != 0) = inMessage p := by
  unfold Parser.forget inMessage
  cases h : p.m_fin <;> simp

/-! ## C08 -/

/-- C08: the bits on the wire are those of RFC 6455, most significant first, shortest length form. -/
theorem C08_layout (f : WsFrame) (hf : f.Fits) : wireBits (encode (toHeader f)) = f.bits := encode_bits f hf.opcode

example : (⟨true, false, false, false, 1, some 0x12345678, 70000⟩ : WsFrame).Fits ∧
    encode (toHeader ⟨true, false, false, false, 1, some 0x12345678, 70000⟩)
      = [0x81, 0xFF, 0, 0, 0, 0, 0, 1, 0x11, 0x70, 0x12, 0x34, 0x56, 0x78] :=
  ⟨⟨by decide, by simp, by decide⟩, by decide +kernel⟩

/-- C08: the parser, fed with a header that is legal at that point and anything behind it, consumes exactly the header
and recovers every field. -/
theorem C08_parse (p : Parser) (hp : Waiting p) (f : WsFrame) (hf : f.Fits)
    (hl : f.Legal (isServer p) (hasPmce p) (inMessage p)) (rest : Bytes) :
    ∃ p', p.parse_frame_header (encode (toHeader f) ++ rest) = .ok (p', rest) ∧
      p'.error = false ∧ p'.frame_header_complete = true ∧
      p'.frm_header.fin = f.fin ∧ p'.frm_header.rsv1 = f.rsv1 ∧ p'.frm_header.rsv2 = f.rsv2 ∧ p'.frm_header.rsv3 = f.rsv3 ∧
      p'.frm_header.opcode = f.opcode ∧ p'.frm_header.masked = f.key.isSome ∧
      (∀ k, f.key = some k → p'.frm_header.masking_key = k) ∧
      p'.frm_header.payload_len = f.len ∧ p'.frm_payload_rem = f.len := by
  rw [← inMessage_forget] at hl
  refine ⟨_, parse_legal p f hf rest hp.established hp.new hl, ?_⟩
  refine ⟨rfl, rfl, rfl, rfl, rfl, rfl, rfl, rfl, ?_, rfl, rfl⟩
  intro k hk
  simp [completed, hk]

example : (⟨true, false, false, false, 1, some 0x12345678, 70000⟩ : WsFrame).Legal (isServer freshServer) (hasPmce freshServer) (inMessage freshServer) := by
  unfold WsFrame.Legal; decide

/-- C08: a header that is not legal at that point is rejected, and no byte is consumed. -/
theorem C08_reject (p : Parser) (hp : Waiting p) (f : WsFrame) (hf : f.Fits)
    (hl : ¬ f.Legal (isServer p) (hasPmce p) (inMessage p)) (rest : Bytes) :
    ∃ p', p.parse_frame_header (encode (toHeader f) ++ rest) = .ok (p', encode (toHeader f) ++ rest) ∧
      p'.error = true ∧ p'.error_desc ≠ none := by
  rw [← inMessage_forget] at hl
  obtain ⟨desc, h⟩ := parse_illegal p f hf.opcode rest hp.established hp.new hl
  exact ⟨_, h, rfl, by simp [Parser.fail]⟩

example : ¬ (⟨true, false, false, false, 3, some 1, 5⟩ : WsFrame).Legal (isServer freshServer) (hasPmce freshServer) (inMessage freshServer) := by
  unfold WsFrame.Legal; decide

/-! ## C09 -/

/-- Masking consecutive pieces, stored at arbitrary addresses, with one header. -/
def maskPieces (h : FrameHeader) : List (Nat × Bytes) → Bytes
  | [] => []
  | (addr, piece) :: t => (mask_payload addr h piece).2 ++ maskPieces (mask_payload addr h piece).1 t

/-- C09: whatever the addresses and however the payload is cut, octet `i` is XORed with octet `i mod 4` of the key. -/
theorem C09_masking (h : FrameHeader) (hm : h.masked = true) (hk : h.masking_key < 2 ^ 32) (pieces : List (Nat × Bytes)) :
    maskPieces h pieces = masking h.masking_key (pieces.map Prod.snd).flatten := by
  rw [← maskRec_eq _ _ hk]
  induction pieces generalizing h with
  | nil => rfl
  | cons x t ih =>
    obtain ⟨a, d⟩ := x
    unfold maskPieces
    rw [mask_payload_spec a h d hk hm]
    simp only [List.map_cons, List.flatten_cons]
    rw [maskRec_append]
    have := ih { h with masking_key := rotN h.masking_key d.length } hm (rotN_lt _ _ hk)
    rw [this]

example : (let h : FrameHeader := { masked := true, masking_key := 0x01020304 }
    h.masked = true ∧ h.masking_key < 2 ^ 32 ∧
    maskPieces h [(3, [0, 0, 0]), (1, [0, 0, 0, 0, 0, 0])] = [1, 2, 3, 4, 1, 2, 3, 4, 1]) := by decide +kernel

/-- C09: masking twice with the same key restores the payload, whatever the two ways of cutting. -/
theorem C09_involution (h : FrameHeader) (hm : h.masked = true) (hk : h.masking_key < 2 ^ 32) (data : Bytes)
    (pieces pieces' : List (Nat × Bytes)) (h1 : (pieces.map Prod.snd).flatten = data)
    (h2 : (pieces'.map Prod.snd).flatten = maskPieces h pieces) : maskPieces h pieces' = data := by
  rw [C09_masking h hm hk, h2, C09_masking h hm hk, h1, ← maskRec_eq _ _ hk, ← maskRec_eq _ _ hk, maskRec_maskRec]

example : (let h : FrameHeader := { masked := true, masking_key := 0x01020304 }
    (([(0, [1, 2]), (7, [3, 4, 5])] : List (Nat × Bytes)).map Prod.snd).flatten = [1, 2, 3, 4, 5] ∧
    maskPieces h [(0, [1, 2]), (7, [3, 4, 5])] = [0, 0, 0, 0, 4]) := by decide +kernel

/-- C09: without the MASK bit the payload is untouched. -/
theorem C09_unmasked (h : FrameHeader) (hm : h.masked = false) (pieces : List (Nat × Bytes)) :
    maskPieces h pieces = (pieces.map Prod.snd).flatten := by
  induction pieces with
  | nil => rfl
  | cons x t ih =>
    obtain ⟨a, d⟩ := x
    unfold maskPieces
    rw [mask_payload_unmasked a h d hm]
    simp [ih]

/-! ## C12 -/

/-- Payload pieces arrive one after another; what a call leaves is put in front of the next piece. -/
def feedPayload (p : Parser) (pending : Bytes) : List (Nat × Bytes) → Except String (Parser × Bytes)
  | [] => .ok (p, pending)
  | (addr, piece) :: t =>
    match p.parse_frame_payload addr (pending ++ piece) with
    | .ok (p', left) => feedPayload p' left t
    | .error e => .error e

theorem feed_stream (p : Parser) (he : p.established = true) (hn : p.wsf = .header_done) (hk : p.frm_header.masking_key < 2 ^ 32)
    (pieces : List (Nat × Bytes)) : ∀ (a a' : Nat) (d : Bytes),
    (match p.parse_frame_payload a d with | .ok (p1, d1) => feedPayload p1 d1 pieces | .error e => .error e)
      = p.parse_frame_payload a' (d ++ (pieces.map Prod.snd).flatten) := by
  induction pieces with
  | nil =>
    intro a a' d
    have := payload_stream p he hn hk a a a' d []
    rw [List.append_nil] at this
    rw [List.map_nil, List.flatten_nil, List.append_nil, ← this]
    have self := payload_stream p he hn hk a a a d []
    rw [List.append_nil] at self
    rw [self]
    split <;> simp_all [feedPayload]
  | cons x t ih =>
    intro a a' d
    obtain ⟨b, piece⟩ := x
    have step := payload_stream p he hn hk a b b d piece
    have ih' := ih b a' (d ++ piece)
    rw [List.map_cons, List.flatten_cons, ← List.append_assoc, ← ih', ← step]
    cases hd : p.parse_frame_payload a d with
    | error e => rfl
    | ok r => simp only [feedPayload]

/-- The state after a legal header: everything the payload parser needs. -/
structure Ready (p p1 : Parser) (f : WsFrame) : Prop where
  established : p1.established = true
  header_done : p1.wsf = .header_done
  masked : p1.frm_header.masked = f.key.isSome
  rem : p1.frm_payload_rem = f.len
  empty : p1.frm_payload = []
  max : p1.max_message_length = p.max_message_length
  key : ∀ k, f.key = some k → p1.frm_header.masking_key = k
  keyFits : p1.frm_header.masking_key < 2 ^ 32

theorem ready_completed (p : Parser) (hp : Waiting p) (f : WsFrame) (hf : f.Fits) : Ready p (completed p.forget f) f := by
  obtain ⟨n1, n2, n3, n4, n5, n6, n7⟩ := note_fields p.forget f
  obtain ⟨f1, f2, f3, f4, f5, f6, f7, f8⟩ := forget_fields p
  refine ⟨?_, rfl, rfl, rfl, ?_, ?_, ?_, ?_⟩
  · simp only [completed, Parser.established, n3, f2]; exact hp.established
  · simp only [completed, n4, f7]; exact hp.empty
  · simp only [completed, n5, f8]
  · intro k hk; simp [completed, hk]
  · simp only [completed]
    cases hk : f.key with
    | none => rw [Option.getD_none, f4]; exact hp.key
    | some k => exact hf.key k hk

theorem transform_length (f : WsFrame) (data : Bytes) : (f.transform data).length = data.length := by
  unfold WsFrame.transform masking
  cases f.key <;> simp

theorem payload_whole (p p1 : Parser) (f : WsFrame) (hf : f.Fits) (hr : Ready p p1 f) (data : Bytes) (hlen : data.length = f.len)
    (hmax : f.len ≤ p.max_message_length) (a : Nat) (rest : Bytes) :
    ∃ p2, p1.parse_frame_payload a (f.transform data ++ rest) = .ok (p2, rest) ∧ p2.frame_payload_complete = true ∧
      p2.error = false ∧ p2.frm_payload = data ∧ p2.next_frame = p1.next_frame ∧ p2.frm_header.opcode = p1.frm_header.opcode ∧
      p2.frm_header.fin = p1.frm_header.fin ∧ p2.m_opcode = p1.m_opcode := by
  have htl := (transform_length f data).trans hlen
  have h := payload_step p1 a (f.transform data ++ rest) hr.established hr.header_done hr.keyFits
    (by rw [hr.rem, hr.empty, hr.max]; intro _; simp only [List.length_nil]; omega)
  generalize hp2 : ({ p1 with
          frm_header := if p1.frm_header.masked then { p1.frm_header with masking_key := rotN p1.frm_header.masking_key (min (f.transform data ++ rest).length p1.frm_payload_rem) } else p1.frm_header
          frm_payload := p1.frm_payload ++ (if p1.frm_header.masked then maskRec p1.frm_header.masking_key ((f.transform data ++ rest).take p1.frm_payload_rem) else (f.transform data ++ rest).take p1.frm_payload_rem)
          frm_payload_rem := p1.frm_payload_rem - (f.transform data ++ rest).length
          wsf := if p1.frm_payload_rem ≤ (f.transform data ++ rest).length then .payload_done else .header_done } : Parser) = p2 at h
  have hw : p2.wsf = .payload_done := by
    rw [← hp2]; simp only [hr.rem, List.length_append, htl]; rw [if_pos (by omega)]
  refine ⟨p2, ?_, ?_, ?_, ?_, ?_, ?_, ?_, ?_⟩
  · rw [h, hr.rem, List.drop_append_of_le_length (by omega), List.drop_eq_nil_of_le (by omega), List.nil_append]
  · simp [Parser.frame_payload_complete, hw]
  · simp [Parser.error, hw]
  · rw [← hp2]
    simp only [hr.empty, List.nil_append, hr.rem, hr.masked]
    rw [List.take_append_of_le_length (by omega), List.take_of_length_le (by omega)]
    unfold WsFrame.transform
    cases hk : f.key with
    | none => simp
    | some k =>
      have hk' := hf.key k hk
      simp only [Option.isSome_some, if_true, hr.key k hk]
      rw [← maskRec_eq _ _ hk', maskRec_maskRec]
  · rw [← hp2]; rfl
  · rw [← hp2]; simp only; split <;> rfl
  · rw [← hp2]; simp only; split <;> rfl
  · rw [← hp2]

/-- C12, and C09 for received frames: if the payload fits, then however it is cut into pieces, the parser ends up with
exactly the bytes that were sent, and leaves what follows the frame. -/
theorem C12_recovered (p : Parser) (hp : Waiting p) (f : WsFrame) (hf : f.Fits)
    (hl : f.Legal (isServer p) (hasPmce p) (inMessage p)) (data : Bytes) (hlen : data.length = f.len)
    (hmax : f.len ≤ p.max_message_length) (rest : Bytes) (pieces : List (Nat × Bytes)) (hne : pieces ≠ [])
    (hcut : (pieces.map Prod.snd).flatten = f.transform data ++ rest) :
    ∃ p1 p2, p.parse_frame_header (encode (toHeader f)) = .ok (p1, []) ∧
      feedPayload p1 [] pieces = .ok (p2, rest) ∧ p2.frame_payload_complete = true ∧ p2.error = false ∧
      p2.frm_payload = data := by
  rw [← inMessage_forget] at hl
  have h1 := parse_legal p f hf [] hp.established hp.new hl
  rw [List.append_nil] at h1
  have hr := ready_completed p hp f hf
  cases pieces with
  | nil => exact absurd rfl hne
  | cons x t =>
    obtain ⟨a, d⟩ := x
    obtain ⟨p2, g1, g2, g3, g4, _⟩ := payload_whole p _ f hf hr data hlen hmax a rest
    refine ⟨_, p2, h1, ?_, g2, g3, g4⟩
    rw [List.map_cons, List.flatten_cons] at hcut
    have hs := feed_stream _ hr.established hr.header_done hr.keyFits t a a d
    rw [hcut] at hs
    unfold feedPayload
    rw [List.nil_append]
    exact hs.trans g1

example : (let f : WsFrame := ⟨true, false, false, false, 2, some 0x01020304, 5⟩
    f.Fits ∧ f.Legal (isServer freshServer) (hasPmce freshServer) (inMessage freshServer) ∧ f.len ≤ freshServer.max_message_length ∧
    ((([(1, [9, 9]), (6, [9, 9, 9, 7])] : List (Nat × Bytes)).map Prod.snd).flatten = f.transform [8, 11, 10, 13, 8] ++ [7])) := by
  refine ⟨⟨by decide, by simp, by decide⟩, ?_, by decide, by decide +kernel⟩
  unfold WsFrame.Legal; decide

/-- C12: whatever is fed, the parser never holds more payload than the configured maximum. -/
theorem C12_limit (p p' : Parser) (addr : Nat) (data rest : Bytes) (hk : p.frm_header.masking_key < 2 ^ 32)
    (hp : p.frm_payload.length ≤ p.max_message_length) (h : p.parse_frame_payload addr data = .ok (p', rest)) :
    p'.frm_payload.length ≤ p'.max_message_length ∧ p'.max_message_length = p.max_message_length := by
  by_cases he : p.established = true
  · by_cases hn : p.wsf = .header_done
    · by_cases hl : min data.length p.frm_payload_rem ≠ 0 → p.frm_payload.length + min data.length p.frm_payload_rem ≤ p.max_message_length
      · rw [payload_step p addr data he hn hk hl] at h
        simp only [Except.ok.injEq, Prod.mk.injEq] at h
        rw [← h.1]
        refine ⟨?_, rfl⟩
        have e : (if p.frm_header.masked = true then maskRec p.frm_header.masking_key (data.take p.frm_payload_rem)
            else data.take p.frm_payload_rem).length = min data.length p.frm_payload_rem := by
          split <;> simp [Nat.min_comm]
        simp only [List.length_append, e]
        by_cases h0 : min data.length p.frm_payload_rem = 0
        · omega
        · exact hl h0
      · rw [payload_throw p addr data he hn hl] at h; simp at h
    · unfold Parser.parse_frame_payload at h
      rw [if_neg (by simp [he])] at h
      split at h
      · simp only [Except.ok.injEq, Prod.mk.injEq] at h
        rw [← h.1]; exact ⟨hp, rfl⟩
      · simp [hn] at h
  · unfold Parser.parse_frame_payload at h
    rw [if_pos (by simpa using he)] at h
    simp at h

example : (let p : Parser := { wshs := .s_accepted, wsf := .header_done, frm_payload_rem := 4, max_message_length := 3 }
    (p.parse_frame_payload 0 [1, 2, 3]).toOption.map (fun r => r.1.frm_payload) = some [1, 2, 3] ∧
    (p.parse_frame_payload 0 [1, 2, 3, 4]).toOption.isNone) := by decide +kernel

/-- C12: a frame longer than the maximum is refused with an exception as soon as the excess has arrived. -/
theorem C12_overflow (p : Parser) (hp : Waiting p) (f : WsFrame) (hf : f.Fits)
    (hl : f.Legal (isServer p) (hasPmce p) (inMessage p)) (hmax : p.max_message_length < f.len)
    (pieces : List (Nat × Bytes)) (hcut : p.max_message_length < (pieces.map Prod.snd).flatten.length) :
    ∃ p1, p.parse_frame_header (encode (toHeader f)) = .ok (p1, []) ∧
      feedPayload p1 [] pieces = .error "WebSocket message length limit exceeded" := by
  rw [← inMessage_forget] at hl
  have h1 := parse_legal p f hf [] hp.established hp.new hl
  rw [List.append_nil] at h1
  have hr := ready_completed p hp f hf
  cases pieces with
  | nil => simp at hcut
  | cons x t =>
    obtain ⟨a, d⟩ := x
    refine ⟨_, h1, ?_⟩
    have hs := feed_stream _ hr.established hr.header_done hr.keyFits t a a d
    unfold feedPayload
    rw [List.nil_append]
    refine hs.trans (payload_throw _ _ _ hr.established hr.header_done ?_)
    rw [hr.rem, hr.empty, hr.max]
    rw [List.map_cons, List.flatten_cons] at hcut
    simp only at hcut
    simp only [Classical.not_imp, Nat.not_le, List.length_nil]
    omega

example : (let f : WsFrame := ⟨true, false, false, false, 2, some 1, 2000000⟩
    f.Legal (isServer freshServer) (hasPmce freshServer) (inMessage freshServer) ∧ freshServer.max_message_length < f.len) := by
  refine ⟨?_, by decide⟩
  unfold WsFrame.Legal; decide

/-! ## C10 -/

/-- A peer's parser reads whole frames one after another: the frames' opcode, FIN, the opcode of the message they belong
to, and payload; or the error that stops it. -/
def receive (addr : Nat) : Parser → List (WsFrame × Bytes) → Except String (List (Nat × Bool × Nat × Bytes))
  | _, [] => .ok []
  | p, (f, data) :: t =>
    match p.parse_frame_header (encode (toHeader f) ++ f.transform data) with
    | .error e => .error e
    | .ok (p1, wire) =>
      if p1.error then .error "rejected"
      else match p1.parse_frame_payload addr wire with
        | .error e => .error e
        | .ok (p2, left) =>
          if p2.frame_payload_complete && left.isEmpty then
            match receive addr p2.next_frame t with
            | .ok l => .ok ((p2.frm_header.opcode, p2.frm_header.fin, p2.m_opcode, p2.frm_payload) :: l)
            | .error e => .error e
          else .error "incomplete"

/-- What should be reported for a legal sequence, where `cur` is the opcode of the unfinished message (0 if none). -/
def expected (cur : Nat) : List (WsFrame × Bytes) → List (Nat × Bool × Nat × Bytes)
  | [] => []
  | (f, data) :: t =>
    let msg := if f.opcode = 0 ∨ f.opcode ≥ 8 then cur else f.opcode
    (f.opcode, f.fin, msg, data) :: expected (if f.opcode ≥ 8 then cur else if f.fin then 0 else msg) t

theorem note_first (q : Parser) (f : WsFrame) (h : f.opcode = 1 ∨ f.opcode = 2) :
    (note q f).m_opcode = f.opcode ∧ (note q f).m_fin = f.fin := by
  unfold note; rw [if_pos h]; exact ⟨rfl, rfl⟩

theorem note_cont (q : Parser) (f : WsFrame) (h : f.opcode = 0) :
    (note q f).m_opcode = q.m_opcode ∧ (note q f).m_fin = (f.fin || q.m_fin) := by
  unfold note; rw [if_neg (by omega), if_pos h]
  cases f.fin <;> simp

theorem note_ctrl (q : Parser) (f : WsFrame) (h : f.opcode = 8 ∨ f.opcode = 9 ∨ f.opcode = 10) : note q f = q := by
  unfold note; rw [if_neg (by omega), if_neg (by omega)]

theorem waiting_next (p : Parser) (hp : Waiting p) (f : WsFrame) (hf : f.opcode < 16) (hl : f.Legal (isServer p) (hasPmce p) (inMessage p)) :
    Waiting (completed p.forget f).next_frame ∧ isServer (completed p.forget f).next_frame = isServer p ∧
    hasPmce (completed p.forget f).next_frame = hasPmce p ∧
    inMessage (completed p.forget f).next_frame = f.after (inMessage p) ∧
    (completed p.forget f).next_frame.max_message_length = p.max_message_length ∧
    (completed p.forget f).m_opcode = (if f.opcode = 0 ∨ f.opcode ≥ 8 then p.forget.m_opcode else f.opcode) ∧
    (completed p.forget f).next_frame.forget.m_opcode =
      (if f.opcode ≥ 8 then p.forget.m_opcode else if f.fin then 0 else if f.opcode = 0 ∨ f.opcode ≥ 8 then p.forget.m_opcode else f.opcode) := by
  have ht := tidy_forget p hp.tidy
  obtain ⟨n1, n2, n3, n4, n5, n6, n7⟩ := note_fields p.forget f
  obtain ⟨f1, f2, f3, f4, f5, f6, f7, f8⟩ := forget_fields p
  have hin := inMessage_forget p
  have w1 : (completed p.forget f).next_frame.wshs = p.wshs := by simp only [completed, Parser.next_frame, n3, f2]
  have m : (completed p.forget f).next_frame.m_opcode = (note p.forget f).m_opcode ∧ (completed p.forget f).next_frame.m_fin = (note p.forget f).m_fin
    ∧ (completed p.forget f).next_frame.m_rsv1 = (note p.forget f).m_rsv1 ∧ (completed p.forget f).next_frame.m_rsv2 = (note p.forget f).m_rsv2
    ∧ (completed p.forget f).next_frame.m_rsv3 = (note p.forget f).m_rsv3 ∧ (completed p.forget f).m_opcode = (note p.forget f).m_opcode := ⟨rfl, rfl, rfl, rfl, rfl, rfl⟩
  obtain ⟨m1, m2, m3, m4, m5, m6⟩ := m
  have hfo : (completed p.forget f).next_frame.forget.m_opcode = if (note p.forget f).m_fin then 0 else (note p.forget f).m_opcode := by
    have gen : ∀ q : Parser, q.forget.m_opcode = if q.m_fin then 0 else q.m_opcode := by
      intro q; unfold Parser.forget; split <;> rfl
    rw [gen, m1, m2]
  refine ⟨⟨?_, rfl, rfl, (by decide : (0 : Nat) < 2 ^ 32), ?_⟩, ?_, ?_, ?_, ?_, ?_, ?_⟩
  · simp only [Parser.established, w1]; exact hp.established
  · rw [m1, m2, m3, m4, m5]
    unfold note
    split
    · intro h; simp only at h; omega
    · split
      · split
        · intro h
          simp only at h ⊢
          obtain ⟨_, hl⟩ := hl
          rw [← hin, h] at hl
          rcases hl with ⟨a, _⟩ | ⟨_, b, _⟩ | ⟨a, _⟩
          · omega
          · simp at b
          · omega
        · exact ht
      · exact ht
  · simp only [isServer, w1]
  · simp only [hasPmce, completed, Parser.next_frame, n6, f6]
  · unfold inMessage WsFrame.after
    rw [m1, m2]
    unfold inMessage at hin
    rw [← hin]
    obtain ⟨_, hl⟩ := hl
    rw [← inMessage_forget] at hl
    rcases hl with ⟨a, b, _⟩ | ⟨a, b, _⟩ | ⟨a, _⟩
    · rw [(note_first _ f a).1, (note_first _ f a).2, if_neg (by omega)]
      have : (f.opcode != 0) = true := by simp; omega
      rw [this, Bool.true_and]
    · rw [(note_cont _ f a).1, (note_cont _ f a).2, if_neg (by omega), b, f5]
      simp
    · rw [note_ctrl _ f a, if_pos (by omega), f5]
      simp
  · simp only [completed, Parser.next_frame, n5, f8]
  · rw [m6]
    obtain ⟨_, hl⟩ := hl
    rcases hl with ⟨a, b, _⟩ | ⟨a, b, _⟩ | ⟨a, _⟩
    · rw [(note_first _ f a).1, if_neg (by omega)]
    · rw [(note_cont _ f a).1, if_pos (by omega)]
    · rw [note_ctrl _ f a, if_pos (by omega)]
  · rw [hfo]
    obtain ⟨_, hl⟩ := hl
    rcases hl with ⟨a, b, _⟩ | ⟨a, b, _⟩ | ⟨a, _⟩
    · rw [(note_first _ f a).1, (note_first _ f a).2, if_neg (show ¬ f.opcode ≥ 8 by omega),
        if_neg (show ¬ (f.opcode = 0 ∨ f.opcode ≥ 8) by omega)]
    · rw [(note_cont _ f a).1, (note_cont _ f a).2, if_neg (show ¬ f.opcode ≥ 8 by omega),
        if_pos (show f.opcode = 0 ∨ f.opcode ≥ 8 by omega), f5, Bool.or_false]
    · rw [note_ctrl _ f a, if_pos (show f.opcode ≥ 8 by omega), f5]
      simp

/-- C10: a sequence of frames within the length limit is accepted exactly if it is legal, and then each frame is
reported with its opcode, FIN flag, message and payload. -/
theorem C10_exact (addr : Nat) (frames : List (WsFrame × Bytes)) : ∀ (p : Parser), Waiting p →
    (∀ x ∈ frames, x.1.Fits ∧ x.2.length = x.1.len ∧ x.1.len ≤ p.max_message_length) →
    (LegalSequence (isServer p) (hasPmce p) (inMessage p) (frames.map Prod.fst) →
      receive addr p frames = .ok (expected p.forget.m_opcode frames)) ∧
    (¬ LegalSequence (isServer p) (hasPmce p) (inMessage p) (frames.map Prod.fst) → ∃ e, receive addr p frames = .error e) := by
  induction frames with
  | nil => intro p _ _; exact ⟨fun _ => rfl, fun h => absurd trivial h⟩
  | cons x t ih =>
    intro p hp hall
    obtain ⟨f, data⟩ := x
    obtain ⟨hf, hlen, hmax⟩ := hall (f, data) List.mem_cons_self
    simp only at hf hlen hmax
    by_cases hl : f.Legal (isServer p) (hasPmce p) (inMessage p)
    · have hl' := hl
      rw [← inMessage_forget] at hl'
      have h1 := parse_legal p f hf (f.transform data) hp.established hp.new hl'
      obtain ⟨p2, g1, g2, g3, g4, g5, g6, g7, g8⟩ := payload_whole p _ f hf (ready_completed p hp f hf) data hlen hmax addr []
      rw [List.append_nil] at g1
      obtain ⟨w1, w2, w3, w4, w5, w6, w7⟩ := waiting_next p hp f hf.opcode hl
      obtain ⟨iha, ihb⟩ := ih _ w1 (by intro x hx; rw [w5]; exact hall x (List.mem_cons_of_mem _ hx))
      rw [w2, w3, w4] at iha ihb
      have hrec : receive addr p ((f, data) :: t) =
          (match receive addr (completed p.forget f).next_frame t with
            | .ok l => .ok ((f.opcode, f.fin, (completed p.forget f).m_opcode, data) :: l)
            | .error e => .error e) := by
        simp only [receive, h1]
        rw [if_neg (by simp [completed, Parser.error])]
        simp only [g1, g2, g4, g5, g6, g7, g8, List.isEmpty_nil, Bool.and_self, if_true]
        rfl
      constructor
      · intro h
        obtain ⟨_, htl⟩ := h
        rw [hrec, iha htl, w7, w6]
        rfl
      · intro h
        have : ¬ LegalSequence (isServer p) (hasPmce p) (f.after (inMessage p)) (t.map Prod.fst) := fun h' => h ⟨hl, h'⟩
        obtain ⟨e, he⟩ := ihb this
        rw [hrec, he]
        exact ⟨_, rfl⟩
    · constructor
      · intro h; exact absurd h.1 hl
      · intro _
        rw [← inMessage_forget] at hl
        obtain ⟨desc, h⟩ := parse_illegal p f hf.opcode (f.transform data) hp.established hp.new hl
        simp only [receive, h]
        rw [if_pos (by simp [Parser.fail, Parser.error])]
        exact ⟨_, rfl⟩

/-- A fragmented text message with a ping in the middle. -/
def sampleFrames : List (WsFrame × Bytes) :=
  [(⟨false, false, false, false, 1, some 0x01020304, 3⟩, b! "abc"), (⟨true, false, false, false, 9, some 7, 1⟩, b! "p"),
   (⟨false, false, false, false, 0, some 9, 0⟩, []), (⟨true, false, false, false, 0, some 0, 2⟩, b! "de")]

example : (∀ x ∈ sampleFrames, x.1.Fits ∧ x.2.length = x.1.len ∧ x.1.len ≤ freshServer.max_message_length) ∧
    LegalSequence (isServer freshServer) (hasPmce freshServer) (inMessage freshServer) (sampleFrames.map Prod.fst) ∧
    expected 0 sampleFrames = [(1, false, 1, b! "abc"), (9, true, 1, b! "p"), (0, false, 1, []), (0, true, 1, b! "de")] ∧
    ¬ LegalSequence true false false [⟨false, false, false, false, 1, some 1, 3⟩, ⟨true, false, false, false, 1, some 1, 3⟩] := by
  refine ⟨?_, ?_, by decide +kernel, ?_⟩
  · intro x hx
    simp only [sampleFrames, List.mem_cons, List.not_mem_nil, or_false] at hx
    rcases hx with rfl | rfl | rfl | rfl <;> exact ⟨⟨by decide, by simp, by decide⟩, by decide, by decide⟩
  · decide +kernel
  · decide +kernel

/-- C10: before the handshake has been accepted, no frame is accepted. -/
theorem C10_handshake (p : Parser) (addr : Nat) (d : Bytes) (h1 : p.wshs ≠ .s_accepted) (h2 : p.wshs ≠ .c_accepted) :
    (∃ msg, p.parse_frame_header d = .error msg) ∧ ∃ msg, p.parse_frame_payload addr d = .error msg := by
  have : p.established = false := by
    unfold Parser.established
    cases h : p.wshs <;> simp_all
  simp [Parser.parse_frame_header, Parser.parse_frame_payload, this]

example : ({ wshs := .c_req_sent } : Parser).wshs ≠ .s_accepted ∧ ({ wshs := .c_req_sent } : Parser).wshs ≠ .c_accepted ∧ ({} : Parser).wshs ≠ .s_accepted := by decide

/-! ## C11 -/

/-- Header bytes arrive in pieces; what a call leaves is put in front of the next piece. -/
def feedHeader (p : Parser) (pending : Bytes) : List Bytes → Except String (Parser × Bytes)
  | [] => .ok (p, pending)
  | piece :: t =>
    match p.parse_frame_header (pending ++ piece) with
    | .ok (p', left) => feedHeader p' left t
    | .error e => .error e

/-- C11, for every byte string whose first byte neither starts nor ends a fragmented message: however it is cut into
pieces, the final state and the bytes left are those of a single delivery.  (Legal or not, complete or not.)  Not
covered: first byte TEXT/BINARY without FIN, or CONTINUATION with FIN; see `C11_violated`. -/
theorem C11_partial (p : Parser) (hp : Waiting p) (piece : Bytes) (more : List Bytes)
    (hz : ∀ b0 t, (piece :: more).flatten = b0 :: t → ¬ StartsOrEndsFragmented b0) :
    feedHeader p [] (piece :: more) = p.parse_frame_header (piece :: more).flatten := by
  have gen : ∀ (more : List Bytes) (d : Bytes), (∀ b0 t, d ++ more.flatten = b0 :: t → ¬ StartsOrEndsFragmented b0) →
      (match p.parse_frame_header d with | .ok (p1, d1) => feedHeader p1 d1 more | .error e => .error e)
        = p.parse_frame_header (d ++ more.flatten) := by
    intro more
    induction more with
    | nil =>
      intro d _
      simp only [List.flatten_nil, List.append_nil]
      cases p.parse_frame_header d <;> rfl
    | cons x t ih =>
      intro d hd
      have ih' := ih (d ++ x) (by simpa using hd)
      rw [List.flatten_cons, ← List.append_assoc, ← ih']
      cases h : p.parse_frame_header d with
      | error e =>
        have : p.parse_frame_header d ≠ .error e := by
          unfold Parser.parse_frame_header
          rw [if_neg (by simp [hp.established]), if_neg (by simp [hp.new])]
          simp only
          split
          · split <;> simp
          · simp
        exact absurd h this
      | ok r =>
        obtain ⟨p1, d1⟩ := r
        have law := header_stream p hp.established hp.tidy d x p1 d1 (by
          intro _ b0 b1 t' hd'
          exact hd b0 (b1 :: t' ++ (x :: t).flatten) (by rw [hd']; rfl)) h
        simp only [feedHeader]
        rw [law]
  have := gen more piece (by simpa using hz)
  rw [List.flatten_cons, ← this]
  rfl

example : (let f : WsFrame := ⟨true, false, false, false, 2, some 0x01020304, 300⟩
    ¬ StartsOrEndsFragmented (encode (toHeader f)).head! ∧
    [[0x82], [0xFE, 0x01], [0x2C, 1, 2, 3], [4, 55]].flatten = encode (toHeader f) ++ [55]) := by
  refine ⟨?_, by decide +kernel⟩
  unfold StartsOrEndsFragmented; decide +kernel

/-- C11, violation: every legal frame that starts or ends a fragmented message is rejected if its header is cut anywhere
after the second byte, although it is accepted in one piece. -/
theorem C11_violated (p : Parser) (hp : Waiting p) (f : WsFrame) (hf : f.Fits)
    (hl : f.Legal (isServer p) (hasPmce p) (inMessage p))
    (hz : (f.opcode = 1 ∨ f.opcode = 2) ∧ f.fin = false ∨ f.opcode = 0 ∧ f.fin = true)
    (k : Nat) (h2 : 2 ≤ k) (hk : k < (encode (toHeader f)).length) :
    (∃ p', feedHeader p [] [(encode (toHeader f)).take k, (encode (toHeader f)).drop k] = .ok (p', encode (toHeader f)) ∧ p'.error = true) ∧
    (∃ p', feedHeader p [] [encode (toHeader f)] = .ok (p', []) ∧ p'.error = false) := by
  have hl' := hl
  rw [← inMessage_forget] at hl'
  have hwhole := parse_legal p f hf [] hp.established hp.new hl'
  rw [List.append_nil] at hwhole
  refine ⟨?_, ⟨completed p.forget f, by simp [feedHeader, hwhole], rfl⟩⟩
  obtain ⟨f1, f2, f3, f4, f5, f6, f7, f8⟩ := forget_fields p
  have hs : serverOf p.forget = serverOf p ∧ pmceOf p.forget = pmceOf p := by simp only [serverOf, pmceOf, f2, f6]; exact ⟨trivial, trivial⟩
  have hc := check_legal p.forget f hf.opcode (by rw [hs.1, hs.2]; exact hl')
  obtain ⟨n1, n2, n3, n4, n5, n6, n7⟩ := note_fields (unpacked p.forget f) f
  -- the first piece
  have henc := encode_eq f
  obtain ⟨t, ht⟩ : ∃ t, (encode (toHeader f)).take k = byte0 f :: byte1 f :: t := by
    rw [henc]
    obtain ⟨k', rfl⟩ : ∃ k', k = k' + 2 := ⟨k - 2, by omega⟩
    exact ⟨_, rfl⟩
  have hfull : (encode (toHeader f)) = byte0 f :: byte1 f :: (t ++ (encode (toHeader f)).drop k) := by
    conv => lhs; rw [← List.take_append_drop k (encode (toHeader f)), ht]
    rfl
  have hcw : ({ p.forget with frm_header := unpack p.forget.frm_header ((byte1 f).toNat <<< 8 ||| (byte0 f).toNat) } : Parser).check
      ((byte1 f).toNat <<< 8 ||| (byte0 f).toNat) = note (unpacked p.forget f) f := hc
  have hne : ¬ (note (unpacked p.forget f) f).wsf = .error := by
    rw [n2]; simp only [unpacked, f1, hp.new]; simp
  have hfirst : p.parse_frame_header ((encode (toHeader f)).take k) = .ok ((note (unpacked p.forget f) f).parse_length ((encode (toHeader f)).take k)) := by
    rw [ht, parse_two p hp.established hp.new]
    simp only
    rw [hcw, if_neg hne]
  have hwhole2 : p.parse_frame_header (encode (toHeader f)) = .ok ((note (unpacked p.forget f) f).parse_length (encode (toHeader f))) := by
    rw [hfull, parse_two p hp.established hp.new]
    simp only
    rw [hcw, if_neg hne]
  rcases parse_length_cases (note (unpacked p.forget f) f) ((encode (toHeader f)).take k) (by rw [ht]; simp) with
    ⟨r', hr', g1, g2, g3⟩ | ⟨p1, d1, g1, g2, g3, g4⟩
  · -- incomplete: the second look at the frame
    have hr'n : r'.wsf = .new := by rw [g2, n2]; simp only [unpacked, f1, hp.new]
    have fields : r'.wshs = p.wshs ∧ r'.pmce_send_window_bits = p.pmce_send_window_bits ∧
        r'.m_opcode = (note (unpacked p.forget f) f).m_opcode ∧ r'.m_fin = (note (unpacked p.forget f) f).m_fin := by
      rcases hr' with rfl | ⟨n, rfl⟩
      · exact ⟨by rw [n3]; exact f2, by rw [n6]; exact f6, rfl, rfl⟩
      · simp only [Parser.setLen, n3, n6]
        exact ⟨f2, f6, trivial, trivial⟩
    obtain ⟨e1, e2, e3, e4⟩ := fields
    have hest : r'.established = true := by simp only [Parser.established, e1]; exact hp.established
    have hill : ¬ f.Legal (serverOf r') (pmceOf r') (r'.forget.m_opcode != 0) := by
      rw [inMessage_forget]
      unfold inMessage
      rw [e3, e4]
      rintro ⟨_, hcase⟩
      unfold note at hcase
      rcases hz with ⟨ho, hfin⟩ | ⟨ho, hfin⟩
      · rw [if_pos ho] at hcase
        simp only [hfin] at hcase
        have : (f.opcode != 0 && !false) = true := by simp; omega
        rw [this] at hcase
        rcases hcase with ⟨_, b, _⟩ | ⟨a, _⟩ | ⟨a, _⟩
        · simp at b
        · omega
        · omega
      · rw [if_neg (show ¬ (f.opcode = 1 ∨ f.opcode = 2) by omega), if_pos ho, if_pos hfin] at hcase
        simp only [Bool.not_true, Bool.and_false] at hcase
        rcases hcase with ⟨a, _⟩ | ⟨_, b, _⟩ | ⟨a, _⟩
        · omega
        · simp at b
        · omega
    obtain ⟨desc, hrej⟩ := parse_illegal r' f hf.opcode [] hest hr'n hill
    rw [List.append_nil] at hrej
    refine ⟨(unpacked r'.forget f).fail desc, ?_, rfl⟩
    simp only [feedHeader, List.nil_append]
    rw [hfirst, g1]
    simp only
    rw [List.take_append_drop, hrej]
  · -- complete: impossible, the header is longer
    exfalso
    have := g4 ((encode (toHeader f)).drop k)
    rw [List.take_append_drop] at this
    rw [hwhole2, this] at hwhole
    simp only [Except.ok.injEq, Prod.mk.injEq, List.append_eq_nil_iff, List.drop_eq_nil_iff] at hwhole
    omega

example : (let f : WsFrame := ⟨false, false, false, false, 1, some 0x01020304, 3⟩
    f.Fits ∧ f.Legal (isServer freshServer) (hasPmce freshServer) (inMessage freshServer) ∧ 2 < (encode (toHeader f)).length) := by
  refine ⟨⟨by decide, by simp, by decide⟩, ?_, by decide +kernel⟩
  unfold WsFrame.Legal; decide

end Verif.Props
