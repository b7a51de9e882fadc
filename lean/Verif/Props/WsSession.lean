import Verif.Proofs.WsSession
import Verif.Spec.WsMessage
import Verif.Props.Ws
/-!
# C14 - C16: WebSocket sessions
-/
namespace Verif.Props
open Verif Verif.Spec Verif.Ws

/-- An environment in which nothing throws and the callbacks leave their buffers alone. -/
def plainEnv : Env Unit where
  server := true
  random := fun _ => 0
  closing := fun _ => false
  send_throws := fun _ => false
  on_data := fun _ _ b => some b
  on_finish := fun _ _ b => some b
  on_close := fun _ _ _ => false
  on_accepted := fun _ => false
  inflate_stream := fun z b => (z, b, false)
  inflate_finish := fun z => (z, [], false)

/-- A server session after the handshake. -/
def freshSession : Session Unit := { upgraded := true, parser := freshServer }

/-! ## C14 -/

/-- C14: in every history, in every environment, after a close has been reported there is no further close and no message
data or message. -/
theorem C14_at_most_once {Z : Type} (env : Env Z) (s : Session Z) (h0 : s.trace = []) (h1 : s.closure_notified = false)
    (history : List Input) (before after : List Ev) (status : Nat) (reason : Bytes)
    (h : (history.foldl (Session.input env) s).trace = before ++ .close status reason :: after) :
    (∀ st r, Ev.close st r ∉ before) ∧
    (∀ st r, Ev.close st r ∉ after) ∧ (∀ op b, Ev.data op b ∉ after) ∧ (∀ op b, Ev.finish op b ∉ after) := by
  have hg := history_good env history s (.inl ⟨h1, by simp [h0]⟩)
  rcases hg with hg | ⟨_, a, st, r, b, e, ha, hb⟩
  · have := hg.2 (.close status reason) (by rw [h]; simp)
    simp [Ev.isClose] at this
  · -- the two places are the same
    have e' := h.symm.trans e
    have : before = a ∧ after = b := by
      rcases List.append_eq_append_iff.1 e' with ⟨c, hc1, hc2⟩ | ⟨c, hc1, hc2⟩
      · cases c with
        | nil => simp at hc1 hc2; exact ⟨hc1.symm, hc2.2⟩
        | cons x c =>
          simp only [List.cons_append, List.cons.injEq] at hc2
          have := ha (.close status reason) (by rw [hc1, ← hc2.1]; simp)
          simp [Ev.isClose] at this
      · cases c with
        | nil => simp at hc1 hc2; exact ⟨hc1, hc2.2.symm⟩
        | cons x c =>
          simp only [List.cons_append, List.cons.injEq] at hc2
          have := hb (.close status reason) (by rw [hc2.2]; simp)
          simp [Ev.isCallback] at this
    obtain ⟨rfl, rfl⟩ := this
    refine ⟨?_, ?_, ?_, ?_⟩
    · intro st r hm; simpa [Ev.isClose] using ha _ hm
    · intro st r hm; simpa [Ev.isCallback] using hb _ hm
    · intro op x hm; simpa [Ev.isCallback] using hb _ hm
    · intro op x hm; simpa [Ev.isCallback] using hb _ hm

/-- Two frames behind a CLOSE frame, a failure and the end of the connection. -/
example : (([.stream 0 [0x88, 0x82, 0, 0, 0, 0, 3, 0xE8, 0x81, 0x81, 0, 0, 0, 0, 65], .stream 0 [0x81, 0x81, 0, 0, 0, 0, 65],
      .fail 1002 [], .app_shut_down 1000 [], .closed] : List Input).foldl (Session.input plainEnv) freshSession).trace
    = [.close 1000 [], .sent [0x88, 2, 3, 0xE8], .shut_down] := by decide +kernel

/-- C14: when the connection has ended, the close has been reported. -/
theorem C14_reported {Z : Type} (env : Env Z) (s : Session Z) (h0 : s.trace = []) (h1 : s.closure_notified = false)
    (history more : List Input) : ∃ status reason,
    Ev.close status reason ∈ ((history ++ .closed :: more).foldl (Session.input env) s).trace := by
  have hg := history_good env history s (.inl ⟨h1, by simp [h0]⟩)
  rw [List.foldl_append, List.foldl_cons]
  generalize List.foldl (Session.input env) s history = t at hg
  have key : ∀ (l : List Input) (t : Session Z), Shut t → Shut (l.foldl (Session.input env) t) := by
    intro l
    induction l with
    | nil => intro t h; exact h
    | cons i l ih =>
      intro t h
      refine ih _ ?_
      have hx := input_good env t i (.inr h)
      rcases hx with hx | hx
      · exfalso
        -- the flag is never reset
        have hflag : (t.input env i).closure_notified = true := by
          have hc : t.closure_notified = true := h.1
          cases i with
          | stream a d =>
            show (t.stream env a d).1.closure_notified = true
            rw [stream_eq]
            have : t.iterate env a d = .stop t [] := by unfold Session.iterate; rw [if_pos (by simp [hc])]
            rw [this]; exact hc
          | handshake => exact hc
          | fail st r => show (t.close_once env st r).1.closure_notified = true; simp [Session.close_once, hc]
          | closed => show (t.close_once env _ _).1.closure_notified = true; simp [Session.close_once, hc]
          | send b => exact hc
          | app_shut_down st r => exact (shut_shut_down env t _ r h).1
        have := hx.1
        rw [hflag] at this
        simp at this
      · exact hx
  obtain ⟨_, a, st, r, b, e, _⟩ := key more _ (shut_close_once env t 1006 _ hg : Shut (t.input env .closed))
  exact ⟨st, r, by rw [show (more.foldl (Session.input env) (t.input env .closed)).trace = _ from e]; simp⟩

/-- A session that has received part of a frame when the connection breaks. -/
example : (([.stream 0 [0x81, 0x85, 0, 0, 0, 0, 65], .closed] : List Input).foldl (Session.input plainEnv) freshSession).trace.map
    (fun e => match e with | .close st _ => st | _ => 0) = [0, 1006, 0, 0] := by decide +kernel

/-! ## C16 -/

/-- `bytes` are one frame `f` with `payload`, as RFC 6455 wants it: the header, then the payload, masked if there is a key. -/
def IsFrame (bytes : Bytes) (f : WsFrame) (payload : Bytes) : Prop :=
  bytes = encode (toHeader f) ++ f.transform payload ∧ f.len = payload.length

theorem or80_lt (r : Nat) (hr : r < 2 ^ 31) : (0x80 ||| r) % 2 ^ 32 = 0x80 ||| r ∧ (0x80 ||| r) < 2 ^ 32 := by
  have : 0x80 ||| r < 2 ^ 32 := Nat.or_lt_two_pow (by decide) (Nat.lt_trans hr (by decide))
  exact ⟨Nat.mod_eq_of_lt this, this⟩

theorem raw_frame_spec (server : Bool) (r op : Nat) (data : Bytes) (hop : op < 256) :
    ∃ f : WsFrame, IsFrame (raw_frame server r op data) f data ∧ f.fin = op.testBit 7 ∧ f.rsv1 = op.testBit 6 ∧
      f.rsv2 = op.testBit 5 ∧ f.rsv3 = op.testBit 4 ∧ f.opcode = op &&& 15 ∧ f.opcode < 16 ∧
      f.key = (if server then none else some ((0x80 ||| r) % 2 ^ 32)) := by
  refine ⟨{ fin := op.testBit 7, rsv1 := op.testBit 6, rsv2 := op.testBit 5, rsv3 := op.testBit 4, opcode := op &&& 15
            key := if server then none else some ((0x80 ||| r) % 2 ^ 32), len := data.length }, ⟨?_, rfl⟩, rfl, rfl, rfl, rfl, rfl, ?_, rfl⟩
  · unfold raw_frame
    cases server with
    | true =>
      simp only [if_true, Bool.not_true]
      rw [mask_payload_unmasked _ _ _ rfl]
      rfl
    | false =>
      have hk : (0x80 ||| r) % 2 ^ 32 < 2 ^ 32 := Nat.mod_lt _ (by decide)
      simp only [Bool.false_eq_true, if_false, Bool.not_false]
      rw [mask_payload_spec _ _ _ hk rfl]
      simp only
      rw [maskRec_eq _ _ hk]
      rfl
  · simp only
    have := Nat.and_le_right (n := op) (m := 15)
    omega

/-- C16: what `ws_send` sends is one frame: FIN set, the opcode asked for, masked exactly if sent by a client, RSV1 exactly if
the payload is the compressed message (only for data messages when the extension is active), legal for the peer, and
the payload is the message otherwise. -/
theorem C16_send (server pmce no_ctx : Bool) (random : Nat) (deflate : Bytes → Option Bytes) (opcode : Nat) (data bytes : Bytes)
    (h : ws_send_frame server pmce no_ctx random deflate opcode data = .ok bytes)
    (hfit : data.length < 2 ^ 64) (hz : ∀ z, deflate data = some z → z.length < 2 ^ 64) :
    ∃ (f : WsFrame) (payload : Bytes), IsFrame bytes f payload ∧ f.Fits ∧ f.fin = true ∧ f.opcode = opcode ∧
      (f.key = none ↔ server = true) ∧
      f.Legal (!server) pmce false ∧
      (f.rsv1 = false → payload = data) ∧
      (f.rsv1 = true → pmce = true ∧ (opcode = 1 ∨ opcode = 2) ∧ deflate data = some payload) := by
  have gen : ∀ (c : Nat) (z : Bytes), (c = 0b10000000 ∨ c = 0b11000000 ∧ (opcode = 1 ∨ opcode = 2) ∧ pmce = true) →
      (opcode = 1 ∨ opcode = 2 ∨ (opcode = 9 ∨ opcode = 10) ∧ z.length ≤ 125) → z.length < 2 ^ 64 →
      ∃ f : WsFrame, IsFrame (raw_frame server random (c ||| opcode) z) f z ∧ f.Fits ∧ f.fin = true ∧ f.opcode = opcode ∧
        (f.key = none ↔ server = true) ∧ f.Legal (!server) pmce false ∧ f.rsv1 = decide (c = 0b11000000) := by
    intro c z hc ho hz
    obtain ⟨f, h1, h2, h3, h4, h5, h6, h7, h8⟩ := raw_frame_spec server random (c ||| opcode) z
      (by rcases hc with rfl | ⟨rfl, _⟩ <;> rcases ho with rfl | rfl | ⟨rfl | rfl, _⟩ <;> decide)
    have hb : (c ||| opcode).testBit 7 = true ∧ (c ||| opcode).testBit 6 = decide (c = 0b11000000) ∧ (c ||| opcode).testBit 5 = false ∧
        (c ||| opcode).testBit 4 = false ∧ (c ||| opcode) &&& 15 = opcode := by
      rcases hc with rfl | ⟨rfl, _⟩ <;> rcases ho with rfl | rfl | ⟨rfl | rfl, _⟩ <;> decide
    rw [hb.1] at h2; rw [hb.2.1] at h3; rw [hb.2.2.1] at h4; rw [hb.2.2.2.1] at h5; rw [hb.2.2.2.2] at h6
    have hkey : f.key = none ↔ server = true := by rw [h8]; cases server <;> simp
    refine ⟨f, h1, ⟨h7, ?_, by rw [h1.2]; exact hz⟩, h2, h6, hkey, ⟨?_, ?_⟩, h3⟩
    · intro k hk
      rw [h8] at hk
      cases server with
      | true => simp at hk
      | false => simp at hk; rw [← hk]; exact Nat.mod_lt _ (by decide)
    · intro hs hn
      rw [hkey.1 hn] at hs; simp at hs
    · rw [h6, h1.2, h2, h3, h4, h5]
      rcases ho with ho | ho | ⟨ho, hlen⟩
      · left
        refine ⟨.inl ho, rfl, ?_, rfl, rfl⟩
        intro hd
        rcases hc with rfl | ⟨rfl, _, hp⟩
        · simp at hd
        · exact hp
      · left
        refine ⟨.inr ho, rfl, ?_, rfl, rfl⟩
        intro hd
        rcases hc with rfl | ⟨rfl, _, hp⟩
        · simp at hd
        · exact hp
      · right; right
        have : ¬ c = 0b11000000 := by
          intro hc'
          rcases hc with rfl | ⟨_, h', _⟩
          · simp at hc'
          · omega
        exact ⟨by omega, rfl, hlen, by simp [this], rfl, rfl⟩
  unfold ws_send_frame at h
  simp only at h
  have plain : ∀ z : Bytes, z = data → (opcode = 1 ∨ opcode = 2 ∨ (opcode = 9 ∨ opcode = 10) ∧ z.length ≤ 125) → .ok (raw_frame server random (0b10000000 ||| opcode) z) = (Except.ok bytes : Except String Bytes) → 
      ∃ (f : WsFrame) (payload : Bytes), IsFrame bytes f payload ∧ f.Fits ∧ f.fin = true ∧ f.opcode = opcode ∧
      (f.key = none ↔ server = true) ∧ f.Legal (!server) pmce false ∧ (f.rsv1 = false → payload = data) ∧
      (f.rsv1 = true → pmce = true ∧ (opcode = 1 ∨ opcode = 2) ∧ deflate data = some payload) := by
    intro z hzd ho hb
    obtain ⟨f, a, b, c, d, e, g, i⟩ := gen 0b10000000 z (.inl rfl) ho (by rw [hzd]; exact hfit)
    simp only [Except.ok.injEq] at hb
    refine ⟨f, z, by rw [← hb]; exact a, b, c, d, e, g, fun _ => hzd, fun h1 => ?_⟩
    rw [i] at h1; simp at h1
  split at h
  · rename_i ho
    have ho1 : opcode = 1 ∨ opcode = 2 := ho
    generalize (if no_ctx = true then 1024 else 64) = threshold at h
    split at h
    · rename_i hp
      split at h
      · rename_i z hd
        obtain ⟨f, a, b, c, d, e, g, i⟩ := gen 0b11000000 z (.inr ⟨rfl, ho1, hp.1⟩) (by omega) (hz z hd)
        simp only [Except.ok.injEq] at h
        refine ⟨f, z, by rw [← h]; exact a, b, c, d, e, g, fun h1 => ?_, fun _ => ⟨hp.1, ho1, hd⟩⟩
        rw [i] at h1; simp at h1
      · exact plain data rfl (by omega) h
    · exact plain data rfl (by omega) h
  · split at h
    · rename_i ho
      have ho1 : opcode = 9 ∨ opcode = 10 := ho
      split at h
      · simp at h
      · exact plain data rfl (by omega) h
    · simp at h

example : (ws_send_frame false true false 0x12345678 (fun _ => none) 1 [72, 105]).toOption
    = some [0x81, 0x82, 0x12, 0x34, 0x56, 0xF8, 72 ^^^ 0x12, 105 ^^^ 0x34] := by decide +kernel

/-- C16: `ws_send` refuses exactly the other opcodes and oversized control messages. -/
theorem C16_refused (server pmce no_ctx : Bool) (random : Nat) (deflate : Bytes → Option Bytes) (opcode : Nat) (data : Bytes) :
    (∃ e, ws_send_frame server pmce no_ctx random deflate opcode data = .error e) ↔
      ¬ (opcode = 1 ∨ opcode = 2 ∨ (opcode = 9 ∨ opcode = 10) ∧ data.length ≤ 125) := by
  unfold ws_send_frame
  show (∃ e, (if opcode = 1 ∨ opcode = 2 then _ else if opcode = 9 ∨ opcode = 10 then _ else _) = _) ↔ _
  by_cases h1 : opcode = 1 ∨ opcode = 2
  · rw [if_pos h1]
    constructor
    · rintro ⟨e, he⟩
      simp only at he
      (repeat' split at he) <;> simp at he
    · intro h; omega
  · rw [if_neg h1]
    by_cases h2 : opcode = 9 ∨ opcode = 10
    · rw [if_pos h2]
      by_cases h3 : data.length > 125
      · rw [if_pos h3]; exact ⟨fun _ => by omega, fun _ => ⟨_, rfl⟩⟩
      · rw [if_neg h3]; exact ⟨fun h => by obtain ⟨e, he⟩ := h; simp at he, fun h => by omega⟩
    · rw [if_neg h2]; exact ⟨fun _ => by omega, fun _ => ⟨_, rfl⟩⟩

example : ¬ ((9 : Nat) = 1 ∨ (9 : Nat) = 2 ∨ ((9 : Nat) = 9 ∨ (9 : Nat) = 10) ∧ (List.replicate 126 (0 : UInt8)).length ≤ 125) := by
  rw [List.length_replicate]; decide

/-- C16: what `ws_shut_down` sends is a CLOSE frame, legal for the peer, with a status from 1000 to 4999 (the one asked for if
it is in this range) and as much of the reason as fits. -/
theorem C16_shut_down {Z : Type} (env : Env Z) (s : Session Z) (status : Int) (reason : Bytes)
    (hs : env.send_throws s.trace = false) (hu : s.upgraded = true) (hc : env.closing s.trace = false) :
    ∃ (bytes : Bytes) (f : WsFrame) (st : Nat), (s.ws_shut_down_int env status reason).trace = s.trace ++ [.sent bytes, .shut_down] ∧
      1000 ≤ st ∧ st ≤ 4999 ∧ (1000 ≤ status → status ≤ 4999 → (st : Int) = status) ∧
      IsFrame bytes f (UInt8.ofNat (st / 256) :: UInt8.ofNat (st % 256) :: reason.take 123) ∧ f.Fits ∧ f.fin = true ∧ f.opcode = 8 ∧
      (f.key = none ↔ env.server = true) ∧ ∀ pmce inMsg, f.Legal (!env.server) pmce inMsg := by
  obtain ⟨st, hst⟩ : ∃ st, (if 1000 ≤ status ∧ status ≤ 4999 then status.toNat else 1008) = st := ⟨_, rfl⟩
  have hr : 1000 ≤ st ∧ st ≤ 4999 ∧ (1000 ≤ status → status ≤ 4999 → (st : Int) = status) := by
    rw [← hst]; split <;> omega
  have hp : close_payload st reason = UInt8.ofNat (st / 256) :: UInt8.ofNat (st % 256) :: reason.take 123 := by
    unfold close_payload
    have : beBytes 2 st = [UInt8.ofNat (st / 256), UInt8.ofNat (st % 256)] := by
      simp [beBytes]
      apply UInt8.toNat_inj.1
      simp
    rw [this]; rfl
  obtain ⟨f, h1, h2, h3, h4, h5, h6, h7, h8⟩ := raw_frame_spec env.server (env.random s.trace) (0b10000000 ||| 8) (close_payload st reason) (by decide)
  have hkey : f.key = none ↔ env.server = true := by rw [h8]; cases env.server <;> simp
  have hlen : f.len ≤ 125 := by rw [h1.2, hp]; simp; omega
  refine ⟨_, f, st, ?_, hr.1, hr.2.1, hr.2.2, by rw [← hp]; exact h1, ⟨h7, ?_, by omega⟩, h2, h6, hkey, ?_⟩
  · unfold Session.ws_shut_down_int Session.ws_shut_down Session.send_raw
    rw [if_neg (by simp [hu, hc]), if_neg (by simp [hs]), hst]
    simp [Session.push]
  · intro k hk
    rw [h8] at hk
    split at hk
    · simp at hk
    · simp only [Option.some.injEq] at hk; rw [← hk]; exact Nat.mod_lt _ (by decide)
  · intro pmce inMsg
    refine ⟨fun hs hn => ?_, .inr (.inr ⟨.inl h6, h2, hlen, h3, h4, h5⟩)⟩
    rw [hkey.1 hn] at hs; simp at hs

example : (freshSession.ws_shut_down_int plainEnv 77 [65]).trace = [.sent [0x88, 3, 3, 0xF0, 65], .shut_down] := by decide +kernel

/-- C16: a peer that receives such a frame, at any point where it is legal, recovers the payload. -/
theorem C16_recovered (p : Parser) (hp : Waiting p) (bytes : Bytes) (f : WsFrame) (payload : Bytes) (hf : f.Fits)
    (hb : IsFrame bytes f payload) (hl : f.Legal (isServer p) (hasPmce p) (inMessage p))
    (hmax : payload.length ≤ p.max_message_length) (addr : Nat) :
    ∃ p1 wire p2, p.parse_frame_header bytes = .ok (p1, wire) ∧ p1.parse_frame_payload addr wire = .ok (p2, []) ∧
      p2.frame_payload_complete = true ∧ p2.error = false ∧ p2.frm_payload = payload := by
  rw [← inMessage_forget] at hl
  have h1 := parse_legal p f hf (f.transform payload) hp.established hp.new hl
  obtain ⟨p2, g1, g2, g3, g4, _⟩ := payload_whole p _ f hf (ready_completed p hp f hf) payload hb.2.symm (by rw [hb.2]; exact hmax) addr []
  rw [List.append_nil] at g1
  exact ⟨_, _, p2, by rw [hb.1]; exact h1, g1, g2, g3, g4⟩

example : (let f : WsFrame := ⟨true, false, false, false, 1, some 0x123456F8, 2⟩
    IsFrame [0x81, 0x82, 0x12, 0x34, 0x56, 0xF8, 72 ^^^ 0x12, 105 ^^^ 0x34] f [72, 105] ∧
    f.Legal (isServer freshServer) (hasPmce freshServer) (inMessage freshServer)) := by
  refine ⟨⟨by decide +kernel, rfl⟩, by decide⟩

/-! ## C15 -/

/-- The frames as transmitted. -/
def wire (frames : List (WsFrame × Bytes)) : Bytes :=
  (frames.map (fun x => encode (toHeader x.1) ++ x.1.transform x.2)).flatten

/-- What the application has been given: finished messages and the close. -/
def delivered (trace : List Ev) : List Delivered :=
  trace.filterMap (fun e => match e with
    | .finish op b => some (.message op b)
    | .close st r => some (.close st r)
    | _ => none)

/-- An environment with the default `do_on_ws_message_data_stream()` and callbacks that do not throw. -/
structure Quiet {Z : Type} (env : Env Z) (max : Nat) : Prop where
  data : ∀ tr op b, env.on_data tr op b = if b.length > max then none else some b
  finish : ∀ tr op b, env.on_finish tr op b ≠ none
  send : ∀ tr, env.send_throws tr = false
  close : ∀ tr st r, env.on_close tr st r = false

/-- A frame with its payload that can be put into the wire format, without compression; a CLOSE payload has no status, or a
whole one. -/
structure Plain (x : WsFrame × Bytes) : Prop where
  fits : x.1.Fits
  len : x.2.length = x.1.len
  plain : x.1.rsv1 = false
  close : x.1.opcode = 8 → x.2.length ≠ 1

/-- The session waits for a frame and agrees with the state of the specification. -/
def Agrees {Z : Type} (s : Session Z) : MsgState → Prop
  | .idle => Waiting s.parser ∧ s.closure_notified = false ∧ inMessage s.parser = false
  | .inside op bytes => Waiting s.parser ∧ s.closure_notified = false ∧ inMessage s.parser = true ∧
      s.parser.m_opcode = op ∧ s.parser.m_rsv1 = false ∧ s.m_msg = bytes
  | .closed => s.closure_notified = true

theorem splice_spec (a b : Bytes) : Utils.splice_buffers a b = (a ++ b, []) := by
  unfold Utils.splice_buffers
  cases a <;> cases b <;> simp

/-- One data frame, up to the callbacks. -/
theorem combined_plain {Z : Type} (env : Env Z) (max : Nat) (hq : Quiet env max) (s : Session Z) (hr : s.parser.m_rsv1 = false)
    (base : Bytes) (hb : base = if s.parser.frm_header.opcode ≠ 0 then [] else s.m_msg)
    (hmax : (base ++ s.parser.frm_payload).length ≤ max) :
    ∃ t : Session Z, s.data_frame env = .go t ∧ t.m_msg = base ++ s.parser.frm_payload ∧
      t.parser = { s.parser with frm_payload := [] } ∧ t.closure_notified = s.closure_notified ∧ t.upgraded = s.upgraded ∧
      delivered t.trace = delivered s.trace ∧ t.pmce.map Prod.fst = s.pmce.map Prod.fst := by
  have hm : s.start_message.m_msg = base ∧ s.start_message.parser = s.parser ∧ s.start_message.closure_notified = s.closure_notified ∧
      s.start_message.upgraded = s.upgraded ∧ s.start_message.trace = s.trace ∧ s.start_message.pmce.map Prod.fst = s.pmce.map Prod.fst := by
    unfold Session.start_message
    split <;> rename_i h
    · rw [hb, if_pos h]; exact ⟨rfl, rfl, rfl, rfl, rfl, by cases s.pmce <;> rfl⟩
    · rw [hb, if_neg h]; exact ⟨rfl, rfl, rfl, rfl, rfl, rfl⟩
  obtain ⟨m1, m2, m3, m4, m5, m6⟩ := hm
  unfold Session.data_frame
  simp only
  rw [m2, hr]
  simp only [Bool.false_eq_true, if_false]
  unfold Session.combined Session.combine
  have hod : ∀ tr op, env.on_data tr op (base ++ s.parser.frm_payload) = some (base ++ s.parser.frm_payload) := by
    intro tr op; rw [hq.data, if_neg (by omega)]
  simp only [m1, m2, m5, splice_spec, hod, Bool.false_eq_true, if_false]
  refine ⟨_, rfl, rfl, ?_, m3, m4, ?_, m6⟩
  · simp only [Session.push, m2, hr]
  · simp [Session.push, m5, delivered]

/-- One whole frame. -/
theorem frame_step {Z : Type} (env : Env Z) (max : Nat) (hq : Quiet env max) (s : Session Z) (st : MsgState) (ha : Agrees s st)
    (hst : st ≠ .closed) (hmaxp : s.parser.max_message_length = max) (x : WsFrame × Bytes) (hx : Plain x)
    (hl : x.1.Legal (isServer s.parser) (hasPmce s.parser) (inMessage s.parser))
    (hw : Room max st x) (addr : Nat) (rest : Bytes) :
    ∃ t : Session Z, Agrees t (assemble1 st x).1 ∧ delivered t.trace = delivered s.trace ++ (assemble1 st x).2 ∧
      (if (assemble1 st x).1 = .closed then s.iterate env addr (encode (toHeader x.1) ++ x.1.transform x.2 ++ rest) = .stop t []
       else s.iterate env addr (encode (toHeader x.1) ++ x.1.transform x.2 ++ rest) = .next t rest ∧
         t.parser.max_message_length = max ∧ isServer t.parser = isServer s.parser ∧ hasPmce t.parser = hasPmce s.parser ∧
         inMessage t.parser = x.1.after (inMessage s.parser) ∧ t.pmce.map Prod.fst = s.pmce.map Prod.fst) := by
  obtain ⟨f, payload⟩ := x
  obtain ⟨hfits, hlen, hrsv, hclose⟩ := hx
  simp only at hfits hlen hrsv hclose hl hw ⊢
  have hwait : Waiting s.parser := by cases st with | idle => exact ha.1 | inside => exact ha.1 | closed => exact absurd rfl hst
  have hopen : s.closure_notified = false := by cases st with | idle => exact ha.2.1 | inside => exact ha.2.1 | closed => exact absurd rfl hst
  have hl' := hl
  rw [← inMessage_forget] at hl'
  have h1 := parse_legal s.parser f hfits (f.transform payload ++ rest) hwait.established hwait.new hl'
  have hplen : f.len ≤ s.parser.max_message_length := by
    rw [hmaxp, ← hlen]
    cases st with
    | idle => exact hw
    | inside op b => simp only [Room] at hw; omega
    | closed => exact absurd rfl hst
  obtain ⟨p2, g1, g2, g3, g4, g5, g6, g7, g8⟩ :=
    payload_whole s.parser _ f hfits (ready_completed s.parser hwait f hfits) payload hlen hplen addr rest
  obtain ⟨w1, w2, w3, w4, w5, w6, w7⟩ := waiting_next s.parser hwait f hfits.opcode hl
  have hop : p2.frm_header.opcode = f.opcode := g6
  have hfin : p2.frm_header.fin = f.fin := g7
  -- the iteration reduces to the handling of the frame
  have hiter : s.iterate env addr (encode (toHeader f) ++ f.transform payload ++ rest) =
      (if p2.frm_header.opcode ≤ 7 then
        match ({ s with parser := p2 } : Session Z).data_frame env with
        | .go s => if !s.parser.frame_payload_complete then .stop s rest else s.frame_done env rest
        | .threw s => .throw s rest
        | .closed r => Iter.leave r []
       else ({ s with parser := p2 } : Session Z).frame_done env rest) := by
    unfold Session.iterate
    rw [if_neg (by simp [Parser.error, hwait.new, hopen]), if_pos (by simp [Parser.frame_header_complete, hwait.new])]
    rw [List.append_assoc, h1]
    simp only
    rw [if_neg (by simp [completed, Parser.error]), if_neg (by simp [completed, Parser.frame_header_complete]),
      if_pos (by simp [completed, Parser.frame_payload_complete])]
    unfold Session.payload_part
    simp only
    rw [g1]
    simp only
    rw [if_neg (by simp [g3])]
    simp only [g2, Bool.not_true, Bool.false_eq_true, if_false]
    rfl
  rw [hiter]
  have hm1 : p2.m_rsv1 = (completed s.parser.forget f).m_rsv1 := by
    have := congrArg Parser.m_rsv1 g5
    exact this
  have hmop : p2.m_opcode = (completed s.parser.forget f).m_opcode := g8
  -- the message flags after the header
  have hdata : f.opcode = 0 ∨ f.opcode = 1 ∨ f.opcode = 2 → p2.m_rsv1 = false := by
    intro h
    rw [hm1]
    show (note s.parser.forget f).m_rsv1 = false
    unfold note
    by_cases hf : f.opcode = 1 ∨ f.opcode = 2
    · rw [if_pos hf]; exact hrsv
    · rw [if_neg hf, if_pos (by omega)]
      have : s.parser.forget.m_rsv1 = false := by
        have hin : inMessage s.parser = true := by
          rcases hl.2 with h | h | h
          · omega
          · exact h.2.1
          · omega
        cases st with
        | idle => have := ha.2.2; rw [this] at hin; simp at hin
        | inside op b =>
          have hr := ha.2.2.2.2.1
          unfold Parser.forget; split
          · rfl
          · exact hr
        | closed => exact absurd rfl hst
      split <;> exact this
  by_cases hd : f.opcode = 0 ∨ f.opcode = 1 ∨ f.opcode = 2
  · -- data frame
    rw [if_pos (by rw [hop]; omega)]
    have hbase : ∃ base op, (base = if f.opcode ≠ 0 then [] else s.m_msg) ∧ (base ++ payload).length ≤ max ∧
        p2.m_opcode = op ∧ assemble1 st (f, payload) = extend op base payload f.fin := by
      by_cases h0 : f.opcode = 0
      · have hin : inMessage s.parser = true := by
          rcases hl.2 with h | h | h
          · omega
          · exact h.2.1
          · omega
        cases st with
        | idle => have := ha.2.2; rw [this] at hin; simp at hin
        | closed => exact absurd rfl hst
        | inside op b =>
          have hb := ha.2.2.2.2.2
          have ho := ha.2.2.2.1
          refine ⟨b, op, by rw [if_neg (by simp [h0])]; exact hb.symm, ?_, ?_, ?_⟩
          · simp only [Room, h0, if_true] at hw; simpa using hw
          · rw [hmop, w6, if_pos (.inl h0)]
            have : s.parser.m_fin = false := by unfold inMessage at hin; simp at hin; exact hin.2
            rw [show s.parser.forget = s.parser by unfold Parser.forget; rw [if_neg (by simp [this])]]
            exact ho
          · simp only [assemble1]
            rw [if_neg (by omega), if_pos h0]
      · refine ⟨[], f.opcode, by rw [if_pos h0], ?_, ?_, ?_⟩
        · simp only [List.nil_append]
          rw [hlen]; rw [hmaxp] at hplen; exact hplen
        · rw [hmop, w6, if_neg (by omega)]
        · have h12 : f.opcode = 1 ∨ f.opcode = 2 := by omega
          cases st with
          | idle => simp only [assemble1]; rw [if_pos h12]
          | inside => simp only [assemble1]; rw [if_pos h12]
          | closed => exact absurd rfl hst
    obtain ⟨base, op, hb1, hb2, hb3, hb4⟩ := hbase
    obtain ⟨t, t1, t2, t3, t4, t5, t6, t7⟩ := combined_plain env max hq { s with parser := p2 } (hdata hd) base
      (by simp only [hop]; exact hb1) (by simp only [g4]; exact hb2)
    rw [t1]
    simp only at t2 t3 t4 t5 t6 t7 ⊢
    rw [g4] at t2
    have tc : t.parser.frame_payload_complete = true := by rw [t3]; exact g2
    rw [tc]
    simp only [Bool.not_true, Bool.false_eq_true, if_false]
    have tnext : t.parser.next_frame = (completed s.parser.forget f).next_frame := by rw [t3]; exact g5
    have hin' : inMessage t.parser.next_frame = !f.fin := by
      rw [tnext, w4]; unfold WsFrame.after; rw [if_neg (by omega)]
    have hrsv' : t.parser.next_frame.m_rsv1 = false := by
      show t.parser.m_rsv1 = false; rw [t3]; exact hdata hd
    have hop' : t.parser.next_frame.m_opcode = op := by
      show t.parser.m_opcode = op; rw [t3]; exact hb3
    unfold Session.frame_done
    simp only
    have e1 : t.parser.frm_header.fin = f.fin := by rw [t3]; exact hfin
    have e2 : t.parser.frm_header.opcode = f.opcode := by rw [t3]; exact hop
    have e3 : t.parser.m_opcode = op := hop'
    rw [e1, e2, hb4]
    cases hf : f.fin with
    | false =>
      simp only [Bool.not_false, if_true, extend, Bool.false_eq_true, if_false]
      refine ⟨{ t with parser := t.parser.next_frame }, ?_, ?_, ?_⟩
      · refine ⟨by simp only [tnext]; exact w1, t4.trans hopen, by simp only [hin', hf]; rfl, hop', hrsv', t2⟩
      · simp [t6]
      · simp only [reduceCtorEq, if_false, true_and]
        refine ⟨by rw [tnext, w5, hmaxp], by rw [tnext]; exact w2, by rw [tnext]; exact w3, by rw [tnext]; exact w4, t7⟩
    | true =>
      simp only [Bool.not_true, Bool.false_eq_true, if_false, extend, if_true]
      rw [if_pos (show f.opcode = 0 ∨ f.opcode = 1 ∨ f.opcode = 2 from hd)]
      rw [e3]
      cases hfi : env.on_finish t.trace op t.m_msg with
      | none => exact absurd hfi (hq.finish _ _ _)
      | some left =>
        simp only
        refine ⟨{ t.push (.finish op t.m_msg) with m_msg := left, parser := t.parser.next_frame }, ?_, ?_, ?_⟩
        · refine ⟨by simp only [tnext]; exact w1, t4.trans hopen, by simp only [hin', hf]; rfl⟩
        · have : delivered (t.push (.finish op t.m_msg)).trace = delivered t.trace ++ [.message op t.m_msg] := by
            simp [Session.push, delivered]
          simp only
          rw [this, t6, t2]
        · simp only [reduceCtorEq, if_false]
          refine ⟨rfl, by simp only [tnext]; rw [w5, hmaxp], by simp only [tnext]; exact w2, by simp only [tnext]; exact w3, by simp only [tnext]; exact w4, t7⟩
  · -- control frame
    have hc : (f.opcode = 8 ∨ f.opcode = 9 ∨ f.opcode = 10) ∧ f.fin = true := by
      rcases hl.2 with h | h | h
      · omega
      · omega
      · exact ⟨h.1, h.2.1⟩
    rw [if_neg (by rw [hop]; omega)]
    have hnote := note_ctrl s.parser.forget f hc.1
    have hmop2 : p2.m_opcode = s.parser.forget.m_opcode ∧ p2.m_rsv1 = s.parser.forget.m_rsv1 := by
      rw [hmop, hm1]
      show (note s.parser.forget f).m_opcode = _ ∧ (note s.parser.forget f).m_rsv1 = _
      rw [hnote]; exact ⟨rfl, rfl⟩
    have hin' : inMessage p2.next_frame = inMessage s.parser := by
      rw [g5, w4]; unfold WsFrame.after; rw [if_pos (by omega)]
    -- a control message leaves the message state alone
    have keep : ∀ t : Session Z, t.parser = p2.next_frame → t.closure_notified = false → t.m_msg = s.m_msg → Agrees t st := by
      intro t hp hn hm
      cases st with
      | closed => exact absurd rfl hst
      | idle =>
        have := ha.2.2
        exact ⟨by rw [hp, g5]; exact w1, hn, by rw [hp, hin']; exact this⟩
      | inside op b =>
        obtain ⟨_, _, h3, h4, h5, h6⟩ := ha
        have hnf : s.parser.forget = s.parser := by
          have : s.parser.m_fin = false := by unfold inMessage at h3; simp at h3; exact h3.2
          unfold Parser.forget; rw [if_neg (by simp [this])]
        rw [hnf] at hmop2
        refine ⟨by rw [hp, g5]; exact w1, hn, by rw [hp, hin']; exact h3, ?_, ?_, by rw [hm]; exact h6⟩
        · rw [hp]; show p2.m_opcode = op; rw [hmop2.1]; exact h4
        · rw [hp]; show p2.m_rsv1 = false; rw [hmop2.2]; exact h5
    have after' : ∀ t : Session Z, t.parser = p2.next_frame → t.pmce = s.pmce → t.parser.max_message_length = max ∧ isServer t.parser = isServer s.parser ∧
        hasPmce t.parser = hasPmce s.parser ∧ inMessage t.parser = f.after (inMessage s.parser) ∧ t.pmce.map Prod.fst = s.pmce.map Prod.fst := by
      intro t hp hz
      rw [hp, g5, hz]
      exact ⟨by rw [w5, hmaxp], w2, w3, w4, rfl⟩
    unfold Session.frame_done
    simp only
    rw [hop, hfin, hc.2, g4]
    simp only [Bool.not_true, Bool.false_eq_true, if_false]
    rw [if_neg (show ¬ (f.opcode = 0 ∨ f.opcode = 1 ∨ f.opcode = 2) from hd)]
    have hasm : f.opcode ≠ 8 → assemble1 st (f, payload) = (st, [.message f.opcode payload]) := by
      intro h8
      cases st with
      | closed => exact absurd rfl hst
      | idle => simp only [assemble1]; rw [if_neg (by omega), if_neg (by omega), if_neg h8]
      | inside op b => simp only [assemble1]; rw [if_neg (by omega), if_neg (by omega), if_neg h8]
    by_cases h8 : f.opcode = 8
    · rw [if_pos (show f.opcode = ws_CLOSE from h8)]
      have hasm8 : assemble1 st (f, payload) =
          (.closed, [.close (if payload.isEmpty then 1005 else beNat (payload.take 2)) (payload.drop 2)]) := by
        cases st with
        | closed => exact absurd rfl hst
        | idle => simp only [assemble1]; rw [if_neg (by omega), if_neg (by omega), if_pos h8]
        | inside op b => simp only [assemble1]; rw [if_neg (by omega), if_neg (by omega), if_pos h8]
      rw [hasm8]
      simp only [if_true]
      have hstat : beNat (payload.take 2 ++ (beBytes 2 1005).drop (payload.take 2).length)
          = if payload.isEmpty then 1005 else beNat (payload.take 2) := by
        have := hclose h8
        match payload, this with
        | [], _ => decide
        | [_], h => exact absurd rfl h
        | a :: b :: t, _ => simp [beBytes]
      rw [hstat, hq.close]
      refine ⟨_, ?_, ?_, rfl⟩
      · rfl
      · simp [Session.push, delivered]
    · rw [hasm h8]
      rw [if_neg (show ¬ f.opcode = ws_CLOSE from h8)]
      simp only [show (st = .closed) = False from eq_false hst, if_false]
      by_cases h9 : f.opcode = 9
      · rw [if_pos (show f.opcode = ws_PING from h9)]
        have hsend : ({ s with parser := p2 } : Session Z).send_raw env 0x8A payload =
            (({ s with parser := p2 } : Session Z).push (.sent (raw_frame env.server (env.random s.trace) 0x8A payload)), false) := by
          unfold Session.send_raw; rw [if_neg (by simp [hq.send])]
        rw [hsend]
        simp only
        rw [if_neg (by simpa using hq.finish _ _ _)]
        refine ⟨_, ?_, ?_, rfl, ?_⟩
        · exact keep _ rfl hopen rfl
        · simp [Session.push, delivered, h9]
        · exact after' _ rfl rfl
      · rw [if_neg (show ¬ f.opcode = ws_PING from h9), if_pos (show f.opcode = ws_PONG by show f.opcode = 10; omega)]
        rw [if_neg (by simpa using hq.finish _ _ _)]
        refine ⟨_, ?_, ?_, rfl, ?_⟩
        · exact keep _ rfl hopen rfl
        · have : f.opcode = 10 := by omega
          simp [Session.push, delivered, this]
        · exact after' _ rfl rfl

theorem agrees_forget {Z : Type} (s t : Session Z) (st : MsgState) (h : Agrees s st) (hp : t.parser = s.parser.forget)
    (h1 : t.closure_notified = s.closure_notified) (h2 : t.m_msg = s.m_msg) : Agrees t st := by
  obtain ⟨f1, f2, f3, f4, f5, f6, f7, f8⟩ := forget_fields s.parser
  have hwait : Waiting s.parser → Waiting t.parser := by
    intro w
    rw [hp]
    exact ⟨by rw [f3]; exact w.established, by rw [f1]; exact w.new, by rw [f7]; exact w.empty, by rw [f4]; exact w.key,
      tidy_forget s.parser w.tidy⟩
  have hin : inMessage t.parser = inMessage s.parser := by
    rw [← inMessage_forget s.parser, hp]
    unfold inMessage
    rw [f5]; simp
  cases st with
  | closed => rw [Agrees, h1]; exact h
  | idle => exact ⟨hwait h.1, h1.trans h.2.1, hin.trans h.2.2⟩
  | inside op b =>
    obtain ⟨a1, a2, a3, a4, a5, a6⟩ := h
    have hnf : s.parser.forget = s.parser := by
      have : s.parser.m_fin = false := by unfold inMessage at a3; simp at a3; exact a3.2
      unfold Parser.forget; rw [if_neg (by simp [this])]
    rw [hnf] at hp
    exact ⟨hwait a1, h1.trans a2, hin.trans a3, by rw [hp]; exact a4, by rw [hp]; exact a5, h2.trans a6⟩

/-- One read of whole frames. -/
theorem read_step {Z : Type} (env : Env Z) (max : Nat) (hq : Quiet env max) (addr : Nat) (frames : List (WsFrame × Bytes)) :
    ∀ (s : Session Z) (st : MsgState), Agrees s st → (st ≠ .closed → s.parser.max_message_length = max) →
      (∀ x ∈ frames, Plain x) →
      (st ≠ .closed → LegalSequence (isServer s.parser) (hasPmce s.parser) (inMessage s.parser) (frames.map Prod.fst)) →
      WithinLimit max st frames →
      ∃ t : Session Z, (s.stream env addr (wire frames)) = (t, [], some false) ∧ Agrees t (assemble st frames).1 ∧
        delivered t.trace = delivered s.trace ++ (assemble st frames).2 ∧
        ((assemble st frames).1 ≠ .closed → t.parser.max_message_length = max ∧ isServer t.parser = isServer s.parser ∧
          hasPmce t.parser = hasPmce s.parser ∧
          inMessage t.parser = (frames.map Prod.fst).foldl WsFrame.after (inMessage s.parser)) := by
  have closed : ∀ (frames : List (WsFrame × Bytes)), assemble .closed frames = (.closed, []) := by
    intro frames
    induction frames with
    | nil => rfl
    | cons x t ih => simp [assemble, assemble1, ih]
  induction frames with
  | nil =>
    intro s st ha hm _ _ _
    by_cases hst : st = .closed
    · subst hst
      refine ⟨s, ?_, ha, by simp [assemble], fun h => absurd rfl h⟩
      rw [stream_eq]
      have : s.iterate env addr (wire []) = .stop s [] := by
        unfold Session.iterate; rw [if_pos (by rw [show s.closure_notified = true from ha]; simp)]
      rw [this]
    · have hwait : Waiting s.parser := by cases st with | idle => exact ha.1 | inside => exact ha.1 | closed => exact absurd rfl hst
      have hopen : s.closure_notified = false := by cases st with | idle => exact ha.2.1 | inside => exact ha.2.1 | closed => exact absurd rfl hst
      obtain ⟨f1, f2, f3, f4, f5, f6, f7, f8⟩ := forget_fields s.parser
      refine ⟨{ s with parser := s.parser.forget }, ?_, agrees_forget s _ st ha rfl rfl rfl, by simp [assemble], fun _ => ?_⟩
      · rw [stream_eq]
        have hh : s.parser.parse_frame_header [] = .ok (s.parser.forget, []) := by
          unfold Parser.parse_frame_header
          rw [if_neg (by simp [hwait.established]), if_neg (by simp [hwait.new])]
        have : s.iterate env addr (wire []) = .stop { s with parser := s.parser.forget } [] := by
          unfold Session.iterate
          rw [if_neg (by simp [Parser.error, hwait.new, hopen]), if_pos (by simp [Parser.frame_header_complete, hwait.new])]
          rw [show wire [] = [] from rfl, hh]
          simp only
          rw [if_neg (by simp [Parser.error, f1, hwait.new]), if_pos (by simp [Parser.frame_header_complete, f1, hwait.new])]
        rw [this]
      · refine ⟨by rw [f8]; exact hm hst, by unfold isServer; rw [f2], by unfold hasPmce; rw [f6], ?_⟩
        rw [← inMessage_forget s.parser]
        simp only [List.map_nil, List.foldl_nil]
        unfold inMessage
        rw [f5]; simp [Parser.forget]
  | cons x rest ih =>
    intro s st ha hm hp hl hw
    by_cases hst : st = .closed
    · subst hst
      refine ⟨s, ?_, by rw [closed]; exact ha, by simp [closed], fun h => absurd (by rw [closed]) h⟩
      rw [stream_eq]
      have : s.iterate env addr (wire (x :: rest)) = .stop s [] := by
        unfold Session.iterate; rw [if_pos (by rw [show s.closure_notified = true from ha]; simp)]
      rw [this]
    · obtain ⟨t, t1, t2, t3⟩ := frame_step env max hq s st ha hst (hm hst) x (hp x (by simp)) (hl hst).1 hw.1 addr (wire rest)
      have hwire : wire (x :: rest) = encode (toHeader x.1) ++ x.1.transform x.2 ++ wire rest := by simp [wire]
      rw [hwire, stream_eq]
      by_cases hc : (assemble1 st x).1 = .closed
      · rw [if_pos hc] at t3
        rw [t3]
        refine ⟨t, rfl, ?_, ?_, fun h => absurd ?_ h⟩
        · simp only [assemble]; rw [hc, closed]; rw [hc] at t1; exact t1
        · simp only [assemble]; rw [hc, closed, t2]; simp
        · simp only [assemble]; rw [hc, closed]
      · rw [if_neg hc] at t3
        obtain ⟨t4, t5, t6, t7, t8, _⟩ := t3
        rw [t4]
        obtain ⟨u, u1, u2, u3, u4⟩ := ih t (assemble1 st x).1 t1 (fun _ => t5) (fun y hy => hp y (by simp [hy]))
          (fun _ => by rw [t6, t7, t8]; exact (hl hst).2) hw.2
        refine ⟨u, u1, u2, ?_, ?_⟩
        · rw [u3, t2]; simp [assemble]
        · intro h
          obtain ⟨v1, v2, v3, v4⟩ := u4 h
          exact ⟨v1, v2.trans t6, v3.trans t7, by rw [v4, t8]; rfl⟩

/-- A legal sequence stays legal if it is cut in two. -/
theorem legal_append (server pmce : Bool) (a b : List WsFrame) : ∀ m, LegalSequence server pmce m (a ++ b) ↔
    LegalSequence server pmce m a ∧ LegalSequence server pmce (a.foldl WsFrame.after m) b := by
  induction a with
  | nil => intro m; simp [LegalSequence]
  | cons x t ih => intro m; simp only [List.cons_append, LegalSequence, ih, List.foldl_cons, and_assoc]

theorem assemble_append (a b : List (WsFrame × Bytes)) : ∀ st, assemble st (a ++ b) =
    ((assemble (assemble st a).1 b).1, (assemble st a).2 ++ (assemble (assemble st a).1 b).2) := by
  induction a with
  | nil => intro st; simp [assemble]
  | cons x t ih => intro st; simp [assemble, ih]

theorem within_append (max : Nat) (a b : List (WsFrame × Bytes)) : ∀ st, WithinLimit max st (a ++ b) ↔
    WithinLimit max st a ∧ WithinLimit max (assemble st a).1 b := by
  induction a with
  | nil => intro st; simp [WithinLimit, assemble]
  | cons x t ih => intro st; simp only [List.cons_append, WithinLimit, ih, assemble, and_assoc]

/-- C15, for uncompressed messages and reads that consist of whole frames: whatever the fragmentation, and with control
frames anywhere in between, every message is delivered once, in order, as the concatenation of the payloads of its frames,
and a CLOSE frame is reported with its status and reason.  Not covered: a read that ends inside a frame (violated, see
`C15_violated_payload`, `C15_violated_header`), compressed messages in more than one frame (violated, see `C15_violated_compressed`;
for one frame see `C15_compressed_partial`). -/
theorem C15_partial {Z : Type} (env : Env Z) (s : Session Z) (max : Nat) (hq : Quiet env max) (hs : Waiting s.parser)
    (ho : s.closure_notified = false) (hi : inMessage s.parser = false) (hm : s.parser.max_message_length = max)
    (reads : List (Nat × List (WsFrame × Bytes))) (hp : ∀ x ∈ (reads.map Prod.snd).flatten, Plain x)
    (hl : LegalSequence (isServer s.parser) (hasPmce s.parser) false ((reads.map Prod.snd).flatten.map Prod.fst))
    (hw : WithinLimit max .idle (reads.map Prod.snd).flatten) :
    delivered ((reads.map (fun r => Input.stream r.1 (wire r.2))).foldl (Session.input env) s).trace
      = delivered s.trace ++ (assemble .idle (reads.map Prod.snd).flatten).2 := by
  have gen : ∀ (reads : List (Nat × List (WsFrame × Bytes))) (s : Session Z) (st : MsgState), Agrees s st →
      (st ≠ .closed → s.parser.max_message_length = max) → (∀ x ∈ (reads.map Prod.snd).flatten, Plain x) →
      (st ≠ .closed → LegalSequence (isServer s.parser) (hasPmce s.parser) (inMessage s.parser) ((reads.map Prod.snd).flatten.map Prod.fst)) →
      WithinLimit max st (reads.map Prod.snd).flatten →
      delivered ((reads.map (fun r => Input.stream r.1 (wire r.2))).foldl (Session.input env) s).trace
      = delivered s.trace ++ (assemble st (reads.map Prod.snd).flatten).2 := by
    intro reads
    induction reads with
    | nil => intro s st _ _ _ _ _; simp [assemble]
    | cons r rs ih =>
      intro s st ha hm hp hl hw
      simp only [List.map_cons, List.flatten_cons] at hp hl hw ⊢
      rw [within_append] at hw
      have hl2 : st ≠ .closed → LegalSequence (isServer s.parser) (hasPmce s.parser) (inMessage s.parser) (r.2.map Prod.fst) ∧
          LegalSequence (isServer s.parser) (hasPmce s.parser) ((r.2.map Prod.fst).foldl WsFrame.after (inMessage s.parser))
            ((rs.map Prod.snd).flatten.map Prod.fst) := by
        intro h; have := hl h; rw [List.map_append, legal_append] at this; exact this
      obtain ⟨t, t1, t2, t3, t4⟩ := read_step env max hq r.1 r.2 s st ha hm (fun x hx => hp x (by simp [hx])) (fun h => (hl2 h).1) hw.1
      have hcl : (assemble st r.2).1 ≠ .closed → st ≠ .closed := by
        intro h hc
        apply h
        rw [hc]
        have closed : ∀ (frames : List (WsFrame × Bytes)), assemble .closed frames = (.closed, []) := by
          intro frames
          induction frames with
          | nil => rfl
          | cons x t ih => simp [assemble, assemble1, ih]
        rw [closed]
      have hin : s.input env (.stream r.1 (wire r.2)) = t := by show (s.stream env r.1 (wire r.2)).1 = t; rw [t1]
      rw [List.foldl_cons, hin, ih t (assemble st r.2).1 t2 (fun h => (t4 h).1) (fun x hx => hp x (List.mem_append_right _ hx)) ?_ hw.2]
      · rw [t3, assemble_append]; simp
      · intro h
        obtain ⟨v1, v2, v3, v4⟩ := t4 h
        rw [v2, v3, v4]
        exact (hl2 (hcl h)).2
  exact gen reads s .idle ⟨hs, ho, hi⟩ (fun _ => hm) hp (fun _ => by rw [hi]; exact hl) hw

/-- The environment with the default size check. -/
def quietEnv : Env Unit := { plainEnv with on_data := fun _ _ b => if b.length > 0x100000 then none else some b }

/-- A text message in three frames with a PING in between, then a CLOSE frame; in two reads. -/
def sampleReads : List (Nat × List (WsFrame × Bytes)) :=
  [(0, [(⟨false, false, false, false, 1, some 1, 2⟩, [72, 101]), (⟨true, false, false, false, 9, some 2, 1⟩, [33]),
        (⟨false, false, false, false, 0, some 3, 1⟩, [108])]),
   (5, [(⟨true, false, false, false, 0, some 4, 2⟩, [108, 111]), (⟨true, false, false, false, 8, some 5, 3⟩, [3, 0xE8, 65])])]

example : Quiet quietEnv freshSession.parser.max_message_length ∧ Waiting freshSession.parser ∧
    (∀ x ∈ (sampleReads.map Prod.snd).flatten, Plain x) ∧
    LegalSequence true false false ((sampleReads.map Prod.snd).flatten.map Prod.fst) ∧
    WithinLimit 0x100000 .idle (sampleReads.map Prod.snd).flatten ∧
    (assemble .idle (sampleReads.map Prod.snd).flatten).2 = [.message 9 [33], .message 1 [72, 101, 108, 108, 111], .close 1000 [65]] := by
  refine ⟨⟨fun _ _ _ => rfl, fun _ _ _ => by simp [quietEnv, plainEnv], fun _ => rfl, fun _ _ _ => rfl⟩,
    ⟨rfl, rfl, rfl, by decide, fun _ => ⟨rfl, rfl, rfl, rfl⟩⟩, ?_, by decide, by decide, by decide +kernel⟩
  intro x hx
  simp only [sampleReads, List.map_cons, List.map_nil, List.flatten_cons, List.flatten_nil, List.append_nil, List.cons_append,
    List.nil_append, List.mem_cons, List.not_mem_nil, or_false] at hx
  rcases hx with rfl | rfl | rfl | rfl | rfl <;>
    exact ⟨⟨by decide, fun k hk => by simp at hk; omega, by decide⟩, rfl, rfl, by simp⟩

/-- C15, violation: a text frame whose payload arrives in two reads loses the first part. -/
theorem C15_violated_payload :
    ([.stream 0 [0x81, 0x85, 0, 0, 0, 0, 72, 101], .stream 0 [108, 108, 111]] : List Input).flatMap
      (fun i => match i with | .stream _ d => d | _ => []) = wire [(⟨true, false, false, false, 1, some 0, 5⟩, [72, 101, 108, 108, 111])] ∧
    delivered (([.stream 0 [0x81, 0x85, 0, 0, 0, 0, 72, 101], .stream 0 [108, 108, 111]] : List Input).foldl
      (Session.input quietEnv) freshSession).trace = [.message 1 [108, 108, 111]] := by decide +kernel

/-- C15, violation: the bytes of a header that is cut are left in the buffer, which `TCP_Socket` empties before the next
read (C28), so the rest of the frame is taken for a header: here the close callback reports a protocol error. -/
theorem C15_violated_header :
    (let (s1, left, _) := freshSession.stream quietEnv 0 [0x81, 0x81, 0]
     left = [0x81, 0x81, 0] ∧
     (delivered (s1.input quietEnv (.stream 0 [0, 0, 0, 65])).trace).map (fun d => match d with | .close st _ => st | _ => 0) = [1002]) := by
  decide +kernel

/-- C15, violation: the second frame of a compressed message is preceded by garbage, namely the compressed bytes of the first
frame.  (The "decompressor" here maps every byte to itself plus 1.) -/
theorem C15_violated_compressed :
    delivered (([.stream 0 [0x41, 0x81, 0, 0, 0, 0, 10, 0x80, 0x81, 0, 0, 0, 0, 20]] : List Input).foldl
      (Session.input { quietEnv with inflate_stream := fun z b => (z, b.map (· + 1), false) })
      { freshSession with parser := { freshServer with pmce_send_window_bits := 15 }, pmce := some ((), []) }).trace
      = [.message 1 [11, 10, 21]] := by decide +kernel

/-- One whole frame with a compressed message. -/
theorem compressed_step {Z : Type} (env : Env Z) (s : Session Z) (max : Nat) (hq : Quiet env max) (hs : Waiting s.parser)
    (ho : s.closure_notified = false) (hm : s.parser.max_message_length = max) (f : WsFrame) (payload : Bytes)
    (hf : f.Fits) (hlen : payload.length = f.len) (hl : f.Legal (isServer s.parser) (hasPmce s.parser) (inMessage s.parser))
    (hc : f.rsv1 = true) (hfin : f.fin = true) (hmax : f.len ≤ max)
    (z z1 z2 : Z) (old out1 out2 : Bytes) (hz : s.pmce = some (z, old))
    (h0 : payload = [] → z1 = z ∧ out1 = []) (h1 : payload ≠ [] → env.inflate_stream z payload = (z1, out1, false)) (h2 : env.inflate_finish z1 = (z2, out2, false))
    (hout : (out1 ++ out2).length ≤ max) (addr : Nat) (rest : Bytes) :
    ∃ t : Session Z, s.iterate env addr (encode (toHeader f) ++ f.transform payload ++ rest) = .next t rest ∧ Waiting t.parser ∧ t.closure_notified = false ∧
      inMessage t.parser = false ∧ delivered t.trace = delivered s.trace ++ [.message f.opcode (out1 ++ out2)] ∧ t.pmce = some (z2, payload) ∧
      t.parser.max_message_length = max ∧ isServer t.parser = isServer s.parser ∧ hasPmce t.parser = hasPmce s.parser := by
  have hl' := hl
  rw [← inMessage_forget] at hl'
  have g0 := parse_legal s.parser f hf (f.transform payload ++ rest) hs.established hs.new hl'
  obtain ⟨p2, g1, g2, g3, g4, g5, g6, g7, g8⟩ :=
    payload_whole s.parser _ f hf (ready_completed s.parser hs f hf) payload hlen (by rw [hm]; exact hmax) addr rest
  have hop : f.opcode = 1 ∨ f.opcode = 2 := by
    rcases hl.2 with h | h | h
    · exact h.1
    · rw [h.2.2.1] at hc; simp at hc
    · rw [h.2.2.2.1] at hc; simp at hc
  obtain ⟨w1, w2, w3, w4, w5, w6, w7⟩ := waiting_next s.parser hs f hf.opcode hl
  have hm1 : p2.m_rsv1 = true ∧ p2.m_fin = true ∧ p2.m_opcode = f.opcode ∧ p2.max_message_length = max := by
    have a := congrArg Parser.m_rsv1 g5
    have b := congrArg Parser.m_fin g5
    have c := congrArg Parser.max_message_length g5
    have hn : (note s.parser.forget f) = { s.parser.forget with m_fin := f.fin, m_rsv1 := f.rsv1, m_rsv2 := f.rsv2, m_rsv3 := f.rsv3, m_opcode := f.opcode } := by
      unfold note; rw [if_pos hop]
    have a' : p2.m_rsv1 = (note s.parser.forget f).m_rsv1 := a
    have b' : p2.m_fin = (note s.parser.forget f).m_fin := b
    have c' : p2.max_message_length = (completed s.parser.forget f).next_frame.max_message_length := c
    refine ⟨by rw [a', hn]; exact hc, by rw [b', hn]; exact hfin, ?_, by rw [c', w5, hm]⟩
    rw [g8, w6, if_neg (by omega)]
  obtain ⟨r1, r2, r3, r4⟩ := hm1
  have hop2 : p2.frm_header.opcode = f.opcode := g6
  have hfin2 : p2.frm_header.fin = true := g7.trans hfin
  -- the message after inflation
  have hinf : ∃ t : Session Z, ({ s with parser := p2 } : Session Z).data_frame env = .go t ∧ t.m_msg = out1 ++ out2 ∧
      t.parser = { p2 with frm_payload := [] } ∧ t.closure_notified = false ∧ t.pmce = some (z2, payload) ∧
      delivered t.trace = delivered s.trace := by
    unfold Session.data_frame
    have hsm : ({ s with parser := p2 } : Session Z).start_message = { s with parser := p2, m_msg := [], pmce := some (z, []) } := by
      unfold Session.start_message
      rw [if_pos (by simp only [hop2]; omega)]
      simp [hz]
    rw [hsm]
    simp only
    rw [if_pos r1]
    have hin : ({ s with parser := p2, m_msg := [], pmce := some (z, []) } : Session Z).inflate env z [] =
        some { s with parser := { p2 with frm_payload := out1 ++ out2 }, m_msg := [], pmce := some (z2, payload) } := by
      unfold Session.inflate
      have hle : ¬ out1.length > max := by simp at hout; omega
      by_cases hne : payload = []
      · obtain ⟨rfl, rfl⟩ := h0 hne
        simp [g4, hne, h2, r2]
      · have : payload.isEmpty = false := by cases payload with | nil => exact absurd rfl hne | cons => rfl
        simp [g4, this, h1 hne, h2, r4, r2, hle]
    rw [hin]
    simp only
    unfold Session.combined Session.combine
    have hod : ∀ tr op, env.on_data tr op (out1 ++ out2) = some (out1 ++ out2) := by
      intro tr op; rw [hq.data, if_neg (by omega)]
    simp only [splice_spec, List.nil_append, hod, Bool.false_eq_true, if_false]
    exact ⟨_, rfl, rfl, rfl, ho, rfl, by simp [Session.push, delivered]⟩
  obtain ⟨t, t1, t2, t3, t4, t5, t6⟩ := hinf
  obtain ⟨u, hu1, hu2, hu3, hu4, hu5⟩ : ∃ u : Session Z, s.iterate env addr (encode (toHeader f) ++ f.transform payload ++ rest) = .next u rest ∧
      u.parser = p2.next_frame ∧ u.closure_notified = false ∧ u.pmce = some (z2, payload) ∧
      delivered u.trace = delivered s.trace ++ [.message f.opcode (out1 ++ out2)] := by
    rw [List.append_assoc]
    unfold Session.iterate
    rw [if_neg (by simp [Parser.error, hs.new, ho]), if_pos (by simp [Parser.frame_header_complete, hs.new]), g0]
    simp only
    rw [if_neg (by simp [completed, Parser.error]), if_neg (by simp [completed, Parser.frame_header_complete]),
      if_pos (by simp [completed, Parser.frame_payload_complete])]
    unfold Session.payload_part
    simp only
    rw [g1]
    simp only
    rw [if_neg (by simp [g3]), if_pos (by rw [hop2]; omega), t1]
    simp only
    rw [if_neg (by rw [show t.parser.frame_payload_complete = true by rw [t3]; exact g2]; simp)]
    unfold Session.frame_done
    have e1 : t.parser.frm_header.fin = true := by rw [t3]; exact hfin2
    have e2 : t.parser.frm_header.opcode = f.opcode := by rw [t3]; exact hop2
    have e3 : t.parser.m_opcode = f.opcode := by rw [t3]; exact r3
    simp only [e1, e2, e3, Bool.not_true, Bool.false_eq_true, if_false]
    rw [if_pos (show f.opcode = 0 ∨ f.opcode = 1 ∨ f.opcode = 2 from .inr hop)]
    cases hfi : env.on_finish t.trace f.opcode t.m_msg with
    | none => exact absurd hfi (hq.finish _ _ _)
    | some left =>
      simp only
      refine ⟨_, rfl, ?_, t4, t5, ?_⟩
      · simp only [Session.push, t3]; rfl
      · have : delivered (t.push (.finish f.opcode t.m_msg)).trace = delivered t.trace ++ [.message f.opcode t.m_msg] := by
          simp [Session.push, delivered]
        show delivered (t.push (.finish f.opcode t.m_msg)).trace = _
        rw [this, t6, t2]
  have hwu : Waiting u.parser := by rw [hu2, g5]; exact w1
  refine ⟨u, hu1, hwu, hu3, ?_, hu5, hu4, by rw [hu2, g5, w5, hm], by rw [hu2, g5]; exact w2, by rw [hu2, g5]; exact w3⟩
  rw [hu2, g5, w4]
  unfold WsFrame.after
  rw [if_neg (by omega), hfin]
  rfl

/-- C15 for a compressed message in one frame, read as a whole: what is delivered is exactly the output of the decompressor
for the payload and the final empty block. -/
theorem C15_compressed_partial {Z : Type} (env : Env Z) (s : Session Z) (max : Nat) (hq : Quiet env max) (hs : Waiting s.parser)
    (ho : s.closure_notified = false) (hm : s.parser.max_message_length = max) (f : WsFrame) (payload : Bytes)
    (hf : f.Fits) (hlen : payload.length = f.len) (hl : f.Legal (isServer s.parser) (hasPmce s.parser) (inMessage s.parser))
    (hc : f.rsv1 = true) (hfin : f.fin = true) (hne : payload ≠ []) (hmax : f.len ≤ max)
    (z z1 z2 : Z) (old out1 out2 : Bytes) (hz : s.pmce = some (z, old))
    (h1 : env.inflate_stream z payload = (z1, out1, false)) (h2 : env.inflate_finish z1 = (z2, out2, false))
    (hout : (out1 ++ out2).length ≤ max) (addr : Nat) :
    ∃ t, s.stream env addr (wire [(f, payload)]) = (t, [], some false) ∧
      delivered t.trace = delivered s.trace ++ [.message f.opcode (out1 ++ out2)] ∧ t.pmce = some (z2, payload) := by
  obtain ⟨u, hu1, hwu, hu3, _, hu5, hu4, _⟩ := compressed_step env s max hq hs ho hm f payload hf hlen hl hc hfin hmax z z1 z2 old out1 out2 hz (fun h => absurd h hne) (fun _ => h1) h2 hout addr []
  have hw : wire [(f, payload)] = encode (toHeader f) ++ f.transform payload ++ [] := by simp [wire]
  obtain ⟨f1, _⟩ := forget_fields u.parser
  refine ⟨{ u with parser := u.parser.forget }, ?_, hu5, hu4⟩
  rw [hw, stream_eq, hu1]
  simp only
  rw [stream_eq]
  have hh : u.parser.parse_frame_header [] = .ok (u.parser.forget, []) := by
    unfold Parser.parse_frame_header
    rw [if_neg (by simp [hwu.established]), if_neg (by simp [hwu.new])]
  have : u.iterate env addr [] = .stop { u with parser := u.parser.forget } [] := by
    unfold Session.iterate
    rw [if_neg (by simp [Parser.error, hwu.new, hu3]), if_pos (by simp [Parser.frame_header_complete, hwu.new]), hh]
    simp only
    rw [if_neg (by simp [Parser.error, f1, hwu.new]), if_pos (by simp [Parser.frame_header_complete, f1, hwu.new])]
  rw [this]

example : (let f : WsFrame := ⟨true, true, false, false, 2, some 7, 3⟩
    f.Legal true (hasPmce { freshServer with pmce_send_window_bits := 15 }) false ∧ f.len ≤ 0x100000 ∧
    quietEnv.inflate_stream () [1, 2, 3] = ((), [1, 2, 3], false)) := by
  refine ⟨by decide, by decide, rfl⟩

/-- C15: the loop that handles a read always ends. -/
theorem C15_terminates {Z : Type} (env : Env Z) (addr : Nat) (s : Session Z) (data : Bytes) :
    (s.stream env addr data).2.2 = some false ∨ (s.stream env addr data).2.2 = some true := by
  have := stream_total env addr s data
  cases h : (s.stream env addr data).2.2 with
  | none => exact absurd h this
  | some b => cases b <;> simp

end Verif.Props
