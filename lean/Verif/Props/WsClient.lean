import Verif.Proofs.WsClientInv
import Verif.Props.HttpClient
import Verif.Props.WsHandshake
import Verif.Props.WsMixed
/-! # WebSocket clients, from the bytes of the handshake to the callbacks of the user (C92), and their ends (C93) -/
namespace Verif.Props
open Verif.HttpLib Verif.Spec Verif.Spec.Client Verif.HttpClient Verif.WsClient
open Verif.Spec (Emits EndsWithHead replyCalls)

/-! ## C92 -/

/-- C92.  A server answers the handshake with status 101, in any pieces, and sends frames behind it, where every read ends at the end of a frame (the first frames may be in the read that completes
the handshake); if the client has agreed to compress, messages may be compressed, each in one frame.  Then the connection is reported once, and after that the application gets every message once, in order, with all its bytes (of a compressed one, what it is decompressed to), and the CLOSE frame with its status and reason. -/
theorem C92_session {Z : Type} (g : WsClient.Cfg Z) (max lv : Nat) (hg : g.parser = { wshs := .c_req_sent, max_message_length := max, default_compression_level := lv }) (hq : Quiet g.env max)
    (hacc : ∀ t, g.env.on_accepted t = false) (hV : Ws.WindowTexts g.values) (hlen : g.accept.length = 28) (hhead : g.accept.headD 0 ≠ 0)
    (c : HttpRequest.Cfg) (L : Lib) (r : Response) (st : L.σ) (hr : r.Good L c false false L.init st) (hend : EndsWithHead L L.init r.wire) (hkeep : r.keep = true) (hstatus : r.status = 101)
    (hagree : AgreesToWebSocket g.accept (texts r.headers))
    (pieces : List Bytes) (last : Bytes) (hlast : last ≠ []) (hpieces : pieces.flatten ++ last = r.wire) (first : List Sent) (more : List (List Sent))
    (agreed : Bool) (hagreed : agreed = true → ∃ p, Ws.accept_handshake_response g.values g.accept g.parser (texts r.headers) = some p ∧ p.pmce_compression_level_m2 ≠ 0)
    (hread : Readable max (unpackMessage g.env.inflate_stream g.env.inflate_finish) g.inflator (first :: more).flatten) (hlegal : LegalSequence false agreed false ((first :: more).flatten.map Sent.frame)) (hlimit : WithinLimit max .idle ((first :: more).flatten.map Sent.meant)) :
    ∃ w rest, connect g c L (pieces.map (fun b => ⟨b, false⟩) ++ [⟨last ++ onWire first, false⟩] ++ more.map (fun fs => ⟨onWire fs, false⟩)) = some w ∧
      w.threw = false ∧ w.statuses = [101] ∧ w.ws.trace = .accepted :: rest ∧ .accepted ∉ rest ∧ delivered rest = (assemble .idle ((first :: more).flatten.map Sent.meant)).2 := by
  obtain ⟨p', a1, a2, a3, a4, a5, a6⟩ := accepts g.values hV g.accept hlen hhead max lv (texts r.headers) hagree
  rw [← hg] at a1
  -- the handshake
  obtain ⟨s1, r1, r2, r3, r6⟩ := loop_bare (A := app) (c := c) ((last ++ onWire first).length + 1) ({} : Sess L) r st (onWire first) pieces last rfl rfl rfl hr hend hlast hpieces rfl
  generalize hh : ({ ({} : Sess L) with p := {}, st := st, ack := r.status == 101, trace := ({} : Sess L).trace ++ [.headers r.headers] ++ [.stream r.body.flatten] ++ .finish r.headers (app.onStream (({} : Sess L).trace ++ [.headers r.headers]) r.body.flatten) :: closing (!r.keep) } : Sess L) = s2 at r6
  have h2 : s2.failed = none ∧ s2.ack = true ∧ s2.trace = [.headers r.headers, .stream r.body.flatten, .finish r.headers []] := by
    rw [← hh]
    simp only
    rw [hkeep, hstatus]
    exact ⟨trivial, rfl, rfl⟩
  obtain ⟨f2, k2, t2⟩ := h2
  have hrun : HttpClient.run app c ({} : Sess L) [] (pieces.map (fun b => ⟨b, false⟩) ++ [⟨last ++ onWire first, false⟩] ++ more.map (fun fs => ⟨onWire fs, false⟩))
      = some ({ (({ s2 with p := HttpResponse.deallocate s2.p } : Sess L).call (.upgraded (onWire first) false)) with trace := s2.trace ++ [.upgraded (onWire first) false] ++ (more.map onWire).map fun b => .upgraded b false }, []) := by
    rw [List.append_assoc, HttpClient.run_append, r1]
    simp only [List.cons_append, List.nil_append, HttpClient.run]
    rw [HttpClient.step_receive _ _ _ r2 r3, r6]
    have hl : loop app c false ((last ++ onWire first).length + 1) s2 (onWire first) = some (({ s2 with p := HttpResponse.deallocate s2.p } : Sess L).call (.upgraded (onWire first) false), []) := by
      rw [loop_succ, if_pos k2]
    rw [hl]
    simp only
    have := HttpClient.run_ack (A := app) (c := c) (more.map onWire) (({ s2 with p := HttpResponse.deallocate s2.p } : Sess L).call (.upgraded (onWire first) false)) f2 k2
    rw [List.map_map] at this
    exact this
  -- the frames
  have hfin : ({ ws := { parser := g.parser }, calls := 3 } : W Z).finish g r.headers
      = { ws := { (({ parser := p', pmce := if p'.pmce_send_window_bits ≠ 0 then some (g.inflator, []) else none } : Ws.Session Z).push .accepted) with upgraded := true }, heads := [r.headers], statuses := [101], threw := false, calls := 3 } := by
    unfold W.finish
    simp only [a1]
    unfold W.shaken
    simp only
    have e1 : ¬ p'.wshs ≠ .c_accepted := by simp [a2]
    simp only [if_neg e1]
    have : (r.headers.status == 101) = true := by simp [Response.headers, hstatus]
    simp [this, hacc]
    simp [Response.headers, hstatus]
  have hof : W.of g (W.start g) (s2.trace ++ [.upgraded (onWire first) false] ++ (more.map onWire).map fun b => .upgraded b false)
      = ((first :: more).map fun r => HttpClient.Ev.upgraded (onWire r) false).foldl (W.step g)
          ({ ws := { (({ parser := p', pmce := if p'.pmce_send_window_bits ≠ 0 then some (g.inflator, []) else none } : Ws.Session Z).push .accepted) with upgraded := true }, heads := [r.headers], statuses := [101], threw := false, calls := 3 } : W Z) := by
    rw [t2, ← hfin]
    unfold W.of W.start
    simp only [List.cons_append, List.nil_append, List.foldl_cons, List.map_map, List.map_cons]
    congr 1
  obtain ⟨w', b1, b2, b3, b5, b6⟩ := frames_fold g max hq (first :: more)
    ({ ws := { (({ parser := p', pmce := if p'.pmce_send_window_bits ≠ 0 then some (g.inflator, []) else none } : Ws.Session Z).push .accepted) with upgraded := true }, heads := [r.headers], statuses := [101], threw := false, calls := 3 } : W Z)
    .idle g.inflator rfl ⟨a3, rfl, a5⟩ (fun _ => a6) (fun _ => WsServer.holds_start p' g.inflator rfl rfl) hread
    (fun _ => by
      show LegalSequence (isServer p') (hasPmce p') (inMessage p') _
      rw [a4, a5]
      exact WsServer.legal_agreed (agreed_response a1 hg) hagreed hlegal) hlimit
  rw [b1] at hof
  obtain ⟨-, rest, g1, g2⟩ := b5
  refine ⟨w', rest, ?_, b2, b3, g1, g2, ?_⟩
  · unfold connect W.reads
    rw [hrun]
    simp only [hof]
    rw [b2]
    simp only [Sess.call, f2]
    simp [← b2]
  · have : delivered w'.ws.trace = delivered rest := by rw [g1]; rfl
    rw [← this, b6]
    rfl

/-- A library that reads responses of this form: a character for the status (`1` is 101, others are 200) and the reason in a line, lines with headers, and an empty line, which is the end of responses
with status 101; behind others, there is a payload that ends with a dot.  The character `!` is an error. -/
def switchLib : Lib where
  σ := ReplyState × Bool
  init := (.code, false)
  micro st b :=
    if b = chr '!' then (st, [], .bad .other)
    else match st.1 with
      | .code => if b = chr '1' then ((.reason 101, true), [.status 101 []], .go) else ((.reason 200, false), [.status 200 []], .go)
      | .reason n => if b = chr '\n' then ((.name, st.2), [], .go) else ((.reason n, st.2), [.status n [b]], .go)
      | .name => if b = chr '\n' then ((.end, st.2), [], .headers [] 0 true) else if b = chr ':' then ((.value, st.2), [.value []], .go) else ((.name, st.2), [.field [b]], .go)
      | .value => if b = chr '\n' then ((.name, st.2), [], .go) else ((.value, st.2), [.value [b]], .go)
      | .end => if st.2 then ((.code, false), [], .done) else ((.body, false), [], .go)
      | .skipped => ((.code, false), [], .done)
      | .body => if b = chr '.' then ((.code, false), [], .done) else ((.body, st.2), [.body [b]], .go)
  eof st := match st.1 with
    | .code => (st, .go)
    | .body => ((.code, false), .done)
    | _ => (st, .bad .other)
  skip st := match st.1 with
    | .end => (.skipped, st.2)
    | _ => st

instance : DecidableEq switchLib.σ := inferInstanceAs (DecidableEq (ReplyState × Bool))

theorem switchLib_ok : ReplyLib switchLib (fun st => replyBody st.1) := by
  refine { toLibOk := ?_, body_status := ?_, skip := ?_ }
  · constructor
    case init => simp [replyBody, switchLib]
    case eof_head => rintro ⟨st, x⟩ h; cases st <;> simp_all [replyBody, switchLib]
    case eof_body => rintro ⟨st, x⟩ h; cases st <;> simp_all [replyBody, switchLib]
    case eof_bad => rintro ⟨st, x⟩ e h; cases st <;> simp_all [switchLib] <;> subst h <;> simp
    all_goals
      rintro ⟨st, x⟩ b
      by_cases hb : b = chr '!'
      · simp only [switchLib, hb, if_true]
        cases st <;> cases x <;> simp [replyBody] <;> (intro e h; subst h; simp)
      · cases st <;> cases x <;> simp only [switchLib, replyBody, hb, if_false] <;> (repeat' split) <;> simp_all
  · rintro ⟨st, x⟩ b h n y
    by_cases hb : b = chr '!'
    · simp [switchLib, hb]
    · cases st <;> simp only [switchLib, replyBody, hb, if_false] at h ⊢ <;> (repeat' split) <;> simp_all
  · rintro ⟨st, x⟩ h
    cases st <;> simp_all [switchLib, replyBody]

/-- A session with the default callback for data. -/
def quietClient : WsClient.Cfg Unit := { values := plainLib, env := { quietEnv with server := false }, inflator := (), accept := demoAccept }

/-- The head of an answer. -/
def answerText : Bytes := b! "1Switching\nConnection:Upgrade\nUpgrade:websocket\nSec-WebSocket-Accept:s3pPLMBiTxaQ9kYGzzhZRbK+xOo=\nSec-WebSocket-Extensions:permessage-deflate; client_max_window_bits=10\n"

/-- Its fields. -/
def answerFields : List (Bytes × Bytes) :=
  [(b! "Connection", b! "Upgrade"), (b! "Upgrade", b! "websocket"), (b! "Sec-WebSocket-Accept", demoAccept), (b! "Sec-WebSocket-Extensions", b! "permessage-deflate; client_max_window_bits=10")]

/-- An answer. -/
def answer : Response where
  wire := answerText ++ b! "\n"
  status := 101
  reason := [] :: (b! "Switching").map fun b => [b]
  fields := answerFields.map fun x => (x.1.map fun b => [b], [] :: x.2.map fun b => [b])
  body := []
  keep := true

theorem answer_good : answer.Good switchLib replyCfg false false switchLib.init (ReplyState.code, false) ∧ EndsWithHead switchLib switchLib.init answer.wire := by
  have h1 : Emits switchLib (ReplyState.code, false) answerText (replyCalls 101 answer.reason answer.fields) (ReplyState.name, true) := HttpServer.emits_of (by decide +kernel)
  refine ⟨⟨?_, by decide, by decide, by decide +kernel, by decide⟩, ?_⟩
  · exact ⟨answerText, chr '\n', [], _, [], (.name, true), (.end, true), [], 0, [], (.end, true), by decide +kernel, h1, by rfl, by simp [answer], [], chr '\n', [], rfl, .nil _, by rfl, by decide⟩
  · exact ⟨answerText, chr '\n', _, _, by decide +kernel, h1⟩

theorem answer_agrees : AgreesToWebSocket demoAccept (texts answer.headers) := by
  have ht : texts answer.headers = answerFields := by decide +kernel
  have same : ∀ n m : Bytes, Http.name_eq n m = true → SameButCase n m := fun n m h => (HttpRequest.name_eq_iff n m).1 h
  rw [ht]
  refine ⟨⟨b! "Upgrade", by decide +kernel, same _ _ (by decide +kernel)⟩, ⟨b! "Sec-WebSocket-Accept", by decide +kernel, same _ _ (by decide +kernel)⟩, ?_, ?_, ?_⟩
  · intro x hx hn
    rw [← HttpRequest.name_eq_iff] at hn
    exact (by decide +kernel : ∀ x ∈ answerFields, Http.name_eq x.1 (b! "Sec-WebSocket-Accept") = true → x.2 = demoAccept) x hx hn
  · intro x hx hn
    rw [← HttpRequest.name_eq_iff] at hn
    rw [(by decide +kernel : ∀ x ∈ answerFields, Http.name_eq x.1 (b! "Connection") = true → x.2 = b! "Upgrade") x hx hn]
    refine ⟨[⟨[], b! "Upgrade", none, []⟩], by simp, by decide +kernel, ?_⟩
    intro t ht
    simp only [List.mem_cons, List.not_mem_nil, or_false] at ht
    subst ht
    exact ⟨⟨by simp [Blanks], by simp [Blanks], by decide, by unfold TokenChar CtlOrSpace; decide +kernel, by simp⟩, rfl, by rw [← HttpRequest.name_eq_iff]; decide +kernel⟩
  · intro x hx hn
    rw [← HttpRequest.name_eq_iff] at hn
    rw [(by decide +kernel : ∀ x ∈ answerFields, Http.name_eq x.1 (b! "Sec-WebSocket-Extensions") = true → x.2 = b! "permessage-deflate; client_max_window_bits=10") x hx hn]
    refine ⟨⟨[], b! "permessage-deflate", none, []⟩, [⟨b! " ", b! "client_max_window_bits", some ([], [], b! "10", b! "10"), []⟩], by decide +kernel, ?_, rfl, same _ _ (by decide +kernel), ?_⟩
    · intro t ht
      simp only [List.mem_cons, List.not_mem_nil, or_false] at ht
      rcases ht with rfl | rfl
      · exact ⟨by simp [Blanks], by simp [Blanks], by decide, by unfold TokenChar CtlOrSpace; decide +kernel, by simp⟩
      · refine ⟨by unfold Blanks; decide, by simp [Blanks], by decide, by unfold TokenChar CtlOrSpace; decide +kernel, ?_⟩
        intro b1 b2 raw text h
        simp only [Option.some.injEq, Prod.mk.injEq] at h
        obtain ⟨rfl, rfl, rfl, rfl⟩ := h
        exact ⟨by simp [Blanks], by simp [Blanks], .bare (by unfold CtlOrSpace; decide +kernel) (by decide)⟩
    · intro a ha b1 b2 raw text h
      simp only [List.mem_cons, List.not_mem_nil, or_false] at ha
      subst ha
      simp only [Option.some.injEq, Prod.mk.injEq] at h
      obtain ⟨rfl, rfl, rfl, rfl⟩ := h
      simp

/-- Frames of a server: a text message in three frames with a PING in between, then a CLOSE frame; in two reads. -/
def sampleReplies : List (List (WsFrame × Bytes)) :=
  [[(⟨false, false, false, false, 1, none, 2⟩, [72, 101]), (⟨true, false, false, false, 9, none, 1⟩, [33]), (⟨false, false, false, false, 0, none, 1⟩, [108])],
   [(⟨true, false, false, false, 0, none, 2⟩, [108, 111]), (⟨true, false, false, false, 8, none, 3⟩, [3, 0xE8, 65])]]

/-- A client with a decompressor that counts, and frames for it, some of which are compressed. -/
def countClient : WsClient.Cfg Nat := { values := plainLib, accept := demoAccept, env := { countEnv with server := false }, inflator := 0 }

def mixedReplies : List (List Sent) := mixedReads.map fun r => r.2.map fun x => { x with frame := { x.frame with key := none } }

example : ∃ w rest, connect countClient replyCfg switchLib [⟨b! "1Swi", false⟩, ⟨(answerText ++ b! "\n").drop 4 ++ wire (mixedReplies[0].map Sent.raw), false⟩, ⟨wire (mixedReplies[1].map Sent.raw), false⟩] = some w ∧
    w.threw = false ∧ w.statuses = [101] ∧ w.ws.trace = .accepted :: rest ∧ .accepted ∉ rest ∧
    delivered rest = [.message 1 (b! "Hi!"), .message 9 [], .message 2 [1, 2, 3], .message 1 (b! "Ho!"), .message 1 (b! "!"), .close 1000 (b! "A")] := by
  have hread : Readable 0x100000 (unpackMessage countEnv.inflate_stream countEnv.inflate_finish) 0 mixedReplies.flatten := by
    have fits : ∀ x ∈ mixedReplies.flatten, x.frame.opcode < 16 ∧ x.frame.key = none ∧ x.frame.len < 2 ^ 64 := by decide
    have hf : ∀ x ∈ mixedReplies.flatten, x.frame.Fits := fun x hx => ⟨(fits x hx).1, fun k hk => (by rw [(fits x hx).2.1] at hk; cases hk), (fits x hx).2.2⟩
    simp only [mixedReplies, mixedReads, List.map_cons, List.map_nil, List.flatten_cons, List.flatten_nil, List.append_nil, List.cons_append, List.nil_append, List.mem_cons, List.not_mem_nil, or_false, forall_eq_or_imp,
      forall_eq] at hf ⊢
    obtain ⟨f1, f2, f3, f4, f5, f6, f7⟩ := hf
    refine ⟨f1, rfl, by decide, rfl, by decide, 1, by rfl, f2, rfl, by decide, rfl, f3, rfl, by decide, rfl, f4, rfl, by decide, rfl, f5, rfl, by decide, rfl, by decide, 2, by rfl, f6, rfl, by decide, rfl, by decide, 3, by rfl,
      f7, rfl, by decide, rfl, trivial⟩
  have := C92_session countClient 0x100000 6 rfl ⟨fun _ _ _ => rfl, by simp [countClient, countEnv], fun _ => rfl, fun _ _ _ => rfl⟩ (fun _ => rfl) plainLib_windows (by decide) (by decide) replyCfg switchLib answer
    (ReplyState.code, false) answer_good.1 answer_good.2 rfl rfl answer_agrees [b! "1Swi"] ((answerText ++ b! "\n").drop 4) (by decide +kernel) (by decide +kernel) mixedReplies[0] [mixedReplies[1]]
    true (fun _ => ⟨_, by rfl, by decide⟩) hread (by decide) (by decide +kernel)
  exact this

/-! ### Clients and servers of this project -/

/-- A header value with one token. -/
theorem keeps_single (n : Bytes) (h1 : n ≠ []) (h2 : ∀ c ∈ n, TokenChar c) (h3 : ¬ SameButCase n (b! "close")) : KeepsConnection n := by
  refine ⟨[⟨[], n, none, []⟩], by simp, by simp [headerText, elementText, AttrText.written], ?_⟩
  intro t ht
  simp only [List.mem_singleton] at ht
  subst ht
  exact ⟨⟨by simp [Blanks], by simp [Blanks], h1, h2, by simp⟩, rfl, h3⟩

/-- C92.  The request of a client asks for a connection in the way that `C90_session` needs, for every key. -/
theorem C92_peer_request (key : Bytes) (h1 : key.length = 24) (h2 : key.headD 0 ≠ 0) : AsksForWebSocket (Ws.handshake_request key) := by
  have same : ∀ n m : Bytes, Http.name_eq n m = true → SameButCase n m := fun n m h => (HttpRequest.name_eq_iff n m).1 h
  have up : KeepsConnection (b! "Upgrade") := keeps_single _ (by decide) (by unfold TokenChar CtlOrSpace; decide +kernel) (by rw [← HttpRequest.name_eq_iff]; decide +kernel)
  refine ⟨⟨b! "Upgrade", by simp [Ws.handshake_request], same _ _ (by decide +kernel)⟩, ⟨b! "Sec-WebSocket-Version", by simp [Ws.handshake_request], same _ _ (by decide +kernel)⟩,
    ⟨b! "Sec-WebSocket-Key", key, by simp [Ws.handshake_request], same _ _ (by decide +kernel)⟩, ?_, ?_⟩
  all_goals
    intro x hx hn
    rw [← HttpRequest.name_eq_iff] at hn
    simp only [Ws.handshake_request, List.mem_cons, List.not_mem_nil, or_false] at hx
    rcases hx with rfl | rfl | rfl | rfl | rfl
    all_goals first
      | exact ⟨h1, h2⟩
      | exact up
      | (exfalso; revert hn; simp only; decide +kernel)

/-- C92.  The response of a server, to any request that it accepts, agrees to the connection in the way that `C92_session` needs. -/
theorem C92_peer_response (V : Http.Lib) (hV : Ws.WindowTexts V) (s s' : Ws.Parser) (fs : List (Bytes × Bytes)) (ext : Option Bytes) (date accept : Bytes)
    (hs : Ws.accept_handshake_request V s fs = some (s', ext)) : AgreesToWebSocket accept (Ws.handshake_response date accept ext) := by
  have same : ∀ n m : Bytes, Http.name_eq n m = true → SameButCase n m := fun n m h => (HttpRequest.name_eq_iff n m).1 h
  have up : KeepsConnection (b! "Upgrade") := keeps_single _ (by decide) (by unfold TokenChar CtlOrSpace; decide +kernel) (by rw [← HttpRequest.name_eq_iff]; decide +kernel)
  have hext : ∀ e, ext = some e → OnlyDeflate e := by
    rintro e rfl
    unfold Ws.accept_handshake_request at hs
    split at hs
    · simp at hs
    · dsimp only at hs
      split at hs
      · simp at hs
      · rename_i st hst
        have ok := Ws.hs_headers_ok V false _ fs {} st (Ws.pmd_default 0) hst
        split at hs
        · simp at hs
        · simp only [Option.some.injEq, Prod.mk.injEq] at hs
          obtain ⟨-, he⟩ := hs
          split at he
          · simp only [Option.some.injEq] at he
            rw [← he, Ws.answer_text hV _ ok]
            have hp := Ws.answer_plain hV _ ok
            refine ⟨Ws.answerFirst, Ws.answerAttrs st.pmce, rfl, fun a ha => (hp a ha).1, rfl, same _ _ (by decide +kernel), ?_⟩
            intro a ha b1 b2 raw text hval
            obtain ⟨o1, o2, o3, o4⟩ := ok
            have d : ∀ n ≤ 15, 9 ≤ n → Http.decimal n ∈ [b! "9", b! "10", b! "11", b! "12", b! "13", b! "14", b! "15"] := by decide +kernel
            simp only [Ws.answerAttrs, List.mem_append] at ha
            rcases ha with (ha | ha) | ha
            all_goals
              split at ha
              · simp only [List.mem_singleton] at ha
                subst ha
                first
                  | exact absurd hval (by simp)
                  | (simp only [Ws.bitsAttr, Option.some.injEq, Prod.mk.injEq] at hval
                     obtain ⟨-, -, rfl, -⟩ := hval
                     exact d _ (by omega) (by omega))
              · simp at ha
          · simp at he
  have hmem : ∀ x, x ∈ Ws.handshake_response date accept ext → x = (b! "Connection", b! "Upgrade") ∨ x = (b! "Upgrade", b! "websocket") ∨ x = (b! "Date", date) ∨ x = (b! "Expires", b! "0") ∨
      x = (b! "Sec-WebSocket-Accept", accept) ∨ ∃ e, ext = some e ∧ x = (b! "Sec-WebSocket-Extensions", e) := by
    intro x hx
    cases ext with
    | none => simp only [Ws.handshake_response, List.mem_append, List.mem_cons, List.not_mem_nil, or_false] at hx; rcases hx with h | h | h | h | h <;> simp [h]
    | some e =>
      simp only [Ws.handshake_response, List.mem_append, List.mem_cons, List.not_mem_nil, or_false] at hx
      rcases hx with (h | h | h | h | h) | h <;> simp [h]
  refine ⟨⟨b! "Upgrade", by simp [Ws.handshake_response], same _ _ (by decide +kernel)⟩, ⟨b! "Sec-WebSocket-Accept", by simp [Ws.handshake_response], same _ _ (by decide +kernel)⟩, ?_, ?_, ?_⟩
  all_goals
    intro x hx hn
    rw [← HttpRequest.name_eq_iff] at hn
    rcases hmem x hx with rfl | rfl | rfl | rfl | rfl | ⟨e, he, rfl⟩
    all_goals first
      | rfl
      | exact up
      | exact hext _ he
      | (exfalso; revert hn; simp only; decide +kernel)

example : AsksForWebSocket (Ws.handshake_request demoKey) := C92_peer_request _ (by decide) (by decide)
example : (Ws.accept_handshake_request plainLib {} (Ws.handshake_request demoKey)).map (fun r => (r.1.wshs, r.2)) = some (.s_accepted, some (b! "permessage-deflate")) := by decide +kernel

/-- C92.  Whatever arrives, in whatever pieces, and whatever the callbacks of the user do: every call, until there is an exception, returns. -/
theorem C92_returns {Z : Type} (g : WsClient.Cfg Z) (c : HttpRequest.Cfg) (L : Lib) (body : L.σ → Prop) (hL : ReplyLib L body) (reads : List Act) : ∃ w, connect g c L reads = some w :=
  connect_some g c L body hL reads

/-- C92.  Whatever arrives, in whatever pieces, whatever the callbacks of the user do, and whatever else arrives after exceptions: the connection is reported at most once; data and messages are
reported only after that and not after a close; and a close is reported at most once. -/
theorem C92_order {Z : Type} (g : WsClient.Cfg Z) (c : HttpRequest.Cfg) (L : Lib) (reads : List Act) (more : List (Again L)) (w : W Z) (hw : connectAll g c L reads more = some w) :
    w.ws.trace.count .accepted ≤ 1 ∧
      (∀ pre e post, w.ws.trace = pre ++ e :: post → (∃ op b, e = .data op b ∨ e = .finish op b) → .accepted ∈ pre ∧ ∀ n r, .close n r ∉ pre) ∧
      (∀ pre n r post, w.ws.trace = pre ++ .close n r :: post → ∀ n' r', .close n' r' ∉ pre) := by
  have hi := connect_inv g c L reads more w hw
  refine ⟨hi.once, fun pre e post ht he => ⟨hi.messages ht he, WsServer.good_order hi.good ht ?_⟩, fun pre n r post ht => WsServer.good_order hi.good ht rfl⟩
  obtain ⟨op, b, rfl | rfl⟩ := he <;> rfl

/-- C92.  A connection is reported only if a whole response has come that has the answer to the key of the request. -/
theorem C92_asked {Z : Type} (g : WsClient.Cfg Z) (c : HttpRequest.Cfg) (L : Lib) (reads : List Act) (more : List (Again L)) (w : W Z)
    (hw : connectAll g c L reads more = some w) (ha : .accepted ∈ w.ws.trace) : ∃ h ∈ w.heads, AnswersWebSocket g.accept (texts h) :=
  ((connect_inv g c L reads more w hw).accepted ha).response

/-- C92.  The connection is reported before the close.  PARTIAL: only if there is one response, see `C92_violated`. -/
theorem C92_first_partial {Z : Type} (g : WsClient.Cfg Z) (c : HttpRequest.Cfg) (L : Lib) (reads : List Act) (more : List (Again L)) (w : W Z)
    (hw : connectAll g c L reads more = some w) (hr : w.statuses.length ≤ 1) (pre post : List Ws.Ev) (ht : w.ws.trace = pre ++ .accepted :: post) : ∀ n r, .close n r ∉ pre := by
  have hi := connect_inv g c L reads more w hw
  obtain ⟨pre', post', xs, n, ys, p1, p2, p3, p4, p5, p6⟩ := (hi.accepted (by rw [ht]; simp)).parts
  have : pre = pre' := by
    rw [p1] at ht
    rcases List.append_eq_append_iff.1 ht with ⟨u, e1, e2⟩ | ⟨u, e1, e2⟩
    · cases u with
      | nil => simpa using e1
      | cons x u =>
        simp only [List.cons_append, List.cons.injEq] at e2
        exact absurd (by rw [e2.2]; simp) p3
    · cases u with
      | nil => simpa using e1.symm
      | cons x u =>
        simp only [List.cons_append, List.cons.injEq] at e2
        exact absurd (by rw [e1, ← e2.1]; simp) p2
  rw [this]
  refine p6 ?_
  rw [p5] at hr
  simp only [List.length_append, List.length_cons] at hr
  exact List.eq_nil_of_length_eq_zero (by omega)

/-- The history of a session, and the status codes of the responses. -/
def toldClient {Z : Type} (g : WsClient.Cfg Z) (c : HttpRequest.Cfg) (L : Lib) (reads : List Act) : Option (List Ws.Ev × List Nat × Bool) := (connect g c L reads).map fun w => (w.ws.trace, w.statuses, w.threw)

/-- One message of a server. -/
def hiFrame : Bytes := wire [(⟨true, false, false, false, 1, none, 2⟩, [72, 105])]

example : toldClient quietClient replyCfg switchLib [⟨answerText ++ b! "\n" ++ hiFrame, false⟩] = some ([.accepted, .data 1 [72, 105], .finish 1 [72, 105]], [101], false) := by decide +kernel
example : toldClient quietClient replyCfg switchLib [⟨b! "1x\n\n" ++ hiFrame, false⟩] = some ([.close 1002 (b! "handshake response invalid"), .shut_down], [101], false) := by decide +kernel

/-- C92 is violated: a response before the one that switches (an interim one, such as 100, too) makes the session report a close; but then the connection is reported after that, and its messages are
lost. -/
theorem C92_violated : toldClient quietClient replyCfg switchLib [⟨b! "2Wait\n\n." ++ answerText ++ b! "\n" ++ hiFrame, false⟩]
    = some ([.close 1002 (b! "handshake response invalid"), .shut_down, .accepted], [200, 101], false) := by decide +kernel

/-- C92 is violated: the status is not looked at, so a response with status 200 and these headers is reported as a connection, although the protocol has not been switched; the next response ends
the session by an exception. -/
theorem C92_violated_status : toldClient quietClient replyCfg switchLib [⟨b! "2" ++ answerText.drop 1 ++ b! "\n.", false⟩] = some ([.accepted], [200], false) ∧
    toldClient quietClient replyCfg switchLib [⟨b! "2" ++ answerText.drop 1 ++ b! "\n.", false⟩, ⟨b! "2OK\n\n.", false⟩] = some ([.accepted], [200, 200], true) := by decide +kernel

/-- C92 is violated: what has been read of the header of a frame is gone if the rest comes in the next read, so there the rest is taken for another header: here, of a binary message
of 72 bytes, of which `i` is the first one. -/
theorem C92_violated_header : toldClient quietClient replyCfg switchLib [⟨answerText ++ b! "\n" ++ hiFrame.take 1, false⟩, ⟨hiFrame.drop 1, false⟩]
    = some ([.accepted, .data 2 [105]], [101], false) := by decide +kernel

/-! ## C93 -/

/-- C93.  Whatever has arrived, whatever the callbacks have done, and whatever has arrived after exceptions: when the socket has been closed, the session has reported a close exactly once, and
neither data nor messages after that. -/
theorem C93_reported {Z : Type} (g : WsClient.Cfg Z) (c : HttpRequest.Cfg) (L : Lib) (reads : List Act) (more : List (Again L)) (w : W Z) (hw : connectAll g c L reads more = some w) :
    ∃ pre n r post, (w.closed g).ws.trace = pre ++ .close n r :: post ∧ (∀ n' r', .close n' r' ∉ pre) ∧ (∀ n' r', .close n' r' ∉ post) ∧ ∀ op b, .data op b ∉ post ∧ .finish op b ∉ post := by
  have hg := (connect_inv g c L reads more w hw).good
  obtain ⟨-, a, n, r, b, e, ha, hb⟩ := Ws.shut_close_once g.env w.ws 1006 (Ws.descBytes (some "no CLOSE frame received")) hg
  refine ⟨a, n, r, b, e, fun n' r' h => ?_, fun n' r' h => ?_, fun op x => ⟨fun h => ?_, fun h => ?_⟩⟩
  · have := ha _ h; simp [Ws.Ev.isClose] at this
  all_goals have := hb _ h; simp [Ws.Ev.isCallback] at this

/-- The history of a session after its socket has been closed. -/
def toldClientEnd {Z : Type} (g : WsClient.Cfg Z) (c : HttpRequest.Cfg) (L : Lib) (reads : List Act) (more : List (Again L)) : Option (List Ws.Ev × Bool) :=
  (connectAll g c L reads more).map fun w => ((w.closed g).ws.trace, w.threw)

example : toldClientEnd quietClient replyCfg switchLib [⟨answerText ++ b! "\n" ++ hiFrame, false⟩, ⟨[], true⟩] []
    = some ([.accepted, .data 1 [72, 105], .finish 1 [72, 105], .close 1006 (b! "no CLOSE frame received"), .sent [136, 130, 0, 0, 0, 128, 3, 232], .shut_down], false) := by decide +kernel
example : toldClientEnd quietClient replyCfg switchLib [] [] = some ([.close 1006 (b! "no CLOSE frame received"), .shut_down], false) := by decide +kernel

/-- A session whose messages are limited to three bytes, with the default callback for data. -/
def smallClient : WsClient.Cfg Unit :=
  { quietClient with env := { plainEnv with server := false, on_data := fun _ _ b => if b.length > 3 then none else some b }, parser := { wshs := .c_req_sent, max_message_length := 3 } }

-- a message in two frames which is too long makes the default callback throw an exception
example : toldClientEnd smallClient replyCfg switchLib
      [⟨answerText ++ b! "\n" ++ wire [(⟨false, false, false, false, 1, none, 2⟩, [72, 105]), (⟨true, false, false, false, 0, none, 2⟩, [72, 105])], false⟩] [⟨{}, switchLib.init, [⟨[], true⟩]⟩]
    = some ([.accepted, .data 1 [72, 105], .data 1 [72, 105, 72, 105], .close 1006 (b! "no CLOSE frame received"), .sent [136, 130, 0, 0, 0, 128, 3, 232], .shut_down], false) := by decide +kernel

-- a head that is too long makes the session throw an exception
example : toldClientEnd quietClient { max_header_length := 20, max_content_length := 20 } switchLib [⟨answerText ++ b! "\n", false⟩] [⟨{}, switchLib.init, [⟨[], true⟩]⟩]
    = some ([.close 1006 (b! "no CLOSE frame received"), .shut_down], false) := by decide +kernel

end Verif.Props
