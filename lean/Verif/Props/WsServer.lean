import Verif.Proofs.WsServerInv
import Verif.Props.WsMixed
import Verif.Props.HttpServer
import Verif.Props.WsHandshake
/-! # WebSocket servers, from the bytes of the handshake to the callbacks of the user (C90), and their ends (C91) -/
namespace Verif.Props
open Verif.HttpLib Verif.Spec Verif.HttpServer Verif.WsServer

/-! ## C90 -/

/-- C90.  A client sends a handshake, which may arrive in any pieces, and behind it frames, where every read ends at the end of a frame (the first frames may be in the read that completes the
handshake); if the server has answered with an extension (`agreed`), messages may be compressed, each in one frame.  Then the handshake is answered with status 101, the connection is accepted once, with the address in the request, and after that the application gets every message once, in order,
with all its bytes (of a compressed one, what it is decompressed to), and the CLOSE frame with its status and reason. -/
theorem C90_session {Z : Type} (g : WsServer.Cfg Z) (max lv : Nat) (hg : g.parser = { max_message_length := max, default_compression_level := lv }) (hq : Quiet g.env max)
    (hacc : ∀ t, g.env.on_accepted t = false) (c : HttpRequest.Cfg) (L : Lib) (r : Request) (st : L.σ) (hr : r.Good L c L.init st) (hend : EndsWithHead L L.init r.wire) (hkeep : r.keep = true)
    (hproxy : r.headers.is_proxy = false) (hm : r.headers.method ≠ b! "OPTIONS") (hask : AsksForWebSocket (texts r.headers))
    (pieces : List Bytes) (last : Bytes) (hlast : last ≠ []) (hpieces : pieces.flatten ++ last = r.wire) (first : List Sent) (more : List (List Sent))
    (agreed : Bool) (hagreed : agreed = true → ∃ p ext, Ws.accept_handshake_request g.values g.parser (texts r.headers) = some (p, some ext))
    (hread : Readable max (unpackMessage g.env.inflate_stream g.env.inflate_finish) g.inflator (first :: more).flatten) (hlegal : LegalSequence true agreed false ((first :: more).flatten.map Sent.frame)) (hlimit : WithinLimit max .idle ((first :: more).flatten.map Sent.meant)) :
    ∃ w rest, serve g c L (pieces.map (fun b => .receive b false) ++ [.receive (last ++ onWire first) false] ++ more.map (fun fs => .receive (onWire fs) false)) = some w ∧
      w.threw = false ∧ w.responses = [101] ∧ w.addresses = [r.headers.raw_host ++ r.headers.raw_path ++ b! "?" ++ r.headers.raw_query] ∧
      w.ws.trace = .accepted :: rest ∧ .accepted ∉ rest ∧ delivered rest = (assemble .idle ((first :: more).flatten.map Sent.meant)).2 := by
  obtain ⟨p', a1, a2, a3, a4, a5, a6⟩ := accepts g.values max lv r.headers hm hask
  rw [← hg] at a1
  have hcomp : ∀ k, (({ ws := { parser := g.parser }, heads := [r.headers], calls := k } : W Z).complete g r.headers false)
      = ({ ws := ({ parser := p', upgraded := true, pmce := if p'.pmce_send_window_bits ≠ 0 then some (g.inflator, []) else none } : Ws.Session Z).push .accepted, heads := [r.headers], responses := [101],
           addresses := [caddr r.headers], threw := false, calls := k }, true) := by
    intro k
    unfold W.complete
    simp only [a1]
    rw [if_neg (by simp), if_neg hm, if_neg (by simp [a2])]
    simp [hacc]
  have hrep : (app g (W.start g)).onHeaders [] r.headers (!r.keep) = { switched := true } := by
    unfold app
    simp only [W.of, W.start, List.foldl_nil, hkeep, hproxy, Bool.not_true, Bool.false_eq_true, if_false, List.nil_append, hcomp]
  -- the handshake
  obtain ⟨s1, r1, r2, r3, r4, r5, r6⟩ := loop_bare (A := app g (W.start g)) (c := c) ((last ++ onWire first).length + 1) ({} : Sess L) r st (onWire first) pieces last rfl rfl rfl hr hend hlast hpieces
    (.inl (by show ((app g (W.start g)).onHeaders [] r.headers (!r.keep)).type = _; rw [hrep]))
  generalize hh : handed (app g (W.start g)) ({} : Sess L) r st = s2 at r6
  have h2 : s2.failed = none ∧ s2.ack = true ∧ ∃ left, s2.trace = [.headers r.headers false, .stream r.payload, .finish r.headers left false] := by
    rw [← hh]
    unfold handed
    simp only
    rw [hrep, hkeep]
    exact ⟨trivial, by simp, _, rfl⟩
  obtain ⟨f2, k2, left, t2⟩ := h2
  have hrun : HttpServer.run (app g (W.start g)) c ({} : Sess L) [] (pieces.map (fun b => .receive b false) ++ [.receive (last ++ onWire first) false] ++ more.map (fun fs => .receive (onWire fs) false))
      = some ({ (({ s2 with p := Verif.HttpServer.deallocate s2.p } : Sess L).call (.upgraded (onWire first) false)) with
                trace := s2.trace ++ [.upgraded (onWire first) false] ++ (more.map onWire).map fun b => .upgraded b false }, []) := by
    rw [List.append_assoc, run_append, r1]
    simp only [List.cons_append, List.nil_append, HttpServer.run]
    rw [step_receive _ _ _ r2 r3, r6]
    have hl : loop (app g (W.start g)) c false ((last ++ onWire first).length + 1) s2 (onWire first) = some (({ s2 with p := Verif.HttpServer.deallocate s2.p } : Sess L).call (.upgraded (onWire first) false), []) := by
      rw [loop_succ, if_pos k2]
    rw [hl]
    simp only
    have := run_ack (A := app g (W.start g)) (c := c) (more.map onWire) (({ s2 with p := Verif.HttpServer.deallocate s2.p } : Sess L).call (.upgraded (onWire first) false)) f2 k2
    rw [List.map_map] at this
    exact this
  -- the frames
  have hof : W.of g (W.start g) (s2.trace ++ [.upgraded (onWire first) false] ++ (more.map onWire).map fun b => .upgraded b false)
      = ((first :: more).map fun r => HttpServer.Ev.upgraded (onWire r) false).foldl (W.step g)
          ({ ws := ({ parser := p', upgraded := true, pmce := if p'.pmce_send_window_bits ≠ 0 then some (g.inflator, []) else none } : Ws.Session Z).push .accepted, heads := [r.headers], responses := [101],
             addresses := [caddr r.headers], threw := false, calls := 3 } : W Z) := by
    rw [t2]
    have hstep : (({ ws := { parser := g.parser } } : W Z).step g (.headers r.headers false)) = (({ ws := { parser := g.parser }, heads := [r.headers], calls := 1 } : W Z).complete g r.headers false).1 := by
      unfold W.step
      rw [if_neg (by simp)]
      simp only [hproxy, Bool.false_eq_true, if_false, List.nil_append]
    unfold W.of W.start
    simp only [List.cons_append, List.nil_append, List.foldl_cons, hstep, hcomp, List.map_map, List.map_cons]
    congr 1
  obtain ⟨w', b1, b2, b3, b4, b5, b6⟩ := frames_fold g max hq (first :: more)
    ({ ws := ({ parser := p', upgraded := true, pmce := if p'.pmce_send_window_bits ≠ 0 then some (g.inflator, []) else none } : Ws.Session Z).push .accepted, heads := [r.headers], responses := [101],
       addresses := [caddr r.headers], threw := false, calls := 3 } : W Z) .idle g.inflator rfl ⟨a3, rfl, a5⟩ (fun _ => a6) (fun _ => holds_start p' g.inflator rfl rfl) hread
    (fun _ => by
      show LegalSequence (isServer p') (hasPmce p') (inMessage p') _
      rw [a4, a5]
      exact legal_agreed (accept_agreed a1 hm hg) hagreed hlegal) hlimit
  rw [b1] at hof
  obtain ⟨-, rest, g1, g2⟩ := b5
  refine ⟨w', rest, ?_, b2, b3, by rw [b4]; rfl, g1, g2, ?_⟩
  · unfold serve W.reads
    rw [hrun]
    simp only [hof]
    rw [b2]
    simp only [Sess.call, f2]
    simp [← b2]
  · have : delivered w'.ws.trace = delivered rest := by rw [g1]; rfl
    rw [← this, b6]
    rfl

/-- A library that reads requests of this form: a line with the target, lines with headers, and an empty line, which is the end.  The character `!` is an error. -/
def bareLib : Lib where
  σ := TinyState
  init := .url
  micro st b :=
    if b = chr '!' then (st, [], .bad .other)
    else match st with
      | .url => if b = chr '\n' then (.name, [], .go) else (.url, [.url [b]], .go)
      | .name => if b = chr '\n' then (.end, [], .headers (b! "GET") 0 true) else if b = chr ':' then (.value, [.value []], .go) else (.name, [.field [b]], .go)
      | .value => if b = chr '\n' then (.name, [], .go) else (.value, [.value [b]], .go)
      | _ => (.url, [], .done)
  eof st := if st = .url then (st, .go) else (st, .bad .other)

instance : DecidableEq bareLib.σ := inferInstanceAs (DecidableEq TinyState)

theorem bareLib_ok : LibOk bareLib tinyBody := by
  constructor
  case init => simp [tinyBody, bareLib]
  case eof_head => intro st h; cases st <;> simp_all [tinyBody, bareLib]
  case eof_body => intro st h; cases st <;> simp_all [tinyBody, bareLib]
  case eof_bad => intro st e h; cases st <;> simp_all [bareLib] <;> subst h <;> simp
  all_goals
    intro st b
    by_cases hb : b = chr '!'
    · cases st <;> simp [bareLib, tinyBody, hb, eq_comm] <;> (intro e h; subst h; simp)
    · cases st <;> simp only [bareLib, tinyBody, hb, if_false] <;> (repeat' split) <;> simp_all

/-- Generous limits. -/
def bareCfg : HttpRequest.Cfg := { max_header_length := 1000, max_content_length := 1000 }

/-- A session with the default callback for data. -/
def quietServer : WsServer.Cfg Unit := { values := plainLib, env := quietEnv, inflator := () }

/-- The head of a handshake. -/
def shakeText : Bytes := b! "/chat\nHost:h\nUpgrade:websocket\nSec-WebSocket-Version:13\nSec-WebSocket-Key:dGhlIHNhbXBsZSBub25jZQ==\nConnection:keep-alive, Upgrade\nSec-WebSocket-Extensions:permessage-deflate; client_max_window_bits\n"

/-- Its fields. -/
def shakeFields : List (Bytes × Bytes) :=
  [(b! "Host", b! "h"), (b! "Upgrade", b! "websocket"), (b! "Sec-WebSocket-Version", b! "13"), (b! "Sec-WebSocket-Key", b! "dGhlIHNhbXBsZSBub25jZQ=="), (b! "Connection", b! "keep-alive, Upgrade"),
   (b! "Sec-WebSocket-Extensions", b! "permessage-deflate; client_max_window_bits")]

/-- A handshake. -/
def shake : Request where
  wire := shakeText ++ b! "\n"
  url := (b! "/chat").map fun b => [b]
  fields := shakeFields.map fun x => (x.1.map fun b => [b], [] :: x.2.map fun b => [b])
  body := []
  method := b! "GET"
  keep := true
  headers := { method := b! "GET", raw_host := b! "h", raw_path := b! "/chat", headers := shakeFields.map fun x => (x.1, some x.2) }

theorem shake_good : shake.Good bareLib bareCfg bareLib.init TinyState.url ∧ EndsWithHead bareLib bareLib.init shake.wire := by
  have h1 : Emits bareLib TinyState.url shakeText (headCalls shake.url shake.fields) TinyState.name := emits_of (by decide +kernel)
  refine ⟨⟨?_, by decide, by decide, by decide, by decide, by decide +kernel, by decide, by decide⟩, ?_⟩
  · exact ⟨shakeText, chr '\n', [], _, [], .name, .end, 0, [], chr '\n', [], [], .end, by decide +kernel, rfl, h1, by rfl, by simp, .nil _, by rfl, by decide⟩
  · exact ⟨shakeText, chr '\n', _, _, by decide +kernel, h1⟩

theorem shake_asks : AsksForWebSocket (texts shake.headers) := by
  have ht : texts shake.headers = shakeFields := by decide +kernel
  have same : ∀ n m : Bytes, Http.name_eq n m = true → SameButCase n m := fun n m h => (HttpRequest.name_eq_iff n m).1 h
  rw [ht]
  refine ⟨⟨b! "Upgrade", by decide +kernel, same _ _ (by decide +kernel)⟩, ⟨b! "Sec-WebSocket-Version", by decide +kernel, same _ _ (by decide +kernel)⟩,
    ⟨b! "Sec-WebSocket-Key", b! "dGhlIHNhbXBsZSBub25jZQ==", by decide +kernel, same _ _ (by decide +kernel)⟩, ?_, ?_⟩
  · intro x hx hn
    rw [← HttpRequest.name_eq_iff] at hn
    exact (by decide +kernel : ∀ x ∈ shakeFields, Http.name_eq x.1 (b! "Sec-WebSocket-Key") = true → x.2.length = 24 ∧ x.2.headD 0 ≠ 0) x hx hn
  · intro x hx hn
    rw [← HttpRequest.name_eq_iff] at hn
    rw [(by decide +kernel : ∀ x ∈ shakeFields, Http.name_eq x.1 (b! "Connection") = true → x.2 = b! "keep-alive, Upgrade") x hx hn]
    refine ⟨[⟨[], b! "keep-alive", none, []⟩, ⟨b! " ", b! "Upgrade", none, []⟩], by simp, by decide +kernel, ?_⟩
    intro t ht
    simp only [List.mem_cons, List.not_mem_nil, or_false] at ht
    rcases ht with rfl | rfl
    · exact ⟨⟨by simp [Blanks], by simp [Blanks], by decide, by unfold TokenChar CtlOrSpace; decide +kernel, by simp⟩, rfl, by rw [← HttpRequest.name_eq_iff]; decide +kernel⟩
    · exact ⟨⟨by unfold Blanks; decide, by simp [Blanks], by decide, by unfold TokenChar CtlOrSpace; decide +kernel, by simp⟩, rfl, by rw [← HttpRequest.name_eq_iff]; decide +kernel⟩

/-- A session with a decompressor that counts. -/
def countServer : WsServer.Cfg Nat := { values := plainLib, env := countEnv, inflator := 0 }

example : ∃ w rest, serve countServer bareCfg bareLib [.receive (b! "/chat\nHos") false, .receive ((shakeText ++ b! "\n").drop 9 ++ wire ((mixedReads.map Prod.snd)[0].map Sent.raw)) false,
      .receive (wire ((mixedReads.map Prod.snd)[1].map Sent.raw)) false] = some w ∧
    w.threw = false ∧ w.responses = [101] ∧ w.addresses = [b! "h/chat?"] ∧ w.ws.trace = .accepted :: rest ∧ .accepted ∉ rest ∧
    delivered rest = [.message 1 (b! "Hi!"), .message 9 [], .message 2 [1, 2, 3], .message 1 (b! "Ho!"), .message 1 (b! "!"), .close 1000 (b! "A")] := by
  have := C90_session countServer 0x100000 6 rfl ⟨fun _ _ _ => rfl, by simp [countServer, countEnv], fun _ => rfl, fun _ _ _ => rfl⟩ (fun _ => rfl) bareCfg bareLib shake TinyState.url shake_good.1 shake_good.2 rfl rfl
    (by decide) shake_asks [b! "/chat\nHos"] ((shakeText ++ b! "\n").drop 9) (by decide +kernel) (by decide +kernel) (mixedReads.map Prod.snd)[0] [(mixedReads.map Prod.snd)[1]]
    true (fun _ => ⟨_, b! "permessage-deflate", by rfl⟩) mixed_readable (by decide) (by decide +kernel)
  exact this

/-- C90.  If a client asks for a connection and also tells that it is to be closed after the response, then it is not accepted, whatever pieces the handshake arrives in and whatever follows in the
same read: instead, the end of the session is reported. -/
theorem C90_closing {Z : Type} (g : WsServer.Cfg Z) (max lv : Nat) (hg : g.parser = { max_message_length := max, default_compression_level := lv }) (c : HttpRequest.Cfg) (L : Lib) (r : Request) (st : L.σ)
    (hr : r.Good L c L.init st) (hend : EndsWithHead L L.init r.wire) (hkeep : r.keep = false) (hproxy : r.headers.is_proxy = false) (hm : r.headers.method ≠ b! "OPTIONS") (hask : AsksForWebSocket (texts r.headers))
    (pieces : List Bytes) (last : Bytes) (hlast : last ≠ []) (hpieces : pieces.flatten ++ last = r.wire) (x : Bytes) :
    ∃ w, serve g c L (pieces.map (fun b => .receive b false) ++ [.receive (last ++ x) false]) = some w ∧ w.responses = [101] ∧ w.addresses = [] ∧ .accepted ∉ w.ws.trace ∧ ∃ n why rest, w.ws.trace = .close n why :: rest := by
  obtain ⟨p', a1, a2, a3, a4, a5, a6⟩ := accepts g.values max lv r.headers hm hask
  rw [← hg] at a1
  have hcomp : ∀ k, (({ ws := { parser := g.parser }, heads := [r.headers], calls := k } : W Z).complete g r.headers true)
      = (({ ws := { parser := p', upgraded := true }, heads := [r.headers], responses := [101], calls := k } : W Z).close g 1002 (Ws.descBytes p'.error_desc), true) := by
    intro k
    unfold W.complete
    simp only [a1]
    rw [if_neg (by simp), if_neg hm, if_pos (by simp)]
    simp
  have hrep : (app g (W.start g)).onHeaders [] r.headers (!r.keep) = { switched := true } := by
    unfold app
    simp only [W.of, W.start, List.foldl_nil, hkeep, hproxy, Bool.not_false, Bool.false_eq_true, if_false, List.nil_append, hcomp]
  obtain ⟨s1, r1, r2, r3, r4, r5, r6⟩ := loop_bare (A := app g (W.start g)) (c := c) ((last ++ x).length + 1) ({} : Sess L) r st x pieces last rfl rfl rfl hr hend hlast hpieces
    (.inl (by show ((app g (W.start g)).onHeaders [] r.headers (!r.keep)).type = _; rw [hrep]))
  generalize hh : handed (app g (W.start g)) ({} : Sess L) r st = s2 at r6
  have h2 : s2.failed = none ∧ s2.ack = true ∧ ∃ left, s2.trace = [.headers r.headers true, .stream r.payload, .finish r.headers left true] := by
    rw [← hh]
    unfold handed
    simp only
    rw [hrep, hkeep]
    exact ⟨trivial, by simp, _, rfl⟩
  obtain ⟨f2, k2, left, t2⟩ := h2
  have hrun : HttpServer.run (app g (W.start g)) c ({} : Sess L) [] (pieces.map (fun b => .receive b false) ++ [.receive (last ++ x) false])
      = some (({ s2 with p := Verif.HttpServer.deallocate s2.p } : Sess L).call (.upgraded x false), []) := by
    rw [run_append, r1]
    simp only [HttpServer.run]
    rw [step_receive _ _ _ r2 r3, r6, loop_succ, if_pos k2]
  unfold serve W.reads
  rw [hrun]
  refine ⟨_, rfl, ?_⟩
  have hstep : (W.start g).step g (.headers r.headers true) = (({ ws := { parser := p', upgraded := true }, heads := [r.headers], responses := [101], calls := 1 } : W Z).close g 1002 (Ws.descBytes p'.error_desc)) := by
    unfold W.step W.start
    rw [if_neg (by simp)]
    simp only [hproxy, Bool.false_eq_true, if_false, List.nil_append, hcomp]
  have keep : ∀ (t : List HttpServer.Ev) (w : W Z), w.ws.closure_notified = true → (∀ e ∈ t, (∃ b, e = .stream b) ∨ (∃ h b k, e = .finish h b k) ∨ ∃ d k, e = .upgraded d k) →
      (W.of g w t).ws = w.ws ∧ (W.of g w t).responses = w.responses ∧ (W.of g w t).addresses = w.addresses := by
    intro t
    induction t with
    | nil => intro w _ _; exact ⟨rfl, rfl, rfl⟩
    | cons e t ih =>
      intro w hc he
      have one : (w.step g e).ws = w.ws ∧ (w.step g e).responses = w.responses ∧ (w.step g e).addresses = w.addresses := by
        unfold W.step
        split
        · exact ⟨rfl, rfl, rfl⟩
        · rcases he e (by simp) with ⟨b, rfl⟩ | ⟨h, b, k, rfl⟩ | ⟨d, k, rfl⟩
          · exact ⟨rfl, rfl, rfl⟩
          · exact ⟨rfl, rfl, rfl⟩
          · simp only
            rw [Ws.stream_closed _ _ _ _ hc]
            exact ⟨rfl, by simp, by simp⟩
      obtain ⟨i1, i2, i3⟩ := ih (w.step g e) (by rw [one.1]; exact hc) (fun e' h' => he e' (List.mem_cons_of_mem _ h'))
      exact ⟨i1.trans one.1, i2.trans one.2.1, i3.trans one.2.2⟩
  have hof : W.of g (W.start g) (s2.trace ++ [.upgraded x false]) = W.of g ((W.start g).step g (.headers r.headers true)) [.stream r.payload, .finish r.headers left true, .upgraded x false] := by rw [t2]; rfl
  obtain ⟨q1, q2, q3⟩ := close_quiet g.env ({ parser := p', upgraded := true } : Ws.Session Z) 1002 (Ws.descBytes p'.error_desc)
  obtain ⟨e1, e2, e3⟩ := keep [.stream r.payload, .finish r.headers left true, .upgraded x false] ((W.start g).step g (.headers r.headers true)) (by rw [hstep]; exact q1) (by
    intro e he
    simp only [List.mem_cons, List.not_mem_nil, or_false] at he
    rcases he with rfl | rfl | rfl
    · exact .inl ⟨_, rfl⟩
    · exact .inr (.inl ⟨_, _, _, rfl⟩)
    · exact .inr (.inr ⟨_, _, rfl⟩))
  rw [hstep] at e1 e2 e3 hof
  simp only [Sess.call, hof, e1, e2, e3]
  refine ⟨rfl, rfl, q2 (by simp), 1002, Ws.descBytes p'.error_desc, ?_⟩
  unfold W.close Ws.Session.close_once
  rw [if_neg (by simp)]
  simp only
  split
  · exact ⟨_, rfl⟩
  · obtain ⟨-, m, e, -⟩ := Ws.grows_shut_down g.env 1000 [] (Ws.Grows.refl (({ closure_notified := true, upgraded := true, parser := p' } : Ws.Session Z).push (.close 1002 (Ws.descBytes p'.error_desc))))
    exact ⟨m, e⟩

/-- A library like `bareLib`, for clients which do not want to keep connections. -/
def oneShotLib : Lib := { bareLib with micro := fun st b => match bareLib.micro st b with | (s, d, .headers m n _) => (s, d, .headers m n false) | r => r }

instance : DecidableEq oneShotLib.σ := inferInstanceAs (DecidableEq TinyState)

example : ∃ w, serve quietServer bareCfg oneShotLib [.receive (b! "/chat\nHos") false, .receive ((shakeText ++ b! "\n").drop 9 ++ b! "abc") false] = some w ∧ w.responses = [101] ∧ w.addresses = [] ∧ .accepted ∉ w.ws.trace ∧
    ∃ n why rest, w.ws.trace = .close n why :: rest := by
  have h1 : Emits oneShotLib TinyState.url shakeText (headCalls shake.url shake.fields) TinyState.name := emits_of (by decide +kernel)
  have hgood : ({ shake with keep := false } : Request).Good oneShotLib bareCfg oneShotLib.init TinyState.url :=
    ⟨⟨shakeText, chr '\n', [], _, [], TinyState.name, TinyState.end, 0, [], chr '\n', [], [], TinyState.end, by decide +kernel, rfl, h1, by rfl, by simp, .nil _, by rfl, by decide⟩, by decide, by decide, by decide, by decide, by decide +kernel, by decide, by decide⟩
  exact C90_closing quietServer 0x100000 6 rfl bareCfg oneShotLib { shake with keep := false } TinyState.url hgood ⟨shakeText, chr '\n', _, _, by decide +kernel, h1⟩ rfl rfl (by decide) shake_asks [b! "/chat\nHos"]
    ((shakeText ++ b! "\n").drop 9) (by decide +kernel) (by decide +kernel) (b! "abc")

/-- C90.  Whatever arrives, in whatever pieces, and whatever the callbacks of the user do: every call, until there is an exception, returns. -/
theorem C90_returns {Z : Type} (g : WsServer.Cfg Z) (c : HttpRequest.Cfg) (L : Lib) (body : L.σ → Prop) (hL : LibOk L body) (reads : List Act) : ∃ w, serve g c L reads = some w := serve_some g c L body hL reads

/-- C90.  Whatever arrives, in whatever pieces, whatever the callbacks of the user do, and whatever else arrives after exceptions: the connection is accepted at most once, and only after a response
with status 101; data and messages are reported only after it has been accepted and not after a close; and a close is reported at most once. -/
theorem C90_order {Z : Type} (g : WsServer.Cfg Z) (c : HttpRequest.Cfg) (L : Lib) (reads : List Act) (hs : .switch ∉ reads) (more : List (Again L)) (hm : ∀ x ∈ more, .switch ∉ x.reads) (w : W Z)
    (hw : serveAll g c L reads more = some w) :
    w.ws.trace.count .accepted ≤ 1 ∧ (.accepted ∈ w.ws.trace → ∃ xs, w.responses = xs ++ [101]) ∧
      (∀ pre e post, w.ws.trace = pre ++ e :: post → (∃ op b, e = .data op b ∨ e = .finish op b) → .accepted ∈ pre ∧ ∀ n r, .close n r ∉ pre) ∧
      (∀ pre n r post, w.ws.trace = pre ++ .close n r :: post → ∀ n' r', .close n' r' ∉ pre) := by
  have hi := serve_inv g c L reads hs more hm w hw
  refine ⟨hi.once, fun ha => ?_, fun pre e post ht he => ⟨hi.messages ht he, good_order hi.good ht ?_⟩, fun pre n r post ht => good_order hi.good ht rfl⟩
  · obtain ⟨-, -, xs, -, -, -, -, h, -⟩ := (hi.accepted ha).parts
    exact ⟨xs, h⟩
  · obtain ⟨op, b, rfl | rfl⟩ := he <;> rfl

/-- C90.  A connection is accepted only if a request, which is not to a proxy, has asked for it, and the application gets the address of that request. -/
theorem C90_asked {Z : Type} (g : WsServer.Cfg Z) (c : HttpRequest.Cfg) (L : Lib) (reads : List Act) (hs : .switch ∉ reads) (more : List (Again L)) (hm : ∀ x ∈ more, .switch ∉ x.reads) (w : W Z)
    (hw : serveAll g c L reads more = some w) (ha : .accepted ∈ w.ws.trace) :
    ∃ h ∈ w.heads, h.is_proxy = false ∧ OffersWebSocket (texts h) ∧ w.addresses = [h.raw_host ++ h.raw_path ++ b! "?" ++ h.raw_query] :=
  ((serve_inv g c L reads hs more hm w hw).accepted ha).request

/-- C90.  The acceptance comes before the close.  PARTIAL: only if no request before it has been rejected, see `C90_violated`. -/
theorem C90_first_partial {Z : Type} (g : WsServer.Cfg Z) (c : HttpRequest.Cfg) (L : Lib) (reads : List Act) (hs : .switch ∉ reads) (more : List (Again L)) (hm : ∀ x ∈ more, .switch ∉ x.reads) (w : W Z)
    (hw : serveAll g c L reads more = some w) (hr : ∀ x ∈ w.responses, x = 204 ∨ x = 101) (pre post : List Ws.Ev) (ht : w.ws.trace = pre ++ .accepted :: post) : ∀ n r, .close n r ∉ pre := by
  have hi := serve_inv g c L reads hs more hm w hw
  obtain ⟨pre', post', xs, p1, p2, p3, p4, p5, p6, p7⟩ := (hi.accepted (by rw [ht]; simp)).parts
  have : pre = pre' := by
    rw [p1] at ht
    rcases List.append_eq_append_iff.1 ht with ⟨u, e1, e2⟩ | ⟨u, e1, e2⟩
    · cases u with
      | nil => simpa using e1
      | cons x u =>
        simp only [List.cons_append, List.cons.injEq] at e2
        exact absurd (by rw [e2.2]; simp) p3
    · cases u with
      | nil => simpa using e1.symm
      | cons x u =>
        simp only [List.cons_append, List.cons.injEq] at e2
        exact absurd (by rw [e1, ← e2.1]; simp) p2
  rw [this]
  exact p7 fun x hx => (hr x (by rw [p5]; simp [hx])).resolve_right fun h => p6 (h ▸ hx)

/-- The history of a session, and the status codes of its responses. -/
def told {Z : Type} (g : WsServer.Cfg Z) (c : HttpRequest.Cfg) (L : Lib) (reads : List Act) : Option (List Ws.Ev × List Nat × Bool) := (serve g c L reads).map fun w => (w.ws.trace, w.responses, w.threw)

example : told quietServer bareCfg bareLib [.receive (shakeText ++ b! "\n" ++ wire [(⟨true, false, false, false, 1, some 0, 2⟩, [72, 105])]) false]
    = some ([.accepted, .data 1 [72, 105], .finish 1 [72, 105]], [101], false) := by decide +kernel
example : told quietServer bareCfg bareLib [.receive (b! "/\nHost:h\n\n") false] = some ([.close 1002 (b! "handshake request invalid"), .shut_down], [426], false) := by decide +kernel

/-- C90 is violated: a request that is not a handshake is rejected, and the close is reported; but if a handshake follows, then the connection is accepted after that, and its messages are lost. -/
theorem C90_violated : told quietServer bareCfg bareLib [.receive (b! "/\nHost:h\n\n" ++ shakeText ++ b! "\n" ++ wire [(⟨true, false, false, false, 1, some 0, 2⟩, [72, 105])]) false]
    = some ([.close 1002 (b! "handshake request invalid"), .shut_down, .accepted], [426, 101], false) := by decide +kernel

/-- C90 is violated: the payload of a handshake which comes in a read of its own is taken for frames. -/
theorem C90_violated_payload : told quietServer bareCfg tinyLib [.receive (shakeText ++ b! "\n") false, .receive (wire [(⟨true, false, false, false, 1, some 0, 2⟩, [72, 105])] ++ b! ".") false]
    = some ([.accepted, .data 1 [72, 105], .finish 1 [72, 105]], [101], false) ∧
  told quietServer bareCfg tinyLib [.receive (shakeText ++ b! "\n" ++ wire [(⟨true, false, false, false, 1, some 0, 2⟩, [72, 105])] ++ b! ".") false] = some ([.accepted], [101], false) := by decide +kernel

/-- The frame of a message. -/
def hiServer : Bytes := wire [(⟨true, false, false, false, 1, some 0, 2⟩, [72, 105])]

/-- C90 is violated: what has been read of the header of a frame is gone if the rest comes in the next read, so there the rest is taken for another header, and the connection is closed for an error
that the client has not made. -/
theorem C90_violated_header : told quietServer bareCfg bareLib [.receive (shakeText ++ b! "\n" ++ hiServer) false] = some ([.accepted, .data 1 [72, 105], .finish 1 [72, 105]], [101], false) ∧
  told quietServer bareCfg bareLib [.receive (shakeText ++ b! "\n" ++ hiServer.take 1) false, .receive (hiServer.drop 1) false]
    = some ([.accepted, .close 1002 (b! "clients must mask frames to servers"), .sent [136, 2, 3, 232], .shut_down], [101], false) := by decide +kernel

/-! ## C91 -/

/-- C91.  Whatever has arrived, whatever the callbacks have done, and whatever has arrived after exceptions: when the socket has been closed, the session has reported a close exactly once, and
neither data nor messages after that. -/
theorem C91_reported {Z : Type} (g : WsServer.Cfg Z) (c : HttpRequest.Cfg) (L : Lib) (reads : List Act) (hs : .switch ∉ reads) (more : List (Again L)) (hm : ∀ x ∈ more, .switch ∉ x.reads) (w : W Z)
    (hw : serveAll g c L reads more = some w) :
    ∃ pre n r post, (w.closed g).ws.trace = pre ++ .close n r :: post ∧ (∀ n' r', .close n' r' ∉ pre) ∧ (∀ n' r', .close n' r' ∉ post) ∧ ∀ op b, .data op b ∉ post ∧ .finish op b ∉ post := by
  have hg := (serve_inv g c L reads hs more hm w hw).good
  obtain ⟨-, a, n, r, b, e, ha, hb⟩ := Ws.shut_close_once g.env w.ws 1006 (Ws.descBytes (some "no CLOSE frame received")) hg
  refine ⟨a, n, r, b, e, fun n' r' h => ?_, fun n' r' h => ?_, fun op x => ⟨fun h => ?_, fun h => ?_⟩⟩
  · have := ha _ h; simp [Ws.Ev.isClose] at this
  all_goals have := hb _ h; simp [Ws.Ev.isCallback] at this

/-- The history of a session after its socket has been closed. -/
def toldEnd {Z : Type} (g : WsServer.Cfg Z) (c : HttpRequest.Cfg) (L : Lib) (reads : List Act) (more : List (Again L)) : Option (List Ws.Ev × Bool) :=
  (serveAll g c L reads more).map fun w => ((w.closed g).ws.trace, w.threw)

example : toldEnd quietServer bareCfg bareLib [.receive (shakeText ++ b! "\n" ++ hiServer) false, .receive [] true] []
    = some ([.accepted, .data 1 [72, 105], .finish 1 [72, 105], .close 1006 (b! "no CLOSE frame received"), .sent [136, 2, 3, 232], .shut_down], false) := by decide +kernel
example : toldEnd quietServer bareCfg bareLib [] [] = some ([.close 1006 (b! "no CLOSE frame received"), .shut_down], false) := by decide +kernel

/-- A session whose messages are limited to three bytes, with the default callback for data. -/
def smallServer : WsServer.Cfg Unit := { quietServer with env := { plainEnv with on_data := fun _ _ b => if b.length > 3 then none else some b }, parser := { max_message_length := 3 } }

-- a message in two frames which is too long makes the default callback throw an exception
example : toldEnd smallServer bareCfg bareLib
      [.receive (shakeText ++ b! "\n" ++ wire [(⟨false, false, false, false, 1, some 0, 2⟩, [72, 105]), (⟨true, false, false, false, 0, some 0, 2⟩, [72, 105])]) false] [⟨{}, bareLib.init, [.receive [] true]⟩]
    = some ([.accepted, .data 1 [72, 105], .data 1 [72, 105, 72, 105], .close 1006 (b! "no CLOSE frame received"), .sent [136, 2, 3, 232], .shut_down], false) := by decide +kernel

-- a malformed payload behind a handshake makes the session throw an exception, because it cannot send an error after status 101
example : toldEnd quietServer bareCfg tinyLib [.receive (shakeText ++ b! "\n!") false] [⟨{}, tinyLib.init, [.receive [] true]⟩]
    = some ([.accepted, .close 1006 (b! "no CLOSE frame received"), .sent [136, 2, 3, 232], .shut_down], false) := by decide +kernel

end Verif.Props
