import Verif.Props.EasyNetLive
import Verif.Props.EasyWs
import Verif.Props.EasyHws
/-!
# C129: messages that arrive reach the callbacks of easy WebSocket servers and clients
-/
namespace Verif.Props
open Verif.Easy Verif.EasyNet Verif.EasyWs Verif.Spec Verif.Live
open Verif.HttpLib (Lib)

/-- Nothing comes behind a close. -/
theorem ew_upTo : ∀ (fs : List (WsFrame × Bytes)) (st : MsgState), upToClose ((assemble st fs).2.flatMap shown) = (assemble st fs).2.flatMap shown := by
  have closed : ∀ fs : List (WsFrame × Bytes), (assemble .closed fs).2 = [] := by
    intro fs
    induction fs with
    | nil => rfl
    | cons x t ih => simp [assemble, assemble1, ih]
  have open_ : ∀ op b, ∀ e ∈ shown (.message op b), e.ty ≠ .close := by
    intro op b e he
    unfold EasyWs.shown at he
    dsimp only at he
    split at he <;> simp at he <;> subst he <;> simp
  intro fs
  induction fs with
  | nil => intro st; rfl
  | cons x t ih =>
    intro st
    have key : (∀ d ∈ (assemble1 st x).2, ∃ op b, d = Delivered.message op b) ∨ ((assemble1 st x).1 = .closed ∧ ∃ n r, (assemble1 st x).2 = [.close n r]) := by
      obtain ⟨f, p⟩ := x
      have ext : ∀ op a b fin, ∀ d ∈ (extend op a b fin).2, ∃ op b, d = Delivered.message op b := by
        intro op a b fin d hd
        unfold extend at hd
        split at hd <;> simp at hd
        exact ⟨_, _, hd⟩
      unfold assemble1
      split
      · exact .inl (by simp)
      · repeat' split
        all_goals first
          | exact .inr ⟨rfl, _, _, rfl⟩
          | exact .inl (ext _ _ _ _)
          | exact .inl (by simp)
    show upToClose (((assemble1 st x).2 ++ (assemble (assemble1 st x).1 t).2).flatMap shown) = ((assemble1 st x).2 ++ (assemble (assemble1 st x).1 t).2).flatMap shown
    rw [List.flatMap_append]
    rcases key with h | ⟨h1, n, r, h2⟩
    · rw [EasyWs.upToClose_pre, ih]
      intro e he
      obtain ⟨d, hd, he⟩ := List.mem_flatMap.1 he
      obtain ⟨op, b, rfl⟩ := h d hd
      exact open_ op b e he
    · rw [h1, h2, closed]
      rfl

theorem ew_opened (a : Bytes) (fs : List (WsFrame × Bytes)) : upToClose (opened a :: (assemble .idle fs).2.flatMap shown) = opened a :: (assemble .idle fs).2.flatMap shown := by
  have := EasyWs.upToClose_pre (a := [opened a]) (b := (assemble .idle fs).2.flatMap shown) (by simp [opened])
  simpa [ew_upTo] using this

section
open Verif.WsServer Verif.HttpServer

variable {Z : Type} {g : WsServer.Cfg Z} {c : HttpRequest.Cfg} {L : Lib} {resume : WsServer.W Z → HttpRequest.Parser × L.σ}

/-- C129.  For `Easy_WS_Server`: if a handshake has arrived, in any pieces, and then frames, in reads of whole frames, then the callback is called for the opening, with the address of the request, for every text,
binary and PONG message, each once, with its payload, in order, and for a CLOSE frame, eventually, unless memory runs out, or the server is stopped.  The socket need not be closed.  PARTIAL: as `C101_session_partial`; see also `C39_reuse`. -/
theorem C129_messages_partial (max lv : Nat) (hg : g.parser = { max_message_length := max, default_compression_level := lv }) (hq : Quiet g.env max) (hacc : ∀ t, g.env.on_accepted t = false)
    (r : Request) (st : L.σ) (hr : r.Good L c L.init st) (hend : EndsWithHead L L.init r.wire) (hkeep : r.keep = true) (hproxy : r.headers.is_proxy = false) (hm : r.headers.method ≠ b! "OPTIONS")
    (hask : AsksForWebSocket (texts r.headers)) (pieces : List Bytes) (last : Bytes) (hlast : last ≠ []) (hpieces : pieces.flatten ++ last = r.wire) (first : List Sent) (more : List (List Sent))
    (agreed : Bool) (hagreed : agreed = true → ∃ p ext, Ws.accept_handshake_request g.values g.parser (texts r.headers) = some (p, some ext))
    (hread : Readable max (unpackMessage g.env.inflate_stream g.env.inflate_finish) g.inflator (first :: more).flatten) (hlegal : LegalSequence true agreed false ((first :: more).flatten.map Sent.frame)) (hlimit : WithinLimit max .idle ((first :: more).flatten.map Sent.meant))
    {e : Exec (EasyNet.step (C := server g c L resume))} (h : EasyNet.Fairly e) (hcare : (e.st 0).easy.careful = true) {i n : Nat} (hi : i < (e.st n).easy.count)
    (hin : (e.st n).input i = .connected :: (pieces ++ [last ++ onWire first] ++ more.map onWire).map .read) :
    ∃ m, n ≤ m ∧ (opened (r.headers.raw_host ++ r.headers.raw_path ++ b! "?" ++ r.headers.raw_query) :: (assemble .idle ((first :: more).flatten.map Sent.meant)).2.flatMap shown <+: handled (e.st m).easy.trace i ∨
      Lost (e.st m).easy.trace i) := by
  obtain ⟨w, rest, s1, s2, -, s4, s5, s6, s7⟩ := C90_session g max lv hg hq hacc c L r st hr hend hkeep hproxy hm hask pieces last hlast hpieces first more agreed hagreed hread hlegal hlimit
  have hacts : pieces.map (fun b => Act.receive b false) ++ [.receive (last ++ onWire first) false] ++ more.map (fun fs => .receive (onWire fs) false) = (pieces ++ [last ++ onWire first] ++ more.map onWire).map (.receive · false) := by
    simp [Function.comp_def]
  rw [hacts] at s1
  obtain ⟨evs0, h0⟩ := server_collects g c resume _ w s1 s2
  rw [← hin] at h0
  obtain ⟨x, evs, m, h1, hmn, hd⟩ := C129_sockets_partial h hcare hi
  rw [h0] at h1
  have hca : (e.st n).easy.careful = true := (es_later (e := en_exec e) i (Nat.zero_le n)).careful.trans hcare
  obtain ⟨-, h5, -⟩ := EasyWs.server_sound ((ninv (en_reach h n) hca).ordered i) h0
  refine ⟨m, hmn, hd.imp (fun hd => ?_) id⟩
  rw [← (Prod.mk.inj (Option.some.inj h1)).2, h5] at hd
  have : w.ws.trace.flatMap (event (w.addresses.getLastD [])) = opened (r.headers.raw_host ++ r.headers.raw_path ++ b! "?" ++ r.headers.raw_query) :: (assemble .idle ((first :: more).flatten.map Sent.meant)).2.flatMap shown := by
    rw [s5, s4, List.flatMap_cons, EasyWs.rest_seen _ rest s6, s7]
    simp [event, opened]
  rw [show (_ : List Ws.Ev).flatMap _ = _ from this, ew_opened] at hd
  exact hd

end

section
open Verif.WsClient Verif.HttpClient

variable {Z : Type} {g : WsClient.Cfg Z} {c : HttpRequest.Cfg} {L : Lib} {uri : Bytes × Bytes × Bytes × Bytes} {resume : WsClient.W Z → HttpResponse.Parser × L.σ}

/-- C129.  Likewise for `Easy_WS_Client`, when the response to its handshake has arrived, and then frames.  PARTIAL: as `C102_session_partial`; see also `C39_reuse`. -/
theorem C129_replies_partial (max lv : Nat) (hg : g.parser = { wshs := .c_req_sent, max_message_length := max, default_compression_level := lv }) (hq : Quiet g.env max) (hacc : ∀ t, g.env.on_accepted t = false)
    (hV : Ws.WindowTexts g.values) (hlen : g.accept.length = 28) (hhead : g.accept.headD 0 ≠ 0)
    (r : Verif.Spec.Client.Response) (st : L.σ) (hr : r.Good L c false false L.init st) (hend : EndsWithHead L L.init r.wire) (hkeep : r.keep = true) (hstatus : r.status = 101)
    (hagree : AgreesToWebSocket g.accept (texts r.headers)) (pieces : List Bytes) (last : Bytes) (hlast : last ≠ []) (hpieces : pieces.flatten ++ last = r.wire) (first : List Sent) (more : List (List Sent))
    (agreed : Bool) (hagreed : agreed = true → ∃ p, Ws.accept_handshake_response g.values g.accept g.parser (texts r.headers) = some p ∧ p.pmce_compression_level_m2 ≠ 0)
    (hread : Readable max (unpackMessage g.env.inflate_stream g.env.inflate_finish) g.inflator (first :: more).flatten) (hlegal : LegalSequence false agreed false ((first :: more).flatten.map Sent.frame)) (hlimit : WithinLimit max .idle ((first :: more).flatten.map Sent.meant))
    {e : Exec (EasyNet.step (C := client g c L uri resume))} (h : EasyNet.Fairly e) (hcare : (e.st 0).easy.careful = true) {i n : Nat} (hi : i < (e.st n).easy.count)
    (hin : (e.st n).input i = .connected :: (pieces ++ [last ++ onWire first] ++ more.map onWire).map .read) :
    ∃ m, n ≤ m ∧ (opened (uri.1 ++ uri.2.1 ++ b! "?" ++ uri.2.2.1 ++ b! "#" ++ uri.2.2.2) :: (assemble .idle ((first :: more).flatten.map Sent.meant)).2.flatMap shown <+: handled (e.st m).easy.trace i ∨
      Lost (e.st m).easy.trace i) := by
  obtain ⟨w, rest, s1, s2, -, s5, s6, s7⟩ := C92_session g max lv hg hq hacc hV hlen hhead c L r st hr hend hkeep hstatus hagree pieces last hlast hpieces first more agreed hagreed hread hlegal hlimit
  have hacts : pieces.map (fun b => (⟨b, false⟩ : Act)) ++ [⟨last ++ onWire first, false⟩] ++ more.map (fun fs => ⟨onWire fs, false⟩) = (pieces ++ [last ++ onWire first] ++ more.map onWire).map (⟨·, false⟩) := by
    simp [Function.comp_def]
  rw [hacts] at s1
  obtain ⟨evs0, h0⟩ := client_collects g c uri resume _ w s1 s2
  rw [← hin] at h0
  obtain ⟨x, evs, m, h1, hmn, hd⟩ := C129_sockets_partial h hcare hi
  rw [h0] at h1
  have hca : (e.st n).easy.careful = true := (es_later (e := en_exec e) i (Nat.zero_le n)).careful.trans hcare
  obtain ⟨-, h5, -⟩ := EasyWs.client_sound ((ninv (en_reach h n) hca).ordered i) h0
  refine ⟨m, hmn, hd.imp (fun hd => ?_) id⟩
  rw [← (Prod.mk.inj (Option.some.inj h1)).2, h5] at hd
  have : w.ws.trace.flatMap (event (client.addr uri)) = opened (uri.1 ++ uri.2.1 ++ b! "?" ++ uri.2.2.1 ++ b! "#" ++ uri.2.2.2) :: (assemble .idle ((first :: more).flatten.map Sent.meant)).2.flatMap shown := by
    rw [s5, List.flatMap_cons, EasyWs.rest_seen _ rest s6, s7]
    rfl
  rw [show (_ : List Ws.Ev).flatMap _ = _ from this, ew_opened] at hd
  exact hd

end

section
open Verif.WsServer Verif.HttpServer Verif.EasyHws

variable {Z : Type} {g : WsServer.Cfg Z} {c : HttpRequest.Cfg} {L : Lib} {resume : H Z → HttpRequest.Parser × L.σ}

/-- C129.  For `Easy_HWS_Server`: if plain requests have arrived, in any pieces, then the callback is called for each of them once, in order, with its method and its address, eventually, unless memory runs out, or the
server is stopped.  PARTIAL: see `C39_reuse`. -/
theorem C129_plain_partial {body : L.σ → Prop} (hL : LibOk L body) (rs : List Request) (hp : ∀ r ∈ rs, IsPlain r.headers) (st : L.σ) (hr : Conversation L c L.init rs st)
    (l : List Bytes) (hlw : l.flatten = rs.flatMap Request.wire)
    {e : Exec (EasyNet.step (C := EasyHws.server g c L resume))} (h : EasyNet.Fairly e) (hcare : (e.st 0).easy.careful = true) {i n : Nat} (hi : i < (e.st n).easy.count)
    (hin : (e.st n).input i = .connected :: l.map .read) :
    ∃ m, n ≤ m ∧ ((rs.map fun r => asked r.headers) <+: handled (e.st m).easy.trace i ∨ Lost (e.st m).easy.trace i) := by
  obtain ⟨x0, hs, k, c1, c2, c3, c4, c5, c6⟩ := conversation_state g (c := c) hL rs hp st hr l hlw
  have hreads : (H.start g).reads g c ({} : Sess L) (l.map (.receive · false)) = some { w := { WsServer.W.start g with heads := hs, calls := k }, log := rs.map fun r => asked r.headers } := by
    unfold H.reads
    have : HttpServer.run (EasyHws.app g (.start g)) c ({} : Sess L) [] (l.map (.receive · false)) = some (x0, []) := by simpa [arrival] using c1
    rw [this]
    simp only [c6, c2]
    rfl
  obtain ⟨evs0, h0⟩ := EasyHws.collects g c resume l _ hreads rfl
  rw [← hin] at h0
  obtain ⟨x, evs, m, h1, hmn, hd⟩ := C129_sockets_partial h hcare hi
  rw [h0] at h1
  have hca : (e.st n).easy.careful = true := (es_later (e := en_exec e) i (Nat.zero_le n)).careful.trans hcare
  obtain ⟨h4, -⟩ := EasyHws.server_sound ((ninv (en_reach h n) hca).ordered i) h0
  refine ⟨m, hmn, hd.imp (fun hd => ?_) id⟩
  rw [← (Prod.mk.inj (Option.some.inj h1)).2, h4] at hd
  have := EasyHws.upToClose_pre (b := []) (EasyHws.asked_open rs)
  rw [List.append_nil] at this
  rw [show upToClose _ = _ from this] at hd
  simpa [upToClose] using hd

/-- C129.  Likewise, if plain requests have arrived, then a handshake, in any pieces, and then frames, in reads of whole frames: the callback is called for each plain request once, in order, for the opening, for every
text, binary and PONG message, each once, with its payload, in order, and for a CLOSE frame.  PARTIAL: as `C103_session_partial`; see also `C39_reuse`. -/
theorem C129_upgrade_partial (max lv : Nat) (hg : g.parser = { max_message_length := max, default_compression_level := lv }) (hq : Quiet g.env max) (hacc : ∀ t, g.env.on_accepted t = false)
    {body : L.σ → Prop} (hL : LibOk L body) (rs : List Request) (hp : ∀ r ∈ rs, IsPlain r.headers) (st0 : L.σ) (hr0 : Conversation L c L.init rs st0)
    (r : Request) (st : L.σ) (hr : r.Good L c st0 st) (hend : EndsWithHead L st0 r.wire) (hkeep : r.keep = true) (hproxy : r.headers.is_proxy = false) (hm : r.headers.method = b! "GET")
    (hask : AsksForWebSocket (texts r.headers)) (l : List Bytes) (hlw : l.flatten = rs.flatMap Request.wire) (pieces : List Bytes) (last : Bytes) (hlast : last ≠ []) (hpieces : pieces.flatten ++ last = r.wire)
    (first : List Sent) (more : List (List Sent))
    (agreed : Bool) (hagreed : agreed = true → ∃ p ext, Ws.accept_handshake_request g.values g.parser (texts r.headers) = some (p, some ext))
    (hread : Readable max (unpackMessage g.env.inflate_stream g.env.inflate_finish) g.inflator (first :: more).flatten) (hlegal : LegalSequence true agreed false ((first :: more).flatten.map Sent.frame)) (hlimit : WithinLimit max .idle ((first :: more).flatten.map Sent.meant))
    {e : Exec (EasyNet.step (C := EasyHws.server g c L resume))} (h : EasyNet.Fairly e) (hcare : (e.st 0).easy.careful = true) {i n : Nat} (hi : i < (e.st n).easy.count)
    (hin : (e.st n).input i = .connected :: (l ++ (pieces ++ [last ++ onWire first] ++ more.map onWire)).map .read) :
    ∃ m, n ≤ m ∧ ((rs.map fun r => asked r.headers) ++ (opened (r.headers.raw_host ++ r.headers.raw_path ++ b! "?" ++ r.headers.raw_query) :: (assemble .idle ((first :: more).flatten.map Sent.meant)).2.flatMap shown).map seenWs <+:
      handled (e.st m).easy.trace i ∨ Lost (e.st m).easy.trace i) := by
  rw [← EasyHws.lift_seen]
  obtain ⟨s, rest, s1, s2, -, s4, s5, s6, s7, s8⟩ := EasyHws.session g max lv hg hq hacc c hL rs hp st0 hr0 r st hr hend hkeep hproxy hm hask l hlw pieces last hlast hpieces first more agreed hagreed hread hlegal hlimit
  have hacts : l.map (fun b => Act.receive b false) ++ (pieces.map (fun b => Act.receive b false) ++ [.receive (last ++ onWire first) false] ++ more.map (fun fs => .receive (onWire fs) false)) =
      (l ++ (pieces ++ [last ++ onWire first] ++ more.map onWire)).map (.receive · false) := by
    simp [Function.comp_def]
  rw [hacts] at s1
  obtain ⟨evs0, h0⟩ := EasyHws.collects g c resume _ s s1 s2
  rw [← hin] at h0
  obtain ⟨x, evs, m, h1, hmn, hd⟩ := C129_sockets_partial h hcare hi
  rw [h0] at h1
  have hca : (e.st n).easy.careful = true := (es_later (e := en_exec e) i (Nat.zero_le n)).careful.trans hcare
  obtain ⟨h4, -⟩ := EasyHws.server_sound ((ninv (en_reach h n) hca).ordered i) h0
  refine ⟨m, hmn, hd.imp (fun hd => ?_) id⟩
  rw [← (Prod.mk.inj (Option.some.inj h1)).2, h4] at hd
  have hlog : s.log = (rs.map fun r => asked r.headers) ++ (opened (r.headers.raw_host ++ r.headers.raw_path ++ b! "?" ++ r.headers.raw_query) :: (assemble .idle ((first :: more).flatten.map Sent.meant)).2.flatMap shown).map lift := by
    rw [s8, List.flatMap_cons, EasyWs.rest_seen _ rest s6, s7]
    simp [event, opened, caddr]
    rfl
  rw [show upToClose _ = upToClose s.log from rfl, hlog, EasyHws.upToClose_pre (EasyHws.asked_open rs), EasyHws.upToClose_lift, ew_opened] at hd
  exact hd

end

/-! ## Examples -/

def ewServer : List (NAct WMsg) := wsNetDemo (b! "/chat\nHos") ((shakeText ++ b! "\n").drop 9 ++ wire (sampleReads.map Prod.snd)[0]) (wire (sampleReads.map Prod.snd)[1]) 2

theorem ewServer_ok : (runs (EasyNet.step (C := wsServer)) { easy := { careful := true } } ewServer).any en_quiet = true := by decide +kernel

/- The handshake and the frames of the example for `C90_session`, all of which have arrived after 8 steps, when the callback has been called for the opening only. -/
example : EasyNet.Fairly (enExec ewServer ewServer_ok) ∧ ((enExec ewServer ewServer_ok).st 0).easy.careful = true ∧ 0 < ((enExec ewServer ewServer_ok).st 8).easy.count ∧
    ((enExec ewServer ewServer_ok).st 8).input 0 = .connected :: ([b! "/chat\nHos"] ++ [(shakeText ++ b! "\n").drop 9 ++ wire (sampleReads.map Prod.snd)[0]] ++ [(sampleReads.map Prod.snd)[1]].map wire).map .read ∧
    handled ((enExec ewServer ewServer_ok).st 8).easy.trace 0 = [opened (b! "h/chat?")] ∧
    handled ((enExec ewServer ewServer_ok).st 17).easy.trace 0 = [opened (b! "h/chat?"), { ty := .other, data := b! "Hello", msg := some .text }, { ty := .close, data := b! "1000: A" }] ∧
    ((enExec ewServer ewServer_ok).st 17).easy.trace.contains .stopped = false :=
  ⟨enExec_fair _ _, rfl, by decide +kernel, by decide +kernel, by decide +kernel, by decide +kernel, by decide +kernel⟩

def ewClient : List (NAct WMsg) := wsNetDemo (b! "1Swi") ((answerText ++ b! "\n").drop 4 ++ wire sampleReplies[0]) (wire sampleReplies[1]) 2

theorem ewClient_ok : (runs (EasyNet.step (C := wsClient)) { easy := { careful := true } } ewClient).any en_quiet = true := by decide +kernel

/- The response and the frames of the example for `C92_session`. -/
example : EasyNet.Fairly (enExec ewClient ewClient_ok) ∧ ((enExec ewClient ewClient_ok).st 0).easy.careful = true ∧ 0 < ((enExec ewClient ewClient_ok).st 8).easy.count ∧
    ((enExec ewClient ewClient_ok).st 8).input 0 = .connected :: ([b! "1Swi"] ++ [(answerText ++ b! "\n").drop 4 ++ wire sampleReplies[0]] ++ [sampleReplies[1]].map wire).map .read ∧
    handled ((enExec ewClient ewClient_ok).st 8).easy.trace 0 = [opened (b! "h:80/chat?a=b#top")] ∧
    handled ((enExec ewClient ewClient_ok).st 17).easy.trace 0 = [opened (b! "h:80/chat?a=b#top"), { ty := .other, data := b! "Hello", msg := some .text }, { ty := .close, data := b! "1000: A" }] ∧
    ((enExec ewClient ewClient_ok).st 17).easy.trace.contains .stopped = false :=
  ⟨enExec_fair _ _, rfl, by decide +kernel, by decide +kernel, by decide +kernel, by decide +kernel, by decide +kernel⟩

def ewBoth : List (NAct EasyHws.HMsg) :=
  [.easy (.accept 100), .socket 0 .connected, .socket 0 (.read (b! "/a\nHost:h\n\n")), .push .no, .socket 0 (.read (b! "/chat\nHos")), .easy (.resume 0), .easy (.loop 0),
    .socket 0 (.read ((shakeText ++ b! "\n").drop 9 ++ wire (sampleReads.map Prod.snd)[0])), .push .no, .easy (.back 0 0), .easy (.loop 0), .socket 0 (.read (wire (sampleReads.map Prod.snd)[1])), .push .no, .push .no,
    .easy (.back 0 0), .easy (.loop 0), .easy (.back 0 0), .easy (.loop 0), .socket 0 (.closed (b! "bye")), .easy (.back 0 0), .easy (.loop 0)]

theorem ewBoth_ok : (runs (EasyNet.step (C := hwsServer)) { easy := { careful := true } } ewBoth).any en_quiet = true := by decide +kernel

/- A plain request, all of which has arrived after 3 steps, and then a handshake and frames, after 12 steps. -/
example : EasyNet.Fairly (enExec ewBoth ewBoth_ok) ∧ ((enExec ewBoth ewBoth_ok).st 0).easy.careful = true ∧ 0 < ((enExec ewBoth ewBoth_ok).st 3).easy.count ∧ 0 < ((enExec ewBoth ewBoth_ok).st 12).easy.count ∧
    ((enExec ewBoth ewBoth_ok).st 3).input 0 = .connected :: [b! "/a\nHost:h\n\n"].map .read ∧ [b! "/a\nHost:h\n\n"].flatten = [plainGet].flatMap Request.wire ∧
    ((enExec ewBoth ewBoth_ok).st 12).input 0 = .connected :: ([b! "/a\nHost:h\n\n"] ++ ([b! "/chat\nHos"] ++ [(shakeText ++ b! "\n").drop 9 ++ wire (sampleReads.map Prod.snd)[0]] ++ [(sampleReads.map Prod.snd)[1]].map wire)).map .read ∧
    handled ((enExec ewBoth ewBoth_ok).st 3).easy.trace 0 = [] ∧
    handled ((enExec ewBoth ewBoth_ok).st 21).easy.trace 0 = EasyHws.asked plainGet.headers :: [opened (b! "h/chat?"), { ty := .other, data := b! "Hello", msg := some .text }, { ty := .close, data := b! "1000: A" }].map EasyHws.seenWs :=
  ⟨enExec_fair _ _, rfl, by decide +kernel, by decide +kernel, by decide +kernel, by decide +kernel, by decide +kernel, by decide +kernel, by decide +kernel⟩

end Verif.Props
