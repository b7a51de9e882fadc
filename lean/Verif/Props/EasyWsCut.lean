import Verif.Props.EasyWsLive
import Verif.Props.WsServerCut
import Verif.Props.WsClientCut
/-!
# C101, C102 and C129: reads that end inside a frame
-/
namespace Verif.Props
open Verif.Easy Verif.EasyNet Verif.EasyWs Verif.Spec Verif.Live
open Verif.HttpLib (Lib)

section
open Verif.WsServer Verif.HttpServer

variable {Z : Type} {g : WsServer.Cfg Z} {c : HttpRequest.Cfg} {L : Lib} {resume : WsServer.W Z → HttpRequest.Parser × L.σ}

/-- C101, for reads that end inside frames: as `C101_session_partial`, but a read may end after a frame, after the header of any frame that is not compressed, and inside the payload of a continuation or a control
frame.  PARTIAL: as `C90_cut_partial`, and see `C101_order_partial`. -/
theorem C101_cut_partial (max lv : Nat) (hg : g.parser = { max_message_length := max, default_compression_level := lv }) (hq : Quiet g.env max) (hacc : ∀ t, g.env.on_accepted t = false)
    (r : Request) (st : L.σ) (hr : r.Good L c L.init st) (hend : EndsWithHead L L.init r.wire) (hkeep : r.keep = true) (hproxy : r.headers.is_proxy = false) (hm : r.headers.method ≠ b! "OPTIONS")
    (hask : AsksForWebSocket (texts r.headers)) (pieces : List Bytes) (last : Bytes) (hlast : last ≠ []) (hpieces : pieces.flatten ++ last = r.wire) (frames : List Sent) (first : Bytes) (more : List Bytes)
    (hall : (first :: more).flatten = onWire frames) (hcut : ∀ n, MayEnd (frames.map Sent.raw) ((first :: more).take n).flatten)
    (agreed : Bool) (hagreed : agreed = true → ∃ p ext, Ws.accept_handshake_request g.values g.parser (texts r.headers) = some (p, some ext))
    (hread : Readable max (unpackMessage g.env.inflate_stream g.env.inflate_finish) g.inflator frames) (hlegal : LegalSequence true agreed false (frames.map Sent.frame)) (hlimit : WithinLimit max .idle (frames.map Sent.meant))
    {n : Net (server g c L resume)} (hn : Reachable n) (hc : n.easy.careful = true) (ht : n.todo = []) (hd : ∀ x ∈ n.easy.fibs, x.st = .done) {i : Nat} (hi : i < n.easy.count) (hl : ¬ Lost n.easy.trace i) (reason : Bytes)
    (hin : n.input i = .connected :: (pieces ++ [last ++ first] ++ more).map .read ++ [.closed reason]) :
    handled n.easy.trace i = opened (r.headers.raw_host ++ r.headers.raw_path ++ b! "?" ++ r.headers.raw_query) :: (assemble .idle (frames.map Sent.meant)).2.flatMap shown ++
      lost (assemble .idle (frames.map Sent.meant)).2 := by
  obtain ⟨w, rest, s1, s2, -, s4, s5, s6, s7⟩ := C90_cut_partial g max lv hg hq hacc c L r st hr hend hkeep hproxy hm hask pieces last hlast hpieces frames first more hall hcut agreed hagreed hread hlegal hlimit
  have hacts : pieces.map (fun b => Act.receive b false) ++ [.receive (last ++ first) false] ++ more.map (fun b => .receive b false) = (pieces ++ [last ++ first] ++ more).map (.receive · false) := by
    simp [Function.comp_def]
  rw [hacts] at s1
  obtain ⟨evs0, h0⟩ := server_collects g c resume _ w s1 s2
  have h1 := outputs_snoc (C := server g c L resume) (i := .closed reason) h0 rfl
  rw [← hin] at h1
  obtain ⟨x, evs, h2, h3⟩ := C94_delivered_partial hn hc ht hd hi hl
  rw [h1] at h2
  simp only [Option.some.injEq, Prod.mk.injEq] at h2
  obtain ⟨hx, rfl⟩ := h2
  obtain ⟨-, h5, h6⟩ := EasyWs.server_sound ((ninv hn hc).ordered i) h1
  have h6 := h6 (by rw [hin]; simp [isClosed, In.isClosed])
  obtain ⟨m, e, m1, m2, m3⟩ := close_tail g.env w.ws 1006 (Ws.descBytes (some "no CLOSE frame received"))
  have hgood : Ws.Good w.ws := (inv_reads g c _ _ (inv_start g) ({} : Sess L) rfl rfl _ (by simp) s1).good
  rw [h3, h5]
  have htr : (w.closed g).ws.trace = .accepted :: (rest ++ m) := by
    show (w.ws.close_once g.env 1006 (Ws.descBytes (some "no CLOSE frame received"))).1.trace = _
    rw [e, s5]; rfl
  rw [EasyWs.upToClose_shut _ h6 htr (by simp [s6, m1])]
  show List.flatMap (event ((w.closed g).addresses.getLastD [])) (w.closed g).ws.trace = _
  rw [htr, show (w.closed g).addresses = w.addresses from rfl, s4, List.flatMap_cons, List.flatMap_append, m3, EasyWs.rest_seen _ rest s6, EasyWs.lost_eq hgood s5, s7]
  simp [event, opened]

/-- C129, for reads that end inside frames: as `C129_messages_partial`, but a read may end after a frame, after the header of any frame that is not compressed, and inside the payload of a continuation or a control
frame.  PARTIAL: as `C90_cut_partial`, and see `C39_reuse`. -/
theorem C129_messages_cut_partial (max lv : Nat) (hg : g.parser = { max_message_length := max, default_compression_level := lv }) (hq : Quiet g.env max) (hacc : ∀ t, g.env.on_accepted t = false)
    (r : Request) (st : L.σ) (hr : r.Good L c L.init st) (hend : EndsWithHead L L.init r.wire) (hkeep : r.keep = true) (hproxy : r.headers.is_proxy = false) (hm : r.headers.method ≠ b! "OPTIONS")
    (hask : AsksForWebSocket (texts r.headers)) (pieces : List Bytes) (last : Bytes) (hlast : last ≠ []) (hpieces : pieces.flatten ++ last = r.wire) (frames : List Sent) (first : Bytes) (more : List Bytes)
    (hall : (first :: more).flatten = onWire frames) (hcut : ∀ n, MayEnd (frames.map Sent.raw) ((first :: more).take n).flatten)
    (agreed : Bool) (hagreed : agreed = true → ∃ p ext, Ws.accept_handshake_request g.values g.parser (texts r.headers) = some (p, some ext))
    (hread : Readable max (unpackMessage g.env.inflate_stream g.env.inflate_finish) g.inflator frames) (hlegal : LegalSequence true agreed false (frames.map Sent.frame)) (hlimit : WithinLimit max .idle (frames.map Sent.meant))
    {e : Exec (EasyNet.step (C := server g c L resume))} (h : EasyNet.Fairly e) (hcare : (e.st 0).easy.careful = true) {i n : Nat} (hi : i < (e.st n).easy.count)
    (hin : (e.st n).input i = .connected :: (pieces ++ [last ++ first] ++ more).map .read) :
    ∃ m, n ≤ m ∧ (opened (r.headers.raw_host ++ r.headers.raw_path ++ b! "?" ++ r.headers.raw_query) :: (assemble .idle (frames.map Sent.meant)).2.flatMap shown <+: handled (e.st m).easy.trace i ∨
      Lost (e.st m).easy.trace i) := by
  obtain ⟨w, rest, s1, s2, -, s4, s5, s6, s7⟩ := C90_cut_partial g max lv hg hq hacc c L r st hr hend hkeep hproxy hm hask pieces last hlast hpieces frames first more hall hcut agreed hagreed hread hlegal hlimit
  have hacts : pieces.map (fun b => Act.receive b false) ++ [.receive (last ++ first) false] ++ more.map (fun b => .receive b false) = (pieces ++ [last ++ first] ++ more).map (.receive · false) := by
    simp [Function.comp_def]
  rw [hacts] at s1
  obtain ⟨evs0, h0⟩ := server_collects g c resume _ w s1 s2
  rw [← hin] at h0
  obtain ⟨x, evs, m, h1, hmn, hd⟩ := C129_sockets_partial h hcare hi
  rw [h0] at h1
  have hca : (e.st n).easy.careful = true := (es_later (e := en_exec e) i (Nat.zero_le n)).careful.trans hcare
  obtain ⟨-, h5, -⟩ := EasyWs.server_sound ((ninv (en_reach h n) hca).ordered i) h0
  refine ⟨m, hmn, hd.imp (fun hd => ?_) id⟩
  rw [← (Prod.mk.inj (Option.some.inj h1)).2, h5] at hd
  have : w.ws.trace.flatMap (event (w.addresses.getLastD [])) = opened (r.headers.raw_host ++ r.headers.raw_path ++ b! "?" ++ r.headers.raw_query) :: (assemble .idle (frames.map Sent.meant)).2.flatMap shown := by
    rw [s5, s4, List.flatMap_cons, EasyWs.rest_seen _ rest s6, s7]
    simp [event, opened]
  rw [show (_ : List Ws.Ev).flatMap _ = _ from this, ew_opened] at hd
  exact hd

end

section
open Verif.WsClient Verif.HttpClient

variable {Z : Type} {g : WsClient.Cfg Z} {c : HttpRequest.Cfg} {L : Lib} {uri : Bytes × Bytes × Bytes × Bytes} {resume : WsClient.W Z → HttpResponse.Parser × L.σ}

/-- C102, for reads that end inside frames: as `C102_session_partial`, but a read may end after a frame, after the header of any frame that is not compressed, and inside the payload of a continuation or a control
frame.  PARTIAL: as `C92_cut_partial`, and see `C102_order_partial`. -/
theorem C102_cut_partial (max lv : Nat) (hg : g.parser = { wshs := .c_req_sent, max_message_length := max, default_compression_level := lv }) (hq : Quiet g.env max) (hacc : ∀ t, g.env.on_accepted t = false)
    (hV : Ws.WindowTexts g.values) (hlen : g.accept.length = 28) (hhead : g.accept.headD 0 ≠ 0)
    (r : Verif.Spec.Client.Response) (st : L.σ) (hr : r.Good L c false false L.init st) (hend : EndsWithHead L L.init r.wire) (hkeep : r.keep = true) (hstatus : r.status = 101)
    (hagree : AgreesToWebSocket g.accept (texts r.headers)) (pieces : List Bytes) (last : Bytes) (hlast : last ≠ []) (hpieces : pieces.flatten ++ last = r.wire) (frames : List Sent) (first : Bytes) (more : List Bytes)
    (hall : (first :: more).flatten = onWire frames) (hcut : ∀ n, MayEnd (frames.map Sent.raw) ((first :: more).take n).flatten)
    (agreed : Bool) (hagreed : agreed = true → ∃ p, Ws.accept_handshake_response g.values g.accept g.parser (texts r.headers) = some p ∧ p.pmce_compression_level_m2 ≠ 0)
    (hread : Readable max (unpackMessage g.env.inflate_stream g.env.inflate_finish) g.inflator frames) (hlegal : LegalSequence false agreed false (frames.map Sent.frame)) (hlimit : WithinLimit max .idle (frames.map Sent.meant))
    {n : Net (client g c L uri resume)} (hn : Reachable n) (hc : n.easy.careful = true) (ht : n.todo = []) (hd : ∀ x ∈ n.easy.fibs, x.st = .done) {i : Nat} (hi : i < n.easy.count) (hl : ¬ Lost n.easy.trace i) (reason : Bytes)
    (hin : n.input i = .connected :: (pieces ++ [last ++ first] ++ more).map .read ++ [.closed reason]) :
    handled n.easy.trace i = opened (uri.1 ++ uri.2.1 ++ b! "?" ++ uri.2.2.1 ++ b! "#" ++ uri.2.2.2) :: (assemble .idle (frames.map Sent.meant)).2.flatMap shown ++
      lost (assemble .idle (frames.map Sent.meant)).2 := by
  obtain ⟨w, rest, s1, s2, -, s5, s6, s7⟩ := C92_cut_partial g max lv hg hq hacc hV hlen hhead c L r st hr hend hkeep hstatus hagree pieces last hlast hpieces frames first more hall hcut agreed hagreed hread hlegal hlimit
  have hacts : pieces.map (fun b => (⟨b, false⟩ : Act)) ++ [⟨last ++ first, false⟩] ++ more.map (fun b => ⟨b, false⟩) = (pieces ++ [last ++ first] ++ more).map (⟨·, false⟩) := by
    simp [Function.comp_def]
  rw [hacts] at s1
  obtain ⟨evs0, h0⟩ := client_collects g c uri resume _ w s1 s2
  have h1 := outputs_snoc (C := client g c L uri resume) (i := .closed reason) h0 rfl
  rw [← hin] at h1
  obtain ⟨x, evs, h2, h3⟩ := C94_delivered_partial hn hc ht hd hi hl
  rw [h1] at h2
  simp only [Option.some.injEq, Prod.mk.injEq] at h2
  obtain ⟨hx, rfl⟩ := h2
  obtain ⟨-, h5, h6⟩ := EasyWs.client_sound ((ninv hn hc).ordered i) h1
  have h6 := h6 (by rw [hin]; simp [isClosed, In.isClosed])
  obtain ⟨m, e, m1, m2, m3⟩ := close_tail g.env w.ws 1006 (Ws.descBytes (some "no CLOSE frame received"))
  have hgood : Ws.Good w.ws := (inv_reads g c _ _ (inv_start g) ({} : Sess L) rfl rfl _ s1).good
  rw [h3, h5]
  have htr : (w.closed g).ws.trace = .accepted :: (rest ++ m) := by
    show (w.ws.close_once g.env 1006 (Ws.descBytes (some "no CLOSE frame received"))).1.trace = _
    rw [e, s5]; rfl
  rw [EasyWs.upToClose_shut _ h6 htr (by simp [s6, m1])]
  show List.flatMap (event (client.addr uri)) (w.closed g).ws.trace = _
  rw [htr, List.flatMap_cons, List.flatMap_append, m3, EasyWs.rest_seen _ rest s6, EasyWs.lost_eq hgood s5, s7]
  rfl

/-- C129, for reads that end inside frames: as `C129_replies_partial`, but a read may end after a frame, after the header of any frame that is not compressed, and inside the payload of a continuation or a control
frame.  PARTIAL: as `C92_cut_partial`, and see `C39_reuse`. -/
theorem C129_replies_cut_partial (max lv : Nat) (hg : g.parser = { wshs := .c_req_sent, max_message_length := max, default_compression_level := lv }) (hq : Quiet g.env max) (hacc : ∀ t, g.env.on_accepted t = false)
    (hV : Ws.WindowTexts g.values) (hlen : g.accept.length = 28) (hhead : g.accept.headD 0 ≠ 0)
    (r : Verif.Spec.Client.Response) (st : L.σ) (hr : r.Good L c false false L.init st) (hend : EndsWithHead L L.init r.wire) (hkeep : r.keep = true) (hstatus : r.status = 101)
    (hagree : AgreesToWebSocket g.accept (texts r.headers)) (pieces : List Bytes) (last : Bytes) (hlast : last ≠ []) (hpieces : pieces.flatten ++ last = r.wire) (frames : List Sent) (first : Bytes) (more : List Bytes)
    (hall : (first :: more).flatten = onWire frames) (hcut : ∀ n, MayEnd (frames.map Sent.raw) ((first :: more).take n).flatten)
    (agreed : Bool) (hagreed : agreed = true → ∃ p, Ws.accept_handshake_response g.values g.accept g.parser (texts r.headers) = some p ∧ p.pmce_compression_level_m2 ≠ 0)
    (hread : Readable max (unpackMessage g.env.inflate_stream g.env.inflate_finish) g.inflator frames) (hlegal : LegalSequence false agreed false (frames.map Sent.frame)) (hlimit : WithinLimit max .idle (frames.map Sent.meant))
    {e : Exec (EasyNet.step (C := client g c L uri resume))} (h : EasyNet.Fairly e) (hcare : (e.st 0).easy.careful = true) {i n : Nat} (hi : i < (e.st n).easy.count)
    (hin : (e.st n).input i = .connected :: (pieces ++ [last ++ first] ++ more).map .read) :
    ∃ m, n ≤ m ∧ (opened (uri.1 ++ uri.2.1 ++ b! "?" ++ uri.2.2.1 ++ b! "#" ++ uri.2.2.2) :: (assemble .idle (frames.map Sent.meant)).2.flatMap shown <+: handled (e.st m).easy.trace i ∨
      Lost (e.st m).easy.trace i) := by
  obtain ⟨w, rest, s1, s2, -, s5, s6, s7⟩ := C92_cut_partial g max lv hg hq hacc hV hlen hhead c L r st hr hend hkeep hstatus hagree pieces last hlast hpieces frames first more hall hcut agreed hagreed hread hlegal hlimit
  have hacts : pieces.map (fun b => (⟨b, false⟩ : Act)) ++ [⟨last ++ first, false⟩] ++ more.map (fun b => ⟨b, false⟩) = (pieces ++ [last ++ first] ++ more).map (⟨·, false⟩) := by
    simp [Function.comp_def]
  rw [hacts] at s1
  obtain ⟨evs0, h0⟩ := client_collects g c uri resume _ w s1 s2
  rw [← hin] at h0
  obtain ⟨x, evs, m, h1, hmn, hd⟩ := C129_sockets_partial h hcare hi
  rw [h0] at h1
  have hca : (e.st n).easy.careful = true := (es_later (e := en_exec e) i (Nat.zero_le n)).careful.trans hcare
  obtain ⟨-, h5, -⟩ := EasyWs.client_sound ((ninv (en_reach h n) hca).ordered i) h0
  refine ⟨m, hmn, hd.imp (fun hd => ?_) id⟩
  rw [← (Prod.mk.inj (Option.some.inj h1)).2, h5] at hd
  have : w.ws.trace.flatMap (event (client.addr uri)) = opened (uri.1 ++ uri.2.1 ++ b! "?" ++ uri.2.2.1 ++ b! "#" ++ uri.2.2.2) :: (assemble .idle (frames.map Sent.meant)).2.flatMap shown := by
    rw [s5, List.flatMap_cons, EasyWs.rest_seen _ rest s6, s7]
    rfl
  rw [show (_ : List Ws.Ev).flatMap _ = _ from this, ew_opened] at hd
  exact hd

end

/-! ### Examples -/

/-- A handshake in two parts, with frames in four pieces, the first of which is in the read that completes the handshake, and then the end of the socket. -/
def cutNetDemo (a b c d e : Bytes) : List (NAct WMsg) :=
  [.easy (.accept 100), .socket 0 .connected, .socket 0 (.read a), .socket 0 (.read b), .push .no, .push .no, .easy (.resume 0), .easy (.loop 0), .socket 0 (.read c), .socket 0 (.read d), .socket 0 (.read e), .push .no] ++
    [.easy (.back 0 0), .easy (.loop 0), .easy (.back 0 0), .easy (.loop 0), .socket 0 (.closed (b! "bye")), .push .no, .easy (.back 0 0), .easy (.loop 0), .easy (.back 0 0), .easy (.loop 0)]

/-- What is to be seen of the messages. -/
def cutSeen : List (Event WMsg) := [{ ty := .other, data := b! "Hi!", msg := some .text }, { ty := .other, data := [72, 101, 108, 111], msg := some .text }]

example : (assemble .idle (cutFrames.map Sent.meant)).2.flatMap shown ++ lost (assemble .idle (cutFrames.map Sent.meant)).2 = cutSeen ++ [{ ty := .close, data := b! "1006: no CLOSE frame received" }] := by decide +kernel

abbrev cutServer := server countServer bareCfg bareLib fun _ => ({}, TinyState.url)

example : ∃ n : Net cutServer, Reachable n ∧ n.easy.careful = true ∧ n.todo = [] ∧ (∀ x ∈ n.easy.fibs, x.st = .done) ∧ 0 < n.easy.count ∧
    n.input 0 = .connected :: ([b! "/chat\nHos"] ++ [(shakeText ++ b! "\n").drop 9 ++ (cutReads.map Prod.snd)[0]] ++ [(cutReads.map Prod.snd)[1], (cutReads.map Prod.snd)[2], (cutReads.map Prod.snd)[3]]).map .read ++ [.closed (b! "bye")] ∧
    handled n.easy.trace 0 = opened (b! "h/chat?") :: cutSeen ++ [{ ty := .close, data := b! "1006: no CLOSE frame received" }] := by
  obtain ⟨n, h1, h2⟩ := demo_of (o := run ({ easy := { careful := true } } : Net cutServer) (cutNetDemo (b! "/chat\nHos") ((shakeText ++ b! "\n").drop 9 ++ (cutReads.map Prod.snd)[0]) (cutReads.map Prod.snd)[1] (cutReads.map Prod.snd)[2] (cutReads.map Prod.snd)[3]))
    (fun n => n.easy.careful && n.todo.isEmpty && n.easy.fibs.all (fun x => x.st == .done) && decide (0 < n.easy.count) &&
      n.input 0 == .connected :: ([b! "/chat\nHos"] ++ [(shakeText ++ b! "\n").drop 9 ++ (cutReads.map Prod.snd)[0]] ++ [(cutReads.map Prod.snd)[1], (cutReads.map Prod.snd)[2], (cutReads.map Prod.snd)[3]]).map .read ++ [.closed (b! "bye")] &&
      handled n.easy.trace 0 == opened (b! "h/chat?") :: cutSeen ++ [{ ty := .close, data := b! "1006: no CLOSE frame received" }]) (by decide +kernel)
  simp only [Bool.and_eq_true, beq_iff_eq, List.all_eq_true, decide_eq_true_eq, List.isEmpty_iff] at h2
  obtain ⟨⟨⟨⟨⟨h3, h4⟩, h5⟩, h6⟩, h7⟩, h8⟩ := h2
  exact ⟨n, net_run_reachable (.init true) h1, h3, h4, h5, h6, h7, h8⟩
-- the other hypotheses of `C101_cut_partial` are met by this handshake and these frames: see the example for `C90_cut_partial`

theorem cutServer_ok : (runs (EasyNet.step (C := cutServer)) { easy := { careful := true } } (cutNetDemo (b! "/chat\nHos") ((shakeText ++ b! "\n").drop 9 ++ (cutReads.map Prod.snd)[0]) (cutReads.map Prod.snd)[1] (cutReads.map Prod.snd)[2] (cutReads.map Prod.snd)[3])).any en_quiet = true := by decide +kernel

/- All of it has arrived after 11 steps, when the callback has been called for the opening only. -/
example : EasyNet.Fairly (enExec (cutNetDemo (b! "/chat\nHos") ((shakeText ++ b! "\n").drop 9 ++ (cutReads.map Prod.snd)[0]) (cutReads.map Prod.snd)[1] (cutReads.map Prod.snd)[2] (cutReads.map Prod.snd)[3]) cutServer_ok) ∧ ((enExec (cutNetDemo (b! "/chat\nHos") ((shakeText ++ b! "\n").drop 9 ++ (cutReads.map Prod.snd)[0]) (cutReads.map Prod.snd)[1] (cutReads.map Prod.snd)[2] (cutReads.map Prod.snd)[3]) cutServer_ok).st 0).easy.careful = true ∧ 0 < ((enExec (cutNetDemo (b! "/chat\nHos") ((shakeText ++ b! "\n").drop 9 ++ (cutReads.map Prod.snd)[0]) (cutReads.map Prod.snd)[1] (cutReads.map Prod.snd)[2] (cutReads.map Prod.snd)[3]) cutServer_ok).st 11).easy.count ∧
    ((enExec (cutNetDemo (b! "/chat\nHos") ((shakeText ++ b! "\n").drop 9 ++ (cutReads.map Prod.snd)[0]) (cutReads.map Prod.snd)[1] (cutReads.map Prod.snd)[2] (cutReads.map Prod.snd)[3]) cutServer_ok).st 11).input 0 = .connected :: ([b! "/chat\nHos"] ++ [(shakeText ++ b! "\n").drop 9 ++ (cutReads.map Prod.snd)[0]] ++ [(cutReads.map Prod.snd)[1], (cutReads.map Prod.snd)[2], (cutReads.map Prod.snd)[3]]).map .read ∧
    handled ((enExec (cutNetDemo (b! "/chat\nHos") ((shakeText ++ b! "\n").drop 9 ++ (cutReads.map Prod.snd)[0]) (cutReads.map Prod.snd)[1] (cutReads.map Prod.snd)[2] (cutReads.map Prod.snd)[3]) cutServer_ok).st 11).easy.trace 0 = [opened (b! "h/chat?")] :=
  ⟨enExec_fair _ _, rfl, by decide +kernel, by decide +kernel, by decide +kernel⟩

abbrev cutClient := client countClient replyCfg switchLib (b! "h:80", b! "/chat", b! "a=b", b! "top") fun _ => ({}, (ReplyState.code, false))

example : ∃ n : Net cutClient, Reachable n ∧ n.easy.careful = true ∧ n.todo = [] ∧ (∀ x ∈ n.easy.fibs, x.st = .done) ∧ 0 < n.easy.count ∧
    n.input 0 = .connected :: ([b! "1Swi"] ++ [(answerText ++ b! "\n").drop 4 ++ cutReplyReads[0]] ++ [cutReplyReads[1], cutReplyReads[2], cutReplyReads[3]]).map .read ++ [.closed (b! "bye")] ∧
    handled n.easy.trace 0 = opened (b! "h:80/chat?a=b#top") :: cutSeen ++ [{ ty := .close, data := b! "1006: no CLOSE frame received" }] := by
  obtain ⟨n, h1, h2⟩ := demo_of (o := run ({ easy := { careful := true } } : Net cutClient) (cutNetDemo (b! "1Swi") ((answerText ++ b! "\n").drop 4 ++ cutReplyReads[0]) cutReplyReads[1] cutReplyReads[2] cutReplyReads[3]))
    (fun n => n.easy.careful && n.todo.isEmpty && n.easy.fibs.all (fun x => x.st == .done) && decide (0 < n.easy.count) &&
      n.input 0 == .connected :: ([b! "1Swi"] ++ [(answerText ++ b! "\n").drop 4 ++ cutReplyReads[0]] ++ [cutReplyReads[1], cutReplyReads[2], cutReplyReads[3]]).map .read ++ [.closed (b! "bye")] &&
      handled n.easy.trace 0 == opened (b! "h:80/chat?a=b#top") :: cutSeen ++ [{ ty := .close, data := b! "1006: no CLOSE frame received" }]) (by decide +kernel)
  simp only [Bool.and_eq_true, beq_iff_eq, List.all_eq_true, decide_eq_true_eq, List.isEmpty_iff] at h2
  obtain ⟨⟨⟨⟨⟨h3, h4⟩, h5⟩, h6⟩, h7⟩, h8⟩ := h2
  exact ⟨n, net_run_reachable (.init true) h1, h3, h4, h5, h6, h7, h8⟩
-- the other hypotheses of `C102_cut_partial` are met by this handshake and these frames: see the example for `C92_cut_partial`

theorem cutClient_ok : (runs (EasyNet.step (C := cutClient)) { easy := { careful := true } } (cutNetDemo (b! "1Swi") ((answerText ++ b! "\n").drop 4 ++ cutReplyReads[0]) cutReplyReads[1] cutReplyReads[2] cutReplyReads[3])).any en_quiet = true := by decide +kernel

/- All of it has arrived after 11 steps, when the callback has been called for the opening only. -/
example : EasyNet.Fairly (enExec (cutNetDemo (b! "1Swi") ((answerText ++ b! "\n").drop 4 ++ cutReplyReads[0]) cutReplyReads[1] cutReplyReads[2] cutReplyReads[3]) cutClient_ok) ∧ ((enExec (cutNetDemo (b! "1Swi") ((answerText ++ b! "\n").drop 4 ++ cutReplyReads[0]) cutReplyReads[1] cutReplyReads[2] cutReplyReads[3]) cutClient_ok).st 0).easy.careful = true ∧ 0 < ((enExec (cutNetDemo (b! "1Swi") ((answerText ++ b! "\n").drop 4 ++ cutReplyReads[0]) cutReplyReads[1] cutReplyReads[2] cutReplyReads[3]) cutClient_ok).st 11).easy.count ∧
    ((enExec (cutNetDemo (b! "1Swi") ((answerText ++ b! "\n").drop 4 ++ cutReplyReads[0]) cutReplyReads[1] cutReplyReads[2] cutReplyReads[3]) cutClient_ok).st 11).input 0 = .connected :: ([b! "1Swi"] ++ [(answerText ++ b! "\n").drop 4 ++ cutReplyReads[0]] ++ [cutReplyReads[1], cutReplyReads[2], cutReplyReads[3]]).map .read ∧
    handled ((enExec (cutNetDemo (b! "1Swi") ((answerText ++ b! "\n").drop 4 ++ cutReplyReads[0]) cutReplyReads[1] cutReplyReads[2] cutReplyReads[3]) cutClient_ok).st 11).easy.trace 0 = [opened (b! "h:80/chat?a=b#top")] :=
  ⟨enExec_fair _ _, rfl, by decide +kernel, by decide +kernel, by decide +kernel⟩

end Verif.Props
