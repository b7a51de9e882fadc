import Verif.Proofs.EasyHwsSession
import Verif.Props.EasyWsCut
/-!
# C103 and C129: reads that end inside a frame, for easy HTTP and WebSocket servers
-/
namespace Verif.EasyHws
open Verif.Spec Verif.Props
open Verif.EasyWs (event events SMore WMsg)
open Verif.HttpLib (Lib)
open Verif.HttpServer Verif.WsServer

variable {Z : Type} {L : Lib}

theorem session_cut (g : WsServer.Cfg Z) (max lv : Nat) (hg : g.parser = { max_message_length := max, default_compression_level := lv }) (hq : Quiet g.env max) (hacc : ∀ t, g.env.on_accepted t = false)
    (c : HttpRequest.Cfg) {body : L.σ → Prop} (hL : LibOk L body) (rs : List Request) (hp : ∀ r ∈ rs, IsPlain r.headers) (st0 : L.σ) (hr0 : Conversation L c L.init rs st0)
    (r : Request) (st : L.σ) (hr : r.Good L c st0 st) (hend : EndsWithHead L st0 r.wire) (hkeep : r.keep = true)
    (hproxy : r.headers.is_proxy = false) (hm : r.headers.method = b! "GET") (hask : AsksForWebSocket (texts r.headers)) (l : List Bytes) (hl : l.flatten = rs.flatMap Request.wire)
    (pieces : List Bytes) (last : Bytes) (hlast : last ≠ []) (hpieces : pieces.flatten ++ last = r.wire) (frames : List Sent) (first : Bytes) (more : List Bytes)
    (hall : (first :: more).flatten = onWire frames) (hcut : ∀ n, MayEnd (frames.map Sent.raw) ((first :: more).take n).flatten)
    (agreed : Bool) (hagreed : agreed = true → ∃ p ext, Ws.accept_handshake_request g.values g.parser (texts r.headers) = some (p, some ext))
    (hread : Readable max (unpackMessage g.env.inflate_stream g.env.inflate_finish) g.inflator frames) (hlegal : LegalSequence true agreed false (frames.map Sent.frame)) (hlimit : WithinLimit max .idle (frames.map Sent.meant)) :
    ∃ s rest, (H.start g).reads g c ({} : Sess L) (l.map (fun b => .receive b false) ++ (pieces.map (fun b => .receive b false) ++ [.receive (last ++ first) false] ++ more.map (fun b => .receive b false))) = some s ∧
      s.w.threw = false ∧ s.w.responses = [101] ∧ s.w.addresses = [caddr r.headers] ∧ s.w.ws.trace = .accepted :: rest ∧ .accepted ∉ rest ∧ delivered rest = (assemble .idle (frames.map Sent.meant)).2 ∧
      s.log = (rs.map fun r => asked r.headers) ++ ((.accepted :: rest).flatMap (event (caddr r.headers))).map lift := by
  obtain ⟨x0, hs, k0, c1, c2, c3, c4, c5, c6⟩ := conversation_state g (c := c) hL rs hp st0 hr0 l hl
  have hm' : r.headers.method ≠ b! "OPTIONS" := by rw [hm]; decide
  have hroute := route_shake hm hask
  obtain ⟨p', a1, a2, a3, a4, a5, a6⟩ := accepts g.values max lv r.headers hm' hask
  rw [← hg] at a1
  have hcomp : ∀ k, (({ ws := { parser := g.parser }, heads := hs ++ [r.headers], calls := k } : W Z).complete g r.headers false)
      = ({ ws := ({ parser := p', upgraded := true, pmce := if p'.pmce_send_window_bits ≠ 0 then some (g.inflator, []) else none } : Ws.Session Z).push .accepted, heads := hs ++ [r.headers], responses := [101],
           addresses := [caddr r.headers], threw := false, calls := k }, true) := by
    intro k
    unfold W.complete
    simp only [a1]
    rw [if_neg (by simp), if_neg hm', if_neg (by simp [a2])]
    simp [hacc]
  have hrep : (app g (.start g)).onHeaders x0.trace r.headers (!r.keep) = { switched := true } := by
    unfold app
    simp only [c6]
    simp only [W.start, hkeep, hproxy, Bool.not_true, Bool.false_eq_true, if_false, if_pos hroute, hcomp]
  -- the handshake
  obtain ⟨s1, r1, r2, r3, r4, r5, r6⟩ := loop_bare (A := app g (.start g)) (c := c) ((last ++ first).length + 1) x0 r st (first) pieces last c2 c3 c4 (by rw [c5]; exact hr) (by rw [c5]; exact hend) hlast hpieces
    (.inl (by rw [hrep]))
  generalize hh : handed (app g (.start g)) x0 r st = s2 at r6
  have h2 : s2.failed = none ∧ s2.ack = true ∧ ∃ left, s2.trace = x0.trace ++ [.headers r.headers false, .stream r.payload, .finish r.headers left false] := by
    rw [← hh]
    unfold handed
    simp only
    rw [hrep, hkeep]
    exact ⟨c2, by simp, _, by simp; rfl⟩
  obtain ⟨f2, k2, left, t2⟩ := h2
  have hrun : HttpServer.run (app g (.start g)) c ({} : Sess L) [] (l.map (fun b => .receive b false) ++ (pieces.map (fun b => .receive b false) ++ [.receive (last ++ first) false] ++ more.map (fun b => .receive b false)))
      = some ({ (({ s2 with p := Verif.HttpServer.deallocate s2.p } : Sess L).call (.upgraded (first) false)) with
                trace := s2.trace ++ [.upgraded (first) false] ++ more.map fun b => .upgraded b false }, []) := by
    have e0 : arrival l false = l.map (fun b => .receive b false) := by simp [arrival]
    rw [← e0, run_append, c1]
    simp only
    rw [List.append_assoc, run_append, r1]
    simp only [List.cons_append, List.nil_append, HttpServer.run]
    rw [step_receive _ _ _ r2 r3, r6]
    have hl : loop (app g (.start g)) c false ((last ++ first).length + 1) s2 (first) = some (({ s2 with p := Verif.HttpServer.deallocate s2.p } : Sess L).call (.upgraded (first) false), []) := by
      rw [loop_succ, if_pos k2]
    rw [hl]
    simp only
    have := run_ack (A := app g (.start g)) (c := c) more (({ s2 with p := Verif.HttpServer.deallocate s2.p } : Sess L).call (.upgraded (first) false)) f2 k2
    exact this
  -- the frames
  generalize hmid : ({ ws := ({ parser := p', upgraded := true, pmce := if p'.pmce_send_window_bits ≠ 0 then some (g.inflator, []) else none } : Ws.Session Z).push .accepted, heads := hs ++ [r.headers], responses := [101], addresses := [caddr r.headers], threw := false, calls := k0 + 1 } : W Z) = mid at *
  have hstep : (H.of g (.start g) x0.trace).step g (.headers r.headers false) = { w := mid, log := (rs.map fun r => asked r.headers) ++ [lift (EasyWs.opened (caddr r.headers))] } := by
    rw [c6]
    unfold H.step
    simp only [W.start, Bool.false_eq_true, if_false, hproxy, if_pos hroute, hcomp]
    unfold H.take
    rw [← hmid]
    rfl
  have hof : H.of g (.start g) (s2.trace ++ [.upgraded (first) false] ++ more.map fun b => .upgraded b false)
      = H.of g { w := mid, log := (rs.map fun r => asked r.headers) ++ [lift (EasyWs.opened (caddr r.headers))] }
          ([.stream r.payload, .finish r.headers left false] ++ (first :: more).map fun r => HttpServer.Ev.upgraded r false) := by
    rw [← hstep, t2]
    unfold H.of
    simp [List.foldl_append, List.foldl_map]
  obtain ⟨o1, o2⟩ := of_ws g ([.stream r.payload, .finish r.headers left false] ++ (first :: more).map fun r => HttpServer.Ev.upgraded r false)
    { w := mid, log := (rs.map fun r => asked r.headers) ++ [lift (EasyWs.opened (caddr r.headers))] } (by simp)
  rw [o2] at hof
  have hwof : W.of g mid ([.stream r.payload, .finish r.headers left false] ++ (first :: more).map fun r => HttpServer.Ev.upgraded r false)
      = ((first :: more).map fun r => HttpServer.Ev.upgraded r false).foldl (W.step g) ({ mid with calls := mid.calls + 1 + 1 } : W Z) := by
    rw [← hmid]; rfl
  generalize hw0 : ({ mid with calls := mid.calls + 1 + 1 } : W Z) = w0 at hwof
  obtain ⟨d1, d2⟩ := placed_run g.env max hq w0.ws (by rw [← hw0, ← hmid]; exact a3) (by rw [← hw0, ← hmid]; rfl) (by rw [← hw0, ← hmid]; exact a5) (by rw [← hw0, ← hmid]; exact a6) g.inflator (by rw [← hw0, ← hmid]; exact holds_start p' g.inflator rfl rfl) frames hread
    (by
      rw [← hw0, ← hmid]
      show LegalSequence (isServer p') (hasPmce p') false _
      rw [a4]
      exact legal_agreed (accept_agreed a1 hm' hg) hagreed hlegal) hlimit g.addr w0.calls (first :: more) hall hcut
  obtain ⟨w', b1, b2, b3, b4, b5, b6⟩ := cut_fold g (first :: more) w0 (by rw [← hw0, ← hmid]) d2
  rw [← b6] at d1
  rw [hwof, b1] at hof
  rw [← hw0] at b3 b4 b5 d1
  obtain ⟨-, rest, g1, g2⟩ := b5
  have g1 : w'.ws.trace = .accepted :: rest := by rw [g1, ← hmid]; rfl
  refine ⟨_, rest, by unfold H.reads; rw [hrun], ?_⟩
  simp only [hof]
  refine ⟨by rw [b2]; simp only [Sess.call, f2]; rfl, by rw [b3, ← hmid], by rw [b4, ← hmid], g1, g2, ?_, ?_⟩
  · have : delivered w'.ws.trace = delivered rest := by rw [g1]; rfl
    rw [← this, d1, ← hmid]
    rfl
  · rw [g1, ← hmid]
    simp only [events, Ws.Session.push, List.nil_append]
    simp [event, EasyWs.opened]

end Verif.EasyHws

namespace Verif.Props
open Verif.Easy Verif.EasyNet Verif.EasyWs Verif.Spec Verif.Live
open Verif.HttpLib (Lib)

section
open Verif.WsServer Verif.HttpServer Verif.EasyHws

variable {Z : Type} {g : WsServer.Cfg Z} {c : HttpRequest.Cfg} {L : Lib} {resume : H Z → HttpRequest.Parser × L.σ}

/-- C103, for reads that end inside frames: as `C103_session_partial`, but a read may end after a frame, after the header of any frame that is not compressed, and inside the payload of a continuation or a control
frame.  PARTIAL: as `C90_cut_partial`, and see `C103_order_partial`. -/
theorem C103_cut_partial (max lv : Nat) (hg : g.parser = { max_message_length := max, default_compression_level := lv }) (hq : Quiet g.env max) (hacc : ∀ t, g.env.on_accepted t = false)
    {body : L.σ → Prop} (hL : LibOk L body) (rs : List Request) (hp : ∀ r ∈ rs, IsPlain r.headers) (st0 : L.σ) (hr0 : Conversation L c L.init rs st0)
    (r : Request) (st : L.σ) (hr : r.Good L c st0 st) (hend : EndsWithHead L st0 r.wire) (hkeep : r.keep = true) (hproxy : r.headers.is_proxy = false) (hm : r.headers.method = b! "GET")
    (hask : AsksForWebSocket (texts r.headers)) (l : List Bytes) (hlw : l.flatten = rs.flatMap Request.wire) (pieces : List Bytes) (last : Bytes) (hlast : last ≠ []) (hpieces : pieces.flatten ++ last = r.wire)
    (frames : List Sent) (first : Bytes) (more : List Bytes)
    (hall : (first :: more).flatten = onWire frames) (hcut : ∀ n, MayEnd (frames.map Sent.raw) ((first :: more).take n).flatten)
    (agreed : Bool) (hagreed : agreed = true → ∃ p ext, Ws.accept_handshake_request g.values g.parser (texts r.headers) = some (p, some ext))
    (hread : Readable max (unpackMessage g.env.inflate_stream g.env.inflate_finish) g.inflator frames) (hlegal : LegalSequence true agreed false (frames.map Sent.frame)) (hlimit : WithinLimit max .idle (frames.map Sent.meant))
    {n : Net (EasyHws.server g c L resume)} (hn : Reachable n) (hc : n.easy.careful = true) (ht : n.todo = []) (hd : ∀ x ∈ n.easy.fibs, x.st = .done) {i : Nat} (hi : i < n.easy.count) (hl : ¬ Lost n.easy.trace i) (reason : Bytes)
    (hin : n.input i = .connected :: (l ++ (pieces ++ [last ++ first] ++ more)).map .read ++ [.closed reason]) :
    handled n.easy.trace i = (rs.map fun r => asked r.headers) ++ (opened (r.headers.raw_host ++ r.headers.raw_path ++ b! "?" ++ r.headers.raw_query) :: (assemble .idle (frames.map Sent.meant)).2.flatMap shown ++
      lost (assemble .idle (frames.map Sent.meant)).2).map seenWs := by
  rw [← EasyHws.lift_seen]
  obtain ⟨s, rest, s1, s2, -, s4, s5, s6, s7, s8⟩ := EasyHws.session_cut g max lv hg hq hacc c hL rs hp st0 hr0 r st hr hend hkeep hproxy hm hask l hlw pieces last hlast hpieces frames first more hall hcut agreed hagreed hread hlegal hlimit
  have hacts : l.map (fun b => Act.receive b false) ++ (pieces.map (fun b => Act.receive b false) ++ [.receive (last ++ first) false] ++ more.map (fun b => .receive b false)) =
      (l ++ (pieces ++ [last ++ first] ++ more)).map (.receive · false) := by
    simp [Function.comp_def]
  rw [hacts] at s1
  obtain ⟨evs0, h0⟩ := EasyHws.collects g c resume _ s s1 s2
  have h1 := outputs_snoc (C := EasyHws.server g c L resume) (i := .closed reason) h0 rfl
  rw [← hin] at h1
  obtain ⟨x, evs, h2, h3⟩ := C94_delivered_partial hn hc ht hd hi hl
  rw [h1] at h2
  simp only [Option.some.injEq, Prod.mk.injEq] at h2
  obtain ⟨hx, rfl⟩ := h2
  obtain ⟨h4, -, -, -, h6⟩ := EasyHws.server_sound ((ninv hn hc).ordered i) h1
  have h6 : Ws.Shut (s.w.closed g).ws := h6 (by rw [hin]; simp [EasyWs.isClosed, In.isClosed])
  obtain ⟨m, e, m1, m2, m3⟩ := EasyWs.close_tail g.env s.w.ws 1006 (Ws.descBytes (some "no CLOSE frame received"))
  have hgood : Ws.Good s.w.ws := (hinv_reads g c _ _ (hinv_start g) ({} : Sess L) rfl rfl _ (by simp) s1).inv.good
  rw [h3, h4]
  have htr : (s.w.closed g).ws.trace = .accepted :: (rest ++ m) := by
    show (s.w.ws.close_once g.env 1006 (Ws.descBytes (some "no CLOSE frame received"))).1.trace = _
    rw [e, s5]; rfl
  have hlog : (s.closed g).log = (rs.map fun r => asked r.headers) ++ ((s.w.closed g).ws.trace.flatMap (event (caddr r.headers))).map lift := by
    show s.log ++ (EasyWs.events (s.w.addresses.getLastD []) s.w.ws.trace (s.w.closed g).ws.trace).map lift = _
    rw [s8, s4, s5, htr, List.append_assoc, ← List.map_append]
    congr 2
    unfold EasyWs.events
    rw [show (Ws.Ev.accepted :: (rest ++ m)) = (.accepted :: rest) ++ m from rfl, List.drop_left, List.flatMap_append]
    rfl
  show upToClose (s.closed g).log = _
  rw [hlog, EasyHws.upToClose_pre (EasyHws.asked_open rs), EasyHws.upToClose_lift, EasyWs.upToClose_shut _ h6 htr (by simp [s6, m1]), htr, List.flatMap_cons, List.flatMap_append, m3, EasyWs.rest_seen _ rest s6,
    EasyWs.lost_eq hgood s5, s7]
  simp [event, opened, caddr]
  rfl

/-- C129, for reads that end inside frames: as `C129_upgrade_partial`, but a read may end after a frame, after the header of any frame that is not compressed, and inside the payload of a continuation or a control
frame.  PARTIAL: as `C90_cut_partial`, and see `C39_reuse`. -/
theorem C129_upgrade_cut_partial (max lv : Nat) (hg : g.parser = { max_message_length := max, default_compression_level := lv }) (hq : Quiet g.env max) (hacc : ∀ t, g.env.on_accepted t = false)
    {body : L.σ → Prop} (hL : LibOk L body) (rs : List Request) (hp : ∀ r ∈ rs, IsPlain r.headers) (st0 : L.σ) (hr0 : Conversation L c L.init rs st0)
    (r : Request) (st : L.σ) (hr : r.Good L c st0 st) (hend : EndsWithHead L st0 r.wire) (hkeep : r.keep = true) (hproxy : r.headers.is_proxy = false) (hm : r.headers.method = b! "GET")
    (hask : AsksForWebSocket (texts r.headers)) (l : List Bytes) (hlw : l.flatten = rs.flatMap Request.wire) (pieces : List Bytes) (last : Bytes) (hlast : last ≠ []) (hpieces : pieces.flatten ++ last = r.wire)
    (frames : List Sent) (first : Bytes) (more : List Bytes)
    (hall : (first :: more).flatten = onWire frames) (hcut : ∀ n, MayEnd (frames.map Sent.raw) ((first :: more).take n).flatten)
    (agreed : Bool) (hagreed : agreed = true → ∃ p ext, Ws.accept_handshake_request g.values g.parser (texts r.headers) = some (p, some ext))
    (hread : Readable max (unpackMessage g.env.inflate_stream g.env.inflate_finish) g.inflator frames) (hlegal : LegalSequence true agreed false (frames.map Sent.frame)) (hlimit : WithinLimit max .idle (frames.map Sent.meant))
    {e : Exec (EasyNet.step (C := EasyHws.server g c L resume))} (h : EasyNet.Fairly e) (hcare : (e.st 0).easy.careful = true) {i n : Nat} (hi : i < (e.st n).easy.count)
    (hin : (e.st n).input i = .connected :: (l ++ (pieces ++ [last ++ first] ++ more)).map .read) :
    ∃ m, n ≤ m ∧ ((rs.map fun r => asked r.headers) ++ (opened (r.headers.raw_host ++ r.headers.raw_path ++ b! "?" ++ r.headers.raw_query) :: (assemble .idle (frames.map Sent.meant)).2.flatMap shown).map seenWs <+:
      handled (e.st m).easy.trace i ∨ Lost (e.st m).easy.trace i) := by
  rw [← EasyHws.lift_seen]
  obtain ⟨s, rest, s1, s2, -, s4, s5, s6, s7, s8⟩ := EasyHws.session_cut g max lv hg hq hacc c hL rs hp st0 hr0 r st hr hend hkeep hproxy hm hask l hlw pieces last hlast hpieces frames first more hall hcut agreed hagreed hread hlegal hlimit
  have hacts : l.map (fun b => Act.receive b false) ++ (pieces.map (fun b => Act.receive b false) ++ [.receive (last ++ first) false] ++ more.map (fun b => .receive b false)) =
      (l ++ (pieces ++ [last ++ first] ++ more)).map (.receive · false) := by
    simp [Function.comp_def]
  rw [hacts] at s1
  obtain ⟨evs0, h0⟩ := EasyHws.collects g c resume _ s s1 s2
  rw [← hin] at h0
  obtain ⟨x, evs, m, h1, hmn, hd⟩ := C129_sockets_partial h hcare hi
  rw [h0] at h1
  have hca : (e.st n).easy.careful = true := (es_later (e := en_exec e) i (Nat.zero_le n)).careful.trans hcare
  obtain ⟨h4, -⟩ := EasyHws.server_sound ((ninv (en_reach h n) hca).ordered i) h0
  refine ⟨m, hmn, hd.imp (fun hd => ?_) id⟩
  rw [← (Prod.mk.inj (Option.some.inj h1)).2, h4] at hd
  have hlog : s.log = (rs.map fun r => asked r.headers) ++ (opened (r.headers.raw_host ++ r.headers.raw_path ++ b! "?" ++ r.headers.raw_query) :: (assemble .idle (frames.map Sent.meant)).2.flatMap shown).map lift := by
    rw [s8, List.flatMap_cons, EasyWs.rest_seen _ rest s6, s7]
    simp [event, opened, caddr]
    rfl
  rw [show upToClose _ = upToClose s.log from rfl, hlog, EasyHws.upToClose_pre (EasyHws.asked_open rs), EasyHws.upToClose_lift, ew_opened] at hd
  exact hd

end

/-! ### Examples -/

/-- A server; after exceptions its HTTP parser is new. -/
abbrev cutHws := EasyHws.server countServer bareCfg bareLib fun _ => ({}, TinyState.url)

/-- A plain request, a handshake in two parts with frames in four pieces, the first of which is in the read that completes the handshake, and then the end of the socket. -/
def cutBoth : List (NAct EasyHws.HMsg) :=
  [.easy (.accept 100), .socket 0 .connected, .socket 0 (.read (b! "/a\nHost:h\n\n")), .push .no, .socket 0 (.read (b! "/chat\nHos")), .socket 0 (.read ((shakeText ++ b! "\n").drop 9 ++ (cutReads.map Prod.snd)[0])), .push .no, .push .no,
    .socket 0 (.read (cutReads.map Prod.snd)[1]), .easy (.resume 0), .easy (.loop 0), .socket 0 (.read (cutReads.map Prod.snd)[2]), .socket 0 (.read (cutReads.map Prod.snd)[3]), .push .no,
    .easy (.back 0 0), .easy (.loop 0), .easy (.back 0 0), .easy (.loop 0), .easy (.back 0 0), .easy (.loop 0), .socket 0 (.closed (b! "bye")), .push .no, .easy (.back 0 0), .easy (.loop 0), .easy (.back 0 0), .easy (.loop 0)]

theorem cutBoth_ok : (runs (EasyNet.step (C := cutHws)) { easy := { careful := true } } cutBoth).any en_quiet = true := by decide +kernel

/-- The reads in it. -/
def cutBothReads : List Bytes := [b! "/a\nHost:h\n\n"] ++ ([b! "/chat\nHos"] ++ [(shakeText ++ b! "\n").drop 9 ++ (cutReads.map Prod.snd)[0]] ++ [(cutReads.map Prod.snd)[1], (cutReads.map Prod.snd)[2], (cutReads.map Prod.snd)[3]])

-- the hypotheses about the requests and the frames are met, see `plainGet_good`, `shake_good` and the example for `C90_cut_partial`
example : ∃ n : Net cutHws, Reachable n ∧ n.easy.careful = true ∧ n.todo = [] ∧ (∀ x ∈ n.easy.fibs, x.st = .done) ∧ 0 < n.easy.count ∧
    n.input 0 = .connected :: cutBothReads.map .read ++ [.closed (b! "bye")] ∧
    handled n.easy.trace 0 = EasyHws.asked plainGet.headers :: (opened (b! "h/chat?") :: cutSeen ++ [ended 1006 (b! "no CLOSE frame received")]).map EasyHws.seenWs := by
  obtain ⟨n, h1, h2⟩ := demo_of (o := run ({ easy := { careful := true } } : Net cutHws) cutBoth)
    (fun n => n.easy.careful && n.todo.isEmpty && n.easy.fibs.all (fun x => x.st == .done) && decide (0 < n.easy.count) &&
      n.input 0 == .connected :: cutBothReads.map .read ++ [.closed (b! "bye")] &&
      handled n.easy.trace 0 == EasyHws.asked plainGet.headers :: (opened (b! "h/chat?") :: cutSeen ++ [ended 1006 (b! "no CLOSE frame received")]).map EasyHws.seenWs) (by decide +kernel)
  simp only [Bool.and_eq_true, beq_iff_eq, List.all_eq_true, decide_eq_true_eq, List.isEmpty_iff] at h2
  obtain ⟨⟨⟨⟨⟨h3, h4⟩, h5⟩, h6⟩, h7⟩, h8⟩ := h2
  exact ⟨n, net_run_reachable (.init true) h1, h3, h4, h5, h6, h7, h8⟩

/- All of it has arrived after 13 steps, when the callback has been called for the plain request only. -/
example : EasyNet.Fairly (enExec cutBoth cutBoth_ok) ∧ ((enExec cutBoth cutBoth_ok).st 0).easy.careful = true ∧ 0 < ((enExec cutBoth cutBoth_ok).st 13).easy.count ∧
    ((enExec cutBoth cutBoth_ok).st 13).input 0 = .connected :: cutBothReads.map .read ∧
    handled ((enExec cutBoth cutBoth_ok).st 13).easy.trace 0 = [EasyHws.asked plainGet.headers] :=
  ⟨enExec_fair _ _, rfl, by decide +kernel, by decide +kernel, by decide +kernel⟩

end Verif.Props
