import Verif.Props.EasyNet
import Verif.Props.WsServer
import Verif.Props.WsClient
import Verif.Proofs.EasyWs
/-! # C101 and C102: sessions of easy WebSocket servers and clients -/
namespace Verif.Props
open Verif.Easy Verif.EasyNet Verif.EasyWs Verif.Spec
open Verif.HttpLib (Lib)

/-- What is reported of the rest of a session. -/
theorem EasyWs.rest_seen (a : Bytes) (rest : List Ws.Ev) (h : .accepted ∉ rest) : rest.flatMap (event a) = (delivered rest).flatMap shown := by
  induction rest with
  | nil => rfl
  | cons x t ih =>
    have ih := ih (fun h' => h (List.mem_cons_of_mem _ h'))
    cases x with
    | accepted => exact absurd (by simp) h
    | finish op b =>
      show message op b ++ t.flatMap (event a) = shown (.message op b) ++ (delivered t).flatMap shown
      rw [ih, message_eq]
    | close n r =>
      show [closing n r] ++ t.flatMap (event a) = shown (.close n r) ++ (delivered t).flatMap shown
      rw [ih, closing_eq]; rfl
    | data op b => exact ih
    | sent b => exact ih
    | shut_down => exact ih

theorem EasyWs.lost_eq {Z : Type} {s : Ws.Session Z} (hg : Ws.Good s) {rest : List Ws.Ev} (ht : s.trace = .accepted :: rest) :
    (if s.closure_notified then [] else [closing 1006 (Ws.descBytes (some "no CLOSE frame received"))]) = lost (delivered rest) := by
  have key : s.closure_notified = (delivered rest).any (fun | .close _ _ => true | _ => false) := by
    rcases hg with ⟨h1, h2⟩ | ⟨h1, a, n, r, b, h2, -⟩
    · rw [h1]
      symm
      rw [List.any_eq_false]
      intro d hd
      unfold delivered at hd
      obtain ⟨x, hx, hd⟩ := List.mem_filterMap.mp hd
      have := h2 x (by rw [ht]; exact List.mem_cons_of_mem _ hx)
      cases x <;> simp [Ws.Ev.isClose] at this hd <;> (subst hd; simp)
    · rw [h1]
      symm
      rw [List.any_eq_true]
      refine ⟨.close n r, ?_, rfl⟩
      unfold delivered
      refine List.mem_filterMap.mpr ⟨.close n r, ?_, rfl⟩
      have : Ws.Ev.close n r ∈ Ws.Ev.accepted :: rest := by rw [← ht, h2]; simp
      simpa using this
  unfold lost
  rw [key, closing_eq]
  rfl

theorem EasyWs.upToClose_pre {a b : List (Event WMsg)} (h : ∀ x ∈ a, x.ty ≠ .close) : upToClose (a ++ b) = a ++ upToClose b := by
  induction a with
  | nil => rfl
  | cons x t ih => simp only [List.cons_append, upToClose, if_neg (h x (by simp)), ih (fun y hy => h y (by simp [hy]))]

theorem EasyWs.upToClose_shut {Z : Type} {s : Ws.Session Z} (a : Bytes) (hs : Ws.Shut s) {rest : List Ws.Ev} (ht : s.trace = .accepted :: rest) (hr : .accepted ∉ rest) :
    upToClose (s.trace.flatMap (event a)) = s.trace.flatMap (event a) := by
  obtain ⟨pre, e, post, h1, h2, h3, h4⟩ := shut_ends a hs
  have hpost : post = [] := by
    rcases post with _ | ⟨o, post⟩
    · rfl
    · exfalso
      have ho := h4 o (by simp)
      obtain ⟨tp, x, tq, h5, h6, h7, h8⟩ := flat_split a _ (show s.trace.flatMap (event a) = (pre ++ [e]) ++ o :: post by rw [h1]; simp)
      rcases event_cases a x with ⟨h9, -⟩ | ⟨e', h9, h10, -⟩
      · rw [h9] at h6; cases h6
      · rw [h9] at h6
        cases h6
        have hx := h10.1 ho
        subst hx
        rw [ht] at h5
        cases tp with
        | nil => simp at h7
        | cons y tp =>
          simp only [List.cons_append, List.cons.injEq] at h5
          exact hr (by rw [h5.2]; simp)
  subst hpost
  rw [h1]
  exact upToClose_append [] h3 h2

/-! ## C101 -/

section
open Verif.WsServer Verif.HttpServer

variable {Z : Type} {g : WsServer.Cfg Z} {c : HttpRequest.Cfg} {L : Lib} {resume : WsServer.W Z → HttpRequest.Parser × L.σ}

theorem EasyWs.server_sound {h : List In} (hh : Ordered h) {x : SNode Z L} {evs : List (Event WMsg)} (ho : outputs (server g c L resume) (server g c L resume).init h = some (x, evs)) :
    Sound x.w.ws.trace ∧ evs = x.w.ws.trace.flatMap (event (x.w.addresses.getLastD [])) ∧ (isClosed h = true → Ws.Shut x.w.ws) := by
  obtain ⟨y, h1, h2, h3, h4⟩ := server_outputs h hh ho
  by_cases hc : isClosed h = true
  · rw [if_pos hc] at h2
    have hs : x.w.ws = (y.w.ws.close_once g.env 1006 (Ws.descBytes (some "no CLOSE frame received"))).1 := by rw [h2]; rfl
    refine ⟨?_, h4, fun _ => ?_⟩
    · obtain ⟨m, e, m1, m2, -⟩ := close_tail g.env y.w.ws 1006 (Ws.descBytes (some "no CLOSE frame received"))
      rw [hs, e]
      exact (inv_sound h1.inv).tail m1 m2
    · rw [hs]; exact Ws.shut_close_once _ _ _ _ h1.inv.good
  · rw [if_neg hc] at h2
    refine ⟨?_, h4, fun h => absurd h hc⟩
    rw [h2]; exact inv_sound h1.inv

/-- C101.  Whatever arrives at a session of `Easy_WS_Server`, in whatever pieces, and whatever fibers and the network thread do: the callback of the user is called for the opening of the session at most once, for messages only
after that, and for nothing after the end of the session.  PARTIAL: only if no object is created at an address for which a fiber has not returned, see `C39_reuse`. -/
theorem C101_order_partial {n : Net (server g c L resume)} (hn : Reachable n) (hc : n.easy.careful = true) (i : Nat) :
    (handled n.easy.trace i).countP isOpen ≤ 1 ∧ ∀ pre e post, handled n.easy.trace i = pre ++ e :: post → (isMessage e = true → ∃ o ∈ pre, isOpen o = true) ∧ (e.ty = .close → post = []) := by
  obtain ⟨x, evs, h1, ⟨r, h2⟩, h3⟩ := C94_prefix_partial hn hc i
  obtain ⟨h4, h5, -⟩ := EasyWs.server_sound ((ninv hn hc).ordered i) h1
  have ho := sound_once (x.w.addresses.getLastD []) h4
  rw [← h5, ← h2, List.countP_append] at ho
  refine ⟨by omega, fun pre e post h => ⟨fun hm => ?_, h3 pre e post h⟩⟩
  exact sound_messages _ h4 (post := post ++ r) (by rw [← h5, ← h2, h]; simp) hm

/-- C101.  The data of the opening are the address of a request which is not to a proxy and has asked for a WebSocket connection.  PARTIAL: see `C101_order_partial`. -/
theorem C101_asked_partial {n : Net (server g c L resume)} (hn : Reachable n) (hc : n.easy.careful = true) (i : Nat) (e : Event WMsg) (he : e ∈ handled n.easy.trace i) (ho : isOpen e = true) :
    ∃ x evs, outputs (server g c L resume) (server g c L resume).init (n.input i) = some (x, evs) ∧
      ∃ h ∈ x.w.heads, h.is_proxy = false ∧ OffersWebSocket (texts h) ∧ e = opened (h.raw_host ++ h.raw_path ++ b! "?" ++ h.raw_query) := by
  obtain ⟨x, evs, h1, ⟨r, h2⟩, -⟩ := C94_prefix_partial hn hc i
  obtain ⟨y, k1, k2, k3, k4⟩ := server_outputs _ ((ninv hn hc).ordered i) h1
  refine ⟨x, evs, h1, ?_⟩
  have hm : e ∈ x.w.ws.trace.flatMap (event (x.w.addresses.getLastD [])) := by rw [← k4, ← h2]; simp [he]
  obtain ⟨z, hz, hze⟩ := List.mem_flatMap.mp hm
  have hacc : z = .accepted ∧ e = opened (x.w.addresses.getLastD []) := by
    rcases event_cases (x.w.addresses.getLastD []) z with ⟨e1, -⟩ | ⟨e', e1, e2, -⟩
    · rw [e1] at hze; cases hze
    · rw [e1, List.mem_singleton] at hze
      subst hze
      have := e2.1 ho
      subst this
      simp only [event, List.cons.injEq] at e1
      exact ⟨rfl, e1.1.symm⟩
  obtain ⟨rfl, rfl⟩ := hacc
  have hsame : x.w.heads = y.w.heads ∧ x.w.addresses = y.w.addresses ∧ .accepted ∈ y.w.ws.trace := by
    rw [k2] at hz ⊢
    split
    · rename_i hcl
      rw [if_pos hcl] at hz
      refine ⟨rfl, rfl, ?_⟩
      obtain ⟨m, e, m1, -⟩ := close_tail g.env y.w.ws 1006 (Ws.descBytes (some "no CLOSE frame received"))
      have hz : Ws.Ev.accepted ∈ (y.w.ws.close_once g.env 1006 (Ws.descBytes (some "no CLOSE frame received"))).1.trace := hz
      rw [e, List.mem_append] at hz
      rcases hz with hz | hz
      · exact hz
      · exact absurd hz m1
    · rename_i hcl
      rw [if_neg hcl] at hz
      exact ⟨rfl, rfl, hz⟩
  obtain ⟨h, p1, p2, p3, p4⟩ := (k1.inv.accepted hsame.2.2).request
  refine ⟨h, by rw [hsame.1]; exact p1, p2, p3, ?_⟩
  rw [hsame.2.1, p4]; rfl

/-- C101.  When the socket has been closed, the network thread has nothing left to do and all fibers have returned: the callback has been called for the end of the session exactly once, at last, whatever
has happened before, unless memory has run out or the server has been stopped.  PARTIAL: see `C101_order_partial`. -/
theorem C101_end_partial {n : Net (server g c L resume)} (hn : Reachable n) (hc : n.easy.careful = true) (ht : n.todo = []) (hd : ∀ x ∈ n.easy.fibs, x.st = .done) {i : Nat} (hi : i < n.easy.count)
    (hl : ¬ Lost n.easy.trace i) {reason : Bytes} (hcl : .closed reason ∈ n.input i) : ∃ pre e, handled n.easy.trace i = pre ++ [e] ∧ e.ty = .close ∧ ∀ x ∈ pre, x.ty ≠ .close := by
  obtain ⟨x, evs, h1, h2⟩ := C94_delivered_partial hn hc ht hd hi hl
  obtain ⟨-, h5, h6⟩ := EasyWs.server_sound ((ninv hn hc).ordered i) h1
  obtain ⟨pre, e, post, e1, e2, e3, -⟩ := shut_ends (x.w.addresses.getLastD []) (h6 (List.any_eq_true.mpr ⟨_, hcl, rfl⟩))
  exact ⟨pre, e, by rw [h2, h5, e1]; exact upToClose_append post e3 e2, e2, e3⟩

/-- C101.  When a handshake has arrived, in any pieces, and then frames, in reads of whole frames, and the socket has been closed, the network thread has nothing left to do and all fibers have returned: the
callback has been called for the opening, with the address of the request; for every text, binary and PONG message, each once, with its payload, in order; and for the end of the session, with the status and the
reason of the CLOSE frame, or with 1006 if there was none; unless memory has run out or the server has been stopped.  PARTIAL: only if compressed messages are in one frame, see `C15_violated_compressed`, and if no frame is split between reads, see `C90_violated_header`; see also
`C101_order_partial`. -/
theorem C101_session_partial (max lv : Nat) (hg : g.parser = { max_message_length := max, default_compression_level := lv }) (hq : Quiet g.env max) (hacc : ∀ t, g.env.on_accepted t = false)
    (r : Request) (st : L.σ) (hr : r.Good L c L.init st) (hend : EndsWithHead L L.init r.wire) (hkeep : r.keep = true) (hproxy : r.headers.is_proxy = false) (hm : r.headers.method ≠ b! "OPTIONS")
    (hask : AsksForWebSocket (texts r.headers)) (pieces : List Bytes) (last : Bytes) (hlast : last ≠ []) (hpieces : pieces.flatten ++ last = r.wire) (first : List Sent) (more : List (List Sent))
    (agreed : Bool) (hagreed : agreed = true → ∃ p ext, Ws.accept_handshake_request g.values g.parser (texts r.headers) = some (p, some ext))
    (hread : Readable max (unpackMessage g.env.inflate_stream g.env.inflate_finish) g.inflator (first :: more).flatten) (hlegal : LegalSequence true agreed false ((first :: more).flatten.map Sent.frame)) (hlimit : WithinLimit max .idle ((first :: more).flatten.map Sent.meant))
    {n : Net (server g c L resume)} (hn : Reachable n) (hc : n.easy.careful = true) (ht : n.todo = []) (hd : ∀ x ∈ n.easy.fibs, x.st = .done) {i : Nat} (hi : i < n.easy.count) (hl : ¬ Lost n.easy.trace i) (reason : Bytes)
    (hin : n.input i = .connected :: (pieces ++ [last ++ onWire first] ++ more.map onWire).map .read ++ [.closed reason]) :
    handled n.easy.trace i = opened (r.headers.raw_host ++ r.headers.raw_path ++ b! "?" ++ r.headers.raw_query) :: (assemble .idle ((first :: more).flatten.map Sent.meant)).2.flatMap shown ++
      lost (assemble .idle ((first :: more).flatten.map Sent.meant)).2 := by
  obtain ⟨w, rest, s1, s2, -, s4, s5, s6, s7⟩ := C90_session g max lv hg hq hacc c L r st hr hend hkeep hproxy hm hask pieces last hlast hpieces first more agreed hagreed hread hlegal hlimit
  have hacts : pieces.map (fun b => Act.receive b false) ++ [.receive (last ++ onWire first) false] ++ more.map (fun fs => .receive (onWire fs) false) = (pieces ++ [last ++ onWire first] ++ more.map onWire).map (.receive · false) := by
    simp [Function.comp_def]
  rw [hacts] at s1
  obtain ⟨evs0, h0⟩ := server_collects g c resume _ w s1 s2
  have h1 := outputs_snoc (C := server g c L resume) (i := .closed reason) h0 rfl
  rw [← hin] at h1
  obtain ⟨x, evs, h2, h3⟩ := C94_delivered_partial hn hc ht hd hi hl
  rw [h1] at h2
  simp only [Option.some.injEq, Prod.mk.injEq] at h2
  obtain ⟨hx, rfl⟩ := h2
  obtain ⟨-, h5, h6⟩ := EasyWs.server_sound ((ninv hn hc).ordered i) h1
  have h6 := h6 (by rw [hin]; simp [isClosed, In.isClosed])
  obtain ⟨m, e, m1, m2, m3⟩ := close_tail g.env w.ws 1006 (Ws.descBytes (some "no CLOSE frame received"))
  have hgood : Ws.Good w.ws := (inv_reads g c _ _ (inv_start g) ({} : Sess L) rfl rfl _ (by simp) s1).good
  rw [h3, h5]
  have htr : (w.closed g).ws.trace = .accepted :: (rest ++ m) := by
    show (w.ws.close_once g.env 1006 (Ws.descBytes (some "no CLOSE frame received"))).1.trace = _
    rw [e, s5]; rfl
  rw [EasyWs.upToClose_shut _ h6 htr (by simp [s6, m1])]
  show List.flatMap (event ((w.closed g).addresses.getLastD [])) (w.closed g).ws.trace = _
  rw [htr, show (w.closed g).addresses = w.addresses from rfl, s4, List.flatMap_cons, List.flatMap_append, m3, EasyWs.rest_seen _ rest s6, EasyWs.lost_eq hgood s5, s7]
  simp [event, opened]

end

/-! ### Examples -/

/-- A server; after exceptions its HTTP parser is new. -/
abbrev wsServer := server quietServer bareCfg bareLib fun _ => ({}, TinyState.url)

/-- A handshake in two parts `a` and `b`, the second of which brings frames, too; then more frames `c`, and then the end of the socket. -/
def wsNetDemo (a b c : Bytes) (k : Nat) : List (NAct WMsg) :=
  [.easy (.accept 100), .socket 0 .connected, .socket 0 (.read a), .socket 0 (.read b), .push .no, .easy (.resume 0), .easy (.loop 0), .socket 0 (.read c)] ++ List.replicate k (.push .no) ++
    [.easy (.back 0 0), .easy (.loop 0), .easy (.back 0 0), .easy (.loop 0), .socket 0 (.closed (b! "bye")), .easy (.back 0 0), .easy (.loop 0)]

/-- What the callback has been called for. -/
def wsSeen (as : List (NAct WMsg)) : Option (List (Event WMsg)) := (run ({ easy := { careful := true } } : Net wsServer) as).map fun n => handled n.easy.trace 0

example : ∃ n : Net wsServer, Reachable n ∧ n.easy.careful = true ∧ n.todo = [] ∧ (∀ x ∈ n.easy.fibs, x.st = .done) ∧ 0 < n.easy.count ∧
    n.input 0 = .connected :: ([b! "/chat\nHos"] ++ [(shakeText ++ b! "\n").drop 9 ++ wire (sampleReads.map Prod.snd)[0]] ++ [(sampleReads.map Prod.snd)[1]].map wire).map .read ++ [.closed (b! "bye")] ∧
    handled n.easy.trace 0 = [opened (b! "h/chat?"), { ty := .other, data := b! "Hello", msg := some .text }, { ty := .close, data := b! "1000: A" }] := by
  obtain ⟨n, h1, h2⟩ := demo_of (o := run ({ easy := { careful := true } } : Net wsServer) (wsNetDemo (b! "/chat\nHos") ((shakeText ++ b! "\n").drop 9 ++ wire (sampleReads.map Prod.snd)[0]) (wire (sampleReads.map Prod.snd)[1]) 2))
    (fun n => n.easy.careful && n.todo.isEmpty && n.easy.fibs.all (fun x => x.st == .done) && decide (0 < n.easy.count) &&
      n.input 0 == .connected :: ([b! "/chat\nHos"] ++ [(shakeText ++ b! "\n").drop 9 ++ wire (sampleReads.map Prod.snd)[0]] ++ [(sampleReads.map Prod.snd)[1]].map wire).map .read ++ [.closed (b! "bye")] &&
      handled n.easy.trace 0 == [opened (b! "h/chat?"), { ty := .other, data := b! "Hello", msg := some .text }, { ty := .close, data := b! "1000: A" }]) (by decide +kernel)
  simp only [Bool.and_eq_true, beq_iff_eq, List.all_eq_true, decide_eq_true_eq, List.isEmpty_iff] at h2
  obtain ⟨⟨⟨⟨⟨h3, h4⟩, h5⟩, h6⟩, h7⟩, h8⟩ := h2
  exact ⟨n, net_run_reachable (.init true) h1, h3, h4, h5, h6, h7, h8⟩
-- the other hypotheses of `C101_session_partial` are met by this handshake and these frames: see the example for `C90_session`
example : (assemble .idle (sampleReads.map Prod.snd).flatten).2.flatMap shown ++ lost (assemble .idle (sampleReads.map Prod.snd).flatten).2 =
    [{ ty := .other, data := b! "Hello", msg := some .text }, { ty := .close, data := b! "1000: A" }] := by decide +kernel
-- a session without a CLOSE frame, and one without a handshake
example : wsSeen [.easy (.accept 100), .socket 0 .connected, .socket 0 (.read shakeText), .socket 0 (.read (b! "\n" ++ hiServer)), .push .no, .easy (.resume 0), .push .no, .easy (.loop 0), .socket 0 (.read hiServer), .easy (.back 0 0),
    .push .no, .easy (.loop 0), .easy (.back 0 0), .easy (.loop 0), .socket 0 (.closed (b! "bye")), .push .no, .easy (.back 0 0), .easy (.loop 0), .easy (.back 0 0), .easy (.loop 0)] =
    some [opened (b! "h/chat?"), { ty := .other, data := b! "Hi", msg := some .text }, { ty := .other, data := b! "Hi", msg := some .text }, { ty := .close, data := b! "1006: no CLOSE frame received" }] := by decide +kernel
example : wsSeen [.easy (.accept 100), .socket 0 .connected, .socket 0 (.read (b! "/\nHost:h\n")), .socket 0 (.closed (b! "bye")), .push .no, .easy (.resume 0), .easy (.loop 0), .easy (.back 0 0), .easy (.loop 0)] =
    some [{ ty := .close, data := b! "1006: no CLOSE frame received" }] := by decide +kernel
-- a rejected request, and then a handshake: the session is accepted but only its end is shown
example : wsSeen [.easy (.accept 100), .socket 0 .connected, .socket 0 (.read (b! "/\nHost:h\n\n" ++ shakeText ++ b! "\n" ++ hiServer)), .push .no, .easy (.resume 0), .easy (.loop 0), .easy (.back 0 0), .easy (.loop 0)] =
    some [{ ty := .close, data := b! "1002: handshake request invalid" }] := by decide +kernel

/-! ## C102 -/

section
open Verif.WsClient Verif.HttpClient

variable {Z : Type} {g : WsClient.Cfg Z} {c : HttpRequest.Cfg} {L : Lib} {uri : Bytes × Bytes × Bytes × Bytes} {resume : WsClient.W Z → HttpResponse.Parser × L.σ}

theorem EasyWs.client_sound {h : List In} (hh : Ordered h) {x : CNode Z L} {evs : List (Event WMsg)} (ho : outputs (client g c L uri resume) (client g c L uri resume).init h = some (x, evs)) :
    Sound x.w.ws.trace ∧ evs = x.w.ws.trace.flatMap (event (client.addr uri)) ∧ (isClosed h = true → Ws.Shut x.w.ws) := by
  obtain ⟨y, h1, h2, h3, h4⟩ := client_outputs h hh ho
  by_cases hc : isClosed h = true
  · rw [if_pos hc] at h2
    have hs : x.w.ws = (y.w.ws.close_once g.env 1006 (Ws.descBytes (some "no CLOSE frame received"))).1 := by rw [h2]; rfl
    refine ⟨?_, h4, fun _ => ?_⟩
    · obtain ⟨m, e, m1, m2, -⟩ := close_tail g.env y.w.ws 1006 (Ws.descBytes (some "no CLOSE frame received"))
      rw [hs, e]
      exact (cinv_sound h1.inv).tail m1 m2
    · rw [hs]; exact Ws.shut_close_once _ _ _ _ h1.inv.good
  · rw [if_neg hc] at h2
    refine ⟨?_, h4, fun h => absurd h hc⟩
    rw [h2]; exact cinv_sound h1.inv

/-- C102.  Whatever arrives at a session of `Easy_WS_Client`, in whatever pieces, and whatever fibers and the network thread do: the callback of the user is called for the opening of the session at most once, for messages only
after that, and for nothing after the end of the session.  PARTIAL: only if no object is created at an address for which a fiber has not returned, see `C39_reuse`. -/
theorem C102_order_partial {n : Net (client g c L uri resume)} (hn : Reachable n) (hc : n.easy.careful = true) (i : Nat) :
    (handled n.easy.trace i).countP isOpen ≤ 1 ∧ ∀ pre e post, handled n.easy.trace i = pre ++ e :: post → (isMessage e = true → ∃ o ∈ pre, isOpen o = true) ∧ (e.ty = .close → post = []) := by
  obtain ⟨x, evs, h1, ⟨r, h2⟩, h3⟩ := C94_prefix_partial hn hc i
  obtain ⟨h4, h5, -⟩ := EasyWs.client_sound ((ninv hn hc).ordered i) h1
  have ho := sound_once (client.addr uri) h4
  rw [← h5, ← h2, List.countP_append] at ho
  refine ⟨by omega, fun pre e post h => ⟨fun hm => ?_, h3 pre e post h⟩⟩
  exact sound_messages _ h4 (post := post ++ r) (by rw [← h5, ← h2, h]; simp) hm

/-- C102.  The callback is called for the opening only if a whole response has come that has the answer to the key of the request, and with the address that the client has connected to.  PARTIAL: see `C102_order_partial`. -/
theorem C102_asked_partial {n : Net (client g c L uri resume)} (hn : Reachable n) (hc : n.easy.careful = true) (i : Nat) (e : Event WMsg) (he : e ∈ handled n.easy.trace i) (ho : isOpen e = true) :
    e = opened (uri.1 ++ uri.2.1 ++ b! "?" ++ uri.2.2.1 ++ b! "#" ++ uri.2.2.2) ∧
      ∃ x evs, outputs (client g c L uri resume) (client g c L uri resume).init (n.input i) = some (x, evs) ∧ ∃ h ∈ x.w.heads, AnswersWebSocket g.accept (texts h) := by
  obtain ⟨x, evs, h1, ⟨r, h2⟩, -⟩ := C94_prefix_partial hn hc i
  obtain ⟨y, k1, k2, k3, k4⟩ := client_outputs _ ((ninv hn hc).ordered i) h1
  have hm : e ∈ x.w.ws.trace.flatMap (event (client.addr uri)) := by rw [← k4, ← h2]; simp [he]
  obtain ⟨z, hz, hze⟩ := List.mem_flatMap.mp hm
  have hacc : z = .accepted ∧ e = opened (client.addr uri) := by
    rcases event_cases (client.addr uri) z with ⟨e1, -⟩ | ⟨e', e1, e2, -⟩
    · rw [e1] at hze; cases hze
    · rw [e1, List.mem_singleton] at hze
      subst hze
      have := e2.1 ho
      subst this
      simp only [event, List.cons.injEq] at e1
      exact ⟨rfl, e1.1.symm⟩
  obtain ⟨rfl, rfl⟩ := hacc
  refine ⟨rfl, x, evs, h1, ?_⟩
  have hsame : x.w.heads = y.w.heads ∧ .accepted ∈ y.w.ws.trace := by
    rw [k2] at hz ⊢
    split
    · rename_i hcl
      rw [if_pos hcl] at hz
      refine ⟨rfl, ?_⟩
      obtain ⟨m, e, m1, -⟩ := close_tail g.env y.w.ws 1006 (Ws.descBytes (some "no CLOSE frame received"))
      have hz : Ws.Ev.accepted ∈ (y.w.ws.close_once g.env 1006 (Ws.descBytes (some "no CLOSE frame received"))).1.trace := hz
      rw [e, List.mem_append] at hz
      rcases hz with hz | hz
      · exact hz
      · exact absurd hz m1
    · rename_i hcl
      rw [if_neg hcl] at hz
      exact ⟨rfl, hz⟩
  rw [hsame.1]
  exact (k1.inv.accepted hsame.2).response

/-- C102.  When the socket has been closed, the network thread has nothing left to do and all fibers have returned: the callback has been called for the end of the session exactly once, at last, whatever
has happened before, unless memory has run out or the server has been stopped.  PARTIAL: see `C102_order_partial`. -/
theorem C102_end_partial {n : Net (client g c L uri resume)} (hn : Reachable n) (hc : n.easy.careful = true) (ht : n.todo = []) (hd : ∀ x ∈ n.easy.fibs, x.st = .done) {i : Nat} (hi : i < n.easy.count)
    (hl : ¬ Lost n.easy.trace i) {reason : Bytes} (hcl : .closed reason ∈ n.input i) : ∃ pre e, handled n.easy.trace i = pre ++ [e] ∧ e.ty = .close ∧ ∀ x ∈ pre, x.ty ≠ .close := by
  obtain ⟨x, evs, h1, h2⟩ := C94_delivered_partial hn hc ht hd hi hl
  obtain ⟨-, h5, h6⟩ := EasyWs.client_sound ((ninv hn hc).ordered i) h1
  obtain ⟨pre, e, post, e1, e2, e3, -⟩ := shut_ends (client.addr uri) (h6 (List.any_eq_true.mpr ⟨_, hcl, rfl⟩))
  exact ⟨pre, e, by rw [h2, h5, e1]; exact upToClose_append post e3 e2, e2, e3⟩

/-- C102.  When the response to the handshake has arrived, in any pieces, and then frames, in reads of whole frames, and the socket has been closed, the network thread has nothing left to do and all fibers have
returned: the callback has been called for the opening, with the address that the client has connected to; for every text, binary and PONG message, each once, with its payload, in order; and for the end of the
session, with the status and the reason of the CLOSE frame, or with 1006 if there was none; unless memory has run out or the client has been stopped.  PARTIAL: only if compressed messages are in one frame, see `C15_violated_compressed`, and if no frame
is split between reads, see `C92_violated_header`; see also `C102_order_partial`. -/
theorem C102_session_partial (max lv : Nat) (hg : g.parser = { wshs := .c_req_sent, max_message_length := max, default_compression_level := lv }) (hq : Quiet g.env max) (hacc : ∀ t, g.env.on_accepted t = false)
    (hV : Ws.WindowTexts g.values) (hlen : g.accept.length = 28) (hhead : g.accept.headD 0 ≠ 0)
    (r : Verif.Spec.Client.Response) (st : L.σ) (hr : r.Good L c false false L.init st) (hend : EndsWithHead L L.init r.wire) (hkeep : r.keep = true) (hstatus : r.status = 101)
    (hagree : AgreesToWebSocket g.accept (texts r.headers)) (pieces : List Bytes) (last : Bytes) (hlast : last ≠ []) (hpieces : pieces.flatten ++ last = r.wire) (first : List Sent) (more : List (List Sent))
    (agreed : Bool) (hagreed : agreed = true → ∃ p, Ws.accept_handshake_response g.values g.accept g.parser (texts r.headers) = some p ∧ p.pmce_compression_level_m2 ≠ 0)
    (hread : Readable max (unpackMessage g.env.inflate_stream g.env.inflate_finish) g.inflator (first :: more).flatten) (hlegal : LegalSequence false agreed false ((first :: more).flatten.map Sent.frame)) (hlimit : WithinLimit max .idle ((first :: more).flatten.map Sent.meant))
    {n : Net (client g c L uri resume)} (hn : Reachable n) (hc : n.easy.careful = true) (ht : n.todo = []) (hd : ∀ x ∈ n.easy.fibs, x.st = .done) {i : Nat} (hi : i < n.easy.count) (hl : ¬ Lost n.easy.trace i) (reason : Bytes)
    (hin : n.input i = .connected :: (pieces ++ [last ++ onWire first] ++ more.map onWire).map .read ++ [.closed reason]) :
    handled n.easy.trace i = opened (uri.1 ++ uri.2.1 ++ b! "?" ++ uri.2.2.1 ++ b! "#" ++ uri.2.2.2) :: (assemble .idle ((first :: more).flatten.map Sent.meant)).2.flatMap shown ++
      lost (assemble .idle ((first :: more).flatten.map Sent.meant)).2 := by
  obtain ⟨w, rest, s1, s2, -, s5, s6, s7⟩ := C92_session g max lv hg hq hacc hV hlen hhead c L r st hr hend hkeep hstatus hagree pieces last hlast hpieces first more agreed hagreed hread hlegal hlimit
  have hacts : pieces.map (fun b => (⟨b, false⟩ : Act)) ++ [⟨last ++ onWire first, false⟩] ++ more.map (fun fs => ⟨onWire fs, false⟩) = (pieces ++ [last ++ onWire first] ++ more.map onWire).map (⟨·, false⟩) := by
    simp [Function.comp_def]
  rw [hacts] at s1
  obtain ⟨evs0, h0⟩ := client_collects g c uri resume _ w s1 s2
  have h1 := outputs_snoc (C := client g c L uri resume) (i := .closed reason) h0 rfl
  rw [← hin] at h1
  obtain ⟨x, evs, h2, h3⟩ := C94_delivered_partial hn hc ht hd hi hl
  rw [h1] at h2
  simp only [Option.some.injEq, Prod.mk.injEq] at h2
  obtain ⟨hx, rfl⟩ := h2
  obtain ⟨-, h5, h6⟩ := EasyWs.client_sound ((ninv hn hc).ordered i) h1
  have h6 := h6 (by rw [hin]; simp [isClosed, In.isClosed])
  obtain ⟨m, e, m1, m2, m3⟩ := close_tail g.env w.ws 1006 (Ws.descBytes (some "no CLOSE frame received"))
  have hgood : Ws.Good w.ws := (inv_reads g c _ _ (inv_start g) ({} : Sess L) rfl rfl _ s1).good
  rw [h3, h5]
  have htr : (w.closed g).ws.trace = .accepted :: (rest ++ m) := by
    show (w.ws.close_once g.env 1006 (Ws.descBytes (some "no CLOSE frame received"))).1.trace = _
    rw [e, s5]; rfl
  rw [EasyWs.upToClose_shut _ h6 htr (by simp [s6, m1])]
  show List.flatMap (event (client.addr uri)) (w.closed g).ws.trace = _
  rw [htr, List.flatMap_cons, List.flatMap_append, m3, EasyWs.rest_seen _ rest s6, EasyWs.lost_eq hgood s5, s7]
  rfl

end

/-! ### Examples -/

/-- A client; after exceptions its HTTP parser is new. -/
abbrev wsClient := client quietClient replyCfg switchLib (b! "h:80", b! "/chat", b! "a=b", b! "top") fun _ => ({}, (ReplyState.code, false))

example : ∃ n : Net wsClient, Reachable n ∧ n.easy.careful = true ∧ n.todo = [] ∧ (∀ x ∈ n.easy.fibs, x.st = .done) ∧ 0 < n.easy.count ∧
    n.input 0 = .connected :: ([b! "1Swi"] ++ [(answerText ++ b! "\n").drop 4 ++ wire sampleReplies[0]] ++ [sampleReplies[1]].map wire).map .read ++ [.closed (b! "bye")] ∧
    handled n.easy.trace 0 = [opened (b! "h:80/chat?a=b#top"), { ty := .other, data := b! "Hello", msg := some .text }, { ty := .close, data := b! "1000: A" }] := by
  obtain ⟨n, h1, h2⟩ := demo_of (o := run ({ easy := { careful := true } } : Net wsClient) (wsNetDemo (b! "1Swi") ((answerText ++ b! "\n").drop 4 ++ wire sampleReplies[0]) (wire sampleReplies[1]) 2))
    (fun n => n.easy.careful && n.todo.isEmpty && n.easy.fibs.all (fun x => x.st == .done) && decide (0 < n.easy.count) &&
      n.input 0 == .connected :: ([b! "1Swi"] ++ [(answerText ++ b! "\n").drop 4 ++ wire sampleReplies[0]] ++ [sampleReplies[1]].map wire).map .read ++ [.closed (b! "bye")] &&
      handled n.easy.trace 0 == [opened (b! "h:80/chat?a=b#top"), { ty := .other, data := b! "Hello", msg := some .text }, { ty := .close, data := b! "1000: A" }]) (by decide +kernel)
  simp only [Bool.and_eq_true, beq_iff_eq, List.all_eq_true, decide_eq_true_eq, List.isEmpty_iff] at h2
  obtain ⟨⟨⟨⟨⟨h3, h4⟩, h5⟩, h6⟩, h7⟩, h8⟩ := h2
  exact ⟨n, net_run_reachable (.init true) h1, h3, h4, h5, h6, h7, h8⟩
-- the other hypotheses of `C102_session_partial` are met by this response and these frames: see the example for `C92_session`
-- a connection that is not established
example : (run ({ easy := { careful := true } } : Net wsClient) [.easy (.accept 100), .socket 0 (.closed (b! "refused")), .push .no, .easy (.resume 0), .easy (.loop 0), .easy (.back 0 0), .easy (.loop 0)]).map (fun n => handled n.easy.trace 0) =
    some [{ ty := .close, data := b! "1006: no CLOSE frame received" }] := by decide +kernel

end Verif.Props
