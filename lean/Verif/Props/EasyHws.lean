import Verif.Props.EasyWs
import Verif.Proofs.EasyHwsSession
/-! # C103: sessions of easy servers for both HTTP and WebSocket -/
namespace Verif.Props
open Verif.Easy Verif.EasyNet Verif.EasyHws Verif.Spec
open Verif.EasyWs (opened ended shown lost Sound event)
open Verif.HttpLib (Lib)

section
open Verif.WsServer Verif.HttpServer

variable {Z : Type} {g : WsServer.Cfg Z} {c : HttpRequest.Cfg} {L : Lib} {resume : H Z → HttpRequest.Parser × L.σ}

theorem EasyHws.upToClose_ends {M : Type} (l : List (Event M)) (h : ∃ e ∈ l, e.ty = .close) : ∃ pre e, upToClose l = pre ++ [e] ∧ e.ty = .close ∧ ∀ x ∈ pre, x.ty ≠ .close := by
  induction l with
  | nil => obtain ⟨e, he, -⟩ := h; cases he
  | cons x l ih =>
    unfold upToClose
    by_cases hx : x.ty = .close
    · rw [if_pos hx]; exact ⟨[], x, rfl, hx, by simp⟩
    · rw [if_neg hx]
      obtain ⟨e, he, h1⟩ := h
      rcases List.mem_cons.mp he with rfl | he'
      · exact absurd h1 hx
      · obtain ⟨pre, e, h2, h3, h4⟩ := ih ⟨e, he', h1⟩
        exact ⟨x :: pre, e, by rw [h2]; rfl, h3, fun y hy => (List.mem_cons.mp hy).elim (fun e => e ▸ hx) (h4 y)⟩

theorem EasyHws.server_sound {h : List In} (hh : Ordered h) {x : Node Z L} {evs : List (Event HMsg)} (ho : outputs (server g c L resume) (server g c L resume).init h = some (x, evs)) :
    evs = x.s.log ∧ Sound x.s.w.ws.trace ∧ (x.s.log.filter fun e => !isRequest e) = (x.s.w.ws.trace.flatMap (event (x.s.w.addresses.getLastD []))).map lift ∧
      (∀ pre e post, x.s.log = pre ++ e :: post → isRequest e = true → ∀ o ∈ pre, isOpen o = false) ∧ (EasyWs.isClosed h = true → Ws.Shut x.s.w.ws) := by
  obtain ⟨y, h1, h2, h3, h4⟩ := EasyHws.server_outputs h hh ho
  by_cases hc : EasyWs.isClosed h = true
  · rw [if_pos hc] at h2
    obtain ⟨m, e, m1, m2, -⟩ := EasyWs.close_tail g.env y.s.w.ws 1006 (Ws.descBytes (some "no CLOSE frame received"))
    have htr : x.s.w.ws.trace = y.s.w.ws.trace ++ m := by rw [h2]; exact e
    have hlog : x.s.log = y.s.log ++ (EasyWs.events (y.s.w.addresses.getLastD []) y.s.w.ws.trace x.s.w.ws.trace).map lift := by rw [h2]; rfl
    have had : x.s.w.addresses = y.s.w.addresses := by rw [h2]; rfl
    refine ⟨h4, by rw [htr]; exact (EasyWs.inv_sound h1.inv.inv).tail m1 m2, ?_, by rw [hlog]; exact order_tail h1.inv.order (lifted_request _), fun _ => ?_⟩
    · rw [hlog, List.filter_append, h1.inv.ws, filter_lifted, ← List.map_append, had, EasyWs.events_split _ _ _ _ (by rw [htr]; exact ⟨m, rfl⟩) (fun _ => rfl)]
    · rw [h2]; exact Ws.shut_close_once _ _ _ _ h1.inv.inv.good
  · rw [if_neg hc] at h2
    refine ⟨h4, ?_, ?_, ?_, fun h => absurd h hc⟩
    · rw [h2]; exact EasyWs.inv_sound h1.inv.inv
    · rw [h2]; exact h1.inv.ws
    · rw [h2]; exact h1.inv.order

theorem EasyHws.opens_filter (l : List (Event HMsg)) : l.countP isOpen = (l.filter fun e => !isRequest e).countP isOpen := by
  rw [List.countP_filter]
  congr 1
  funext e
  obtain ⟨ty, er, d, m⟩ := e
  rcases m with _ | _ | _ | (_ | _ | _ | _) <;> rfl

theorem EasyHws.lift_seen : lift = seenWs := rfl

theorem EasyHws.opens_lift (l : List (Event EasyWs.WMsg)) : (l.map lift).countP isOpen = l.countP EasyWs.isOpen := by
  rw [List.countP_map]
  congr 1
  funext e
  exact lift_open e

/-- C103.  Whatever arrives at a session of `Easy_HWS_Server`, in whatever pieces, and whatever fibers and the network thread do: the callback of the user is called for the opening of a WebSocket session at most
once, for messages only after that, for plain requests never after that, and for nothing after the end of the session.  PARTIAL: only if no object is created at an address for which a fiber has not returned, see
`C39_reuse`. -/
theorem C103_order_partial {n : Net (server g c L resume)} (hn : Reachable n) (hc : n.easy.careful = true) (i : Nat) :
    (handled n.easy.trace i).countP isOpen ≤ 1 ∧ ∀ pre e post, handled n.easy.trace i = pre ++ e :: post →
      (isMessage e = true → ∃ o ∈ pre, isOpen o = true) ∧ (isRequest e = true → ∀ o ∈ pre, isOpen o = false) ∧ (e.ty = .close → post = []) := by
  obtain ⟨x, evs, h1, ⟨r, h2⟩, h3⟩ := C94_prefix_partial hn hc i
  obtain ⟨h4, h5, h6, h7, -⟩ := EasyHws.server_sound ((ninv hn hc).ordered i) h1
  subst h4
  have ho := EasyWs.sound_once (x.s.w.addresses.getLastD []) h5
  rw [← EasyHws.opens_lift, ← h6, ← EasyHws.opens_filter, ← h2, List.countP_append] at ho
  refine ⟨by omega, fun pre e post h => ⟨fun hm => ?_, ?_, h3 pre e post h⟩⟩
  · have hlog : x.s.log = pre ++ e :: (post ++ r) := by rw [← h2, h]; simp
    have hr : isRequest e = false := by
      obtain ⟨ty, er, d, m⟩ := e
      rcases m with _ | _ | _ | (_ | _ | _ | _) <;> first | rfl | (simp [isMessage] at hm)
    rw [hlog, List.filter_append, List.filter_cons_of_pos (by simp [hr])] at h6
    obtain ⟨a, b, e1, e2, e3⟩ := List.map_eq_append_iff.1 h6.symm
    obtain ⟨e', b', f1, f2, f3⟩ := List.map_eq_cons_iff.1 e3
    subst f1
    obtain ⟨o, o1, o2⟩ := EasyWs.sound_messages _ h5 e1 (by rw [← lift_message, f2]; exact hm)
    refine ⟨lift o, ?_, by rw [lift_open]; exact o2⟩
    have : lift o ∈ pre.filter fun e => !isRequest e := by rw [← e2]; exact List.mem_map.mpr ⟨o, o1, rfl⟩
    exact (List.mem_filter.mp this).1
  · exact h7 pre e (post ++ r) (by rw [← h2, h]; simp)

/-- C103.  The data of the opening are the address of a request which is not to a proxy and has asked for a WebSocket connection.  PARTIAL: see `C103_order_partial`. -/
theorem C103_asked_partial {n : Net (server g c L resume)} (hn : Reachable n) (hc : n.easy.careful = true) (i : Nat) (e : Event HMsg) (he : e ∈ handled n.easy.trace i) (ho : isOpen e = true) :
    ∃ x evs, outputs (server g c L resume) (server g c L resume).init (n.input i) = some (x, evs) ∧
      ∃ h ∈ x.s.w.heads, h.is_proxy = false ∧ OffersWebSocket (texts h) ∧ e = seenWs (opened (h.raw_host ++ h.raw_path ++ b! "?" ++ h.raw_query)) := by
  rw [← EasyHws.lift_seen]
  obtain ⟨x, evs, h1, ⟨r, h2⟩, -⟩ := C94_prefix_partial hn hc i
  obtain ⟨y, k1, k2, k3, k4⟩ := EasyHws.server_outputs _ ((ninv hn hc).ordered i) h1
  obtain ⟨-, -, h6, -, -⟩ := EasyHws.server_sound ((ninv hn hc).ordered i) h1
  refine ⟨x, evs, h1, ?_⟩
  have hm : e ∈ (x.s.w.ws.trace.flatMap (event (x.s.w.addresses.getLastD []))).map lift := by
    rw [← h6, List.mem_filter]
    refine ⟨by rw [← k4, ← h2]; simp [he], ?_⟩
    obtain ⟨ty, er, d, m⟩ := e
    rcases m with _ | _ | _ | (_ | _ | _ | _) <;> first | rfl | (simp [isOpen] at ho)
  obtain ⟨e', hm', rfl⟩ := List.mem_map.mp hm
  rw [lift_open] at ho
  obtain ⟨z, hz, hze⟩ := List.mem_flatMap.mp hm'
  have hacc : z = .accepted ∧ e' = opened (x.s.w.addresses.getLastD []) := by
    rcases EasyWs.event_cases (x.s.w.addresses.getLastD []) z with ⟨e1, -⟩ | ⟨e'', e1, e2, -⟩
    · rw [e1] at hze; cases hze
    · rw [e1, List.mem_singleton] at hze
      subst hze
      have := e2.1 ho
      subst this
      simp only [event, List.cons.injEq] at e1
      exact ⟨rfl, e1.1.symm⟩
  obtain ⟨rfl, rfl⟩ := hacc
  have hsame : x.s.w.heads = y.s.w.heads ∧ x.s.w.addresses = y.s.w.addresses ∧ .accepted ∈ y.s.w.ws.trace := by
    rw [k2] at hz ⊢
    split
    · rename_i hcl
      rw [if_pos hcl] at hz
      refine ⟨rfl, rfl, ?_⟩
      obtain ⟨m, e, m1, -⟩ := EasyWs.close_tail g.env y.s.w.ws 1006 (Ws.descBytes (some "no CLOSE frame received"))
      have hz : Ws.Ev.accepted ∈ (y.s.w.ws.close_once g.env 1006 (Ws.descBytes (some "no CLOSE frame received"))).1.trace := hz
      rw [e, List.mem_append] at hz
      rcases hz with hz | hz
      · exact hz
      · exact absurd hz m1
    · rename_i hcl
      rw [if_neg hcl] at hz
      exact ⟨rfl, rfl, hz⟩
  obtain ⟨h, p1, p2, p3, p4⟩ := (k1.inv.inv.accepted hsame.2.2).request
  refine ⟨h, by rw [hsame.1]; exact p1, p2, p3, ?_⟩
  rw [hsame.2.1, p4]; rfl

/-- C103.  When the socket has been closed, the network thread has nothing left to do and all fibers have returned: the callback has been called for the end of the session exactly once, at last, whatever
has happened before, unless memory has run out or the server has been stopped.  PARTIAL: see `C103_order_partial`. -/
theorem C103_end_partial {n : Net (server g c L resume)} (hn : Reachable n) (hc : n.easy.careful = true) (ht : n.todo = []) (hd : ∀ x ∈ n.easy.fibs, x.st = .done) {i : Nat} (hi : i < n.easy.count)
    (hl : ¬ Lost n.easy.trace i) {reason : Bytes} (hcl : .closed reason ∈ n.input i) : ∃ pre e, handled n.easy.trace i = pre ++ [e] ∧ e.ty = .close ∧ ∀ x ∈ pre, x.ty ≠ .close := by
  obtain ⟨x, evs, h1, h2⟩ := C94_delivered_partial hn hc ht hd hi hl
  obtain ⟨h4, -, h6, -, h8⟩ := EasyHws.server_sound ((ninv hn hc).ordered i) h1
  obtain ⟨pre, e, post, e1, e2, -, -⟩ := EasyWs.shut_ends (x.s.w.addresses.getLastD []) (h8 (List.any_eq_true.mpr ⟨_, hcl, rfl⟩))
  rw [h2, h4]
  refine EasyHws.upToClose_ends _ ⟨lift e, ?_, e2⟩
  have : lift e ∈ x.s.log.filter fun e => !isRequest e := by rw [h6, e1]; simp
  exact (List.mem_filter.mp this).1

/-! ### Collecting -/

theorem EasyHws.threw_of (g : WsServer.Cfg Z) (t : List HttpServer.Ev) : ∀ s : H Z, s.w.threw = true → (H.of g s t).w.threw = true := by
  induction t with
  | nil => intro s h; exact h
  | cons e t ih =>
    intro s h
    refine ih (s.step g e) ?_
    unfold H.step
    split
    · rw [if_pos h]; exact h
    · show (s.w.step g _).threw = true
      unfold WsServer.W.step; rw [if_pos h]; exact h

theorem EasyHws.reads_pre (g : WsServer.Cfg Z) (c : HttpRequest.Cfg) (L : Lib) (xs ys : List HttpServer.Act) (s' : H Z) (h : (H.start g).reads g c ({} : Sess L) (xs ++ ys) = some s') (ht : s'.w.threw = false) :
    ∃ s, (H.start g).reads g c ({} : Sess L) xs = some s ∧ s.w.threw = false := by
  unfold H.reads at h ⊢
  rw [HttpServer.run_append] at h
  cases hx : HttpServer.run (EasyHws.app g (.start g)) c ({} : HttpServer.Sess L) [] xs with
  | none => rw [hx] at h; cases h
  | some r =>
    obtain ⟨s1, b1⟩ := r
    rw [hx] at h
    simp only at h
    cases hy : HttpServer.run (EasyHws.app g (.start g)) c s1 b1 ys with
    | none => rw [hy] at h; cases h
    | some r =>
      obtain ⟨s2, b2⟩ := r
      rw [hy] at h
      simp only [Option.some.injEq] at h
      refine ⟨_, rfl, ?_⟩
      subst h
      simp only [Bool.or_eq_false_iff] at ht ⊢
      obtain ⟨t, e⟩ := HttpServer.run_adds _ _ _ hy
      refine ⟨?_, ?_⟩
      · rw [← Bool.not_eq_true]
        intro hc
        have := EasyHws.threw_of g t _ hc
        have e2 : H.of g (.start g) s2.trace = H.of g (H.of g (.start g) s1.trace) t := by rw [← e]; simp [H.of, List.foldl_append]
        rw [e2, this] at ht
        cases ht.1
      · rw [← Bool.not_eq_true]
        intro hc
        rw [HttpServer.run_failed _ _ _ hc hy] at ht
        cases ht.2

theorem EasyHws.collects (g : WsServer.Cfg Z) (c : HttpRequest.Cfg) (resume : H Z → HttpRequest.Parser × L.σ) (ds : List Bytes) : ∀ s, (H.start g).reads g c ({} : Sess L) (ds.map (.receive · false)) = some s → s.w.threw = false →
    ∃ evs, outputs (server g c L resume) (server g c L resume).init (.connected :: ds.map .read) = some ({ base := .start g, acts := ds.map (.receive · false), s := s }, evs) := by
  induction ds using snocInd with
  | nil => intro s h _; cases h; exact ⟨[], rfl⟩
  | snoc ds d ih =>
    intro s h ht
    rw [List.map_append] at h
    obtain ⟨s1, h1, h2⟩ := EasyHws.reads_pre g c L _ _ s h ht
    obtain ⟨evs, he⟩ := ih s1 h1 h2
    have := outputs_snoc (C := server g c L resume) (i := .read d) (z := { base := .start g, acts := (ds ++ [d]).map (.receive · false), s := s }) (b := s.log.drop s1.log.length) he (by
      show Node.read g c resume _ d false = _
      unfold Node.read
      simp only [h2, Bool.false_eq_true, if_false]
      have : (H.start g).reads g c ({} : HttpServer.Sess L) (ds.map (.receive · false) ++ [.receive d false]) = some s := h
      rw [this]
      simp; rfl)
    have e : (In.connected :: (ds ++ [d]).map .read) = In.connected :: ds.map .read ++ [.read d] := by simp
    rw [e]
    exact ⟨_, this⟩

theorem EasyHws.upToClose_pre {M : Type} {a b : List (Event M)} (h : ∀ x ∈ a, x.ty ≠ .close) : upToClose (a ++ b) = a ++ upToClose b := by
  induction a with
  | nil => rfl
  | cons x t ih => simp only [List.cons_append, upToClose, if_neg (h x (by simp)), ih (fun y hy => h y (by simp [hy]))]

theorem EasyHws.upToClose_lift (l : List (Event EasyWs.WMsg)) : upToClose (l.map lift) = (upToClose l).map lift := by
  induction l with
  | nil => rfl
  | cons x l ih =>
    show upToClose (lift x :: l.map lift) = _
    unfold upToClose
    by_cases hx : x.ty = .close
    · rw [if_pos hx, if_pos (show (lift x).ty = .close from hx)]; rfl
    · rw [if_neg hx, if_neg (show ¬ (lift x).ty = .close from hx), ih]; rfl

theorem EasyHws.asked_open (rs : List Request) : ∀ x ∈ rs.map (fun r => asked r.headers), x.ty ≠ .close := by
  intro x hx
  obtain ⟨r, -, rfl⟩ := List.mem_map.mp hx
  simp [asked]

/-- C103.  When plain requests have arrived, in any pieces, and the socket has been closed, the network thread has nothing left to do and all fibers have returned: the callback has been called for each request
once, in order, with its method and its address; and then for the end of the session; unless memory has run out or the server has been stopped.  PARTIAL: see `C103_order_partial`. -/
theorem C103_requests_partial {body : L.σ → Prop} (hL : LibOk L body) (rs : List Request) (hp : ∀ r ∈ rs, IsPlain r.headers) (st : L.σ) (hr : Conversation L c L.init rs st)
    (l : List Bytes) (hlw : l.flatten = rs.flatMap Request.wire)
    {n : Net (server g c L resume)} (hn : Reachable n) (hc : n.easy.careful = true) (ht : n.todo = []) (hd : ∀ x ∈ n.easy.fibs, x.st = .done) {i : Nat} (hi : i < n.easy.count) (hl : ¬ Lost n.easy.trace i) (reason : Bytes)
    (hin : n.input i = .connected :: l.map .read ++ [.closed reason]) :
    handled n.easy.trace i = (rs.map fun r => asked r.headers) ++ [seenWs (ended 1006 (b! "no CLOSE frame received"))] := by
  rw [← EasyHws.lift_seen]
  obtain ⟨x0, hs, k, c1, c2, c3, c4, c5, c6⟩ := conversation_state g (c := c) hL rs hp st hr l hlw
  have hreads : (H.start g).reads g c ({} : Sess L) (l.map (.receive · false)) = some { w := { WsServer.W.start g with heads := hs, calls := k }, log := rs.map fun r => asked r.headers } := by
    unfold H.reads
    have : HttpServer.run (EasyHws.app g (.start g)) c ({} : Sess L) [] (l.map (.receive · false)) = some (x0, []) := by simpa [arrival] using c1
    rw [this]
    simp only [c6, c2]
    rfl
  obtain ⟨evs0, h0⟩ := EasyHws.collects g c resume l _ hreads rfl
  have h1 := outputs_snoc (C := server g c L resume) (i := .closed reason) h0 rfl
  rw [← hin] at h1
  obtain ⟨x, evs, h2, h3⟩ := C94_delivered_partial hn hc ht hd hi hl
  rw [h1] at h2
  simp only [Option.some.injEq, Prod.mk.injEq] at h2
  obtain ⟨hx, rfl⟩ := h2
  obtain ⟨h4, -, -, -, -⟩ := EasyHws.server_sound ((ninv hn hc).ordered i) h1
  rw [h3, h4]
  obtain ⟨m, e, -, -, m3⟩ := EasyWs.close_tail g.env (WsServer.W.start g).ws 1006 (Ws.descBytes (some "no CLOSE frame received"))
  show upToClose ((rs.map fun r => asked r.headers) ++ (EasyWs.events _ (WsServer.W.start g).ws.trace ((WsServer.W.start g).ws.close_once g.env 1006 (Ws.descBytes (some "no CLOSE frame received"))).1.trace).map lift) = _
  rw [e]
  unfold EasyWs.events
  rw [List.drop_left, m3, EasyHws.upToClose_pre (EasyHws.asked_open rs), EasyHws.upToClose_lift]
  rfl

/-- C103.  When plain requests have arrived, then a handshake, in any pieces, and then frames, in reads of whole frames, and the socket has been closed, the network thread has nothing left to do and all fibers have
returned: the callback has been called for each plain request once, in order; for the opening, with the address of the handshake; for every text, binary and PONG message, each once, with its payload, in order; and
for the end of the session, with the status and the reason of the CLOSE frame, or with 1006 if there was none; unless memory has run out or the server has been stopped.  PARTIAL: only if compressed messages are in one frame, if no header of
a frame is split between reads, see `C90_violated_header`, and if the handshake begins in a read of its own; see also `C103_order_partial`. -/
theorem C103_session_partial (max lv : Nat) (hg : g.parser = { max_message_length := max, default_compression_level := lv }) (hq : Quiet g.env max) (hacc : ∀ t, g.env.on_accepted t = false)
    {body : L.σ → Prop} (hL : LibOk L body) (rs : List Request) (hp : ∀ r ∈ rs, IsPlain r.headers) (st0 : L.σ) (hr0 : Conversation L c L.init rs st0)
    (r : Request) (st : L.σ) (hr : r.Good L c st0 st) (hend : EndsWithHead L st0 r.wire) (hkeep : r.keep = true) (hproxy : r.headers.is_proxy = false) (hm : r.headers.method = b! "GET")
    (hask : AsksForWebSocket (texts r.headers)) (l : List Bytes) (hlw : l.flatten = rs.flatMap Request.wire) (pieces : List Bytes) (last : Bytes) (hlast : last ≠ []) (hpieces : pieces.flatten ++ last = r.wire)
    (first : List Sent) (more : List (List Sent))
    (agreed : Bool) (hagreed : agreed = true → ∃ p ext, Ws.accept_handshake_request g.values g.parser (texts r.headers) = some (p, some ext))
    (hread : Readable max (unpackMessage g.env.inflate_stream g.env.inflate_finish) g.inflator (first :: more).flatten) (hlegal : LegalSequence true agreed false ((first :: more).flatten.map Sent.frame)) (hlimit : WithinLimit max .idle ((first :: more).flatten.map Sent.meant))
    {n : Net (server g c L resume)} (hn : Reachable n) (hc : n.easy.careful = true) (ht : n.todo = []) (hd : ∀ x ∈ n.easy.fibs, x.st = .done) {i : Nat} (hi : i < n.easy.count) (hl : ¬ Lost n.easy.trace i) (reason : Bytes)
    (hin : n.input i = .connected :: (l ++ (pieces ++ [last ++ onWire first] ++ more.map onWire)).map .read ++ [.closed reason]) :
    handled n.easy.trace i = (rs.map fun r => asked r.headers) ++ (opened (r.headers.raw_host ++ r.headers.raw_path ++ b! "?" ++ r.headers.raw_query) :: (assemble .idle ((first :: more).flatten.map Sent.meant)).2.flatMap shown ++
      lost (assemble .idle ((first :: more).flatten.map Sent.meant)).2).map seenWs := by
  rw [← EasyHws.lift_seen]
  obtain ⟨s, rest, s1, s2, -, s4, s5, s6, s7, s8⟩ := EasyHws.session g max lv hg hq hacc c hL rs hp st0 hr0 r st hr hend hkeep hproxy hm hask l hlw pieces last hlast hpieces first more agreed hagreed hread hlegal hlimit
  have hacts : l.map (fun b => Act.receive b false) ++ (pieces.map (fun b => Act.receive b false) ++ [.receive (last ++ onWire first) false] ++ more.map (fun fs => .receive (onWire fs) false)) =
      (l ++ (pieces ++ [last ++ onWire first] ++ more.map onWire)).map (.receive · false) := by
    simp [Function.comp_def]
  rw [hacts] at s1
  obtain ⟨evs0, h0⟩ := EasyHws.collects g c resume _ s s1 s2
  have h1 := outputs_snoc (C := server g c L resume) (i := .closed reason) h0 rfl
  rw [← hin] at h1
  obtain ⟨x, evs, h2, h3⟩ := C94_delivered_partial hn hc ht hd hi hl
  rw [h1] at h2
  simp only [Option.some.injEq, Prod.mk.injEq] at h2
  obtain ⟨hx, rfl⟩ := h2
  obtain ⟨h4, -, -, -, h6⟩ := EasyHws.server_sound ((ninv hn hc).ordered i) h1
  have h6 : Ws.Shut (s.w.closed g).ws := h6 (by rw [hin]; simp [EasyWs.isClosed, In.isClosed])
  obtain ⟨m, e, m1, m2, m3⟩ := EasyWs.close_tail g.env s.w.ws 1006 (Ws.descBytes (some "no CLOSE frame received"))
  have hgood : Ws.Good s.w.ws := (hinv_reads g c _ _ (hinv_start g) ({} : Sess L) rfl rfl _ (by simp) s1).inv.good
  rw [h3, h4]
  have htr : (s.w.closed g).ws.trace = .accepted :: (rest ++ m) := by
    show (s.w.ws.close_once g.env 1006 (Ws.descBytes (some "no CLOSE frame received"))).1.trace = _
    rw [e, s5]; rfl
  have hlog : (s.closed g).log = (rs.map fun r => asked r.headers) ++ ((s.w.closed g).ws.trace.flatMap (event (caddr r.headers))).map lift := by
    show s.log ++ (EasyWs.events (s.w.addresses.getLastD []) s.w.ws.trace (s.w.closed g).ws.trace).map lift = _
    rw [s8, s4, s5, htr, List.append_assoc, ← List.map_append]
    congr 2
    unfold EasyWs.events
    rw [show (Ws.Ev.accepted :: (rest ++ m)) = (.accepted :: rest) ++ m from rfl, List.drop_left, List.flatMap_append]
    rfl
  show upToClose (s.closed g).log = _
  rw [hlog, EasyHws.upToClose_pre (EasyHws.asked_open rs), EasyHws.upToClose_lift, EasyWs.upToClose_shut _ h6 htr (by simp [s6, m1]), htr, List.flatMap_cons, List.flatMap_append, m3, EasyWs.rest_seen _ rest s6,
    EasyWs.lost_eq hgood s5, s7]
  simp [event, opened, caddr]
  rfl

end

/-! ### Examples -/

/-- A server; after exceptions its HTTP parser is new. -/
abbrev hwsServer := EasyHws.server quietServer bareCfg bareLib fun _ => ({}, TinyState.url)

/-- A plain request for `/a`. -/
def plainGet : Request where
  wire := b! "/a\nHost:h\n\n"
  url := [b! "/", b! "a"]
  fields := [([b! "H", b! "o", b! "s", b! "t"], [[], b! "h"])]
  body := []
  method := b! "GET"
  keep := true
  headers := { method := b! "GET", raw_host := b! "h", raw_path := b! "/a", headers := [(b! "Host", some (b! "h"))] }

theorem plainGet_good : plainGet.Good bareLib bareCfg TinyState.url TinyState.url :=
  ⟨⟨b! "/a\nHost:h\n", chr '\n', [], _, [], TinyState.name, TinyState.end, 0, [], chr '\n', [], [], TinyState.end, by decide +kernel, rfl, HttpServer.emits_of (ds := headCalls plainGet.url plainGet.fields) (by decide +kernel), by rfl, by simp, .nil _, by rfl, by decide⟩,
    by decide, by decide, by decide, by decide, by decide +kernel, by decide, by decide⟩

theorem plainGet_plain : IsPlain plainGet.headers := by
  refine ⟨rfl, .inr ⟨rfl, fun r hr hs => ?_⟩⟩
  rw [← HttpRequest.name_eq_iff] at hs
  simp only [plainGet, List.mem_singleton] at hr
  subst hr
  revert hs
  decide +kernel

/-- The requests in the examples. -/
theorem plainGets : Conversation bareLib bareCfg bareLib.init [plainGet, plainGet] TinyState.url := .cons plainGet_good (.cons plainGet_good (.nil _))
example : ∀ r ∈ [plainGet, plainGet], IsPlain r.headers := by intro r hr; simp only [List.mem_cons, List.not_mem_nil, or_false, or_self] at hr; subst hr; exact plainGet_plain

/-- What the callback has been called for. -/
def hwsSeen (as : List (NAct HMsg)) : Option (List (Event HMsg)) := (run ({ easy := { careful := true } } : Net hwsServer) as).map fun n => handled n.easy.trace 0

/-- Two plain requests in two parts, and then the end of the socket. -/
example : ∃ n : Net hwsServer, Reachable n ∧ n.easy.careful = true ∧ n.todo = [] ∧ (∀ x ∈ n.easy.fibs, x.st = .done) ∧ 0 < n.easy.count ∧
    n.input 0 = .connected :: [b! "/a\nHo", b! "st:h\n\n/a\nHost:h\n\n"].map .read ++ [.closed (b! "bye")] ∧
    handled n.easy.trace 0 = [plainGet, plainGet].map (fun r => asked r.headers) ++ [seenWs (ended 1006 (b! "no CLOSE frame received"))] := by
  obtain ⟨n, h1, h2⟩ := demo_of (o := run ({ easy := { careful := true } } : Net hwsServer) ([.easy (.accept 100), .socket 0 .connected, .socket 0 (.read (b! "/a\nHo")), .socket 0 (.read (b! "st:h\n\n/a\nHost:h\n\n")), .push .no,
      .push .no, .easy (.resume 0), .easy (.loop 0), .easy (.back 0 0), .easy (.loop 0), .socket 0 (.closed (b! "bye")), .push .no, .easy (.back 0 0), .easy (.loop 0), .easy (.back 0 0), .easy (.loop 0)]))
    (fun n => n.easy.careful && n.todo.isEmpty && n.easy.fibs.all (fun x => x.st == .done) && decide (0 < n.easy.count) &&
      n.input 0 == .connected :: [b! "/a\nHo", b! "st:h\n\n/a\nHost:h\n\n"].map .read ++ [.closed (b! "bye")] &&
      handled n.easy.trace 0 == [plainGet, plainGet].map (fun r => asked r.headers) ++ [seenWs (ended 1006 (b! "no CLOSE frame received"))]) (by decide +kernel)
  simp only [Bool.and_eq_true, beq_iff_eq, List.all_eq_true, decide_eq_true_eq, List.isEmpty_iff] at h2
  obtain ⟨⟨⟨⟨⟨h3, h4⟩, h5⟩, h6⟩, h7⟩, h8⟩ := h2
  exact ⟨n, net_run_reachable (.init true) h1, h3, h4, h5, h6, h7, h8⟩

/-- A plain request, a handshake in two parts, and frames: the events of these are those of `C103_session_partial`. -/
example : hwsSeen [.easy (.accept 100), .socket 0 .connected, .socket 0 (.read (b! "/a\nHost:h\n\n")), .push .no, .socket 0 (.read (b! "/chat\nHos")), .easy (.resume 0), .easy (.loop 0),
    .socket 0 (.read ((shakeText ++ b! "\n").drop 9 ++ wire (sampleReads.map Prod.snd)[0])), .push .no, .easy (.back 0 0), .easy (.loop 0), .socket 0 (.read (wire (sampleReads.map Prod.snd)[1])), .push .no, .push .no,
    .easy (.back 0 0), .easy (.loop 0), .easy (.back 0 0), .easy (.loop 0), .socket 0 (.closed (b! "bye")), .easy (.back 0 0), .easy (.loop 0)] =
    some (asked plainGet.headers :: [opened (b! "h/chat?"), { ty := .other, data := b! "Hello", msg := some .text }, { ty := .close, data := b! "1000: A" }].map seenWs) := by decide +kernel
-- the hypotheses about the requests and the frames are met by `plainGet`, see above, and by those of `C90_session`
example : (shake.headers.method = b! "GET") ∧ shake.Good bareLib bareCfg TinyState.url TinyState.url ∧ EndsWithHead bareLib TinyState.url shake.wire := ⟨rfl, shake_good⟩

/-- C103 is violated: responses are not sent in the order of requests.  If a plain request is followed by a handshake, then the network thread has sent the response to the latter, with status 101, before the
callback has been called for the former, whose response can no longer be sent. -/
theorem C103_violated : ∃ n : Net hwsServer, Reachable n ∧ n.easy.careful = true ∧ n.todo = [] ∧ handled n.easy.trace 0 = [] ∧
    n.input 0 = [.connected, .read (plainGet.wire ++ shake.wire)] ∧
    ∃ x, outputs hwsServer hwsServer.init (n.input 0) = some (x, [asked plainGet.headers, seenWs (opened (b! "h/chat?"))]) ∧ x.s.w.responses = [101] := by
  obtain ⟨n, h1, h2⟩ := demo_of (o := run ({ easy := { careful := true } } : Net hwsServer) [.easy (.accept 100), .socket 0 .connected, .socket 0 (.read (plainGet.wire ++ shake.wire)), .push .no, .push .no])
    (fun n => n.easy.careful && n.todo.isEmpty && (handled n.easy.trace 0).isEmpty && n.input 0 == [.connected, .read (plainGet.wire ++ shake.wire)] &&
      ((outputs hwsServer hwsServer.init (n.input 0)).map fun r => (r.2, r.1.s.w.responses)) == some ([asked plainGet.headers, seenWs (opened (b! "h/chat?"))], [101])) (by decide +kernel)
  simp only [Bool.and_eq_true, beq_iff_eq, List.isEmpty_iff] at h2
  obtain ⟨⟨⟨⟨h3, h4⟩, h5⟩, h6⟩, h7⟩ := h2
  refine ⟨n, net_run_reachable (.init true) h1, h3, h4, h5, h6, ?_⟩
  cases ho : outputs hwsServer hwsServer.init (n.input 0) with
  | none => rw [ho] at h7; cases h7
  | some r =>
    obtain ⟨x, evs⟩ := r
    rw [ho] at h7
    simp only [Option.map_some, Option.some.injEq, Prod.mk.injEq] at h7
    exact ⟨x, by rw [h7.1], h7.2⟩

end Verif.Props
