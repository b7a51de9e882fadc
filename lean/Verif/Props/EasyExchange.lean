import Verif.Props.EasyNet
import Verif.Props.HttpExchange
import Verif.Spec.EasyExchange
/-! # Easy HTTP clients and servers, from callback to callback (C113) -/
namespace Verif.Props
open Verif.HttpLib Verif.Spec Verif.Spec.Exchange Verif.HttpExchange Verif.Easy Verif.EasyNet
open Verif.EasyHttp (SMsg CMsg server client opened ended)
open Verif.HttpRequest (Headers Cfg)
open Verif.Http (SHeaders)

theorem got_not_proxy {remote default_host : Bytes} {qs : List (Sending Headers)} {gs : List Got} (h : Each (Delivers remote default_host) qs gs) : ∀ g ∈ gs, g.headers.is_proxy = false := by
  induction h with
  | nil => simp
  | cons h _ ih =>
    intro g hg
    rcases List.mem_cons.mp hg with rfl | hg
    · rw [h.request]
    · exact ih g hg

theorem asked_event (rs : List Request) : rs.map EasyHttp.asked = (rs.map (fun r => Got.mk r.headers r.payload (!r.keep))).map Got.event := by
  simp [EasyHttp.asked, Got.event]

theorem answered_event (rs : List Verif.Spec.Client.Response) : rs.map EasyHttp.answered = (rs.map (fun r => Answered.mk r.headers r.body.flatten (!r.keep))).map Answered.event := by
  simp [EasyHttp.answered, Answered.event]

theorem requests_append (a b : List (Event SMsg)) : requestsOf (a ++ b) = requestsOf a ++ requestsOf b := by simp [requestsOf]

theorem requests_events (gs : List Got) : requestsOf (gs.map Got.event) = gs := by
  simp only [requestsOf, List.filterMap_map]
  induction gs with
  | nil => rfl
  | cons g t ih => rw [List.filterMap_cons]; simp only [Function.comp, Got.event] at ih ⊢; rw [ih]

theorem requests_prefix {a b : List (Event SMsg)} (h : a <+: b) : requestsOf a <+: requestsOf b := by
  obtain ⟨t, rfl⟩ := h
  exact ⟨requestsOf t, (requests_append a t).symm⟩

theorem told_requests {gs : List Got} {input : List In} {seen : List (Event SMsg)} (h : Told opened (gs.map Got.event) input seen) : requestsOf seen <+: gs := by
  obtain ⟨k, cl, hc, h⟩ := h
  have hcl : requestsOf cl = [] := by
    rcases hc with rfl | ⟨_, _, rfl⟩
    · rfl
    · rfl
  rcases h with h | h
  · have := requests_prefix h
    rw [List.cons_append, ← List.singleton_append, requests_append, requests_append, hcl, ← List.map_take, requests_events, show requestsOf [opened] = [] from rfl, List.nil_append, List.append_nil] at this
    exact this.trans (List.take_prefix k gs)
  · have := requests_prefix h
    rw [hcl] at this
    rw [List.prefix_nil.mp this]
    exact List.nil_prefix

section
variable (remote default_host : Bytes) (c : Cfg) (limit : Nat) (L : Lib) (body : L.σ → Prop) (hL : LibOk L body) (hC : ReadsRequests limit L) (junk : List HttpServer.Ev → Ty)
variable (qs : List (Sending Headers)) (hq : Chain (Proper remote default_host c limit) qs)
include hL hC hq

/-- C113, requests, at any time.  PARTIAL: only if no object is created at an address for which a fiber has not returned, see `C39_reuse`. -/
theorem C113_requests_partial {n : Net (server c L junk)} (hn : Reachable n) (hc : n.easy.careful = true) (i : Nat) (hs : Sends ((qs.flatMap calls).flatMap (callText remote default_host)) (n.input i)) :
    ∃ gs, Each (Delivers remote default_host) qs gs ∧ Told opened (gs.map Got.event) (n.input i) (handled n.easy.trace i) := by
  obtain ⟨idle, h1, h2, h3⟩ := hC
  obtain ⟨rs, st', gs, g1, g2, g3, g4, -, g6⟩ := all_requests h3 h2 hq L.init h1
  have hp : ∀ r ∈ rs, r.headers.is_proxy = false := by
    intro r hr
    exact got_not_proxy g4 ⟨r.headers, r.payload, !r.keep⟩ (by rw [← g6]; exact List.mem_map.mpr ⟨r, hr, rfl⟩)
  obtain ⟨k, cl, e1, e2⟩ := C95_server_partial c L body hL junk rs st' g1 hp g3 hn hc i (by rw [g2]; exact hs)
  refine ⟨gs, g4, k, cl, e1, ?_⟩
  rw [← g6, ← asked_event, ← List.map_take]
  exact e2

/-- C113, requests.  When all of them have arrived, the socket has been closed, and all threads and fibers have nothing left to do: the callback of the server has been called for each of them.
PARTIAL: see `C113_requests_partial`. -/
theorem C113_requests_end_partial {n : Net (server c L junk)} (hn : Reachable n) (hc : n.easy.careful = true) (ht : n.todo = []) (hd : ∀ x ∈ n.easy.fibs, x.st = .done) {i : Nat}
    (hi : i < n.easy.count) (hl : ¬ Lost n.easy.trace i) (hs : Sends ((qs.flatMap calls).flatMap (callText remote default_host)) (n.input i)) (hop : .connected ∈ n.input i)
    (hall : bytes (n.input i) = (qs.flatMap calls).flatMap (callText remote default_host)) {reason : Bytes} (hcl : .closed reason ∈ n.input i) :
    ∃ gs, Each (Delivers remote default_host) qs gs ∧ handled n.easy.trace i = opened :: gs.map Got.event ++ [ended reason] := by
  obtain ⟨idle, h1, h2, h3⟩ := hC
  obtain ⟨rs, st', gs, g1, g2, g3, g4, -, g6⟩ := all_requests h3 h2 hq L.init h1
  have hp : ∀ r ∈ rs, r.headers.is_proxy = false := by
    intro r hr
    exact got_not_proxy g4 ⟨r.headers, r.payload, !r.keep⟩ (by rw [← g6]; exact List.mem_map.mpr ⟨r, hr, rfl⟩)
  have := C95_server_end_partial c L body hL junk rs st' g1 hp g3 hn hc ht hd hi hl (by rw [g2]; exact hs) hop (by rw [g2]; exact hall) hcl
  refine ⟨gs, g4, ?_⟩
  rw [← g6, ← asked_event]
  exact this

end

section
variable (V : Http.Lib) (status_str : Nat → Bytes) (c : Cfg) (limit : Nat) (L : Lib) (body : L.σ → Prop) (hL : Client.ReplyLib L body) (hC : ReadsReplies limit L)
variable (reply : Got → Sending SHeaders) (seen : List (Event SMsg)) (hq : Chain (fun keep g => Suits status_str c limit false keep (reply g)) (requestsOf seen))
include hL hC hq

theorem replies_all : ∃ (rs : List Client.Response) (st' : L.σ) (ws : List Answered), Client.Conversation L c (fun _ => false) 0 L.init rs st' ∧ rs.flatMap Client.Response.wire = sentFor V status_str reply seen ∧
    L.eof st' = (st', .go) ∧ Each (fun g w => Arrives status_str false (reply g) w) (requestsOf seen) ws ∧ rs.map EasyHttp.answered = ws.map Answered.event := by
  obtain ⟨idle, h1, h2, h3⟩ := hC
  let f : Got → Bool × Sending SHeaders := fun g => (false, reply g)
  have hch : Chain (fun keep (a : Bool × Sending SHeaders) => Suits status_str c limit a.1 keep a.2) ((requestsOf seen).map f) := by
    generalize requestsOf seen = l at hq
    induction hq with
    | nil => exact .nil
    | last h => exact .last h
    | cons h _ ih => exact .cons h ih
  obtain ⟨rs, st', ws, g1, g2, g3, g4, -, g6⟩ := all_replies h3 h2 hch (fun _ => false) 0 (fun k hk => by rw [List.getElem_map]) L.init h1
  have hs := all_sent V hch {} rfl
  refine ⟨rs, st', ws, g1, ?_, g3, each_map f g4, by rw [answered_event, g6]⟩
  rw [g2]
  unfold sentFor
  rw [List.flatMap_map] at hs
  rw [hs]
  rfl

end

/-- C113, both ways, at any time.  A client sends proper requests, none of them for heads; they arrive at a session of an easy server in whatever pieces; its callback answers each request that it is called for, as `reply` says;
the responses arrive at a session of an easy client in whatever pieces.  Then the callback of the server is called for the requests, and the callback of the client is called for the answers to them, in order, each once.  PARTIAL: only
if no objects are created at addresses for which fibers have not returned, see `C39_reuse`; not for requests for heads, see `C96_head`; not for responses in chunks that say `Connection: close`, see `C112_chunked_close`. -/
theorem C113_exchange_partial (remote default_host : Bytes) (c c' : Cfg) (limit limit' : Nat) (V : Http.Lib) (status_str : Nat → Bytes) (L L' : Lib) (body : L.σ → Prop) (body' : L'.σ → Prop)
    (hL : LibOk L body) (hL' : Client.ReplyLib L' body') (hC : ReadsRequests limit L) (hC' : ReadsReplies limit' L') (junk : List HttpServer.Ev → Ty)
    (qs : List (Sending Headers)) (hq : Chain (Proper remote default_host c limit) qs) (reply : Got → Sending SHeaders)
    {n : Net (server c L junk)} (hn : Reachable n) (hc : n.easy.careful = true) (i : Nat) (hs : Sends ((qs.flatMap calls).flatMap (callText remote default_host)) (n.input i))
    {n' : Net (client c' L')} (hn' : Reachable n') (hc' : n'.easy.careful = true) (j : Nat)
    (hr : Chain (fun keep g => Suits status_str c' limit' false keep (reply g)) (requestsOf (handled n.easy.trace i))) (hs' : Sends (sentFor V status_str reply (handled n.easy.trace i)) (n'.input j)) :
    ∃ gs ws, Each (Delivers remote default_host) qs gs ∧ Told opened (gs.map Got.event) (n.input i) (handled n.easy.trace i) ∧
      requestsOf (handled n.easy.trace i) <+: gs ∧ Each (fun g w => Arrives status_str false (reply g) w) (requestsOf (handled n.easy.trace i)) ws ∧
      Told EasyHttp.connected (ws.map Answered.event) (n'.input j) (handled n'.easy.trace j) := by
  obtain ⟨gs, h1, h2⟩ := C113_requests_partial remote default_host c limit L body hL hC junk qs hq hn hc i hs
  obtain ⟨rs, st', ws, g1, g2, g3, g4, g5⟩ := replies_all V status_str c' limit' L' body' hL' hC' reply _ hr
  obtain ⟨k, cl, e1, e2⟩ := C96_client_partial c' L' body' hL' rs st' g1 g3 hn' hc' j (by rw [g2]; exact hs')
  refine ⟨gs, ws, h1, h2, told_requests h2, g4, k, cl, e1, ?_⟩
  rw [← g5, ← List.map_take]
  exact e2

/-- C113, both ways, at the end.  PARTIAL: see `C113_exchange_partial`. -/
theorem C113_exchange_end_partial (remote default_host : Bytes) (c c' : Cfg) (limit limit' : Nat) (V : Http.Lib) (status_str : Nat → Bytes) (L L' : Lib) (body : L.σ → Prop) (body' : L'.σ → Prop)
    (hL : LibOk L body) (hL' : Client.ReplyLib L' body') (hC : ReadsRequests limit L) (hC' : ReadsReplies limit' L') (junk : List HttpServer.Ev → Ty)
    (qs : List (Sending Headers)) (hq : Chain (Proper remote default_host c limit) qs) (reply : Got → Sending SHeaders)
    {n : Net (server c L junk)} (hn : Reachable n) (hc : n.easy.careful = true) (ht : n.todo = []) (hd : ∀ x ∈ n.easy.fibs, x.st = .done) {i : Nat} (hi : i < n.easy.count) (hl : ¬ Lost n.easy.trace i)
    (hs : Sends ((qs.flatMap calls).flatMap (callText remote default_host)) (n.input i)) (hop : .connected ∈ n.input i) (hall : bytes (n.input i) = (qs.flatMap calls).flatMap (callText remote default_host))
    {reason : Bytes} (hcl : .closed reason ∈ n.input i)
    {n' : Net (client c' L')} (hn' : Reachable n') (hc' : n'.easy.careful = true) (ht' : n'.todo = []) (hd' : ∀ x ∈ n'.easy.fibs, x.st = .done) {j : Nat} (hj : j < n'.easy.count) (hl' : ¬ Lost n'.easy.trace j)
    (hr : Chain (fun keep g => Suits status_str c' limit' false keep (reply g)) (requestsOf (handled n.easy.trace i))) (hs' : Sends (sentFor V status_str reply (handled n.easy.trace i)) (n'.input j))
    (hop' : .connected ∈ n'.input j) (hall' : bytes (n'.input j) = sentFor V status_str reply (handled n.easy.trace i)) {reason' : Bytes} (hcl' : .closed reason' ∈ n'.input j) :
    ∃ gs ws, Each (Delivers remote default_host) qs gs ∧ handled n.easy.trace i = opened :: gs.map Got.event ++ [ended reason] ∧
      Each (fun g w => Arrives status_str false (reply g) w) gs ws ∧ handled n'.easy.trace j = EasyHttp.connected :: ws.map Answered.event ++ [ended reason'] := by
  obtain ⟨gs, h1, h2⟩ := C113_requests_end_partial remote default_host c limit L body hL hC junk qs hq hn hc ht hd hi hl hs hop hall hcl
  have hreq : requestsOf (handled n.easy.trace i) = gs := by
    rw [h2, List.cons_append, ← List.singleton_append, requests_append, requests_append, requests_events, show requestsOf [opened] = [] from rfl, List.nil_append]
    exact List.append_nil gs
  obtain ⟨rs, st', ws, g1, g2, g3, g4, g5⟩ := replies_all V status_str c' limit' L' body' hL' hC' reply _ hr
  rw [hreq] at g4
  refine ⟨gs, ws, h1, h2, g4, ?_⟩
  rw [← g5]
  exact C96_client_end_partial c' L' body' hL' rs st' g1 g3 hn' hc' ht' hd' hj hl' (by rw [g2]; exact hs') hop' (by rw [g2]; exact hall') hcl'

/-! ### Examples -/

/-- The first two requests of the examples for C112, as they arrive. -/
def easyText : Bytes := ([postItem, putItem].flatMap calls).flatMap (callText exchangeRemote [])

theorem easy_proper : Chain (Proper exchangeRemote [] exchangeCfg 8192) [postItem, putItem] := by
  cases items_proper with
  | cons h1 h2 =>
    cases h2 with
    | cons h2 _ => exact .cons h1 (.last h2)

/-- What happens to a socket and to the fibers of a server or a client, when `text` arrives in three pieces. -/
def easyActs (M : Type) (text : Bytes) : List (NAct M) :=
  [.easy (.accept 100), .socket 0 .connected, .push .no, .easy (.resume 0), .socket 0 (.read (text.take 30)), .easy (.loop 0), .easy (.back 0 0), .socket 0 (.read ((text.drop 30).take 90)), .push .no,
    .socket 0 (.read (text.drop 120)), .push .no, .easy (.loop 0), .socket 0 .eof, .easy (.back 0 0), .socket 0 (.closed (b! "bye")), .push .no, .easy (.loop 0), .easy (.back 0 0), .easy (.loop 0), .easy (.back 0 0),
    .easy (.loop 0)]

/-- What happens to the socket. -/
def easyInput (text : Bytes) : List In := [.connected, .read (text.take 30), .read ((text.drop 30).take 90), .read (text.drop 120), .eof, .closed (b! "bye")]

theorem easy_sends (text : Bytes) : Sends text (easyInput text) ∧ bytes (easyInput text) = text := by
  have hb : text.take 30 ++ ((text.drop 30).take 90 ++ text.drop 120) = text := by
    rw [show text.drop 120 = (text.drop 30).drop 90 by rw [List.drop_drop], List.take_append_drop, List.take_append_drop]
  refine ⟨⟨⟨[], by simp [easyInput, bytes, hb]⟩, fun a b e => ?_⟩, by simp [easyInput, bytes, hb]⟩
  rcases a with _ | ⟨_, _ | ⟨_, _ | ⟨_, _ | ⟨_, _ | ⟨_, _ | ⟨_, a⟩⟩⟩⟩⟩⟩ <;> simp only [easyInput, List.cons_append, List.nil_append, List.cons.injEq, reduceCtorEq, false_and, and_false] at e
  · obtain ⟨rfl, rfl, rfl, rfl, -⟩ := e; simp [bytes, hb]
  · cases a <;> simp at e

/-- What the server answers on the wire. -/
def easyReplies (V : Http.Lib) : Bytes := sentFor V exchangeReason exchangeReply [opened, itemsGot[0].event, itemsGot[1].event, ended (b! "bye")]
/-- The text of it. -/
def easyRepliesText : Bytes := b! "HTTP/1.1 200 OK\r\nContent-Length: 8\r\n\r\ngot /a/bHTTP/1.1 201 Created\r\nX: 1\r\nTransfer-Encoding: chunked\r\n\r\n4\r\ndone\r\n1\r\n!\r\n0\r\n\r\n"
example (V : Http.Lib) : easyReplies V = easyRepliesText := by rfl

example : ∃ n : Net (server exchangeCfg (lineLib readRequest) fun _ => .close), Reachable n ∧ n.easy.careful = true ∧ n.todo = [] ∧ (∀ x ∈ n.easy.fibs, x.st = .done) ∧ 0 < n.easy.count ∧
    n.input 0 = easyInput easyText ∧ handled n.easy.trace 0 = [opened, itemsGot[0].event, itemsGot[1].event, ended (b! "bye")] := by
  obtain ⟨n, h1, h2⟩ := demo_of (o := run ({ easy := { careful := true } } : Net (server exchangeCfg (lineLib readRequest) fun _ => .close)) (easyActs SMsg easyText))
    (fun n => n.easy.careful && n.todo.isEmpty && n.easy.fibs.all (fun x => x.st == .done) && decide (0 < n.easy.count) && n.input 0 == easyInput easyText &&
      handled n.easy.trace 0 == [opened, itemsGot[0].event, itemsGot[1].event, ended (b! "bye")]) (by decide +kernel)
  simp only [Bool.and_eq_true, beq_iff_eq, List.all_eq_true, decide_eq_true_eq, List.isEmpty_iff] at h2
  obtain ⟨⟨⟨⟨⟨h3, h4⟩, h5⟩, h6⟩, h7⟩, h8⟩ := h2
  exact ⟨n, net_run_reachable (.init true) h1, h3, h4, h5, h6, h7, h8⟩

example : Chain (fun keep g => Suits exchangeReason exchangeCfg 8192 false keep (exchangeReply g)) (requestsOf [opened, itemsGot[0].event, itemsGot[1].event, ended (b! "bye")]) := by
  cases replies_suit with
  | cons h1 h2 =>
    cases h2 with
    | cons h2 _ => exact .cons h1 (.last h2)

example : ∃ n : Net (client exchangeCfg (lineLib readReply)), Reachable n ∧ n.easy.careful = true ∧ n.todo = [] ∧ (∀ x ∈ n.easy.fibs, x.st = .done) ∧ 0 < n.easy.count ∧
    n.input 0 = easyInput easyRepliesText ∧ handled n.easy.trace 0 =
      [EasyHttp.connected, { ty := .other, msg := some (.response ⟨200, b! "OK", [(b! "Content-Length", some (b! "8"))]⟩ (b! "got /a/b")) },
        { ty := .other, msg := some (.response ⟨201, b! "Created", [(b! "X", some (b! "1")), (b! "Transfer-Encoding", some (b! "chunked"))]⟩ (b! "done!")) }, ended (b! "bye")] := by
  obtain ⟨n, h1, h2⟩ := demo_of (o := run ({ easy := { careful := true } } : Net (client exchangeCfg (lineLib readReply))) (easyActs CMsg easyRepliesText))
    (fun n => n.easy.careful && n.todo.isEmpty && n.easy.fibs.all (fun x => x.st == .done) && decide (0 < n.easy.count) && n.input 0 == easyInput easyRepliesText &&
      handled n.easy.trace 0 == [EasyHttp.connected, { ty := .other, msg := some (.response ⟨200, b! "OK", [(b! "Content-Length", some (b! "8"))]⟩ (b! "got /a/b")) },
        { ty := .other, msg := some (.response ⟨201, b! "Created", [(b! "X", some (b! "1")), (b! "Transfer-Encoding", some (b! "chunked"))]⟩ (b! "done!")) }, ended (b! "bye")]) (by decide +kernel)
  simp only [Bool.and_eq_true, beq_iff_eq, List.all_eq_true, decide_eq_true_eq, List.isEmpty_iff] at h2
  obtain ⟨⟨⟨⟨⟨h3, h4⟩, h5⟩, h6⟩, h7⟩, h8⟩ := h2
  exact ⟨n, net_run_reachable (.init true) h1, h3, h4, h5, h6, h7, h8⟩

end Verif.Props
