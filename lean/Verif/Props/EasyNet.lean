import Verif.Props.Easy
import Verif.Props.HttpServer
import Verif.Props.HttpClient
import Verif.Proofs.EasyHttp
import Verif.Proofs.EasyHttpClient
import Verif.Model.EasyStream
/-! # C94, C95, C96: from sockets to callbacks, in easy servers and clients -/
namespace Verif.Props
open Verif.Easy (Event Ev Sys Fiber Ty arrivals handled received upToClose Closed Lost)
open Verif.EasyNet
open Verif.EasyHttp (SMsg opened asked ended server)
open Verif.Spec (Request LibOk Conversation)

section
variable {M : Type} [DecidableEq M] {C : Class M}

/-! ## C94 -/

/-- C94.  At any time, what the callback has been called for is what the session makes of what has happened to its socket, in the same order, from the first thing on, without a hole; there is nothing
else, and nothing behind a closure.  PARTIAL: only if no object is created at an address for which a fiber has not returned, see `C39_reuse`. -/
theorem C94_prefix_partial {n : Net C} (hn : Reachable n) (hc : n.easy.careful = true) (i : Nat) :
    ∃ x evs, outputs C C.init (n.input i) = some (x, evs) ∧ handled n.easy.trace i <+: evs ∧ ∀ pre e post, handled n.easy.trace i = pre ++ e :: post → e.ty = .close → post = [] := by
  have h := ninv hn hc
  refine ⟨_, _, h.out i, ?_, (C39_order_partial h.easy hc i).2⟩
  exact ((C39_order_partial h.easy hc i).1.trans (h.noted.pre i)).trans ⟨_, rfl⟩

/-- C94.  When the network thread has nothing left to do and all fibers have returned, the callback has been called for everything that the session makes of what has happened to its socket, up to a
closure, unless memory has run out or the server has been stopped.  PARTIAL: see `C94_prefix_partial`. -/
theorem C94_delivered_partial {n : Net C} (hn : Reachable n) (hc : n.easy.careful = true) (ht : n.todo = []) (hd : ∀ x ∈ n.easy.fibs, x.st = .done) {i : Nat} (hi : i < n.easy.count) (hl : ¬ Lost n.easy.trace i) :
    ∃ x evs, outputs C C.init (n.input i) = some (x, evs) ∧ handled n.easy.trace i = upToClose evs := by
  have h := ninv hn hc
  have ho := h.out i
  rw [ht, ite_self, List.append_nil] at ho
  refine ⟨_, _, ho, ?_⟩
  have h1 := C39_delivered_partial h.easy hc hd hi hl
  rcases (Easy.inv h.easy hc).compl i hi with ⟨q, hq, hs⟩ | hcl | h2
  · rw [h1, h.noted.all i hi ⟨q, hq, hs⟩]
  · obtain ⟨e, he, hec⟩ := hcl
    have hp := (C39_order_partial h.easy hc i).1
    rw [h1]
    exact upToClose_prefix (h.noted.pre i) ⟨e, hp.subset he, hec⟩
  · exact absurd h2 hl

end

theorem tcp_outputs (h : List In) : outputs EasyStream.tcp () h = some ((), h.map EasyStream.event) := by
  induction h with
  | nil => rfl
  | cons x t ih => simp [outputs, EasyStream.tcp] at ih ⊢; rw [ih]

theorem tcp_bytes (h : List In) : ((h.map EasyStream.event).filter (·.ty = .data)).flatMap (·.data) = bytes h := by
  induction h with
  | nil => rfl
  | cons x t ih => cases x <;> simp_all [EasyStream.event, bytes]

theorem upToClose_ordered (h : List In) (ho : Ordered h) : upToClose (h.map EasyStream.event) = h.map EasyStream.event := by
  induction h using snocInd with
  | nil => rfl
  | snoc h i ih =>
    obtain ⟨h1, h2⟩ := EasyHttp.ordered_pre ho
    have hn : h.any (·.isClosed) = false := by
      cases i <;> simp only [admits, List.isEmpty_iff, Bool.and_eq_true, Bool.not_eq_true'] at h2
      · rw [h2]; rfl
      · exact h2.2
      · exact h2.2
      · exact h2
    have hne : ∀ e ∈ h.map EasyStream.event, e.ty ≠ .close := by
      rw [List.any_eq_false] at hn
      intro e he
      obtain ⟨x, hx, rfl⟩ := List.mem_map.mp he
      have := hn x hx
      cases x <;> simp_all [EasyStream.event, In.isClosed]
    have key : ∀ (a : List (Event Bool)) (b : Event Bool), (∀ e ∈ a, e.ty ≠ .close) → upToClose (a ++ [b]) = a ++ [b] := by
      intro a b
      induction a with
      | nil => intro _; simp only [List.nil_append, upToClose]; split <;> rfl
      | cons x t ih => intro hx; simp only [List.cons_append, upToClose, if_neg (hx x (by simp)), ih (fun e he => hx e (by simp [he]))]
    rw [List.map_append]
    exact key _ _ hne

/-- C94.  For streams: the data for which the callback of a session has been called are the bytes that have been read from its socket, in order, from the first byte on, and without a hole.
PARTIAL: see `C94_prefix_partial`. -/
theorem C94_stream_partial {n : Net EasyStream.tcp} (hn : Reachable n) (hc : n.easy.careful = true) (i : Nat) : received n.easy.trace i <+: bytes (n.input i) := by
  obtain ⟨x, evs, h1, ⟨r, hr⟩, -⟩ := C94_prefix_partial hn hc i
  have h2 := tcp_outputs (n.input i)
  rw [show (EasyStream.tcp).init = () from rfl, h2] at h1
  replace h1 := (Prod.mk.inj (Option.some.inj h1)).2
  rw [← tcp_bytes, h1, ← hr, List.filter_append, List.flatMap_append]
  exact ⟨_, rfl⟩

/-- C94.  For streams, at the end: the callback of a session has got the opening, every byte that has been read from the socket, in order, the end of the stream where it has been seen, and the
closure, each once.  PARTIAL: see `C94_prefix_partial`. -/
theorem C94_stream_end_partial {n : Net EasyStream.tcp} (hn : Reachable n) (hc : n.easy.careful = true) (ht : n.todo = []) (hd : ∀ x ∈ n.easy.fibs, x.st = .done) {i : Nat} (hi : i < n.easy.count)
    (hl : ¬ Lost n.easy.trace i) : handled n.easy.trace i = (n.input i).map shown ∧ received n.easy.trace i = bytes (n.input i) := by
  obtain ⟨x, evs, h1, h3⟩ := C94_delivered_partial hn hc ht hd hi hl
  have h2 := tcp_outputs (n.input i)
  rw [show (EasyStream.tcp).init = () from rfl, h2] at h1
  replace h1 := (Prod.mk.inj (Option.some.inj h1)).2
  rw [← h1, upToClose_ordered _ ((ninv hn hc).ordered i)] at h3
  refine ⟨?_, by unfold received; rw [h3]; exact tcp_bytes _⟩
  rw [h3]
  refine List.map_congr_left fun x _ => ?_
  cases x <;> rfl

theorem net_run_reachable {M : Type} [DecidableEq M] {C : Class M} {n n' : Net C} (h : Reachable n) {as : List (NAct M)} (hr : run n as = some n') : Reachable n' := by
  induction as generalizing n with
  | nil => cases hr; exact h
  | cons a t ih =>
    simp only [run] at hr
    split at hr
    · cases hr
    · rename_i m hm; exact ih (.step h hm) hr

/-- Data arrive in two parts while the callback is running. -/
def netDemo : List (NAct Bool) :=
  [.easy (.accept 100), .socket 0 .connected, .push .no, .easy (.resume 0), .easy (.loop 0), .socket 0 (.read [1, 2]), .easy (.back 0 0), .push .no, .socket 0 (.read [3]), .push .no, .socket 0 .eof, .push .no,
    .socket 0 (.closed (b! "bye")), .easy (.loop 0), .push .no, .easy (.back 0 1), .easy (.loop 0), .easy (.back 0 2), .easy (.loop 0), .easy (.back 0 0), .easy (.loop 0), .easy (.back 0 0), .easy (.loop 0)]

example : ∃ n : Net EasyStream.tcp, Reachable n ∧ n.easy.careful = true ∧ n.todo = [] ∧ (∀ x ∈ n.easy.fibs, x.st = .done) ∧ 0 < n.easy.count ∧ n.easy.trace.contains .stopped = false ∧
    received n.easy.trace 0 = [1, 2, 3] ∧ (handled n.easy.trace 0).length = 5 := by
  refine ⟨_, net_run_reachable (.init true) (show run _ netDemo = some _ from rfl), rfl, rfl, ?_, ?_, ?_, ?_, ?_⟩ <;> decide +kernel

/-! ## C95 -/

theorem closed_mem {M : Type} {h : List In} {e : Event M} (he : e ∈ EasyHttp.closes h) : ∃ r, .closed r ∈ h ∧ e = ended r := by
  unfold EasyHttp.closes at he
  obtain ⟨x, hx, h2⟩ := List.mem_flatMap.mp he
  cases x <;> simp at h2
  exact ⟨_, hx, h2⟩

theorem closes_ordered {M : Type} {h : List In} (ho : Ordered h) {r : Bytes} (hr : .closed r ∈ h) : EasyHttp.closes (M := M) h = [ended r] := by
  obtain ⟨a, b, rfl⟩ := List.append_of_mem hr
  have h1 := ho a (.closed r) b rfl
  simp only [admits, Bool.not_eq_true'] at h1
  have h2 : b = [] := by
    cases b with
    | nil => rfl
    | cons y t =>
      have := ho (a ++ [.closed r]) y t (by simp)
      cases y <;> simp [admits, In.isClosed] at this
  subst h2
  have := EasyHttp.closes_nil (M := M) h1
  unfold EasyHttp.closes at this ⊢
  rw [List.flatMap_append, this]; rfl

/-- Nothing, or the closure of the socket. -/
theorem closes_cases {M : Type} {h : List In} (ho : Ordered h) : EasyHttp.closes (M := M) h = [] ∨ ∃ reason, .closed reason ∈ h ∧ EasyHttp.closes (M := M) h = [ended reason] := by
  by_cases hany : ∃ r, .closed r ∈ h
  · obtain ⟨r, hr⟩ := hany; exact .inr ⟨r, hr, closes_ordered ho hr⟩
  · left
    rw [EasyHttp.closes_nil]
    rw [List.any_eq_false]; intro y hy; cases y with
    | closed r => exact absurd ⟨r, hy⟩ hany
    | _ => simp [In.isClosed]

/-- Nothing arrives before the session is opened. -/
theorem unopened {h : List In} (ho : Ordered h) (hop : .connected ∉ h) (y : In) (hy : y ∈ h) : y.isClosed = true := by
  cases y with
  | connected => exact absurd hy hop
  | closed r => rfl
  | read d =>
    obtain ⟨a, b, hab⟩ := List.append_of_mem hy
    have := ho a _ b hab
    simp only [admits, Bool.and_eq_true] at this
    exact absurd (by rw [hab]; simp [List.contains_iff_mem.mp this.1.2]) hop
  | eof =>
    obtain ⟨a, b, hab⟩ := List.append_of_mem hy
    have := ho a _ b hab
    simp only [admits, Bool.and_eq_true] at this
    exact absurd (by rw [hab]; simp [List.contains_iff_mem.mp this.1]) hop

theorem upToClose_ended {M : Type} (reason : Bytes) (a : List (Event M)) (ha : ∀ e ∈ a, e.ty ≠ .close) : upToClose (a ++ [ended reason]) = a ++ [ended reason] := by
  induction a with
  | nil => rfl
  | cons x t ih => simp only [List.cons_append, upToClose, if_neg (ha x (by simp)), ih (fun e he => ha e (by simp [he]))]

/-- C95.  A client sends good requests, none of them to a proxy, one after another, which arrive in whatever pieces, and may then end the stream.  At any time, whatever the fibers and the network
thread do, the callback of `Easy_HTTP_Server` has been called for the opening of the session, then for some of the requests, from the first one on, each once, in order, with its headers and its
payload, and then for the closure of the socket, as far as it has got; unless the socket has been closed before the session has been opened.  PARTIAL: only if no object is created at an address for which a fiber has not
returned, see `C39_reuse`. -/
theorem C95_server_partial (c : HttpRequest.Cfg) (L : HttpLib.Lib) (body : L.σ → Prop) (hL : LibOk L body) (junk : List HttpServer.Ev → Ty) (rs : List Request) (st : L.σ)
    (hr : Conversation L c L.init rs st) (hx : ∀ r ∈ rs, r.headers.is_proxy = false) (he : L.eof st = (st, .go)) {n : Net (server c L junk)} (hn : Reachable n) (hc : n.easy.careful = true) (i : Nat)
    (hs : Sends (rs.flatMap Request.wire) (n.input i)) :
    ∃ k cl, (cl = [] ∨ ∃ reason, .closed reason ∈ n.input i ∧ cl = [ended reason]) ∧ (handled n.easy.trace i <+: opened :: (rs.take k).map asked ++ cl ∨ handled n.easy.trace i <+: cl) := by
  obtain ⟨x, evs, h1, h2, -⟩ := C94_prefix_partial hn hc i
  have ho := (ninv hn hc).ordered i
  obtain ⟨k, -, h3, -⟩ := EasyHttp.server_reports hL junk hr hx he _ ho hs h1
  refine ⟨k, EasyHttp.closes (n.input i), closes_cases ho, ?_⟩
  by_cases hop : .connected ∈ n.input i
  · left
    refine h2.trans ?_
    rw [h3]
    unfold EasyHttp.opens
    rw [if_pos hop]
    simp
  · right
    obtain ⟨r1, r2⟩ := EasyHttp.server_outputs hL junk _ ho h1
    have hnil : EasyHttp.serverActs (n.input i) = [] := by
      unfold EasyHttp.serverActs
      rw [List.flatMap_eq_nil_iff]
      intro y hy
      have := unopened ho hop y hy
      cases y <;> first | rfl | cases this
    rw [hnil] at r1
    cases r1
    refine h2.trans ?_
    rw [r2]
    unfold EasyHttp.opens
    rw [if_neg hop]
    exact List.prefix_refl _

/-- C95.  When all requests have arrived, the socket has been closed, the network thread has nothing left to do and all fibers have returned: the callback has been called for the opening, for every request and
for the closure, each once and in this order, unless memory has run out or the server has been stopped.  PARTIAL: see `C95_server_partial`. -/
theorem C95_server_end_partial (c : HttpRequest.Cfg) (L : HttpLib.Lib) (body : L.σ → Prop) (hL : LibOk L body) (junk : List HttpServer.Ev → Ty) (rs : List Request) (st : L.σ)
    (hr : Conversation L c L.init rs st) (hx : ∀ r ∈ rs, r.headers.is_proxy = false) (he : L.eof st = (st, .go)) {n : Net (server c L junk)} (hn : Reachable n) (hc : n.easy.careful = true)
    (ht : n.todo = []) (hd : ∀ x ∈ n.easy.fibs, x.st = .done) {i : Nat} (hi : i < n.easy.count) (hl : ¬ Lost n.easy.trace i) (hs : Sends (rs.flatMap Request.wire) (n.input i))
    (hop : .connected ∈ n.input i) (hall : bytes (n.input i) = rs.flatMap Request.wire) {reason : Bytes} (hcl : .closed reason ∈ n.input i) :
    handled n.easy.trace i = opened :: rs.map asked ++ [ended reason] := by
  obtain ⟨x, evs, h1, h2⟩ := C94_delivered_partial hn hc ht hd hi hl
  have ho := (ninv hn hc).ordered i
  obtain ⟨k, -, h3, h4⟩ := EasyHttp.server_reports hL junk hr hx he _ ho hs h1
  rw [h4 hall, List.take_length, closes_ordered ho hcl] at h3
  unfold EasyHttp.opens at h3
  rw [if_pos hop] at h3
  rw [h2, h3]
  apply upToClose_ended
  intro e he
  simp only [List.cons_append, List.nil_append, List.mem_cons, List.mem_map] at he
  rcases he with rfl | ⟨r, -, rfl⟩ <;> simp [opened, asked]

theorem demo_of {α : Type} {o : Option α} (p : α → Bool) (h : o.map p = some true) : ∃ a, o = some a ∧ p a = true := by
  cases o with
  | none => cases h
  | some a => exact ⟨a, rfl, by simpa using h⟩

/-- Two requests, the second one of which begins in the same read as the first one ends. -/
def httpNetDemo : List (NAct SMsg) :=
  [.easy (.accept 100), .socket 0 .connected, .push .no, .easy (.resume 0), .socket 0 (.read (b! "/\nHost:h\n\na")), .socket 0 (.read (b! "b./\nHost:h\n\n")), .easy (.loop 0), .push .no, .socket 0 (.read (b! "ab.")),
    .easy (.back 0 0), .push .no, .easy (.loop 0), .socket 0 .eof, .easy (.back 0 0), .socket 0 (.closed (b! "bye")), .push .no, .easy (.loop 0), .easy (.back 0 0), .easy (.loop 0), .easy (.back 0 0), .easy (.loop 0)]

example : ∃ n : Net (server tinyCfg tinyLib fun _ => .close), Reachable n ∧ n.easy.careful = true ∧ n.todo = [] ∧ (∀ x ∈ n.easy.fibs, x.st = .done) ∧ 0 < n.easy.count ∧
    n.input 0 = [.connected, .read (b! "/\nHost:h\n\na"), .read (b! "b./\nHost:h\n\n"), .read (b! "ab."), .eof, .closed (b! "bye")] ∧
    handled n.easy.trace 0 = [opened, asked tinyRequest, asked tinyRequest, ended (b! "bye")] := by
  obtain ⟨n, h1, h2⟩ := demo_of (o := run ({ easy := { careful := true } } : Net (server tinyCfg tinyLib fun _ => .close)) httpNetDemo)
    (fun n => n.easy.careful && n.todo.isEmpty && n.easy.fibs.all (fun x => x.st == .done) && decide (0 < n.easy.count) &&
      n.input 0 == [.connected, .read (b! "/\nHost:h\n\na"), .read (b! "b./\nHost:h\n\n"), .read (b! "ab."), .eof, .closed (b! "bye")] &&
      handled n.easy.trace 0 == [opened, asked tinyRequest, asked tinyRequest, ended (b! "bye")]) (by decide +kernel)
  simp only [Bool.and_eq_true, beq_iff_eq, List.all_eq_true, decide_eq_true_eq, List.isEmpty_iff] at h2
  obtain ⟨⟨⟨⟨⟨h3, h4⟩, h5⟩, h6⟩, h7⟩, h8⟩ := h2
  exact ⟨n, net_run_reachable (.init true) h1, h3, h4, h5, h6, h7, h8⟩
example : Sends ([tinyRequest, tinyRequest].flatMap Request.wire) [.connected, .read (b! "/\nHost:h\n\na"), .read (b! "b./\nHost:h\n\n"), .read (b! "ab."), .eof, .closed (b! "bye")] := by
  refine ⟨⟨[], by decide +kernel⟩, fun a b e => ?_⟩
  rcases a with _ | ⟨_, _ | ⟨_, _ | ⟨_, _ | ⟨_, _ | ⟨_, _ | ⟨_, a⟩⟩⟩⟩⟩⟩ <;> simp only [List.cons_append, List.nil_append, List.cons.injEq, reduceCtorEq, false_and, and_false] at e
  · obtain ⟨rfl, rfl, rfl, rfl, -⟩ := e; decide +kernel
  · cases a <;> simp at e

/-! ## C96 -/

open Verif.EasyHttp (CMsg answered client)
open Verif.Spec.Client (Response ReplyLib)

/-- C96.  A server sends good responses, each with the payload that its head announces, one after another, which arrive in whatever pieces, and may then end the stream.  At any time, whatever the
fibers and the network thread do, the callback of `Easy_HTTP_Client` has been called for the opening of the session, then for some of the responses, from the first one on, each once, in order, with its headers
and its payload, and then for the closure of the socket, as far as it has got; unless the socket has been closed before it has been established.  PARTIAL: only if no object is created at an
address for which a fiber has not returned, see `C39_reuse`, and not for responses to HEAD requests, see `C96_head`. -/
theorem C96_client_partial (c : HttpRequest.Cfg) (L : HttpLib.Lib) (body : L.σ → Prop) (hL : ReplyLib L body) (rs : List Response) (st : L.σ)
    (hr : Verif.Spec.Client.Conversation L c (fun _ => false) 0 L.init rs st) (he : L.eof st = (st, .go)) {n : Net (client c L)} (hn : Reachable n) (hc : n.easy.careful = true) (i : Nat)
    (hs : Sends (rs.flatMap Response.wire) (n.input i)) :
    ∃ k cl, (cl = [] ∨ ∃ reason, .closed reason ∈ n.input i ∧ cl = [ended reason]) ∧
      (handled n.easy.trace i <+: EasyHttp.connected :: (rs.take k).map answered ++ cl ∨ handled n.easy.trace i <+: cl) := by
  obtain ⟨x, evs, h1, h2, -⟩ := C94_prefix_partial hn hc i
  have ho := (ninv hn hc).ordered i
  obtain ⟨k, -, h3, -⟩ := EasyHttp.client_reports hL hr he _ ho hs h1
  refine ⟨k, EasyHttp.closes (n.input i), closes_cases ho, ?_⟩
  by_cases hop : .connected ∈ n.input i
  · left
    refine h2.trans ?_
    rw [h3]
    unfold EasyHttp.connects
    rw [if_pos hop]
    simp
  · right
    obtain ⟨r1, r2⟩ := EasyHttp.client_outputs hL _ ho h1
    have hnil : EasyHttp.clientActs (n.input i) = [] := by
      unfold EasyHttp.clientActs
      rw [List.flatMap_eq_nil_iff]
      intro y hy
      have := unopened ho hop y hy
      cases y <;> first | rfl | cases this
    rw [hnil] at r1
    cases r1
    refine h2.trans ?_
    rw [r2]
    unfold EasyHttp.connects
    rw [if_neg hop]
    exact List.prefix_refl _

/-- C96.  When all responses have arrived, the socket has been closed, the network thread has nothing left to do and all fibers have returned: the callback has been called for the opening, for every
response and for the closure, each once and in this order, unless memory has run out or the client has been stopped.  PARTIAL: see `C96_client_partial`. -/
theorem C96_client_end_partial (c : HttpRequest.Cfg) (L : HttpLib.Lib) (body : L.σ → Prop) (hL : ReplyLib L body) (rs : List Response) (st : L.σ)
    (hr : Verif.Spec.Client.Conversation L c (fun _ => false) 0 L.init rs st) (he : L.eof st = (st, .go)) {n : Net (client c L)} (hn : Reachable n) (hc : n.easy.careful = true)
    (ht : n.todo = []) (hd : ∀ x ∈ n.easy.fibs, x.st = .done) {i : Nat} (hi : i < n.easy.count) (hl : ¬ Lost n.easy.trace i) (hs : Sends (rs.flatMap Response.wire) (n.input i))
    (hop : .connected ∈ n.input i) (hall : bytes (n.input i) = rs.flatMap Response.wire) {reason : Bytes} (hcl : .closed reason ∈ n.input i) :
    handled n.easy.trace i = EasyHttp.connected :: rs.map answered ++ [ended reason] := by
  obtain ⟨x, evs, h1, h2⟩ := C94_delivered_partial hn hc ht hd hi hl
  have ho := (ninv hn hc).ordered i
  obtain ⟨k, -, h3, h4⟩ := EasyHttp.client_reports hL hr he _ ho hs h1
  rw [h4 hall, List.take_length, closes_ordered ho hcl] at h3
  unfold EasyHttp.connects at h3
  rw [if_pos hop] at h3
  rw [h2, h3]
  apply upToClose_ended
  intro e he
  simp only [List.cons_append, List.nil_append, List.mem_cons, List.mem_map] at he
  rcases he with rfl | ⟨r, -, rfl⟩ <;> simp [EasyHttp.connected, answered]

/-- Two responses, the second one of which begins in the same read as the first one ends. -/
def replyNetDemo (a b : Bytes) : List (NAct CMsg) :=
  [.easy (.accept 100), .socket 0 .connected, .push .no, .easy (.resume 0), .socket 0 (.read a), .easy (.loop 0), .easy (.back 0 0), .socket 0 (.read b), .push .no, .easy (.loop 0)]

/-- What the callback has been called for. -/
def replySeen (as : List (NAct CMsg)) : Option (List (Event CMsg)) := (run ({ easy := { careful := true } } : Net (client replyCfg replyLib)) as).map fun n => handled n.easy.trace 0

example : replySeen (replyNetDemo (b! "2OK\nA:x") (b! "\n\nab.2OK\nA")) = some [EasyHttp.connected, answered smallReply] := by decide +kernel
example : replySeen (replyNetDemo (b! "2OK\nA:x\n\n") (b! "ab.2OK\nA:x\n\nab.") ++ [.push .no, .easy (.back 0 0), .socket 0 .eof, .easy (.loop 0), .easy (.back 0 0), .socket 0 (.closed (b! "bye")), .push .no, .easy (.loop 0),
    .easy (.back 0 0), .easy (.loop 0)]) = some [EasyHttp.connected, answered smallReply, answered smallReply, ended (b! "bye")] := by decide +kernel
example : Verif.Spec.Client.Conversation replyLib replyCfg (fun _ => false) 0 replyLib.init [smallReply, smallReply] ReplyState.code :=
  .cons small_good (by decide) (.cons small_good (by decide) (.nil _ _))
example : replyLib.eof ReplyState.code = (ReplyState.code, .go) := rfl
example : Sends ([smallReply, smallReply].flatMap Response.wire) [.connected, .read (b! "2OK\nA:x"), .read (b! "\n\nab.2OK\nA")] := by
  refine ⟨⟨b! ":x\n\nab.", by decide +kernel⟩, fun a b e => ?_⟩
  rcases a with _ | ⟨_, _ | ⟨_, _ | ⟨_, a⟩⟩⟩ <;> simp at e

/-- C96 is violated: `Easy_HTTP_Client` cannot be told that a response has no payload because the request was HEAD, so the response behind it is taken for its payload. -/
theorem C96_head : Verif.Spec.Client.Conversation replyLib replyCfg (· == 0) 0 replyLib.init [emptyReply, smallReply] ReplyState.code ∧
    replySeen (replyNetDemo emptyReply.wire smallReply.wire) = some [EasyHttp.connected, { ty := .other, msg := some (.response replyHeaders (smallReply.wire.take 11)) }] :=
  ⟨.cons empty_good (by decide) (.cons small_good (by decide) (.nil _ _)), by decide +kernel⟩

end Verif.Props
