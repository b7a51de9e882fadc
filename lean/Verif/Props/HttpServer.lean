import Verif.Model.HttpAgain
import Verif.Proofs.HttpServerConsume
/-! # HTTP server sessions: the order of calls (C75), the way data arrives (C76), and the delivery of requests (C77) -/
namespace Verif.Props
open Verif.HttpLib Verif.Spec Verif.HttpRequest Verif.HttpServer

/-! ### A small library, for examples -/

/-- The states of a small library. -/
inductive TinyState
  | url | name | value | end | body
deriving DecidableEq, Repr

/-- It reads requests of this form: a line with the target, lines with headers, an empty line, and a payload which ends with a
dot.  The character `!` is an error. -/
def tinyLib : Lib where
  σ := TinyState
  init := .url
  micro st b :=
    if b = chr '!' then (st, [], .bad .other)
    else match st with
      | .url => if b = chr '\n' then (.name, [], .go) else (.url, [.url [b]], .go)
      | .name => if b = chr '\n' then (.end, [], .headers (b! "POST") 0 true) else if b = chr ':' then (.value, [.value []], .go) else (.name, [.field [b]], .go)
      | .value => if b = chr '\n' then (.name, [], .go) else (.value, [.value [b]], .go)
      | .end => (.body, [], .go)
      | .body => if b = chr '.' then (.url, [], .done) else (.body, [.body [b]], .go)
  eof st := if st = .url then (st, .go) else (st, .bad .other)

/-- Whether it is behind the headers. -/
def tinyBody (st : TinyState) : Prop := st = .end ∨ st = .body

theorem tinyLib_ok : LibOk tinyLib tinyBody := by
  constructor
  case init => simp [tinyBody, tinyLib]
  case eof_head => intro st h; cases st <;> simp_all [tinyBody, tinyLib]
  case eof_body => intro st h; cases st <;> simp_all [tinyBody, tinyLib]
  case eof_bad => intro st e h; cases st <;> simp_all [tinyLib] <;> subst h <;> simp
  all_goals
    intro st b
    by_cases hb : b = chr '!'
    · cases st <;> simp [tinyLib, tinyBody, hb, eq_comm] <;> (intro e h; subst h; simp)
    · cases st <;> simp only [tinyLib, tinyBody, hb, if_false] <;> (repeat' split) <;> simp_all

/-- Generous limits. -/
def tinyCfg : Cfg := { max_header_length := 100, max_content_length := 100 }

/-- The calls which the default class gets for the given history. -/
def tinyCalls (as : List Act) : List Ev := match run (L := tinyLib) defaultApp tinyCfg {} [] as with
  | some (s, _) => s.trace
  | none => []

/-- The headers of a request for `/` of the host `h`. -/
def tinyHeaders : Headers := { method := b! "POST", raw_host := b! "h", raw_path := b! "/", headers := [(b! "Host", some (b! "h"))] }

/-! ## C75 -/

/-- C75.  Whatever arrives, in whatever pieces, and whatever the derived class does: every call of the session returns, nothing is
left in the buffer, and the calls of the derived class are in order.  PARTIAL: the four rules for requests without hosts are needed
(`loose` is true), see `C75_no_host`. -/
theorem C75_order_partial (A : App) (c : Cfg) (L : Lib) (body : L.σ → Prop) (hL : LibOk L body) (as : List Act) :
    ∃ s, run A c ({} : Sess L) [] as = some (s, []) ∧ ∃ phase, Order True s.trace phase := by
  obtain ⟨s, h1, h2⟩ := run_spec (A := A) (c := c) hL ({} : Sess L) as (inv_init hL)
  exact ⟨s, h1, h2.imp fun _ h => h.1⟩

/-- C75.  As long as no request has been answered with status 400, the calls are strictly in order: for each request the headers,
then payload, then the end with the same headers, and nothing after an error but data for another protocol. -/
theorem C75_order (A : App) (c : Cfg) (L : Lib) (body : L.σ → Prop) (hL : LibOk L body) (as : List Act) :
    ∃ s, run A c ({} : Sess L) [] as = some (s, []) ∧ ((∀ b, .error b 400 ∉ s.trace) → ∃ phase, Order False s.trace phase) := by
  obtain ⟨s, h1, h2⟩ := run_spec (A := A) (c := c) hL ({} : Sess L) as (inv_init hL)
  obtain ⟨ph, h3, -⟩ := h2
  exact ⟨s, h1, fun h => ⟨ph, order_strict h3 h⟩⟩

example : tinyCalls [.receive (b! "/\nHost:h\n\na") false, .receive (b! "b.") false]
    = [.headers tinyHeaders false, .stream (b! "a"), .stream (b! "ab"), .finish tinyHeaders (b! "ab") false] := by decide +kernel
example : tinyCalls [.receive (b! "/\nHost:h\n\na!.") false, .receive (b! "b.") false] = [.headers tinyHeaders false, .error false 400] := by decide +kernel

theorem status_table {e : Errno} (h : e ≠ .ok) (h' : e ≠ .paused) : http_status_from_error e = badStatus e := by cases e <;> first | rfl | exact absurd rfl h | exact absurd rfl h'

theorem parse_not_paused {c : Cfg} {L : Lib} {p : Parser} {st : L.σ} {data : Bytes} {eof : Bool} {r : Parser × L.σ × Bytes} (h : HttpRequest.parse c L p st data eof = .ok r) : r.1.errno ≠ .paused := by
  unfold HttpRequest.parse at h
  split at h
  · cases h
  · simp only at h
    cases h
    dsimp only
    generalize (if eof = true then _ else _ : Parser × L.σ) = q
    by_cases hq : q.1.errno = .paused
    · rw [if_pos hq]; simp
    · rw [if_neg hq]; exact hq

/-- The calls `t` have been added, and errors among them are as they should be in the state `s`. -/
def StatusOk {L : Lib} (s s' : Sess L) : Prop :=
  ∃ t, s'.trace = s.trace ++ t ∧ ∀ b n, .error b n ∈ t → (s'.p.errno ≠ .ok ∧ n = badStatus s'.p.errno) ∨ (s'.p.errno = .ok ∧ n = 400 ∧ s'.p.headers.raw_host = [])

/-- The same for calls which are no errors. -/
def NoErrors {L : Lib} (s s' : Sess L) : Prop := ∃ t, s'.trace = s.trace ++ t ∧ ∀ b n, .error b n ∉ t

theorem NoErrors.status {L : Lib} {s s' : Sess L} (h : NoErrors s s') : StatusOk s s' := by
  obtain ⟨t, h1, h2⟩ := h
  exact ⟨t, h1, fun b n hm => absurd hm (h2 b n)⟩

theorem NoErrors.then {L : Lib} {s s' s'' : Sess L} (h : NoErrors s s') (h' : StatusOk s' s'') : StatusOk s s'' := by
  obtain ⟨t, h1, h2⟩ := h
  obtain ⟨t', h3, h4⟩ := h'
  refine ⟨t ++ t', by rw [h3, h1, List.append_assoc], fun b n hm => ?_⟩
  rcases List.mem_append.mp hm with hm | hm
  · exact absurd hm (h2 b n)
  · exact h4 b n hm

theorem NoErrors.trans {L : Lib} {s s' s'' : Sess L} (h : NoErrors s s') (h' : NoErrors s' s'') : NoErrors s s'' := by
  obtain ⟨t, h1, h2⟩ := h
  obtain ⟨t', h3, h4⟩ := h'
  refine ⟨t ++ t', by rw [h3, h1, List.append_assoc], fun b n hm => ?_⟩
  rcases List.mem_append.mp hm with hm | hm
  · exact h2 b n hm
  · exact h4 b n hm

/-- What a part of an iteration does. -/
def StepOk {L : Lib} (s : Sess L) : HttpServer.Step L → Prop
  | .ret s' _ => StatusOk s s'
  | .next s' _ => NoErrors s s'

theorem afterHeaders_status {L : Lib} (s : Sess L) (r : Reply) (rest : Bytes) (eof : Bool) : StepOk s (afterHeaders s r rest eof) := by
  have h0 : ∀ s' : Sess L, s'.trace = s.trace ++ r.rejects.map (fun e => .reject e.1 e.2) → NoErrors s s' := fun s' h => ⟨_, h, fun b n hm => by simp at hm⟩
  unfold afterHeaders
  dsimp only
  split
  · exact h0 _ rfl
  · exact h0 _ rfl
  · refine NoErrors.status ⟨r.rejects.map (fun e => .reject e.1 e.2) ++ [.upgraded rest eof], ?_, fun b n hm => by simp at hm⟩
    simp [Sess.call]
  · exact (h0 _ rfl).status

theorem headersPhase_status {L : Lib} (A : App) (c : Cfg) (s : Sess L) (data : Bytes) (eof : Bool) : StepOk s (headersPhase A c s data eof) := by
  unfold headersPhase
  split
  · exact ⟨[], by simp, by simp⟩
  · rename_i hq
    unfold onHead
    split
    · exact ⟨[], by simp [Sess.fail], by simp⟩
    · rename_i r hr
      unfold parse_headers at hr
      rw [if_neg hq] at hr
      have hnp := parse_not_paused hr
      unfold afterParse
      split
      · rename_i he
        refine ⟨[.error _ _], rfl, fun b n hm => .inl ⟨he, ?_⟩⟩
        simp only [List.mem_singleton, Ev.error.injEq] at hm
        rw [hm.2, status_table he hnp]; rfl
      · rename_i he
        split
        · exact ⟨[], by simp, by simp⟩
        · dsimp only
          split
          · rename_i hh
            refine ⟨[.error _ _], rfl, fun b n hm => .inr ⟨by simpa [Sess.call] using he, ?_, hh⟩⟩
            simp only [List.mem_singleton, Ev.error.injEq] at hm
            exact hm.2
          · refine (fun h => ?_) (afterHeaders_status (({ s with st := r.2.1, p := { r.1 with headers := plainHeaders r.1.headers } } : Sess L).call (.headers (plainHeaders r.1.headers) r.1.close))
              (A.onHeaders s.trace (plainHeaders r.1.headers) r.1.close) r.2.2 eof)
            have h1 : NoErrors s (({ s with st := r.2.1, p := { r.1 with headers := plainHeaders r.1.headers } } : Sess L).call (.headers (plainHeaders r.1.headers) r.1.close)) :=
              ⟨[.headers _ _], rfl, by simp⟩
            revert h
            generalize afterHeaders _ _ _ _ = x
            cases x with
            | ret s' d => exact h1.then
            | next s' d => exact h1.trans

theorem payloadPhase_status {L : Lib} (A : App) (c : Cfg) (s : Sess L) (data : Bytes) (eof : Bool) : StepOk s (payloadPhase A c s data eof) := by
  unfold payloadPhase
  split
  · exact ⟨[], by simp, by simp⟩
  · rename_i hq
    unfold onPayload
    split
    · exact ⟨[], by simp [Sess.fail], by simp⟩
    · rename_i r hr
      unfold parse_payload at hr
      rw [if_neg hq] at hr
      split at hr
      · cases hr
      have hnp := parse_not_paused hr
      unfold afterPayload
      split
      · rename_i he
        refine ⟨[.error _ _], rfl, fun b n hm => .inl ⟨he, ?_⟩⟩
        simp only [List.mem_singleton, Ev.error.injEq] at hm
        rw [hm.2, status_table he hnp]; rfl
      · dsimp only
        split
        · exact NoErrors.status ⟨[.stream _], rfl, by simp⟩
        · exact ⟨[.stream r.1.payload, .finish r.1.headers (A.onStream s.trace r.1.payload) r.1.close], by simp [Sess.call], by simp⟩

theorem loop_status {L : Lib} (A : App) (c : Cfg) (eof : Bool) : ∀ (k : Nat) (s : Sess L) (data : Bytes) (s' : Sess L) (d : Bytes),
    HttpServer.loop A c eof k s data = some (s', d) → StatusOk s s'
  | 0, _, _, _, _, h => by cases h
  | k + 1, s, data, s', d, h => by
    unfold HttpServer.loop at h
    split at h
    · cases h; exact NoErrors.status ⟨[.upgraded _ _], rfl, by simp⟩
    split at h
    · cases h; exact ⟨[], by simp, by simp⟩
    have h1 := headersPhase_status A c s data eof
    split at h
    · rename_i e; rw [e] at h1; cases h; exact h1
    · rename_i s1 d1 e
      rw [e] at h1
      have h2 := payloadPhase_status A c s1 d1 eof
      split at h
      · rename_i e; rw [e] at h2; cases h; exact h1.then h2
      · rename_i s2 d2 e
        rw [e] at h2
        have h4 : NoErrors s s2 := NoErrors.trans h1 h2
        exact NoErrors.then (s' := { s2 with p := next_message s2.p }) h4 (loop_status A c eof k _ _ _ _ h)

/-- C75: a bad request is reported with status 405 if its method is bad, 411 if its transfer encoding is, 505 if its version is, and with 400 in all other cases; and one that has no host, with 400. -/
theorem C75_status {L : Lib} (A : App) (c : Cfg) (s s' : Sess L) (buf data rest : Bytes) (eof : Bool) (h : HttpServer.step A c s buf (.receive data eof) = some (s', rest)) :
    ∃ t, s'.trace = s.trace ++ t ∧ ∀ b n, .error b n ∈ t → (s'.p.errno ≠ .ok ∧ n = badStatus s'.p.errno) ∨ (s'.p.errno = .ok ∧ n = 400 ∧ s'.p.headers.raw_host = []) := by
  simp only [HttpServer.step] at h
  split at h
  · cases h; exact ⟨[], by simp, by simp⟩
  unfold HttpServer.do_on_tcp_stream at h
  split at h
  · cases h; exact NoErrors.status ⟨[.upgraded _ _], rfl, by simp⟩
  · exact loop_status A c eof _ _ _ _ _ h

/-- What `Order False` means for errors: after an error, there is nothing but data for another protocol. -/
theorem C75_after_error {t u v : List Ev} {ph : Phase} {b : Bool} {n : Nat} (h : Order False t ph) (ht : t = u ++ .error b n :: v) :
    ∀ e ∈ v, ∃ d f, e = .upgraded d f := (order_error h u v b n ht).2

/-- C75 is violated: when a request without a host has been rejected and its payload comes later, then the derived class gets the
request nevertheless, after the error. -/
theorem C75_no_host : ∃ (L : Lib) (body : L.σ → Prop) (s : Sess L) (h : Headers), LibOk L body ∧
    run defaultApp tinyCfg ({} : Sess L) [] [.receive (b! "/\nHost:\n\n") false, .receive (b! "\na.") false] = some (s, []) ∧
    s.trace = [.error false 400, .stream (b! "a"), .finish h (b! "a") false] ∧ ∀ phase, ¬ Order False s.trace phase := by
  refine ⟨tinyLib, tinyBody, _, { method := b! "POST", raw_path := b! "/", headers := [(b! "Host", some [])] }, tinyLib_ok, rfl, by decide +kernel, ?_⟩
  intro phase ho
  have := C75_after_error (u := []) (v := [.stream (b! "a"), .finish { method := b! "POST", raw_path := b! "/", headers := [(b! "Host", some [])] } (b! "a") false]) (b := false) (n := 400) ho
    (by decide +kernel) (.stream (b! "a")) (by simp)
  simp at this

/-- C75 is violated: the default class reports a request to a proxy as an error, and then it gets the request nevertheless. -/
theorem C75_proxy : ∃ h, tinyCalls [.receive (b! "http://x/\nHost:h\n\na.") false]
    = [.headers h false, .reject false 403, .stream (b! "a"), .finish h (b! "a") false] :=
  ⟨{ method := b! "POST", is_proxy := true, port := 80, raw_host := b! "x", raw_path := b! "/", headers := [(b! "Host", some (b! "h"))] }, by decide +kernel⟩

/-- The calls which the default class gets for reads, if payloads are limited to three bytes, and for which reads there has been an exception. -/
def limitedCalls (reads : List (Bytes × Bool)) : Option (List Ev × List Bool) := (readAll (L := tinyLib) defaultApp { max_header_length := 100, max_content_length := 3 } {} reads).map fun r => (r.1.trace, r.2)

example : limitedCalls [(b! "/\nHost:h\n\nabc", false), (b! ".", false)]
    = some ([.headers tinyHeaders false, .stream (b! "abc"), .stream (b! "abc"), .finish tinyHeaders (b! "abc") false], [false, false]) := by decide +kernel

/-- C75 is violated: for a payload which is too long an exception is thrown, and the socket is shut down; but data that have been received before that are still read, and so the request is delivered,
without the bytes of that read from the exception on. -/
theorem C75_limit : limitedCalls [(b! "/\nHost:h\n\nab", false), (b! "cdef", false), (b! ".", false)]
    = some ([.headers tinyHeaders false, .stream (b! "ab"), .stream (b! "abc"), .finish tinyHeaders (b! "abc") false], [false, true, false]) := by decide +kernel

/-! ## C76 -/

/-- C76.  The calls do not depend on how the network has cut the stream into pieces: for the same bytes there are the same
requests, with the same payloads, up to the first error; if there is no error, then there are the same bytes for another protocol,
and the session ends in the same way.  PARTIAL: for a derived class that consumes the payload itself, or switches to another protocol
before the end of the request (see `C76_switch`), and for what happens after errors (see `C75_no_host`), there is no claim. -/
theorem C76_pieces_partial (A : App) (hA : Plain A) (c : Cfg) (L : Lib) (body : L.σ → Prop) (hL : LibOk L body) (l l' : List Bytes) (eof : Bool)
    (h : l.flatten = l'.flatten) :
    ∃ s s', run A c ({} : Sess L) [] (arrival l eof) = some (s, []) ∧ run A c ({} : Sess L) [] (arrival l' eof) = some (s', []) ∧
      upToError (requests s.trace) = upToError (requests s'.trace) ∧ (Broken s.trace ↔ Broken s'.trace) ∧
      (¬ Broken s.trace → requests s.trace = requests s'.trace ∧ tunnel s.trace = tunnel s'.trace ∧ s.failed = s'.failed) := by
  obtain ⟨s, s', h1, h2, h3⟩ := run_arrival hA (c := c) hL l l' eof h
  have hb : ∀ {t}, Broken (requests t) ↔ Broken t := by
    intro t
    simp [Broken, requests]
  refine ⟨s, s', h1, h2, ?_⟩
  rcases h3 with h3 | ⟨g1, g2, g3⟩
  · exact ⟨by rw [h3.req], by rw [← hb (t := s.trace), ← hb (t := s'.trace), h3.req], fun _ => ⟨h3.req, h3.tun, h3.failed⟩⟩
  · exact ⟨g3, ⟨fun _ => hb.mp g2, fun _ => hb.mp g1⟩, fun hn => absurd (hb.mp g1) hn⟩

example : Plain defaultApp := ⟨fun _ _ => rfl, fun _ _ _ _ _ => rfl, fun _ _ _ _ _ _ => rfl, fun _ h _ => by simp only [defaultApp, default_on_headers]; split <;> rfl⟩
example : requests (tinyCalls (arrival [b! "/\nHost:h\n", b! "\na", b! "b./\nHost:", b! "h\n\n."] true))
    = [.headers tinyHeaders false, .finish tinyHeaders (b! "ab") false, .headers tinyHeaders false, .finish tinyHeaders [] false] := by decide +kernel

/-- A class that has sent a response with status 101 when it returns from `do_on_http_request_headers()`, as WebSocket sessions
do. -/
def switchApp : App := { defaultApp with onHeaders := fun _ _ _ => { switched := true } }

/-- C76 is violated: the payload of a request that has been answered with status 101 at once is part of the request if it comes
together with the headers, and it is data for the new protocol if it comes later. -/
theorem C76_switch : ∃ (L : Lib) (body : L.σ → Prop) (s s' : Sess L), LibOk L body ∧
    run switchApp tinyCfg ({} : Sess L) [] (arrival [b! "/\nHost:h\n\na.b"] false) = some (s, []) ∧
    run switchApp tinyCfg ({} : Sess L) [] (arrival [b! "/\nHost:h\n\n", b! "a.b"] false) = some (s', []) ∧
    tunnel s.trace = b! "b" ∧ tunnel s'.trace = b! "a.b" :=
  ⟨tinyLib, tinyBody, _, _, tinyLib_ok, rfl, rfl, by decide +kernel, by decide +kernel⟩

/-- A class that makes a tunnel for every request. -/
def tunnelApp : App := { defaultApp with onHeaders := fun _ _ _ => { type := .connect } }

/-- C76 is violated: the line break that ends the head of a request is passed on through the tunnel, in front of its data. -/
theorem C76_tunnel : ∃ (L : Lib) (body : L.σ → Prop) (s : Sess L), LibOk L body ∧
    run tunnelApp tinyCfg ({} : Sess L) [] (arrival [b! "/\nHost:h\n\n", b! "data"] false) = some (s, []) ∧ tunnel s.trace = b! "\ndata" :=
  ⟨tinyLib, tinyBody, _, tinyLib_ok, rfl, by decide +kernel⟩

/-! ## C77 -/

/-- C77.  Good requests that arrive one after another, in whatever pieces, are all delivered, in order, each once, with their headers and
payloads, and nothing else is; also if the stream ends there.  It makes no difference how much of the payloads the derived class consumes while they arrive: what
it has consumed, and what it has got at the end, make up the whole payload. -/
theorem C77_delivery (A : App) (switch : Nat → Bool) (hA : Takes A switch) (c : Cfg) (L : Lib) (body : L.σ → Prop) (hL : LibOk L body) (rs : List Request) (hs : ∀ k < rs.length, switch k = false)
    (st : L.σ) (hr : Conversation L c L.init rs st) (eof : Bool) (he : eof = true → (L.eof st).2 = .go) (l : List Bytes) (hl : l.flatten = rs.flatMap Request.wire) :
    ∃ s, run A c ({} : Sess L) [] (arrival l eof) = some (s, []) ∧ s.failed = none ∧ observed A [] [] s.trace = rs.flatMap Request.calls ∧ tunnel s.trace = [] :=
  consume hA hL _ (plain_conversation hL switch rs hs st hr eof he l hl)

/-- C77.  When a request has been answered with status 101 at its end, all bytes behind it belong to another protocol, and are delivered in order. -/
theorem C77_switch (A : App) (switch : Nat → Bool) (hA : Takes A switch) (c : Cfg) (L : Lib) (body : L.σ → Prop) (hL : LibOk L body) (rs : List Request) (r : Request)
    (hs : ∀ k < rs.length, switch k = false) (hon : switch rs.length = true) (st st' : L.σ) (hr : Conversation L c L.init rs st) (hg : r.Good L c st st') (t : Bytes) (eof : Bool)
    (l : List Bytes) (hl : l.flatten = rs.flatMap Request.wire ++ r.wire ++ t) :
    ∃ s, run A c ({} : Sess L) [] (arrival l eof) = some (s, []) ∧ s.failed = none ∧ observed A [] [] s.trace = rs.flatMap Request.calls ++ r.calls ∧ tunnel s.trace = t :=
  consume hA hL _ (plain_switch hL switch rs r hs hon st st' hr hg t eof l hl)

/-- A class that takes every request, also those to proxies, consumes payloads as they arrive, except for the last byte, and switches to another protocol
after the request with the number 1. -/
def eatingApp : App where
  onHeaders := fun _ _ _ => {}
  onStream := fun _ b => b.drop (b.length - 1)
  onFinish := fun t _ _ _ => finished t == 1

/-- A small request. -/
def tinyRequest : Request where
  wire := b! "/\nHost:h\n\nab."
  url := [b! "/"]
  fields := [([b! "H", b! "o", b! "s", b! "t"], [[], b! "h"])]
  body := [b! "a", b! "b"]
  method := b! "POST"
  keep := true
  headers := tinyHeaders

theorem tiny_conversation : Conversation tinyLib tinyCfg tinyLib.init [tinyRequest, tinyRequest] TinyState.url := by
  have h : tinyRequest.Good tinyLib tinyCfg TinyState.url TinyState.url := by
    refine ⟨?_, by decide, by decide, by decide, by decide, by decide +kernel, by decide, by decide⟩
    exact ⟨b! "/\nHost:h\n", chr '\n', b! "ab.", _, [], .name, .end, 0, b! "\nab", chr '.', _, [], .body, by decide, by decide, emits_of (by rfl), by rfl, by decide +kernel, emits_of (by rfl), by rfl, by decide +kernel⟩
  exact .cons h (.cons h (.nil _))
example : Takes eatingApp (· == 1) := ⟨fun _ _ => List.drop_suffix _ _, fun _ _ _ => rfl, fun _ _ _ _ => rfl⟩
example : (tinyLib.eof TinyState.url).2 = .go := rfl
/-- The calls which this class gets. -/
def eatingCalls (as : List Act) : List Ev := match run (L := tinyLib) eatingApp tinyCfg {} [] as with
  | some (s, _) => s.trace
  | none => []
example : eatingCalls (arrival [b! "/\nHost:h\n\nabc", b! "d./\nHost:h\n\nx.da", b! "ta"] false)
    = [.headers tinyHeaders false, .stream (b! "abc"), .stream (b! "cd"), .finish tinyHeaders (b! "d") false, .headers tinyHeaders false, .stream (b! "x"), .finish tinyHeaders (b! "x") false,
      .upgraded (b! "da") false, .upgraded (b! "ta") false] := by decide +kernel
example : observed eatingApp [] [] (eatingCalls (arrival [b! "/\nHost:h\n\nabc", b! "d."] true)) = [.headers tinyHeaders false, .finish tinyHeaders (b! "abcd") false] := by decide +kernel
example : tinyRequest.calls = [.headers tinyHeaders false, .finish tinyHeaders (b! "ab") false] := by decide +kernel

end Verif.Props
