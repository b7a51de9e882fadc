import Verif.Model.HttpAgain
import Verif.Proofs.HttpClientConsume
import Verif.Proofs.HttpServerDelivery
/-! # Responses: how they are put together (C82); HTTP client sessions: the order of calls (C83), the way data arrives (C84), and the
delivery of responses (C85) -/
namespace Verif.Props
open Verif.HttpLib Verif.HttpResponse Verif.HttpClient Verif.Spec.Client
open Verif.Spec (LibOk Emits Regroup replyCalls replySize)
open Verif.HttpRequest (Cfg Fail)

/-! ### A small library, for examples -/

/-- The states of a small library. -/
inductive ReplyState
  | code | reason (n : Nat) | name | value | end | skipped | body
deriving DecidableEq, Repr

/-- It reads responses of this form: a digit (1 means status 101, others mean 200) and the reason on a line, lines with headers, an empty
line, and a payload that ends with a dot or with the end of the stream.  The character `!` is an error. -/
def replyLib : Lib where
  σ := ReplyState
  init := .code
  micro st b :=
    if b = chr '!' then (st, [], .bad .other)
    else match st with
      | .code => if b = chr '1' then (.reason 101, [.status 101 []], .go) else (.reason 200, [.status 200 []], .go)
      | .reason n => if b = chr '\n' then (.name, [], .go) else (.reason n, [.status n [b]], .go)
      | .name => if b = chr '\n' then (.end, [], .headers [] 0 true) else if b = chr ':' then (.value, [.value []], .go) else (.name, [.field [b]], .go)
      | .value => if b = chr '\n' then (.name, [], .go) else (.value, [.value [b]], .go)
      | .end => (.body, [], .go)
      | .skipped => (.code, [], .done)
      | .body => if b = chr '.' then (.code, [], .done) else (.body, [.body [b]], .go)
  eof st := match st with
    | .code => (.code, .go)
    | .body => (.code, .done)
    | st => (st, .bad .other)
  skip st := match st with
    | .end => .skipped
    | st => st

/-- Whether it is behind the headers. -/
def replyBody (st : ReplyState) : Prop := st = .end ∨ st = .skipped ∨ st = .body

theorem replyLib_ok : ReplyLib replyLib replyBody := by
  refine { toLibOk := ?_, body_status := ?_, skip := ?_ }
  · constructor
    case init => simp [replyBody, replyLib]
    case eof_head => intro st h; cases st <;> simp_all [replyBody, replyLib]
    case eof_body => intro st h; cases st <;> simp_all [replyBody, replyLib]
    case eof_bad => intro st e h; cases st <;> simp_all [replyLib] <;> subst h <;> simp
    all_goals
      intro st b
      by_cases hb : b = chr '!'
      · cases st <;> simp [replyLib, replyBody, hb, eq_comm] <;> (intro e h; subst h; simp)
      · cases st <;> simp only [replyLib, replyBody, hb, if_false] <;> (repeat' split) <;> simp_all
  · intro st b h n x
    by_cases hb : b = chr '!'
    · simp [replyLib, hb]
    · cases st <;> simp only [replyLib, replyBody, hb, if_false] at h ⊢ <;> (repeat' split) <;> simp_all
  · intro st h
    cases st <;> simp_all [replyLib, replyBody]

/-- Generous limits. -/
def replyCfg : Cfg := { max_header_length := 1000, max_content_length := 1000 }

/-- The calls which a class gets for the given history. -/
def replyEvents (A : App) (as : List Act) : List Ev := match run (L := replyLib) A replyCfg {} [] as with
  | some (s, _) => s.trace
  | none => []

/-- The headers of a response. -/
def replyHeaders : Headers := { status := 200, reason := b! "OK", headers := [(b! "A", some (b! "x"))] }

/-! ## C82 -/

/-- C82.  The library hands over the reason, the names and the values in pieces of any number and size (at least one for each, maybe an
empty one).  Whatever the pieces are, the parser ends up with the status, the whole reason, and exactly these headers in their order; unless
the head is larger than the limit, when there is an exception.  PARTIAL: the limit is not applied to a response without headers, see
`C82_reason_unlimited`. -/
theorem C82_assemble_partial (c : Cfg) (status : Nat) (reason : List Bytes) (hs : List (List Bytes × List Bytes)) (hr : reason ≠ []) (hh : ∀ h ∈ hs, h.1 ≠ [] ∧ h.2 ≠ []) :
    onDatas c {} (replyCalls status reason hs) = if hs ≠ [] ∧ replySize reason hs > c.max_header_length then .error .exception
      else .ok { headers := { status := status, reason := reason.flatten, headers := hs.map (fun h => (h.1.flatten, some h.2.flatten)) } } := head_all c status reason hs hr hh

example : onDatas { max_header_length := 29, max_content_length := 0 } {} (replyCalls 200 [b! "O", b! "K"] [([b! "Ho", b! "st"], [b! "x"]), ([b! "A"], [[]])])
    = .ok { headers := { status := 200, reason := b! "OK", headers := [(b! "Host", some (b! "x")), (b! "A", some [])] } } := by decide +kernel

/-- C82 is violated: without headers, reasons of all lengths are taken, whatever the limit is. -/
theorem C82_reason_unlimited (c : Cfg) (n : Nat) : ∃ reason : List Bytes, replySize reason [] > n ∧ ∃ p, onDatas c {} (replyCalls 200 reason []) = .ok p ∧ p.headers.reason.length = n :=
  ⟨[List.replicate n (chr 'a')], by simp [replySize], _, by rw [head_all c 200 _ [] (by simp) (by simp), if_neg (by simp)], by simp⟩

/-- C82.  Once the headers are complete, `parse_headers_from_stream()` takes nothing more; once the payload is complete, neither does `parse_payload_from_stream()`: what comes behind the response is
left for the next one.  The payload cannot be asked for before the headers. -/
theorem C82_complete (c : Cfg) (L : Lib) (p q : Parser) (st st' : L.σ) (data rest : Bytes) (eof : Bool) :
    (p.hresp = 0 → parse_payload c L p st data eof = .error .exception) ∧
    (parse_headers c L p st data eof = .ok (q, st', rest) → q.hresp = 1 ∨ q.hresp = 2 → ∀ more e, parse_headers c L q st' more e = .ok (q, st', more)) ∧
    (parse_payload c L p st data eof = .ok (q, st', rest) → q.hresp = 2 → ∀ more e, parse_payload c L q st' more e = .ok (q, st', more)) := by
  refine ⟨fun h => ?_, fun _ h more e => ?_, fun _ h more e => ?_⟩
  · unfold parse_payload; rw [if_neg (by omega), if_pos (by omega)]
  · unfold parse_headers; rw [if_pos (by omega)]
  · unfold parse_payload; rw [if_pos (by omega)]

example : (parse_headers replyCfg replyLib {} ReplyState.code (b! "2OK\n\nabc.xyz") false).toOption.map (fun r => (r.1.hresp, r.2.2)) = some (1, b! "\nabc.xyz") ∧
    ((parse_headers replyCfg replyLib {} ReplyState.code (b! "2OK\n\nabc.xyz") false).toOption.bind fun r => (parse_payload replyCfg replyLib r.1 r.2.1 r.2.2 false).toOption.map (fun r => (r.1.hresp, r.1.payload, r.2.2)))
      = some (2, b! "abc", b! "xyz") := by decide +kernel

/-- C82.  In any state, and for payloads too, it makes no difference where the library cuts the text into pieces: the result
is the same, and if there is a failure for one way of cutting then there is one for every other. -/
theorem C82_regroup (c : Cfg) (p : Parser) {a b : List Data} (h : Regroup a b) : (onDatas c p a).toOption = (onDatas c p b).toOption := regroup c p h

example : Regroup [.status 200 (b! "O"), .status 200 (b! "K"), .body (b! "abc")] [.status 200 (b! "OK"), .body (b! "a"), .body (b! "bc")] :=
  .trans (.status [] 200 (b! "O") (b! "K") [.body (b! "abc")]) (.symm (.body [.status 200 (b! "OK")] (b! "a") (b! "bc") []))

/-- C82.  The payload is the concatenation of its pieces, up to the limit. -/
theorem C82_payload (c : Cfg) (p : Parser) (pieces : List Bytes) (hp : p.payload.length ≤ c.max_content_length) :
    onDatas c p (pieces.map .body) = if p.payload.length + pieces.flatten.length > c.max_content_length then .error .exception
      else .ok { p with payload := p.payload ++ pieces.flatten } := payload_all c p pieces hp

example : onDatas { max_header_length := 0, max_content_length := 4 } {} [.body (b! "ab"), .body (b! "cd")] = .ok { payload := b! "abcd" } := by decide +kernel
example : onDatas { max_header_length := 0, max_content_length := 3 } {} [.body (b! "ab"), .body (b! "cd")] = .error .exception := by decide +kernel

/-! ## C83 -/

/-- C83.  Whatever arrives, in whatever pieces, and whatever the derived class does: every call of the session returns, nothing is
left in the buffer, and the calls of the derived class are in order.  PARTIAL: the library must be ready for the next message when it has
reported the end of a message at the end of the stream (`LibOk.eof_body`), see `C83_hang`. -/
theorem C83_order_partial (A : App) (c : Cfg) (L : Lib) (body : L.σ → Prop) (hL : ReplyLib L body) (as : List Act) :
    ∃ s, run A c ({} : Sess L) [] as = some (s, []) ∧ ∃ phase, Order s.trace phase := by
  obtain ⟨s, h1, h2⟩ := run_spec (A := A) (c := c) hL ({} : Sess L) as (inv_init hL)
  exact ⟨s, h1, h2.imp fun _ h => h.1⟩

example : replyEvents defaultApp [⟨b! "2OK\nA:x\n\na", false⟩, ⟨b! "b.", false⟩, ⟨[], true⟩]
    = [.headers replyHeaders, .stream (b! "a"), .stream (b! "ab"), .finish replyHeaders (b! "ab")] := by decide +kernel
example : replyEvents defaultApp [⟨b! "2OK\nA:x\n\na!.", false⟩, ⟨b! "b.", false⟩] = [.headers replyHeaders, .abort] := by decide +kernel

/-- If the library stays where it is when it has reported the end of a message at the end of the stream, then the loop does not end. -/
theorem C83_hang (A : App) (hA : ∀ t h, A.onHeaders t h = .normal) (c : Cfg) (L : Lib) (st : L.σ) (hst : L.eof st = (st, .done)) (s : Sess L)
    (hs : s.st = st) (h0 : s.p.hresp = 0) (he : s.p.errno = .ok) (ha : s.ack = false) (n : Nat) : loop A c true n s [] = none := by
  induction n generalizing s with
  | zero => rfl
  | succ n ih =>
    rw [loop_succ, if_neg (by simp [ha]), if_neg (by simp [he])]
    have hx : ∃ s', headersPhase A c s [] true = .next s' [] ∧ s'.st = st ∧ s'.p.hresp = 2 ∧ s'.p.errno = .ok ∧ s'.ack = false := by
      simp only [headersPhase, parse_headers, parse, exec, execEof, he, hs, hst, h0, onHead, afterParse, on_message_complete, hA, afterHeaders]
      exact ⟨_, rfl, rfl, rfl, rfl, ha⟩
    obtain ⟨s', e1, e2, e3, e4, e5⟩ := hx
    rw [e1]
    have hy : payloadPhase A c s' [] true = .next s' [] := by unfold payloadPhase; rw [if_pos (by omega)]
    simp only [finishIter, hy]
    exact ih _ e2 rfl e4 e5

/-- A library that does that: the small library, except that it does not leave the payload at the end of the stream. -/
def stayLib : Lib := { replyLib with eof := fun st => match st with
  | .code => (.code, .go)
  | .body => (.body, .done)
  | st => (st, .bad .other) }

/-- C83 is violated with such a library, when a response ends with the stream: the call does not return, however many iterations are
allowed. -/
theorem C83_hang_example : ∃ s, run defaultApp replyCfg ({} : Sess stayLib) [] [⟨b! "2OK\n\nab", false⟩] = some (s, []) ∧
    (∀ n, do_on_tcp_stream defaultApp replyCfg n s [] true = none) := by
  refine ⟨_, rfl, fun n => ?_⟩
  match n with
  | 0 => rfl
  | n + 1 =>
    have h : ∀ s' : Sess stayLib, s'.st = ReplyState.body → s'.p.hresp = 0 → s'.p.errno = .ok → s'.ack = false → loop defaultApp replyCfg true n s' [] = none :=
      fun s' h1 h2 h3 h4 => C83_hang defaultApp (fun _ _ => rfl) replyCfg stayLib ReplyState.body rfl s' h1 h2 h3 h4 n
    exact h _ rfl rfl rfl rfl

/-- The calls which the default class gets for reads, if payloads are limited to three bytes, and for which reads there has been an exception. -/
def limitedReplies (reads : List (Bytes × Bool)) : Option (List Ev × List Bool) := (readAll (L := replyLib) defaultApp { max_header_length := 1000, max_content_length := 3 } {} reads).map fun r => (r.1.trace, r.2)

example : limitedReplies [(b! "2OK\nA:x\n\nabc", false), (b! ".", false)]
    = some ([.headers replyHeaders, .stream (b! "abc"), .stream (b! "abc"), .finish replyHeaders (b! "abc")], [false, false]) := by decide +kernel

/-- C83 is violated: for a payload which is too long an exception is thrown, and the socket is shut down; but data that have been received before that are still read, and so the response is delivered,
without the bytes of that read from the exception on. -/
theorem C83_limit : limitedReplies [(b! "2OK\nA:x\n\nab", false), (b! "cdef", false), (b! ".", false)]
    = some ([.headers replyHeaders, .stream (b! "ab"), .stream (b! "abc"), .finish replyHeaders (b! "abc")], [false, true, false]) := by decide +kernel

/-! ## C84 -/

/-- C84.  The calls do not depend on how the network has cut the stream into pieces: for the same bytes, there are the same
responses with the same payloads, the same errors, and the same bytes for another protocol, and the session ends in the same way.  PARTIAL: for a derived
class that consumes payloads itself there is only `C85_delivery`. -/
theorem C84_pieces_partial (A : App) (hA : Plain A) (c : Cfg) (L : Lib) (body : L.σ → Prop) (hL : ReplyLib L body) (l l' : List Bytes) (eof : Bool)
    (h : l.flatten = l'.flatten) :
    ∃ s s', run A c ({} : Sess L) [] (arrival l eof) = some (s, []) ∧ run A c ({} : Sess L) [] (arrival l' eof) = some (s', []) ∧
      responses s.trace = responses s'.trace ∧ tunnel s.trace = tunnel s'.trace ∧ s.failed = s'.failed := by
  obtain ⟨s, s', h1, h2, h3⟩ := run_arrival hA (c := c) hL l l' eof h
  exact ⟨s, s', h1, h2, h3.req, h3.tun, h3.failed⟩

example : Plain defaultApp := ⟨fun _ _ => rfl, fun _ _ _ _ => rfl⟩
example : responses (replyEvents defaultApp (arrival [b! "2OK\nA:", b! "x\n\na", b! "b.2O", b! "K\nA:x\n\n"] true))
    = [.headers replyHeaders, .finish replyHeaders (b! "ab"), .headers replyHeaders, .finish replyHeaders []] := by decide +kernel
example : responses (replyEvents defaultApp (arrival [b! "2OK\nA:x\n\nab.2OK\nA:x\n\n!."] true)) = [.headers replyHeaders, .finish replyHeaders (b! "ab"), .headers replyHeaders, .abort] := by
  decide +kernel

/-- A class that has requested a tunnel. -/
def connectApp : App := { defaultApp with onHeaders := fun _ _ => .connect }

/-- C84 is violated: the line break that ends the head of the response to a request for a tunnel is taken for data from the tunnel. -/
theorem C84_tunnel : ∃ (L : Lib) (body : L.σ → Prop) (s : Sess L), ReplyLib L body ∧
    run connectApp replyCfg ({} : Sess L) [] (arrival [b! "2OK\n\n", b! "data"] false) = some (s, []) ∧ tunnel s.trace = b! "\ndata" :=
  ⟨replyLib, replyBody, _, replyLib_ok, rfl, by decide +kernel⟩

/-! ## C85 -/

/-- C85.  Good responses that arrive one after another, in whatever pieces, are all delivered, in order, each once, with their headers and
payloads, and nothing else is; also if the stream ends there.  It makes no difference how much of the payloads the derived class consumes while they arrive: what
it has consumed, and what it has got at the end, make up the whole payload. -/
theorem C85_delivery (A : App) (empty : Nat → Bool) (hA : Takes A empty) (c : Cfg) (L : Lib) (body : L.σ → Prop) (hL : ReplyLib L body) (rs : List Response) (st : L.σ)
    (hr : Conversation L c empty 0 L.init rs st) (eof : Bool) (he : eof = true → (L.eof st).2 = .go) (l : List Bytes) (hl : l.flatten = rs.flatMap Response.wire) :
    ∃ s, run A c ({} : Sess L) [] (arrival l eof) = some (s, []) ∧ s.failed = none ∧ observed A [] [] s.trace = rs.flatMap Response.calls ∧ tunnel s.trace = [] :=
  consume hA hL _ (plain_conversation hL empty rs st hr eof he l hl)

/-- C85.  The last response may end with the stream. -/
theorem C85_last (A : App) (empty : Nat → Bool) (hA : Takes A empty) (c : Cfg) (L : Lib) (body : L.σ → Prop) (hL : ReplyLib L body) (rs : List Response) (r : Response) (st st' : L.σ)
    (hr : Conversation L c empty 0 L.init rs st) (hg : r.Good L c (empty rs.length) true st st') (h1 : r.status ≠ 101) (he : (L.eof st').2 = .go) (l : List Bytes)
    (hl : l.flatten = rs.flatMap Response.wire ++ r.wire) :
    ∃ s, run A c ({} : Sess L) [] (arrival l true) = some (s, []) ∧ s.failed = none ∧ observed A [] [] s.trace = rs.flatMap Response.calls ++ r.calls ∧ tunnel s.trace = [] :=
  consume hA hL _ (plain_last hL empty rs r st st' hr hg h1 he l hl)

/-- C85.  After a response with status 101, all bytes belong to another protocol, and are delivered in order. -/
theorem C85_switch (A : App) (empty : Nat → Bool) (hA : Takes A empty) (c : Cfg) (L : Lib) (body : L.σ → Prop) (hL : ReplyLib L body) (rs : List Response) (r : Response) (st st' : L.σ)
    (hr : Conversation L c empty 0 L.init rs st) (hg : r.Good L c (empty rs.length) false st st') (h1 : r.status = 101) (t : Bytes) (eof : Bool) (l : List Bytes)
    (hl : l.flatten = rs.flatMap Response.wire ++ r.wire ++ t) :
    ∃ s, run A c ({} : Sess L) [] (arrival l eof) = some (s, []) ∧ s.failed = none ∧ observed A [] [] s.trace = rs.flatMap Response.calls ++ r.calls ∧ tunnel s.trace = t :=
  consume hA hL _ (plain_switch hL empty rs r st st' hr hg h1 t eof l hl)

/-- A class that consumes payloads as they arrive, except for the last byte, and knows that there is none for the response with the number 1. -/
def eatApp : App where
  onHeaders := fun t _ => if finished t == 1 then .empty else .normal
  onStream := fun _ b => b.drop (b.length - 1)

/-- A small response. -/
def smallReply : Response where
  wire := b! "2OK\nA:x\n\nab."
  status := 200
  reason := [[], b! "O", b! "K"]
  fields := [([b! "A"], [[], b! "x"])]
  body := [b! "a", b! "b"]
  keep := true

/-- A response without a payload. -/
def emptyReply : Response := { smallReply with wire := b! "2OK\nA:x\n\n", body := [] }

/-- A response that ends with the stream. -/
def openReply : Response := { smallReply with wire := b! "2OK\nA:x\n\nab" }

/-- A response that switches to another protocol. -/
def switchReply : Response := { wire := b! "1\n\n.", status := 101, reason := [[]], fields := [], body := [], keep := true }

example : Takes eatApp (· == 1) := ⟨fun _ _ => List.drop_suffix _ _, fun _ _ => rfl⟩
theorem small_good : smallReply.Good replyLib replyCfg false false ReplyState.code ReplyState.code := by
  refine ⟨?_, by decide, by decide, by decide, by decide⟩
  exact ⟨b! "2OK\nA:x\n", chr '\n', b! "ab.", _, [], .name, .end, [], 0, _, .body, by decide, Verif.HttpServer.emits_of (by rfl), by rfl, by decide +kernel, b! "\nab", chr '.', [], by decide, Verif.HttpServer.emits_of (by rfl), by rfl, by decide +kernel⟩
theorem empty_good : emptyReply.Good replyLib replyCfg true false ReplyState.code ReplyState.code := by
  refine ⟨?_, by decide, by decide, by decide, by decide⟩
  exact ⟨b! "2OK\nA:x\n", chr '\n', [], _, [], .name, .end, [], 0, [], .skipped, by decide, Verif.HttpServer.emits_of (by rfl), by rfl, by decide +kernel, [], chr '\n', [], by decide, Verif.HttpServer.emits_of (by rfl), by rfl, by decide +kernel⟩
example : Conversation replyLib replyCfg (· == 1) 0 replyLib.init [smallReply, emptyReply, smallReply] ReplyState.code :=
  .cons small_good (by decide) (.cons empty_good (by decide) (.cons small_good (by decide) (.nil _ _)))
example : openReply.Good replyLib replyCfg false true ReplyState.code ReplyState.code := by
  refine ⟨?_, by decide, by decide, by decide, by decide⟩
  exact ⟨b! "2OK\nA:x\n", chr '\n', b! "ab", _, [], .name, .end, [], 0, _, .body, by decide, Verif.HttpServer.emits_of (by rfl), by rfl, by decide +kernel, Verif.HttpServer.emits_of (by rfl), by rfl, by decide +kernel⟩
example : switchReply.Good replyLib replyCfg false false ReplyState.code ReplyState.code := by
  refine ⟨?_, by decide, by decide, by decide, by decide⟩
  exact ⟨b! "1\n", chr '\n', b! ".", _, [], .name, .end, [], 0, [], .body, by decide, Verif.HttpServer.emits_of (by rfl), by rfl, by decide +kernel, b! "\n", chr '.', [], by decide, Verif.HttpServer.emits_of (by rfl), by rfl, by decide +kernel⟩
example : replyEvents eatApp (arrival [b! "2OK\nA:x\n\nabcd", b! "e.2OK\nA:x\n\n"] false)
    = [.headers replyHeaders, .stream (b! "abcd"), .stream (b! "de"), .finish replyHeaders (b! "e"), .headers replyHeaders, .stream [], .finish replyHeaders []] := by decide +kernel
example : observed eatApp [] [] (replyEvents eatApp (arrival [b! "2OK\nA:x\n\nabcd", b! "e.2OK\nA:x\n\n"] false))
    = [.headers replyHeaders, .finish replyHeaders (b! "abcde"), .headers replyHeaders, .finish replyHeaders []] := by decide +kernel
example : responses (replyEvents defaultApp (arrival [b! "1\n\n.da", b! "ta"] false)) = [.headers { status := 101 }, .finish { status := 101 } []]
    ∧ tunnel (replyEvents defaultApp (arrival [b! "1\n\n.da", b! "ta"] false)) = b! "data" := by decide +kernel

end Verif.Props
