import Verif.Spec.HttpRequest
import Verif.Model.HttpServer
/-! # Specification vocabulary for HTTP server sessions -/
namespace Verif.Spec
open Verif.HttpLib Verif.HttpRequest Verif.HttpServer

/-! ### The library -/

/-- What is assumed about the library when it reads requests.  `body` tells whether it is within a message, behind the headers.
There it calls neither `on_url` nor `on_headers_complete`; elsewhere it calls neither `on_body` nor `on_message_complete`.  Its errors
are errors. -/
structure LibOk (L : Lib) (body : L.σ → Prop) : Prop where
  init : ¬ body L.init
  head_data : ∀ st b, ¬ body st → ∀ x, .body x ∉ (L.micro st b).2.1
  head_go : ∀ st b, ¬ body st → (L.micro st b).2.2 = .go → ¬ body (L.micro st b).1
  head_headers : ∀ st b m n k, ¬ body st → (L.micro st b).2.2 = .headers m n k → body (L.micro st b).1
  head_done : ∀ st b, ¬ body st → (L.micro st b).2.2 ≠ .done
  body_data : ∀ st b, body st → ∀ x, .url x ∉ (L.micro st b).2.1
  body_go : ∀ st b, body st → (L.micro st b).2.2 = .go → body (L.micro st b).1
  body_done : ∀ st b, body st → (L.micro st b).2.2 = .done → ¬ body (L.micro st b).1
  body_headers : ∀ st b m n k, body st → (L.micro st b).2.2 ≠ .headers m n k
  bad : ∀ st b e, (L.micro st b).2.2 = .bad e → e ≠ .ok ∧ e ≠ .paused
  eof_head : ∀ st, ¬ body st → (L.eof st).2 = .go ∧ ¬ body (L.eof st).1 ∨ ∃ e, (L.eof st).2 = .bad e
  eof_body : ∀ st, body st → (L.eof st).2 = .go ∧ body (L.eof st).1 ∨ (L.eof st).2 = .done ∧ ¬ body (L.eof st).1 ∨ ∃ e, (L.eof st).2 = .bad e
  eof_bad : ∀ st e, (L.eof st).2 = .bad e → e ≠ .ok ∧ e ≠ .paused

/-- The library reads `w` in state `st` without an end, with these calls, and then is in state `st'`. -/
inductive Emits (L : Lib) : L.σ → Bytes → List Data → L.σ → Prop
  | nil (st) : Emits L st [] [] st
  | cons (st b w ds st') : (L.micro st b).2.2 = .go → Emits L (L.micro st b).1 w ds st' → Emits L st (b :: w) ((L.micro st b).2.1 ++ ds) st'

/-- The library reads the message `w` in state `st`, and then is in state `st'`.  The last byte of the head is read twice, because
the parser is paused there. -/
def Reads (L : Lib) (st : L.σ) (w : Bytes) (head body : List Data) (method : Bytes) (keep : Bool) (st' : L.σ) : Prop :=
  ∃ w1 b w2 d1 d2 s1 s2 n w3 e d3 d4 s3, w = w1 ++ b :: w2 ∧ b :: w2 = w3 ++ [e] ∧
    Emits L st w1 d1 s1 ∧ L.micro s1 b = (s2, d2, .headers method n keep) ∧ head = d1 ++ d2 ∧
    Emits L s2 w3 d3 s3 ∧ L.micro s3 e = (st', d4, .done) ∧ body = d3 ++ d4

/-! ### Observations -/

/-- The calls that tell about whole requests, and errors. -/
def requests (t : List Ev) : List Ev := t.filter fun
  | .stream _ => false
  | .upgraded _ _ => false
  | _ => true

/-- The bytes that belong to another protocol. -/
def tunnel (t : List Ev) : Bytes := t.flatMap fun
  | .upgraded data _ => data
  | _ => []

/-- How many requests have been delivered. -/
def finished (t : List Ev) : Nat := t.countP fun
  | .finish _ _ _ => true
  | _ => false

/-- What the derived class has got: like `requests`, but the bytes which it has taken in calls for a part of the payload (those which it
has not left in the buffer) are put in front of those which it has got with the end of the request.  `past` has the calls before
`t`, and `acc` the bytes it has taken of the current payload. -/
def observed (A : App) (past : List Ev) (acc : Bytes) : List Ev → List Ev
  | [] => []
  | .stream b :: t => observed A (past ++ [.stream b]) (acc ++ b.take (b.length - (A.onStream past b).length)) t
  | .upgraded d e :: t => observed A (past ++ [.upgraded d e]) acc t
  | .finish h b e :: t => .finish h (acc ++ b) e :: observed A (past ++ [.finish h b e]) [] t
  | e :: t => e :: observed A (past ++ [e]) acc t

/-- What happened up to the first error, and including it. -/
def upToError : List Ev → List Ev
  | [] => []
  | .error h s :: _ => [.error h s]
  | e :: t => e :: upToError t

/-- The status that a bad request is answered with. -/
def badStatus : Errno → Nat
  | .invalidMethod => 405
  | .invalidTransferEncoding => 411
  | .invalidVersion => 505
  | _ => 400

/-- Whether an error has been reported. -/
def Broken (t : List Ev) : Prop := ∃ h s, .error h s ∈ t

/-! ### Order of calls -/

/-- Where a session is, in terms of the calls that have been made. -/
inductive Phase
  /-- between requests -/
  | idle
  /-- behind the headers of a request -/
  | within (h : Headers)
  /-- after an error -/
  | over
  /-- after the error for a request that has no host -/
  | noHost
  /-- after the first call for another protocol -/
  | other
deriving DecidableEq, Repr

/-- The lawful histories of calls: first the headers, then the payload, then the end of a request, with the same headers (there may
be additional ones behind the payload); nothing after an error; and for another protocol nothing but data.  The last four rules
are not what a user expects: they are what the code does after a request that has no host. -/
inductive Order (loose : Prop) : List Ev → Phase → Prop
  | start : Order loose [] .idle
  | headers {t} (h e) : Order loose t .idle → h.raw_host ≠ [] → Order loose (t ++ [.headers h e]) (.within h)
  | reject {t h} (b n) : Order loose t (.within h) → Order loose (t ++ [.reject b n]) (.within h)
  | stream {t h} (b) : Order loose t (.within h) → Order loose (t ++ [.stream b]) (.within h)
  | finish {t h} (hs b e) : Order loose t (.within h) → Order loose (t ++ [.finish { h with headers := hs } b e]) .idle
  | error_idle {t} (b n) : Order loose t .idle → Order loose (t ++ [.error b n]) .over
  | error_within {t h} (b n) : Order loose t (.within h) → Order loose (t ++ [.error b n]) .over
  | upgraded {t p} (d e) : Order loose t p → Order loose (t ++ [.upgraded d e]) .other
  | noHost {t} (b) : loose → Order loose t .idle → Order loose (t ++ [.error b 400]) .noHost
  | noHost_stream {t} (b) : loose → Order loose t .noHost → Order loose (t ++ [.stream b]) .noHost
  | noHost_finish {t} (h b e) : loose → h.raw_host = [] → Order loose t .noHost → Order loose (t ++ [.finish h b e]) .idle
  | noHost_error {t} (b n) : loose → Order loose t .noHost → Order loose (t ++ [.error b n]) .over

/-! ### Derived classes -/

/-- A derived class that leaves the payload in the buffer until the end of a request, whose behaviour does not depend on how the
payload has been cut into pieces, and which does not switch to another protocol before the end of a request. -/
structure Plain (A : App) : Prop where
  stream : ∀ t b, A.onStream t b = b
  headers : ∀ t t' h e, requests t = requests t' → A.onHeaders t h e = A.onHeaders t' h e
  finish : ∀ t t' h b e, requests t = requests t' → A.onFinish t h b e = A.onFinish t' h b e
  late : ∀ t h e, (A.onHeaders t h e).switched = false

/-- The arrival of data in the given pieces, with or without the end of the stream. -/
def arrival (pieces : List Bytes) (eof : Bool) : List Act := pieces.map (fun b => .receive b false) ++ if eof then [.receive [] true] else []

/-- A derived class that takes every request, and may consume payloads from the front as they arrive, as much as it likes.  `switch` tells
for each request whether it is answered with status 101 at its end. -/
structure Takes (A : App) (switch : Nat → Bool) : Prop where
  stream : ∀ t b, A.onStream t b <:+ b
  headers : ∀ t h e, A.onHeaders t h e = {}
  finish : ∀ t h b e, A.onFinish t h b e = switch (finished t)

/-! ### Requests -/

/-- A request: its text, the pieces of it which the library hands over, and what it means. -/
structure Request where
  wire : Bytes
  url : List Bytes
  fields : List (List Bytes × List Bytes)
  body : List Bytes
  method : Bytes
  keep : Bool
  headers : Headers

/-- The payload of a request, if it is to be accepted. -/
def Request.payload (r : Request) : Bytes := if r.headers.method = b! "POST" ∨ r.headers.method = b! "PUT" ∨ r.headers.method = b! "PATCH" then r.body.flatten else []

/-- The calls for a request. -/
def Request.calls (r : Request) : List Ev := [.headers r.headers !r.keep, .finish r.headers r.payload !r.keep]

/-- The library reads the request between the two states; the request is within the limits and has a host, and its target means
these headers (see C73). -/
structure Request.Good (L : Lib) (c : Cfg) (st : L.σ) (r : Request) (st' : L.σ) : Prop where
  reads : Reads L st r.wire (headCalls r.url r.fields) (r.body.map .body) r.method r.keep st'
  pieces : ∀ h ∈ r.fields, h.1 ≠ [] ∧ h.2 ≠ []
  head_size : headSize r.url r.fields ≤ c.max_header_length
  body_size : r.body.flatten.length ≤ c.max_content_length
  method_size : r.method.length < 8
  target : parse_target { method := r.method, headers := r.fields.map (fun h => (h.1.flatten, some h.2.flatten)) } r.url.flatten = .ok r.headers
  host : r.headers.raw_host ≠ []
  plain : r.headers.is_proxy = false → r.headers.is_ssl = false

/-- A message has nothing behind its head: the library stops nowhere before the last byte. -/
def EndsWithHead (L : Lib) (st : L.σ) (w : Bytes) : Prop := ∃ v b ds s1, w = v ++ [b] ∧ Emits L st v ds s1

/-- Requests one after another. -/
inductive Conversation (L : Lib) (c : Cfg) : L.σ → List Request → L.σ → Prop
  | nil (st) : Conversation L c st [] st
  | cons {st st' st''} {r rs} : r.Good L c st st' → Conversation L c st' rs st'' → Conversation L c st (r :: rs) st''

end Verif.Spec
