import Verif.Spec.HttpRequest
import Verif.Spec.HttpServer
import Verif.Model.HttpClient
/-! # Specification vocabulary for HTTP responses and client sessions -/
namespace Verif.Spec
open Verif.HttpLib
open Verif.HttpRequest (Cfg)

/-- The callbacks for a response head whose reason, names and values come in the given pieces. -/
def replyCalls (status : Nat) (reason : List Bytes) (hs : List (List Bytes × List Bytes)) : List Data :=
  reason.map (.status status) ++ hs.flatMap (fun h => h.1.map .field ++ h.2.map .value)

/-- The size of a response head: 12 bytes for the version and the status, the reason, and the name and value of each header with
`": "` and a line break. -/
def replySize (reason : List Bytes) (hs : List (List Bytes × List Bytes)) : Nat :=
  12 + reason.flatten.length + (hs.map (fun h => 4 + h.1.flatten.length + h.2.flatten.length)).sum

namespace Client
open Verif.HttpResponse Verif.HttpClient

/-- What is assumed about the library when it reads responses: in addition to `LibOk`, behind the headers it does not call `on_status`,
and to be told that there is no payload does not take it out of the message. -/
structure ReplyLib (L : Lib) (body : L.σ → Prop) : Prop extends LibOk L body where
  body_status : ∀ st b, body st → ∀ n x, .status n x ∉ (L.micro st b).2.1
  skip : ∀ st, body st → body (L.skip st)

/-! ### Observations -/

/-- The calls that tell about whole responses, and errors. -/
def responses (t : List Ev) : List Ev := t.filter fun
  | .stream _ => false
  | .upgraded _ _ => false
  | _ => true

/-- The bytes that belong to another protocol. -/
def tunnel (t : List Ev) : Bytes := t.flatMap fun
  | .upgraded data _ => data
  | _ => []

/-- How many responses have been delivered. -/
def finished (t : List Ev) : Nat := t.countP fun
  | .finish _ _ => true
  | _ => false

/-- What the derived class has got: like `responses`, but the bytes which it has taken in calls for a part of the payload (those which it
has not left in the buffer) are put in front of those which it has got with the end of the response.  `past` has the calls before
`t`, and `acc` the bytes it has taken of the current payload. -/
def observed (A : App) (past : List Ev) (acc : Bytes) : List Ev → List Ev
  | [] => []
  | .stream b :: t => observed A (past ++ [.stream b]) (acc ++ b.take (b.length - (A.onStream past b).length)) t
  | .upgraded d e :: t => observed A (past ++ [.upgraded d e]) acc t
  | .finish h b :: t => .finish h (acc ++ b) :: observed A (past ++ [.finish h b]) [] t
  | e :: t => e :: observed A (past ++ [e]) acc t

/-! ### Order of calls -/

/-- Where a session is, in terms of the calls that have been made. -/
inductive Phase
  /-- between responses -/
  | idle
  /-- the headers of a response have come -/
  | fresh (h : Headers)
  /-- within the payload of a response -/
  | within (h : Headers)
  /-- after an error -/
  | over
  /-- after a response with status 101 -/
  | switched
  /-- after the first call for another protocol -/
  | other
deriving DecidableEq, Repr

/-- The lawful histories of calls: first the headers, then the payload, then the end of a response, with the same status and headers
(there may be additional ones behind the payload), perhaps followed by closing the connection; nothing after an error; and nothing but data
for another protocol after a response with status 101, or when the headers have been answered so. -/
inductive Order : List Ev → Phase → Prop
  | start : Order [] .idle
  | headers {t} (h) : Order t .idle → Order (t ++ [.headers h]) (.fresh h)
  | payload {t h} (b) : Order t (.fresh h) → Order (t ++ [.stream b]) (.within h)
  | more {t h} (b) : Order t (.within h) → Order (t ++ [.stream b]) (.within h)
  | finish {t h} (hs b) (close : Bool) : Order t (.within h) →
      Order (t ++ .finish { h with headers := hs } b :: (if close then [.shut] else [])) (if h.status = 101 then .switched else .idle)
  | abort_idle {t} : Order t .idle → Order (t ++ [.abort]) .over
  | abort_fresh {t h} : Order t (.fresh h) → Order (t ++ [.abort]) .over
  | abort_within {t h} : Order t (.within h) → Order (t ++ [.abort]) .over
  | connect {t h} (d e) : Order t (.fresh h) → Order (t ++ [.upgraded d e]) .other
  | switch {t} (d e) : Order t .switched → Order (t ++ [.upgraded d e]) .other
  | data {t} (d e) : Order t .other → Order (t ++ [.upgraded d e]) .other

/-! ### Derived classes -/

/-- A derived class that leaves the payload in the buffer until the end of a response, and whose behaviour does not depend on how the payload
has been cut into pieces. -/
structure Plain (A : App) : Prop where
  stream : ∀ t b, A.onStream t b = b
  headers : ∀ t t' h, responses t = responses t' → A.onHeaders t h = A.onHeaders t' h

/-- A derived class that takes every response: it knows for each one whether there is a payload, and may consume payloads from the
front as they arrive, as much as it likes. -/
structure Takes (A : App) (empty : Nat → Bool) : Prop where
  stream : ∀ t b, A.onStream t b <:+ b
  headers : ∀ t h, A.onHeaders t h = if empty (finished t) then .empty else .normal

/-- The arrival of data in the given pieces, with or without the end of the stream. -/
def arrival (pieces : List Bytes) (eof : Bool) : List Act := pieces.map (⟨·, false⟩) ++ if eof then [⟨[], true⟩] else []

/-! ### Responses -/

/-- A response: its text, the pieces of it which the library hands over, and whether the connection is kept. -/
structure Response where
  wire : Bytes
  status : Nat
  reason : List Bytes
  fields : List (List Bytes × List Bytes)
  body : List Bytes
  keep : Bool

/-- What it means. -/
def Response.headers (r : Response) : Headers :=
  { status := r.status, reason := r.reason.flatten, headers := r.fields.map (fun h => (h.1.flatten, some h.2.flatten)) }

/-- The calls for a response. -/
def Response.calls (r : Response) : List Ev := [.headers r.headers, .finish r.headers r.body.flatten] ++ if r.keep then [] else [.shut]

/-- The library reads the response between the two states; `empty` tells whether it is told that there is no payload.  The last byte of the
head is read twice, because the parser is paused there.  The response ends with its last byte if `eof` is false, and with the end of the
stream otherwise. -/
def Response.Reads (L : Lib) (empty eof : Bool) (st : L.σ) (r : Response) (st' : L.σ) : Prop :=
  ∃ w1 b w2 d1 d2 s1 s2 m n d3 s3, r.wire = w1 ++ b :: w2 ∧
    Emits L st w1 d1 s1 ∧ L.micro s1 b = (s2, d2, .headers m n r.keep) ∧ replyCalls r.status r.reason r.fields = d1 ++ d2 ∧
    if eof then Emits L (if empty then L.skip s2 else s2) (b :: w2) d3 s3 ∧ L.eof s3 = (st', .done) ∧ r.body.map .body = d3
    else ∃ w3 e d4, b :: w2 = w3 ++ [e] ∧ Emits L (if empty then L.skip s2 else s2) w3 d3 s3 ∧ L.micro s3 e = (st', d4, .done) ∧ r.body.map .body = d3 ++ d4

/-- A response within the limits. -/
structure Response.Good (L : Lib) (c : Cfg) (empty eof : Bool) (st : L.σ) (r : Response) (st' : L.σ) : Prop where
  reads : r.Reads L empty eof st st'
  reason : r.reason ≠ []
  pieces : ∀ h ∈ r.fields, h.1 ≠ [] ∧ h.2 ≠ []
  head_size : replySize r.reason r.fields ≤ c.max_header_length
  body_size : r.body.flatten.length ≤ c.max_content_length

/-- Responses one after another, the first of which has the number `n`; none of them switches to another protocol. -/
inductive Conversation (L : Lib) (c : Cfg) (empty : Nat → Bool) : Nat → L.σ → List Response → L.σ → Prop
  | nil (n st) : Conversation L c empty n st [] st
  | cons {n st st' st''} {r rs} : r.Good L c (empty n) false st st' → r.status ≠ 101 → Conversation L c empty (n + 1) st' rs st'' →
      Conversation L c empty n st (r :: rs) st''

end Client
end Verif.Spec
