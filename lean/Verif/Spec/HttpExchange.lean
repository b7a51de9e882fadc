import Verif.Spec.HttpClient
import Verif.Model.HttpExchange
/-! # Specification vocabulary for the exchange of HTTP messages -/
namespace Verif.Spec
open Verif.HttpLib

/-! ### Messages on the wire (RFC 9112) -/

/-- RFC 9110: characters of a token. -/
def tokenChars : Bytes := alnumChars ++ b! "!#$%&'*+-.^_`|~"

/-- A value of a field: printable characters, spaces and tabs, but no space or tab in front or at the end. -/
structure FieldText (v : Bytes) : Prop where
  chars : ∀ c ∈ v, c = 9 ∨ 32 ≤ c.toNat ∧ c ≠ 127
  first : ∀ c t, v = c :: t → c ≠ 9 ∧ c ≠ 32
  last : ∀ c t, v = t ++ [c] → c ≠ 9 ∧ c ≠ 32

/-- No field has this name. -/
def Absent (fs : List (Bytes × Bytes)) (name : Bytes) : Prop := ∀ f ∈ fs, ¬ SameButCase f.1 name

/-- Exactly one field has this name, and this is its value. -/
def Only (fs : List (Bytes × Bytes)) (name value : Bytes) : Prop :=
  ∃ a b n, fs = a ++ (n, value) :: b ∧ SameButCase n name ∧ Absent (a ++ b) name

/-- How the end of a payload is found (RFC 9112, 6.3), if there is one: by its length, or by a chunk of length zero.  `text` is what is written for the payload `body`. -/
inductive Framed (fs : List (Bytes × Bytes)) : (text body : Bytes) → Prop
  | length {d body} : Only fs (b! "Content-Length") d → Absent fs (b! "Transfer-Encoding") → d ≠ [] → DecNum d body.length → body.length < 2 ^ 60 → Framed fs body body
  | chunked {text body} : Absent fs (b! "Content-Length") → Only fs (b! "Transfer-Encoding") (b! "chunked") → ChunkedBody text body [] → body.length < 2 ^ 60 → Framed fs text body

/-- Whether the connection stays open: unless a field `Connection` tells to close it.  Fields which tell about other protocols are not considered here. -/
structure Persists (fs : List (Bytes × Bytes)) (keep : Bool) : Prop where
  connection : ∀ f ∈ fs, SameButCase f.1 (b! "Connection") → SameButCase f.2 (b! "close") ∨ SameButCase f.2 (b! "keep-alive")
  close : keep = false ↔ ∃ f ∈ fs, SameButCase f.1 (b! "Connection") ∧ SameButCase f.2 (b! "close")
  proxy : Absent fs (b! "Proxy-Connection")
  upgrade : Absent fs (b! "Upgrade")

/-- The lines for the fields, and the empty line behind them. -/
def fieldLines (fs : List (Bytes × Bytes)) : Bytes := fs.flatMap (fun f => f.1 ++ b! ": " ++ f.2 ++ b! "\r\n") ++ b! "\r\n"

/-- Names and values of fields. -/
def GoodFields (fs : List (Bytes × Bytes)) : Prop := ∀ f ∈ fs, f.1 ≠ [] ∧ (∀ c ∈ f.1, c ∈ tokenChars) ∧ FieldText f.2

/-- A request: its parts, the text of its payload, the payload, and whether the connection stays open. -/
structure WireRequest where
  method : Bytes
  target : Bytes
  fields : List (Bytes × Bytes)
  text : Bytes
  body : Bytes
  keep : Bool

/-- The head of a request. -/
def WireRequest.head (r : WireRequest) : Bytes := r.method ++ b! " " ++ r.target ++ b! " HTTP/1.1\r\n" ++ fieldLines r.fields

/-- The methods that are considered here: those of RFC 9110 and RFC 5789, except CONNECT. -/
def plainMethods : List Bytes := [b! "GET", b! "HEAD", b! "POST", b! "PUT", b! "DELETE", b! "OPTIONS", b! "TRACE", b! "PATCH"]

/-- A valid request for a path, whose head is not larger than `limit`. -/
structure WireRequest.Valid (limit : Nat) (r : WireRequest) : Prop where
  method : r.method ∈ plainMethods
  target : ∃ o : OriginForm, o.Valid ∧ o.fragment = none ∧ r.target = o.text
  fields : GoodFields r.fields
  framed : Absent r.fields (b! "Content-Length") ∧ Absent r.fields (b! "Transfer-Encoding") ∧ r.text = [] ∧ r.body = [] ∨ Framed r.fields r.text r.body
  persists : Persists r.fields r.keep
  size : r.head.length ≤ limit

/-- Statuses that never have a payload. -/
def NoPayload (status : Nat) : Prop := status ≤ 199 ∨ status = 204 ∨ status = 304

/-- A response: the digits of its status, and its other parts. -/
structure WireReply where
  status : Nat
  digits : Bytes
  reason : Bytes
  fields : List (Bytes × Bytes)
  text : Bytes
  body : Bytes
  keep : Bool

/-- The head of a response. -/
def WireReply.head (r : WireReply) : Bytes := b! "HTTP/1.1 " ++ r.digits ++ b! " " ++ r.reason ++ b! "\r\n" ++ fieldLines r.fields

/-- A valid response whose head is not larger than `limit`.  `empty` tells whether it is for a HEAD request, so there is no payload although there is a length. -/
structure WireReply.Valid (limit : Nat) (empty : Bool) (r : WireReply) : Prop where
  status : 100 ≤ r.status ∧ r.status ≤ 999
  digits : DecNum r.digits r.status ∧ r.digits.length = 3
  reason : ∀ c ∈ r.reason, c = 9 ∨ 32 ≤ c.toNat ∧ c ≠ 127
  fields : GoodFields r.fields
  framed :
    NoPayload r.status ∧ Absent r.fields (b! "Content-Length") ∧ Absent r.fields (b! "Transfer-Encoding") ∧ r.text = [] ∧ r.body = [] ∨
    ¬ NoPayload r.status ∧ empty = true ∧ (∃ d n, Only r.fields (b! "Content-Length") d ∧ d ≠ [] ∧ DecNum d n ∧ n < 2 ^ 60) ∧ Absent r.fields (b! "Transfer-Encoding") ∧ r.text = [] ∧ r.body = [] ∨
    ¬ NoPayload r.status ∧ empty = false ∧ Framed r.fields r.text r.body
  persists : Persists r.fields r.keep
  size : r.head.length ≤ limit

/-! ### Libraries that read such messages -/

/-- `flat ps`: names and values, put together from their pieces. -/
def flat (ps : List (List Bytes × List Bytes)) : List (Bytes × Bytes) := ps.map fun p => (p.1.flatten, p.2.flatten)

/-- The library reads every valid request, one after another, as long as the connection stays open.  It may hand over the parts in any pieces. -/
def ReadsRequests (limit : Nat) (L : Lib) : Prop :=
  ∃ idle : L.σ → Prop, idle L.init ∧ (∀ st, idle st → L.eof st = (st, .go)) ∧
    ∀ st (r : WireRequest), idle st → r.Valid limit →
      ∃ (url : List Bytes) (fields : List (List Bytes × List Bytes)) (body : List Bytes) (st' : L.σ), url.flatten = r.target ∧ flat fields = r.fields ∧ (∀ p ∈ fields, p.1 ≠ [] ∧ p.2 ≠ []) ∧ body.flatten = r.body ∧
        Reads L st (r.head ++ r.text) (headCalls url fields) (body.map .body) r.method r.keep st' ∧ L.eof st' = (st', .go) ∧ (r.keep = true → idle st')

/-- The library reads every valid response likewise.  It is told by `skip` if there is no payload. -/
def ReadsReplies (limit : Nat) (L : Lib) : Prop :=
  ∃ idle : L.σ → Prop, idle L.init ∧ (∀ st, idle st → L.eof st = (st, .go)) ∧
    ∀ st empty (r : WireReply), idle st → r.Valid limit empty →
      ∃ (reason : List Bytes) (fields : List (List Bytes × List Bytes)) (body : List Bytes) (st' : L.σ), reason ≠ [] ∧ reason.flatten = r.reason ∧ flat fields = r.fields ∧ (∀ p ∈ fields, p.1 ≠ [] ∧ p.2 ≠ []) ∧ body.flatten = r.body ∧
        (Client.Response.mk (r.head ++ r.text) r.status reason fields body r.keep).Reads L empty false st st' ∧ L.eof st' = (st', .go) ∧ (r.keep = true → idle st')

/-! ### What users send and what they get -/

/-- A message that a user sends: at once, or in chunks. -/
inductive Sending (H : Type)
  | whole (h : H) (data : Bytes)
  | chunks (h : H) (pieces : List Bytes)

/-- The headers. -/
def Sending.headers {H : Type} : Sending H → H
  | .whole h _ => h
  | .chunks h _ => h

/-- The payload. -/
def Sending.data {H : Type} : Sending H → Bytes
  | .whole _ data => data
  | .chunks _ pieces => pieces.flatten

namespace Exchange
open Verif.HttpExchange
open Verif.HttpRequest (Headers Cfg)
open Verif.Http (SHeaders)

/-- The calls of a client session for a request. -/
def calls : Sending Headers → List Call
  | .whole h data => [.request h data]
  | .chunks h pieces => .chunked_start h :: pieces.map .chunked_send ++ [.chunked_finish]

/-- The host of a request: what the user has set, or the default host of the session, or the remote address. -/
def hostOf (remote default_host : Bytes) (h : Headers) : Bytes :=
  if h.raw_host ≠ [] then h.raw_host else if default_host ≠ [] then default_host else remote

/-- The method of a request: GET if the user has set none. -/
def methodOf (h : Headers) : Bytes := if h.method = [] then b! "GET" else h.method

/-- `Hosted host hs hs'`: the headers `hs'` are `hs`, but with this host, in the place of the one which is there, or behind all others. -/
inductive Hosted (host : Bytes) : List (Bytes × Option Bytes) → List (Bytes × Option Bytes) → Prop
  | add {hs} : (∀ hr ∈ hs, ¬ SameButCase hr.1 (b! "Host")) → Hosted host hs (hs ++ [(b! "Host", some host)])
  | set {a b n v} : SameButCase n (b! "Host") → (∀ hr ∈ a ++ b, ¬ SameButCase hr.1 (b! "Host")) → Hosted host (a ++ (n, v) :: b) (a ++ (n, some host) :: b)

/-- The values of headers as texts. -/
def texts (hs : List (Bytes × Option Bytes)) : List (Bytes × Bytes) := hs.map fun hr => (hr.1, hr.2.getD [])

/-- How many bytes the head of a request has. -/
def headLength (remote default_host : Bytes) : Sending Headers → Nat
  | .whole h data => (callText remote default_host (.request h data)).length - data.length
  | .chunks h _ => (callText remote default_host (.chunked_start h)).length

/-- A request for a path, of a usual method, which a user may send: it has no headers that are set by the session or that tell about other protocols, and is within the
limits of the server (`c`) and of the library (`limit`). -/
structure Proper (remote default_host : Bytes) (c : Cfg) (limit : Nat) (keep : Bool) (q : Sending Headers) : Prop where
  proxy : q.headers.is_proxy = false
  method : methodOf q.headers ∈ plainMethods
  path : ∀ x ∈ q.headers.raw_path, x ∈ pathChars
  query : ∀ x ∈ q.headers.raw_query, x ∈ queryChars
  scheme : ¬ Occurs (b! "://") (q.headers.raw_path ++ b! "?" ++ q.headers.raw_query)
  fields : GoodFields (texts q.headers.headers)
  host : hostOf remote default_host q.headers ≠ [] ∧ FieldText (hostOf remote default_host q.headers)
  one : ∃ hs, Hosted (hostOf remote default_host q.headers) q.headers.headers hs
  length : Absent (texts q.headers.headers) (b! "Content-Length")
  coding : Absent (texts q.headers.headers) (b! "Transfer-Encoding")
  persists : Persists (texts q.headers.headers) keep
  head : headLength remote default_host q ≤ c.max_header_length ∧ headLength remote default_host q ≤ limit
  content : q.data.length ≤ c.max_content_length ∧ q.data.length < 2 ^ 60

/-- The header which the session adds to tell about the payload. -/
inductive LengthOrCoding {H : Type} : Sending H → List (Bytes × Bytes) → Prop
  | length {h data d} : DecNum d data.length → LengthOrCoding (.whole h data) [(b! "Content-Length", d)]
  | coding {h pieces} : LengthOrCoding (.chunks h pieces) [(b! "Transfer-Encoding", b! "chunked")]

/-- What the user of a server gets for a request: its headers and payload, and whether the connection is to be closed. -/
structure Got where
  headers : Headers
  payload : Bytes
  close : Bool

/-- `Delivers … q g`: the server gets the request `q` as `g`.  The method, the host, the path and the query are what the client has told; so are the headers, behind which there is
one for the payload, if it is not empty; and so is the payload, if the method is one that has a payload. -/
structure Delivers (remote default_host : Bytes) (q : Sending Headers) (g : Got) : Prop where
  request : g.headers =
    { method := methodOf q.headers
      raw_host := hostOf remote default_host q.headers
      raw_path := if q.headers.raw_path.head? = some (chr '/') then q.headers.raw_path else b! "/" ++ q.headers.raw_path
      raw_query := q.headers.raw_query
      headers := g.headers.headers }
  fields : ∃ hs fs, Hosted (hostOf remote default_host q.headers) q.headers.headers hs ∧
    g.headers.headers = (texts hs ++ fs).map (fun f => (f.1, some f.2)) ∧
    (q = .whole q.headers [] ∧ fs = [] ∨ q ≠ .whole q.headers [] ∧ LengthOrCoding q fs)
  payload : g.payload = if methodOf q.headers = b! "POST" ∨ methodOf q.headers = b! "PUT" ∨ methodOf q.headers = b! "PATCH" then q.data else []
  close : g.close = true ↔ ∃ f ∈ texts q.headers.headers, SameButCase f.1 (b! "Connection") ∧ SameButCase f.2 (b! "close")

/-- The calls of the functions of a server for such a request. -/
def Got.events (g : Got) : List HttpServer.Ev := [.headers g.headers g.close, .finish g.headers g.payload g.close]

/-- The calls of a server session for a response. -/
def answers (head : Bool) : Sending SHeaders → List Answer
  | .whole r data => [.response head r data]
  | .chunks r pieces => .chunked_start r :: pieces.map .chunked_send ++ [.chunked_finish]

/-- The reason of a response: if the user has set none, the usual one for the status. -/
def reasonOf (status_str : Nat → Bytes) (r : SHeaders) : Bytes := if r.reason = [] then status_str r.status else r.reason

/-- How many bytes the head of a response has. -/
def replyLength (status_str : Nat → Bytes) : Sending SHeaders → Nat
  | .whole r data => (Http.http_response status_str true r data).length
  | .chunks r _ => (Http.chunked_start status_str r).length

/-- A response which a user may send.  `keep` tells whether the connection stays open; if so, no header may say that.  A response in chunks is not for a HEAD request or for a status that has no
payload, and the connection stays open. -/
structure Suits (status_str : Nat → Bytes) (c : Cfg) (limit : Nat) (head keep : Bool) (a : Sending SHeaders) : Prop where
  status : 100 ≤ a.headers.status ∧ a.headers.status ≤ 999 ∧ a.headers.status ≠ 101
  reason : ∀ x ∈ reasonOf status_str a.headers, x = 9 ∨ 32 ≤ x.toNat ∧ x ≠ 127
  fields : GoodFields a.headers.headers
  length : Absent a.headers.headers (b! "Content-Length")
  coding : Absent a.headers.headers (b! "Transfer-Encoding")
  persists : Persists a.headers.headers keep
  kept : keep = true → Absent a.headers.headers (b! "Connection")
  chunks : ∀ r pieces, a = .chunks r pieces → head = false ∧ ¬ NoPayload r.status ∧ keep = true
  head : replyLength status_str a ≤ c.max_header_length ∧ replyLength status_str a ≤ limit
  content : a.data.length ≤ c.max_content_length ∧ a.data.length < 2 ^ 60

/-- What the user of a client gets for a response. -/
structure Answered where
  headers : HttpResponse.Headers
  payload : Bytes
  close : Bool

/-- `Arrives … a g`: the client gets the response `a` as `g`. -/
structure Arrives (status_str : Nat → Bytes) (head : Bool) (a : Sending SHeaders) (g : Answered) : Prop where
  response : g.headers = { status := a.headers.status, reason := reasonOf status_str a.headers, headers := g.headers.headers }
  fields : ∃ fs, g.headers.headers = (a.headers.headers ++ fs).map (fun f => (f.1, some f.2)) ∧
    (NoPayload a.headers.status ∧ fs = [] ∨ ¬ NoPayload a.headers.status ∧ LengthOrCoding a fs)
  payload : (NoPayload a.headers.status ∨ head = true) ∧ g.payload = [] ∨ ¬ (NoPayload a.headers.status ∨ head = true) ∧ g.payload = a.data
  close : g.close = true ↔ ∃ f ∈ a.headers.headers, SameButCase f.1 (b! "Connection") ∧ SameButCase f.2 (b! "close")

/-- The calls of the functions of a client for such a response. -/
def Answered.events (g : Answered) : List HttpClient.Ev := [.headers g.headers, .finish g.headers g.payload] ++ if g.close then [.shut] else []

/-- All messages but the last one keep the connection open. -/
inductive Chain {α : Type} (good : Bool → α → Prop) : List α → Prop
  | nil : Chain good []
  | last {keep a} : good keep a → Chain good [a]
  | cons {a as} : good true a → Chain good as → Chain good (a :: as)

end Exchange
end Verif.Spec
