import Verif.Proofs.HttpExchangeAll
import Verif.Proofs.HttpLineLib
import Verif.Proofs.HttpServerConsume
import Verif.Proofs.HttpClientConsume
/-! # HTTP from one session to the other: requests and responses (C112) -/
namespace Verif.Props
open Verif.HttpLib Verif.Spec Verif.Spec.Exchange Verif.HttpExchange
open Verif.HttpRequest (Headers Cfg)
open Verif.Http (SHeaders)

/-- C112, requests.  Clients send any number of proper requests, at once or in chunks, the last of which may ask to close the connection.  However the bytes are split on the way, a server
that takes requests gets each of them, with the method, host, path, query, headers and payload which the client has told. -/
theorem C112_requests (remote default_host : Bytes) (c : Cfg) (limit : Nat) (L : Lib) (body : L.σ → Prop) (hL : LibOk L body) (hC : ReadsRequests limit L) (A : HttpServer.App)
    (hA : Takes A (fun _ => false)) (qs : List (Sending Headers)) (hq : Chain (Proper remote default_host c limit) qs) (eof : Bool) (l : List Bytes)
    (hl : l.flatten = (qs.flatMap calls).flatMap (callText remote default_host)) :
    ∃ gs s, Each (Delivers remote default_host) qs gs ∧ HttpServer.run A c ({} : HttpServer.Sess L) [] (arrival l eof) = some (s, []) ∧ s.failed = none ∧
      observed A [] [] s.trace = gs.flatMap Got.events := by
  obtain ⟨idle, h1, h2, h3⟩ := hC
  obtain ⟨rs, st', gs, g1, g2, g3, g4, g5, -⟩ := all_requests h3 h2 hq L.init h1
  obtain ⟨s, e1, e2, e3, _⟩ := HttpServer.consume hA hL _ (HttpServer.plain_conversation hL (fun _ => false) rs (fun _ _ => rfl) st' g1 eof (fun _ => by rw [g3]) l (by rw [hl, g2]))
  exact ⟨gs, s, g4, e1, e2, by rw [e3, g5]⟩

/-- C112, responses, except for those in chunks that say `Connection: close`.  A server sends any number of responses, each for a HEAD request or for another one; the last one may close the
connection.  However the bytes are split on the way, a client that knows which responses are for HEAD requests gets each of them, with the status, reason, headers and payload which the server
has told. -/
theorem C112_responses_partial (V : Http.Lib) (status_str : Nat → Bytes) (c : Cfg) (limit : Nat) (L : Lib) (body : L.σ → Prop) (hL : Client.ReplyLib L body) (hC : ReadsReplies limit L) (A : HttpClient.App)
    (empty : Nat → Bool) (hA : Client.Takes A empty) (as : List (Bool × Sending SHeaders)) (ha : Chain (fun keep a => Suits status_str c limit a.1 keep a.2) as)
    (he : ∀ k (hk : k < as.length), empty k = as[k].1) (eof : Bool) (l : List Bytes) (hl : l.flatten = ((as.flatMap (fun a => answers a.1 a.2)).foldl (answer V status_str) {}).sent) :
    ∃ gs s, Each (fun a g => Arrives status_str a.1 a.2 g) as gs ∧ HttpClient.run A c ({} : HttpClient.Sess L) [] (Client.arrival l eof) = some (s, []) ∧ s.failed = none ∧
      Client.observed A [] [] s.trace = gs.flatMap Answered.events := by
  obtain ⟨idle, h1, h2, h3⟩ := hC
  obtain ⟨rs, st', gs, g1, g2, g3, g4, g5, -⟩ := all_replies h3 h2 ha empty 0 (fun k hk => by simpa using he k hk) L.init h1
  have hs := all_sent V ha {} rfl
  obtain ⟨s, e1, e2, e3, _⟩ := HttpClient.consume hA hL _ (HttpClient.plain_conversation hL empty rs st' g1 eof (fun _ => by rw [g3]) l (by rw [hl, hs, g2]; simp))
  exact ⟨gs, s, g4, e1, e2, by rw [e3, g5]⟩

theorem each_length {α β : Type} {R : α → β → Prop} {as : List α} {bs : List β} (h : Each R as bs) : as.length = bs.length := by
  induction h with
  | nil => rfl
  | cons _ _ ih => simp [ih]

theorem each_get {α β : Type} {R : α → β → Prop} {as : List α} {bs : List β} (h : Each R as bs) : ∀ k (h1 : k < as.length) (h2 : k < bs.length), R as[k] bs[k] := by
  induction h with
  | nil => intro k h1; simp at h1
  | cons hr _ ih =>
    intro k h1 h2
    cases k with
    | zero => exact hr
    | succ k => exact ih k (by simpa using h1) (by simpa using h2)

theorem each_map {α γ : Type} {R : γ → α → Prop} (f : β → γ) {as : List β} {bs : List α} (h : Each R (as.map f) bs) : Each (fun a b => R (f a) b) as bs := by
  induction as generalizing bs with
  | nil => cases h; exact .nil
  | cons a as ih =>
    cases h with
    | cons h1 h2 => exact .cons h1 (ih h2)

/-- C112, both ways.  The server answers each request by a function of what it has got.  The client, which knows which of its requests were for heads, gets these answers, in the order of its
requests. -/
theorem C112_exchange_partial (remote default_host : Bytes) (c c' : Cfg) (limit limit' : Nat) (V : Http.Lib) (status_str : Nat → Bytes) (L L' : Lib) (body : L.σ → Prop) (body' : L'.σ → Prop)
    (hL : LibOk L body) (hL' : Client.ReplyLib L' body') (hC : ReadsRequests limit L) (hC' : ReadsReplies limit' L') (A : HttpServer.App) (hA : Takes A (fun _ => false)) (A' : HttpClient.App)
    (empty : Nat → Bool) (hA' : Client.Takes A' empty) (qs : List (Sending Headers)) (hq : Chain (Proper remote default_host c limit) qs)
    (he : ∀ k (hk : k < qs.length), empty k = true ↔ methodOf qs[k].headers = b! "HEAD") (reply : Got → Sending SHeaders)
    (eof eof' : Bool) (l : List Bytes) (hl : l.flatten = (qs.flatMap calls).flatMap (callText remote default_host)) :
    ∃ gs s, Each (Delivers remote default_host) qs gs ∧ HttpServer.run A c ({} : HttpServer.Sess L) [] (arrival l eof) = some (s, []) ∧ s.failed = none ∧
      observed A [] [] s.trace = gs.flatMap Got.events ∧
      ∀ l' : List Bytes, Chain (fun keep g => Suits status_str c' limit' (g.headers.method = b! "HEAD") keep (reply g)) gs →
        l'.flatten = ((gs.flatMap (fun g => answers (g.headers.method = b! "HEAD") (reply g))).foldl (answer V status_str) {}).sent →
        ∃ ws s', Each (fun g w => Arrives status_str (g.headers.method = b! "HEAD") (reply g) w) gs ws ∧
          HttpClient.run A' c' ({} : HttpClient.Sess L') [] (Client.arrival l' eof') = some (s', []) ∧ s'.failed = none ∧
          Client.observed A' [] [] s'.trace = ws.flatMap Answered.events := by
  obtain ⟨gs, s, h1, h2, h3, h4⟩ := C112_requests remote default_host c limit L body hL hC A hA qs hq eof l hl
  refine ⟨gs, s, h1, h2, h3, h4, ?_⟩
  intro l' hs hl'
  let f : Got → Bool × Sending SHeaders := fun g => (decide (g.headers.method = b! "HEAD"), reply g)
  have hch : Chain (fun keep (a : Bool × Sending SHeaders) => Suits status_str c' limit' a.1 keep a.2) (gs.map f) := by
    clear hl' h1 h4
    induction hs with
    | nil => exact .nil
    | last h => exact .last h
    | cons h _ ih => exact .cons h ih
  have hem : ∀ k (hk : k < (gs.map f).length), empty k = (gs.map f)[k].1 := by
    intro k hk
    have hk2 : k < gs.length := by simpa using hk
    have hk1 : k < qs.length := by rw [each_length h1]; exact hk2
    have hd := each_get h1 k hk1 hk2
    have hm : gs[k].headers.method = methodOf qs[k].headers := by rw [hd.request]
    have := he k hk1
    rw [← hm] at this
    rw [List.getElem_map]
    show empty k = decide _
    by_cases hx : gs[k].headers.method = b! "HEAD"
    · rw [this.mpr hx]; simp [hx]
    · have : empty k ≠ true := fun e => hx (this.mp e)
      simp [hx, this]
  obtain ⟨ws, s', g1, g2, g3, g4⟩ := C112_responses_partial V status_str c' limit' L' body' hL' hC' A' empty hA' (gs.map f) hch hem eof' l' (by rw [hl', List.flatMap_map])
  exact ⟨ws, s', each_map f g1, g2, g3, g4⟩

/-- C112.  What is assumed of the library can be met. -/
theorem C112_contract (limit : Nat) :
    (∃ (L : Lib) (body : L.σ → Prop), LibOk L body ∧ ReadsRequests limit L) ∧ ∃ (L : Lib) (body : L.σ → Prop), Client.ReplyLib L body ∧ ReadsReplies limit L :=
  ⟨⟨lineLib readRequest, LineState.body, lineLib_ok _ readRequest_data, lineLib_requests limit⟩, ⟨lineLib readReply, LineState.body, lineLib_reply _ readReply_data, lineLib_replies limit⟩⟩

/-- C112 does not hold for responses in chunks that say `Connection: close`: the connection is shut down behind their heads, and no chunk is sent. -/
theorem C112_chunked_close (V : Http.Lib) (status_str : Nat → Bytes) (head : Bool) (r : SHeaders) (hr : (b! "Connection", b! "close") ∈ r.headers) (pieces : List Bytes) :
    ((answers head (.chunks r pieces)).foldl (answer V status_str) {}).sent = Http.chunked_start status_str r := by
  have hc : closes V r.headers = true := by
    unfold closes
    rw [List.any_eq_true]
    exact ⟨_, hr, by rfl⟩
  have hshut : ∀ (as : List Answer) (o : Out), o.shut = true → (as.foldl (answer V status_str) o).sent = o.sent := by
    intro as
    induction as with
    | nil => intro o _; rfl
    | cons a t ih =>
      intro o ho
      rw [List.foldl_cons, ih]
      · cases a <;> simp [answer, Out.tcp_send, ho] <;> split <;> rfl
      · cases a <;> simp [answer, Out.tcp_send, ho] <;> split <;> simp [ho]
  simp only [answers, List.cons_append, List.foldl_cons]
  rw [hshut]
  · simp [answer, hc, Out.tcp_send]
  · simp [answer, hc]

/-! ### Examples -/

instance sameDec (a b : Bytes) : Decidable (SameButCase a b) := decidable_of_iff _ (Http.sameButCase_iff a b).symm

instance fieldDec (v : Bytes) : Decidable (FieldText v) :=
  decidable_of_iff ((∀ c ∈ v, c = 9 ∨ 32 ≤ c.toNat ∧ c ≠ 127) ∧ (∀ c ∈ v.head?, c ≠ 9 ∧ c ≠ 32) ∧ ∀ c ∈ v.getLast?, c ≠ 9 ∧ c ≠ 32)
    ⟨fun h => ⟨h.1, fun c t e => h.2.1 c (by simp [e]), fun c t e => h.2.2 c (by simp [e])⟩,
      fun h => ⟨h.chars, fun c e => by
        cases v with
        | nil => simp at e
        | cons x t => simp only [List.head?_cons, Option.mem_some_iff] at e; subst e; exact h.first x t rfl, fun c e => by
        obtain ⟨t, ht⟩ := List.getLast?_eq_some_iff.mp e
        exact h.last c t ht⟩⟩

instance absentDec (fs : List (Bytes × Bytes)) (n : Bytes) : Decidable (Absent fs n) := inferInstanceAs (Decidable (∀ f ∈ fs, ¬ SameButCase f.1 n))
instance goodDec (fs : List (Bytes × Bytes)) : Decidable (GoodFields fs) := inferInstanceAs (Decidable (∀ f ∈ fs, f.1 ≠ [] ∧ (∀ c ∈ f.1, c ∈ tokenChars) ∧ FieldText f.2))
instance persistsDec (fs : List (Bytes × Bytes)) (keep : Bool) : Decidable (Persists fs keep) :=
  decidable_of_iff ((∀ f ∈ fs, SameButCase f.1 (b! "Connection") → SameButCase f.2 (b! "close") ∨ SameButCase f.2 (b! "keep-alive")) ∧
      (keep = false ↔ ∃ f ∈ fs, SameButCase f.1 (b! "Connection") ∧ SameButCase f.2 (b! "close")) ∧ Absent fs (b! "Proxy-Connection") ∧ Absent fs (b! "Upgrade"))
    ⟨fun h => ⟨h.1, h.2.1, h.2.2.1, h.2.2.2⟩, fun h => ⟨h.connection, h.close, h.proxy, h.upgrade⟩⟩
instance occursDec (s t : Bytes) : Decidable (Occurs s t) := decidable_of_iff _ (HttpRequest.contains_iff s t)
instance noPayloadDec (n : Nat) : Decidable (NoPayload n) := inferInstanceAs (Decidable (_ ∨ _))

/-- A request that is sent at once. -/
def postItem : Sending Headers := .whole { method := b! "POST", raw_path := b! "/a/b", raw_query := b! "x=1", headers := [(b! "Host", none), (b! "X", some (b! "y z"))] } (b! "hello")

/-- A request in chunks; there is no slash in front of the path. -/
def putItem : Sending Headers := .chunks { method := b! "PUT", raw_host := b! "other", raw_path := b! "up" } [b! "abc", [], b! "0123456789abcdefg"]

/-- A request for a head, which asks to close the connection. -/
def headItem : Sending Headers := .whole { method := b! "HEAD", headers := [(b! "Connection", some (b! "Close"))] } []

/-- The limits. -/
def exchangeCfg : Cfg := ⟨1000, 1000⟩

/-- The remote address. -/
def exchangeRemote : Bytes := b! "1.2.3.4:80"

theorem items_proper : Chain (Proper exchangeRemote [] exchangeCfg 8192) [postItem, putItem, headItem] := by
  refine .cons ?_ (.cons ?_ (.last (keep := false) ?_))
  · exact ⟨rfl, by decide +kernel, by decide +kernel, by decide +kernel, by decide +kernel, by decide +kernel, by decide +kernel,
      ⟨_, .set (a := []) (n := b! "Host") (v := none) (b := [(b! "X", some (b! "y z"))]) (by decide +kernel) (by decide +kernel)⟩, by decide +kernel, by decide +kernel, by decide +kernel, by decide +kernel, by decide +kernel⟩
  · exact ⟨rfl, by decide +kernel, by decide +kernel, by decide +kernel, by decide +kernel, by decide +kernel, by decide +kernel,
      ⟨_, .add (by decide +kernel)⟩, by decide +kernel, by decide +kernel, by decide +kernel, by decide +kernel, by decide +kernel⟩
  · exact ⟨rfl, by decide +kernel, by decide +kernel, by decide +kernel, by decide +kernel, by decide +kernel, by decide +kernel,
      ⟨_, .add (by decide +kernel)⟩, by decide +kernel, by decide +kernel, by decide +kernel, by decide +kernel, by decide +kernel⟩

/-- What these requests are on the wire. -/
def itemsText : Bytes := ([postItem, putItem, headItem].flatMap calls).flatMap (callText exchangeRemote [])
example : itemsText = b! "POST /a/b?x=1 HTTP/1.1\r\nHost: 1.2.3.4:80\r\nX: y z\r\nContent-Length: 5\r\n\r\nhelloPUT /up HTTP/1.1\r\nHost: other\r\nTransfer-Encoding: chunked\r\n\r\n3\r\nabc\r\n11\r\n0123456789abcdefg\r\n0\r\n\r\nHEAD / HTTP/1.1\r\nConnection: Close\r\nHost: 1.2.3.4:80\r\n\r\n" := by
  decide +kernel

/-- A class that takes every request. -/
def exchangeApp : HttpServer.App := { onHeaders := fun _ _ _ => {}, onStream := fun _ b => b, onFinish := fun _ _ _ _ => false }
example : Takes exchangeApp (fun _ => false) := ⟨fun _ b => ⟨[], rfl⟩, fun _ _ _ => rfl, fun _ _ _ _ => rfl⟩

/-- What the server gets. -/
def itemsGot : List Got :=
  [⟨{ method := b! "POST", raw_host := b! "1.2.3.4:80", raw_path := b! "/a/b", raw_query := b! "x=1", headers := [(b! "Host", some (b! "1.2.3.4:80")), (b! "X", some (b! "y z")), (b! "Content-Length", some (b! "5"))] }, b! "hello", false⟩,
    ⟨{ method := b! "PUT", raw_host := b! "other", raw_path := b! "/up", headers := [(b! "Host", some (b! "other")), (b! "Transfer-Encoding", some (b! "chunked"))] }, b! "abc0123456789abcdefg", false⟩,
    ⟨{ method := b! "HEAD", raw_host := b! "1.2.3.4:80", raw_path := b! "/", headers := [(b! "Connection", some (b! "Close")), (b! "Host", some (b! "1.2.3.4:80"))] }, [], true⟩]

/-- The calls which the server gets. -/
def exchangeServer (text : Bytes) : List HttpServer.Ev := match HttpServer.run (L := lineLib readRequest) exchangeApp exchangeCfg {} [] (arrival [text.take 30, text.drop 30] true) with
  | some (s, _) => observed exchangeApp [] [] s.trace
  | none => []
example : exchangeServer itemsText = itemsGot.flatMap Got.events := by decide +kernel

/-- How the server answers: in chunks to PUT, at once to others. -/
def exchangeReply (g : Got) : Sending SHeaders :=
  if g.headers.method = b! "PUT" then .chunks ⟨201, [], [(b! "X", b! "1")]⟩ [b! "done", b! "!"]
  else .whole ⟨200, [], if g.close then [(b! "Connection", b! "close")] else []⟩ (b! "got " ++ g.headers.raw_path)

/-- The usual reasons. -/
def exchangeReason (n : Nat) : Bytes := if n = 200 then b! "OK" else if n = 201 then b! "Created" else b! "Unknown"

theorem replies_suit : Chain (fun keep g => Suits exchangeReason exchangeCfg 8192 (g.headers.method = b! "HEAD") keep (exchangeReply g)) itemsGot := by
  refine .cons ?_ (.cons ?_ (.last (keep := false) ?_))
  · exact ⟨by decide +kernel, by decide +kernel, by decide +kernel, by decide +kernel, by decide +kernel, by decide +kernel, by decide +kernel, by intro r ps h; simp [exchangeReply] at h, by decide +kernel, by decide +kernel⟩
  · exact ⟨by decide +kernel, by decide +kernel, by decide +kernel, by decide +kernel, by decide +kernel, by decide +kernel, by decide +kernel, by intro r ps h; simp [exchangeReply] at h; obtain ⟨rfl, rfl⟩ := h; decide +kernel, by decide +kernel, by decide +kernel⟩
  · exact ⟨by decide +kernel, by decide +kernel, by decide +kernel, by decide +kernel, by decide +kernel, by decide +kernel, by decide +kernel, by intro r ps h; simp [exchangeReply] at h, by decide +kernel, by decide +kernel⟩

/-- What these responses are on the wire. -/
def repliesText (V : Http.Lib) : Bytes := ((itemsGot.flatMap (fun g => answers (g.headers.method = b! "HEAD") (exchangeReply g))).foldl (answer V exchangeReason) {}).sent
theorem repliesText_eq (V : Http.Lib) : repliesText V = b! "HTTP/1.1 200 OK\r\nContent-Length: 8\r\n\r\ngot /a/bHTTP/1.1 201 Created\r\nX: 1\r\nTransfer-Encoding: chunked\r\n\r\n4\r\ndone\r\n1\r\n!\r\n0\r\n\r\nHTTP/1.1 200 OK\r\nConnection: close\r\nContent-Length: 5\r\n\r\n" := by
  rfl

/-- A class that knows that the third response has no payload. -/
def exchangeClient : HttpClient.App := { onHeaders := fun t _ => if (Client.finished t == 2) = true then .empty else .normal, onStream := fun _ b => b }
example : Client.Takes exchangeClient (· == 2) := ⟨fun _ b => ⟨[], rfl⟩, fun _ _ => rfl⟩
example : ∀ k (hk : k < [postItem, putItem, headItem].length), (k == 2) = true ↔ methodOf [postItem, putItem, headItem][k].headers = b! "HEAD" := by decide +kernel

/-- The calls which the client gets. -/
def exchangeEvents (text : Bytes) : List HttpClient.Ev := match HttpClient.run (L := lineLib readReply) exchangeClient exchangeCfg {} [] (Client.arrival [text.take 50, text.drop 50] true) with
  | some (s, _) => Client.observed exchangeClient [] [] s.trace
  | none => []
example (V : Http.Lib) : exchangeEvents (repliesText V) =
    [.headers ⟨200, b! "OK", [(b! "Content-Length", some (b! "8"))]⟩, .finish ⟨200, b! "OK", [(b! "Content-Length", some (b! "8"))]⟩ (b! "got /a/b"),
      .headers ⟨201, b! "Created", [(b! "X", some (b! "1")), (b! "Transfer-Encoding", some (b! "chunked"))]⟩, .finish ⟨201, b! "Created", [(b! "X", some (b! "1")), (b! "Transfer-Encoding", some (b! "chunked"))]⟩ (b! "done!"),
      .headers ⟨200, b! "OK", [(b! "Connection", some (b! "close")), (b! "Content-Length", some (b! "5"))]⟩, .finish ⟨200, b! "OK", [(b! "Connection", some (b! "close")), (b! "Content-Length", some (b! "5"))]⟩ [], .shut] := by
  rw [repliesText_eq]
  decide +kernel
/-- A response in chunks that says `close` has lost its payload. -/
example (V : Http.Lib) : ((answers false (.chunks ⟨200, [], [(b! "Connection", b! "close")]⟩ [b! "lost"])).foldl (answer V exchangeReason) {}).sent
    = b! "HTTP/1.1 200 OK\r\nConnection: close\r\nTransfer-Encoding: chunked\r\n\r\n" := by
  rw [C112_chunked_close V exchangeReason false ⟨200, [], [(b! "Connection", b! "close")]⟩ (by decide) [b! "lost"]]
  rfl

end Verif.Props
