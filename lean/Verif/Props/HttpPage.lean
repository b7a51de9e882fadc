import Verif.Proofs.HttpPage
import Verif.Props.HttpExchange
/-! # C122: the default page -/
namespace Verif.Props
open Verif.HttpLib Verif.Spec Verif.Spec.Exchange Verif.HttpExchange
open Verif.HttpRequest (Cfg)
open Verif.Http (SHeaders)

/-- The headers which the client gets. -/
def toldHeaders (status_str : Nat → Bytes) (status : Int) : HttpResponse.Headers :=
  { status := toldStatus status, reason := status_str (toldStatus status), headers := [(b! "Content-Type", some (b! "text/html")), (b! "Connection", some (b! "close"))] }

theorem shut_down_eq (V : Http.Lib) (status_str : Nat → Bytes) (o : Out) (ho : o.shut = false) (status : Int) :
    http_shut_down_int V status_str false o status = { sent := o.sent ++ ((pageReply status_str (toldStatus status)).head ++ (pageReply status_str (toldStatus status)).text), shut := true } := by
  have e : (if status ≥ 200 ∧ status ≤ 599 then status.toNat else 400) = toldStatus status := by
    unfold toldStatus
    by_cases h : 200 ≤ status ∧ status < 600
    · rw [if_pos h, if_pos (by omega)]
    · rw [if_neg h, if_neg (by omega)]
  simp only [http_shut_down_int, e, http_shut_down, Bool.false_eq_true, if_false]
  rw [show (page_headers status_str (toldStatus status)).reason = status_str (toldStatus status) from rfl, page_wire]
  simp only [Out.tcp_send, ho, Bool.false_eq_true, if_false]
  split <;> rfl

/-- C122 (part).  A server has sent any number of responses that keep the connection open, and then shuts the connection down with a number.  However the bytes are split on the way, the client gets these responses, and then one more, with the
status, the usual reason for it, and a page that shows both; and it closes the connection.  A number that is not between 200 and 599 becomes 400.  Not covered: the statuses 204 and 304, and pages for HEAD requests (violated, see
`C122_violated_status` and `C122_violated_head`). -/
theorem C122_page_partial (V : Http.Lib) (status_str : Nat → Bytes) (c : Cfg) (limit : Nat) (L : Lib) (body : L.σ → Prop) (hL : Client.ReplyLib L body) (hC : ReadsRepliesToEnd limit L) (A : HttpClient.App)
    (empty : Nat → Bool) (hA : Client.Takes A empty) (as : List (Bool × Sending SHeaders)) (ha : ∀ a ∈ as, Suits status_str c limit a.1 true a.2)
    (he : ∀ k (hk : k < as.length), empty k = as[k].1) (hn : empty as.length = false) (status : Int) (h204 : status ≠ 204) (h304 : status ≠ 304)
    (hr : ∀ x ∈ status_str (toldStatus status), x = 9 ∨ 32 ≤ x.toNat ∧ x ≠ 127)
    (hsize : ∀ n ∈ [c.max_header_length, c.max_content_length, limit], (http_shut_down_int V status_str false {} status).sent.length ≤ n) (l : List Bytes)
    (hl : l.flatten = (http_shut_down_int V status_str false ((as.flatMap (fun a => answers a.1 a.2)).foldl (answer V status_str) {}) status).sent) :
    ∃ gs s digits, Each (fun a g => Arrives status_str a.1 a.2 g) as gs ∧ HttpClient.run A c ({} : HttpClient.Sess L) [] (Client.arrival l true) = some (s, []) ∧ s.failed = none ∧ DecNum digits (toldStatus status) ∧ digits.length = 3 ∧
      Client.observed A [] [] s.trace = gs.flatMap Answered.events ++
        [.headers (toldHeaders status_str status), .finish (toldHeaders status_str status) (pageText digits (status_str (toldStatus status))), .shut] := by
  obtain ⟨idle, h1, h2, h3, h4⟩ := hC
  obtain ⟨rs, st, gs, g1, g2, g3, g4, g5, g6⟩ := open_replies (status_str := status_str) (c := c) h3 as ha empty 0 (fun k hk => by simpa using he k hk) L.init h1
  have hrange : 200 ≤ toldStatus status ∧ toldStatus status ≤ 599 := by unfold toldStatus; split <;> omega
  have hnp : ¬ NoPayload (toldStatus status) := by
    unfold NoPayload toldStatus
    split <;> omega
  rw [shut_down_eq V status_str {} rfl status] at hsize
  simp only [List.nil_append, List.length_append, List.mem_cons, List.not_mem_nil, or_false, forall_eq_or_imp, forall_eq] at hsize
  obtain ⟨s1, s2, s3⟩ := hsize
  have hu := page_until (limit := limit) status_str (toldStatus status) hrange hnp hr (by omega)
  obtain ⟨reason, fields, bd, st', r0, r1, r2, r3, r4, r5, r6⟩ := h4 st (pageReply status_str (toldStatus status)) g3 hu
  let r : Client.Response := ⟨(pageReply status_str (toldStatus status)).head ++ (pageReply status_str (toldStatus status)).text, toldStatus status, reason, fields, bd, false⟩
  have hgood : r.Good L c (empty rs.length) true st st' := by
    rw [g4, hn]
    refine ⟨r5, r0, r3, ?_, ?_⟩
    · have e1 : replySize reason fields ≤ (pageReply status_str (toldStatus status)).head.length := by
        unfold replySize WireReply.head
        rw [r1, ← r2]
        have : (pageReply status_str (toldStatus status)).digits.length = 3 := hu.digits.2
        simp only [List.length_append, flat_size, this]
        simp only [List.length_cons, List.length_nil]
        omega
      exact Nat.le_trans e1 (by omega)
    · show bd.flatten.length ≤ _
      rw [r4]
      show (pageReply status_str (toldStatus status)).text.length ≤ _
      omega
  have hopen := open_sent (c := c) (limit := limit) V as ha {} rfl
  rw [hopen, shut_down_eq V status_str _ rfl status] at hl
  obtain ⟨s, e1, e2, e3, _⟩ := HttpClient.consume hA hL _ (HttpClient.plain_last hL empty rs r st st' g1 hgood (show toldStatus status ≠ 101 by omega) r6 l (by rw [hl, g2]; simp [r]))
  refine ⟨gs, s, Http.decimal (toldStatus status), g5, e1, e2, Http.decimal_decNum _, decimal_three _ (by omega) (by omega), ?_⟩
  rw [e3, g6]
  congr 1
  have f1 : r.headers = toldHeaders status_str status := by
    have r2' : flat fields = (page_headers status_str (toldStatus status)).headers := r2
    have r1' : reason.flatten = status_str (toldStatus status) := r1
    simp only [r, Client.Response.headers, toldHeaders, flat_some, r1', r2', page_headers, List.map_cons, List.map_nil]
  have f2 : r.body.flatten = pageText (Http.decimal (toldStatus status)) (status_str (toldStatus status)) := by
    show bd.flatten = _
    rw [r4]
    simp [pageReply, default_page, pageText, List.append_assoc]
  simp only [Client.Response.calls, f1, f2]
  rfl

/-- C122.  What is assumed of the library can be met. -/
theorem C122_contract (limit : Nat) : ∃ (L : Lib) (body : L.σ → Prop), Client.ReplyLib L body ∧ ReadsRepliesToEnd limit L :=
  ⟨lineLib readReply, LineState.body, lineLib_reply _ readReply_data, lineLib_to_end limit⟩

/-- C122.  After that, nothing more is sent, whatever is called. -/
theorem C122_last (V : Http.Lib) (status_str : Nat → Bytes) (upgraded : Bool) (o : Out) (status : Int) (later : List Answer) :
    (later.foldl (answer V status_str) (http_shut_down_int V status_str upgraded o status)).sent = (http_shut_down_int V status_str upgraded o status).sent := by
  have h : (http_shut_down_int V status_str upgraded o status).shut = true := by
    simp only [http_shut_down_int, http_shut_down]
    split <;> rfl
  generalize http_shut_down_int V status_str upgraded o status = o' at h
  induction later generalizing o' with
  | nil => rfl
  | cons a t ih =>
    rw [List.foldl_cons, ih]
    · cases a <;> simp [answer, Out.tcp_send, h] <;> split <;> rfl
    · cases a <;> simp [answer, Out.tcp_send, h] <;> split <;> simp [h]

/-- Two responses, one of them for a HEAD request, and then a page for status 404. -/
def pageBefore : List (Bool × Sending SHeaders) := [(false, .whole ⟨200, [], []⟩ (b! "fine")), (true, .whole ⟨200, b! "Ok", [(b! "X", b! "1")]⟩ (b! "long"))]
example : (∀ a ∈ pageBefore, Suits exchangeReason exchangeCfg 8192 a.1 true a.2) ∧ (∀ V : Http.Lib, ∀ n ∈ [1000, 1000, 8192], (http_shut_down_int V exchangeReason false {} 404).sent.length ≤ n) := by
  refine ⟨?_, ?_⟩
  · intro a ha
    simp only [pageBefore, List.mem_cons, List.not_mem_nil, or_false] at ha
    rcases ha with rfl | rfl
    · exact ⟨by decide +kernel, by decide +kernel, by decide +kernel, by decide +kernel, by decide +kernel, by decide +kernel, by decide +kernel, by intro r ps h; simp at h, by decide +kernel, by decide +kernel⟩
    · exact ⟨by decide +kernel, by decide +kernel, by decide +kernel, by decide +kernel, by decide +kernel, by decide +kernel, by decide +kernel, by intro r ps h; simp at h, by decide +kernel, by decide +kernel⟩
  · intro V
    rw [shut_down_eq V exchangeReason {} rfl]
    decide +kernel
/-- What the client gets for `http_shut_down(404)` and for `http_shut_down(7)`. -/
example (V : Http.Lib) : exchangeEvents (http_shut_down_int V exchangeReason false {} 404).sent =
    [.headers (toldHeaders exchangeReason 404), .finish (toldHeaders exchangeReason 404) (b! "<html><head><title>404 Unknown</title></head><body><h1>404 Unknown</h1></body></html>"), .shut] := by
  rw [shut_down_eq V exchangeReason {} rfl]
  decide +kernel
example (V : Http.Lib) : exchangeEvents (http_shut_down_int V exchangeReason false {} 7).sent =
    [.headers (toldHeaders exchangeReason 400), .finish (toldHeaders exchangeReason 400) (b! "<html><head><title>400 Unknown</title></head><body><h1>400 Unknown</h1></body></html>"), .shut] := by
  rw [shut_down_eq V exchangeReason {} rfl]
  decide +kernel

theorem run_shown {A : HttpClient.App} {o : Option (HttpClient.Sess (lineLib readReply) × Bytes)} {t : List HttpClient.Ev} (h : o.map (fun x => (Client.observed A [] [] x.1.trace, x.2)) = some (t, [])) :
    ∃ s, o = some (s, []) ∧ Client.observed A [] [] s.trace = t := by
  cases o with
  | none => cases h
  | some x =>
    simp only [Option.map_some, Option.some.injEq, Prod.mk.injEq] at h
    exact ⟨x.1, by rw [← h.2], h.1⟩

/-- C122, violated for status 204 (and 304): these responses have no payload, but the page is sent, so that the client hears of an error after the response. -/
theorem C122_violated_status : ∃ (L : Lib) (body : L.σ → Prop) (A : HttpClient.App) (status_str : Nat → Bytes), Client.ReplyLib L body ∧ ReadsRepliesToEnd 8192 L ∧ Client.Takes A (fun _ => false) ∧
    ∀ (V : Http.Lib) (status : Int), status = 204 ∨ status = 304 → ∃ s, HttpClient.run (L := L) A exchangeCfg {} [] (Client.arrival [(http_shut_down_int V status_str false {} status).sent] true) = some (s, []) ∧
      Client.observed A [] [] s.trace = [.headers (toldHeaders status_str status), .finish (toldHeaders status_str status) [], .shut, .abort] := by
  refine ⟨lineLib readReply, LineState.body, { onHeaders := fun _ _ => .normal, onStream := fun _ b => b }, exchangeReason, lineLib_reply _ readReply_data, lineLib_to_end _, ⟨fun _ b => ⟨[], rfl⟩, fun _ _ => rfl⟩, ?_⟩
  intro V status hs
  rw [shut_down_eq V exchangeReason {} rfl]
  rcases hs with rfl | rfl <;> exact run_shown (by decide +kernel)

/-- C122, violated for HEAD requests: `http_shut_down()` does not know the method of the request, and sends the page. -/
theorem C122_violated_head : ∃ (L : Lib) (body : L.σ → Prop) (A : HttpClient.App) (status_str : Nat → Bytes), Client.ReplyLib L body ∧ ReadsRepliesToEnd 8192 L ∧ Client.Takes A (fun _ => true) ∧
    ∀ (V : Http.Lib), ∃ s, HttpClient.run (L := L) A exchangeCfg {} [] (Client.arrival [(http_shut_down_int V status_str false {} 404).sent] true) = some (s, []) ∧
      Client.observed A [] [] s.trace = [.headers (toldHeaders status_str 404), .finish (toldHeaders status_str 404) [], .shut, .abort] := by
  refine ⟨lineLib readReply, LineState.body, { onHeaders := fun _ _ => .empty, onStream := fun _ b => b }, exchangeReason, lineLib_reply _ readReply_data, lineLib_to_end _, ⟨fun _ b => ⟨[], rfl⟩, fun _ _ => rfl⟩, ?_⟩
  intro V
  rw [shut_down_eq V exchangeReason {} rfl]
  exact run_shown (by decide +kernel)

end Verif.Props
