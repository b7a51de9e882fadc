import Verif.Proofs.HttpExchange
import Verif.Proofs.HttpServerConsume
import Verif.Proofs.HttpClientConsume
/-! # Requests and responses, one after another -/
namespace Verif.HttpExchange
open Verif.HttpLib Verif.Spec Verif.Spec.Exchange
open Verif.HttpRequest (Headers Cfg)
open Verif.Http (SHeaders)

theorem flat_size (fs : List (List Bytes × List Bytes)) : (fieldLines (flat fs)).length = (fs.map (fun h => 4 + h.1.flatten.length + h.2.flatten.length)).sum + 2 := by
  unfold fieldLines flat
  rw [List.length_append]
  congr 1
  induction fs with
  | nil => rfl
  | cons x t ih =>
    simp only [List.map_cons, List.flatMap_cons, List.length_append, List.sum_cons, ih]
    simp only [List.length_cons, List.length_nil]
    omega

theorem flat_some (fs : List (List Bytes × List Bytes)) : fs.map (fun h => (h.1.flatten, some h.2.flatten)) = (flat fs).map (fun f => (f.1, some f.2)) := by
  simp [flat]

theorem plain_short : ∀ m ∈ plainMethods, m.length < 8 := by decide

/-! ### Requests -/

section
variable {remote default_host : Bytes} {c : Cfg} {limit : Nat} {L : Lib} {idle : L.σ → Prop}

/-- What is assumed of the library for requests. -/
def RequestReader (limit : Nat) (L : Lib) (idle : L.σ → Prop) : Prop :=
  ∀ st (r : WireRequest), idle st → r.Valid limit →
      ∃ (url : List Bytes) (fields : List (List Bytes × List Bytes)) (body : List Bytes) (st' : L.σ), url.flatten = r.target ∧ flat fields = r.fields ∧ (∀ p ∈ fields, p.1 ≠ [] ∧ p.2 ≠ []) ∧ body.flatten = r.body ∧
        Reads L st (r.head ++ r.text) (headCalls url fields) (body.map .body) r.method r.keep st' ∧ L.eof st' = (st', .go) ∧ (r.keep = true → idle st')

theorem one_request (hr : RequestReader limit L idle) {st : L.σ} (hi : idle st) {keep : Bool} {q : Sending Headers} (h : Proper remote default_host c limit keep q) :
    ∃ (r : Request) (st' : L.σ), r.Good L c st st' ∧ r.wire = (calls q).flatMap (callText remote default_host) ∧ r.calls = (gotOf remote default_host keep q).events ∧ Got.mk r.headers r.payload (!r.keep) = gotOf remote default_host keep q ∧ L.eof st' = (st', .go) ∧ (keep = true → idle st') := by
  obtain ⟨url, fields, body, st', h1, h2, h3, h4, h5, h6, h7⟩ := hr st _ hi (wire_valid h)
  have hp : (gotOf remote default_host keep q).headers.method = methodOf q.headers := rfl
  refine ⟨⟨(calls q).flatMap (callText remote default_host), url, fields, body, methodOf q.headers, keep, (gotOf remote default_host keep q).headers⟩, st', ⟨?_, h3, ?_, ?_, plain_short _ h.method, ?_, h.host.1, fun _ => rfl⟩, rfl, ?_, ?_, h6, h7⟩
  · show Reads L st ((calls q).flatMap (callText remote default_host)) _ _ _ _ _
    rw [(wire_eq h).1]; exact h5
  · have e := (wire_eq h).2
    have e1 : headSize url fields ≤ (wireOf remote default_host keep q).head.length := by
      unfold headSize WireRequest.head
      rw [h1, ← h2]
      simp only [List.length_append, flat_size]
      omega
    rw [e] at e1
    exact Nat.le_trans e1 h.head.1
  · show body.flatten.length ≤ _
    rw [h4]; exact h.content.1
  · show HttpRequest.parse_target { method := methodOf q.headers, headers := fields.map (fun h => (h.1.flatten, some h.2.flatten)) } url.flatten = _
    rw [flat_some, h2, h1]
    exact got_target h
  · simp only [Request.calls, Got.events, Request.payload, hp]
    have e : body.flatten = q.data := h4
    rw [e]
    rfl
  · simp only [Request.payload, hp]
    have e : body.flatten = q.data := h4
    rw [e]
    rfl

theorem all_requests (hr : RequestReader limit L idle) (he : ∀ st, idle st → L.eof st = (st, .go)) {qs : List (Sending Headers)} (h : Chain (fun keep q => Proper remote default_host c limit keep q) qs) : ∀ st : L.σ, idle st →
    ∃ (rs : List Request) (st' : L.σ) (gs : List Got), Conversation L c st rs st' ∧ rs.flatMap Request.wire = (qs.flatMap calls).flatMap (callText remote default_host) ∧ L.eof st' = (st', .go) ∧
      Each (Delivers remote default_host) qs gs ∧ rs.flatMap Request.calls = gs.flatMap Got.events ∧ rs.map (fun r => Got.mk r.headers r.payload (!r.keep)) = gs := by
  induction h with
  | nil => exact fun st hi => ⟨[], st, [], .nil st, rfl, he st hi, .nil, rfl, rfl⟩
  | @last keep q hq =>
    intro st hi
    obtain ⟨r, st', h1, h2, h3, h3', h4, h5⟩ := one_request hr hi hq
    exact ⟨[r], st', [gotOf remote default_host keep q], .cons h1 (.nil st'), by simp [h2], h4, .cons (got_delivers hq) .nil, by simp [h3], by simp [h3']⟩
  | @cons q qs hq _ ih =>
    intro st hi
    obtain ⟨r, st', h1, h2, h3, h3', h4, h5⟩ := one_request hr hi hq
    obtain ⟨rs, st'', gs, g1, g2, g3, g4, g5, g6⟩ := ih st' (h5 rfl)
    exact ⟨r :: rs, st'', gotOf remote default_host true q :: gs, .cons h1 g1, by simp only [List.flatMap_cons, List.flatMap_append, h2, g2], g3, .cons (got_delivers hq) g4, by simp only [List.flatMap_cons, h3, g5], by rw [List.map_cons, g6, h3']⟩

end

/-! ### Responses -/

section
variable {status_str : Nat → Bytes} {c : Cfg} {limit : Nat} {L : Lib} {idle : L.σ → Prop}

/-- What is assumed of the library for responses. -/
def ReplyReader (limit : Nat) (L : Lib) (idle : L.σ → Prop) : Prop :=
  ∀ st empty (r : WireReply), idle st → r.Valid limit empty →
      ∃ (reason : List Bytes) (fields : List (List Bytes × List Bytes)) (body : List Bytes) (st' : L.σ), reason ≠ [] ∧ reason.flatten = r.reason ∧ flat fields = r.fields ∧ (∀ p ∈ fields, p.1 ≠ [] ∧ p.2 ≠ []) ∧ body.flatten = r.body ∧
        (Client.Response.mk (r.head ++ r.text) r.status reason fields body r.keep).Reads L empty false st st' ∧ L.eof st' = (st', .go) ∧ (r.keep = true → idle st')

theorem replyBody_le (head : Bool) (a : Sending SHeaders) : (replyBody head a).length ≤ a.data.length := by
  cases a with
  | whole r data => simp only [replyBody]; split <;> simp [Sending.data]
  | chunks r ps => simp [replyBody, Sending.data]

theorem one_reply (hr : ReplyReader limit L idle) {st : L.σ} (hi : idle st) {head keep : Bool} {a : Sending SHeaders} (h : Suits status_str c limit head keep a) :
    ∃ (r : Client.Response) (st' : L.σ), r.Good L c head false st st' ∧ r.status ≠ 101 ∧ r.wire = replyBytes status_str head a ∧ r.calls = (answeredOf status_str head keep a).events ∧ Answered.mk r.headers r.body.flatten (!r.keep) = answeredOf status_str head keep a ∧ L.eof st' = (st', .go) ∧
      (keep = true → idle st') := by
  obtain ⟨reason, fields, body, st', h0, h1, h2, h3, h4, h5, h6, h7⟩ := hr st head _ hi (reply_valid h)
  refine ⟨⟨replyBytes status_str head a, a.headers.status, reason, fields, body, keep⟩, st', ⟨?_, h0, h3, ?_, ?_⟩, h.status.2.2, rfl, ?_, ?_, h6, h7⟩
  · rw [(reply_eq h).1]; exact h5
  · have e := (reply_eq h).2
    have e1 : replySize reason fields ≤ (replyOf status_str head keep a).head.length := by
      unfold replySize WireReply.head
      rw [h1, ← h2]
      have : (replyOf status_str head keep a).digits.length = 3 := (reply_valid h).digits.2
      simp only [List.length_append, flat_size, this]
      simp only [List.length_cons, List.length_nil]
      omega
    rw [e] at e1
    exact Nat.le_trans e1 h.head.1
  · show body.flatten.length ≤ _
    rw [h4]
    exact Nat.le_trans (replyBody_le head a) h.content.1
  · have e : body.flatten = replyBody head a := h4
    have e2 : flat fields = a.headers.headers ++ replyFraming a := h2
    have e3 : reason.flatten = reasonOf status_str a.headers := h1
    simp only [Client.Response.calls, Client.Response.headers, Answered.events, answeredOf, e, e3, flat_some, e2]
    cases keep <;> rfl
  · have e : body.flatten = replyBody head a := h4
    have e2 : flat fields = a.headers.headers ++ replyFraming a := h2
    have e3 : reason.flatten = reasonOf status_str a.headers := h1
    simp only [Client.Response.headers, answeredOf, e, e3, flat_some, e2]

theorem all_replies (hr : ReplyReader limit L idle) (he : ∀ st, idle st → L.eof st = (st, .go)) {as : List (Bool × Sending SHeaders)} (h : Chain (fun keep (a : Bool × Sending SHeaders) => Suits status_str c limit a.1 keep a.2) as) :
    ∀ (empty : Nat → Bool) (n : Nat), (∀ k (hk : k < as.length), empty (n + k) = as[k].1) → ∀ st : L.σ, idle st →
    ∃ (rs : List Client.Response) (st' : L.σ) (gs : List Answered), Client.Conversation L c empty n st rs st' ∧ rs.flatMap Client.Response.wire = as.flatMap (fun a => replyBytes status_str a.1 a.2) ∧ L.eof st' = (st', .go) ∧
      Each (fun (a : Bool × Sending SHeaders) g => Arrives status_str a.1 a.2 g) as gs ∧ rs.flatMap Client.Response.calls = gs.flatMap Answered.events ∧
      rs.map (fun r => Answered.mk r.headers r.body.flatten (!r.keep)) = gs := by
  induction h with
  | nil => exact fun empty n _ st hi => ⟨[], st, [], .nil n st, rfl, he st hi, .nil, rfl, rfl⟩
  | @last keep a ha =>
    intro empty n hn st hi
    obtain ⟨r, st', h1, h0, h2, h3, h3', h4, h5⟩ := one_reply hr hi ha
    have e := hn 0 (by simp)
    exact ⟨[r], st', [answeredOf status_str a.1 keep a.2], .cons (by rw [show empty n = a.1 from e]; exact h1) h0 (.nil _ st'), by simp [h2], h4, .cons (answered_arrives ha) .nil, by simp [h3], by simp [h3']⟩
  | @cons a as ha _ ih =>
    intro empty n hn st hi
    obtain ⟨r, st', h1, h0, h2, h3, h3', h4, h5⟩ := one_reply hr hi ha
    have e := hn 0 (by simp)
    obtain ⟨rs, st'', gs, g1, g2, g3, g4, g5, g6⟩ := ih empty (n + 1) (by intro k hk; have := hn (k + 1) (by simpa using hk); simpa [Nat.add_assoc, Nat.add_comm 1 k] using this) st' (h5 rfl)
    exact ⟨r :: rs, st'', answeredOf status_str a.1 true a.2 :: gs, .cons (by rw [show empty n = a.1 from e]; exact h1) h0 g1, by simp only [List.flatMap_cons, h2, g2], g3, .cons (answered_arrives ha) g4, by simp only [List.flatMap_cons, h3, g5], by rw [List.map_cons, g6, h3']⟩

/-! ### The connection -/

theorem closes_absent (V : Http.Lib) {hs : List (Bytes × Bytes)} (h : Absent hs (b! "Connection")) : closes V hs = false := by
  unfold closes
  rw [List.any_eq_false]
  intro f hf
  have : Http.name_eq f.1 (b! "Connection") = false := by
    cases hh : Http.name_eq f.1 (b! "Connection")
    · rfl
    · exact absurd ((HttpRequest.name_eq_iff _ _).mp hh) (h f hf)
  simp [this]

theorem sends_open (V : Http.Lib) (status_str : Nat → Bytes) (ps : List Bytes) : ∀ o : Out, o.shut = false →
    (ps.map Answer.chunked_send ++ [Answer.chunked_finish]).foldl (answer V status_str) o = { o with sent := o.sent ++ (ps.flatMap Http.chunked_send ++ Http.chunked_finish) } := by
  induction ps with
  | nil => intro o ho; simp [answer, Out.tcp_send, ho]
  | cons p ps ih =>
    intro o ho
    simp only [List.map_cons, List.cons_append, List.foldl_cons]
    rw [ih _ (by simp [answer, Out.tcp_send, ho])]
    simp [answer, Out.tcp_send, ho]

theorem one_open (V : Http.Lib) {head : Bool} {a : Sending SHeaders} (h : Suits status_str c limit head true a) (o : Out) (ho : o.shut = false) :
    (answers head a).foldl (answer V status_str) o = { o with sent := o.sent ++ replyBytes status_str head a } := by
  have hc := closes_absent V (h.kept rfl)
  cases a with
  | whole r data =>
    have hc : closes V r.headers = false := hc
    simp [answers, answer, Out.tcp_send, ho, hc, replyBytes]
  | chunks r ps =>
    have hc : closes V r.headers = false := hc
    simp only [answers, List.cons_append, List.foldl_cons]
    rw [sends_open V status_str ps _ (by simp [answer, Out.tcp_send, ho, hc])]
    simp [answer, Out.tcp_send, ho, hc, replyBytes]

theorem one_sent (V : Http.Lib) {head keep : Bool} {a : Sending SHeaders} (h : Suits status_str c limit head keep a) (o : Out) (ho : o.shut = false) :
    ((answers head a).foldl (answer V status_str) o).sent = o.sent ++ replyBytes status_str head a := by
  cases keep with
  | true => rw [one_open V h o ho]
  | false =>
    cases a with
    | whole r data =>
      simp only [answers, answer, Out.tcp_send, ho, replyBytes, List.foldl_cons, List.foldl_nil, Bool.false_eq_true, if_false]
      split <;> rfl
    | chunks r ps => exact absurd (h.chunks r ps rfl).2.2 (by simp)

theorem all_sent (V : Http.Lib) {as : List (Bool × Sending SHeaders)} (h : Chain (fun keep (a : Bool × Sending SHeaders) => Suits status_str c limit a.1 keep a.2) as) : ∀ o : Out, o.shut = false →
    ((as.flatMap (fun a => answers a.1 a.2)).foldl (answer V status_str) o).sent = o.sent ++ as.flatMap (fun a => replyBytes status_str a.1 a.2) := by
  induction h with
  | nil => intro o _; simp
  | @last keep a ha => intro o ho; simp only [List.flatMap_cons, List.flatMap_nil, List.append_nil]; exact one_sent V ha o ho
  | @cons a as ha _ ih =>
    intro o ho
    simp only [List.flatMap_cons, List.foldl_append]
    rw [one_open V ha o ho, ih { o with sent := o.sent ++ replyBytes status_str a.1 a.2 } ho]
    simp

end

end Verif.HttpExchange
