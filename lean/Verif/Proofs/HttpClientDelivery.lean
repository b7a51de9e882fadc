import Verif.Proofs.HttpClientSplit
/-! # Delivery of responses -/
namespace Verif.HttpClient
open Verif.HttpLib Verif.HttpResponse Verif.Spec.Client
open Verif.Spec (LibOk Emits replyCalls replySize)
open Verif.HttpRequest (as_string onLast startsNew Cfg Fail)

theorem exec_emits {c : Cfg} {L : Lib} {st st' : L.σ} {w : Bytes} {ds : List Data} (h : Emits L st w ds st') (p p' : Parser) (hp : onDatas c p ds = .ok p') (t : Bytes) :
    exec c L p st (w ++ t) = exec c L p' st' t := by
  induction h generalizing p with
  | nil st => simp only [onDatas, Except.ok.injEq] at hp; subst hp; rfl
  | cons st b w ds st' hgo _ ih =>
    rw [onDatas_append] at hp
    cases hq : onDatas c p (L.micro st b).2.1 with
    | error e => rw [hq] at hp; exact absurd hp (by simp)
    | ok q =>
      rw [hq] at hp
      simp only [List.cons_append, exec, hq, hgo]
      exact ih q hp

/-- The class that leaves payloads alone. -/
def plainApp (empty : Nat → Bool) : App where
  onHeaders := fun t _ => if empty (finished t) then .empty else .normal
  onStream := fun _ b => b

theorem finished_append (a b : List Ev) : finished (a ++ b) = finished a + finished b := List.countP_append

theorem finished_responses (t : List Ev) : finished (responses t) = finished t := by
  induction t with
  | nil => rfl
  | cons e t ih => cases e <;> simp_all [finished, responses]

theorem plainApp_plain (empty : Nat → Bool) : Plain (plainApp empty) :=
  ⟨fun _ _ => rfl, fun t t' h e => by simp only [plainApp]; rw [← finished_responses t, ← finished_responses t', e]⟩

/-- The parser behind the headers of a response. -/
def headed (r : Response) : Parser := { headers := r.headers, hresp := 1, close := !r.keep }

/-- The head of a response. -/
theorem phase_head {c : Cfg} {L : Lib} (empty : Nat → Bool) (eof : Bool) (s : Sess L) (r : Response) (t w1 w2 : Bytes) (b : Byte) (d1 d2 : List Data) (s1 s2 : L.σ) (m : Bytes) (n : Nat)
    (hp : s.p = {}) (hre : r.reason ≠ []) (hpc : ∀ h ∈ r.fields, h.1 ≠ [] ∧ h.2 ≠ []) (hsz : replySize r.reason r.fields ≤ c.max_header_length)
    (hw : r.wire = w1 ++ b :: w2) (em : Emits L s.st w1 d1 s1) (mi : L.micro s1 b = (s2, d2, .headers m n r.keep)) (hd : replyCalls r.status r.reason r.fields = d1 ++ d2) :
    headersPhase (plainApp empty) c s (r.wire ++ t) eof
      = .next { s with p := headed r, st := if empty (finished s.trace) then L.skip s2 else s2, trace := s.trace ++ [.headers r.headers] } (b :: (w2 ++ t)) := by
  have hall := head_all c r.status r.reason r.fields hre hpc
  rw [if_neg (by intro h; omega), hd, onDatas_append] at hall
  cases hq : onDatas c {} d1 with
  | error x => rw [hq] at hall; exact absurd hall (by simp)
  | ok q1 =>
    rw [hq] at hall
    simp only at hall
    have hx : exec c L s.p s.st (r.wire ++ t) = .ok ({ headed r with errno := .paused }, s2, b :: (w2 ++ t)) := by
      rw [hp, hw, List.append_assoc, exec_emits em {} q1 hq]
      simp only [List.cons_append, exec, mi, hall, on_headers_complete, headed, Response.headers]
    unfold headersPhase parse_headers
    rw [if_neg (by rw [hp]; simp), if_neg (by rw [hp]; simp)]
    unfold parse
    rw [hx]
    have : (if eof = true then execEof L { headed r with errno := .paused } s2 else ({ headed r with errno := .paused }, s2)) = ({ headed r with errno := .paused }, s2) := by
      split <;> simp [execEof]
    simp only [this, if_true, onHead, afterParse, plainApp, Sess.call]
    rw [if_neg (by simp [headed]), if_neg (by simp [headed])]
    split
    · rename_i h; simp only [afterHeaders]; simp [headed]
    · rename_i h; simp only [afterHeaders]; simp [headed]

/-- The calls for a response, with one for the payload. -/
theorem response_trace (t : List Ev) (r : Response) (b : Bytes) : responses (t ++ [.headers r.headers] ++ [.stream b] ++ .finish r.headers r.body.flatten :: closing (!r.keep)) = responses t ++ r.calls := by
  simp only [responses_append, Response.calls, closing]
  cases r.keep <;> simp [responses]

theorem tunnel_trace (t : List Ev) (r : Response) (b : Bytes) : tunnel (t ++ [.headers r.headers] ++ [.stream b] ++ .finish r.headers r.body.flatten :: closing (!r.keep)) = tunnel t := by
  simp only [tunnel_append, closing]
  cases r.keep <;> simp [tunnel]

theorem body_all {c : Cfg} {r : Response} (h : r.body.flatten.length ≤ c.max_content_length) : onDatas c (headed r) (r.body.map .body) = .ok { headed r with payload := r.body.flatten } := by
  rw [payload_all c (headed r) r.body (by simp [headed]), if_neg (by simp [headed] at h ⊢; omega)]
  simp [headed]

/-- One response, at the start of an iteration. -/
theorem loop_response {c : Cfg} {L : Lib} (empty : Nat → Bool) (eof : Bool) (n : Nat) (s : Sess L) (r : Response) (st' : L.σ) (t : Bytes)
    (hf : s.failed = none) (ha : s.ack = false) (hp : s.p = {}) (hr : r.Good L c (empty (finished s.trace)) false s.st st') :
    ∃ s', loop (plainApp empty) c eof (n + 1) s (r.wire ++ t) = loop (plainApp empty) c eof n s' t ∧ s'.failed = none ∧ s'.ack = (r.status == 101) ∧ s'.p = {} ∧ s'.st = st' ∧
      responses s'.trace = responses s.trace ++ r.calls ∧ tunnel s'.trace = tunnel s.trace := by
  obtain ⟨w1, b, w2, d1, d2, s1, s2, m, k, d3, s3, hw, em1, m1, hd, hrest⟩ := hr.reads
  simp only [Bool.false_eq_true, if_false] at hrest
  obtain ⟨w3, e, d4, hw', em2, m2, hb⟩ := hrest
  have h1 := phase_head empty eof s r t w1 w2 b d1 d2 s1 s2 m k hp hr.reason hr.pieces hr.head_size hw em1 m1 hd
  generalize hss : (if empty (finished s.trace) then L.skip s2 else s2) = ts at h1 em2
  have hbody := body_all hr.body_size
  rw [hb, onDatas_append] at hbody
  cases hq4 : onDatas c (headed r) d3 with
  | error x => rw [hq4] at hbody; exact absurd hbody (by simp)
  | ok q4 =>
    rw [hq4] at hbody
    simp only at hbody
    have hy : exec c L (headed r) ts (b :: (w2 ++ t)) = .ok ({ headed r with payload := r.body.flatten, hresp := 2, errno := .paused }, st', t) := by
      rw [show b :: (w2 ++ t) = w3 ++ e :: t by rw [← List.cons_append, hw']; simp, exec_emits em2 (headed r) q4 hq4]
      simp only [exec, m2, hbody, on_message_complete]
    have h2 : payloadPhase (plainApp empty) c { s with p := headed r, st := ts, trace := s.trace ++ [.headers r.headers] } (b :: (w2 ++ t)) eof
        = .next { s with p := { headed r with payload := r.body.flatten, hresp := 2 }, st := st', ack := s.ack || r.status == 101, trace := s.trace ++ [.headers r.headers] ++ [.stream r.body.flatten] ++ .finish r.headers r.body.flatten :: closing (!r.keep) } t := by
      unfold payloadPhase parse_payload
      rw [if_neg (by simp [headed]), if_neg (by simp [headed]), if_neg (by simp [headed])]
      unfold parse
      rw [hy]
      have : (if eof = true then execEof L { headed r with payload := r.body.flatten, hresp := 2, errno := .paused } st'
          else ({ headed r with payload := r.body.flatten, hresp := 2, errno := .paused }, st')) = ({ headed r with payload := r.body.flatten, hresp := 2, errno := .paused }, st') := by
        split <;> simp [execEof]
      simp only [this, if_true, onPayload, afterPayload, plainApp, Sess.call]
      simp [headed, Response.headers]
    refine ⟨{ s with p := {}, st := st', ack := s.ack || r.status == 101, trace := s.trace ++ [.headers r.headers] ++ [.stream r.body.flatten] ++ .finish r.headers r.body.flatten :: closing (!r.keep) }, ?_, hf, by simp [ha], rfl, rfl, response_trace _ _ _, tunnel_trace _ _ _⟩
    rw [loop_succ, if_neg (by simp [ha]), if_neg (by rw [hp]; simp), h1]
    simp only [finishIter, h2]
    rfl

theorem calls_finished (r : Response) : finished r.calls = 1 := by
  unfold Response.calls; cases r.keep <;> simp [finished]

/-- Responses one after another. -/
theorem loop_conversation {c : Cfg} {L : Lib} (empty : Nat → Bool) (eof : Bool) (s : Sess L) (rs : List Response) (st' : L.σ) (t : Bytes) (hf : s.failed = none) (ha : s.ack = false) (hp : s.p = {})
    (k : Nat) (hk : finished s.trace = k) (hr : Conversation L c empty k s.st rs st') (n : Nat) :
    ∃ s', loop (plainApp empty) c eof (rs.length + n) s (rs.flatMap Response.wire ++ t) = loop (plainApp empty) c eof n s' t ∧ s'.failed = none ∧ s'.ack = false ∧ s'.p = {} ∧ s'.st = st' ∧
      finished s'.trace = k + rs.length ∧ responses s'.trace = responses s.trace ++ rs.flatMap Response.calls ∧ tunnel s'.trace = tunnel s.trace := by
  induction rs generalizing s k with
  | nil => cases hr; exact ⟨s, by simp, hf, ha, hp, rfl, by simpa using hk, by simp, rfl⟩
  | cons r rs ih =>
    cases hr with
    | cons h1 h2 h3 =>
      subst hk
      obtain ⟨s1, e1, e2, e3, e4, e5, e6, e7⟩ := loop_response empty eof (rs.length + n) s r _ (rs.flatMap Response.wire ++ t) hf ha hp h1
      subst e5
      have hfin : finished s1.trace = finished s.trace + 1 := by rw [← finished_responses, e6, finished_append, finished_responses, calls_finished]
      obtain ⟨s2, f1, f2, f3, f4, f5, f6, f7, f8⟩ := ih s1 e2 (by rw [e3]; simpa using h2) e4 _ hfin h3
      refine ⟨s2, ?_, f2, f3, f4, f5, by rw [f6]; simp; omega, by rw [f7, e6, List.flatMap_cons, List.append_assoc], by rw [f8, e7]⟩
      rw [List.flatMap_cons, List.append_assoc, List.length_cons, show rs.length + 1 + n = rs.length + n + 1 by omega, e1, f1]

theorem response_nonempty {L : Lib} {empty eof : Bool} {st st' : L.σ} {r : Response} (h : r.Reads L empty eof st st') : r.wire ≠ [] := by
  obtain ⟨w1, b, w2, d1, d2, s1, s2, m, k, d3, s3, hw, -⟩ := h
  rw [hw]; simp

theorem conversation_length {L : Lib} {c : Cfg} {empty : Nat → Bool} {n : Nat} {st st' : L.σ} {rs : List Response} (h : Conversation L c empty n st rs st') : rs.length ≤ (rs.flatMap Response.wire).length := by
  induction h with
  | nil => simp
  | cons h1 _ _ ih =>
    have := response_nonempty h1.reads
    have : 0 < (Response.wire _).length := List.length_pos_iff.mpr this
    simp only [List.length_cons, List.flatMap_cons, List.length_append]
    omega

/-- Between responses, the end of the stream and the absence of data do nothing. -/
theorem idle_loop {A : App} {c : Cfg} {L : Lib} (eof : Bool) (s : Sess L) (n : Nat) (ha : s.ack = false) (hp : s.p = {}) (hq : eof = true → (L.eof s.st).2 = .go) :
    ∃ st, loop A c eof (n + 1) s [] = some ({ s with st := st }, []) := by
  rw [loop_succ, if_neg (by simp [ha]), if_neg (by rw [hp]; simp)]
  have : ∃ st, headersPhase A c s [] eof = .ret { s with st := st } [] := by
    unfold headersPhase parse_headers parse
    rw [if_neg (by rw [hp]; simp), if_neg (by rw [hp]; simp)]
    cases eof with
    | false =>
      refine ⟨s.st, ?_⟩
      simp only [exec, Bool.false_eq_true, if_false]
      rw [if_neg (by rw [hp]; simp)]
      simp only [onHead, afterParse]
      rw [if_neg (by rw [hp]; simp), if_pos (by rw [hp]; simp)]
    | true =>
      refine ⟨(L.eof s.st).1, ?_⟩
      have hee : execEof L s.p s.st = (s.p, (L.eof s.st).1) := by
        unfold execEof
        rw [if_neg (by rw [hp]; simp), hq rfl]
      simp only [exec, if_true, hee]
      rw [if_neg (by rw [hp]; simp)]
      simp only [onHead, afterParse]
      rw [if_neg (by rw [hp]; simp), if_pos (by rw [hp]; simp)]
  obtain ⟨st, h⟩ := this
  exact ⟨st, by rw [h]⟩

/-- What arrives is the same as one piece, perhaps followed by the end of the stream. -/
theorem arrival_one {A : App} (hA : Plain A) {c : Cfg} {L : Lib} {body : L.σ → Prop} (hL : ReplyLib L body) (l : List Bytes) (eof : Bool) (w : Bytes) (hl : l.flatten = w) {s1 s2 : Sess L}
    (h1 : loop A c false (w.length + 2) {} w = some (s1, [])) (h2 : if eof then step A c s1 [] ⟨[], true⟩ = some (s2, []) else s2 = s1) :
    ∃ s, run A c ({} : Sess L) [] (arrival l eof) = some (s, []) ∧ Same s s2 := by
  obtain ⟨s, s', e1, e2, e3⟩ := run_arrival (c := c) hA hL l [w] eof (by simpa using hl)
  refine ⟨s, e1, ?_⟩
  have : run A c ({} : Sess L) [] (arrival [w] eof) = some (s2, []) := by
    unfold arrival
    simp only [List.map_cons, List.map_nil, List.cons_append, List.nil_append, run]
    rw [step_receive _ _ _ rfl rfl, h1]
    cases eof with
    | false => simp only [Bool.false_eq_true, if_false] at h2 ⊢; rw [h2]; rfl
    | true => simp only [if_true] at h2 ⊢; simp [run, h2]
  rw [this] at e2
  simp only [Option.some.injEq, Prod.mk.injEq, and_true] at e2
  rwa [← e2] at e3

theorem plain_conversation {c : Cfg} {L : Lib} {body : L.σ → Prop} (hL : ReplyLib L body) (empty : Nat → Bool) (rs : List Response) (st' : L.σ) (hr : Conversation L c empty 0 L.init rs st') (eof : Bool)
    (he : eof = true → (L.eof st').2 = .go) (l : List Bytes) (hl : l.flatten = rs.flatMap Response.wire) :
    ∃ s, run (plainApp empty) c ({} : Sess L) [] (arrival l eof) = some (s, []) ∧ s.failed = none ∧ responses s.trace = rs.flatMap Response.calls ∧ tunnel s.trace = [] := by
  have hlen := conversation_length hr
  obtain ⟨s1, e1, e2, e3, e4, e5, -, e7, e8⟩ := loop_conversation empty false ({} : Sess L) rs st' [] rfl rfl rfl 0 rfl hr ((rs.flatMap Response.wire).length + 2 - rs.length)
  obtain ⟨n, hn⟩ : ∃ n, (rs.flatMap Response.wire).length + 2 - rs.length = n + 1 := ⟨_, (Nat.succ_pred (by omega)).symm⟩
  obtain ⟨st1, i1⟩ := idle_loop (A := plainApp empty) (c := c) false s1 n e3 e4 (by simp)
  rw [List.append_nil, show rs.length + ((rs.flatMap Response.wire).length + 2 - rs.length) = (rs.flatMap Response.wire).length + 2 by omega, hn, i1] at e1
  have hst : st1 = st' := by
    -- nothing has been read
    rw [loop_succ, if_neg (by simp [e3]), if_neg (by rw [e4]; simp)] at i1
    unfold headersPhase parse_headers parse at i1
    rw [if_neg (by rw [e4]; simp), if_neg (by rw [e4]; simp)] at i1
    simp only [exec, Bool.false_eq_true, if_false] at i1
    rw [if_neg (by rw [e4]; simp)] at i1
    simp only [onHead, afterParse] at i1
    rw [if_neg (by rw [e4]; simp), if_pos (by rw [e4]; simp)] at i1
    simp only [Option.some.injEq, Prod.mk.injEq, Sess.mk.injEq, and_true, true_and] at i1
    rw [← i1, e5]
  subst hst
  cases eof with
  | false =>
    obtain ⟨s, h1, h2⟩ := arrival_one (plainApp_plain empty) hL l false _ hl e1 (s2 := { s1 with st := st1 }) (by simp)
    exact ⟨s, h1, by rw [h2.failed, ← e2], by rw [h2.req]; exact e7, by rw [h2.tun]; exact e8⟩
  | true =>
    obtain ⟨st2, i2⟩ := idle_loop (A := plainApp empty) (c := c) true ({ s1 with st := st1 } : Sess L) 1 e3 e4 he
    obtain ⟨s, h1, h2⟩ := arrival_one (plainApp_plain empty) hL l true _ hl e1 (s2 := { s1 with st := st2 }) (by
      simp only [if_true]
      rw [step_receive _ _ _ (by exact e2) (by exact e3)]
      exact i2)
    exact ⟨s, h1, by rw [h2.failed, ← e2], by rw [h2.req]; exact e7, by rw [h2.tun]; exact e8⟩

/-- Responses, then one with status 101, then data of another protocol. -/
theorem plain_switch {c : Cfg} {L : Lib} {body : L.σ → Prop} (hL : ReplyLib L body) (empty : Nat → Bool) (rs : List Response) (r : Response) (st st' : L.σ) (hr : Conversation L c empty 0 L.init rs st)
    (h : r.Good L c (empty rs.length) false st st') (h101 : r.status = 101) (t : Bytes) (eof : Bool) (l : List Bytes) (hl : l.flatten = rs.flatMap Response.wire ++ r.wire ++ t) :
    ∃ s, run (plainApp empty) c ({} : Sess L) [] (arrival l eof) = some (s, []) ∧ s.failed = none ∧ responses s.trace = rs.flatMap Response.calls ++ r.calls ∧ tunnel s.trace = t := by
  have hlen := conversation_length hr
  have hne := response_nonempty h.reads
  have : 0 < r.wire.length := List.length_pos_iff.mpr hne
  have hN : rs.length + 2 ≤ (rs.flatMap Response.wire ++ r.wire ++ t).length + 2 := by simp only [List.length_append]; omega
  obtain ⟨n, hn⟩ : ∃ n, (rs.flatMap Response.wire ++ r.wire ++ t).length + 2 = rs.length + (n + 1 + 1) := ⟨(rs.flatMap Response.wire ++ r.wire ++ t).length - rs.length, by simp only [List.length_append]; omega⟩
  obtain ⟨s1, e1, e2, e3, e4, e5, e6, e7, e8⟩ := loop_conversation empty false ({} : Sess L) rs st (r.wire ++ t) rfl rfl rfl 0 rfl hr (n + 1 + 1)
  subst e5
  obtain ⟨s2, f1, f2, f3, f4, f5, f6, f7⟩ := loop_response empty false (n + 1) s1 r st' t e2 e3 e4 (by rw [e6]; simpa using h)
  have hack : s2.ack = true := by rw [f3, h101]; rfl
  rw [f1, loop_succ, if_pos hack] at e1
  have hreq : ∀ d e, responses (s2.trace ++ [.upgraded d e]) = rs.flatMap Response.calls ++ r.calls := by
    intro d e
    rw [responses_append, f6, e7]
    simp [responses]
  have htun : tunnel (s2.trace ++ [.upgraded t false]) = t := by
    rw [tunnel_append, f7, e8]
    simp [tunnel]
  cases eof with
  | false =>
    obtain ⟨s, h1, h2⟩ := arrival_one (plainApp_plain empty) (c := c) hL l false _ hl (by rw [hn, List.append_assoc]; exact e1) (s2 := (({ s2 with p := deallocate s2.p } : Sess L).call (.upgraded t false))) (by simp)
    exact ⟨s, h1, by rw [h2.failed]; exact f2, by rw [h2.req]; exact hreq _ _, by rw [h2.tun]; exact htun⟩
  | true =>
    obtain ⟨s, h1, h2⟩ := arrival_one (plainApp_plain empty) (c := c) hL l true _ hl (by rw [hn, List.append_assoc]; exact e1)
      (s2 := ((({ s2 with p := deallocate s2.p } : Sess L).call (.upgraded t false)).call (.upgraded [] true))) (by
        simp only [if_true]
        exact step_ack _ [] true f2 hack)
    refine ⟨s, h1, by rw [h2.failed]; exact f2, ?_, ?_⟩
    · rw [h2.req]
      simp only [Sess.call]
      rw [responses_append, hreq]
      simp [responses]
    · rw [h2.tun]
      simp only [Sess.call]
      rw [tunnel_append, htun]
      simp [tunnel]

/-- Responses, the last of which ends with the stream. -/
theorem plain_last {c : Cfg} {L : Lib} {body : L.σ → Prop} (hL : ReplyLib L body) (empty : Nat → Bool) (rs : List Response) (r : Response) (st st' : L.σ) (hr : Conversation L c empty 0 L.init rs st)
    (h : r.Good L c (empty rs.length) true st st') (h101 : r.status ≠ 101) (he : (L.eof st').2 = .go) (l : List Bytes) (hl : l.flatten = rs.flatMap Response.wire ++ r.wire) :
    ∃ s, run (plainApp empty) c ({} : Sess L) [] (arrival l true) = some (s, []) ∧ s.failed = none ∧ responses s.trace = rs.flatMap Response.calls ++ r.calls ∧ tunnel s.trace = [] := by
  have hlen := conversation_length hr
  obtain ⟨n, hn⟩ : ∃ n, (rs.flatMap Response.wire ++ r.wire).length + 2 = rs.length + (n + 1) := ⟨(rs.flatMap Response.wire ++ r.wire).length + 1 - rs.length, by simp only [List.length_append]; omega⟩
  obtain ⟨s1, e1, e2, e3, e4, e5, e6, e7, e8⟩ := loop_conversation empty false ({} : Sess L) rs st r.wire rfl rfl rfl 0 rfl hr (n + 1)
  subst e5
  obtain ⟨w1, b, w2, d1, d2, t1, t2, m, k, d3, t3, hw, em1, m1, hd, hrest⟩ := h.reads
  simp only [if_true] at hrest
  obtain ⟨em2, m2, hb⟩ := hrest
  have e6' : finished s1.trace = rs.length := by rw [e6]; simp
  have h1 := phase_head empty false s1 r [] w1 w2 b d1 d2 t1 t2 m k e4 h.reason h.pieces h.head_size hw em1 m1 hd
  rw [List.append_nil, List.append_nil, e6'] at h1
  generalize hss : (if empty rs.length then L.skip t2 else t2) = ts at h1 em2
  have hbody := body_all h.body_size
  rw [hb] at hbody
  -- the session when the stream ends
  generalize hs2 : ({ s1 with p := { headed r with payload := r.body.flatten }, st := t3, trace := s1.trace ++ [.headers r.headers] ++ [.stream r.body.flatten] } : Sess L) = s2
  have h2 : payloadPhase (plainApp empty) c { s1 with p := headed r, st := ts, trace := s1.trace ++ [.headers r.headers] } (b :: w2) false = .ret s2 [] := by
    have hy : exec c L (headed r) ts (b :: w2) = .ok ({ headed r with payload := r.body.flatten }, t3, []) := by
      rw [← List.append_nil (b :: w2), exec_emits em2 (headed r) _ hbody]; rfl
    unfold payloadPhase parse_payload
    rw [if_neg (by simp [headed]), if_neg (by simp [headed]), if_neg (by simp [headed])]
    unfold parse
    rw [hy]
    simp only [Bool.false_eq_true, if_false, onPayload, afterPayload, plainApp, Sess.call]
    simp [headed, ← hs2]
  have hfirst : loop (plainApp empty) c false ((rs.flatMap Response.wire ++ r.wire).length + 2) ({} : Sess L) (rs.flatMap Response.wire ++ r.wire) = some (s2, []) := by
    rw [hn, e1, loop_succ, if_neg (by simp [e3]), if_neg (by rw [e4]; simp), h1]
    simp only [finishIter, h2]
  generalize hs3 : ({ s1 with p := {}, st := st', trace := s1.trace ++ [.headers r.headers] ++ [.stream r.body.flatten] ++ [.stream r.body.flatten] ++ .finish r.headers r.body.flatten :: closing (!r.keep) } : Sess L) = s3
  obtain ⟨st4, i1⟩ := idle_loop (A := plainApp empty) (c := c) true s3 0 (by rw [← hs3]; exact e3) (by rw [← hs3]) (fun _ => by rw [← hs3]; exact he)
  have hsecond : step (plainApp empty) c s2 [] ⟨[], true⟩ = some ({ s3 with st := st4 }, []) := by
    have h2a : s2.ack = false := by rw [← hs2]; exact e3
    have h2p : s2.p = { headed r with payload := r.body.flatten } := by rw [← hs2]
    have h2s : s2.st = t3 := by rw [← hs2]
    rw [step_receive _ _ _ (by rw [← hs2]; exact e2) h2a, show ([] : Bytes).length + 2 = 1 + 1 from rfl,
      loop_within true 1 s2 [] h2a (by rw [h2p]; rfl) (by rw [h2p]; rfl)]
    unfold finishIter payloadPhase parse_payload parse
    rw [if_neg (by rw [h2p]; simp [headed]), if_neg (by rw [h2p]; simp [headed]), if_neg (by rw [h2p]; simp [headed])]
    have hee : execEof L s2.p s2.st = (on_message_complete s2.p, st') := by
      unfold execEof
      rw [if_neg (by rw [h2p]; simp [headed]), h2s, m2]
    simp only [exec, if_true, hee]
    simp only [on_message_complete, if_true, onPayload, afterPayload, plainApp, Sess.call, h2p]
    rw [if_neg (by simp), if_neg (by simp)]
    simp only
    rw [← i1, ← hs3, ← hs2]
    have : (false || r.headers.status == 101) = false := by simpa [Response.headers] using h101
    simp only [next_message, headed, e3, this]
    rfl
  obtain ⟨s, g1, g2⟩ := arrival_one (plainApp_plain empty) (c := c) hL l true _ hl hfirst (s2 := { s3 with st := st4 }) (by simp only [if_true]; exact hsecond)
  refine ⟨s, g1, by rw [g2.failed, ← hs3]; exact e2, ?_, ?_⟩
  · rw [g2.req, ← hs3]
    simp only [responses_append, e7, Response.calls, closing]
    cases r.keep <;> simp [responses]
  · rw [g2.tun, ← hs3]
    simp only [tunnel_append, e8, closing]
    cases r.keep <;> simp [tunnel]

end Verif.HttpClient
