import Verif.Proofs.HttpServerSplit
/-! # HTTP server sessions: delivery to a class that consumes nothing early -/
namespace Verif.HttpServer
open Verif.HttpLib Verif.HttpRequest Verif.Spec

/-! ### Delivery -/

theorem exec_emits {c : Cfg} {L : Lib} {st st' : L.σ} {w : Bytes} {ds : List Data} (h : Emits L st w ds st') (p p' : Parser) (hp : onDatas c p ds = .ok p') (t : Bytes) :
    exec c L p st (w ++ t) = exec c L p' st' t := by
  induction h generalizing p with
  | nil st => simp only [onDatas, Except.ok.injEq] at hp; subst hp; rfl
  | cons st b w ds st' hgo _ ih =>
    rw [onDatas_append] at hp
    cases hq : onDatas c p (L.micro st b).2.1 with
    | error e => rw [hq] at hp; exact absurd hp (by simp)
    | ok q =>
      rw [hq] at hp
      simp only [List.cons_append, exec, hq, hgo]
      exact ih q hp

/-- The class that consumes nothing early. -/
def plainApp (sw : Nat → Bool) : App where
  onHeaders := fun _ _ _ => {}
  onStream := fun _ b => b
  onFinish := fun t _ _ _ => sw (finished t)

theorem finished_append (a b : List Ev) : finished (a ++ b) = finished a + finished b := List.countP_append

theorem finished_requests (t : List Ev) : finished (requests t) = finished t := by
  induction t with
  | nil => rfl
  | cons e t ih => cases e <;> simp_all [finished, requests]

theorem plainApp_plain (sw : Nat → Bool) : Plain (plainApp sw) :=
  ⟨fun _ _ => rfl, fun _ _ _ _ _ => rfl, fun t t' h b e he => by simp only [plainApp]; rw [← finished_requests t, ← finished_requests t', he], fun _ _ _ => rfl⟩

/-- One request, at the start of an iteration. -/
theorem loop_request {c : Cfg} {L : Lib} (sw : Nat → Bool) (eof : Bool) (n : Nat) (s : Sess L) (r : Request) (st' : L.σ) (t : Bytes)
    (hf : s.failed = none) (ha : s.ack = false) (hp : s.p = {}) (hr : r.Good L c s.st st') :
    ∃ s', loop (plainApp sw) c eof (n + 1) s (r.wire ++ t) = loop (plainApp sw) c eof n s' t ∧ s'.failed = none ∧ s'.ack = sw (finished s.trace) ∧ s'.p = {} ∧ s'.st = st' ∧
      requests s'.trace = requests s.trace ++ r.calls ∧ tunnel s'.trace = tunnel s.trace := by
  obtain ⟨w1, b, w2, d1, d2, s1, s2, k, w3, e, d3, d4, s3, hw, hw', em1, m1, hd, em2, m2, hb⟩ := hr.reads
  -- the head
  have hall := head_all c r.url r.fields hr.pieces
  rw [if_neg (by have := hr.head_size; omega), hd, onDatas_append] at hall
  cases hq : onDatas c {} d1 with
  | error x => rw [hq] at hall; exact absurd hall (by simp)
  | ok q1 =>
    rw [hq] at hall
    simp only at hall
    generalize hq2 : ({ headers := { raw_host := r.url.flatten, headers := r.fields.map (fun h => (h.1.flatten, some h.2.flatten)) } } : Parser) = q2 at hall
    have hx : exec c L s.p s.st (r.wire ++ t) = .ok (on_headers_complete q2 r.method r.keep, s2, b :: (w2 ++ t)) := by
      rw [hp, hw, List.append_assoc, exec_emits em1 {} q1 hq]
      simp only [List.cons_append, exec, m1, hall]
    have hc : on_headers_complete q2 r.method r.keep = { headers := r.headers, hreq := 1, close := !r.keep, errno := .paused } := by
      unfold on_headers_complete
      rw [if_neg (by have := hr.method_size; omega), ← hq2]
      simp only [hr.target]
    rw [hc] at hx
    have hpl : plainHeaders r.headers = r.headers := by
      unfold plainHeaders
      split
      · rfl
      · rename_i h
        have := hr.plain (by simpa using h)
        rw [← this]
    -- the payload
    generalize hq3 : ({ headers := r.headers, hreq := 1, close := !r.keep } : Parser) = q3
    have hbody : onDatas c q3 (d3 ++ d4) = .ok { q3 with payload := r.payload } := by
      rw [← hb, payload_all c q3 r.body (by rw [← hq3]; simp)]
      rw [← hq3]
      unfold Request.payload
      split
      · rw [if_neg (by have := hr.body_size; simp only [List.length_nil, Nat.zero_add]; omega)]
        simp
      · rfl
    rw [onDatas_append] at hbody
    cases hq4 : onDatas c q3 d3 with
    | error x => rw [hq4] at hbody; exact absurd hbody (by simp)
    | ok q4 =>
      rw [hq4] at hbody
      simp only at hbody
      have hy : exec c L q3 s2 (b :: (w2 ++ t)) = .ok ({ q3 with payload := r.payload, hreq := 2, errno := .paused }, st', t) := by
        rw [show b :: (w2 ++ t) = w3 ++ e :: t by rw [← List.cons_append, hw']; simp, exec_emits em2 q3 q4 hq4]
        simp only [exec, m2, hbody, on_message_complete]
      -- the iteration
      have h1 : headersPhase (plainApp sw) c s (r.wire ++ t) eof
          = .next { s with p := q3, st := s2, trace := s.trace ++ [.headers r.headers !r.keep] } (b :: (w2 ++ t)) := by
        unfold headersPhase parse_headers
        rw [if_neg (by rw [hp]; simp), if_neg (by rw [hp]; simp)]
        unfold parse
        rw [hx]
        have : (if eof = true then execEof L ({ headers := r.headers, hreq := 1, close := !r.keep, errno := .paused } : Parser) s2
            else ({ headers := r.headers, hreq := 1, close := !r.keep, errno := .paused }, s2)) = ({ headers := r.headers, hreq := 1, close := !r.keep, errno := .paused }, s2) := by
          split <;> simp [execEof]
        simp only [this, if_true, onHead, afterParse, hpl, if_neg hr.host, plainApp, afterHeaders, Sess.call]
        simp [← hq3]
      have h2 : payloadPhase (plainApp sw) c { s with p := q3, st := s2, trace := s.trace ++ [.headers r.headers !r.keep] } (b :: (w2 ++ t)) eof
          = .next { s with p := { q3 with payload := r.payload, hreq := 2 }, st := st', ack := sw (finished s.trace), trace := s.trace ++ [.headers r.headers !r.keep] ++ [.stream r.payload] ++ [.finish r.headers r.payload !r.keep] } t := by
        unfold payloadPhase parse_payload
        rw [if_neg (by rw [← hq3]; simp), if_neg (by rw [← hq3]; simp), if_neg (by rw [← hq3]; simp)]
        unfold parse
        rw [hy]
        have : (if eof = true then execEof L ({ q3 with payload := r.payload, hreq := 2, errno := .paused } : Parser) st'
            else ({ q3 with payload := r.payload, hreq := 2, errno := .paused }, st')) = ({ q3 with payload := r.payload, hreq := 2, errno := .paused }, st') := by
          split <;> simp [execEof]
        simp only [this, if_true, onPayload, afterPayload, plainApp, Sess.call]
        simp [← hq3, finished, ha]
      refine ⟨{ s with p := {}, st := st', ack := sw (finished s.trace), trace := s.trace ++ [.headers r.headers !r.keep] ++ [.stream r.payload] ++ [.finish r.headers r.payload !r.keep] }, ?_, hf, rfl, rfl, rfl, ?_, ?_⟩
      · rw [loop_succ, if_neg (by simp [ha]), if_neg (by rw [hp]; simp), h1]
        simp only [finishIter, h2]
        rw [← hq3]
        rfl
      · simp only [requests_append]
        simp [requests, Request.calls]
      · simp only [tunnel_append]
        simp [tunnel]

theorem calls_finished (r : Request) : finished r.calls = 1 := by
  simp [Request.calls, finished]

/-- Requests one after another. -/
theorem loop_conversation {c : Cfg} {L : Lib} (sw : Nat → Bool) (eof : Bool) (s : Sess L) (rs : List Request) (st' : L.σ) (t : Bytes) (hf : s.failed = none) (ha : s.ack = false) (hp : s.p = {})
    (hr : Conversation L c s.st rs st') (hsw : ∀ k, finished s.trace ≤ k → k < finished s.trace + rs.length → sw k = false) (n : Nat) :
    ∃ s', loop (plainApp sw) c eof (rs.length + n) s (rs.flatMap Request.wire ++ t) = loop (plainApp sw) c eof n s' t ∧ s'.failed = none ∧ s'.ack = false ∧ s'.p = {} ∧ s'.st = st' ∧
      finished s'.trace = finished s.trace + rs.length ∧ requests s'.trace = requests s.trace ++ rs.flatMap Request.calls ∧ tunnel s'.trace = tunnel s.trace := by
  induction rs generalizing s with
  | nil => cases hr; exact ⟨s, by simp, hf, ha, hp, rfl, rfl, by simp, rfl⟩
  | cons r rs ih =>
    cases hr with
    | cons h1 h2 =>
      obtain ⟨s1, e1, e2, e3, e4, e5, e6, e7⟩ := loop_request sw eof (rs.length + n) s r _ (rs.flatMap Request.wire ++ t) hf ha hp h1
      subst e5
      have hfin : finished s1.trace = finished s.trace + 1 := by
        rw [← finished_requests, e6, finished_append, finished_requests, calls_finished]
      rw [hsw _ (Nat.le_refl _) (by simp)] at e3
      obtain ⟨s2, f1, f2, f3, f4, f5, f6, f7, f8⟩ := ih s1 e2 e3 e4 h2 (fun k hk hk' => hsw k (by omega) (by simp; omega))
      refine ⟨s2, ?_, f2, f3, f4, f5, by rw [f6, hfin]; simp; omega, by rw [f7, e6, List.flatMap_cons, List.append_assoc], by rw [f8, e7]⟩
      rw [show (r :: rs).length + n = (rs.length + n) + 1 by simp; omega, List.flatMap_cons, List.append_assoc, e1, f1]

theorem reads_nonempty {L : Lib} {st st' : L.σ} {w : Bytes} {a b : List Data} {m : Bytes} {k : Bool} (h : Reads L st w a b m k st') : w ≠ [] := by
  obtain ⟨w1, b, w2, d1, d2, s1, s2, k, w3, e, d3, d4, s3, rfl, -⟩ := h
  simp

theorem conversation_length {L : Lib} {c : Cfg} {st st' : L.σ} {rs : List Request} (h : Conversation L c st rs st') : rs.length ≤ (rs.flatMap Request.wire).length := by
  induction h with
  | nil => simp
  | cons h1 _ ih =>
    have := reads_nonempty h1.reads
    have : 0 < (Request.wire _).length := List.length_pos_iff.mpr this
    simp only [List.length_cons, List.flatMap_cons, List.length_append]
    omega

/-- Between requests, the end of the stream and the absence of data do nothing. -/
theorem idle_loop {A : App} {c : Cfg} {L : Lib} (eof : Bool) (s : Sess L) (n : Nat) (ha : s.ack = false) (hp : s.p = {}) (hq : eof = true → (L.eof s.st).2 = .go) :
    ∃ st, loop A c eof (n + 1) s [] = some ({ s with st := st }, []) := by
  rw [loop_succ, if_neg (by simp [ha]), if_neg (by rw [hp]; simp)]
  have : ∃ st, headersPhase A c s [] eof = .ret { s with st := st } [] := by
    unfold headersPhase parse_headers parse
    rw [if_neg (by rw [hp]; simp), if_neg (by rw [hp]; simp)]
    cases eof with
    | false =>
      refine ⟨s.st, ?_⟩
      simp only [exec, Bool.false_eq_true, if_false]
      rw [if_neg (by rw [hp]; simp)]
      simp only [onHead, afterParse]
      rw [if_neg (by rw [hp]; simp), if_pos (by rw [hp]; simp)]
    | true =>
      refine ⟨(L.eof s.st).1, ?_⟩
      have hee : execEof L s.p s.st = (s.p, (L.eof s.st).1) := by
        unfold execEof
        rw [if_neg (by rw [hp]; simp), hq rfl]
      simp only [exec, if_true, hee]
      rw [if_neg (by rw [hp]; simp)]
      simp only [onHead, afterParse]
      rw [if_neg (by rw [hp]; simp), if_pos (by rw [hp]; simp)]
  obtain ⟨st, h⟩ := this
  exact ⟨st, by rw [h]⟩

/-- What arrives is the same as one piece, perhaps followed by the end of the stream. -/
theorem arrival_one {A : App} (hA : Plain A) {c : Cfg} {L : Lib} {body : L.σ → Prop} (hL : LibOk L body) (l : List Bytes) (eof : Bool) (w : Bytes) (hl : l.flatten = w) {s1 s2 : Sess L}
    (h1 : loop A c false (w.length + 2) {} w = some (s1, [])) (h2 : if eof then step A c s1 [] (.receive [] true) = some (s2, []) else s2 = s1) (hn : ¬ Broken (requests s2.trace)) :
    ∃ s, run A c ({} : Sess L) [] (arrival l eof) = some (s, []) ∧ Same s s2 := by
  obtain ⟨s, s', e1, e2, e3⟩ := run_arrival (c := c) hA hL l [w] eof (by simpa using hl)
  refine ⟨s, e1, ?_⟩
  have : run A c ({} : Sess L) [] (arrival [w] eof) = some (s2, []) := by
    unfold arrival
    simp only [List.map_cons, List.map_nil, List.cons_append, List.nil_append, run]
    rw [step_receive _ _ _ rfl rfl, h1]
    cases eof with
    | false => simp only [Bool.false_eq_true, if_false] at h2 ⊢; rw [h2]; rfl
    | true => simp only [if_true] at h2 ⊢; simp [run, h2]
  rw [this] at e2
  simp only [Option.some.injEq, Prod.mk.injEq, and_true] at e2
  rw [← e2] at e3
  rcases e3 with e3 | ⟨-, e3, -⟩
  · exact e3
  · exact absurd e3 hn

theorem calls_sound (rs : List Request) : ¬ Broken (rs.flatMap Request.calls) := by
  rintro ⟨x, y, h⟩
  obtain ⟨r, -, h⟩ := List.mem_flatMap.mp h
  simp [Request.calls] at h

theorem plain_conversation {c : Cfg} {L : Lib} {body : L.σ → Prop} (hL : LibOk L body) (sw : Nat → Bool) (rs : List Request) (hsw : ∀ k < rs.length, sw k = false) (st' : L.σ)
    (hr : Conversation L c L.init rs st') (eof : Bool) (he : eof = true → (L.eof st').2 = .go) (l : List Bytes) (hl : l.flatten = rs.flatMap Request.wire) :
    ∃ s, run (plainApp sw) c ({} : Sess L) [] (arrival l eof) = some (s, []) ∧ s.failed = none ∧ requests s.trace = rs.flatMap Request.calls ∧ tunnel s.trace = [] := by
  have hlen := conversation_length hr
  obtain ⟨s1, e1, e2, e3, e4, e5, -, e7, e8⟩ := loop_conversation sw false ({} : Sess L) rs st' [] rfl rfl rfl hr (fun k _ hk => hsw k (by simpa [finished] using hk)) ((rs.flatMap Request.wire).length + 2 - rs.length)
  obtain ⟨n, hn⟩ : ∃ n, (rs.flatMap Request.wire).length + 2 - rs.length = n + 1 := ⟨_, (Nat.succ_pred (by omega)).symm⟩
  obtain ⟨st1, i1⟩ := idle_loop (A := plainApp sw) (c := c) false s1 n e3 e4 (by simp)
  rw [List.append_nil, show rs.length + ((rs.flatMap Request.wire).length + 2 - rs.length) = (rs.flatMap Request.wire).length + 2 by omega, hn, i1] at e1
  have hst : st1 = st' := by
    -- nothing has been read
    rw [loop_succ, if_neg (by simp [e3]), if_neg (by rw [e4]; simp)] at i1
    unfold headersPhase parse_headers parse at i1
    rw [if_neg (by rw [e4]; simp), if_neg (by rw [e4]; simp)] at i1
    simp only [exec, Bool.false_eq_true, if_false] at i1
    rw [if_neg (by rw [e4]; simp)] at i1
    simp only [onHead, afterParse] at i1
    rw [if_neg (by rw [e4]; simp), if_pos (by rw [e4]; simp)] at i1
    simp only [Option.some.injEq, Prod.mk.injEq, Sess.mk.injEq, and_true, true_and] at i1
    rw [← i1, e5]
  subst hst
  have e7 : requests s1.trace = rs.flatMap Request.calls := e7
  have hnb : ¬ Broken (requests s1.trace) := by rw [e7]; exact calls_sound rs
  cases eof with
  | false =>
    obtain ⟨s, h1, h2⟩ := arrival_one (plainApp_plain sw) hL l false _ hl e1 (s2 := { s1 with st := st1 }) (by simp) hnb
    exact ⟨s, h1, by rw [h2.failed, ← e2], by rw [h2.req]; exact e7, by rw [h2.tun]; exact e8⟩
  | true =>
    obtain ⟨st2, i2⟩ := idle_loop (A := plainApp sw) (c := c) true ({ s1 with st := st1 } : Sess L) 1 e3 e4 he
    obtain ⟨s, h1, h2⟩ := arrival_one (plainApp_plain sw) hL l true _ hl e1 (s2 := { s1 with st := st2 }) (by
      simp only [if_true]
      rw [step_receive _ _ _ (by exact e2) (by exact e3)]
      exact i2) hnb
    exact ⟨s, h1, by rw [h2.failed, ← e2], by rw [h2.req]; exact e7, by rw [h2.tun]; exact e8⟩

/-- Requests, the last of which is answered with status 101, then data of another protocol. -/
theorem plain_switch {c : Cfg} {L : Lib} {body : L.σ → Prop} (hL : LibOk L body) (sw : Nat → Bool) (rs : List Request) (r : Request) (hsw : ∀ k < rs.length, sw k = false) (hon : sw rs.length = true)
    (st st' : L.σ) (hr : Conversation L c L.init rs st) (h : r.Good L c st st') (t : Bytes) (eof : Bool) (l : List Bytes) (hl : l.flatten = rs.flatMap Request.wire ++ r.wire ++ t) :
    ∃ s, run (plainApp sw) c ({} : Sess L) [] (arrival l eof) = some (s, []) ∧ s.failed = none ∧ requests s.trace = rs.flatMap Request.calls ++ r.calls ∧ tunnel s.trace = t := by
  have hlen := conversation_length hr
  have hne := reads_nonempty h.reads
  have : 0 < r.wire.length := List.length_pos_iff.mpr hne
  obtain ⟨n, hn⟩ : ∃ n, (rs.flatMap Request.wire ++ r.wire ++ t).length + 2 = rs.length + (n + 1 + 1) := ⟨(rs.flatMap Request.wire ++ r.wire ++ t).length - rs.length, by simp only [List.length_append]; omega⟩
  obtain ⟨s1, e1, e2, e3, e4, e5, e6, e7, e8⟩ := loop_conversation sw false ({} : Sess L) rs st (r.wire ++ t) rfl rfl rfl hr (fun k _ hk => hsw k (by simpa [finished] using hk)) (n + 1 + 1)
  subst e5
  obtain ⟨s2, f1, f2, f3, f4, f5, f6, f7⟩ := loop_request sw false (n + 1) s1 r st' t e2 e3 e4 h
  have hack : s2.ack = true := by rw [f3, e6, show finished ({} : Sess L).trace + rs.length = rs.length by simp [finished], hon]
  rw [f1, loop_succ, if_pos hack] at e1
  have hreq : ∀ d e, requests (s2.trace ++ [.upgraded d e]) = rs.flatMap Request.calls ++ r.calls := by
    intro d e
    rw [requests_append, f6, e7]
    simp [requests]
  have htun : tunnel (s2.trace ++ [.upgraded t false]) = t := by
    rw [tunnel_append, f7, e8]
    simp [tunnel]
  have hnb : ¬ Broken (rs.flatMap Request.calls ++ r.calls) := by
    have := calls_sound (rs ++ [r])
    simpa using this
  have hreq2 : requests (s2.trace ++ [.upgraded t false] ++ [.upgraded [] true]) = rs.flatMap Request.calls ++ r.calls := by
    rw [requests_append, hreq]
    simp [requests]
  cases eof with
  | false =>
    obtain ⟨s, h1, h2⟩ := arrival_one (plainApp_plain sw) (c := c) hL l false _ hl (by rw [hn, List.append_assoc]; exact e1) (s2 := (({ s2 with p := deallocate s2.p } : Sess L).call (.upgraded t false))) (by simp)
      (by simp only [Sess.call]; rw [hreq]; exact hnb)
    exact ⟨s, h1, by rw [h2.failed]; exact f2, by rw [h2.req]; exact hreq _ _, by rw [h2.tun]; exact htun⟩
  | true =>
    obtain ⟨s, h1, h2⟩ := arrival_one (plainApp_plain sw) (c := c) hL l true _ hl (by rw [hn, List.append_assoc]; exact e1)
      (s2 := ((({ s2 with p := deallocate s2.p } : Sess L).call (.upgraded t false)).call (.upgraded [] true))) (by
        simp only [if_true]
        exact step_ack _ [] true f2 hack) (by simp only [Sess.call]; rw [hreq2]; exact hnb)
    refine ⟨s, h1, by rw [h2.failed]; exact f2, ?_, ?_⟩
    · rw [h2.req]; exact hreq2
    · rw [h2.tun]
      simp only [Sess.call]
      rw [tunnel_append, htun]
      simp [tunnel]

/-- `Emits` as a function. -/
def emits (L : Lib) : L.σ → Bytes → Option (List Data × L.σ)
  | st, [] => some ([], st)
  | st, b :: w => if (L.micro st b).2.2 = .go then (emits L (L.micro st b).1 w).map (fun r => ((L.micro st b).2.1 ++ r.1, r.2)) else none

theorem emits_of {L : Lib} {st st' : L.σ} {w : Bytes} {ds : List Data} (h : emits L st w = some (ds, st')) : Emits L st w ds st' := by
  induction w generalizing st ds with
  | nil =>
    simp only [emits, Option.some.injEq, Prod.mk.injEq] at h
    obtain ⟨rfl, rfl⟩ := h
    exact .nil _
  | cons b w ih =>
    simp only [emits] at h
    split at h
    · rename_i hgo
      rw [Option.map_eq_some_iff] at h
      obtain ⟨⟨d, s⟩, h1, h2⟩ := h
      simp only [Prod.mk.injEq] at h2
      obtain ⟨rfl, rfl⟩ := h2
      exact .cons st b w d s hgo (ih h1)
    · exact absurd h (by simp)

end Verif.HttpServer
