import Verif.Proofs.HttpServerDelivery
/-! # HTTP server sessions: requests that end with their heads, and any class -/
namespace Verif.HttpServer
open Verif.HttpLib Verif.HttpRequest Verif.Spec

theorem emits_append {L : Lib} {st st' : L.σ} {a b : Bytes} {ds : List Data} (h : Emits L st (a ++ b) ds st') :
    ∃ m d1 d2, Emits L st a d1 m ∧ Emits L m b d2 st' ∧ ds = d1 ++ d2 := by
  induction a generalizing st ds with
  | nil => exact ⟨st, [], ds, .nil st, h, rfl⟩
  | cons x a ih =>
    cases h with
    | cons _ _ _ ds' _ hgo h' =>
      obtain ⟨m, d1, d2, e1, e2, e3⟩ := ih h'
      exact ⟨m, _, d2, .cons _ _ _ _ _ hgo e1, e2, by rw [e3, List.append_assoc]⟩

theorem emits_det {L : Lib} {st s1 s2 : L.σ} {w : Bytes} {d1 d2 : List Data} (h : Emits L st w d1 s1) (h' : Emits L st w d2 s2) : d1 = d2 ∧ s1 = s2 := by
  induction h generalizing d2 with
  | nil => cases h'; exact ⟨rfl, rfl⟩
  | cons _ _ _ _ _ _ _ ih =>
    cases h' with
    | cons _ _ _ _ _ _ h' => obtain ⟨e1, e2⟩ := ih h'; exact ⟨by rw [e1], e2⟩

/-- The head and the end of a request that ends with its head. -/
theorem bare_reads {L : Lib} {st st' : L.σ} {w : Bytes} {hd bd : List Data} {m : Bytes} {k : Bool} (h : Reads L st w hd bd m k st') (hb : EndsWithHead L st w) :
    ∃ v b d1 d2 s1 s2 n, w = v ++ [b] ∧ Emits L st v d1 s1 ∧ L.micro s1 b = (s2, d2, .headers m n k) ∧ hd = d1 ++ d2 ∧ L.micro s2 b = (st', bd, .done) := by
  obtain ⟨w1, b, w2, d1, d2, s1, s2, n, w3, e, d3, d4, s3, hw, hw', em1, m1, hd', em2, m2, hb'⟩ := h
  obtain ⟨v, b', ds, s4, hv, em⟩ := hb
  have hw2 : w2 = [] := by
    rcases List.eq_nil_or_concat w2 with h0 | ⟨u, y, h0⟩
    · exact h0
    · exfalso
      rw [hw, h0, List.concat_eq_append, show w1 ++ b :: (u ++ [y]) = (w1 ++ b :: u) ++ [y] by simp] at hv
      obtain ⟨hv, -⟩ := List.append_inj' hv rfl
      rw [← hv] at em
      obtain ⟨m', x1, x2, y1, y2, -⟩ := emits_append em
      obtain ⟨-, rfl⟩ := emits_det em1 y1
      cases y2 with
      | cons _ _ _ _ _ hgo _ => rw [m1] at hgo; exact absurd hgo (by simp)
  subst hw2
  have : w3 = [] ∧ e = b := by
    rw [show [b] = [] ++ [b] from rfl] at hw'
    obtain ⟨h1, h2⟩ := List.append_inj' hw' rfl
    exact ⟨h1.symm, by simpa using h2.symm⟩
  obtain ⟨rfl, rfl⟩ := this
  cases em2
  exact ⟨w1, e, d1, d2, s1, s2, n, hw, em1, m1, hd', by rw [m2, hb']; rfl⟩

/-- A part of a head does nothing but go into the parser. -/
theorem loop_part {A : App} {c : Cfg} {L : Lib} (n : Nat) (s : Sess L) (w : Bytes) (ds : List Data) (st' : L.σ) (p' : Parser) (ha : s.ack = false) (he : s.p.errno = .ok) (hh : s.p.hreq = 0)
    (hw : Emits L s.st w ds st') (hp : onDatas c s.p ds = .ok p') : loop A c false (n + 1) s w = some ({ s with p := p', st := st' }, []) := by
  have hx := exec_emits hw s.p p' hp []
  rw [List.append_nil] at hx
  obtain ⟨h1, h2, -⟩ := onDatas_same hp
  rw [loop_succ, if_neg (by simp [ha]), if_neg (by simp [he])]
  unfold headersPhase parse_headers parse
  rw [if_neg (by omega), if_neg (by omega), hx]
  simp only [exec, Bool.false_eq_true, if_false]
  rw [if_neg (by rw [h2, he]; simp)]
  simp only [onHead, afterParse]
  rw [if_neg (by rw [h2, he]; simp), if_pos (by rw [h1, hh]; simp)]

theorem run_parts {A : App} {c : Cfg} {L : Lib} (l : List Bytes) (s : Sess L) (ds : List Data) (st' : L.σ) (p' : Parser) (hf : s.failed = none) (ha : s.ack = false) (he : s.p.errno = .ok)
    (hh : s.p.hreq = 0) (hw : Emits L s.st l.flatten ds st') (hp : onDatas c s.p ds = .ok p') :
    run A c s [] (l.map fun b => .receive b false) = some ({ s with p := p', st := st' }, []) := by
  induction l generalizing s ds with
  | nil =>
    cases hw
    simp only [onDatas, Except.ok.injEq] at hp
    subst hp
    rfl
  | cons b l ih =>
    rw [List.flatten_cons] at hw
    obtain ⟨m, d1, d2, e1, e2, rfl⟩ := emits_append hw
    rw [onDatas_append] at hp
    cases hq : onDatas c s.p d1 with
    | error e => rw [hq] at hp; exact absurd hp (by simp)
    | ok q =>
      rw [hq] at hp
      obtain ⟨h1, h2, -⟩ := onDatas_same hq
      simp only [List.map_cons, run]
      rw [step_receive _ _ _ hf ha, loop_part _ s b d1 m q ha he hh e1 hq]
      exact ih { s with p := q, st := m } d2 hf ha (by rw [h2, he]) (by rw [h1, hh]) e2 hp

/-- What a session has done when it has handed over a request that ends with its head. -/
def handed {L : Lib} (A : App) (s : Sess L) (r : Request) (st' : L.σ) : Sess L :=
  let rep := A.onHeaders s.trace r.headers !r.keep
  let t := s.trace ++ [.headers r.headers !r.keep] ++ rep.rejects.map (fun e => .reject e.1 e.2)
  let left := A.onStream t r.payload
  { s with
    p := {}, st := st', ack := s.ack || rep.switched || A.onFinish (t ++ [.stream r.payload]) r.headers left !r.keep,
    trace := t ++ [.stream r.payload] ++ [.finish r.headers left !r.keep] }

/-- A request that ends with its head, in pieces: `u` has been read before. -/
theorem loop_bare {A : App} {c : Cfg} {L : Lib} (n : Nat) (s : Sess L) (r : Request) (st' : L.σ) (x : Bytes) (l0 : List Bytes) (d : Bytes) (hf : s.failed = none) (ha : s.ack = false) (hp : s.p = {})
    (hr : r.Good L c s.st st') (hb : EndsWithHead L s.st r.wire) (hd : d ≠ []) (hw : l0.flatten ++ d = r.wire)
    (ht : (A.onHeaders s.trace r.headers !r.keep).type = .normal ∨ (A.onHeaders s.trace r.headers !r.keep).type = .empty) :
    ∃ s1, run A c s [] (l0.map fun b => .receive b false) = some (s1, []) ∧ s1.failed = none ∧ s1.ack = false ∧ s1.trace = s.trace ∧ s1.p.hreq = 0 ∧
      loop A c false (n + 1) s1 (d ++ x) = loop A c false n (handed A s r st') x := by
  obtain ⟨v, b, d1, d2, s1, s2, k, hwv, em1, m1, hdd, m2⟩ := bare_reads hr.reads hb
  obtain ⟨d', y, rfl⟩ : ∃ d' y, d = d' ++ [y] := ⟨d.dropLast, d.getLast hd, (List.dropLast_concat_getLast hd).symm⟩
  rw [hwv, ← List.append_assoc] at hw
  obtain ⟨hw0, hy⟩ := List.append_inj' hw rfl
  obtain rfl : y = b := by simpa using hy
  rw [← hw0] at em1
  obtain ⟨sm, e1, e2, em0, em2, rfl⟩ := emits_append em1
  -- the head
  have hall := head_all c r.url r.fields hr.pieces
  rw [if_neg (by have := hr.head_size; omega), hdd, onDatas_append, onDatas_append] at hall
  cases hq0 : onDatas c {} e1 with
  | error z => rw [hq0] at hall; exact absurd hall (by simp)
  | ok q0 =>
    rw [hq0] at hall
    simp only at hall
    cases hq : onDatas c q0 e2 with
    | error z => rw [hq] at hall; exact absurd hall (by simp)
    | ok q1 =>
      rw [hq] at hall
      simp only at hall
      obtain ⟨g1, g2, -⟩ := onDatas_same hq0
      refine ⟨{ s with p := q0, st := sm }, run_parts l0 s e1 sm q0 hf ha (by rw [hp]) (by rw [hp]) em0 (by rw [hp]; exact hq0), hf, ha, rfl, g1, ?_⟩
      generalize hq2 : ({ headers := { raw_host := r.url.flatten, headers := r.fields.map (fun h => (h.1.flatten, some h.2.flatten)) } } : Parser) = q2 at hall
      have hx : exec c L q0 sm (d' ++ [y] ++ x) = .ok (on_headers_complete q2 r.method r.keep, s2, y :: x) := by
        rw [List.append_assoc, exec_emits em2 q0 q1 hq]
        simp only [List.cons_append, List.nil_append, exec, m1, hall]
      have hc : on_headers_complete q2 r.method r.keep = { headers := r.headers, hreq := 1, close := !r.keep, errno := .paused } := by
        unfold on_headers_complete
        rw [if_neg (by have := hr.method_size; omega), ← hq2]
        simp only [hr.target]
      rw [hc] at hx
      have hpl : plainHeaders r.headers = r.headers := by
        unfold plainHeaders
        split
        · rfl
        · rename_i h
          have := hr.plain (by simpa using h)
          rw [← this]
      generalize hq3 : ({ headers := r.headers, hreq := 1, close := !r.keep } : Parser) = q3
      have hbody : onDatas c q3 (r.body.map .body) = .ok { q3 with payload := r.payload } := by
        rw [payload_all c q3 r.body (by rw [← hq3]; simp)]
        rw [← hq3]
        unfold Request.payload
        split
        · rw [if_neg (by have := hr.body_size; simp only [List.length_nil, Nat.zero_add]; omega)]
          simp
        · rfl
      have hyy : exec c L q3 s2 (y :: x) = .ok ({ q3 with payload := r.payload, hreq := 2, errno := .paused }, st', x) := by
        simp only [exec, m2, hbody, on_message_complete]
      generalize hrep : A.onHeaders s.trace r.headers (!r.keep) = rep at ht
      generalize htr : s.trace ++ [.headers r.headers !r.keep] ++ rep.rejects.map (fun e => .reject e.1 e.2) = tr
      have h1 : headersPhase A c { s with p := q0, st := sm } (d' ++ [y] ++ x) false
          = .next { s with p := q3, st := s2, ack := s.ack || rep.switched, trace := tr } (y :: x) := by
        unfold headersPhase parse_headers
        rw [if_neg (by simp [g1]), if_neg (by simp [g1])]
        unfold parse
        simp only
        rw [hx]
        simp only [Bool.false_eq_true, if_false, if_true, onHead, afterParse, hpl, if_neg hr.host, Sess.call, hrep, afterHeaders]
        rcases ht with ht | ht <;> rw [ht] <;> simp [← hq3, ← htr]
      have h2 : payloadPhase A c { s with p := q3, st := s2, ack := s.ack || rep.switched, trace := tr } (y :: x) false
          = .next { s with p := { q3 with payload := A.onStream tr r.payload, hreq := 2 }, st := st', ack := s.ack || rep.switched || A.onFinish (tr ++ [.stream r.payload]) r.headers (A.onStream tr r.payload) !r.keep, trace := tr ++ [.stream r.payload] ++ [.finish r.headers (A.onStream tr r.payload) !r.keep] } x := by
        unfold payloadPhase parse_payload
        rw [if_neg (by rw [← hq3]; simp), if_neg (by rw [← hq3]; simp), if_neg (by rw [← hq3]; simp)]
        unfold parse
        rw [hyy]
        simp only [Bool.false_eq_true, if_false, if_true, onPayload, afterPayload, Sess.call]
        simp [← hq3]
      rw [loop_succ, if_neg (by simp [ha]), if_neg (by simp [g2]), h1]
      simp only [finishIter, h2]
      unfold handed
      simp only [hrep, htr]
      rw [← hq3]
      rfl

end Verif.HttpServer
