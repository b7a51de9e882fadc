import Verif.Proofs.HttpClientDelivery
/-! # Classes that consume payloads as they arrive -/
namespace Verif.HttpClient
open Verif.HttpLib Verif.HttpResponse Verif.Spec.Client
open Verif.Spec (LibOk Emits replyCalls replySize)
open Verif.HttpRequest (as_string onLast startsNew Cfg Fail)

/-- The bytes of the current payload that have been taken. -/
def eaten (A : App) (past : List Ev) (acc : Bytes) : List Ev → Bytes
  | [] => acc
  | .stream b :: t => eaten A (past ++ [.stream b]) (acc ++ b.take (b.length - (A.onStream past b).length)) t
  | .upgraded d e :: t => eaten A (past ++ [.upgraded d e]) acc t
  | .finish h b :: t => eaten A (past ++ [.finish h b]) [] t
  | .headers h :: t => eaten A (past ++ [.headers h]) acc t
  | .shut :: t => eaten A (past ++ [.shut]) acc t
  | .abort :: t => eaten A (past ++ [.abort]) acc t

theorem observed_append (A : App) (t u : List Ev) : ∀ (past : List Ev) (acc : Bytes), observed A past acc (t ++ u) = observed A past acc t ++ observed A (past ++ t) (eaten A past acc t) u := by
  induction t with
  | nil => intro past acc; simp [observed, eaten]
  | cons e t ih => intro past acc; cases e <;> simp only [List.cons_append, observed, eaten, ih] <;> simp

theorem eaten_append (A : App) (t u : List Ev) : ∀ (past : List Ev) (acc : Bytes), eaten A past acc (t ++ u) = eaten A (past ++ t) (eaten A past acc t) u := by
  induction t with
  | nil => intro past acc; simp [eaten]
  | cons e t ih => intro past acc; cases e <;> simp only [List.cons_append, eaten, ih] <;> simp

theorem onData_sim {c : Cfg} {p p' : Parser} {d : Data} (acc u : Bytes) (hp : p.payload = acc ++ u) (h : onData c p d = .ok p') :
    ∃ u', onData c { p with payload := u } d = .ok { p' with payload := u' } ∧ p'.payload = acc ++ u' := by
  cases d with
  | url s => simp only [onData] at h ⊢; cases h; exact ⟨u, rfl, hp⟩
  | status n s => simp only [onData, on_status] at h ⊢; cases h; exact ⟨u, rfl, hp⟩
  | field s =>
    simp only [onData, on_header_field] at h ⊢
    generalize (if startsNew p.headers.headers = true then { p.headers with headers := p.headers.headers ++ [([], none)] } else p.headers) = g at h ⊢
    split at h
    · exact absurd h (by simp)
    · rename_i h1; rw [if_neg h1]; cases h; exact ⟨u, rfl, hp⟩
  | value s =>
    simp only [onData, on_header_value] at h ⊢
    split at h
    · exact absurd h (by simp)
    · rename_i h1
      rw [if_neg h1]
      split at h
      · exact absurd h (by simp)
      · rename_i h2; rw [if_neg h2]; cases h; exact ⟨u, rfl, hp⟩
  | body s =>
    simp only [onData, on_body] at h ⊢
    split at h
    · exact absurd h (by simp)
    · rename_i h1
      rw [hp, List.length_append] at h1
      rw [if_neg (by omega)]
      cases h
      exact ⟨u ++ s, rfl, by simp [hp]⟩

theorem onDatas_sim {c : Cfg} {p p' : Parser} {ds : List Data} (acc u : Bytes) (hp : p.payload = acc ++ u) (h : onDatas c p ds = .ok p') :
    ∃ u', onDatas c { p with payload := u } ds = .ok { p' with payload := u' } ∧ p'.payload = acc ++ u' := by
  induction ds generalizing p u with
  | nil => simp only [onDatas, Except.ok.injEq] at h; subst h; exact ⟨u, rfl, hp⟩
  | cons d t ih =>
    simp only [onDatas] at h ⊢
    cases hq : onData c p d with
    | error e => rw [hq] at h; exact absurd h (by simp)
    | ok q =>
      rw [hq] at h
      obtain ⟨v, e1, e2⟩ := onData_sim acc u hp hq
      rw [e1]
      exact ih v e2 h

theorem exec_sim {c : Cfg} {L : Lib} {p p' : Parser} {st st' : L.σ} {data r : Bytes} (acc u : Bytes) (hp : p.payload = acc ++ u) (h : exec c L p st data = .ok (p', st', r)) :
    ∃ u', exec c L { p with payload := u } st data = .ok ({ p' with payload := u' }, st', r) ∧ p'.payload = acc ++ u' := by
  induction data generalizing p st u with
  | nil =>
    simp only [exec, Except.ok.injEq, Prod.mk.injEq] at h ⊢
    obtain ⟨rfl, rfl, rfl⟩ := h
    exact ⟨u, ⟨rfl, rfl, rfl⟩, hp⟩
  | cons b t ih =>
    simp only [exec] at h ⊢
    cases hq : onDatas c p (L.micro st b).2.1 with
    | error e => rw [hq] at h; exact absurd h (by simp)
    | ok q =>
      rw [hq] at h
      obtain ⟨v, e1, e2⟩ := onDatas_sim acc u hp hq
      rw [e1]
      simp only at h ⊢
      cases hE : (L.micro st b).2.2 with
      | go => rw [hE] at h; exact ih v e2 h
      | headers m n k =>
        rw [hE] at h
        simp only [Except.ok.injEq, Prod.mk.injEq] at h
        obtain ⟨rfl, rfl, rfl⟩ := h
        exact ⟨v, rfl, e2⟩
      | done =>
        rw [hE] at h
        simp only [Except.ok.injEq, Prod.mk.injEq] at h
        obtain ⟨rfl, rfl, rfl⟩ := h
        exact ⟨v, rfl, e2⟩
      | bad e =>
        rw [hE] at h
        simp only [Except.ok.injEq, Prod.mk.injEq] at h
        obtain ⟨rfl, rfl, rfl⟩ := h
        exact ⟨v, rfl, e2⟩

theorem execEof_sim {L : Lib} (p : Parser) (st : L.σ) (u : Bytes) :
    execEof L { p with payload := u } st = ({ (execEof L p st).1 with payload := u }, (execEof L p st).2) ∧ (execEof L p st).1.payload = p.payload := by
  unfold execEof
  simp only
  split
  · exact ⟨rfl, rfl⟩
  · split <;> exact ⟨rfl, rfl⟩

theorem parse_sim {c : Cfg} {L : Lib} {p p' : Parser} {st st' : L.σ} {data r : Bytes} {eof : Bool} (acc u : Bytes) (hp : p.payload = acc ++ u) (h : parse c L p st data eof = .ok (p', st', r)) :
    ∃ u', parse c L { p with payload := u } st data eof = .ok ({ p' with payload := u' }, st', r) ∧ p'.payload = acc ++ u' := by
  unfold parse at h ⊢
  cases hx : exec c L p st data with
  | error e => rw [hx] at h; exact absurd h (by simp)
  | ok x =>
    obtain ⟨p1, st1, r1⟩ := x
    rw [hx] at h
    obtain ⟨v, e1, e2⟩ := exec_sim acc u hp hx
    rw [e1]
    simp only [Except.ok.injEq, Prod.mk.injEq] at h ⊢
    obtain ⟨h1, h2, h3⟩ := h
    have key : (if eof = true then execEof L { p1 with payload := v } st1 else ({ p1 with payload := v }, st1))
        = ({ (if eof = true then execEof L p1 st1 else (p1, st1)).1 with payload := v }, (if eof = true then execEof L p1 st1 else (p1, st1)).2) ∧
        (if eof = true then execEof L p1 st1 else (p1, st1)).1.payload = p1.payload := by
      cases eof with
      | false => exact ⟨rfl, rfl⟩
      | true => exact execEof_sim p1 st1 v
    rw [key.1]
    generalize (if eof = true then execEof L p1 st1 else (p1, st1)) = y at h1 h2 key ⊢
    refine ⟨v, ⟨?_, h2, h3⟩, ?_⟩
    · rw [← h1]; simp only; split <;> rfl
    · rw [← h1, ← e2, ← key.2]; split <;> rfl

/-- A session of a class that consumes payloads, and one of a class that does not. -/
structure Sim {L : Lib} (A : App) (a b : Sess L) : Prop where
  st : a.st = b.st
  ack : a.ack = b.ack
  failed : a.failed = b.failed
  p : a.p = { b.p with payload := a.p.payload }
  payload : a.ack = false → b.p.payload = eaten A [] [] a.trace ++ a.p.payload
  obs : observed A [] [] a.trace = responses b.trace
  tun : tunnel a.trace = tunnel b.trace
  fin : finished a.trace = finished b.trace

/-- What is asked of the steps of the two. -/
def SimStep {L : Lib} (A : App) (x y : Step L) : Prop :=
  (∀ b d, y = .ret b d → b.failed = none → ∃ a, x = .ret a d ∧ Sim A a b) ∧ (∀ b d, y = .next b d → ∃ a, x = .next a d ∧ Sim A a b)

theorem sim_call {L : Lib} {A : App} {a b : Sess L} (h : Sim A a b) (e : Ev) (he : (∀ x, e ≠ .stream x) ∧ (∀ x y, e ≠ .finish x y)) : Sim A (a.call e) (b.call e) := by
  refine ⟨h.st, h.ack, h.failed, h.p, ?_, ?_, ?_, ?_⟩
  · intro ha
    have := h.payload ha
    simp only [Sess.call, eaten_append]
    cases e with
    | stream x => exact absurd rfl (he.1 x)
    | finish x y => exact absurd rfl (he.2 x y)
    | _ => simpa [eaten] using this
  · simp only [Sess.call, observed_append, responses_append, h.obs]
    cases e with
    | stream x => exact absurd rfl (he.1 x)
    | finish x y => exact absurd rfl (he.2 x y)
    | _ => simp [observed, responses]
  · simp only [Sess.call, tunnel_append, h.tun]
  · simp only [Sess.call, finished_append, h.fin]

theorem headersPhase_sim {A : App} {empty : Nat → Bool} (hA : Takes A empty) {c : Cfg} {L : Lib} {a b : Sess L} (h : Sim A a b) (ha : a.ack = false) (hf : b.failed = none) (data : Bytes) (eof : Bool) :
    SimStep A (headersPhase A c a data eof) (headersPhase (plainApp empty) c b data eof) := by
  have hh : a.p.hresp = b.p.hresp := by rw [h.p]
  unfold headersPhase
  rw [hh, h.st]
  split
  · exact ⟨fun _ _ hx => (by cases hx), fun _ _ hx => by cases hx; exact ⟨a, rfl, h⟩⟩
  · rename_i h1
    have hpb : parse_headers c L b.p b.st data eof = parse c L b.p b.st data eof := by unfold parse_headers; rw [if_neg h1]
    have hpa : parse_headers c L a.p b.st data eof = parse c L a.p b.st data eof := by unfold parse_headers; rw [if_neg (by rw [hh]; exact h1)]
    rw [hpa, hpb]
    cases hx : parse c L b.p b.st data eof with
    | error e => exact ⟨fun _ _ hy hz => (by cases hy; exact absurd hz (by simp [Sess.fail])), fun _ _ hy => (by cases hy)⟩
    | ok r =>
      obtain ⟨p, st, rest⟩ := r
      obtain ⟨v, e1, e2⟩ := parse_sim _ _ (h.payload ha) hx
      rw [← h.p] at e1
      rw [e1]
      simp only [onHead, afterParse]
      have hsim : Sim A ({ a with p := { p with payload := v }, st := st } : Sess L) { b with p := p, st := st } :=
        ⟨rfl, h.ack, h.failed, rfl, fun _ => e2, h.obs, h.tun, h.fin⟩
      by_cases h2 : p.errno = .ok
      · simp only [if_neg (show ¬ p.errno ≠ .ok by simp [h2])]
        by_cases h3 : 1 ≤ p.hresp
        · simp only [if_neg (show ¬ ¬ 1 ≤ p.hresp by simp [h3])]
          rw [hA.headers]
          simp only [plainApp, h.fin]
          have hc := sim_call hsim (.headers p.headers) ⟨by simp, by simp⟩
          split
          · refine ⟨fun _ _ hy => (by cases hy), fun _ _ hy => ?_⟩
            cases hy
            exact ⟨_, rfl, by rw [show ({ a with p := { p with payload := v }, st := st } : Sess L).call (.headers p.headers) = ({ a with p := { p with payload := v }, st := st } : Sess L).call (.headers p.headers) from rfl]; exact ⟨by simp only [Sess.call], hc.ack, hc.failed, hc.p, hc.payload, hc.obs, hc.tun, hc.fin⟩⟩
          · refine ⟨fun _ _ hy => (by cases hy), fun _ _ hy => ?_⟩
            cases hy
            exact ⟨_, rfl, hc⟩
        · simp only [if_pos h3]
          refine ⟨fun _ _ hy _ => ?_, fun _ _ hy => (by cases hy)⟩
          cases hy
          exact ⟨_, rfl, hsim⟩
      · simp only [if_pos (show p.errno ≠ .ok from h2)]
        refine ⟨fun _ _ hy _ => ?_, fun _ _ hy => (by cases hy)⟩
        cases hy
        exact ⟨_, rfl, sim_call hsim .abort ⟨by simp, by simp⟩⟩

theorem taken_left {x b : Bytes} (h : x <:+ b) : b.take (b.length - x.length) ++ x = b := by
  obtain ⟨t, rfl⟩ := h
  simp

theorem payloadPhase_sim {A : App} {empty : Nat → Bool} (hA : Takes A empty) {c : Cfg} {L : Lib} {a b : Sess L} (h : Sim A a b) (ha : a.ack = false) (h1 : b.p.hresp = 1) (data : Bytes) (eof : Bool) :
    (∀ b' d, payloadPhase (plainApp empty) c b data eof = .ret b' d → b'.failed = none → ∃ a', payloadPhase A c a data eof = .ret a' d ∧ Sim A a' b') ∧
    (∀ b' d, payloadPhase (plainApp empty) c b data eof = .next b' d → ∃ a', payloadPhase A c a data eof = .next a' d ∧ Sim A { a' with p := next_message a'.p } { b' with p := next_message b'.p }) := by
  have hh : a.p.hresp = 1 := by rw [h.p]; exact h1
  have hpb : payloadPhase (plainApp empty) c b data eof = onPayload (plainApp empty) b (parse c L b.p b.st data eof) := by
    unfold payloadPhase parse_payload
    rw [if_neg (by omega), if_neg (by omega), if_neg (by simp [h1])]
  have hpa : payloadPhase A c a data eof = onPayload A a (parse c L a.p b.st data eof) := by
    unfold payloadPhase parse_payload
    rw [if_neg (by omega), if_neg (by omega), if_neg (by simp [hh]), h.st]
  rw [hpa, hpb]
  cases hx : parse c L b.p b.st data eof with
  | error e => exact ⟨fun _ _ hy hz => (by cases hy; exact absurd hz (by simp [Sess.fail])), fun _ _ hy => (by cases hy)⟩
  | ok r =>
    obtain ⟨p, st, rest⟩ := r
    obtain ⟨v, e1, e2⟩ := parse_sim _ _ (h.payload ha) hx
    rw [← h.p] at e1
    rw [e1]
    simp only [onPayload, afterPayload]
    by_cases h2 : p.errno = .ok
    · simp only [if_neg (show ¬ p.errno ≠ .ok by simp [h2])]
      have hsuf := hA.stream a.trace v
      generalize hleft : A.onStream a.trace v = left at hsuf ⊢
      have hpay : p.payload = eaten A [] [] (a.trace ++ [.stream v]) ++ left := by
        rw [eaten_append]
        simp only [eaten, List.nil_append]
        rw [hleft, List.append_assoc, taken_left hsuf, ← e2]
      have hobs : observed A [] [] (a.trace ++ [.stream v]) = responses (b.trace ++ [.stream p.payload]) := by
        rw [observed_append, responses_append, h.obs]
        simp [observed, responses]
      have htun : tunnel (a.trace ++ [.stream v]) = tunnel (b.trace ++ [.stream p.payload]) := by
        rw [tunnel_append, tunnel_append, h.tun]; rfl
      have hfin : finished (a.trace ++ [.stream v]) = finished (b.trace ++ [.stream p.payload]) := by
        rw [finished_append, finished_append, h.fin]; rfl
      by_cases h3 : 2 ≤ p.hresp
      · simp only [if_neg (show ¬ ¬ 2 ≤ p.hresp by simp [h3])]
        refine ⟨fun _ _ hy => (by cases hy), fun _ _ hy => ?_⟩
        cases hy
        refine ⟨_, rfl, rfl, ?_, h.failed, ?_, ?_, ?_, ?_, ?_⟩
        · simp only [Sess.call]; rw [h.ack]
        · rfl
        · intro _
          simp only [Sess.call, next_message, List.append_nil, eaten_append]
          cases p.close <;> simp [eaten, closing]
        · simp only [Sess.call, plainApp]
          rw [observed_append, responses_append (b.trace ++ _), hobs]
          congr 1
          simp only [observed, List.nil_append, hpay]
          cases p.close <;> simp [observed, closing, responses]
        · simp only [Sess.call, plainApp]
          rw [tunnel_append, tunnel_append (b.trace ++ _), htun]
          cases p.close <;> simp [tunnel, closing]
        · simp only [Sess.call, plainApp]
          rw [finished_append, finished_append (b.trace ++ _), hfin]
          cases p.close <;> simp [finished, closing]
      · simp only [if_pos h3]
        refine ⟨fun _ _ hy _ => ?_, fun _ _ hy => (by cases hy)⟩
        cases hy
        exact ⟨_, rfl, rfl, h.ack, h.failed, rfl, fun _ => hpay, hobs, htun, hfin⟩
    · simp only [if_pos (show p.errno ≠ .ok from h2)]
      refine ⟨fun _ _ hy _ => ?_, fun _ _ hy => (by cases hy)⟩
      cases hy
      have hsim : Sim A ({ a with p := { p with payload := v }, st := st } : Sess L) { b with p := p, st := st } :=
        ⟨rfl, h.ack, h.failed, rfl, fun _ => e2, h.obs, h.tun, h.fin⟩
      exact ⟨_, rfl, sim_call hsim .abort ⟨by simp, by simp⟩⟩

theorem loop_sim {A : App} {empty : Nat → Bool} (hA : Takes A empty) {c : Cfg} {L : Lib} {body : L.σ → Prop} (hL : ReplyLib L body) (eof : Bool) (n : Nat) {a b : Sess L} (h : Sim A a b) (hf : b.failed = none)
    (hI : Inv body b) (data : Bytes) {b' : Sess L} {r : Bytes} (hb : loop (plainApp empty) c eof n b data = some (b', r)) (hf' : b'.failed = none) :
    ∃ a', loop A c eof n a data = some (a', r) ∧ Sim A a' b' := by
  induction n generalizing a b data with
  | zero => exact absurd hb (by simp [loop])
  | succ n ih =>
    rw [loop_succ] at hb ⊢
    have hep : a.p.errno = b.p.errno := by rw [h.p]
    rw [h.ack, hep]
    split at hb
    · rename_i h1
      rw [if_pos h1]
      simp only [Option.some.injEq, Prod.mk.injEq] at hb
      obtain ⟨rfl, rfl⟩ := hb
      refine ⟨_, rfl, sim_call (e := .upgraded data eof) ?_ ⟨by simp, by simp⟩⟩
      refine ⟨h.st, rfl, h.failed, ?_, fun hx => absurd h1 (by rw [show b.ack = false from hx]; simp), h.obs, h.tun, h.fin⟩
      simp only [deallocate]; rw [h.p]
    · rename_i h1
      rw [if_neg h1]
      have ha : a.ack = false := by rw [h.ack]; simpa using h1
      have hab : b.ack = false := by simpa using h1
      split at hb
      · rename_i h2
        rw [if_pos h2]
        simp only [Option.some.injEq, Prod.mk.injEq] at hb
        obtain ⟨rfl, rfl⟩ := hb
        exact ⟨_, rfl, h⟩
      · rename_i h2
        rw [if_neg h2]
        have hs := headersPhase_sim hA (c := c) h ha hf data eof
        have hsp := headersPhase_spec (A := plainApp empty) (c := c) hL b data eof hI hf (by simpa using h2) hab
        cases hx : headersPhase (plainApp empty) c b data eof with
        | ret b1 d =>
          rw [hx] at hb hs
          simp only [Option.some.injEq, Prod.mk.injEq] at hb
          obtain ⟨rfl, rfl⟩ := hb
          obtain ⟨a1, e1, e2⟩ := hs.1 _ _ rfl hf'
          exact ⟨a1, by rw [e1], e2⟩
        | next b1 d =>
          rw [hx] at hb hs hsp
          simp only at hb hsp
          obtain ⟨a1, e1, e2⟩ := hs.2 _ _ rfl
          rw [e1]
          simp only [finishIter] at hb ⊢
          have hM := hsp.1
          have hpp := payloadPhase_sim hA (c := c) e2 (by rw [e2.ack, hM.ack]) hM.hresp d eof
          have hps := payloadPhase_spec (A := plainApp empty) (c := c) hL b1 d eof hM
          cases hy : payloadPhase (plainApp empty) c b1 d eof with
          | ret b2 d2 =>
            rw [hy] at hb hpp
            simp only [Option.some.injEq, Prod.mk.injEq] at hb
            obtain ⟨rfl, rfl⟩ := hb
            obtain ⟨a2, f1, f2⟩ := hpp.1 _ _ rfl hf'
            exact ⟨a2, by rw [f1], f2⟩
          | next b2 d2 =>
            rw [hy] at hb hpp hps
            simp only at hb hps
            obtain ⟨a2, f1, f2⟩ := hpp.2 _ _ rfl
            rw [f1]
            exact ih f2 hps.2.1 hps.1 d2 hb

theorem step_sim {A : App} {empty : Nat → Bool} (hA : Takes A empty) {c : Cfg} {L : Lib} {body : L.σ → Prop} (hL : ReplyLib L body) {a b : Sess L} (h : Sim A a b) (hI : Inv body b) (x : Act)
    {b' : Sess L} {r : Bytes} (hb : step (plainApp empty) c b [] x = some (b', r)) (hf' : b'.failed = none) : ∃ a', step A c a [] x = some (a', r) ∧ Sim A a' b' := by
  simp only [step, do_on_tcp_stream] at hb ⊢
  rw [h.failed, h.ack]
  split at hb
  · rename_i h1
    simp only [Option.some.injEq, Prod.mk.injEq] at hb
    obtain ⟨rfl, rfl⟩ := hb
    rw [hf'] at h1; exact absurd h1 (by simp)
  · rename_i h1
    rw [if_neg h1]
    split at hb
    · rename_i h2
      rw [if_pos h2]
      simp only [Option.some.injEq, Prod.mk.injEq] at hb
      obtain ⟨rfl, rfl⟩ := hb
      exact ⟨_, rfl, sim_call h _ ⟨by simp, by simp⟩⟩
    · rename_i h2
      rw [if_neg h2]
      exact loop_sim hA hL _ _ h (by simpa using h1) hI _ hb hf'

theorem run_failed {A : App} {c : Cfg} {L : Lib} (s : Sess L) (buf : Bytes) (as : List Act) (h : s.failed.isSome = true) {s' : Sess L} {r : Bytes} (hr : run A c s buf as = some (s', r)) : s'.failed.isSome = true := by
  induction as generalizing buf with
  | nil => simp only [run, Option.some.injEq, Prod.mk.injEq] at hr; rw [← hr.1]; exact h
  | cons a as ih =>
    simp only [run, step, h, if_true] at hr
    exact ih [] hr

theorem run_sim {A : App} {empty : Nat → Bool} (hA : Takes A empty) {c : Cfg} {L : Lib} {body : L.σ → Prop} (hL : ReplyLib L body) {a b : Sess L} (h : Sim A a b) (hI : Inv body b) (as : List Act)
    {b' : Sess L} {r : Bytes} (hb : run (plainApp empty) c b [] as = some (b', r)) (hf' : b'.failed = none) : ∃ a', run A c a [] as = some (a', r) ∧ Sim A a' b' := by
  induction as generalizing a b with
  | nil =>
    simp only [run, Option.some.injEq, Prod.mk.injEq] at hb
    obtain ⟨rfl, rfl⟩ := hb
    exact ⟨a, rfl, h⟩
  | cons x as ih =>
    obtain ⟨b1, e1, e2⟩ := step_spec (A := plainApp empty) (c := c) hL b x hI
    simp only [run, e1] at hb
    have hf1 : b1.failed = none := by
      cases hh : b1.failed with
      | none => rfl
      | some f => have := run_failed b1 [] as (by rw [hh]; rfl) hb; rw [hf'] at this; exact absurd this (by simp)
    obtain ⟨a1, f1, f2⟩ := step_sim hA hL h hI x e1 hf1
    obtain ⟨a2, g1, g2⟩ := ih f2 e2 hb
    exact ⟨a2, by simp only [run, f1]; exact g1, g2⟩

/-- What the plain class gets, every other one gets. -/
theorem consume {A : App} {empty : Nat → Bool} (hA : Takes A empty) {c : Cfg} {L : Lib} {body : L.σ → Prop} (hL : ReplyLib L body) (as : List Act) {t : List Ev} {u : Bytes}
    (h : ∃ s, run (plainApp empty) c ({} : Sess L) [] as = some (s, []) ∧ s.failed = none ∧ responses s.trace = t ∧ tunnel s.trace = u) :
    ∃ s, run A c ({} : Sess L) [] as = some (s, []) ∧ s.failed = none ∧ observed A [] [] s.trace = t ∧ tunnel s.trace = u := by
  obtain ⟨b, h1, h2, h3, h4⟩ := h
  obtain ⟨a, e1, e2⟩ := run_sim hA hL (a := {}) (b := {}) ⟨rfl, rfl, rfl, rfl, fun _ => rfl, rfl, rfl, rfl⟩ (inv_init hL) as h1 h2
  exact ⟨a, e1, by rw [e2.failed, h2], by rw [e2.obs, h3], by rw [e2.tun, h4]⟩

end Verif.HttpClient
