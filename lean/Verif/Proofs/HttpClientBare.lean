import Verif.Proofs.HttpClientDelivery
import Verif.Proofs.HttpServerBare
/-! # HTTP client sessions: responses that end with their heads, any class, and when the protocol is switched -/
namespace Verif.HttpClient
open Verif.HttpLib Verif.HttpResponse Verif.Spec.Client
open Verif.Spec (LibOk Emits replyCalls replySize EndsWithHead)
open Verif.HttpRequest (Cfg Fail)
open Verif.HttpServer (emits_append emits_det)

/-- The head and the end of a response that ends with its head. -/
theorem bare_reads {L : Lib} {st st' : L.σ} {r : Response} (h : r.Reads L false false st st') (hb : EndsWithHead L st r.wire) :
    ∃ v b d1 d2 s1 s2 m n d3, r.wire = v ++ [b] ∧ Emits L st v d1 s1 ∧ L.micro s1 b = (s2, d2, .headers m n r.keep) ∧ replyCalls r.status r.reason r.fields = d1 ++ d2 ∧ L.micro s2 b = (st', d3, .done) ∧
      r.body.map .body = d3 := by
  obtain ⟨w1, b, w2, d1, d2, s1, s2, m, n, d3, s3, hw, em1, m1, hd', hrest⟩ := h
  simp only [Bool.false_eq_true, if_false] at hrest
  obtain ⟨w3, e, d4, hw', em2, m2, hb'⟩ := hrest
  obtain ⟨v, b', ds, s4, hv, em⟩ := hb
  have hw2 : w2 = [] := by
    rcases List.eq_nil_or_concat w2 with h0 | ⟨u, y, h0⟩
    · exact h0
    · exfalso
      rw [hw, h0, List.concat_eq_append, show w1 ++ b :: (u ++ [y]) = (w1 ++ b :: u) ++ [y] by simp] at hv
      obtain ⟨hv, -⟩ := List.append_inj' hv rfl
      rw [← hv] at em
      obtain ⟨m', x1, x2, y1, y2, -⟩ := emits_append em
      obtain ⟨-, rfl⟩ := emits_det em1 y1
      cases y2 with
      | cons _ _ _ _ _ hgo _ => rw [m1] at hgo; exact absurd hgo (by simp)
  subst hw2
  have : w3 = [] ∧ e = b := by
    rw [show [b] = [] ++ [b] from rfl] at hw'
    obtain ⟨h1, h2⟩ := List.append_inj' hw' rfl
    exact ⟨h1.symm, by simpa using h2.symm⟩
  obtain ⟨rfl, rfl⟩ := this
  cases em2
  exact ⟨w1, e, d1, d2, s1, s2, m, n, d4, hw, em1, m1, hd', m2, by rw [hb']; rfl⟩

/-- A part of a head does nothing but go into the parser. -/
theorem loop_part {A : App} {c : Cfg} {L : Lib} (n : Nat) (s : Sess L) (w : Bytes) (ds : List Data) (st' : L.σ) (p' : Parser) (ha : s.ack = false) (he : s.p.errno = .ok) (hh : s.p.hresp = 0)
    (hw : Emits L s.st w ds st') (hp : onDatas c s.p ds = .ok p') : loop A c false (n + 1) s w = some ({ s with p := p', st := st' }, []) := by
  have hx := exec_emits hw s.p p' hp []
  rw [List.append_nil] at hx
  obtain ⟨h1, h2, -⟩ := onDatas_same hp
  rw [loop_succ, if_neg (by simp [ha]), if_neg (by simp [he])]
  unfold headersPhase parse_headers parse
  rw [if_neg (by omega), if_neg (by omega), hx]
  simp only [exec, Bool.false_eq_true, if_false]
  rw [if_neg (by rw [h2, he]; simp)]
  simp only [onHead, afterParse]
  rw [if_neg (by rw [h2, he]; simp), if_pos (by rw [h1, hh]; simp)]

theorem run_parts {A : App} {c : Cfg} {L : Lib} (l : List Bytes) (s : Sess L) (ds : List Data) (st' : L.σ) (p' : Parser) (hf : s.failed = none) (ha : s.ack = false) (he : s.p.errno = .ok)
    (hh : s.p.hresp = 0) (hw : Emits L s.st l.flatten ds st') (hp : onDatas c s.p ds = .ok p') :
    run A c s [] (l.map fun b => ⟨b, false⟩) = some ({ s with p := p', st := st' }, []) := by
  induction l generalizing s ds with
  | nil =>
    cases hw
    simp only [onDatas, Except.ok.injEq] at hp
    subst hp
    rfl
  | cons b l ih =>
    rw [List.flatten_cons] at hw
    obtain ⟨m, d1, d2, e1, e2, rfl⟩ := emits_append hw
    rw [onDatas_append] at hp
    cases hq : onDatas c s.p d1 with
    | error e => rw [hq] at hp; exact absurd hp (by simp)
    | ok q =>
      rw [hq] at hp
      obtain ⟨h1, h2, -⟩ := onDatas_same hq
      simp only [List.map_cons, run]
      rw [step_receive _ _ _ hf ha, loop_part _ s b d1 m q ha he hh e1 hq]
      exact ih { s with p := q, st := m } d2 hf ha (by rw [h2, he]) (by rw [h1, hh]) e2 hp

/-- A response that ends with its head, in pieces: `l0` has been read before. -/
theorem loop_bare {A : App} {c : Cfg} {L : Lib} (n : Nat) (s : Sess L) (r : Response) (st' : L.σ) (x : Bytes) (l0 : List Bytes) (d : Bytes) (hf : s.failed = none) (ha : s.ack = false) (hp : s.p = {})
    (hr : r.Good L c false false s.st st') (hb : EndsWithHead L s.st r.wire) (hd : d ≠ []) (hw : l0.flatten ++ d = r.wire) (hA : A.onHeaders s.trace r.headers = .normal) :
    ∃ s1, run A c s [] (l0.map fun b => ⟨b, false⟩) = some (s1, []) ∧ s1.failed = none ∧ s1.ack = false ∧
      loop A c false (n + 1) s1 (d ++ x) = loop A c false n { s with p := {}, st := st', ack := r.status == 101, trace := s.trace ++ [.headers r.headers] ++ [.stream r.body.flatten] ++ .finish r.headers (A.onStream (s.trace ++ [.headers r.headers]) r.body.flatten) :: closing (!r.keep) } x := by
  obtain ⟨v, b, d1, d2, s1, s2, m, k, d3, hwv, em1, m1, hdd, m2, hbd⟩ := bare_reads hr.reads hb
  obtain ⟨d', y, rfl⟩ : ∃ d' y, d = d' ++ [y] := ⟨d.dropLast, d.getLast hd, (List.dropLast_concat_getLast hd).symm⟩
  rw [hwv, ← List.append_assoc] at hw
  obtain ⟨hw0, hy⟩ := List.append_inj' hw rfl
  obtain rfl : y = b := by simpa using hy
  rw [← hw0] at em1
  obtain ⟨sm, e1, e2, em0, em2, rfl⟩ := emits_append em1
  have hall := head_all c r.status r.reason r.fields hr.reason hr.pieces
  rw [if_neg (by have := hr.head_size; intro h; omega), hdd, onDatas_append, onDatas_append] at hall
  cases hq0 : onDatas c {} e1 with
  | error z => rw [hq0] at hall; exact absurd hall (by simp)
  | ok q0 =>
    rw [hq0] at hall
    simp only at hall
    cases hq : onDatas c q0 e2 with
    | error z => rw [hq] at hall; exact absurd hall (by simp)
    | ok q1 =>
      rw [hq] at hall
      simp only at hall
      obtain ⟨g1, g2, -⟩ := onDatas_same hq0
      refine ⟨{ s with p := q0, st := sm }, run_parts l0 s e1 sm q0 hf ha (by rw [hp]) (by rw [hp]) em0 (by rw [hp]; exact hq0), hf, ha, ?_⟩
      have hx : exec c L q0 sm (d' ++ [y] ++ x) = .ok ({ headed r with errno := .paused }, s2, y :: x) := by
        rw [List.append_assoc, exec_emits em2 q0 q1 hq]
        simp only [List.cons_append, List.nil_append, exec, m1, hall, on_headers_complete, headed, Response.headers]
      have hbody := body_all hr.body_size
      rw [hbd] at hbody
      have hyy : exec c L (headed r) s2 (y :: x) = .ok ({ headed r with payload := r.body.flatten, hresp := 2, errno := .paused }, st', x) := by
        simp only [exec, m2, hbody, on_message_complete]
      have h1 : headersPhase A c { s with p := q0, st := sm } (d' ++ [y] ++ x) false = .next { s with p := headed r, st := s2, trace := s.trace ++ [.headers r.headers] } (y :: x) := by
        unfold headersPhase parse_headers
        rw [if_neg (by simp [g1]), if_neg (by simp [g1])]
        unfold parse
        simp only
        rw [hx]
        simp only [Bool.false_eq_true, if_false, if_true, onHead, afterParse, Sess.call]
        rw [if_neg (by simp [headed]), if_neg (by simp [headed])]
        simp only [headed, hA, afterHeaders]
      have h2 : payloadPhase A c { s with p := headed r, st := s2, trace := s.trace ++ [.headers r.headers] } (y :: x) false
          = .next { s with p := { headed r with payload := A.onStream (s.trace ++ [.headers r.headers]) r.body.flatten, hresp := 2 }, st := st', ack := s.ack || r.status == 101, trace := s.trace ++ [.headers r.headers] ++ [.stream r.body.flatten] ++ .finish r.headers (A.onStream (s.trace ++ [.headers r.headers]) r.body.flatten) :: closing (!r.keep) } x := by
        unfold payloadPhase parse_payload
        rw [if_neg (by simp [headed]), if_neg (by simp [headed]), if_neg (by simp [headed])]
        unfold parse
        rw [hyy]
        simp only [Bool.false_eq_true, if_false, if_true, onPayload, afterPayload, Sess.call]
        simp [headed, Response.headers]
      rw [loop_succ, if_neg (by simp [ha]), if_neg (by simp [g2]), h1]
      simp only [finishIter]
      rw [h2]
      simp only [ha, Bool.false_or]
      rfl

theorem run_ack {A : App} {c : Cfg} {L : Lib} (l : List Bytes) : ∀ (s : Sess L), s.failed = none → s.ack = true →
    run A c s [] (l.map fun b => ⟨b, false⟩) = some ({ s with trace := s.trace ++ l.map fun b => .upgraded b false }, []) := by
  induction l with
  | nil => intro s _ _; simp [run]
  | cons b l ih =>
    intro s hf ha
    simp only [List.map_cons, run]
    rw [step_ack _ _ _ hf ha]
    simp only
    rw [ih (s.call (.upgraded b false)) hf ha]
    simp [Sess.call]

/-! ### When the protocol is switched -/

/-- A response with status 101 has been received; or the protocol had been switched before. -/
def switched (b : Bool) (t : List Ev) : Bool := b || t.any fun | .finish h _ => h.status == 101 | _ => false

/-- A response comes before the switch, and data of another protocol after it. -/
def Timely (b : Bool) (pre : List Ev) : Ev → Prop
  | .finish _ _ => switched b pre = false
  | .upgraded _ _ => switched b pre = true
  | _ => True

def InStep (b : Bool) (t : List Ev) : Prop := ∀ pre e post, t = pre ++ e :: post → Timely b pre e

theorem inStep_snoc {b : Bool} {t : List Ev} {e : Ev} (h : InStep b t) (h1 : Timely b t e) : InStep b (t ++ [e]) := by
  intro pre x post he
  rcases List.eq_nil_or_concat post with rfl | ⟨u, y, rfl⟩
  · obtain ⟨a, b'⟩ := List.append_inj' he rfl
    obtain rfl : e = x := by simpa using b'
    subst a
    exact h1
  · rw [List.concat_eq_append, show pre ++ x :: (u ++ [y]) = (pre ++ x :: u) ++ [y] by simp] at he
    obtain ⟨a, -⟩ := List.append_inj' he rfl
    exact h pre x u a

def Sync {L : Lib} (b : Bool) (s : Sess L) : Prop := s.ack = switched b s.trace ∧ InStep b s.trace

def Step.Synced {L : Lib} (b : Bool) : Step L → Prop | .ret s _ => Sync b s | .next s _ => Sync b s

variable {A : App} {c : Cfg} {L : Lib} {b : Bool}

theorem sync_congr {s t : Sess L} (h : Sync b s) (h1 : t.ack = s.ack) (h2 : t.trace = s.trace) : Sync b t := by
  unfold Sync at *; rw [h1, h2]; exact h

theorem sync_call {s : Sess L} (h : Sync b s) (e : Ev) (h1 : ∀ x y, e ≠ .finish x y) (h2 : Timely b s.trace e) : Sync b (s.call e) := by
  refine ⟨?_, inStep_snoc h.2 h2⟩
  show s.ack = switched b (s.trace ++ [e])
  rw [h.1]
  unfold switched
  rw [List.any_append]
  cases e <;> simp
  exact absurd rfl (h1 _ _)

theorem sync_headersPhase (hA : ∀ t h, A.onHeaders t h = .normal ∨ A.onHeaders t h = .empty) {s : Sess L} (h : Sync b s) (data : Bytes) (eof : Bool) : (headersPhase A c s data eof).Synced b := by
  unfold headersPhase
  split
  · exact h
  · unfold onHead
    split
    · exact sync_congr h rfl rfl
    · rename_i r _
      unfold afterParse
      split
      · exact sync_call (s := { s with st := r.2.1, p := r.1 }) (sync_congr h rfl rfl) _ (by simp) trivial
      · split
        · exact sync_congr h rfl rfl
        · have key : Sync b (({ s with st := r.2.1, p := r.1 } : Sess L).call (.headers r.1.headers)) := sync_call (sync_congr h rfl rfl) _ (by simp) trivial
          unfold afterHeaders
          simp only
          rcases hA s.trace r.1.headers with ht | ht <;> rw [ht] <;> exact sync_congr key rfl rfl

theorem headersPhase_ack (hA : ∀ t h, A.onHeaders t h = .normal ∨ A.onHeaders t h = .empty) {s s' : Sess L} {data d : Bytes} {eof : Bool} (h : headersPhase A c s data eof = .next s' d) : s'.ack = s.ack := by
  unfold headersPhase at h
  split at h
  · cases h; rfl
  · unfold onHead at h
    split at h
    · exact absurd h (by simp)
    · rename_i r _
      unfold afterParse at h
      split at h
      · exact absurd h (by simp)
      · split at h
        · exact absurd h (by simp)
        · unfold afterHeaders at h
          simp only at h
          rcases hA s.trace r.1.headers with ht | ht <;> rw [ht] at h <;> cases h <;> rfl

theorem sync_payloadPhase {s : Sess L} (h : Sync b s) (ha : s.ack = false) (data : Bytes) (eof : Bool) : (payloadPhase A c s data eof).Synced b := by
  unfold payloadPhase
  split
  · exact h
  · unfold onPayload
    split
    · exact sync_congr h rfl rfl
    · rename_i r _
      unfold afterPayload
      split
      · exact sync_call (s := { s with st := r.2.1, p := r.1 }) (sync_congr h rfl rfl) _ (by simp) trivial
      · have h1 : Sync b (({ s with st := r.2.1, p := { r.1 with payload := A.onStream s.trace r.1.payload } } : Sess L).call (.stream r.1.payload)) :=
          sync_call (sync_congr h rfl rfl) _ (by simp) trivial
        simp only
        split
        · exact h1
        · have h2 : switched b (s.trace ++ [.stream r.1.payload]) = false := by have := h1.1; simp only [Sess.call] at this; rw [← this]; exact ha
          have h3 := inStep_snoc h1.2 (e := .finish r.1.headers (A.onStream s.trace r.1.payload)) (by simpa [Timely, Sess.call] using h2)
          have h4 : switched b (s.trace ++ [.stream r.1.payload] ++ [.finish r.1.headers (A.onStream s.trace r.1.payload)]) = (r.1.headers.status == 101) := by
            unfold switched at h2 ⊢
            rw [List.any_append, ← Bool.or_assoc, h2]; simp
          have key : Sync b (({ s with st := r.2.1, p := { r.1 with payload := A.onStream s.trace r.1.payload }, ack := s.ack || r.1.headers.status == 101, trace := s.trace ++ [.stream r.1.payload] ++ [.finish r.1.headers (A.onStream s.trace r.1.payload)] } : Sess L)) :=
            ⟨by simp only; rw [h4, ha]; rfl, h3⟩
          unfold closing
          split
          · exact sync_congr (sync_call key .shut (by simp) trivial) rfl (by simp [Sess.call])
          · exact sync_congr key rfl (by simp [Sess.call])

theorem sync_loop (hA : ∀ t h, A.onHeaders t h = .normal ∨ A.onHeaders t h = .empty) (eof : Bool) (n : Nat) : ∀ (s : Sess L) (data : Bytes), Sync b s → ∀ r, loop A c eof n s data = some r → Sync b r.1 := by
  induction n with
  | zero => intro s data _ r hr; simp [loop] at hr
  | succ n ih =>
    intro s data h r hr
    unfold loop at hr
    split at hr
    · rename_i ha
      cases hr
      exact sync_call (s := { s with p := deallocate s.p }) (sync_congr h rfl rfl) _ (by simp) (show switched b s.trace = true by rw [← h.1]; exact ha)
    · rename_i ha
      have ha : s.ack = false := by simpa using ha
      split at hr
      · cases hr; exact h
      · have h1 := sync_headersPhase (c := c) hA h data eof
        split at hr
        · rename_i hx; rw [hx] at h1; cases hr; exact h1
        · rename_i s1 d1 hx
          rw [hx] at h1
          have h2 := sync_payloadPhase (A := A) (c := c) h1 (by rw [headersPhase_ack hA hx]; exact ha) d1 eof
          split at hr
          · rename_i hy; rw [hy] at h2; cases hr; exact h2
          · rename_i s2 d2 hy
            rw [hy] at h2
            exact ih { s2 with p := next_message s2.p } d2 (sync_congr h2 rfl rfl) r hr

theorem sync_run (hA : ∀ t h, A.onHeaders t h = .normal ∨ A.onHeaders t h = .empty) (as : List Act) : ∀ (s : Sess L) (buf : Bytes), Sync b s → ∀ r, run A c s buf as = some r → Sync b r.1 := by
  induction as with
  | nil => intro s buf h r hr; cases hr; exact h
  | cons a as ih =>
    intro s buf h r hr
    unfold run at hr
    split at hr
    · simp at hr
    · rename_i s1 b1 hx
      refine ih s1 b1 ?_ r hr
      simp only [step] at hx
      split at hx
      · simp only [Option.some.injEq, Prod.mk.injEq] at hx; rw [← hx.1]; exact h
      · unfold do_on_tcp_stream at hx
        split at hx
        · rename_i ha
          simp only [Option.some.injEq, Prod.mk.injEq] at hx
          rw [← hx.1]
          exact sync_call h _ (by simp) (show switched b s.trace = true by rw [← h.1]; exact ha)
        · exact sync_loop hA _ _ s _ h _ hx

end Verif.HttpClient
