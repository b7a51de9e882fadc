import Verif.Spec.HttpClient
import Verif.Proofs.HttpResponse
/-! # Lemmas about HTTP client sessions -/
namespace Verif.HttpClient
open Verif.HttpLib Verif.HttpResponse Verif.Spec.Client
open Verif.Spec (LibOk Emits replyCalls replySize)
open Verif.HttpRequest (as_string onLast startsNew Cfg Fail)

/-! ### The parser -/

/-- What no callback for text changes. -/
def SameState (p p' : Parser) : Prop := p'.hresp = p.hresp ∧ p'.errno = p.errno ∧ p'.close = p.close

theorem onData_same {c : Cfg} {p p' : Parser} {d : Data} (h : onData c p d = .ok p') : SameState p p' := by
  cases d <;> simp only [onData, on_status, on_header_field, on_header_value, on_body] at h <;> (repeat' split at h) <;> cases h <;> exact ⟨rfl, rfl, rfl⟩

theorem onDatas_same {c : Cfg} {p p' : Parser} {ds : List Data} (h : onDatas c p ds = .ok p') : SameState p p' := by
  induction ds generalizing p with
  | nil => simp only [onDatas, Except.ok.injEq] at h; subst h; exact ⟨rfl, rfl, rfl⟩
  | cons d t ih =>
    simp only [onDatas] at h
    split at h
    · exact absurd h (by simp)
    · rename_i q hq
      have h1 := onData_same hq
      have h2 := ih h
      exact ⟨h2.1.trans h1.1, h2.2.1.trans h1.2.1, h2.2.2.trans h1.2.2⟩

/-- Behind the headers, callbacks only add headers. -/
theorem onData_body {c : Cfg} {p p' : Parser} {d : Data} (h : onData c p d = .ok p') (hd : ∀ n x, d ≠ .status n x) : ∃ hs, p'.headers = { p.headers with headers := hs } := by
  cases d <;> simp only [onData, on_status, on_header_field, on_header_value, on_body] at h <;> (repeat' split at h) <;> cases h <;> first
    | exact ⟨_, rfl⟩
    | exact (hd _ _ rfl).elim

theorem onDatas_body {c : Cfg} {p p' : Parser} {ds : List Data} (h : onDatas c p ds = .ok p') (hd : ∀ n x, .status n x ∉ ds) : ∃ hs, p'.headers = { p.headers with headers := hs } := by
  induction ds generalizing p with
  | nil => simp only [onDatas, Except.ok.injEq] at h; subst h; exact ⟨_, rfl⟩
  | cons d t ih =>
    simp only [onDatas] at h
    split at h
    · exact absurd h (by simp)
    · rename_i q hq
      obtain ⟨hs, e⟩ := onData_body hq (fun n x hx => hd n x (by simp [hx]))
      obtain ⟨hs', e'⟩ := ih h (fun n x hx => hd n x (by simp [hx]))
      exact ⟨hs', by rw [e', e]⟩

/-- What a call of the library does in a state outside or inside a message. -/
theorem exec_spec {c : Cfg} {L : Lib} {body : L.σ → Prop} (hL : ReplyLib L body) (p : Parser) (st : L.σ) (data : Bytes) (hp : p.errno = .ok) {p' : Parser} {st' : L.σ} {rest : Bytes}
    (h : exec c L p st data = .ok (p', st', rest)) :
    (p'.errno = .ok ∧ rest = [] ∧ p'.hresp = p.hresp ∧ (body st' ↔ body st) ∧ (body st → ∃ hs, p'.headers = { p.headers with headers := hs })) ∨
    (p'.errno = .paused ∧ ¬ body st ∧ p'.hresp = 1 ∧ body st' ∧ rest ≠ [] ∧ rest.length ≤ data.length) ∨
    (p'.errno = .paused ∧ body st ∧ p'.hresp = 2 ∧ ¬ body st' ∧ rest.length < data.length ∧ ∃ hs, p'.headers = { p.headers with headers := hs }) ∨
    (p'.errno ≠ .ok ∧ p'.errno ≠ .paused) := by
  induction data generalizing p st with
  | nil =>
    simp only [exec, Except.ok.injEq, Prod.mk.injEq] at h
    obtain ⟨rfl, rfl, rfl⟩ := h
    exact .inl ⟨hp, rfl, rfl, Iff.rfl, fun _ => ⟨_, rfl⟩⟩
  | cons b t ih =>
    simp only [exec] at h
    cases hd : onDatas c p (L.micro st b).2.1 with
    | error e => rw [hd] at h; exact absurd h (by simp)
    | ok q =>
      rw [hd] at h
      simp only at h
      have hq := onDatas_same hd
      cases hE : (L.micro st b).2.2 with
      | go =>
        rw [hE] at h
        simp only at h
        have hb : body (L.micro st b).1 ↔ body st := by
          by_cases hb : body st
          · exact ⟨fun _ => hb, fun _ => hL.body_go st b hb hE⟩
          · exact ⟨fun h => absurd h (hL.head_go st b hb hE), fun h => absurd h hb⟩
        rcases ih q (L.micro st b).1 (hq.2.1.trans hp) h with ⟨h1, h2, h3, h4, h5⟩ | ⟨h1, h2, h3, h4, h5, h6⟩ | ⟨h1, h2, h3, h4, h5, h6⟩ | h1
        · refine .inl ⟨h1, h2, h3.trans hq.1, h4.trans hb, ?_⟩
          intro hb'
          obtain ⟨hs, e⟩ := h5 (hb.mpr hb')
          obtain ⟨hs', e'⟩ := onDatas_body hd (hL.body_status st b hb')
          exact ⟨hs, by rw [e, e']⟩
        · exact .inr (.inl ⟨h1, fun h => h2 (hb.mpr h), h3, h4, h5, by simp; omega⟩)
        · obtain ⟨hs, e⟩ := h6
          obtain ⟨hs', e'⟩ := onDatas_body hd (hL.body_status st b (hb.mp h2))
          exact .inr (.inr (.inl ⟨h1, hb.mp h2, h3, h4, by simp; omega, hs, by rw [e, e']⟩))
        · exact .inr (.inr (.inr h1))
      | headers m n k =>
        rw [hE] at h
        simp only [Except.ok.injEq, Prod.mk.injEq] at h
        obtain ⟨rfl, rfl, rfl⟩ := h
        have hb : ¬ body st := fun hb => hL.body_headers st b m n k hb hE
        exact .inr (.inl ⟨rfl, hb, rfl, hL.head_headers st b m n k hb hE, by simp, Nat.le_refl _⟩)
      | done =>
        rw [hE] at h
        simp only [Except.ok.injEq, Prod.mk.injEq] at h
        obtain ⟨rfl, rfl, rfl⟩ := h
        have hb : body st := Classical.byContradiction fun hb => hL.head_done st b hb hE
        obtain ⟨hs', e'⟩ := onDatas_body hd (hL.body_status st b hb)
        exact .inr (.inr (.inl ⟨rfl, hb, rfl, hL.body_done st b hb hE, by simp, hs', e'⟩))
      | bad e =>
        rw [hE] at h
        simp only [Except.ok.injEq, Prod.mk.injEq] at h
        obtain ⟨rfl, rfl, rfl⟩ := h
        exact .inr (.inr (.inr (hL.bad st b e hE)))

theorem exec_append {c : Cfg} {L : Lib} {body : L.σ → Prop} (hL : ReplyLib L body) (p : Parser) (st : L.σ) (hp : p.errno = .ok) (x y : Bytes) :
    exec c L p st (x ++ y) = match exec c L p st x with
      | .error e => .error e
      | .ok (p1, st1, r) => if p1.errno = .ok then exec c L p1 st1 y else .ok (p1, st1, r ++ y) := by
  induction x generalizing p st with
  | nil => simp [exec, hp]
  | cons b t ih =>
    simp only [List.cons_append, exec]
    cases hd : onDatas c p (L.micro st b).2.1 with
    | error e => rfl
    | ok q =>
      have hq := onDatas_same hd
      simp only
      cases hE : (L.micro st b).2.2 with
      | go => exact ih q _ (hq.2.1.trans hp)
      | headers m n k =>
        simp [on_headers_complete]
      | done => simp [on_message_complete]
      | bad e => simp only; rw [if_neg (hL.bad st b e hE).1]; rfl

/-- What `parse_headers_from_stream()` and `parse_payload_from_stream()` do. -/
theorem parse_spec {c : Cfg} {L : Lib} {body : L.σ → Prop} (hL : ReplyLib L body) (p : Parser) (st : L.σ) (data : Bytes) (eof : Bool) (hp : p.errno = .ok) {p' : Parser} {st' : L.σ} {rest : Bytes}
    (h : parse c L p st data eof = .ok (p', st', rest)) :
    (p'.errno = .ok ∧ rest = [] ∧ p'.hresp = p.hresp ∧ (body st' ↔ body st) ∧ (body st → ∃ hs, p'.headers = { p.headers with headers := hs })) ∨
    (p'.errno = .ok ∧ ¬ body st ∧ p'.hresp = 1 ∧ body st' ∧ rest ≠ [] ∧ rest.length ≤ data.length) ∨
    (p'.errno = .ok ∧ body st ∧ p'.hresp = 2 ∧ ¬ body st' ∧ (rest.length < data.length ∨ rest = [] ∧ eof = true) ∧ ∃ hs, p'.headers = { p.headers with headers := hs }) ∨
    (p'.errno ≠ .ok) := by
  unfold parse at h
  cases hx : exec c L p st data with
  | error e => rw [hx] at h; exact absurd h (by simp)
  | ok r =>
    obtain ⟨p1, st1, r1⟩ := r
    rw [hx] at h
    simp only [Except.ok.injEq, Prod.mk.injEq] at h
    obtain ⟨h1, h2, rfl⟩ := h
    rcases exec_spec hL p st data hp hx with ⟨e1, e2, e3, e4, e5⟩ | ⟨e1, e2, e3, e4, e5, e6⟩ | ⟨e1, e2, e3, e4, e5, e6⟩ | ⟨e1, e2⟩
    · -- all data has been read
      cases eof with
      | false =>
        simp only [Bool.false_eq_true, if_false, e1, reduceCtorEq] at h1 h2
        subst h1 h2
        exact .inl ⟨e1, e2, e3, e4, e5⟩
      | true =>
        simp only [if_true, execEof, e1, ne_eq, not_true_eq_false, if_false] at h1 h2
        by_cases hb : body st
        · rcases hL.eof_body st1 (e4.mpr hb) with ⟨g1, g2⟩ | ⟨g1, g2⟩ | ⟨e, g1⟩
          · rw [g1] at h1 h2
            simp only [e1, reduceCtorEq, if_false] at h1 h2
            subst h1 h2
            exact .inl ⟨e1, e2, e3, ⟨fun _ => hb, fun _ => g2⟩, e5⟩
          · rw [g1] at h1 h2
            simp only [on_message_complete, if_true] at h1 h2
            subst h1 h2
            exact .inr (.inr (.inl ⟨rfl, hb, rfl, g2, .inr ⟨e2, rfl⟩, e5 hb⟩))
          · have := hL.eof_bad st1 e g1
            rw [g1] at h1 h2
            simp only [this.2, if_false] at h1
            subst h1
            exact .inr (.inr (.inr this.1))
        · rcases hL.eof_head st1 (fun h => hb (e4.mp h)) with ⟨g1, g2⟩ | ⟨e, g1⟩
          · rw [g1] at h1 h2
            simp only [e1, reduceCtorEq, if_false] at h1 h2
            subst h1 h2
            exact .inl ⟨e1, e2, e3, ⟨fun h => absurd h g2, fun h => absurd h hb⟩, e5⟩
          · have := hL.eof_bad st1 e g1
            rw [g1] at h1 h2
            simp only [this.2, if_false] at h1
            subst h1
            exact .inr (.inr (.inr this.1))
    · have : (if eof = true then execEof L p1 st1 else (p1, st1)) = (p1, st1) := by
        split
        · simp [execEof, e1]
        · rfl
      rw [this] at h1 h2
      simp only [e1, if_true] at h1 h2
      subst h1 h2
      exact .inr (.inl ⟨rfl, e2, e3, e4, e5, e6⟩)
    · have : (if eof = true then execEof L p1 st1 else (p1, st1)) = (p1, st1) := by
        split
        · simp [execEof, e1]
        · rfl
      rw [this] at h1 h2
      simp only [e1, if_true] at h1 h2
      subst h1 h2
      exact .inr (.inr (.inl ⟨rfl, e2, e3, e4, .inl e5, e6⟩))
    · have : (if eof = true then execEof L p1 st1 else (p1, st1)) = (p1, st1) := by
        split
        · simp [execEof, e1]
        · rfl
      rw [this] at h1 h2
      simp only [e2, if_false] at h1 h2
      subst h1
      exact .inr (.inr (.inr e1))

/-! ### The session -/

/-- Within a message, the calls that have been made agree with what the parser has. -/
def Link (ph : Phase) (p : Parser) : Prop :=
  ∃ h hs, (ph = .fresh h ∨ ph = .within h) ∧ p.headers = { h with headers := hs }

/-- What holds whenever `do_on_tcp_stream()` is not running, and at the start of each iteration. -/
def Inv {L : Lib} (body : L.σ → Prop) (s : Sess L) : Prop :=
  ∃ ph, Order s.trace ph ∧ (s.ack = true → ph = .switched ∨ ph = .other) ∧ (s.failed = none → s.p.errno = .ok → s.ack = false →
    (s.p.hresp = 0 ∧ ¬ body s.st ∧ ph = .idle) ∨ (s.p.hresp = 1 ∧ body s.st ∧ Link ph s.p))

/-- What holds between the two parts of an iteration. -/
structure Mid {L : Lib} (body : L.σ → Prop) (s : Sess L) : Prop where
  failed : s.failed = none
  ack : s.ack = false
  errno : s.p.errno = .ok
  hresp : s.p.hresp = 1
  within : body s.st
  order : ∃ ph, Order s.trace ph ∧ Link ph s.p

theorem headersPhase_spec {A : App} {c : Cfg} {L : Lib} {body : L.σ → Prop} (hL : ReplyLib L body) (s : Sess L) (data : Bytes) (eof : Bool) (hI : Inv body s)
    (hf : s.failed = none) (he : s.p.errno = .ok) (ha : s.ack = false) :
    match headersPhase A c s data eof with
    | .ret s' d => d = [] ∧ Inv body s'
    | .next s' d => Mid body s' ∧ (d = data ∧ s'.st = s.st ∨ ¬ body s.st ∧ d ≠ [] ∧ d.length ≤ data.length) := by
  obtain ⟨ph, ho, hk, hl⟩ := hI
  unfold headersPhase
  rcases hl hf he ha with ⟨h0, hb, rfl⟩ | ⟨h1, hb, hk⟩
  · rw [if_neg (by omega)]
    simp only [parse_headers, if_neg (show ¬ 1 ≤ s.p.hresp by omega)]
    cases hx : parse c L s.p s.st data eof with
    | error e => exact ⟨rfl, .idle, ho, hk, by simp [Sess.fail]⟩
    | ok r =>
      obtain ⟨p, st, rest⟩ := r
      show match afterParse A { s with st := st } p rest eof with
        | .ret s' d => d = [] ∧ Inv body s'
        | .next s' d => Mid body s' ∧ (d = data ∧ s'.st = s.st ∨ ¬ body s.st ∧ d ≠ [] ∧ d.length ≤ data.length)
      unfold afterParse
      rcases parse_spec hL _ _ _ _ he hx with ⟨e1, e2, e3, e4, -⟩ | ⟨e1, e2, e3, e4, e5, e6⟩ | ⟨e1, e2, e3, e4, e5, e6⟩ | e1
      · rw [if_neg (by simp [e1]), if_pos (by omega)]
        exact ⟨e2, .idle, ho, hk, fun _ _ _ => .inl ⟨e3.trans h0, fun h => hb (e4.mp h), rfl⟩⟩
      · rw [if_neg (by simp [e1]), if_neg (by omega)]
        simp only [afterHeaders, Sess.call]
        have hord := Order.headers p.headers ho
        cases A.onHeaders s.trace p.headers with
        | normal => exact ⟨⟨hf, ha, e1, e3, e4, _, hord, p.headers, _, .inl rfl, rfl⟩, .inr ⟨e2, e5, e6⟩⟩
        | empty => exact ⟨⟨hf, ha, e1, e3, hL.skip _ e4, _, hord, p.headers, _, .inl rfl, rfl⟩, .inr ⟨e2, e5, e6⟩⟩
        | connect => exact ⟨rfl, .other, Order.connect _ _ hord, fun _ => .inr rfl, by simp⟩
        | other => exact ⟨rfl, _, hord, fun h => absurd ha (by rw [show s.ack = true from h]; simp), by simp⟩
      · exact absurd e2 hb
      · rw [if_pos e1]
        exact ⟨rfl, .over, Order.abort_idle ho, fun h => absurd ha (by rw [show s.ack = true from h]; simp), fun _ h => absurd h e1⟩
  · rw [if_pos (by omega)]
    exact ⟨⟨hf, ha, he, h1, hb, ph, ho, hk⟩, .inl ⟨rfl, rfl⟩⟩

theorem payloadPhase_spec {A : App} {c : Cfg} {L : Lib} {body : L.σ → Prop} (hL : ReplyLib L body) (s : Sess L) (data : Bytes) (eof : Bool) (hM : Mid body s) :
    match payloadPhase A c s data eof with
    | .ret s' d => d = [] ∧ Inv body s'
    | .next s' d => Inv body { s' with p := next_message s'.p } ∧ s'.failed = none ∧ s'.p.errno = .ok ∧ ¬ body s'.st ∧ (d.length < data.length ∨ d = [] ∧ eof = true) := by
  obtain ⟨hf, ha, he, h1, hb, ph, ho, hk⟩ := hM
  have hna : ∀ {P : Prop}, s.ack = true → P := fun h => absurd ha (by rw [h]; simp)
  unfold payloadPhase
  rw [if_neg (by omega)]
  simp only [parse_payload, if_neg (show ¬ 2 ≤ s.p.hresp by omega), h1, ne_eq, not_true_eq_false, if_false]
  cases hx : parse c L s.p s.st data eof with
  | error e => exact ⟨rfl, ph, ho, fun h => hna h, fun h => absurd h (by simp [Sess.fail])⟩
  | ok r =>
    obtain ⟨p, st, rest⟩ := r
    show match afterPayload A { s with st := st } p rest with
      | .ret s' d => d = [] ∧ Inv body s'
      | .next s' d => Inv body { s' with p := next_message s'.p } ∧ s'.failed = none ∧ s'.p.errno = .ok ∧ ¬ body s'.st ∧ (d.length < data.length ∨ d = [] ∧ eof = true)
    unfold afterPayload
    obtain ⟨h, hs', hph, e'⟩ := hk
    have hstream : Order (s.trace ++ [.stream p.payload]) (.within h) := by
      rcases hph with rfl | rfl
      · exact Order.payload _ ho
      · exact Order.more _ ho
    rcases parse_spec hL _ _ _ _ he hx with ⟨e1, e2, e3, e4, e5⟩ | ⟨e1, e2, e3, e4, e5, e6⟩ | ⟨e1, e2, e3, e4, e5, hs, e6⟩ | e1
    · rw [if_neg (by simp [e1]), if_pos (by omega)]
      obtain ⟨hs, e⟩ := e5 hb
      exact ⟨e2, .within h, hstream, fun h => hna h, fun _ _ _ => .inr ⟨e3.trans h1, e4.mpr hb, h, hs, .inr rfl, (show p.headers = _ by rw [e, e'])⟩⟩
    · exact absurd hb e2
    · rw [if_neg (by simp [e1]), if_neg (by omega)]
      simp only
      have : p.headers = { h with headers := hs } := by rw [e6, e']
      refine ⟨⟨if h.status = 101 then .switched else .idle, ?_, ?_, ?_⟩, hf, e1, e4, e5⟩
      · simp only [Sess.call, this]
        exact Order.finish _ _ _ hstream
      · simp only [Sess.call, this, ha, Bool.false_or, beq_iff_eq]
        intro h; simp [h]
      · simp only [Sess.call, this, ha, Bool.false_or]
        intro _ _ h
        refine .inl ⟨rfl, e4, ?_⟩
        rw [if_neg (by simpa using h)]
    · rw [if_pos e1]
      refine ⟨rfl, .over, ?_, fun h => hna h, fun _ h => absurd h e1⟩
      rcases hph with rfl | rfl
      · exact Order.abort_fresh ho
      · exact Order.abort_within ho

theorem upgraded_order {t : List Ev} {ph : Phase} (ho : Order t ph) (h : ph = .switched ∨ ph = .other) (d : Bytes) (e : Bool) : Order (t ++ [.upgraded d e]) .other := by
  rcases h with rfl | rfl
  · exact Order.switch _ _ ho
  · exact Order.data _ _ ho

open Classical in
theorem loop_spec {A : App} {c : Cfg} {L : Lib} {body : L.σ → Prop} (hL : ReplyLib L body) (eof : Bool) (n : Nat) (s : Sess L) (data : Bytes) (hI : Inv body s)
    (hf : s.failed = none) (hn : data.length + (if eof = true ∧ body s.st then 2 else 1) ≤ n) :
    ∃ s', loop A c eof n s data = some (s', []) ∧ Inv body s' := by
  induction n generalizing s data with
  | zero => exact absurd hn (by split <;> omega)
  | succ n ih =>
    simp only [loop]
    by_cases ha : s.ack = true
    · rw [if_pos ha]
      obtain ⟨ph, ho, hk, -⟩ := hI
      exact ⟨_, rfl, .other, upgraded_order ho (hk ha) _ _, fun _ => .inr rfl, fun _ _ h => absurd ha (by rw [show s.ack = false from h]; simp)⟩
    · rw [if_neg ha]
      by_cases he : s.p.errno = .ok
      · rw [if_neg (by simp [he])]
        have h1 := headersPhase_spec (A := A) (c := c) hL s data eof hI hf he (by simpa using ha)
        cases hx : headersPhase A c s data eof with
        | ret s' d => rw [hx] at h1; simp only at h1 ⊢; exact ⟨s', by rw [h1.1], h1.2⟩
        | next s' d =>
          rw [hx] at h1
          simp only at h1 ⊢
          obtain ⟨hM, hd⟩ := h1
          have h2 := payloadPhase_spec (A := A) (c := c) hL s' d eof hM
          cases hy : payloadPhase A c s' d eof with
          | ret s'' d' => rw [hy] at h2; simp only at h2 ⊢; exact ⟨s'', by rw [h2.1], h2.2⟩
          | next s'' d' =>
            rw [hy] at h2
            simp only at h2 ⊢
            obtain ⟨h3, h4, h5, h6, h7⟩ := h2
            refine ih _ _ h3 h4 ?_
            rw [if_neg (fun h => h6 h.2)]
            rcases hd with ⟨rfl, hst⟩ | ⟨hb, hd1, hd2⟩
            · rcases h7 with h7 | ⟨rfl, h8⟩
              · split at hn <;> omega
              · rw [if_pos ⟨h8, by rw [← hst]; exact hM.within⟩] at hn
                simp; omega
            · rw [if_neg (fun h => hb h.2)] at hn
              rcases h7 with h7 | ⟨rfl, -⟩
              · omega
              · have : d.length ≠ 0 := by simpa using hd1
                simp; omega
      · rw [if_pos he]; exact ⟨s, rfl, hI⟩

theorem step_spec {A : App} {c : Cfg} {L : Lib} {body : L.σ → Prop} (hL : ReplyLib L body) (s : Sess L) (a : Act) (hI : Inv body s) :
    ∃ s', step A c s [] a = some (s', []) ∧ Inv body s' := by
  simp only [step, List.nil_append]
  cases hf : s.failed with
  | some f => exact ⟨s, by simp, hI⟩
  | none =>
    simp only [Option.isSome_none, Bool.false_eq_true, if_false, do_on_tcp_stream]
    by_cases ha : s.ack = true
    · rw [if_pos ha]
      obtain ⟨ph, ho, hk, -⟩ := hI
      exact ⟨_, rfl, .other, upgraded_order ho (hk ha) _ _, fun _ => .inr rfl, fun _ _ h => absurd ha (by rw [show s.ack = false from h]; simp)⟩
    · rw [if_neg ha]
      exact loop_spec hL a.eof _ s a.data hI hf (by split <;> omega)

theorem inv_init {L : Lib} {body : L.σ → Prop} (hL : ReplyLib L body) : Inv body ({} : Sess L) := ⟨.idle, .start, by simp, fun _ _ _ => .inl ⟨rfl, hL.init, rfl⟩⟩

theorem run_spec {A : App} {c : Cfg} {L : Lib} {body : L.σ → Prop} (hL : ReplyLib L body) (s : Sess L) (as : List Act) (hI : Inv body s) :
    ∃ s', run A c s [] as = some (s', []) ∧ Inv body s' := by
  induction as generalizing s with
  | nil => exact ⟨s, rfl, hI⟩
  | cons a as ih =>
    obtain ⟨s1, h1, h2⟩ := step_spec (A := A) (c := c) hL s a hI
    obtain ⟨s2, h3, h4⟩ := ih s1 h2
    exact ⟨s2, by simp only [run, h1, h3], h4⟩

end Verif.HttpClient
