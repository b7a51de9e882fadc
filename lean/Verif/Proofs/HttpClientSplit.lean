import Verif.Proofs.HttpClient
/-! # The pieces in which data arrives make no difference to an HTTP client session -/
namespace Verif.HttpClient
open Verif.HttpLib Verif.HttpResponse Verif.Spec.Client
open Verif.Spec (LibOk Emits replyCalls replySize)
open Verif.HttpRequest (as_string onLast startsNew Cfg Fail)

/-- The sessions differ only in calls of the payload function, and in how the data for another protocol is cut. -/
structure Same {L : Lib} (a b : Sess L) : Prop where
  p : a.p = b.p
  st : a.st = b.st
  ack : a.ack = b.ack
  failed : a.failed = b.failed
  req : responses a.trace = responses b.trace
  tun : tunnel a.trace = tunnel b.trace

theorem Same.refl {L : Lib} (s : Sess L) : Same s s := ⟨rfl, rfl, rfl, rfl, rfl, rfl⟩
theorem Same.symm {L : Lib} {a b : Sess L} (h : Same a b) : Same b a := ⟨h.p.symm, h.st.symm, h.ack.symm, h.failed.symm, h.req.symm, h.tun.symm⟩
theorem Same.trans {L : Lib} {a b c : Sess L} (h : Same a b) (h' : Same b c) : Same a c :=
  ⟨h.p.trans h'.p, h.st.trans h'.st, h.ack.trans h'.ack, h.failed.trans h'.failed, h.req.trans h'.req, h.tun.trans h'.tun⟩

theorem responses_append (a b : List Ev) : responses (a ++ b) = responses a ++ responses b := List.filter_append _ _
theorem tunnel_append (a b : List Ev) : tunnel (a ++ b) = tunnel a ++ tunnel b := List.flatMap_append

def SameStep {L : Lib} : Step L → Step L → Prop
  | .ret a x, .ret b y => Same a b ∧ x = y
  | .next a x, .next b y => Same a b ∧ x = y
  | _, _ => False

def SameRes {L : Lib} : Option (Sess L × Bytes) → Option (Sess L × Bytes) → Prop
  | none, none => True
  | some a, some b => Same a.1 b.1 ∧ a.2 = b.2
  | _, _ => False

theorem call_same {L : Lib} {a b : Sess L} (h : Same a b) (e : Ev) : Same (a.call e) (b.call e) :=
  ⟨h.p, h.st, h.ack, h.failed, by simp only [Sess.call]; rw [responses_append, responses_append, h.req], by simp only [Sess.call]; rw [tunnel_append, tunnel_append, h.tun]⟩

theorem afterHeaders_same {L : Lib} {a b : Sess L} (h : Same a b) (r : Payload) (rest : Bytes) (eof : Bool) : SameStep (afterHeaders a r rest eof) (afterHeaders b r rest eof) := by
  unfold afterHeaders
  cases r with
  | normal => exact ⟨h, rfl⟩
  | empty => exact ⟨⟨h.p, by simp only; rw [h.st], h.ack, h.failed, h.req, h.tun⟩, rfl⟩
  | connect =>
    refine ⟨call_same ?_ _, rfl⟩
    exact ⟨by simp only [h.p], h.st, rfl, h.failed, h.req, h.tun⟩
  | other => exact ⟨⟨h.p, h.st, h.ack, rfl, h.req, h.tun⟩, rfl⟩

theorem setp_same {L : Lib} {a b : Sess L} (h : Same a b) (p : Parser) : Same { a with p := p } { b with p := p } := ⟨rfl, h.st, h.ack, h.failed, h.req, h.tun⟩
theorem setst_same {L : Lib} {a b : Sess L} (h : Same a b) (st : L.σ) : Same { a with st := st } { b with st := st } := ⟨h.p, rfl, h.ack, h.failed, h.req, h.tun⟩
theorem setf_same {L : Lib} {a b : Sess L} (h : Same a b) (f : Option Fail) : Same { a with failed := f } { b with failed := f } := ⟨h.p, h.st, h.ack, rfl, h.req, h.tun⟩

theorem afterParse_same {A : App} (hA : Plain A) {L : Lib} {a b : Sess L} (h : Same a b) (p : Parser) (rest : Bytes) (eof : Bool) :
    SameStep (afterParse A a p rest eof) (afterParse A b p rest eof) := by
  unfold afterParse
  by_cases h1 : p.errno ≠ .ok
  · rw [if_pos h1, if_pos h1]; exact ⟨call_same (setp_same h _) _, rfl⟩
  · rw [if_neg h1, if_neg h1]
    by_cases h2 : ¬ 1 ≤ p.hresp
    · rw [if_pos h2, if_pos h2]; exact ⟨setp_same h _, rfl⟩
    · rw [if_neg h2, if_neg h2]
      rw [hA.headers _ _ _ h.req]
      exact afterHeaders_same (call_same (setp_same h _) _) _ _ _

theorem afterPayload_same {A : App} (hA : Plain A) {L : Lib} {a b : Sess L} (h : Same a b) (p : Parser) (rest : Bytes) :
    SameStep (afterPayload A a p rest) (afterPayload A b p rest) := by
  unfold afterPayload
  by_cases h1 : p.errno ≠ .ok
  · rw [if_pos h1, if_pos h1]; exact ⟨call_same (setp_same h _) _, rfl⟩
  · rw [if_neg h1, if_neg h1]
    simp only [hA.stream]
    have hs := call_same (setp_same h p) (.stream p.payload)
    by_cases h2 : ¬ 2 ≤ p.hresp
    · rw [if_pos h2, if_pos h2]; exact ⟨hs, rfl⟩
    · rw [if_neg h2, if_neg h2]
      exact ⟨⟨hs.p, hs.st, by simp only [Sess.call]; rw [h.ack], hs.failed, by simp only; rw [responses_append, hs.req, ← responses_append],
        by simp only; rw [tunnel_append, hs.tun, ← tunnel_append]⟩, rfl⟩

theorem headersPhase_same {A : App} (hA : Plain A) {c : Cfg} {L : Lib} {a b : Sess L} (h : Same a b) (data : Bytes) (eof : Bool) :
    SameStep (headersPhase A c a data eof) (headersPhase A c b data eof) := by
  unfold headersPhase
  rw [h.p, h.st]
  split
  · exact ⟨h, rfl⟩
  · cases parse_headers c L b.p b.st data eof with
    | error e => exact ⟨⟨rfl, rfl, h.ack, rfl, h.req, h.tun⟩, rfl⟩
    | ok r => exact afterParse_same hA (setst_same h _) _ _ _

theorem payloadPhase_same {A : App} (hA : Plain A) {c : Cfg} {L : Lib} {a b : Sess L} (h : Same a b) (data : Bytes) (eof : Bool) :
    SameStep (payloadPhase A c a data eof) (payloadPhase A c b data eof) := by
  unfold payloadPhase
  rw [h.p, h.st]
  split
  · exact ⟨h, rfl⟩
  · cases parse_payload c L b.p b.st data eof with
    | error e => exact ⟨⟨rfl, rfl, h.ack, rfl, h.req, h.tun⟩, rfl⟩
    | ok r => exact afterPayload_same hA (setst_same h _) _ _

/-- The rest of an iteration, behind the headers. -/
def finishIter {L : Lib} (A : App) (c : Cfg) (eof : Bool) (n : Nat) (s : Sess L) (data : Bytes) : Option (Sess L × Bytes) :=
  match payloadPhase A c s data eof with
  | .ret s d => some (s, d)
  | .next s d => loop A c eof n { s with p := next_message s.p } d

theorem loop_succ {L : Lib} (A : App) (c : Cfg) (eof : Bool) (n : Nat) (s : Sess L) (data : Bytes) : loop A c eof (n + 1) s data =
    if s.ack then some (({ s with p := deallocate s.p } : Sess L).call (.upgraded data eof), [])
    else if s.p.errno ≠ .ok then some (s, [])
    else match headersPhase A c s data eof with
      | .ret s d => some (s, d)
      | .next s d => finishIter A c eof n s d := rfl

theorem loop_same {A : App} (hA : Plain A) {c : Cfg} {L : Lib} (eof : Bool) (n : Nat) {a b : Sess L} (h : Same a b) (data : Bytes) :
    SameRes (loop A c eof n a data) (loop A c eof n b data) := by
  induction n generalizing a b data with
  | zero => exact trivial
  | succ n ih =>
    rw [loop_succ, loop_succ, h.ack, h.p]
    split
    · refine ⟨call_same ?_ _, rfl⟩
      exact ⟨rfl, h.st, rfl, h.failed, h.req, h.tun⟩
    · split
      · exact ⟨h, rfl⟩
      · have h1 := headersPhase_same hA (c := c) h data eof
        generalize headersPhase A c a data eof = x at h1
        generalize headersPhase A c b data eof = y at h1
        cases x with
        | ret s d => cases y with
          | ret s' d' => exact h1
          | next s' d' => exact h1.elim
        | next s d => cases y with
          | ret s' d' => exact h1.elim
          | next s' d' =>
            obtain ⟨h1, rfl⟩ := h1
            simp only [finishIter]
            have h2 := payloadPhase_same hA (c := c) h1 d eof
            generalize payloadPhase A c s d eof = x at h2
            generalize payloadPhase A c s' d eof = y at h2
            cases x with
            | ret s d => cases y with
              | ret s' d' => exact h2
              | next s' d' => exact h2.elim
            | next s d => cases y with
              | ret s' d' => exact h2.elim
              | next s' d' =>
                obtain ⟨h2, rfl⟩ := h2
                simp only
                have := setp_same h2 (next_message s.p)
                rw [show next_message s'.p = next_message s.p by rw [h2.p]]
                exact ih this d

theorem loop_mono {A : App} {c : Cfg} {L : Lib} (eof : Bool) (n m : Nat) (hnm : n ≤ m) (s : Sess L) (data : Bytes) {r : Sess L × Bytes}
    (h : loop A c eof n s data = some r) : loop A c eof m s data = some r := by
  induction n generalizing m s data with
  | zero => exact absurd h (by simp [loop])
  | succ n ih =>
    obtain ⟨m, rfl⟩ : ∃ k, m = k + 1 := ⟨m - 1, by omega⟩
    rw [loop_succ] at h ⊢
    split
    · rename_i h1; rwa [if_pos h1] at h
    · rename_i h1
      rw [if_neg h1] at h
      split
      · rename_i h2; rwa [if_pos h2] at h
      · rename_i h2
        rw [if_neg h2] at h
        cases hx : headersPhase A c s data eof with
        | ret s' d => rw [hx] at h; exact h
        | next s' d =>
          rw [hx] at h
          simp only [finishIter] at h ⊢
          cases hy : payloadPhase A c s' d eof with
          | ret s'' d' => rw [hy] at h; exact h
          | next s'' d' => rw [hy] at h; exact ih m (by omega) _ _ h

/-! ### Splitting data -/

theorem parse_append {c : Cfg} {L : Lib} {body : L.σ → Prop} (hL : ReplyLib L body) (p : Parser) (st : L.σ) (hp : p.errno = .ok) (x y : Bytes) (eof : Bool) :
    (∃ e, parse c L p st x false = .error e ∧ parse c L p st (x ++ y) eof = .error e) ∨
    (∃ p1 st1, parse c L p st x false = .ok (p1, st1, []) ∧ p1.errno = .ok ∧ p1.hresp = p.hresp ∧ parse c L p st (x ++ y) eof = parse c L p1 st1 y eof) ∨
    (∃ p1 st1 r, parse c L p st x false = .ok (p1, st1, r) ∧ parse c L p st (x ++ y) eof = .ok (p1, st1, r ++ y) ∧
      (p1.errno = .ok → ¬ body st ∧ p1.hresp = 1 ∨ body st ∧ p1.hresp = 2)) := by
  have hap := exec_append (c := c) hL p st hp x y
  cases hx : exec c L p st x with
  | error e =>
    rw [hx] at hap
    simp only at hap
    exact .inl ⟨e, by simp only [parse, hx], by simp only [parse, hap]⟩
  | ok r =>
    obtain ⟨p1, st1, r⟩ := r
    rw [hx] at hap
    simp only at hap
    by_cases he : p1.errno = .ok
    · rw [if_pos he] at hap
      rcases exec_spec hL p st x hp hx with ⟨e1, e2, e3, e4, e5⟩ | ⟨e1, _⟩ | ⟨e1, _⟩ | ⟨e1, _⟩
      · subst e2
        refine .inr (.inl ⟨p1, st1, ?_, he, e3, ?_⟩)
        · simp [parse, hx, he]
        · simp only [parse, hap]
      · exact absurd he (by rw [e1]; simp)
      · exact absurd he (by rw [e1]; simp)
      · exact absurd he e1
    · rw [if_neg he] at hap
      have hE : ∀ b : Bool, (if b = true then execEof L p1 st1 else (p1, st1)) = (p1, st1) := by
        intro b
        split
        · simp [execEof, he]
        · rfl
      refine .inr (.inr ⟨if p1.errno = .paused then { p1 with errno := .ok } else p1, st1, r, ?_, ?_, ?_⟩)
      · simp only [parse, hx, hE]
      · simp only [parse, hap, hE]
      · rcases exec_spec hL p st x hp hx with ⟨e1, -⟩ | ⟨e1, e2, e3, -⟩ | ⟨e1, e2, e3, -⟩ | ⟨e1, e2⟩
        · exact absurd e1 he
        · rw [if_pos e1]; exact fun _ => .inl ⟨e2, e3⟩
        · rw [if_pos e1]; exact fun _ => .inr ⟨e2, e3⟩
        · rw [if_neg e2]; exact fun h => absurd h e1

/-- Both have results, which are the same. -/
def RR {L : Lib} (a b : Option (Sess L × Bytes)) : Prop := ∃ s r s' r', a = some (s, r) ∧ b = some (s', r') ∧ Same s s'

theorem RR_same {L : Lib} {s s' : Sess L} {r r' : Bytes} (h : Same s s') : RR (some (s, r)) (some (s', r')) := ⟨s, r, s', r', rfl, rfl, h⟩

theorem step_same {A : App} (hA : Plain A) {c : Cfg} {L : Lib} {body : L.σ → Prop} (hL : ReplyLib L body) {a b : Sess L} (ha : Inv body a) (hb : Inv body b) (h : Same a b) (x : Act) :
    ∃ a' b', step A c a [] x = some (a', []) ∧ step A c b [] x = some (b', []) ∧ Inv body a' ∧ Inv body b' ∧ Same a' b' := by
  obtain ⟨a', ea, ia⟩ := step_spec (A := A) (c := c) hL a x ha
  obtain ⟨b', eb, ib⟩ := step_spec (A := A) (c := c) hL b x hb
  refine ⟨a', b', ea, eb, ia, ib, ?_⟩
  have : SameRes (step A c a [] x) (step A c b [] x) := by
    simp only [step, do_on_tcp_stream, h.ack, h.failed]
    split
    · exact ⟨h, rfl⟩
    · split
      · exact ⟨call_same h _, rfl⟩
      · exact loop_same hA _ _ h _
  rw [ea, eb] at this
  exact this.1

theorem step_receive {A : App} {c : Cfg} {L : Lib} (s : Sess L) (data : Bytes) (eof : Bool) (hf : s.failed = none) (ha : s.ack = false) :
    step A c s [] ⟨data, eof⟩ = loop A c eof (data.length + 2) s data := by
  simp [step, do_on_tcp_stream, hf, ha]

theorem step_failed {A : App} {c : Cfg} {L : Lib} (s : Sess L) (data : Bytes) (eof : Bool) (f : Fail) (hf : s.failed = some f) :
    step A c s [] ⟨data, eof⟩ = some (s, []) := by
  simp [step, hf]

theorem step_ack {A : App} {c : Cfg} {L : Lib} (s : Sess L) (data : Bytes) (eof : Bool) (hf : s.failed = none) (ha : s.ack = true) :
    step A c s [] ⟨data, eof⟩ = some (s.call (.upgraded data eof), []) := by
  simp [step, do_on_tcp_stream, hf, ha]

theorem tunnel_upgraded (t : List Ev) (x y : Bytes) (e e' : Bool) :
    tunnel (t ++ [.upgraded (x ++ y) e]) = tunnel (t ++ [.upgraded x e'] ++ [.upgraded y e]) ∧ responses (t ++ [.upgraded (x ++ y) e]) = responses (t ++ [.upgraded x e'] ++ [.upgraded y e]) := by
  constructor
  · simp only [tunnel_append]; simp [tunnel]
  · simp only [responses_append]; simp [responses]

theorem loop_some {A : App} {c : Cfg} {L : Lib} {body : L.σ → Prop} (hL : ReplyLib L body) (s : Sess L) (hI : Inv body s) (hf : s.failed = none) (eof : Bool) (data : Bytes) (n : Nat) (hn : data.length + 2 ≤ n) :
    loop A c eof n s data = loop A c eof (data.length + 2) s data ∧ ∃ s', loop A c eof (data.length + 2) s data = some (s', []) := by
  obtain ⟨s', h, -⟩ := loop_spec (A := A) (c := c) hL eof (data.length + 2) s data hI hf (by split <;> omega)
  exact ⟨by rw [h]; exact loop_mono eof _ _ hn s data h, s', h⟩

/-- The iteration that starts behind the headers. -/
theorem loop_within {A : App} {c : Cfg} {L : Lib} (eof : Bool) (n : Nat) (s : Sess L) (data : Bytes) (ha : s.ack = false) (he : s.p.errno = .ok) (hh : s.p.hresp = 1) :
    loop A c eof (n + 1) s data = finishIter A c eof n s data := by
  rw [loop_succ, if_neg (by simp [ha]), if_neg (by simp [he])]
  have : headersPhase A c s data eof = .next s data := by unfold headersPhase; rw [if_pos (by omega)]
  rw [this]

theorem Inv_of_mid {L : Lib} {body : L.σ → Prop} {s : Sess L} (h : Mid body s) : Inv body s := by
  obtain ⟨ph, ho, hk⟩ := h.order
  exact ⟨ph, ho, fun e => absurd h.ack (by rw [e]; simp), fun _ _ _ => .inr ⟨h.hresp, h.within, hk⟩⟩

/-- Data that comes in two pieces, behind the headers; the rest of the loop is a hypothesis. -/
theorem payload_split {A : App} (hA : Plain A) {c : Cfg} {L : Lib} {body : L.σ → Prop} (hL : ReplyLib L body) (eof : Bool) (n N : Nat) (s : Sess L) (x y : Bytes)
    (hM : Mid body s) (ha : s.ack = false) {s1 : Sess L} {r1 : Bytes} (h1 : finishIter A c false n s x = some (s1, r1)) (hN : x.length + y.length + 1 ≤ N)
    (ih : ∀ (s : Sess L) (d : Bytes), Inv body s → s.failed = none → loop A c false n s d = some (s1, r1) → d.length + y.length + 2 ≤ N →
      RR (loop A c eof N s (d ++ y)) (step A c s1 [] ⟨y, eof⟩)) :
    RR (finishIter A c eof N s (x ++ y)) (step A c s1 [] ⟨y, eof⟩) := by
  have hsp := payloadPhase_spec (A := A) (c := c) hL s x false hM
  have hpy : ∀ d e, payloadPhase A c s d e = onPayload A s (parse c L s.p s.st d e) := by
    intro d e
    unfold payloadPhase parse_payload
    rw [if_neg (by rw [hM.hresp]; omega), if_neg (by rw [hM.hresp]; omega), if_neg (by rw [hM.hresp]; simp)]
  unfold finishIter at h1 ⊢
  rw [hpy] at h1 hsp
  rw [hpy]
  rcases parse_append (c := c) hL s.p s.st hM.errno x y eof with ⟨e, g1, g2⟩ | ⟨p1, st1, g1, g2, g3, g4⟩ | ⟨p1, st1, r, g1, g2, g3⟩
  · rw [g1] at h1
    rw [g2]
    simp only [onPayload, Option.some.injEq, Prod.mk.injEq] at h1 ⊢
    obtain ⟨rfl, rfl⟩ := h1
    rw [step_failed _ _ _ e rfl]
    exact RR_same (Same.refl _)
  · rw [g1] at h1 hsp
    rw [g4]
    -- the session between the pieces, without and with the call for the payload
    generalize hs0 : ({ s with p := p1, st := st1 } : Sess L) = s0
    have hs1 : onPayload A s (.ok (p1, st1, [])) = .ret (s0.call (.stream p1.payload)) [] := by
      simp only [onPayload, afterPayload]
      rw [if_neg (by simp [g2]), if_pos (by rw [g3, hM.hresp]; omega), ← hs0, hA.stream]
    rw [hs1] at h1 hsp
    simp only [Option.some.injEq, Prod.mk.injEq] at h1
    obtain ⟨rfl, rfl⟩ := h1
    have hf0 : s0.failed = none := by rw [← hs0]; exact hM.failed
    have ha0 : s0.ack = false := by rw [← hs0]; exact ha
    have hh0 : s0.p.hresp = 1 := by rw [← hs0]; exact g3.trans hM.hresp
    obtain ⟨l1, s2, l2⟩ := loop_some (A := A) (c := c) hL _ hsp.2 hf0 eof y (N + 1) (by omega)
    rw [step_receive _ _ _ (by exact hf0) (by exact ha0), l2]
    have hsame : Same s0 (s0.call (.stream p1.payload)) :=
      ⟨rfl, rfl, rfl, rfl, by simp only [Sess.call]; rw [responses_append]; simp [responses], by simp only [Sess.call]; rw [tunnel_append]; simp [tunnel]⟩
    have hls := loop_same hA (c := c) eof (N + 1) hsame y
    rw [l1, l2, loop_within eof N s0 y ha0 (by rw [← hs0]; exact g2) hh0] at hls
    have hg : payloadPhase A c s0 y eof = onPayload A s (parse c L p1 st1 y eof) := by
      unfold payloadPhase parse_payload
      rw [if_neg (by rw [hh0]; omega), if_neg (by rw [hh0]; omega), if_neg (by rw [hh0]; simp), ← hs0]
      cases parse c L p1 st1 y eof <;> rfl
    unfold finishIter at hls
    rw [hg] at hls
    generalize (match onPayload A s (parse c L p1 st1 y eof) with
      | .ret s d => some (s, d)
      | .next s d => loop A c eof N { s with p := next_message s.p } d : Option (Sess L × Bytes)) = v at hls
    cases v with
    | none => exact hls.elim
    | some v => exact ⟨v.1, v.2, s2, [], rfl, rfl, hls.1⟩
  · rw [g1] at h1 hsp
    rw [g2]
    simp only [onPayload, afterPayload] at h1 hsp ⊢
    by_cases he : p1.errno = .ok
    · have h2 : p1.hresp = 2 := by
        rcases g3 he with ⟨h, -⟩ | ⟨-, h⟩
        · exact absurd hM.within h
        · exact h
      have e1 : ¬ ¬ 2 ≤ p1.hresp := by omega
      simp only [if_neg (show ¬ p1.errno ≠ .ok by simp [he]), if_neg e1] at h1 hsp ⊢
      obtain ⟨k1, k2, k3, k4, k5⟩ := hsp
      refine ih _ r k1 k2 h1 ?_
      rcases k5 with k5 | ⟨-, k5⟩
      · omega
      · exact absurd k5 (by simp)
    · simp only [if_pos (show p1.errno ≠ .ok from he), Option.some.injEq, Prod.mk.injEq] at h1 ⊢
      obtain ⟨rfl, rfl⟩ := h1
      rw [step_receive _ _ _ (by exact hM.failed) (by exact ha)]
      rw [show y.length + 2 = (y.length + 1) + 1 from rfl, loop_succ, if_neg (by simp [Sess.call, ha]), if_pos (by exact he)]
      exact RR_same (Same.refl _)

/-- Data that comes in two pieces. -/
theorem loop_split {A : App} (hA : Plain A) {c : Cfg} {L : Lib} {body : L.σ → Prop} (hL : ReplyLib L body) (eof : Bool) (n N : Nat) (s : Sess L) (x y : Bytes)
    (hI : Inv body s) (hf : s.failed = none) {s1 : Sess L} {r1 : Bytes} (h1 : loop A c false n s x = some (s1, r1)) (hN : x.length + y.length + 2 ≤ N) :
    RR (loop A c eof N s (x ++ y)) (step A c s1 [] ⟨y, eof⟩) := by
  induction n generalizing N s x with
  | zero => exact absurd h1 (by simp [loop])
  | succ n ih =>
    obtain ⟨N, rfl⟩ : ∃ k, N = k + 1 := ⟨N - 1, by omega⟩
    rw [loop_succ] at h1 ⊢
    by_cases ha : s.ack = true
    · rw [if_pos ha] at h1 ⊢
      simp only [Option.some.injEq, Prod.mk.injEq] at h1
      obtain ⟨rfl, rfl⟩ := h1
      rw [step_ack _ _ _ (by exact hf) (by exact ha)]
      have := tunnel_upgraded s.trace x y eof false
      exact RR_same ⟨rfl, rfl, rfl, rfl, this.2, this.1⟩
    · rw [if_neg ha] at h1 ⊢
      have ha : s.ack = false := by simpa using ha
      by_cases he : s.p.errno = .ok
      · rw [if_neg (by simp [he])] at h1 ⊢
        have hsp := headersPhase_spec (A := A) (c := c) hL s x false hI hf he ha
        have hI' := hI
        obtain ⟨ph, ho, -, hl⟩ := hI'
        rcases hl hf he ha with ⟨h0, hb, rfl⟩ | ⟨hh, hb, hk⟩
        · -- in the head
          have hpy : ∀ d e, headersPhase A c s d e = onHead A s e (parse c L s.p s.st d e) := by
            intro d e
            unfold headersPhase parse_headers
            rw [if_neg (by rw [h0]; omega), if_neg (by rw [h0]; omega)]
          rw [hpy] at h1 hsp
          rw [hpy]
          rcases parse_append (c := c) hL s.p s.st he x y eof with ⟨e, g1, g2⟩ | ⟨p1, st1, g1, g2, g3, g4⟩ | ⟨p1, st1, r, g1, g2, g3⟩
          · rw [g1] at h1
            rw [g2]
            simp only [onHead, Option.some.injEq, Prod.mk.injEq] at h1 ⊢
            obtain ⟨rfl, rfl⟩ := h1
            rw [step_failed _ _ _ e rfl]
            exact RR_same (Same.refl _)
          · rw [g1] at h1 hsp
            rw [g4]
            generalize hs0 : ({ s with p := p1, st := st1 } : Sess L) = s0
            have hs1 : onHead A s false (.ok (p1, st1, [])) = .ret s0 [] := by
              simp only [onHead, afterParse]
              rw [if_neg (by simp [g2]), if_pos (by rw [g3, h0]; omega), ← hs0]
            rw [hs1] at h1 hsp
            simp only [Option.some.injEq, Prod.mk.injEq] at h1
            obtain ⟨rfl, rfl⟩ := h1
            have hf0 : s0.failed = none := by rw [← hs0]; exact hf
            have ha0 : s0.ack = false := by rw [← hs0]; exact ha
            have hh0 : s0.p.hresp = 0 := by rw [← hs0]; exact g3.trans h0
            have he0 : s0.p.errno = .ok := by rw [← hs0]; exact g2
            obtain ⟨l1, s2, l2⟩ := loop_some (A := A) (c := c) hL _ hsp.2 hf0 eof y (N + 1) (by omega)
            rw [step_receive _ _ _ hf0 ha0, ← l1, loop_succ, if_neg (by simp [ha0]), if_neg (by simp [he0])]
            have hg : headersPhase A c s0 y eof = onHead A s eof (parse c L p1 st1 y eof) := by
              unfold headersPhase parse_headers
              rw [if_neg (by rw [hh0]; omega), if_neg (by rw [hh0]; omega), ← hs0]
              cases parse c L p1 st1 y eof <;> rfl
            have l3 := l1.trans l2
            rw [loop_succ, if_neg (by simp [ha0]), if_neg (by simp [he0]), hg] at l3
            rw [hg, l3]
            exact RR_same (Same.refl _)
          · rw [g1] at h1 hsp
            rw [g2]
            simp only [onHead, afterParse] at h1 hsp ⊢
            by_cases he1 : p1.errno = .ok
            · have hh1 : p1.hresp = 1 := by
                rcases g3 he1 with ⟨-, h⟩ | ⟨h, -⟩
                · exact h
                · exact absurd h hb
              simp only [if_neg (show ¬ p1.errno ≠ .ok by simp [he1]), if_neg (show ¬ ¬ 1 ≤ p1.hresp by omega)] at h1 hsp ⊢
              generalize hrep : A.onHeaders s.trace p1.headers = rep at h1 hsp ⊢
              generalize hs0 : (({ s with p := p1, st := st1 } : Sess L).call (.headers p1.headers)) = s0 at h1 hsp ⊢
              have hf0 : s0.failed = none := by rw [← hs0]; exact hf
              have ha0 : s0.ack = false := by rw [← hs0]; exact ha
              simp only [afterHeaders] at h1 hsp ⊢
              cases rep with
              | normal =>
                simp only at h1 hsp ⊢
                obtain ⟨hM, hd⟩ := hsp
                refine payload_split hA hL eof n N _ r y hM (by exact ha0) h1 ?_ (fun s d i1 i2 i3 i4 => ih N s d i1 i2 i3 i4)
                rcases hd with ⟨rfl, -⟩ | ⟨-, -, hd⟩ <;> omega
              | empty =>
                simp only at h1 hsp ⊢
                obtain ⟨hM, hd⟩ := hsp
                refine payload_split hA hL eof n N _ r y hM (by exact ha0) h1 ?_ (fun s d i1 i2 i3 i4 => ih N s d i1 i2 i3 i4)
                rcases hd with ⟨rfl, -⟩ | ⟨-, -, hd⟩ <;> omega
              | connect =>
                simp only [Option.some.injEq, Prod.mk.injEq] at h1 ⊢
                obtain ⟨rfl, rfl⟩ := h1
                rw [step_ack _ _ _ (by exact hf0) rfl]
                have := tunnel_upgraded s0.trace r y eof false
                exact RR_same ⟨rfl, rfl, rfl, rfl, this.2, this.1⟩
              | other =>
                simp only [Option.some.injEq, Prod.mk.injEq] at h1 ⊢
                obtain ⟨rfl, rfl⟩ := h1
                rw [step_failed _ _ _ .exception rfl]
                exact RR_same (Same.refl _)
            · simp only [if_pos (show p1.errno ≠ .ok from he1), Option.some.injEq, Prod.mk.injEq] at h1 ⊢
              obtain ⟨rfl, rfl⟩ := h1
              rw [step_receive _ _ _ (by exact hf) (by exact ha)]
              rw [show y.length + 2 = (y.length + 1) + 1 from rfl, loop_succ, if_neg (by simp [Sess.call, ha]), if_pos (by exact he1)]
              exact RR_same (Same.refl _)
        · -- behind the headers
          have hM : Mid body s := ⟨hf, ha, he, hh, hb, ph, ho, hk⟩
          have hpy : ∀ d e, headersPhase A c s d e = .next s d := by
            intro d e; unfold headersPhase; rw [if_pos (by omega)]
          rw [hpy] at h1
          rw [hpy]
          exact payload_split hA hL eof n N s x y hM ha h1 (by omega) (fun s d i1 i2 i3 i4 => ih N s d i1 i2 i3 i4)
      · rw [if_pos he] at h1 ⊢
        simp only [Option.some.injEq, Prod.mk.injEq] at h1
        obtain ⟨rfl, rfl⟩ := h1
        rw [step_receive _ _ _ hf ha, show y.length + 2 = (y.length + 1) + 1 from rfl, loop_succ, if_neg (by simp [ha]), if_pos he]
        exact RR_same (Same.refl _)

theorem step_split {A : App} (hA : Plain A) {c : Cfg} {L : Lib} {body : L.σ → Prop} (hL : ReplyLib L body) (s : Sess L) (hI : Inv body s) (x y : Bytes) (eof : Bool) {s1 : Sess L}
    (h1 : step A c s [] (⟨x, false⟩) = some (s1, [])) : RR (step A c s [] (⟨x ++ y, eof⟩)) (step A c s1 [] ⟨y, eof⟩) := by
  cases hf : s.failed with
  | some f =>
    rw [step_failed _ _ _ f hf] at h1 ⊢
    simp only [Option.some.injEq, Prod.mk.injEq, and_true] at h1
    subst h1
    rw [step_failed _ _ _ f hf]
    exact RR_same (Same.refl _)
  | none =>
    by_cases ha : s.ack = true
    · rw [step_ack _ _ _ hf ha] at h1 ⊢
      simp only [Option.some.injEq, Prod.mk.injEq, and_true] at h1
      subst h1
      rw [step_ack _ _ _ (by exact hf) (by exact ha)]
      have := tunnel_upgraded s.trace x y eof false
      exact RR_same ⟨rfl, rfl, rfl, rfl, this.2, this.1⟩
    · rw [step_receive _ _ _ hf (by simpa using ha)] at h1 ⊢
      exact loop_split hA hL eof _ _ s x y hI hf h1 (by simp)

/-- Nothing happens when no data has arrived. -/
theorem step_empty {A : App} (hA : Plain A) {c : Cfg} {L : Lib} {body : L.σ → Prop} (s : Sess L) (hI : Inv body s) :
    ∃ s', step A c s [] (⟨[], false⟩) = some (s', []) ∧ Same s s' := by
  cases hf : s.failed with
  | some f => exact ⟨s, step_failed _ _ _ f hf, Same.refl _⟩
  | none =>
    by_cases ha : s.ack = true
    · exact ⟨_, step_ack _ _ _ hf ha, rfl, rfl, rfl, rfl, by simp only [Sess.call]; rw [responses_append]; simp [responses], by simp only [Sess.call]; rw [tunnel_append]; simp [tunnel]⟩
    · have ha : s.ack = false := by simpa using ha
      rw [step_receive _ _ _ hf ha, show ([] : Bytes).length + 2 = 1 + 1 from rfl, loop_succ, if_neg (by simp [ha])]
      by_cases he : s.p.errno = .ok
      · rw [if_neg (by simp [he])]
        obtain ⟨ph, ho, -, hl⟩ := hI
        have hparse : parse c L s.p s.st [] false = .ok (s.p, s.st, []) := by simp [parse, exec, he]
        rcases hl hf he ha with ⟨h0, hb, -⟩ | ⟨h0, hb, -⟩
        · have : headersPhase A c s [] false = .ret s [] := by
            unfold headersPhase parse_headers
            rw [if_neg (by omega), if_neg (by omega), hparse]
            simp only [onHead, afterParse]
            rw [if_neg (by simp [he]), if_pos (by omega)]
          rw [this]
          exact ⟨s, rfl, Same.refl _⟩
        · have : headersPhase A c s [] false = .next s [] := by unfold headersPhase; rw [if_pos (by omega)]
          rw [this]
          simp only [finishIter]
          have : payloadPhase A c s [] false = .ret (s.call (.stream s.p.payload)) [] := by
            unfold payloadPhase parse_payload
            rw [if_neg (by omega), if_neg (by omega), if_neg (by simp [h0]), hparse]
            simp only [onPayload, afterPayload]
            rw [if_neg (by simp [he]), if_pos (by omega), hA.stream]
          rw [this]
          exact ⟨_, rfl, rfl, rfl, rfl, rfl, by simp only [Sess.call]; rw [responses_append]; simp [responses], by simp only [Sess.call]; rw [tunnel_append]; simp [tunnel]⟩
      · rw [if_pos he]
        exact ⟨s, rfl, Same.refl _⟩

theorem run_append {A : App} {c : Cfg} {L : Lib} (s : Sess L) (buf : Bytes) (a b : List Act) :
    run A c s buf (a ++ b) = match run A c s buf a with | none => none | some (s, buf) => run A c s buf b := by
  induction a generalizing s buf with
  | nil => rfl
  | cons x t ih =>
    simp only [List.cons_append, run]
    cases step A c s buf x with
    | none => rfl
    | some v => exact ih v.1 v.2

/-- Any pieces are as good as one. -/
theorem run_pieces {A : App} (hA : Plain A) {c : Cfg} {L : Lib} {body : L.σ → Prop} (hL : ReplyLib L body) (s : Sess L) (hI : Inv body s) (l : List Bytes) :
    ∃ s1 s2, run A c s [] (l.map (fun b => ⟨b, false⟩)) = some (s1, []) ∧ step A c s [] (⟨l.flatten, false⟩) = some (s2, []) ∧ Inv body s1 ∧ Inv body s2 ∧ Same s1 s2 := by
  induction l generalizing s with
  | nil =>
    obtain ⟨s', h1, h2⟩ := step_empty (A := A) (c := c) hA s hI
    obtain ⟨s'', h3, h4⟩ := step_spec (A := A) (c := c) hL s (⟨[], false⟩) hI
    rw [h1] at h3
    simp only [Option.some.injEq, Prod.mk.injEq, and_true] at h3
    subst h3
    exact ⟨s, s', rfl, h1, hI, h4, h2⟩
  | cons b t ih =>
    obtain ⟨s0, h1, i1⟩ := step_spec (A := A) (c := c) hL s (⟨b, false⟩) hI
    obtain ⟨s1, s2, k1, k2, k3, k4, k5⟩ := ih s0 i1
    obtain ⟨v, r, v', r', e1, e2, e3⟩ := step_split hA hL s hI b t.flatten false h1
    rw [k2] at e2
    simp only [Option.some.injEq, Prod.mk.injEq] at e2
    obtain ⟨rfl, -⟩ := e2
    obtain ⟨w, f1, f2⟩ := step_spec (A := A) (c := c) hL s (⟨b ++ t.flatten, false⟩) hI
    rw [f1] at e1
    simp only [Option.some.injEq, Prod.mk.injEq] at e1
    obtain ⟨rfl, -⟩ := e1
    exact ⟨s1, w, by simp only [List.map_cons, run, h1, k1], by simpa using f1, k3, f2, k5.trans e3.symm⟩

theorem run_arrival {A : App} (hA : Plain A) {c : Cfg} {L : Lib} {body : L.σ → Prop} (hL : ReplyLib L body) (l l' : List Bytes) (eof : Bool) (h : l.flatten = l'.flatten) :
    ∃ s s', run A c ({} : Sess L) [] (arrival l eof) = some (s, []) ∧ run A c ({} : Sess L) [] (arrival l' eof) = some (s', []) ∧ Same s s' := by
  obtain ⟨s1, s2, h1, h2, h3, h4, h5⟩ := run_pieces (c := c) hA hL ({} : Sess L) (inv_init hL) l
  obtain ⟨s1', s2', h1', h2', h3', h4', h5'⟩ := run_pieces (c := c) hA hL ({} : Sess L) (inv_init hL) l'
  rw [← h, h2] at h2'
  simp only [Option.some.injEq, Prod.mk.injEq, and_true] at h2'
  subst h2'
  have hr : Same s1 s1' := h5.trans h5'.symm
  unfold arrival
  rw [run_append, run_append, h1, h1']
  cases eof with
  | false => exact ⟨s1, s1', rfl, rfl, hr⟩
  | true =>
    obtain ⟨a, b, e1, e2, -, -, e5⟩ := step_same (c := c) hA hL h3 h3' hr (⟨[], true⟩)
    exact ⟨a, b, by simp [run, e1], by simp [run, e2], e5⟩

end Verif.HttpClient
