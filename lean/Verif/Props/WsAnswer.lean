import Verif.Proofs.WsAnswer
import Verif.Props.WsMixed
import Verif.Spec.WsAnswer
import Mathlib.Data.List.Forall2
/-!
# C121: the answers to control frames
-/
namespace Verif.Props
open Verif Verif.Spec Verif.Ws

/-- `bytes` are a PONG frame with `payload` that is legal for the other end at any time: masked if and only if it is sent by a client. -/
def PongOf (server : Bool) (bytes payload : Bytes) : Prop :=
  ∃ f : WsFrame, IsFrame bytes f payload ∧ f.Fits ∧ f.fin = true ∧ f.opcode = 10 ∧ (f.key = none ↔ server = true) ∧ ∀ pmce inMsg, f.Legal (!server) pmce inMsg

/-- The same of a CLOSE frame. -/
def CloseOf (server : Bool) (bytes payload : Bytes) : Prop :=
  ∃ f : WsFrame, IsFrame bytes f payload ∧ f.Fits ∧ f.fin = true ∧ f.opcode = 8 ∧ (f.key = none ↔ server = true) ∧ ∀ pmce inMsg, f.Legal (!server) pmce inMsg

theorem control_frame (server : Bool) (r op : Nat) (p : Bytes) (hop : op = 0x8A ∨ op = 0x88) (hp : p.length ≤ 125) :
    ∃ f : WsFrame, IsFrame (raw_frame server r op p) f p ∧ f.Fits ∧ f.fin = true ∧ f.opcode = op &&& 15 ∧ (f.key = none ↔ server = true) ∧ ∀ pmce inMsg, f.Legal (!server) pmce inMsg := by
  obtain ⟨f, h1, h2, h3, h4, h5, h6, h7, h8⟩ := raw_frame_spec server r op p (by omega)
  have hkey : f.key = none ↔ server = true := by rw [h8]; cases server <;> simp
  have hlen : f.len ≤ 125 := by rw [h1.2]; exact hp
  have hf : f.fin = true := by rw [h2]; rcases hop with rfl | rfl <;> decide
  refine ⟨f, h1, ⟨h7, ?_, by omega⟩, hf, h6, hkey, ?_⟩
  · intro k hk
    rw [h8] at hk
    split at hk
    · simp at hk
    · simp only [Option.some.injEq] at hk; rw [← hk]; exact Nat.mod_lt _ (by decide)
  · intro pmce inMsg
    refine ⟨fun hs hn => ?_, .inr (.inr ⟨?_, hf, hlen, ?_, ?_, ?_⟩)⟩
    · rw [hkey.1 hn] at hs; simp at hs
    · rw [h6]; rcases hop with rfl | rfl <;> decide
    · rw [h3]; rcases hop with rfl | rfl <;> decide
    · rw [h4]; rcases hop with rfl | rfl <;> decide
    · rw [h5]; rcases hop with rfl | rfl <;> decide

theorem pong_of {Z : Type} (env : Env Z) (r : Nat) {p : Bytes} (hp : p.length ≤ 125) : PongOf env.server (pong env r p) p := control_frame env.server r 0x8A p (.inl rfl) hp

/-- Every PING that is reported is answered just before. -/
def AllAnswered (server : Bool) (l : List Ev) : Prop := ∀ a b p, l = a ++ .finish 9 p :: b → ∃ a' bytes, a = a' ++ [.sent bytes] ∧ PongOf server bytes p

theorem allAnswered_append {server : Bool} {l m : List Ev} (hl : AllAnswered server l) (hm : AllAnswered server m) : AllAnswered server (l ++ m) := by
  intro a b p e
  rcases List.append_eq_append_iff.1 e with ⟨c, h1, h2⟩ | ⟨c, h1, h2⟩
  · obtain ⟨a', bytes, h3, h4⟩ := hm c b p h2
    exact ⟨l ++ a', bytes, by rw [h1, h3, List.append_assoc], h4⟩
  · cases c with
    | nil =>
      simp only [List.append_nil, List.nil_append] at h1 h2
      obtain ⟨a', bytes, h3, -⟩ := hm [] b p (by rw [← h2]; rfl)
      simp at h3
    | cons x c =>
      simp only [List.cons_append, List.cons.injEq] at h2
      obtain ⟨a', bytes, h3, h4⟩ := hl a c p (by rw [h1, h2.1])
      exact ⟨a', bytes, h3, h4⟩

theorem allAnswered_none {server : Bool} {l : List Ev} (h : ∀ p, Ev.finish 9 p ∉ l) : AllAnswered server l :=
  fun a b p e => absurd (by rw [e]; simp) (h p)

theorem calm_answered {Z : Type} {env : Env Z} {l : List Ev} (h : Calm env l) : AllAnswered env.server l := by
  induction h with
  | nil => exact allAnswered_none (by simp)
  | data op b _ ih => exact allAnswered_append (l := [.data op b]) (allAnswered_none (by simp)) ih
  | finish op b ho _ ih => exact allAnswered_append (l := [.finish op b]) (allAnswered_none (by simpa using fun h => absurd h.symm ho)) ih
  | ping r p hp _ ih =>
    refine allAnswered_append (l := [.sent (pong env r p), .finish 9 p]) ?_ ih
    intro a b q e
    match a, e with
    | [], e => simp at e
    | [x], e =>
      simp only [List.cons_append, List.nil_append, List.cons.injEq, Ev.finish.injEq, true_and] at e
      obtain ⟨rfl, rfl, -⟩ := e
      exact ⟨[], _, rfl, pong_of env r hp⟩
    | x :: y :: a, e => simp at e

theorem ended_answered {Z : Type} {env : Env Z} {l : List Ev} (h : Ended env l) : AllAnswered env.server l := by
  obtain ⟨c, st, r, hc, h⟩ := h
  rcases h with rfl | rfl | ⟨rnd, rfl⟩ <;> exact allAnswered_append (calm_answered hc) (allAnswered_none (by simp))

theorem fine_waiting {p : Parser} (h : Waiting p) (ho : p.m_opcode = 0) : Fine p :=
  ⟨by omega, fun _ => h.empty, h.key, fun hx => by rw [h.new] at hx; rcases hx with hx | hx <;> cases hx⟩

/-- What is true of a session at any time. -/
def AnsweredSoFar {Z : Type} (env : Env Z) (s : Session Z) : Prop := AllAnswered env.server s.trace ∧ (s.closure_notified = true ∨ Fine s.parser)

theorem answered_push {Z : Type} {env : Env Z} {s : Session Z} (e : Ev) (h : AnsweredSoFar env s) (he : ∀ p, e ≠ .finish 9 p) : AnsweredSoFar env (s.push e) :=
  ⟨allAnswered_append h.1 (allAnswered_none (by simpa using fun p hp => he p hp.symm)), h.2⟩

theorem answered_goes {Z : Type} {env : Env Z} {s t : Session Z} (h : AnsweredSoFar env s) (hg : Goes env s t) : AnsweredSoFar env t := by
  cases hg with
  | on l e hl _ hf => exact ⟨by rw [e]; exact allAnswered_append h.1 (calm_answered hl), .inr hf⟩
  | ended l e hl hc => exact ⟨by rw [e]; exact allAnswered_append h.1 (ended_answered hl), .inl hc⟩

theorem answered_input {Z : Type} {env : Env Z} {s : Session Z} (i : Input) (h : AnsweredSoFar env s) : AnsweredSoFar env (s.input env i) := by
  have once : ∀ st r, AnsweredSoFar env (s.close_once env st r).1 := fun st r => by
    cases hc : s.closure_notified with
    | true => simpa [Session.close_once, hc] using h
    | false => exact answered_goes h (goes_close_once st r hc)
  cases i with
  | stream addr data =>
    cases hc : s.closure_notified with
    | true => show AnsweredSoFar env (s.stream env addr data).1; rw [stream_shut data hc]; exact h
    | false => exact answered_goes h (goes_stream _ s data hc (h.2.resolve_left (by simp [hc])))
  | handshake => exact answered_push _ h (by simp)
  | fail st r => exact once st r
  | closed => exact once _ _
  | send b => exact answered_push _ h (by simp)
  | app_shut_down st r =>
    obtain ⟨h1, h2⟩ := shut_down_trace env s (if 1000 ≤ st ∧ st ≤ 4999 then st.toNat else 1008) r
    have hp : ∀ k, (s.ws_shut_down env k r).parser = s.parser := fun k => by
      unfold Session.ws_shut_down Session.send_raw
      split
      · rfl
      · split <;> rfl
    refine ⟨?_, by show (s.ws_shut_down env _ r).closure_notified = true ∨ Fine (s.ws_shut_down env _ r).parser; rw [h1, hp]; exact h.2⟩
    show AllAnswered env.server (s.ws_shut_down env _ r).trace
    rcases h2 with h2 | ⟨rnd, h2⟩ <;> (rw [h2]; exact allAnswered_append h.1 (allAnswered_none (by simp)))

/-- C121: in every history, whatever the callbacks do and wherever exceptions come from, and whatever other threads send in between, each PING of which the application hears has been answered just before, with a PONG that has the same
payload and is legal for the other end. -/
theorem C121_answered {Z : Type} (env : Env Z) (s : Session Z) (h0 : s.trace = []) (hs : Waiting s.parser) (hm : s.parser.m_opcode = 0) (history : List Input) (before after : List Ev) (payload : Bytes)
    (h : (history.foldl (Session.input env) s).trace = before ++ .finish 9 payload :: after) : ∃ earlier bytes, before = earlier ++ [.sent bytes] ∧ PongOf env.server bytes payload := by
  have key : ∀ (l : List Input) (t : Session Z), AnsweredSoFar env t → AnsweredSoFar env (l.foldl (Session.input env) t) := by
    intro l
    induction l with
    | nil => exact fun t ht => ht
    | cons i l ih => exact fun t ht => ih _ (answered_input i ht)
  exact (key history s ⟨by rw [h0]; exact allAnswered_none (by simp), .inr (fine_waiting hs hm)⟩).1 before after payload h

/-- Two PINGs, one of them in the middle of a message. -/
example : Waiting freshServer ∧ freshServer.m_opcode = 0 ∧
    (([.stream 0 [0x89, 0x82, 0, 0, 0, 0, 72, 105, 0x01, 0x81, 0, 0, 0, 0, 65], .send [1], .stream 0 [0x89, 0x80, 0, 0, 0, 0, 0x80, 0x81, 0, 0, 0, 0, 66]] : List Input).foldl (Session.input plainEnv) freshSession).trace
      = [.sent [0x8A, 2, 72, 105], .finish 9 [72, 105], .data 1 [65], .sent [1], .sent [0x8A, 0], .finish 9 [], .data 1 [65, 66], .finish 1 [65, 66]] :=
  ⟨⟨by decide, by decide, by decide, by decide, by decide⟩, by decide, by decide +kernel⟩

theorem calm_sent {Z : Type} {env : Env Z} {l : List Ev} (h : Calm env l) : ∀ a b bytes, l = a ++ .sent bytes :: b → ∃ p b', b = .finish 9 p :: b' ∧ PongOf env.server bytes p := by
  induction h with
  | nil => intro a b bytes e; simp at e
  | data op x _ ih =>
    intro a b bytes e
    cases a with
    | nil => simp at e
    | cons y a => exact ih a b bytes (List.cons.inj e).2
  | finish op x _ _ ih =>
    intro a b bytes e
    cases a with
    | nil => simp at e
    | cons y a => exact ih a b bytes (List.cons.inj e).2
  | ping r p hp _ ih =>
    intro a b bytes e
    match a, e with
    | [], e =>
      simp only [List.nil_append, List.cons.injEq, Ev.sent.injEq] at e
      obtain ⟨rfl, rfl⟩ := e
      exact ⟨p, _, rfl, pong_of env r hp⟩
    | [x], e => simp at e
    | x :: y :: a, e => exact ih a b bytes (List.cons.inj (List.cons.inj e).2).2

/-- C121: while it processes what it has received, a session sends nothing but answers to PINGs, just before it reports them, and at most one CLOSE frame, just after it has reported the end, with which it shuts the connection down. -/
theorem C121_only {Z : Type} (env : Env Z) (s : Session Z) (hf : s.closure_notified = true ∨ Fine s.parser) (addr : Nat) (data : Bytes) :
    ∃ l, (s.input env (.stream addr data)).trace = s.trace ++ l ∧ ∀ a b bytes, l = a ++ .sent bytes :: b →
      (∃ p b', b = .finish 9 p :: b' ∧ PongOf env.server bytes p) ∨
      (∃ a' st r, a = a' ++ [.close st r] ∧ b = [.shut_down] ∧ CloseOf env.server bytes [3, 0xE8]) := by
  cases hc : s.closure_notified with
  | true =>
    refine ⟨[], ?_, fun a b bytes e => by simp at e⟩
    show (s.stream env addr data).1.trace = _
    rw [stream_shut data hc, List.append_nil]
  | false =>
    have hg : Goes env s (s.input env (.stream addr data)) := goes_stream _ s data hc (hf.resolve_left (by simp [hc]))
    cases hg with
    | on l e hl _ _ => exact ⟨l, e, fun a b bytes h => .inl (calm_sent hl a b bytes h)⟩
    | ended l e hl _ =>
      refine ⟨l, e, fun a b bytes h => ?_⟩
      obtain ⟨c, st, r, hcl, hcase⟩ := hl
      have split : ∀ tail : List Ev, l = c ++ tail → (∃ c', c = a ++ .sent bytes :: c' ∧ b = c' ++ tail) ∨ ∃ c', a = c ++ c' ∧ tail = c' ++ .sent bytes :: b := by
        intro tail ht
        rcases List.append_eq_append_iff.1 (ht.symm.trans h) with ⟨x, h1, h2⟩ | ⟨x, h1, h2⟩
        · exact .inr ⟨x, h1, h2⟩
        · cases x with
          | nil => exact .inr ⟨[], by simpa using h1.symm, by simpa using h2.symm⟩
          | cons y x =>
            simp only [List.cons_append, List.cons.injEq] at h2
            exact .inl ⟨x, by rw [h1, h2.1], h2.2⟩
      have inc : ∀ tail c', c = a ++ .sent bytes :: c' → b = c' ++ tail → ∃ p b', b = .finish 9 p :: b' ∧ PongOf env.server bytes p := by
        intro tail c' h1 h2
        obtain ⟨p, b', h3, h4⟩ := calm_sent hcl a c' bytes h1
        exact ⟨p, b' ++ tail, by rw [h2, h3]; rfl, h4⟩
      rcases hcase with hl | hl | ⟨rnd, hl⟩
      · rcases split _ hl with ⟨c', h1, h2⟩ | ⟨c', h1, h2⟩
        · exact .inl (inc _ c' h1 h2)
        · cases c' <;> simp at h2
      · rcases split _ hl with ⟨c', h1, h2⟩ | ⟨c', h1, h2⟩
        · exact .inl (inc _ c' h1 h2)
        · match c', h2 with
          | [], h2 => simp at h2
          | [x], h2 => simp at h2
          | x :: y :: c', h2 => simp at h2
      · rcases split _ hl with ⟨c', h1, h2⟩ | ⟨c', h1, h2⟩
        · exact .inl (inc _ c' h1 h2)
        · match c', h2 with
          | [], h2 => simp at h2
          | [x], h2 =>
            simp only [List.cons_append, List.nil_append, List.cons.injEq, Ev.sent.injEq] at h2
            obtain ⟨rfl, rfl, rfl⟩ := h2
            exact .inr ⟨c, st, r, h1, rfl, control_frame env.server rnd 0x88 _ (.inr rfl) (by decide)⟩
          | [x, y], h2 => simp at h2
          | x :: y :: z :: c', h2 => simp at h2

/-- A PING, and then a frame that is not masked. -/
example : (freshSession.input plainEnv (.stream 0 [0x89, 0x81, 0, 0, 0, 0, 65, 0x81, 0x01, 65])).trace.map (fun e => match e with | Ev.close st _ => Ev.close st [] | e => e)
    = [.sent [0x8A, 1, 65], .finish 9 [65], .close 1002 [], .sent [0x88, 2, 3, 0xE8], .shut_down] := by decide +kernel

/-! ## In order -/

/-- `sent` and the PINGs of a piece that has no close. -/
theorem calm_pings {Z : Type} {env : Env Z} {l : List Ev} (h : Calm env l) : List.Forall₂ (PongOf env.server) (sentBeforeClose l) (pingsHeard l) := by
  induction h with
  | nil => exact .nil
  | data op x _ ih => exact ih
  | finish op x ho _ ih =>
    have : ∀ m, pingsHeard (.finish op x :: m) = pingsHeard m := by
      intro m
      simp only [pingsHeard, List.filterMap_cons]
      split
      · rfl
      · rename_i h; split at h
        · rename_i h2; simp only [Ev.finish.injEq] at h2; exact absurd h2.1 ho
        · cases h
    rw [this]
    exact ih
  | ping r p hp _ ih => exact .cons (pong_of env r hp) ih

theorem calm_before {Z : Type} {env : Env Z} {l : List Ev} (h : Calm env l) (m : List Ev) : sentBeforeClose (l ++ m) = sentBeforeClose l ++ sentBeforeClose m := by
  induction h with
  | nil => rfl
  | data op x _ ih => exact ih
  | finish op x ho _ ih => exact ih
  | ping r p hp _ ih => exact congrArg (_ :: ·) ih

/-- A history of reads only: all calm, or a calm part and a close with no PING after it. -/
def ReadsOnly {Z : Type} (env : Env Z) (s : Session Z) : Prop :=
  (s.closure_notified = false ∧ Fine s.parser ∧ Calm env s.trace) ∨ (s.closure_notified = true ∧ ∃ c rest, s.trace = c ++ rest ∧ Calm env c ∧ sentBeforeClose rest = [] ∧ pingsHeard rest = [])

theorem readsOnly_step {Z : Type} {env : Env Z} {s : Session Z} (h : ReadsOnly env s) (addr : Nat) (data : Bytes) : ReadsOnly env (s.input env (.stream addr data)) := by
  rcases h with ⟨h1, h2, h3⟩ | h
  · have hg : Goes env s (s.input env (.stream addr data)) := goes_stream _ s data h1 h2
    cases hg with
    | on l e hl hc hf => exact .inl ⟨hc, hf, by rw [e]; exact h3.append hl⟩
    | ended l e hl hc =>
      obtain ⟨c, st, r, hcl, hcase⟩ := hl
      rcases hcase with rfl | rfl | ⟨rnd, rfl⟩
      · exact .inr ⟨hc, s.trace ++ c, _, by rw [e, List.append_assoc], h3.append hcl, rfl, rfl⟩
      · exact .inr ⟨hc, s.trace ++ c, _, by rw [e, List.append_assoc], h3.append hcl, rfl, rfl⟩
      · exact .inr ⟨hc, s.trace ++ c, _, by rw [e, List.append_assoc], h3.append hcl, rfl, rfl⟩
  · have : s.input env (.stream addr data) = s := by show (s.stream env addr data).1 = s; rw [stream_shut data h.1]
    rw [this]; exact .inr h

theorem readsOnly_pings {Z : Type} {env : Env Z} {s : Session Z} (h : ReadsOnly env s) : List.Forall₂ (PongOf env.server) (sentBeforeClose s.trace) (pingsHeard s.trace) := by
  rcases h with ⟨-, -, h⟩ | ⟨-, c, rest, e, hc, h1, h2⟩
  · exact calm_pings h
  · rw [e, calm_before hc, h1, List.append_nil]
    have : pingsHeard (c ++ rest) = pingsHeard c ++ pingsHeard rest := List.filterMap_append
    rw [this, h2, List.append_nil]
    exact calm_pings hc

theorem reads_pings {Z : Type} (env : Env Z) (s : Session Z) (h0 : s.trace = []) (hs : Waiting s.parser) (ho : s.closure_notified = false) (hm : s.parser.m_opcode = 0) (reads : List (Nat × Bytes)) :
    List.Forall₂ (PongOf env.server) (sentBeforeClose ((reads.map fun r => Input.stream r.1 r.2).foldl (Session.input env) s).trace)
      (pingsHeard ((reads.map fun r => Input.stream r.1 r.2).foldl (Session.input env) s).trace) := by
  have key : ∀ (l : List (Nat × Bytes)) (t : Session Z), ReadsOnly env t → ReadsOnly env ((l.map fun r => Input.stream r.1 r.2).foldl (Session.input env) t) := by
    intro l
    induction l with
    | nil => exact fun t ht => ht
    | cons i l ih => exact fun t ht => ih _ (readsOnly_step ht i.1 i.2)
  exact readsOnly_pings (key reads s (.inl ⟨ho, fine_waiting hs hm, by rw [h0]; exact .nil⟩))

/-- The PINGs among what is delivered. -/
def pingsDelivered (l : List Delivered) : List Bytes := l.filterMap fun d => match d with
  | .message 9 p => some p
  | _ => none

theorem heard_delivered (trace : List Ev) : pingsHeard trace = pingsDelivered (delivered trace) := by
  unfold pingsHeard pingsDelivered delivered
  rw [List.filterMap_filterMap]
  congr 1
  funext e
  cases e with
  | finish op p =>
    by_cases h : op = 9
    · subst h; rfl
    · simp only [Option.bind_some]
      split
      · rename_i h2; simp only [Ev.finish.injEq] at h2; exact absurd h2.1 h
      · split
        · rename_i h2; simp only [Delivered.message.injEq] at h2; exact absurd h2.1 h
        · rfl
  | _ => rfl

theorem pingsDelivered_append (a b : List Delivered) : pingsDelivered (a ++ b) = pingsDelivered a ++ pingsDelivered b := List.filterMap_append

theorem pingsDelivered_other {op : Nat} (h : op ≠ 9) (p : Bytes) : pingsDelivered [.message op p] = [] := by
  simp only [pingsDelivered, List.filterMap_cons, List.filterMap_nil]
  split
  · rfl
  · rename_i h2; split at h2
    · rename_i h3; simp only [Delivered.message.injEq] at h3; exact absurd h3.1 h
    · cases h2

theorem assemble_pings : ∀ (frames : List Sent) (st : MsgState), (st = .idle ∨ ∃ op b, st = .inside op b ∧ op ≠ 9) → (∀ x ∈ frames, x.frame.opcode ≤ 10) →
    pingsDelivered (assemble st (frames.map Sent.meant)).2 = pingsOf frames := by
  intro frames
  induction frames with
  | nil => intro st _ _; rfl
  | cons x t ih =>
    intro st hst hx
    have hop := hx x (by simp)
    have ht : ∀ y ∈ t, y.frame.opcode ≤ 10 := fun y hy => hx y (by simp [hy])
    have ext : ∀ op b, op ≠ 9 → ((extend op b x.text x.frame.fin).1 = .idle ∨ ∃ op' b', (extend op b x.text x.frame.fin).1 = .inside op' b' ∧ op' ≠ 9) ∧ pingsDelivered (extend op b x.text x.frame.fin).2 = [] := by
      intro op b ho
      unfold extend
      split
      · exact ⟨.inl rfl, pingsDelivered_other ho _⟩
      · exact ⟨.inr ⟨_, _, rfl, ho⟩, rfl⟩
    have skip : x.frame.opcode ≠ 8 → x.frame.opcode ≠ 9 → pingsOf (x :: t) = pingsOf t := by
      intro h8 h9; simp [pingsOf, List.takeWhile_cons, h8, h9]
    have hnc : st ≠ .closed := by rintro rfl; rcases hst with h | ⟨_, _, h, -⟩ <;> cases h
    have red : assemble1 st (x.frame, x.text) = (if x.frame.opcode = 1 ∨ x.frame.opcode = 2 then extend x.frame.opcode [] x.text x.frame.fin
        else if x.frame.opcode = 0 then (match st with | .inside opcode bytes => extend opcode bytes x.text x.frame.fin | st => (st, []))
        else if x.frame.opcode = 8 then (.closed, [.close (if x.text.isEmpty then 1005 else beNat (x.text.take 2)) (x.text.drop 2)])
        else (st, [.message x.frame.opcode x.text])) := by
      cases st with
      | closed => exact absurd rfl hnc
      | _ => rfl
    show pingsDelivered ((assemble1 st (x.frame, x.text)).2 ++ (assemble (assemble1 st (x.frame, x.text)).1 (t.map Sent.meant)).2) = _
    rw [pingsDelivered_append, red]
    by_cases h12 : x.frame.opcode = 1 ∨ x.frame.opcode = 2
    · rw [if_pos h12, (ext _ [] (by omega)).2, ih _ (ext _ [] (by omega)).1 ht, skip (by omega) (by omega)]; rfl
    · rw [if_neg h12]
      by_cases h0 : x.frame.opcode = 0
      · rw [if_pos h0, skip (by omega) (by omega)]
        rcases hst with rfl | ⟨op, b, rfl, ho⟩
        · rw [ih _ (.inl rfl) ht]; rfl
        · rw [(ext op b ho).2, ih _ (ext op b ho).1 ht]; rfl
      · rw [if_neg h0]
        by_cases h8 : x.frame.opcode = 8
        · rw [if_pos h8, assemble_shut]; simp [pingsOf, List.takeWhile_cons, h8, pingsDelivered]
        · rw [if_neg h8]
          show pingsDelivered [.message x.frame.opcode x.text] ++ pingsDelivered (assemble st (t.map Sent.meant)).2 = _
          rw [ih st hst ht]
          by_cases h9 : x.frame.opcode = 9
          · rw [h9]; simp [pingsOf, List.takeWhile_cons, h9, pingsDelivered]
          · rw [pingsDelivered_other h9, skip h8 h9]; rfl

theorem legal_small {server pmce : Bool} : ∀ {frames : List WsFrame} {inMsg : Bool}, LegalSequence server pmce inMsg frames → ∀ f ∈ frames, f.opcode ≤ 10 := by
  intro frames
  induction frames with
  | nil => intro _ _ f hf; simp at hf
  | cons g t ih =>
    intro inMsg h f hf
    rcases List.mem_cons.1 hf with rfl | hf
    · have := h.1.2; omega
    · exact ih h.2 f hf

/-- C121 (part): when every read consists of whole legal frames, and every compressed message is one frame, the session answers exactly the PINGs that come before a CLOSE frame, in order, each with one PONG of the same payload, and sends
nothing else before the end is reported.  Not covered: a read that ends inside a frame (see C15). -/
theorem C121_in_order_partial {Z : Type} (env : Env Z) (s : Session Z) (max : Nat) (hq : Quiet env max) (hs : Waiting s.parser) (ho : s.closure_notified = false) (h0 : s.trace = []) (hi : s.parser.m_opcode = 0)
    (hm : s.parser.max_message_length = max) (z : Z) (hz : hasPmce s.parser = true → s.pmce.map Prod.fst = some z) (reads : List (Nat × List Sent))
    (hr : Readable max (unpackMessage env.inflate_stream env.inflate_finish) z (reads.map Prod.snd).flatten)
    (hl : LegalSequence (isServer s.parser) (hasPmce s.parser) false ((reads.map Prod.snd).flatten.map Sent.frame)) (hw : WithinLimit max .idle ((reads.map Prod.snd).flatten.map Sent.meant)) :
    List.Forall₂ (PongOf env.server) (sentBeforeClose ((reads.map (fun r => Input.stream r.1 (wire (r.2.map Sent.raw)))).foldl (Session.input env) s).trace) (pingsOf (reads.map Prod.snd).flatten) := by
  have h1 := reads_pings env s h0 hs ho hi (reads.map fun r => (r.1, wire (r.2.map Sent.raw)))
  rw [List.map_map] at h1
  have h2 := C15_mixed_partial env s max hq hs ho (by unfold inMessage; rw [hi]; simp) hm z hz reads hr hl hw
  have h3 : pingsHeard ((reads.map (fun r => Input.stream r.1 (wire (r.2.map Sent.raw)))).foldl (Session.input env) s).trace = pingsOf (reads.map Prod.snd).flatten := by
    rw [heard_delivered, h2, h0]
    show pingsDelivered (delivered [] ++ _) = _
    rw [show delivered [] = [] from rfl, List.nil_append]
    exact assemble_pings _ _ (.inl rfl) (fun x hx => legal_small hl _ (List.mem_map_of_mem hx))
  rw [← h3]
  exact h1

/-- The stream of `C15_mixed_partial`, which has a PING inside a message. -/
example : pingsOf (mixedReads.map Prod.snd).flatten = [[]] ∧ (let s : Session Nat := { parser := { freshServer with pmce_send_window_bits := 15 }, pmce := some (0, []) }
    s.parser.m_opcode = 0 ∧ sentBeforeClose ((mixedReads.map (fun r => Input.stream r.1 (wire (r.2.map Sent.raw)))).foldl (Session.input countEnv) s).trace = [[0x8A, 0]]) := by decide +kernel

/-! ## What is wrong with the end -/

/-- C121, violated: a CLOSE frame from the other end is not answered with a CLOSE frame, and the connection is not shut down either, whatever comes afterwards. -/
theorem C121_violated_close (later : List (Nat × Bytes)) :
    ((later.map fun r => Input.stream r.1 r.2).foldl (Session.input plainEnv) (freshSession.input plainEnv (.stream 0 [0x88, 0x82, 0, 0, 0, 0, 3, 0xE8]))).trace = [.close 1000 []] := by
  have h0 : (freshSession.input plainEnv (.stream 0 [0x88, 0x82, 0, 0, 0, 0, 3, 0xE8])).closure_notified = true ∧
      (freshSession.input plainEnv (.stream 0 [0x88, 0x82, 0, 0, 0, 0, 3, 0xE8])).trace = [.close 1000 []] := by decide +kernel
  generalize freshSession.input plainEnv (.stream 0 [0x88, 0x82, 0, 0, 0, 0, 3, 0xE8]) = s at h0
  induction later with
  | nil => exact h0.2
  | cons r l ih =>
    have : s.input plainEnv (.stream r.1 r.2) = s := by show (s.stream plainEnv r.1 r.2).1 = s; rw [stream_shut r.2 h0.1]
    rw [List.map_cons, List.foldl_cons, this]
    exact ih

/-- C121, violated: after a protocol error the other end is told that the closure is a normal one (status 1000), and not that there was a protocol error (1002), which the application hears of. -/
theorem C121_violated_status : ∃ reason, (freshSession.input plainEnv (.stream 0 [0x81, 0x01, 65])).trace = [.close 1002 reason, .sent [0x88, 2, 3, 0xE8], .shut_down] := ⟨descBytes (some "clients must mask frames to servers"), by decide +kernel⟩

end Verif.Props
