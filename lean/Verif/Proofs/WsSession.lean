import Verif.Model.WsSession
import Verif.Proofs.WsStream
import Verif.Proofs.WsIter
/-! Invariants of the WebSocket session model. -/
namespace Verif.Ws
open Verif.Utils (splice_buffers)

variable {Z : Type}

def Ev.isClose : Ev → Bool | .close _ _ => true | _ => false
/-- Callbacks that must not happen after the close callback. -/
def Ev.isCallback : Ev → Bool | .close _ _ => true | .data _ _ => true | .finish _ _ => true | _ => false

/-- No close has been reported. -/
def Open (s : Session Z) : Prop := s.closure_notified = false ∧ ∀ e ∈ s.trace, e.isClose = false
/-- One has, and nothing has followed. -/
def Shut (s : Session Z) : Prop := s.closure_notified = true ∧ ∃ a st r b, s.trace = a ++ .close st r :: b ∧
  (∀ e ∈ a, e.isClose = false) ∧ ∀ e ∈ b, e.isCallback = false
def Good (s : Session Z) : Prop := Open s ∨ Shut s

theorem open_push (s : Session Z) (e : Ev) (h : Open s) (he : e.isClose = false) : Open (s.push e) := by
  refine ⟨h.1, ?_⟩
  intro x hx
  simp only [Session.push, List.mem_append, List.mem_singleton] at hx
  rcases hx with hx | rfl
  · exact h.2 x hx
  · exact he

theorem shut_push (s : Session Z) (e : Ev) (h : Shut s) (he : e.isCallback = false) : Shut (s.push e) := by
  obtain ⟨h1, a, st, r, b, h2, h3, h4⟩ := h
  refine ⟨h1, a, st, r, b ++ [e], by simp [Session.push, h2], h3, ?_⟩
  intro x hx
  simp only [List.mem_append, List.mem_singleton] at hx
  rcases hx with hx | rfl
  · exact h4 x hx
  · exact he

theorem shut_close (s : Session Z) (st : Nat) (r : Bytes) (h : Open s) :
    Shut ({ s with closure_notified := true }.push (.close st r)) :=
  ⟨rfl, s.trace, st, r, [], rfl, h.2, by simp⟩

theorem good_push (s : Session Z) (e : Ev) (h : Good s) (he : e.isCallback = false) : Good (s.push e) := by
  rcases h with h | h
  · exact .inl (open_push s e h (by cases e <;> simp_all [Ev.isCallback, Ev.isClose]))
  · exact .inr (shut_push s e h he)

/-- Only the flag and the trace matter. -/
theorem open_congr {s t : Session Z} (h : Open s) (h1 : t.closure_notified = s.closure_notified) (h2 : t.trace = s.trace) : Open t := by
  unfold Open at *; rw [h1, h2]; exact h

theorem good_send (env : Env Z) (s : Session Z) (op : Nat) (d : Bytes) (h : Good s) : Good (s.send_raw env op d).1 := by
  unfold Session.send_raw
  split
  · exact h
  · exact good_push _ _ h rfl

theorem shut_send (env : Env Z) (s : Session Z) (op : Nat) (d : Bytes) (h : Shut s) : Shut (s.send_raw env op d).1 := by
  unfold Session.send_raw
  split
  · exact h
  · exact shut_push _ _ h rfl

theorem open_send (env : Env Z) (s : Session Z) (op : Nat) (d : Bytes) (h : Open s) : Open (s.send_raw env op d).1 := by
  unfold Session.send_raw
  split
  · exact h
  · exact open_push _ _ h rfl

theorem good_shut_down (env : Env Z) (s : Session Z) (st : Nat) (r : Bytes) (h : Good s) : Good (s.ws_shut_down env st r) := by
  unfold Session.ws_shut_down
  split
  · exact good_push _ _ h rfl
  · exact good_push _ _ (good_send env s _ _ h) rfl

theorem shut_shut_down (env : Env Z) (s : Session Z) (st : Nat) (r : Bytes) (h : Shut s) : Shut (s.ws_shut_down env st r) := by
  unfold Session.ws_shut_down
  split
  · exact shut_push _ _ h rfl
  · exact shut_push _ _ (shut_send env s _ _ h) rfl

theorem shut_close_once (env : Env Z) (s : Session Z) (st : Nat) (r : Bytes) (h : Good s) : Shut (s.close_once env st r).1 := by
  unfold Session.close_once
  rcases h with h | h
  · rw [if_neg (by simp [h.1])]
    simp only
    split
    · exact shut_close s st r h
    · exact shut_shut_down _ _ _ _ (shut_close s st r h)
  · rw [if_pos h.1]; exact h

theorem open_start (s : Session Z) (h : Open s) : Open s.start_message := by
  unfold Session.start_message; split
  · exact open_congr h rfl rfl
  · exact h

theorem open_inflate (env : Env Z) (s t : Session Z) (z : Z) (out : Bytes) (h : Open s) (ht : s.inflate env z out = some t) : Open t := by
  have : t.closure_notified = s.closure_notified ∧ t.trace = s.trace := by
    unfold Session.inflate at ht
    simp only at ht
    repeat' split at ht
    all_goals first
      | simp at ht; done
      | (simp only [Option.some.injEq] at ht; rw [← ht]; exact ⟨rfl, rfl⟩)
  exact open_congr h this.1 this.2

theorem open_combine (env : Env Z) (s : Session Z) (h : Open s) : Open (s.combine env).1 := by
  unfold Session.combine
  simp only
  split
  · exact open_congr (open_push _ _ (open_congr (t := { s with m_msg := (splice_buffers s.m_msg s.parser.frm_payload).1, parser := { s.parser with frm_payload := (splice_buffers s.m_msg s.parser.frm_payload).2 } }) h rfl rfl) rfl) rfl rfl
  · exact open_push _ _ (open_congr h rfl rfl) rfl

def DataResult.Ok : DataResult Z → Prop | .go t => Open t | .threw t => Open t | .closed r => Shut r.1

theorem combined_ok (env : Env Z) (s : Session Z) (h : Open s) : (s.combined env).Ok := by
  have := open_combine env s h
  unfold Session.combined
  split <;> exact this

theorem data_frame_good (env : Env Z) (s : Session Z) (h : Open s) : (s.data_frame env).Ok := by
  have hs := open_start s h
  unfold Session.data_frame
  simp only
  split
  · split
    · exact shut_close_once _ _ _ _ (.inl hs)
    · split
      · rename_i hi; exact combined_ok env _ (open_inflate env _ _ _ _ hs hi)
      · exact hs
  · exact combined_ok env _ hs

theorem frame_done_good (env : Env Z) (s : Session Z) (d : Bytes) (h : Open s) : Good (s.frame_done env d).state := by
  unfold Session.frame_done
  simp only
  split
  · exact .inl (open_congr h rfl rfl)
  · split
    · split
      · exact .inl (open_congr (open_push _ _ h rfl) rfl rfl)
      · exact .inl (open_push _ _ h rfl)
    · split
      · rw [leave_state]; exact .inr (shut_close s _ _ h)
      · split
        · have := open_send env s 0x8A s.parser.frm_payload h
          rcases hc : s.send_raw env 0x8A s.parser.frm_payload with ⟨u, b⟩
          rw [hc] at this
          cases b
          · simp only
            split
            · exact .inl (open_push _ _ this rfl)
            · exact .inl (open_congr (open_push _ (.finish ws_PING s.parser.frm_payload) this rfl) rfl rfl)
          · exact .inl this
        · split
          · split
            · exact .inl (open_push _ _ h rfl)
            · exact .inl (open_congr (open_push _ (.finish ws_PONG s.parser.frm_payload) h rfl) rfl rfl)
          · exact .inl (open_congr h rfl rfl)

theorem payload_part_good (env : Env Z) (addr : Nat) (s : Session Z) (d : Bytes) (h : Open s) : Good (s.payload_part env addr d).state := by
  unfold Session.payload_part
  split
  · exact .inl h
  · rename_i p d' _
    have hp : Open { s with parser := p } := open_congr h rfl rfl
    simp only
    split
    · rw [leave_state]; exact .inr (shut_close_once _ _ _ _ (.inl hp))
    · have rest : ∀ t : Session Z, Open t → Good (Iter.state (if !t.parser.frame_payload_complete then .stop t d' else t.frame_done env d')) := by
        intro t ht
        split
        · exact .inl ht
        · exact frame_done_good env t d' ht
      split
      · have hd := data_frame_good env _ hp
        split
        · rename_i hx; rw [hx] at hd; exact rest _ hd
        · rename_i hx; rw [hx] at hd; exact .inl hd
        · rename_i hx; rw [hx] at hd; rw [leave_state]; exact .inr hd
      · exact rest _ hp

theorem iterate_good (env : Env Z) (addr : Nat) (s : Session Z) (d : Bytes) (h : Good s) : Good (s.iterate env addr d).state := by
  unfold Session.iterate
  rcases h with h | h
  · simp only
    split
    · exact .inl h
    · have body : ∀ (t : Session Z) (d : Bytes), Open t → Good (Iter.state (if !t.parser.frame_payload_complete then t.payload_part env addr d
          else .next { t with parser := t.parser.next_frame } d)) := by
        intro t d ht
        split
        · exact payload_part_good env addr t d ht
        · exact .inl (open_congr ht rfl rfl)
      split
      · split
        · exact .inl h
        · rename_i p d' _
          have hp : Open { s with parser := p } := open_congr h rfl rfl
          split
          · rw [leave_state]; exact .inr (shut_close_once _ _ _ _ (.inl hp))
          · split
            · exact .inl hp
            · exact body _ _ hp
      · exact body _ _ h
  · rw [if_pos (by simp [h.1])]; exact .inr h

theorem stream_good (env : Env Z) (addr : Nat) (n : Nat) : ∀ (s : Session Z) (d : Bytes), Good s → Good (s.stream_fuel env addr n d).1 := by
  induction n with
  | zero => intro s d h; exact h
  | succ n ih =>
    intro s d h
    have := iterate_good env addr s d h
    unfold Session.stream_fuel
    split <;> rename_i hx <;> rw [hx] at this
    · exact ih _ _ this
    · exact this
    · exact this

theorem input_good (env : Env Z) (s : Session Z) (i : Input) (h : Good s) : Good (s.input env i) := by
  cases i with
  | stream addr data => exact stream_good env addr _ s data h
  | handshake => exact good_push _ _ h rfl
  | fail st r => exact .inr (shut_close_once env s st r h)
  | closed => exact .inr (shut_close_once env s _ _ h)
  | send b => exact good_push _ _ h rfl
  | app_shut_down st r => exact good_shut_down env s _ r h

theorem history_good (env : Env Z) (l : List Input) : ∀ s : Session Z, Good s → Good (l.foldl (Session.input env) s) := by
  induction l with
  | nil => intro s h; exact h
  | cons i t ih => intro s h; exact ih _ (input_good env s i h)

/-! ### The loop ends -/

theorem header_consumes (p p' : Parser) (d d' : Bytes) (hn : p.wsf = .new) (h : p.parse_frame_header d = .ok (p', d'))
    (hc : p'.frame_header_complete = true) (he : p'.error = false) : d'.length + 2 ≤ d.length := by
  unfold Parser.parse_frame_header at h
  split at h
  · simp at h
  · rw [if_neg (by simp [hn])] at h
    have hfw : p.forget.wsf = .new := by rw [(forget_fields p).1]; exact hn
    simp only at h
    have fin : ∀ (q : Parser) (n : Nat), 2 ≤ n → q.wsf ≠ .payload_done → (q.wsf = .new → True) →
        q.finish_header n d = (p', d') → n ≤ d.length → (q.wsf = .new) → d'.length + 2 ≤ d.length := by
      intro q n hn2 _ _ hq hnl hqn
      unfold Parser.finish_header at hq
      simp only at hq
      split at hq
      · split at hq
        · simp only [Prod.mk.injEq] at hq; rw [← hq.1] at hc; simp [Parser.frame_header_complete, hqn] at hc
        · simp only [Prod.mk.injEq] at hq; rw [← hq.2]; simp; omega
      · simp only [Prod.mk.injEq] at hq; rw [← hq.2]; simp; omega
    split at h
    · rename_i b0 b1 t
      split at h
      · rename_i hce
        simp only [Except.ok.injEq, Prod.mk.injEq] at h
        rw [← h.1] at he
        simp [Parser.error, hce] at he
      · rename_i hce
        simp only [Except.ok.injEq] at h
        generalize hw : (b1.toNat <<< 8 ||| b0.toNat) = w at *
        have hq : ∀ q : Parser, q.wsf = .new → (q.check w).wsf ≠ .error → (q.check w).wsf = .new := by
          intro q hq hne
          unfold Parser.check at hne ⊢
          simp only at hne ⊢
          repeat' split
          all_goals first
            | exact hq
            | (exfalso; simp_all [Parser.fail]; done)
            | simp_all [Parser.fail]
        have hqn := hq { p.forget with frm_header := unpack p.forget.frm_header w } hfw hce
        generalize ({ p.forget with frm_header := unpack p.forget.frm_header w } : Parser).check w = q at *
        unfold Parser.parse_length at h
        have hw' : ∀ n, (q.setLen n).wsf = .new := fun n => hqn
        split at h
        · exact fin _ 2 (by omega) (by rw [hw']; decide) (fun _ => trivial) h (by simp) (hw' _)
        · split at h
          · split at h
            · simp only [Prod.mk.injEq] at h; rw [← h.1] at hc; simp [Parser.frame_header_complete, hqn] at hc
            · exact fin _ 4 (by omega) (by rw [hw']; decide) (fun _ => trivial) h (by omega) (hw' _)
          · split at h
            · simp only [Prod.mk.injEq] at h; rw [← h.1] at hc; simp [Parser.frame_header_complete, hqn] at hc
            · exact fin _ 10 (by omega) (by rw [hw']; decide) (fun _ => trivial) h (by omega) (hw' _)
    · simp only [Except.ok.injEq, Prod.mk.injEq] at h
      rw [← h.1] at hc; simp [Parser.frame_header_complete, hfw] at hc

theorem payload_shrinks (p p' : Parser) (a : Nat) (d d' : Bytes) (h : p.parse_frame_payload a d = .ok (p', d')) : d'.length ≤ d.length := by
  unfold Parser.parse_frame_payload at h
  simp only at h
  repeat' split at h
  all_goals first
    | (simp at h; done)
    | (simp only [Except.ok.injEq, Prod.mk.injEq] at h; rw [← h.2]; simp)

/-- The number of iterations is bounded by this. -/
def measure (s : Session Z) (d : Bytes) : Nat := 2 * d.length + (if s.parser.wsf = .new then 0 else 1)

theorem frame_done_next (env : Env Z) (s t : Session Z) (d d' : Bytes) (h : s.frame_done env d = .next t d') :
    d' = d ∧ t.parser.wsf = .new := by
  unfold Session.frame_done at h
  simp only [Iter.leave] at h
  repeat' split at h
  all_goals first
    | (simp at h; done)
    | (simp only [Iter.next.injEq] at h; rw [← h.1, ← h.2]; exact ⟨rfl, rfl⟩)

theorem payload_part_next (env : Env Z) (addr : Nat) (s t : Session Z) (d d' : Bytes) (h : s.payload_part env addr d = .next t d') :
    d'.length ≤ d.length ∧ t.parser.wsf = .new := by
  unfold Session.payload_part at h
  split at h
  · simp at h
  · rename_i p e hp
    have hs := payload_shrinks _ _ _ _ _ hp
    have rest : ∀ u : Session Z, (if !u.parser.frame_payload_complete then .stop u e else u.frame_done env e) = Iter.next t d' →
        d'.length ≤ d.length ∧ t.parser.wsf = .new := by
      intro u hu
      split at hu
      · simp at hu
      · have := frame_done_next env u t e d' hu
        rw [this.1]; exact ⟨hs, this.2⟩
    simp only [Iter.leave] at h
    split at h
    · split at h <;> simp at h
    · split at h
      · split at h
        · exact rest _ h
        · simp at h
        · split at h <;> simp at h
      · exact rest { s with parser := p } h

theorem iterate_next (env : Env Z) (addr : Nat) (s t : Session Z) (d d' : Bytes) (h : s.iterate env addr d = .next t d') :
    measure t d' < measure s d := by
  have key : t.parser.wsf = .new ∧ (d'.length ≤ d.length ∧ s.parser.wsf ≠ .new ∨ d'.length + 2 ≤ d.length) := by
    unfold Session.iterate at h
    have body : ∀ (u : Session Z) (e : Bytes), (if !u.parser.frame_payload_complete then u.payload_part env addr e
        else .next { u with parser := u.parser.next_frame } e) = Iter.next t d' → d'.length ≤ e.length ∧ t.parser.wsf = .new := by
      intro u e hu
      split at hu
      · exact payload_part_next env addr u t e d' hu
      · simp only [Iter.next.injEq] at hu; rw [← hu.1, ← hu.2]; exact ⟨Nat.le_refl _, rfl⟩
    simp only [Iter.leave] at h
    split at h
    · simp at h
    · split at h
      · rename_i hnew
        have hnew : s.parser.wsf = .new := by simpa [Parser.frame_header_complete] using hnew
        split at h
        · simp at h
        · rename_i p e hp
          split at h
          · split at h <;> simp at h
          · rename_i hpe
            split at h
            · simp at h
            · rename_i hpc
              have hb := body { s with parser := p } _ h
              have := header_consumes s.parser p d e hnew hp (by simpa using hpc) (by simpa using hpe)
              exact ⟨hb.2, .inr (by have := hb.1; omega)⟩
      · rename_i hnew
        have hnew : s.parser.wsf ≠ .new := by simpa [Parser.frame_header_complete] using hnew
        have := body _ _ h
        exact ⟨this.2, .inl ⟨this.1, hnew⟩⟩
  unfold measure
  rw [if_pos key.1]
  rcases key.2 with ⟨h1, h2⟩ | h1
  · rw [if_neg h2]; omega
  · omega

theorem fuel_total (env : Env Z) (addr : Nat) (n : Nat) : ∀ (s : Session Z) (d : Bytes), measure s d < n →
    (s.stream_fuel env addr n d).2.2 ≠ none ∧ ∀ m, n ≤ m → s.stream_fuel env addr m d = s.stream_fuel env addr n d := by
  induction n with
  | zero => intro s d h; omega
  | succ n ih =>
    intro s d h
    cases hi : s.iterate env addr d with
    | next t e =>
      have hm := iterate_next env addr s t d e hi
      have := ih t e (by omega)
      constructor
      · simp only [Session.stream_fuel, hi]; exact this.1
      · intro m hnm
        obtain ⟨m, rfl⟩ : ∃ k, m = k + 1 := ⟨m - 1, by omega⟩
        simp only [Session.stream_fuel, hi]
        exact this.2 m (by omega)
    | stop t e =>
      constructor
      · simp [Session.stream_fuel, hi]
      · intro m hnm
        obtain ⟨m, rfl⟩ : ∃ k, m = k + 1 := ⟨m - 1, by omega⟩
        simp only [Session.stream_fuel, hi]
    | throw t e =>
      constructor
      · simp [Session.stream_fuel, hi]
      · intro m hnm
        obtain ⟨m, rfl⟩ : ∃ k, m = k + 1 := ⟨m - 1, by omega⟩
        simp only [Session.stream_fuel, hi]

theorem measure_lt (s : Session Z) (d : Bytes) : measure s d < 2 * d.length + 2 := by unfold measure; split <;> omega

/-- The bound on the iterations is never reached. -/
theorem stream_total (env : Env Z) (addr : Nat) (s : Session Z) (d : Bytes) : (s.stream env addr d).2.2 ≠ none :=
  (fuel_total env addr _ s d (measure_lt s d)).1

/-- The loop, as an equation. -/
theorem stream_eq (env : Env Z) (addr : Nat) (s : Session Z) (d : Bytes) :
    s.stream env addr d = match s.iterate env addr d with
      | .next s d => s.stream env addr d
      | .stop s d => (s, d, some false)
      | .throw s d => (s, d, some true) := by
  conv => lhs; unfold Session.stream
  unfold Session.stream_fuel
  cases hi : s.iterate env addr d with
  | next t e =>
    simp only
    have hm := iterate_next env addr s t d e hi
    have h1 := fuel_total env addr (measure t e + 1) t e (by omega)
    have h2 := measure_lt s d
    rw [h1.2 _ (by omega)]
    unfold Session.stream
    rw [h1.2 (2 * e.length + 2) (by have := measure_lt t e; omega)]
  | stop t e => rfl
  | throw t e => rfl

end Verif.Ws
