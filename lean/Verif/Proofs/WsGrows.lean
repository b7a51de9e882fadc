import Verif.Proofs.WsSession
/-! # What a WebSocket session does with data: its history only grows, and no connection is accepted -/
namespace Verif.Ws
open Verif.Utils (splice_buffers)

variable {Z : Type}

/-- The history of `t` is that of `s` with something behind it, which is not an acceptance. -/
def Grows (s t : Session Z) : Prop := t.upgraded = s.upgraded ∧ ∃ more, t.trace = s.trace ++ more ∧ .accepted ∉ more

theorem Grows.refl (s : Session Z) : Grows s s := ⟨rfl, [], by simp, by simp⟩

theorem Grows.trans {s t u : Session Z} (h : Grows s t) (h' : Grows t u) : Grows s u := by
  obtain ⟨a, m, b, c⟩ := h
  obtain ⟨a', m', b', c'⟩ := h'
  exact ⟨a'.trans a, m ++ m', by rw [b', b, List.append_assoc], by simp [c, c']⟩

theorem Grows.push {s t : Session Z} (h : Grows s t) (e : Ev) (he : e ≠ .accepted) : Grows s (t.push e) :=
  h.trans ⟨rfl, [e], rfl, by simp [he.symm]⟩

theorem Grows.congr {s t u : Session Z} (h : Grows s t) (h1 : u.upgraded = t.upgraded) (h2 : u.trace = t.trace) : Grows s u := by
  unfold Grows at *; rw [h1, h2]; exact h

theorem grows_send {s t : Session Z} (env : Env Z) (op : Nat) (d : Bytes) (h : Grows s t) : Grows s (t.send_raw env op d).1 := by
  unfold Session.send_raw
  split
  · exact h
  · exact h.push _ (by simp)

theorem grows_shut_down {s t : Session Z} (env : Env Z) (st : Nat) (r : Bytes) (h : Grows s t) : Grows s (t.ws_shut_down env st r) := by
  unfold Session.ws_shut_down
  split
  · exact h.push _ (by simp)
  · exact (grows_send env _ _ h).push _ (by simp)

theorem grows_close_once {s t : Session Z} (env : Env Z) (st : Nat) (r : Bytes) (h : Grows s t) : Grows s (t.close_once env st r).1 := by
  unfold Session.close_once
  split
  · exact h
  · have : Grows s ({ t with closure_notified := true }.push (.close st r)) := Grows.push (h.congr rfl rfl) _ (by simp)
    simp only
    split
    · exact this
    · exact grows_shut_down env _ _ this

theorem grows_start {s t : Session Z} (h : Grows s t) : Grows s t.start_message := by
  unfold Session.start_message; split
  · exact h.congr rfl rfl
  · exact h

theorem grows_inflate {s t u : Session Z} (env : Env Z) (z : Z) (out : Bytes) (h : Grows s t) (ht : t.inflate env z out = some u) : Grows s u := by
  have : u.upgraded = t.upgraded ∧ u.trace = t.trace := by
    unfold Session.inflate at ht
    simp only at ht
    repeat' split at ht
    all_goals first
      | simp at ht; done
      | (simp only [Option.some.injEq] at ht; rw [← ht]; exact ⟨rfl, rfl⟩)
  exact h.congr this.1 this.2

theorem grows_combine {s t : Session Z} (env : Env Z) (h : Grows s t) : Grows s (t.combine env).1 := by
  unfold Session.combine
  simp only
  split
  · exact Grows.congr (Grows.push (h.congr (u := { t with m_msg := (splice_buffers t.m_msg t.parser.frm_payload).1, parser := { t.parser with frm_payload := (splice_buffers t.m_msg t.parser.frm_payload).2 } }) rfl rfl) (.data t.parser.m_opcode (splice_buffers t.m_msg t.parser.frm_payload).1) (by simp)) rfl rfl
  · exact Grows.push (h.congr rfl rfl) _ (by simp)

def DataResult.Grew (s : Session Z) : DataResult Z → Prop | .go t => Grows s t | .threw t => Grows s t | .closed r => Grows s r.1

theorem grows_combined {s t : Session Z} (env : Env Z) (h : Grows s t) : (t.combined env).Grew s := by
  have := grows_combine env h
  unfold Session.combined
  split <;> exact this

theorem grows_data_frame {s t : Session Z} (env : Env Z) (h : Grows s t) : (t.data_frame env).Grew s := by
  have hs := grows_start h
  unfold Session.data_frame
  simp only
  split
  · split
    · exact grows_close_once env _ _ hs
    · split
      · rename_i hi; exact grows_combined env (grows_inflate env _ _ hs hi)
      · exact hs
  · exact grows_combined env hs

theorem grows_frame_done {s t : Session Z} (env : Env Z) (d : Bytes) (h : Grows s t) : Grows s (t.frame_done env d).state := by
  unfold Session.frame_done
  simp only
  split
  · exact h.congr rfl rfl
  · split
    · split
      · exact (h.push (.finish t.parser.m_opcode t.m_msg) (by simp)).congr rfl rfl
      · exact h.push _ (by simp)
    · split
      · rw [leave_state]; exact Grows.push (h.congr rfl rfl) _ (by simp)
      · split
        · have := grows_send env 0x8A t.parser.frm_payload h
          rcases hc : t.send_raw env 0x8A t.parser.frm_payload with ⟨u, b⟩
          rw [hc] at this
          cases b
          · simp only
            split
            · exact this.push _ (by simp)
            · exact (this.push (.finish ws_PING t.parser.frm_payload) (by simp)).congr rfl rfl
          · exact this
        · split
          · split
            · exact h.push _ (by simp)
            · exact (h.push (.finish ws_PONG t.parser.frm_payload) (by simp)).congr rfl rfl
          · exact h.congr rfl rfl

theorem grows_payload_part {s t : Session Z} (env : Env Z) (addr : Nat) (d : Bytes) (h : Grows s t) : Grows s (t.payload_part env addr d).state := by
  unfold Session.payload_part
  split
  · exact h
  · rename_i p d' _
    have hp : Grows s { t with parser := p } := h.congr rfl rfl
    simp only
    split
    · rw [leave_state]; exact grows_close_once env _ _ hp
    · have rest : ∀ u : Session Z, Grows s u → Grows s (Iter.state (if !u.parser.frame_payload_complete then .stop u d' else u.frame_done env d')) := by
        intro u hu
        split
        · exact hu
        · exact grows_frame_done env d' hu
      split
      · have hd := grows_data_frame env hp
        split
        · rename_i hx; rw [hx] at hd; exact rest _ hd
        · rename_i hx; rw [hx] at hd; exact hd
        · rename_i hx; rw [hx] at hd; rw [leave_state]; exact hd
      · exact rest _ hp

theorem grows_iterate {s t : Session Z} (env : Env Z) (addr : Nat) (d : Bytes) (h : Grows s t) : Grows s (t.iterate env addr d).state := by
  unfold Session.iterate
  simp only
  split
  · exact h
  · have body : ∀ (u : Session Z) (d : Bytes), Grows s u → Grows s (Iter.state (if !u.parser.frame_payload_complete then u.payload_part env addr d
        else .next { u with parser := u.parser.next_frame } d)) := by
      intro u d hu
      split
      · exact grows_payload_part env addr d hu
      · exact hu.congr rfl rfl
    split
    · split
      · exact h
      · rename_i p d' _
        have hp : Grows s { t with parser := p } := h.congr rfl rfl
        split
        · rw [leave_state]; exact grows_close_once env _ _ hp
        · split
          · exact hp
          · exact body _ _ hp
    · exact body _ _ h

theorem grows_stream_fuel (env : Env Z) (addr : Nat) (n : Nat) (s : Session Z) : ∀ (t : Session Z) (d : Bytes), Grows s t → Grows s (t.stream_fuel env addr n d).1 := by
  induction n with
  | zero => intro t d h; exact h
  | succ n ih =>
    intro t d h
    have := grows_iterate env addr d h
    unfold Session.stream_fuel
    split <;> rename_i hx <;> rw [hx] at this
    · exact ih _ _ this
    · exact this
    · exact this

theorem grows_stream (env : Env Z) (addr : Nat) (s : Session Z) (d : Bytes) : Grows s (s.stream env addr d).1 := grows_stream_fuel env addr _ s s d (.refl s)

/-- After the close, data does nothing. -/
theorem stream_closed (env : Env Z) (addr : Nat) (s : Session Z) (d : Bytes) (h : s.closure_notified = true) : s.stream env addr d = (s, [], some false) := by
  rw [stream_eq]
  have : s.iterate env addr d = .stop s [] := by unfold Session.iterate; rw [if_pos (by simp [h])]
  rw [this]

end Verif.Ws
