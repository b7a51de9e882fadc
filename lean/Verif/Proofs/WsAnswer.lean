import Verif.Proofs.WsIter
import Verif.Proofs.WsMask
/-!
# What a WebSocket session says by itself
-/
namespace Verif.Ws
variable {Z : Type}

/-- What is known of the parser between two steps. -/
structure Fine (p : Parser) : Prop where
  opcode : p.m_opcode ≤ 2
  empty : p.wsf = .new → p.frm_payload = []
  key : p.frm_header.masking_key < 2 ^ 32
  short : p.wsf = .header_done ∨ p.wsf = .payload_done → 8 ≤ p.frm_header.opcode → p.frm_payload.length + p.frm_payload_rem ≤ 125

theorem fine_forget {p : Parser} (h : Fine p) : Fine p.forget := by
  unfold Parser.forget
  split
  · exact ⟨Nat.zero_le _, h.empty, h.key, h.short⟩
  · exact h

/-- What the checks leave. -/
theorem check_fine (p : Parser) (w : Nat) (h : p.m_opcode ≤ 2) (hn : p.wsf = .new) : (p.check w).m_opcode ≤ 2 ∧ (p.check w).frm_payload = p.frm_payload ∧ (p.check w).frm_header = p.frm_header ∧
    ((p.check w).wsf = .error ∨ (p.check w).wsf = .new ∧ (8 ≤ p.frm_header.opcode → p.frm_header.reserved_1 ≤ 125)) := by
  unfold Parser.check Parser.fail
  simp only
  split
  · exact ⟨h, rfl, rfl, .inl rfl⟩
  split
  · rename_i ho
    have ho : p.frm_header.opcode = 1 ∨ p.frm_header.opcode = 2 := ho
    split
    · exact ⟨h, rfl, rfl, .inl rfl⟩
    split <;> split
    all_goals first
      | exact ⟨h, rfl, rfl, .inl rfl⟩
      | exact ⟨by show p.frm_header.opcode ≤ 2; omega, rfl, rfl, .inr ⟨hn, fun h8 => by omega⟩⟩
  split
  · rename_i ho
    have ho : p.frm_header.opcode = 0 := ho
    split
    · exact ⟨h, rfl, rfl, .inl rfl⟩
    split
    · exact ⟨h, rfl, rfl, .inl rfl⟩
    split
    · exact ⟨h, rfl, rfl, .inr ⟨hn, fun h8 => by omega⟩⟩
    · exact ⟨h, rfl, rfl, .inr ⟨hn, fun h8 => by omega⟩⟩
  split
  · split
    · exact ⟨h, rfl, rfl, .inl rfl⟩
    split
    · exact ⟨h, rfl, rfl, .inl rfl⟩
    split
    · exact ⟨h, rfl, rfl, .inl rfl⟩
    · rename_i hr _
      exact ⟨h, rfl, rfl, .inr ⟨hn, fun _ => by omega⟩⟩
  · exact ⟨h, rfl, rfl, .inl rfl⟩

theorem finish_fine {p : Parser} (n : Nat) (d : Bytes) (ho : p.m_opcode ≤ 2) (hn : p.wsf = .new) (he : p.frm_payload = []) (hk : p.frm_header.masking_key < 2 ^ 32)
    (hs : 8 ≤ p.frm_header.opcode → p.frm_header.payload_len ≤ 125) : Fine (p.finish_header n d).1 := by
  unfold Parser.finish_header
  simp only
  split
  · split
    · exact ⟨ho, fun _ => he, hk, fun h => by rw [hn] at h; rcases h with h | h <;> cases h⟩
    · refine ⟨ho, fun h => (by cases h), ?_, fun _ h8 => ?_⟩
      · show beNat ((d.drop n).take 4) < 2 ^ 32
        refine Nat.lt_of_lt_of_le (beNat_lt _) (Nat.le_trans (Nat.pow_le_pow_right (by decide) (show ((d.drop n).take 4).length ≤ 4 by rw [List.length_take]; omega)) (by decide))
      · show (p.frm_payload.length + p.frm_header.payload_len : Nat) ≤ 125
        rw [he]; simpa using hs h8
  · refine ⟨ho, fun h => (by cases h), hk, fun _ h8 => ?_⟩
    show (p.frm_payload.length + p.frm_header.payload_len : Nat) ≤ 125
    rw [he]; simpa using hs h8

theorem fine_header {p p' : Parser} {d d' : Bytes} (h : Fine p) (e : p.parse_frame_header d = .ok (p', d')) : Fine p' ∨ p'.error = true := by
  unfold Parser.parse_frame_header at e
  split at e
  · cases e
  split at e
  · cases e; exact .inl h
  rename_i hn
  have hn : p.wsf = .new := Decidable.not_not.mp hn
  simp only at e
  have hf := fine_forget h
  have hfn : p.forget.wsf = .new := by unfold Parser.forget; split <;> exact hn
  split at e
  · rename_i b0 b1 t
    obtain ⟨c1, c2, c3, c4⟩ := check_fine { p.forget with frm_header := unpack p.forget.frm_header (b1.toNat <<< 8 ||| b0.toNat) } (b1.toNat <<< 8 ||| b0.toNat) hf.opcode hfn
    generalize ({ p.forget with frm_header := unpack p.forget.frm_header (b1.toNat <<< 8 ||| b0.toNat) } : Parser).check (b1.toNat <<< 8 ||| b0.toNat) = q at c1 c2 c3 c4 e
    split at e
    · rename_i hq
      cases e; exact .inr (by simp [Parser.error, hq])
    · rename_i hq
      obtain ⟨c5, c6⟩ := c4.resolve_left hq
      have c2 : q.frm_payload = [] := c2.trans (hf.empty hfn)
      have ck : q.frm_header.masking_key < 2 ^ 32 := by rw [c3]; exact hf.key
      have cs : 8 ≤ q.frm_header.opcode → q.frm_header.reserved_1 ≤ 125 := by rw [c3]; exact c6
      left
      have e := Except.ok.inj e
      have e1 : p' = (q.parse_length (b0 :: b1 :: t)).1 := by rw [e]
      rw [e1]
      unfold Parser.parse_length
      split
      · exact finish_fine 2 _ c1 c5 c2 ck cs
      · rename_i hr
        have no : ¬ 8 ≤ q.frm_header.opcode := fun h8 => hr (cs h8)
        split
        · split
          · exact ⟨c1, fun _ => c2, ck, fun _ h8 => absurd h8 no⟩
          · exact finish_fine 4 _ c1 c5 c2 ck fun h8 => absurd h8 no
        · split
          · exact ⟨c1, fun _ => c2, ck, fun _ h8 => absurd h8 no⟩
          · exact finish_fine 10 _ c1 c5 c2 ck fun h8 => absurd h8 no
  · cases e; exact .inl hf

theorem mask_payload_fine (addr : Nat) (h : FrameHeader) (data : Bytes) (hk : h.masking_key < 2 ^ 32) : (mask_payload addr h data).1.opcode = h.opcode ∧
    (mask_payload addr h data).1.masking_key < 2 ^ 32 ∧ (mask_payload addr h data).2.length = data.length := by
  cases hm : h.masked with
  | true => rw [mask_payload_spec addr h data hk hm]; exact ⟨rfl, rotN_lt _ _ hk, maskRec_length _ _⟩
  | false => rw [mask_payload_unmasked addr h data hm]; exact ⟨rfl, hk, rfl⟩

theorem fine_payload {p p' : Parser} {a : Nat} {d d' : Bytes} (h : Fine p) (e : p.parse_frame_payload a d = .ok (p', d')) : Fine p' := by
  unfold Parser.parse_frame_payload at e
  split at e
  · cases e
  split at e
  · cases e; exact h
  split at e
  · cases e
  rename_i hw
  have hw : p.wsf = .header_done := Decidable.not_not.mp hw
  simp only at e
  split at e
  · cases e
  have hm := mask_payload_fine a p.frm_header (d.take (min d.length p.frm_payload_rem)) h.key
  rw [List.length_take] at hm
  by_cases hv : min d.length p.frm_payload_rem = 0
  · simp only [hv, ne_eq, not_true_eq_false, ite_false] at e
    split at e
    · cases e; exact h
    · cases e
      exact ⟨h.opcode, fun hx => (by cases hx), h.key, fun _ => h.short (.inl hw)⟩
  · simp only [ne_eq, hv, not_false_eq_true, ite_true] at e
    have hlen : 8 ≤ p.frm_header.opcode → (p.frm_payload ++ (mask_payload a p.frm_header (d.take (min d.length p.frm_payload_rem))).2).length + (p.frm_payload_rem - min d.length p.frm_payload_rem) ≤ 125 := by
      intro h8
      have := h.short (.inl hw) h8
      rw [List.length_append, hm.2.2]
      omega
    split at e
    · cases e
      exact ⟨h.opcode, fun hx => (by rw [show p.wsf = .new from hx] at hw; cases hw), hm.2.1, fun _ h8 => hlen (by rw [← hm.1]; exact h8)⟩
    · cases e
      exact ⟨h.opcode, fun hx => (by cases hx), hm.2.1, fun _ h8 => hlen (by rw [← hm.1]; exact h8)⟩

theorem fine_next {p : Parser} (h : Fine p) : Fine p.next_frame :=
  ⟨h.opcode, fun _ => rfl, by show (0 : Nat) < 2 ^ 32; decide, fun hx => by rcases hx with hx | hx <;> cases hx⟩

/-- The data of a frame that is not a control frame may be changed. -/
theorem fine_data {p : Parser} (h : Fine p) (ho : p.frm_header.opcode ≤ 7) (hn : p.wsf ≠ .new) (b : Bytes) : Fine { p with frm_payload := b } :=
  ⟨h.opcode, fun hx => absurd hx hn, h.key, fun _ h8 => by have : 8 ≤ p.frm_header.opcode := h8; omega⟩

/-! ## The trace -/

/-- A PONG with `p`. -/
def pong (env : Env Z) (r : Nat) (p : Bytes) : Bytes := raw_frame env.server r 0x8A p

/-- What a session says while the connection is open: it answers every PING, before it tells the user, and sends nothing else. -/
inductive Calm (env : Env Z) : List Ev → Prop
  | nil : Calm env []
  | data (op : Nat) (b : Bytes) {l : List Ev} : Calm env l → Calm env (.data op b :: l)
  | finish (op : Nat) (b : Bytes) {l : List Ev} : op ≠ 9 → Calm env l → Calm env (.finish op b :: l)
  | ping (r : Nat) (p : Bytes) {l : List Ev} : p.length ≤ 125 → Calm env l → Calm env (.sent (pong env r p) :: .finish 9 p :: l)

/-- What it says when the connection ends: a close, and then perhaps a CLOSE frame that says 1000. -/
def Ended (env : Env Z) (l : List Ev) : Prop :=
  ∃ c st r, Calm env c ∧ (l = c ++ [.close st r] ∨ l = c ++ [.close st r, .shut_down] ∨ ∃ rnd, l = c ++ [.close st r, .sent (raw_frame env.server rnd 0x88 (close_payload 1000 [])), .shut_down])

theorem Calm.append {env : Env Z} {a b : List Ev} (ha : Calm env a) (hb : Calm env b) : Calm env (a ++ b) := by
  induction ha with
  | nil => exact hb
  | data op x _ ih => exact .data op x ih
  | finish op x h _ ih => exact .finish op x h ih
  | ping r p h _ ih => exact .ping r p h ih

theorem Calm.ended {env : Env Z} {a b : List Ev} (ha : Calm env a) (hb : Ended env b) : Ended env (a ++ b) := by
  obtain ⟨c, st, r, hc, h⟩ := hb
  refine ⟨a ++ c, st, r, ha.append hc, ?_⟩
  rcases h with rfl | rfl | ⟨rnd, rfl⟩
  · exact .inl (by rw [List.append_assoc])
  · exact .inr (.inl (by rw [List.append_assoc]))
  · exact .inr (.inr ⟨rnd, by rw [List.append_assoc]⟩)

/-- From `s` to `t`: either the connection goes on, or it has ended. -/
inductive Goes (env : Env Z) (s t : Session Z) : Prop
  | on (l : List Ev) : t.trace = s.trace ++ l → Calm env l → t.closure_notified = false → Fine t.parser → Goes env s t
  | ended (l : List Ev) : t.trace = s.trace ++ l → Ended env l → t.closure_notified = true → Goes env s t

theorem Goes.refl {env : Env Z} {s : Session Z} (h : s.closure_notified = false) (hf : Fine s.parser) : Goes env s s := .on [] (List.append_nil _).symm .nil h hf

/-- Some steps, and what comes after them. -/
theorem Goes.after {env : Env Z} {s t u : Session Z} {l : List Ev} (h1 : t.trace = s.trace ++ l) (hl : Calm env l) (h2 : Goes env t u) : Goes env s u := by
  cases h2 with
  | on m e hm hc hf => exact .on (l ++ m) (by rw [e, h1, List.append_assoc]) (hl.append hm) hc hf
  | ended m e hm hc => exact .ended (l ++ m) (by rw [e, h1, List.append_assoc]) (hl.ended hm) hc

theorem shut_down_trace (env : Env Z) (s : Session Z) (status : Nat) (reason : Bytes) : (s.ws_shut_down env status reason).closure_notified = s.closure_notified ∧
    ((s.ws_shut_down env status reason).trace = s.trace ++ [.shut_down] ∨ ∃ rnd, (s.ws_shut_down env status reason).trace = s.trace ++ [.sent (raw_frame env.server rnd 0x88 (close_payload status reason)), .shut_down]) := by
  unfold Session.ws_shut_down
  split
  · exact ⟨rfl, .inl rfl⟩
  · unfold Session.send_raw
    split
    · exact ⟨rfl, .inl rfl⟩
    · exact ⟨rfl, .inr ⟨env.random s.trace, by simp [Session.push]⟩⟩

theorem goes_close_once {env : Env Z} {s : Session Z} (st : Nat) (r : Bytes) (h : s.closure_notified = false) : Goes env s (s.close_once env st r).1 := by
  unfold Session.close_once
  rw [if_neg (by simp [h])]
  simp only
  split
  · exact .ended [.close st r] rfl ⟨[], st, r, .nil, .inl rfl⟩ rfl
  · obtain ⟨h1, h2⟩ := shut_down_trace env ({ s with closure_notified := true }.push (.close st r)) 1000 []
    rcases h2 with h2 | ⟨rnd, h2⟩
    · exact .ended [.close st r, .shut_down] (by rw [h2]; simp [Session.push]) ⟨[], st, r, .nil, .inr (.inl rfl)⟩ (by rw [h1]; rfl)
    · exact .ended [.close st r, .sent _, .shut_down] (by rw [h2]; simp [Session.push]) ⟨[], st, r, .nil, .inr (.inr ⟨rnd, rfl⟩)⟩ (by rw [h1]; rfl)

/-- Only the parser's data change. -/
theorem goes_same {env : Env Z} {s t : Session Z} (h1 : t.trace = s.trace) (h2 : t.closure_notified = false) (hf : Fine t.parser) : Goes env s t :=
  .on [] (by rw [h1, List.append_nil]) .nil h2 hf

theorem goes_frame_done {env : Env Z} {s : Session Z} (d : Bytes) (h : s.closure_notified = false) (hf : Fine s.parser) (hd : s.parser.wsf = .payload_done) : Goes env s (s.frame_done env d).state := by
  have hop := hf.opcode
  unfold Session.frame_done
  simp only
  split
  · exact goes_same rfl h (fine_next hf)
  split
  · split
    · exact .on [.finish s.parser.m_opcode s.m_msg] rfl (.finish _ _ (by omega) .nil) h (fine_next hf)
    · exact .on [.finish s.parser.m_opcode s.m_msg] rfl (.finish _ _ (by omega) .nil) h hf
  split
  · rw [leave_state]
    exact .ended [.close _ _] rfl ⟨[], _, _, .nil, .inl rfl⟩ rfl
  split
  · rename_i ho
    have ho : s.parser.frm_header.opcode = 9 := ho
    have hs := hf.short (.inr hd) (by omega)
    have hlen : s.parser.frm_payload.length ≤ 125 := by omega
    unfold Session.send_raw
    by_cases ht : env.send_throws s.trace = true
    · rw [if_pos ht]
      exact goes_same rfl h hf
    · rw [if_neg ht]
      simp only
      split
      · exact .on [.sent (pong env (env.random s.trace) s.parser.frm_payload), .finish 9 s.parser.frm_payload] (by simp [Session.push, Iter.state, pong, ws_PING]) (.ping _ _ hlen .nil) h hf
      · exact .on [.sent (pong env (env.random s.trace) s.parser.frm_payload), .finish 9 s.parser.frm_payload] (by simp [Session.push, Iter.state, pong, ws_PING]) (.ping _ _ hlen .nil) h (fine_next hf)
  split
  · split
    · exact .on [.finish ws_PONG s.parser.frm_payload] rfl (.finish _ _ (by decide) .nil) h hf
    · exact .on [.finish ws_PONG s.parser.frm_payload] rfl (.finish _ _ (by decide) .nil) h (fine_next hf)
  · exact goes_same rfl h (fine_next hf)

theorem goes_combine {env : Env Z} {s : Session Z} (h : s.closure_notified = false) (hf : Fine s.parser) (ho : s.parser.frm_header.opcode ≤ 7) (hn : s.parser.wsf ≠ .new) :
    ∃ l, (s.combine env).1.trace = s.trace ++ l ∧ Calm env l ∧ (s.combine env).1.closure_notified = false ∧ Fine (s.combine env).1.parser ∧ (s.combine env).1.parser.wsf = s.parser.wsf := by
  unfold Session.combine
  simp only
  split
  · exact ⟨[.data _ _], rfl, .data _ _ .nil, h, fine_data hf ho hn _, rfl⟩
  · exact ⟨[.data _ _], rfl, .data _ _ .nil, h, fine_data hf ho hn _, rfl⟩

/-- What a data frame may do. -/
def DataGoes (env : Env Z) (s : Session Z) : DataResult Z → Prop
  | .go t => ∃ l, t.trace = s.trace ++ l ∧ Calm env l ∧ t.closure_notified = false ∧ Fine t.parser ∧ t.parser.wsf = s.parser.wsf
  | .threw t => Goes env s t
  | .closed r => Goes env s r.1

theorem goes_combined {env : Env Z} {s : Session Z} (h : s.closure_notified = false) (hf : Fine s.parser) (ho : s.parser.frm_header.opcode ≤ 7) (hn : s.parser.wsf ≠ .new) : DataGoes env s (s.combined env) := by
  have := goes_combine (env := env) h hf ho hn
  unfold Session.combined
  split
  · obtain ⟨l, h1, h2, h3, h4, -⟩ := this
    exact .on l h1 h2 h3 h4
  · exact this

theorem start_same (s : Session Z) : s.start_message.trace = s.trace ∧ s.start_message.closure_notified = s.closure_notified ∧ s.start_message.parser = s.parser := by
  unfold Session.start_message
  split <;> exact ⟨rfl, rfl, rfl⟩

theorem inflate_same {env : Env Z} {s t : Session Z} {z : Z} {out : Bytes} (ht : s.inflate env z out = some t) : t.trace = s.trace ∧ t.closure_notified = s.closure_notified ∧ ∃ b, t.parser = { s.parser with frm_payload := b } := by
  unfold Session.inflate at ht
  simp only at ht
  repeat' split at ht
  all_goals first
    | simp at ht; done
    | (simp only [Option.some.injEq] at ht; rw [← ht]; exact ⟨rfl, rfl, _, rfl⟩)

theorem goes_data_frame {env : Env Z} {s : Session Z} (h : s.closure_notified = false) (hf : Fine s.parser) (ho : s.parser.frm_header.opcode ≤ 7) (hn : s.parser.wsf ≠ .new) : DataGoes env s (s.data_frame env) := by
  obtain ⟨h1, h2, h3⟩ := start_same s
  have key : ∀ t : Session Z, t.trace = s.trace → t.closure_notified = false → (∃ b, t.parser = { s.parser with frm_payload := b }) → DataGoes env s (t.combined env) := by
    rintro t e1 e2 ⟨b, e3⟩
    have := goes_combined (env := env) e2 (by rw [e3]; exact fine_data hf ho hn b) (by rw [e3]; exact ho) (by rw [e3]; exact hn)
    generalize t.combined env = r at this ⊢
    cases r with
    | go u =>
      obtain ⟨l, g1, g2, g3, g4, g5⟩ := this
      exact ⟨l, by rw [g1, e1], g2, g3, g4, by rw [g5, e3]⟩
    | threw u => exact Goes.after (by rw [e1, List.append_nil]) .nil this
    | closed u => exact Goes.after (by rw [e1, List.append_nil]) .nil this
  unfold Session.data_frame
  simp only
  split
  · split
    · exact Goes.after (s := s) (t := s.start_message) (by rw [h1, List.append_nil]) .nil (goes_close_once _ _ (by rw [h2]; exact h))
    · split
      · rename_i hi
        obtain ⟨i1, i2, b, i3⟩ := inflate_same hi
        exact key _ (i1.trans h1) (by rw [i2, h2]; exact h) ⟨b, by rw [i3, h3]⟩
      · exact goes_same h1 (by rw [h2]; exact h) (by rw [h3]; exact hf)
  · exact key _ h1 (by rw [h2]; exact h) ⟨s.parser.frm_payload, by rw [h3]⟩

theorem wsf_done {p : Parser} (h : ¬ (!p.frame_payload_complete) = true) (he : p.error = false) : p.wsf = .payload_done := by
  unfold Parser.frame_payload_complete at h
  unfold Parser.error at he
  cases hw : p.wsf <;> simp_all

theorem goes_payload_part {env : Env Z} {addr : Nat} {s : Session Z} (d : Bytes) (h : s.closure_notified = false) (hf : Fine s.parser) (hn : s.parser.wsf ≠ .new) : Goes env s (s.payload_part env addr d).state := by
  unfold Session.payload_part
  split
  · exact .refl h hf
  · rename_i p d' e
    have hp : Fine p := fine_payload hf e
    have hpn : p.wsf ≠ .new := by
      unfold Parser.parse_frame_payload at e
      simp only at e
      repeat' split at e
      all_goals first
        | (cases e; done)
        | (cases e; first | exact hn | (intro hx; cases hx))
    simp only
    split
    · rw [leave_state]
      exact Goes.after (s := s) (t := { s with parser := p }) (List.append_nil _).symm .nil (goes_close_once _ _ h)
    · rename_i herr
      have herr : p.error = false := by simpa using herr
      have rest : ∀ (t : Session Z) (l : List Ev), t.trace = s.trace ++ l → Calm env l → t.closure_notified = false → Fine t.parser → t.parser.wsf = p.wsf →
          Goes env s (Iter.state (if !t.parser.frame_payload_complete then .stop t d' else t.frame_done env d')) := by
        intro t l h1 h2 h3 h4 h5
        split
        · exact .on l h1 h2 h3 h4
        · rename_i hc
          exact Goes.after h1 h2 (goes_frame_done d' h3 h4 (wsf_done hc (by unfold Parser.error at herr ⊢; rw [h5]; exact herr)))
      split
      · rename_i ho
        have hd := goes_data_frame (env := env) (s := { s with parser := p }) h hp ho hpn
        split
        · rename_i hx; rw [hx] at hd
          obtain ⟨l, g1, g2, g3, g4, g5⟩ := hd
          exact rest _ l g1 g2 g3 g4 g5
        · rename_i hx; rw [hx] at hd; exact Goes.after (t := { s with parser := p }) (List.append_nil _).symm .nil hd
        · rename_i hx; rw [hx] at hd; rw [leave_state]; exact Goes.after (t := { s with parser := p }) (List.append_nil _).symm .nil hd
      · exact rest { s with parser := p } [] (List.append_nil _).symm .nil h hp rfl

theorem goes_iterate {env : Env Z} {addr : Nat} {s : Session Z} (d : Bytes) (h : s.closure_notified = false) (hf : Fine s.parser) : Goes env s (s.iterate env addr d).state := by
  unfold Session.iterate
  simp only
  split
  · exact .refl h hf
  · have body : ∀ (t : Session Z) (d : Bytes), t.closure_notified = false → Fine t.parser → t.parser.frame_header_complete = true → Goes env t (Iter.state (if !t.parser.frame_payload_complete then t.payload_part env addr d
          else .next { t with parser := t.parser.next_frame } d)) := by
      intro t d ht hft hc
      split
      · exact goes_payload_part d ht hft (by intro hx; simp [Parser.frame_header_complete, hx] at hc)
      · exact goes_same rfl ht (fine_next hft)
    split
    · split
      · exact .refl h hf
      · rename_i p d' e
        have hp := fine_header hf e
        split
        · rw [leave_state]
          exact Goes.after (s := s) (t := { s with parser := p }) (List.append_nil _).symm .nil (goes_close_once _ _ h)
        · rename_i herr
          have hp := hp.resolve_right (by simpa using herr)
          split
          · exact goes_same rfl h hp
          · rename_i hc
            exact Goes.after (s := s) (t := { s with parser := p }) (List.append_nil _).symm .nil (body _ _ h hp (by simpa using hc))
    · rename_i hc
      exact body _ _ h hf (by simpa using hc)

theorem goes_stream {env : Env Z} {addr : Nat} : ∀ (n : Nat) (s : Session Z) (d : Bytes), s.closure_notified = false → Fine s.parser → Goes env s (s.stream_fuel env addr n d).1
  | 0, s, d, h, hf => .refl h hf
  | n + 1, s, d, h, hf => by
    have := goes_iterate (env := env) (addr := addr) d h hf
    unfold Session.stream_fuel
    split <;> rename_i hx <;> rw [hx] at this
    · cases this with
      | on l e hl hc hf' => exact Goes.after e hl (goes_stream n _ _ hc hf')
      | ended l e hl hc =>
        rename_i t d'
        have hstop : (t.stream_fuel env addr n d').1 = t := by
          have hc : t.closure_notified = true := hc
          cases n with
          | zero => rfl
          | succ n =>
            unfold Session.stream_fuel
            have : t.iterate env addr d' = .stop t [] := by unfold Session.iterate; rw [if_pos (by simp [hc])]
            rw [this]
        rw [hstop]
        exact .ended l e hl hc
    · exact this
    · exact this

/-- After the close, nothing happens by itself. -/
theorem stream_shut {env : Env Z} {addr : Nat} {s : Session Z} (d : Bytes) (h : s.closure_notified = true) : (s.stream env addr d).1 = s := by
  unfold Session.stream Session.stream_fuel
  have : s.iterate env addr d = .stop s [] := by unfold Session.iterate; rw [if_pos (by simp [h])]
  rw [this]

end Verif.Ws
