import Verif.Proofs.WsCut
/-!
# C15: what is lost where a read ends inside the first frame of a message
-/
namespace Verif.Props
open Verif Verif.Spec Verif.Ws

/-- What remains of a frame without the first `k` bytes of its payload. -/
def _root_.Verif.Spec.WsFrame.rest (f : WsFrame) (k : Nat) : WsFrame := { f with key := f.key.map (rotN · k), len := f.len - k }

theorem rest_transform (f : WsFrame) (hf : f.Fits) (payload : Bytes) (k : Nat) (hk : k ≤ payload.length) : (f.rest k).transform (payload.drop k) = (f.transform payload).drop k := by
  unfold WsFrame.transform WsFrame.rest
  cases h : f.key with
  | none => simp
  | some key =>
    have hk' := hf.key key h
    simp only [Option.map_some]
    rw [← maskRec_eq _ _ hk', ← maskRec_eq _ _ (rotN_lt _ _ hk')]
    have := (unmask_split true key (payload.take k) (payload.drop k) _ rfl).2
    simp only [if_true, List.take_append_drop, List.length_take, Nat.min_eq_left hk] at this
    exact this

/-- Part of the payload of the first frame of a message: it is forgotten. -/
theorem mid_lose {Z : Type} (env : Env Z) (max : Nat) (hq : Quiet env max) {server pmce inm : Bool} {pz : Option Z} {s : Session Z} {st : MsgState} {f : WsFrame} {payload : Bytes} {op : Nat} {base : Bytes}
    (h : Mid max server pmce inm pz s st f payload 0 op base) (hfits : f.Fits) (a : Nat) (d e : Bytes) (hde : f.transform payload = d ++ e) (he : e ≠ []) (h0 : f.opcode ≠ 0) :
    ∃ t : Session Z, s.payload_part env a d = .stop t [] ∧ Mid max server pmce inm pz t st (f.rest d.length) (payload.drop d.length) 0 op base ∧ delivered t.trace = delivered s.trace := by
  have hlen : d.length < payload.length := by
    have := congrArg List.length hde
    rw [transform_length, List.length_append] at this
    have := List.length_pos_iff.2 he
    omega
  have hun := h.un
  rw [List.drop_zero, List.drop_zero, hde] at hun
  obtain ⟨u1, u2⟩ := unmask_split _ _ d e _ hun
  have hroom := h.room
  rw [List.length_append] at hroom
  have hs := payload_step s.parser a d h.est h.hd h.key (by rw [h.rem, h.empty, h.lim]; intro _; simp only [List.length_nil]; omega)
  rw [if_neg (show ¬ s.parser.frm_payload_rem ≤ d.length by rw [h.rem]; omega), List.drop_eq_nil_of_le (show d.length ≤ s.parser.frm_payload_rem by rw [h.rem]; omega),
    List.take_of_length_le (show d.length ≤ s.parser.frm_payload_rem by rw [h.rem]; omega), h.empty, List.nil_append, u1,
    Nat.min_eq_left (show d.length ≤ s.parser.frm_payload_rem by rw [h.rem]; omega), h.rem] at hs
  generalize hp : ({ s.parser with
      frm_header := if s.parser.frm_header.masked then { s.parser.frm_header with masking_key := rotN s.parser.frm_header.masking_key d.length } else s.parser.frm_header
      frm_payload := payload.take d.length
      frm_payload_rem := payload.length - d.length
      wsf := .header_done } : Parser) = p at hs
  have q1 : p.frm_header.opcode = f.opcode := by rw [← hp, ← h.opc]; simp only; split <;> rfl
  have q2 : p.wsf = .header_done := by rw [← hp]
  have q3 : p.frm_payload = payload.take d.length := by rw [← hp]
  obtain ⟨t, t1, t2, t3, t4, t5, t6, t7⟩ := combined_plain env max hq { s with parser := p } (by rw [← hp]; exact h.rsv) _ rfl (by
    simp only [q1, q3]
    split
    · simp only [List.nil_append, List.length_take, List.length_drop]; omega
    · rename_i h00
      exact absurd h0 h00)
  simp only [q1, q3] at t2 t3 t4 t6 t7
  have hnext : t.parser.next_frame = s.parser.next_frame := by rw [t3, ← hp]; rfl
  refine ⟨t, ?_, ?_, t6⟩
  · unfold Session.payload_part
    rw [hs]
    simp only
    rw [if_neg (by simp [Parser.error, q2]), if_pos (by rw [q1]; have := h.data; omega), t1]
    simp only
    rw [if_pos (by rw [t3]; simp [Parser.frame_payload_complete, q2])]
  · constructor
    · exact t7.trans h.hold
    · rw [t3, ← hp]; exact h.est
    · rw [t3]; exact q2
    · rw [t3]; exact q1
    · show _ = f.fin
      rw [t3, ← h.fin, ← hp]; simp only; split <;> rfl
    · rw [t3, ← hp]; simp only [List.length_drop]; omega
    · rw [t3]
    · rw [t3, ← hp]; exact h.lim
    · rw [t3, ← hp]; simp only
      split
      · exact rotN_lt _ _ h.key
      · exact h.key
    · rw [List.drop_zero, List.drop_zero, rest_transform f hfits payload _ (by omega), hde, List.drop_append_of_le_length (Nat.le_refl _), List.drop_eq_nil_of_le (Nat.le_refl _), List.nil_append, ← u2, t3, ← hp]
      cases hm : s.parser.frm_header.masked <;> simp [hm]
    · rw [hnext]; exact h.wait
    · rw [hnext]; exact h.srv
    · rw [hnext]; exact h.pm
    · rw [hnext]; exact h.after
    · rw [t3, ← hp]; exact h.mop
    · rw [t3, ← hp]; exact h.rsv
    · rw [t4]; exact h.open'
    · have := h.asm
      have h1 : ∀ P Q : Bytes, assemble1 st (f, P) = extend op base P f.fin → assemble1 st (f.rest d.length, Q) = extend op base Q f.fin := by
        intro P Q hP
        have hd := h.data
        have hb := (h.first h0).1
        subst hb
        have hop := h.mop
        have h12 : f.opcode = 1 ∨ f.opcode = 2 := by omega
        cases st with
        | closed => simp only [assemble1] at hP; unfold extend at hP; split at hP <;> simp at hP
        | idle =>
          simp only [assemble1] at hP ⊢
          rw [if_pos h12] at hP
          rw [if_pos (show (f.rest d.length).opcode = 1 ∨ (f.rest d.length).opcode = 2 from h12)]
          show extend f.opcode [] Q f.fin = _
          have : f.opcode = op := by
            unfold extend at hP
            cases hf : f.fin <;> rw [hf] at hP <;> simp at hP <;> exact hP
          rw [this]
        | inside =>
          simp only [assemble1] at hP ⊢
          rw [if_pos h12] at hP
          rw [if_pos (show (f.rest d.length).opcode = 1 ∨ (f.rest d.length).opcode = 2 from h12)]
          show extend f.opcode [] Q f.fin = _
          have : f.opcode = op := by
            unfold extend at hP
            cases hf : f.fin <;> rw [hf] at hP <;> simp at hP <;> exact hP
          rw [this]
      exact h1 _ _ this
    · simp only [List.length_append, List.length_drop]; omega
    · omega
    · intro hz; exact absurd hz h0
    · intro hz; exact ⟨(h.first h0).1, rfl⟩
    · exact h.data

/-- C15 is violated by every uncompressed message in one frame that is read in two parts: of its payload only what is in the second read is delivered, as if it were the whole message. -/
theorem C15_violated_cut {Z : Type} (env : Env Z) (s : Session Z) (max : Nat) (hq : Quiet env max) (hs : Waiting s.parser) (ho : s.closure_notified = false) (hi : inMessage s.parser = false)
    (hm : s.parser.max_message_length = max) (f : WsFrame) (payload : Bytes) (hx : Plain (f, payload)) (hl : f.Legal (isServer s.parser) (hasPmce s.parser) false) (hop : f.opcode = 1 ∨ f.opcode = 2) (hfin : f.fin = true)
    (hmax : payload.length ≤ max) (k : Nat) (hk : k < payload.length) (a b : Nat) :
    delivered ([Input.stream a (encode (toHeader f) ++ (f.transform payload).take k), .stream b ((f.transform payload).drop k)].foldl (Session.input env) s).trace = delivered s.trace ++ [.message f.opcode (payload.drop k)] := by
  have hl' : f.Legal (isServer s.parser) (hasPmce s.parser) (inMessage s.parser) := by rw [hi]; exact hl
  obtain ⟨op, base, m⟩ := mid_begin max s .idle ⟨hs, ho, hi⟩ (by simp) hm f payload hx hl' hmax (by omega)
  have h0 : f.opcode ≠ 0 := by omega
  have hb := (m.first h0).1
  subst hb
  have htl := transform_length f payload
  obtain ⟨t, t1, t2, t3⟩ := mid_lose env max hq m hx.fits a ((f.transform payload).take k) ((f.transform payload).drop k) (by simp)
    (by intro h; have := congrArg List.length h; rw [List.length_drop, htl] at this; simp only [List.length_nil] at this; omega) h0
  have hlen : ((f.transform payload).take k).length = k := by rw [List.length_take, htl]; omega
  rw [hlen] at t2
  obtain ⟨u, u1, u2, u3, u4, u5, u6, u7, u8⟩ := mid_end env max hq t2 b []
  rw [List.drop_zero, rest_transform f hx.fits payload k (by omega), List.append_nil] at u1
  have e1 : s.stream env a (encode (toHeader f) ++ (f.transform payload).take k) = (t, [], some false) := by
    rw [stream_eq, header_whole env s hs ho f hx.fits hl', t1]
  have e2 : t.stream env b ((f.transform payload).drop k) = u.stream env b [] := by
    rw [stream_eq]
    have : t.iterate env b ((f.transform payload).drop k) = .next u [] := by
      unfold Session.iterate
      rw [if_neg (by simp [Parser.error, t2.hd, t2.open']), if_neg (by simp [Parser.frame_header_complete, t2.hd])]
      simp only
      rw [if_pos (by simp [Parser.frame_payload_complete, t2.hd]), u1]
    rw [this]
  have hasm : assemble1 .idle (f.rest k, payload.drop k) = (.idle, [.message f.opcode (payload.drop k)]) := by
    simp only [assemble1]
    rw [if_pos (show (f.rest k).opcode = 1 ∨ (f.rest k).opcode = 2 from hop)]
    show extend f.opcode [] _ f.fin = _
    rw [hfin]
    rfl
  rw [hasm] at u2 u3
  obtain ⟨v1, v2, v3⟩ := u2
  have e3 : delivered (u.stream env b []).1.trace = delivered u.trace := by
    have f1 : u.parser.forget.wsf = u.parser.wsf := by unfold Parser.forget; split <;> rfl
    have hh : u.parser.parse_frame_header [] = .ok (u.parser.forget, []) := by
      unfold Parser.parse_frame_header
      rw [if_neg (by simp [v1.established]), if_neg (by simp [v1.new])]
    rw [stream_eq]
    have : u.iterate env b [] = .stop { u with parser := u.parser.forget } [] := by
      unfold Session.iterate
      rw [if_neg (by simp [Parser.error, v1.new, v2]), if_pos (by simp [Parser.frame_header_complete, v1.new])]
      rw [hh]
      simp only
      rw [if_neg (by simp [Parser.error, f1, v1.new]), if_pos (by simp [Parser.frame_header_complete, f1, v1.new])]
    rw [this]
  simp only [List.foldl_cons, List.foldl_nil]
  show delivered ((s.stream env a _).1.stream env b _).1.trace = _
  rw [e1, e2, e3, u3, t3]

/-- A message, masked. -/
def helloFrame : WsFrame := ⟨true, false, false, false, 1, some 0x01020304, 5⟩

example : Plain (helloFrame, b! "Hello") ∧ helloFrame.Legal true false false :=
  ⟨⟨⟨by decide, by intro k hk; simp only [helloFrame, Option.some.injEq] at hk; omega, by decide⟩, by decide, rfl, by decide⟩, by decide⟩

/-- "Hello", read as "He" and "llo", is delivered as "llo". -/
example : delivered ([Input.stream 0 (encode (toHeader helloFrame) ++ (helloFrame.transform (b! "Hello")).take 2), .stream 0 ((helloFrame.transform (b! "Hello")).drop 2)].foldl
      (Session.input quietEnv) freshSession).trace = [.message 1 (b! "llo")] := by decide +kernel

end Verif.Props
