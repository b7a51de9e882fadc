import Verif.Spec.WsCut
import Verif.Proofs.WsMixed
/-!
# Reads that end inside a frame
-/
namespace Verif.Props
open Verif Verif.Spec Verif.Ws

/-- A session that has received the header and part of the payload of a control frame goes on as one to which all of it is given at once. -/
theorem control_cut {Z : Type} (env : Env Z) (s : Session Z) (hs : Waiting s.parser) (ho : s.closure_notified = false) (f : WsFrame) (hf : f.Fits)
    (hl : f.Legal (isServer s.parser) (hasPmce s.parser) (inMessage s.parser)) (hmax : f.len ≤ s.parser.max_message_length) (hop : 8 ≤ f.opcode)
    (addr : Nat) (d : Bytes) (hd : d.length < f.len) :
    ∃ m : Session Z, s.stream env addr (encode (toHeader f) ++ d) = (m, [], some false) ∧ m.trace = s.trace ∧
      ∀ addr' y, m.stream env addr' y = s.stream env addr' (encode (toHeader f) ++ d ++ y) := by
  have hl' := hl
  rw [← inMessage_forget] at hl'
  have hr := ready_completed s.parser hs f hf
  generalize hp1 : completed s.parser.forget f = p1 at hr
  have h1 : ∀ r, s.parser.parse_frame_header (encode (toHeader f) ++ r) = .ok (p1, r) := by
    intro r; rw [← hp1]; exact parse_legal s.parser f hf r hs.established hs.new hl'
  have hopc : p1.frm_header.opcode = f.opcode := by rw [← hp1]; rfl
  have hiter : ∀ a r, s.iterate env a (encode (toHeader f) ++ r) = ({ s with parser := p1 } : Session Z).payload_part env a r := by
    intro a r
    unfold Session.iterate
    rw [if_neg (by simp [Parser.error, hs.new, ho]), if_pos (by simp [Parser.frame_header_complete, hs.new]), h1]
    simp only
    rw [if_neg (by simp [Parser.error, hr.header_done]), if_neg (by simp [Parser.frame_header_complete, hr.header_done]),
      if_pos (by simp [Parser.frame_payload_complete, hr.header_done])]
  have hstep : ∀ a r, p1.parse_frame_payload a r = _ := fun a r => payload_step p1 a r hr.established hr.header_done hr.keyFits
    (by rw [hr.rem, hr.empty, hr.max]; intro _; simp only [List.length_nil]; omega)
  have hd1 := hstep addr d
  rw [show d.drop p1.frm_payload_rem = [] from List.drop_eq_nil_of_le (by rw [hr.rem]; omega),
    if_neg (show ¬ p1.frm_payload_rem ≤ d.length by rw [hr.rem]; omega)] at hd1
  generalize hpm : ({ p1 with
      frm_header := if p1.frm_header.masked then { p1.frm_header with masking_key := rotN p1.frm_header.masking_key (min d.length p1.frm_payload_rem) } else p1.frm_header
      frm_payload := p1.frm_payload ++ (if p1.frm_header.masked then maskRec p1.frm_header.masking_key (d.take p1.frm_payload_rem) else d.take p1.frm_payload_rem)
      frm_payload_rem := p1.frm_payload_rem - d.length
      wsf := .header_done } : Parser) = pm at hd1
  have m1 : pm.wsf = .header_done := by rw [← hpm]
  have m2 : pm.frm_header.opcode = f.opcode := by rw [← hpm, ← hopc]; simp only; split <;> rfl
  refine ⟨{ s with parser := pm }, ?_, rfl, ?_⟩
  · rw [stream_eq, hiter]
    unfold Session.payload_part
    simp only
    rw [hd1]
    simp only
    rw [if_neg (by simp [Parser.error, m1]), if_neg (by rw [m2]; omega), if_pos (by simp [Parser.frame_payload_complete, m1])]
  · intro addr' y
    rw [stream_eq, stream_eq env addr' s, List.append_assoc, hiter]
    have hs2 := payload_stream p1 hr.established hr.header_done hr.keyFits addr addr' addr' d y
    rw [hd1] at hs2
    simp only [List.nil_append] at hs2
    have : ({ s with parser := pm } : Session Z).iterate env addr' y = ({ s with parser := p1 } : Session Z).payload_part env addr' (d ++ y) := by
      unfold Session.iterate
      rw [if_neg (by simp [Parser.error, m1, ho]), if_neg (by simp [Parser.frame_header_complete, m1])]
      simp only
      rw [if_pos (by simp [Parser.frame_payload_complete, m1])]
      unfold Session.payload_part
      simp only
      rw [hs2, hstep addr' (d ++ y)]
    rw [this]

/-- Whole frames at the beginning of a read. -/
theorem read_whole {Z : Type} (env : Env Z) (max : Nat) (hq : Quiet env max) (addr : Nat) (y : Bytes) (frames more : List Sent) :
    ∀ (s : Session Z) (st : MsgState) (z : Z), Agrees s st → st ≠ .closed → s.parser.max_message_length = max → Holds s z →
      Readable max (unpackMessage env.inflate_stream env.inflate_finish) z (frames ++ more) →
      LegalSequence (isServer s.parser) (hasPmce s.parser) (inMessage s.parser) (frames.map Sent.frame) →
      WithinLimit max st (frames.map Sent.meant) →
      ∃ (t : Session Z) (z' : Z), Agrees t (assemble st (frames.map Sent.meant)).1 ∧ delivered t.trace = delivered s.trace ++ (assemble st (frames.map Sent.meant)).2 ∧
        ((assemble st (frames.map Sent.meant)).1 = .closed → s.stream env addr (wire (frames.map Sent.raw) ++ y) = (t, [], some false)) ∧
        ((assemble st (frames.map Sent.meant)).1 ≠ .closed → s.stream env addr (wire (frames.map Sent.raw) ++ y) = t.stream env addr y ∧ t.parser.max_message_length = max ∧
          isServer t.parser = isServer s.parser ∧ hasPmce t.parser = hasPmce s.parser ∧
          inMessage t.parser = (frames.map Sent.frame).foldl WsFrame.after (inMessage s.parser) ∧ Holds t z' ∧
          Readable max (unpackMessage env.inflate_stream env.inflate_finish) z' more) := by
  induction frames with
  | nil =>
    intro s st z ha hst hm hz hr _ _
    exact ⟨s, z, ha, by simp [assemble], fun h => absurd h hst, fun _ => ⟨by simp [wire], hm, rfl, rfl, rfl, hz, hr⟩⟩
  | cons x rest ih =>
    intro s st z ha hst hm hz hr hl hw
    obtain ⟨t, z', t1, t2, tr, t3⟩ := sent_step env max hq s st ha hst hm z hz x (rest ++ more) hr hl.1 hw.1 addr (wire (rest.map Sent.raw) ++ y)
    have hwire : wire ((x :: rest).map Sent.raw) ++ y = encode (toHeader x.frame) ++ x.frame.transform x.payload ++ (wire (rest.map Sent.raw) ++ y) := by simp [wire, Sent.raw]
    rw [hwire, stream_eq]
    simp only [List.map_cons]
    by_cases hc : (assemble1 st x.meant).1 = .closed
    · rw [if_pos hc] at t3
      rw [t3]
      refine ⟨t, z, ?_, ?_, fun _ => rfl, fun h => absurd ?_ h⟩
      · simp only [assemble]; rw [hc, assemble_shut]; rw [hc] at t1; exact t1
      · simp only [assemble]; rw [hc, assemble_shut, t2]; simp
      · simp only [assemble]; rw [hc, assemble_shut]
    · rw [if_neg hc] at t3
      obtain ⟨t4, th, t5, t6, t7, t8⟩ := t3
      rw [t4]
      obtain ⟨u, z2, u1, u2, u3, u4⟩ := ih t (assemble1 st x.meant).1 z' t1 hc t5 th tr
        (by rw [t6, t7, t8]; exact hl.2) hw.2
      refine ⟨u, z2, u1, by rw [u2, t2]; simp [assemble], u3, fun h => ?_⟩
      · obtain ⟨v0, v1, v2, v3, v4, v5, v6⟩ := u4 h
        exact ⟨v0, v1, v2.trans t6, v3.trans t7, by rw [v4, t8]; rfl, v5, v6⟩

/-! ### Inside the payload of a data frame -/

/-- `k` bytes of the payload of a data frame have been received. -/
structure Mid {Z : Type} (max : Nat) (server pmce inm : Bool) (pz : Option Z) (s : Session Z) (st : MsgState) (f : WsFrame) (payload : Bytes) (k op : Nat) (base : Bytes) : Prop where
  hold : s.pmce.map Prod.fst = pz
  est : s.parser.established = true
  hd : s.parser.wsf = .header_done
  opc : s.parser.frm_header.opcode = f.opcode
  fin : s.parser.frm_header.fin = f.fin
  rem : s.parser.frm_payload_rem = payload.length - k
  empty : s.parser.frm_payload = []
  lim : s.parser.max_message_length = max
  key : s.parser.frm_header.masking_key < 2 ^ 32
  un : (if s.parser.frm_header.masked = true then maskRec s.parser.frm_header.masking_key ((f.transform payload).drop k) else (f.transform payload).drop k) = payload.drop k
  wait : Waiting s.parser.next_frame
  srv : isServer s.parser.next_frame = server
  pm : hasPmce s.parser.next_frame = pmce
  after : inMessage s.parser.next_frame = f.after inm
  mop : s.parser.m_opcode = op
  rsv : s.parser.m_rsv1 = false
  open' : s.closure_notified = false
  asm : assemble1 st (f, payload) = extend op base payload f.fin
  room : (base ++ payload).length ≤ max
  kle : k ≤ payload.length
  cont : f.opcode = 0 → s.m_msg = base ++ payload.take k
  first : f.opcode ≠ 0 → base = [] ∧ k = 0
  data : f.opcode = 0 ∨ f.opcode = 1 ∨ f.opcode = 2

theorem unmask_split (masked : Bool) (key : Nat) (d e P : Bytes) (h : (if masked = true then maskRec key (d ++ e) else d ++ e) = P) :
    (if masked = true then maskRec key d else d) = P.take d.length ∧ (if masked = true then maskRec (rotN key d.length) e else e) = P.drop d.length := by
  have hml : ∀ (a : Bytes) k, (maskRec k a).length = a.length := by
    intro a; induction a with
    | nil => intro k; rfl
    | cons x t ih => intro k; simp [maskRec, ih]
  cases masked with
  | false => simp only [Bool.false_eq_true, if_false] at h ⊢; rw [← h]; simp
  | true =>
    simp only [if_true] at h ⊢
    rw [← h, maskRec_append]
    constructor
    · rw [List.take_append_of_le_length (by rw [hml]; exact Nat.le_refl _), List.take_of_length_le (by rw [hml]; exact Nat.le_refl _)]
    · rw [List.drop_append_of_le_length (by rw [hml]; exact Nat.le_refl _), List.drop_eq_nil_of_le (by rw [hml]; exact Nat.le_refl _), List.nil_append]

/-- More of the payload, but not all. -/
theorem mid_more {Z : Type} (env : Env Z) (max : Nat) (hq : Quiet env max) {server pmce inm : Bool} {pz : Option Z} {s : Session Z} {st : MsgState} {f : WsFrame} {payload : Bytes} {k op : Nat} {base : Bytes}
    (h : Mid max server pmce inm pz s st f payload k op base) (a : Nat) (d e : Bytes) (hde : (f.transform payload).drop k = d ++ e) (he : e ≠ []) (h0 : f.opcode ≠ 0 → d = []) :
    ∃ t : Session Z, s.payload_part env a d = .stop t [] ∧ Mid max server pmce inm pz t st f payload (k + d.length) op base ∧ delivered t.trace = delivered s.trace := by
  have hlen : d.length < payload.length - k := by
    have := congrArg List.length hde
    rw [List.length_drop, transform_length, List.length_append] at this
    have := List.length_pos_iff.2 he
    omega
  have hun := h.un
  rw [hde] at hun
  obtain ⟨u1, u2⟩ := unmask_split _ _ d e _ hun
  have hroom := h.room
  rw [List.length_append] at hroom
  have hs := payload_step s.parser a d h.est h.hd h.key (by rw [h.rem, h.empty, h.lim]; intro _; simp only [List.length_nil]; omega)
  rw [if_neg (show ¬ s.parser.frm_payload_rem ≤ d.length by rw [h.rem]; omega), List.drop_eq_nil_of_le (show d.length ≤ s.parser.frm_payload_rem by rw [h.rem]; omega),
    List.take_of_length_le (show d.length ≤ s.parser.frm_payload_rem by rw [h.rem]; omega), h.empty, List.nil_append, u1,
    Nat.min_eq_left (show d.length ≤ s.parser.frm_payload_rem by rw [h.rem]; omega), h.rem] at hs
  generalize hp : ({ s.parser with
      frm_header := if s.parser.frm_header.masked then { s.parser.frm_header with masking_key := rotN s.parser.frm_header.masking_key d.length } else s.parser.frm_header
      frm_payload := (payload.drop k).take d.length
      frm_payload_rem := payload.length - k - d.length
      wsf := .header_done } : Parser) = p at hs
  have q1 : p.frm_header.opcode = f.opcode := by rw [← hp, ← h.opc]; simp only; split <;> rfl
  have q2 : p.wsf = .header_done := by rw [← hp]
  have q3 : p.frm_payload = (payload.drop k).take d.length := by rw [← hp]
  obtain ⟨t, t1, t2, t3, t4, t5, t6, t7⟩ := combined_plain env max hq { s with parser := p } (by rw [← hp]; exact h.rsv) _ rfl (by
    simp only [q1, q3]
    split
    · simp only [List.nil_append, List.length_take, List.length_drop]; omega
    · rename_i h00
      rw [h.cont (by omega)]
      simp only [List.length_append, List.length_take, List.length_drop]; omega)
  simp only [q1, q3] at t2 t3 t4 t6 t7
  have hnext : t.parser.next_frame = s.parser.next_frame := by rw [t3, ← hp]; rfl
  refine ⟨t, ?_, ?_, t6⟩
  · unfold Session.payload_part
    rw [hs]
    simp only
    rw [if_neg (by simp [Parser.error, q2]), if_pos (by rw [q1]; have := h.data; omega), t1]
    simp only
    rw [if_pos (by rw [t3]; simp [Parser.frame_payload_complete, q2])]
  · constructor
    · exact t7.trans h.hold
    · rw [t3, ← hp]; exact h.est
    · rw [t3]; exact q2
    · rw [t3]; exact q1
    · rw [t3, ← h.fin, ← hp]; simp only; split <;> rfl
    · rw [t3, ← hp]; simp only; omega
    · rw [t3]
    · rw [t3, ← hp]; exact h.lim
    · rw [t3, ← hp]; simp only
      split
      · exact rotN_lt _ _ h.key
      · exact h.key
    · rw [← List.drop_drop, hde, List.drop_append_of_le_length (Nat.le_refl _), List.drop_eq_nil_of_le (Nat.le_refl _), List.nil_append, ← List.drop_drop, ← u2, t3, ← hp]
      cases hm : s.parser.frm_header.masked <;> simp [hm]
    · rw [hnext]; exact h.wait
    · rw [hnext]; exact h.srv
    · rw [hnext]; exact h.pm
    · rw [hnext]; exact h.after
    · rw [t3, ← hp]; exact h.mop
    · rw [t3, ← hp]; exact h.rsv
    · rw [t4]; exact h.open'
    · exact h.asm
    · exact h.room
    · omega
    · intro hz
      rw [t2, if_neg (by omega), h.cont hz, List.append_assoc, List.take_add]
    · intro hz
      have := h.first hz
      refine ⟨this.1, ?_⟩
      rw [h0 hz, this.2]; rfl
    · exact h.data

/-- The rest of the payload. -/
theorem mid_end {Z : Type} (env : Env Z) (max : Nat) (hq : Quiet env max) {server pmce inm : Bool} {pz : Option Z} {s : Session Z} {st : MsgState} {f : WsFrame} {payload : Bytes} {k op : Nat} {base : Bytes}
    (h : Mid max server pmce inm pz s st f payload k op base) (a : Nat) (rest : Bytes) :
    ∃ t : Session Z, s.payload_part env a ((f.transform payload).drop k ++ rest) = .next t rest ∧ Agrees t (assemble1 st (f, payload)).1 ∧
      delivered t.trace = delivered s.trace ++ (assemble1 st (f, payload)).2 ∧ t.parser.max_message_length = max ∧ isServer t.parser = server ∧ hasPmce t.parser = pmce ∧
      inMessage t.parser = f.after inm ∧ t.pmce.map Prod.fst = pz := by
  have hkle := h.kle
  have hdl : ((f.transform payload).drop k).length = payload.length - k := by rw [List.length_drop, transform_length]
  have hroom := h.room
  rw [List.length_append] at hroom
  have hs := payload_step s.parser a ((f.transform payload).drop k ++ rest) h.est h.hd h.key (by rw [h.rem, h.empty, h.lim]; intro _; simp only [List.length_nil]; omega)
  rw [h.rem, if_pos (show payload.length - k ≤ ((f.transform payload).drop k ++ rest).length by rw [List.length_append]; omega), ← hdl,
    List.drop_append_of_le_length (Nat.le_refl _), List.drop_eq_nil_of_le (Nat.le_refl _), List.nil_append,
    List.take_append_of_le_length (Nat.le_refl _), List.take_of_length_le (Nat.le_refl _), h.empty, List.nil_append, h.un] at hs
  generalize hp : ({ s.parser with
      frm_header := if s.parser.frm_header.masked then { s.parser.frm_header with masking_key := rotN s.parser.frm_header.masking_key (min ((f.transform payload).drop k ++ rest).length ((f.transform payload).drop k).length) } else s.parser.frm_header
      frm_payload := payload.drop k
      frm_payload_rem := ((f.transform payload).drop k).length - ((f.transform payload).drop k ++ rest).length
      wsf := .payload_done } : Parser) = p at hs
  have q1 : p.frm_header.opcode = f.opcode := by rw [← hp, ← h.opc]; simp only; split <;> rfl
  have q2 : p.wsf = .payload_done := by rw [← hp]
  have q3 : p.frm_payload = payload.drop k := by rw [← hp]
  have q4 : p.frm_header.fin = f.fin := by rw [← hp, ← h.fin]; simp only; split <;> rfl
  obtain ⟨t, t1, t2, t3, t4, t5, t6, t7⟩ := combined_plain env max hq { s with parser := p } (by rw [← hp]; exact h.rsv) _ rfl (by
    simp only [q1, q3]
    split
    · simp only [List.nil_append, List.length_drop]; omega
    · rename_i h00
      rw [h.cont (by omega)]
      simp only [List.length_append, List.length_take, List.length_drop]; omega)
  simp only [q1, q3] at t2 t3 t4 t6 t7
  have hmsg : t.m_msg = base ++ payload := by
    rw [t2]
    split
    · rename_i h00
      rw [(h.first h00).1, (h.first h00).2]; rfl
    · rename_i h00
      rw [h.cont (by omega), List.append_assoc, List.take_append_drop]
  have hnext : t.parser.next_frame = s.parser.next_frame := by rw [t3, ← hp]; rfl
  have e1 : t.parser.frm_header.fin = f.fin := by rw [t3]; exact q4
  have e2 : t.parser.frm_header.opcode = f.opcode := by rw [t3]; exact q1
  have e3 : t.parser.m_opcode = op := by rw [t3, ← hp]; exact h.mop
  have e4 : t.parser.m_rsv1 = false := by rw [t3, ← hp]; exact h.rsv
  have hmx : t.parser.next_frame.max_message_length = max := by rw [hnext]; exact h.lim
  have hin : inMessage t.parser.next_frame = !f.fin := by
    rw [hnext, h.after]; unfold WsFrame.after; rw [if_neg (by have := h.data; omega)]
  have hpart : s.payload_part env a ((f.transform payload).drop k ++ rest) = t.frame_done env rest := by
    unfold Session.payload_part
    rw [hs]
    simp only
    rw [if_neg (by simp [Parser.error, q2]), if_pos (by rw [q1]; have := h.data; omega), t1]
    simp only
    rw [if_neg (by rw [t3]; simp [Parser.frame_payload_complete, q2])]
  rw [hpart, h.asm]
  unfold Session.frame_done
  simp only
  rw [e1, e2]
  cases hf : f.fin with
  | false =>
    simp only [Bool.not_false, if_true, extend, Bool.false_eq_true, if_false]
    refine ⟨{ t with parser := t.parser.next_frame }, rfl, ⟨by simp only [hnext]; exact h.wait, t4.trans h.open', by simp only [hin, hf]; rfl, e3, e4, hmsg⟩, by simp [t6], hmx, ?_⟩
    exact ⟨by simp only [hnext]; exact h.srv, by simp only [hnext]; exact h.pm, by simp only [hnext]; exact h.after, t7.trans h.hold⟩
  | true =>
    simp only [Bool.not_true, Bool.false_eq_true, if_false, extend, if_true]
    rw [if_pos (show f.opcode = 0 ∨ f.opcode = 1 ∨ f.opcode = 2 from h.data), e3]
    cases hfi : env.on_finish t.trace op t.m_msg with
    | none => exact absurd hfi (hq.finish _ _ _)
    | some left =>
      simp only
      refine ⟨{ t.push (.finish op t.m_msg) with m_msg := left, parser := t.parser.next_frame }, rfl, ⟨by simp only [hnext]; exact h.wait, t4.trans h.open', by simp only [hin, hf]; rfl⟩, ?_, hmx, ?_⟩
      · have : delivered (t.push (.finish op t.m_msg)).trace = delivered t.trace ++ [.message op t.m_msg] := by
          simp [Session.push, delivered]
        simp only
        rw [this, t6, hmsg]
      · exact ⟨by simp only [hnext]; exact h.srv, by simp only [hnext]; exact h.pm, by simp only [hnext]; exact h.after, t7.trans h.hold⟩

/-- The header of a frame, then what follows. -/
theorem header_whole {Z : Type} (env : Env Z) (s : Session Z) (hs : Waiting s.parser) (ho : s.closure_notified = false) (f : WsFrame) (hf : f.Fits)
    (hl : f.Legal (isServer s.parser) (hasPmce s.parser) (inMessage s.parser)) (a : Nat) (r : Bytes) :
    s.iterate env a (encode (toHeader f) ++ r) = ({ s with parser := completed s.parser.forget f } : Session Z).payload_part env a r := by
  rw [← inMessage_forget] at hl
  unfold Session.iterate
  rw [if_neg (by simp [Parser.error, hs.new, ho]), if_pos (by simp [Parser.frame_header_complete, hs.new]),
    parse_legal s.parser f hf r hs.established hs.new hl]
  simp only
  rw [if_neg (by simp [completed, Parser.error]), if_neg (by simp [completed, Parser.frame_header_complete]),
    if_pos (by simp [completed, Parser.frame_payload_complete])]

/-- After the header of a data frame. -/
theorem mid_begin {Z : Type} (max : Nat) (s : Session Z) (st : MsgState) (ha : Agrees s st) (hst : st ≠ .closed) (hmaxp : s.parser.max_message_length = max)
    (f : WsFrame) (payload : Bytes) (hx : Plain (f, payload)) (hl : f.Legal (isServer s.parser) (hasPmce s.parser) (inMessage s.parser))
    (hw : Room max st (f, payload)) (hop : f.opcode < 8) :
    ∃ op base, Mid max (isServer s.parser) (hasPmce s.parser) (inMessage s.parser) (s.pmce.map Prod.fst) { s with parser := completed s.parser.forget f } st f payload 0 op base := by
  obtain ⟨hfits, hlen, hrsv, _⟩ := hx
  simp only at hfits hlen hrsv
  have hwait : Waiting s.parser := by cases st with | idle => exact ha.1 | inside => exact ha.1 | closed => exact absurd rfl hst
  have hopen : s.closure_notified = false := by cases st with | idle => exact ha.2.1 | inside => exact ha.2.1 | closed => exact absurd rfl hst
  have hd : f.opcode = 0 ∨ f.opcode = 1 ∨ f.opcode = 2 := by rcases hl.2 with h | h | h <;> omega
  have hr := ready_completed s.parser hwait f hfits
  obtain ⟨w1, w2, w3, w4, w5, w6, w7⟩ := waiting_next s.parser hwait f hfits.opcode hl
  have hin0 : f.opcode = 0 → inMessage s.parser = true := by
    intro h0
    rcases hl.2 with h | h | h
    · omega
    · exact h.2.1
    · omega
  have hrs : (completed s.parser.forget f).m_rsv1 = false := by
    show (note s.parser.forget f).m_rsv1 = false
    unfold note
    by_cases hf : f.opcode = 1 ∨ f.opcode = 2
    · rw [if_pos hf]; exact hrsv
    · rw [if_neg hf, if_pos (by omega)]
      have : s.parser.forget.m_rsv1 = false := by
        have hin := hin0 (by omega)
        cases st with
        | idle => have := ha.2.2; rw [this] at hin; simp at hin
        | inside op b =>
          have hr := ha.2.2.2.2.1
          unfold Parser.forget; split
          · rfl
          · exact hr
        | closed => exact absurd rfl hst
      split <;> exact this
  have hun : (if (completed s.parser.forget f).frm_header.masked = true then maskRec (completed s.parser.forget f).frm_header.masking_key ((f.transform payload).drop 0)
      else (f.transform payload).drop 0) = payload.drop 0 := by
    simp only [List.drop_zero, hr.masked]
    unfold WsFrame.transform
    cases hk : f.key with
    | none => simp
    | some k =>
      have hk' := hfits.key k hk
      simp only [Option.isSome_some, if_true, hr.key k hk]
      rw [← maskRec_eq _ _ hk', maskRec_maskRec]
  have hbase : ∃ op base, (f.opcode = 0 → s.m_msg = base) ∧ (f.opcode ≠ 0 → base = []) ∧ (base ++ payload).length ≤ max ∧
      (completed s.parser.forget f).m_opcode = op ∧ assemble1 st (f, payload) = extend op base payload f.fin := by
    by_cases h0 : f.opcode = 0
    · have hin := hin0 h0
      cases st with
      | idle => have := ha.2.2; rw [this] at hin; simp at hin
      | closed => exact absurd rfl hst
      | inside op b =>
        have hb := ha.2.2.2.2.2
        have ho := ha.2.2.2.1
        refine ⟨op, b, fun _ => hb, fun h => absurd h0 h, ?_, ?_, ?_⟩
        · simp only [Room, h0, if_true] at hw; simpa using hw
        · rw [w6, if_pos (.inl h0)]
          have : s.parser.m_fin = false := by unfold inMessage at hin; simp at hin; exact hin.2
          rw [show s.parser.forget = s.parser by unfold Parser.forget; rw [if_neg (by simp [this])]]
          exact ho
        · simp only [assemble1]
          rw [if_neg (by omega), if_pos h0]
    · refine ⟨f.opcode, [], fun h => absurd h h0, fun _ => rfl, ?_, ?_, ?_⟩
      · simp only [List.nil_append]
        cases st with
        | idle => exact hw
        | inside op b => simp only [Room] at hw; omega
        | closed => exact absurd rfl hst
      · rw [w6, if_neg (by omega)]
      · have h12 : f.opcode = 1 ∨ f.opcode = 2 := by omega
        cases st with
        | idle => simp only [assemble1]; rw [if_pos h12]
        | inside => simp only [assemble1]; rw [if_pos h12]
        | closed => exact absurd rfl hst
  obtain ⟨op, base, b1, b2, b3, b4, b5⟩ := hbase
  exact ⟨op, base, {
    hold := rfl, est := hr.established, hd := hr.header_done, opc := rfl, fin := rfl, rem := by simp only [hr.rem, hlen]; omega, empty := hr.empty, lim := hr.max.trans hmaxp
    key := hr.keyFits, un := hun, wait := w1, srv := w2, pm := w3, after := w4, mop := b4, rsv := hrs, open' := hopen, asm := b5, room := b3, kle := Nat.zero_le _
    cont := fun h => by simp [b1 h], first := fun h => ⟨b2 h, rfl⟩, data := hd }⟩

/-! ### Histories -/

/-- The pieces, each with the address it is stored at, in which the rest of the frames is read. -/
inductive Pieces : Bytes → List Sent → List (Nat × Bytes) → Prop
  | nil : Pieces [] [] []
  | read (pre pre' y : Bytes) (a : Nat) (done more : List Sent) (rest : List (Nat × Bytes)) :
    pre ++ y = wire (done.map Sent.raw) ++ pre' → Begun pre' (more.map Sent.raw) → Pieces pre' more rest → Pieces pre (done ++ more) ((a, y) :: rest)

/-- What is known after `pre`. -/
inductive At {Z : Type} (env : Env Z) (max : Nat) (c : Session Z) (pre : Bytes) (st : MsgState) (frames : List Sent) : Prop
  | over (h : st = .closed) (h2 : c.closure_notified = true)
  | on (s0 : Session Z) (z : Z) (hst : st ≠ .closed) (agrees : Agrees s0 st) (lim : s0.parser.max_message_length = max)
    (legal : LegalSequence (isServer s0.parser) (hasPmce s0.parser) (inMessage s0.parser) (frames.map Sent.frame)) (hz : Holds s0 z)
    (hr : Readable max (unpackMessage env.inflate_stream env.inflate_finish) z frames)
    (same : delivered c.trace = delivered s0.trace) (on : ∀ a y, c.stream env a y = s0.stream env a (pre ++ y))
  | mid (f : WsFrame) (payload : Bytes) (more : List Sent) (k op : Nat) (base : Bytes) (server pmce inm : Bool) (pz : Option Z) (z : Z) (hfr : frames = ⟨f, payload, payload⟩ :: more)
    (m : Mid max server pmce inm pz c st f payload k op base) (legal : LegalSequence server pmce inm (frames.map Sent.frame)) (hz : pmce = true → pz = some z)
    (hr : Readable max (unpackMessage env.inflate_stream env.inflate_finish) z more)
    (hpre : pre = encode (toHeader f) ++ (f.transform payload).take k) (hk : k < payload.length)

theorem over_input {Z : Type} (env : Env Z) (s : Session Z) (h : s.closure_notified = true) (a : Nat) (y : Bytes) : s.stream env a y = (s, [], some false) := by
  rw [stream_eq]
  have : s.iterate env a y = .stop s [] := by
    unfold Session.iterate; rw [if_pos (by rw [h]; simp)]
  rw [this]

/-- No read ends with an exception. -/
def Calm {Z : Type} (env : Env Z) : Session Z → List (Nat × Bytes) → Prop
  | _, [] => True
  | s, r :: rest => (s.stream env r.1 r.2).2.2 = some false ∧ Calm env (s.stream env r.1 r.2).1 rest

theorem begin_read {Z : Type} (env : Env Z) (max : Nat) (hq : Quiet env max) (a : Nat) (done more : List Sent) (pre : Bytes) (hb : Begun pre (more.map Sent.raw))
    (s : Session Z) (st : MsgState) (z : Z) (ha : Agrees s st) (hst : st ≠ .closed) (hm : s.parser.max_message_length = max) (hz : Holds s z)
    (hr : Readable max (unpackMessage env.inflate_stream env.inflate_finish) z (done ++ more))
    (hl : LegalSequence (isServer s.parser) (hasPmce s.parser) (inMessage s.parser) ((done ++ more).map Sent.frame)) (hw : WithinLimit max st ((done ++ more).map Sent.meant)) :
    At env max (s.stream env a (wire (done.map Sent.raw) ++ pre)).1 pre (assemble st (done.map Sent.meant)).1 more ∧
      delivered (s.stream env a (wire (done.map Sent.raw) ++ pre)).1.trace = delivered s.trace ++ (assemble st (done.map Sent.meant)).2 ∧
      (s.stream env a (wire (done.map Sent.raw) ++ pre)).2.2 = some false := by
  rw [List.map_append, legal_append] at hl
  rw [List.map_append, within_append] at hw
  obtain ⟨t, z', t1, t2, t3, t4⟩ := read_whole env max hq a pre done more s st z ha hst hm hz hr hl.1 hw.1
  by_cases hc : (assemble st (done.map Sent.meant)).1 = .closed
  · refine ⟨.over hc ?_, by rw [t3 hc, t2], by rw [t3 hc]⟩
    rw [t3 hc]
    rw [hc] at t1; exact t1
  · obtain ⟨v0, v1, v2, v3, v4, vh, vr⟩ := t4 hc
    rw [v0]
    have hl2 : LegalSequence (isServer t.parser) (hasPmce t.parser) (inMessage t.parser) (more.map Sent.frame) := by rw [v2, v3, v4]; exact hl.2
    have hopen : Waiting t.parser ∧ t.closure_notified = false := by
      cases hstt : (assemble st (done.map Sent.meant)).1 with
      | idle => rw [hstt] at t1; exact ⟨t1.1, t1.2.1⟩
      | inside => rw [hstt] at t1; exact ⟨t1.1, t1.2.1⟩
      | closed => exact absurd hstt hc
    rcases hb with rfl | ⟨x, more', hx, k, hk, rfl, hk0⟩
    · obtain ⟨u, z2, u1, u2, u3, ur, u4⟩ := sent_read env max hq a [] more t _ z' t1 (fun _ => v1) (fun _ => vh) vr (fun _ => trivial) trivial
      simp only [List.map_nil, assemble] at u2 u3 u4
      rw [List.map_nil, show wire [] = [] from rfl] at u1
      rw [u1]
      obtain ⟨w1, wh, w2, w3, w4⟩ := u4 hc
      exact ⟨.on u z2 hc u2 w1 (by rw [w2, w3, w4]; exact hl2) wh ur rfl (fun _ _ => rfl), by simp only; rw [u3, t2]; simp, rfl⟩
    · cases more with
      | nil => simp at hx
      | cons x0 more0 =>
      simp only [List.map_cons, List.cons.injEq] at hx
      obtain ⟨rfl, -⟩ := hx
      obtain ⟨f, payload, text⟩ := x0
      simp only [Sent.raw] at hk hk0 ⊢
      have hrsv : f.rsv1 = false := by
        rcases hl2.1.2 with h | h | h
        · exact (hk0 h.1).2
        · exact h.2.2.1
        · exact h.2.2.2.1
      obtain ⟨r1, r2, r3, r4⟩ := vr
      simp only [hrsv, Bool.false_eq_true, if_false] at r1 r2 r3 r4
      obtain ⟨rfl, r4⟩ := r4
      have hx : Plain (f, text) := ⟨r1, r2, hrsv, r3⟩
      have hroom : Room max (assemble st (done.map Sent.meant)).1 (f, text) := hw.2.1
      have hlen : ((f.transform text).take k).length < f.len := by
        rw [List.length_take, transform_length]; omega
      have hfit : f.len ≤ t.parser.max_message_length := by
        rw [v1, ← r2]
        cases hstt : (assemble st (done.map Sent.meant)).1 with
        | idle => rw [hstt] at hroom; exact hroom
        | inside op b => rw [hstt] at hroom; simp only [Room] at hroom; omega
        | closed => exact absurd hstt hc
      by_cases hop : 8 ≤ f.opcode
      · obtain ⟨m, m1, m2, m3⟩ := control_cut env t hopen.1 hopen.2 f r1 hl2.1 hfit hop a _ hlen
        rw [m1]
        refine ⟨.on t z' hc t1 v1 hl2 vh ?_ (by rw [m2]) m3, by simp only; rw [m2, t2], rfl⟩
        exact ⟨r1, r2, r3, by simp only [hrsv, Bool.false_eq_true, if_false]; exact ⟨trivial, r4⟩⟩
      · obtain ⟨op, base, hmid⟩ := mid_begin max t _ t1 hc v1 f text hx hl2.1 hroom (by omega)
        obtain ⟨u, u1, u2, u3⟩ := mid_more env max hq hmid a ((f.transform text).take k) ((f.transform text).drop k) (by simp)
          (by intro h; have := congrArg List.length h; rw [List.length_drop, transform_length] at this; simp only [List.length_nil] at this; omega)
          (by
            intro h0
            rw [(hk0 (by have := hmid.data; omega)).1]; rfl)
        rw [stream_eq, header_whole env t hopen.1 hopen.2 f r1 hl2.1, u1]
        have hkl : 0 + ((f.transform text).take k).length = k := by
          rw [List.length_take, transform_length]; omega
        rw [hkl] at u2
        exact ⟨.mid f text more0 k op base _ _ _ _ z' rfl u2 hl2 vh r4 rfl hk, by simp only; rw [u3, t2], rfl⟩

theorem over_inputs {Z : Type} (env : Env Z) (s : Session Z) (h : s.closure_notified = true) : ∀ reads : List (Nat × Bytes),
    (reads.map (fun r => Input.stream r.1 r.2)).foldl (Session.input env) s = s ∧ Calm env s reads
  | [] => ⟨rfl, trivial⟩
  | r :: t => by
    rw [List.map_cons, List.foldl_cons]
    have h1 := over_input env s h r.1 r.2
    rw [show Session.input env s (.stream r.1 r.2) = s by show (s.stream env r.1 r.2).1 = s; rw [h1]]
    refine ⟨(over_inputs env s h t).1, ?_⟩
    unfold Calm
    rw [h1]
    exact ⟨rfl, (over_inputs env s h t).2⟩

theorem pieces_run {Z : Type} (env : Env Z) (max : Nat) (hq : Quiet env max) {pre : Bytes} {frames : List Sent} {reads : List (Nat × Bytes)}
    (h : Pieces pre frames reads) : ∀ (c : Session Z) (st : MsgState), At env max c pre st frames → WithinLimit max st (frames.map Sent.meant) →
      delivered ((reads.map (fun r => Input.stream r.1 r.2)).foldl (Session.input env) c).trace = delivered c.trace ++ (assemble st (frames.map Sent.meant)).2 ∧ Calm env c reads := by
  induction h with
  | nil => intro c st _ _; simp [assemble, Calm]
  | read pre pre' y a done more rest heq hb _ ih =>
    intro c st hat hw
    cases hat with
    | over h1 h2 => rw [(over_inputs env c h2 _).1, h1, assemble_shut]; exact ⟨by simp, (over_inputs env c h2 _).2⟩
    | on s0 z hst ha hlim hl hz hr hsame hon =>
      obtain ⟨b1, b2, b3⟩ := begin_read env max hq a done more pre' hb s0 st z ha hst hlim hz hr hl hw
      rw [List.map_cons, List.foldl_cons]
      have hf : Session.input env c (.stream a y) = (s0.stream env a (wire (done.map Sent.raw) ++ pre')).1 := by
        show (c.stream env a y).1 = _; rw [hon, heq]
      rw [List.map_append] at hw
      obtain ⟨i1, i2⟩ := ih _ _ b1 ((within_append _ _ _ _).1 hw).2
      rw [hf, i1, b2, hsame, List.map_append, assemble_append]
      refine ⟨by simp, ?_⟩
      unfold Calm
      simp only
      rw [hon, heq]
      exact ⟨b3, i2⟩
    | mid f payload more0 k op base server pmce inm pz z hfr m hl hz hr hpre hk =>
      have hiter : c.stream env a y = match c.payload_part env a y with
          | .next s d => s.stream env a d
          | .stop s d => (s, d, some false)
          | .throw s d => (s, d, some true) := by
        rw [stream_eq]
        have : c.iterate env a y = c.payload_part env a y := by
          unfold Session.iterate
          rw [if_neg (by simp [Parser.error, m.hd, m.open']), if_neg (by simp [Parser.frame_header_complete, m.hd])]
          simp only
          rw [if_pos (by simp [Parser.frame_payload_complete, m.hd])]
        rw [this]
        cases c.payload_part env a y <;> rfl
      have hfeed : Session.input env c (.stream a y) = (c.stream env a y).1 := rfl
      have htl := transform_length f payload
      rw [List.map_cons, List.foldl_cons, hfeed]
      cases done with
      | nil =>
        simp only [List.nil_append] at hfr hl hw ⊢
        subst hfr
        rw [List.map_nil, show wire [] = [] from rfl, List.nil_append] at heq
        rcases hb with h0 | ⟨x, more', hx, k', hk', hpre', hk0⟩
        · rw [h0, hpre, encode_eq] at heq; simp at heq
        · simp only [List.map_cons, List.cons.injEq] at hx
          rw [← hx.1] at hpre' hk' hk0
          simp only [Sent.raw] at hpre' hk' hk0
          rw [hpre', hpre, List.append_assoc] at heq
          have heq := List.append_cancel_left heq
          have hlen : k' = k + y.length := by
            have := congrArg List.length heq
            simp only [List.length_append, List.length_take, htl] at this
            omega
          have hdrop : (f.transform payload).drop k = y ++ (f.transform payload).drop k' := by
            have h1 : f.transform payload = (f.transform payload).take k ++ (y ++ (f.transform payload).drop k') := by
              rw [← List.append_assoc, heq, List.take_append_drop]
            have h2 := List.take_append_drop k (f.transform payload)
            exact List.append_cancel_left (h2.trans h1)
          obtain ⟨u, u1, u2, u3⟩ := mid_more env max hq m a y ((f.transform payload).drop k') hdrop
            (by intro h; have := congrArg List.length h; rw [List.length_drop, transform_length] at this; simp only [List.length_nil] at this; omega)
            (by
              intro h0
              have := (hk0 (by have := m.data; omega)).1
              exact List.length_eq_zero_iff.1 (by omega))
          unfold Calm
          simp only
          rw [hiter, u1]
          simp only
          rw [← hlen] at u2
          obtain ⟨i1, i2⟩ := ih u st (.mid f payload more0 k' op base server pmce inm pz z rfl u2 hl hz hr hpre' hk') hw
          rw [i1, u3]
          exact ⟨rfl, trivial, i2⟩
      | cons x done' =>
        simp only [List.cons_append, List.cons.injEq] at hfr
        obtain ⟨rfl, rfl⟩ := hfr
        have hy : y = (f.transform payload).drop k ++ (wire (done'.map Sent.raw) ++ pre') := by
          have hwire : wire (((⟨f, payload, payload⟩ : Sent) :: done').map Sent.raw) ++ pre' = encode (toHeader f) ++ (f.transform payload ++ (wire (done'.map Sent.raw) ++ pre')) := by simp [wire, Sent.raw]
          rw [hwire, hpre, List.append_assoc] at heq
          have heq := List.append_cancel_left heq
          conv at heq => rhs; rw [← List.take_append_drop k (f.transform payload), List.append_assoc]
          exact List.append_cancel_left heq
        obtain ⟨t, t1, t2, t3, t4, t5, t6, t7, t8⟩ := mid_end env max hq m a (wire (done'.map Sent.raw) ++ pre')
        have hnc : (assemble1 st (f, payload)).1 ≠ .closed := by rw [m.asm]; unfold extend; split <;> simp
        have hw2 : WithinLimit max (assemble1 st (f, payload)).1 ((done' ++ more).map Sent.meant) := hw.2
        obtain ⟨b1, b2, b3⟩ := begin_read env max hq a done' more pre' hb t _ z t2 hnc t4 (fun h => by rw [t8]; exact hz (by rw [← t6]; exact h)) hr
          (by rw [t5, t6, t7]; exact hl.2) hw2
        rw [List.map_append] at hw2
        obtain ⟨i1, i2⟩ := ih _ _ b1 ((within_append _ _ _ _).1 hw2).2
        unfold Calm
        simp only
        rw [hiter, hy, t1]
        simp only
        rw [i1, b2, t3]
        exact ⟨by simp [assemble, assemble_append, Sent.meant], b3, i2⟩

theorem begun_short {pre : Bytes} {x : WsFrame × Bytes} {more : List (WsFrame × Bytes)} (h : Begun pre (x :: more)) : pre.length < (wire [x]).length := by
  have hw : (wire [x]).length = (encode (toHeader x.1)).length + x.2.length := by simp [wire, transform_length]
  have he : 2 ≤ (encode (toHeader x.1)).length := by rw [encode_eq]; simp
  rw [hw]
  rcases h with rfl | ⟨z, more', hz, k, hk, rfl, _⟩
  · simp only [List.length_nil]; omega
  · simp only [List.cons.injEq] at hz
    rw [← hz.1] at hk ⊢
    simp only [List.length_append, List.length_take]
    omega

theorem wire_append (a b : List (WsFrame × Bytes)) : wire (a ++ b) = wire a ++ wire b := by simp [wire]

theorem pieces_of {frames : List Sent} : ∀ (reads : List (Nat × Bytes)) (done more : List Sent) (pre : Bytes), frames = done ++ more → Begun pre (more.map Sent.raw) →
    wire (done.map Sent.raw) ++ pre ++ (reads.map Prod.snd).flatten = wire (frames.map Sent.raw) →
    (∀ n, MayEnd (frames.map Sent.raw) (wire (done.map Sent.raw) ++ pre ++ ((reads.take n).map Prod.snd).flatten)) → Pieces pre more reads
  | [], done, more, pre, hfr, hb, hall, _ => by
    rw [hfr, List.map_append, wire_append] at hall
    simp only [List.map_nil, List.flatten_nil, List.append_nil] at hall
    have hall := List.append_cancel_left hall
    cases more with
    | nil => rw [hall]; exact .nil
    | cons x m =>
      rw [List.map_cons] at hb hall
      have := begun_short hb
      rw [hall, show x.raw :: m.map Sent.raw = [x.raw] ++ m.map Sent.raw from rfl, wire_append, List.length_append] at this
      omega
  | (a, y) :: rest, done, more, pre, hfr, hb, hall, hc => by
    obtain ⟨done1', more1', pre1, h1', h2, h3⟩ := hc 1
    obtain ⟨done1, more1, h1, rfl, rfl⟩ := List.map_eq_append_iff.1 h1'
    simp only [List.take_succ_cons, List.take_zero, List.map_cons, List.map_nil, List.flatten_cons, List.flatten_nil, List.append_nil] at h2
    rw [hfr] at h1
    have hnext : ∀ D, done1 = done ++ D → more = D ++ more1 → Pieces pre more ((a, y) :: rest) := by
      rintro D rfl rfl
      have hpy : pre ++ y = wire (D.map Sent.raw) ++ pre1 := by
        rw [List.map_append, wire_append, List.append_assoc, List.append_assoc] at h2
        exact List.append_cancel_left h2
      refine .read pre pre1 y a D more1 rest hpy h3 (pieces_of (frames := frames) rest (done ++ D) more1 pre1 (by rw [hfr]; simp) h3 ?_ ?_)
      · rw [← hall, ← h2]; simp
      · intro n
        have := hc (n + 1)
        rw [← h2]
        simpa using this
    rcases List.append_eq_append_iff.1 h1 with ⟨D, d1, d2⟩ | ⟨D, d1, d2⟩
    · exact hnext D d1 d2
    · cases D with
      | nil => exact hnext [] (by simpa using d1.symm) (by simpa using d2.symm)
      | cons x D =>
        subst d2
        rw [List.cons_append, List.map_cons] at h3
        have := begun_short h3
        rw [d1, List.map_append, wire_append, List.map_cons, show x.raw :: D.map Sent.raw = [x.raw] ++ D.map Sent.raw from rfl, wire_append] at h2
        have l := congrArg List.length h2
        simp only [List.length_append] at l
        omega

/-- Reads with the addresses of their buffers. -/
def placed (addr : Nat → Nat) : Nat → List Bytes → List (Nat × Bytes)
  | _, [] => []
  | n, b :: t => (addr (n + 1), b) :: placed addr (n + 1) t

theorem placed_snd (addr : Nat → Nat) : ∀ (bs : List Bytes) (n : Nat), (placed addr n bs).map Prod.snd = bs
  | [], _ => rfl
  | b :: t, n => by simp [placed, placed_snd addr t]

/-- Such reads, by a session that is between two frames. -/
theorem placed_run {Z : Type} (env : Env Z) (max : Nat) (hq : Quiet env max) (s : Session Z) (hs : Waiting s.parser) (ho : s.closure_notified = false) (hi : inMessage s.parser = false)
    (hm : s.parser.max_message_length = max) (z : Z) (hz : Holds s z) (frames : List Sent) (hr : Readable max (unpackMessage env.inflate_stream env.inflate_finish) z frames)
    (hl : LegalSequence (isServer s.parser) (hasPmce s.parser) false (frames.map Sent.frame)) (hw : WithinLimit max .idle (frames.map Sent.meant)) (addr : Nat → Nat) (n : Nat) (bs : List Bytes)
    (hall : bs.flatten = wire (frames.map Sent.raw)) (hc : ∀ k, MayEnd (frames.map Sent.raw) (bs.take k).flatten) :
    delivered (((placed addr n bs).map (fun r => Input.stream r.1 r.2)).foldl (Session.input env) s).trace = delivered s.trace ++ (assemble .idle (frames.map Sent.meant)).2 ∧ Calm env s (placed addr n bs) :=
  pieces_run env max hq (pieces_of (placed addr n bs) [] frames [] rfl (.inl rfl) (by rw [placed_snd]; simpa [wire] using hall) (fun k => by rw [List.map_take, placed_snd]; simpa [wire] using hc k)) s .idle
    (.on s z (by simp) ⟨hs, ho, hi⟩ hm (by rw [hi]; exact hl) hz hr rfl (fun _ _ => rfl)) hw

end Verif.Props
