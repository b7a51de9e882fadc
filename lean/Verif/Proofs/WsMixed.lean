import Verif.Props.WsSession
import Verif.Spec.WsMixed
/-!
# Reads of frames some of which have compressed messages
-/
namespace Verif.Props
open Verif.Ws Verif.Spec

/-- Frames as they are on the wire. -/
def onWire (xs : List Sent) : Bytes := wire (xs.map Sent.raw)

/-- The decompressor of the session, if it has one, is in state `z`. -/
def Holds {Z : Type} (s : Session Z) (z : Z) : Prop := hasPmce s.parser = true → s.pmce.map Prod.fst = some z

theorem Holds.eq {Z : Type} {s : Session Z} {z : Z} (h : Holds s z) (hp : hasPmce s.parser = true) : ∃ old, s.pmce = some (z, old) := by
  have := h hp
  cases hs : s.pmce with
  | none => rw [hs] at this; simp at this
  | some v => rw [hs] at this; simp at this; exact ⟨v.2, by rw [← this]⟩

theorem unpack_spec {Z : Type} {stream : Z → Bytes → Z × Bytes × Bool} {finish : Z → Z × Bytes × Bool} {z z2 : Z} {payload text : Bytes} (h : unpackMessage stream finish z payload = some (z2, text)) :
    ∃ z1 a b, (payload = [] → z1 = z ∧ a = []) ∧ (payload ≠ [] → stream z payload = (z1, a, false)) ∧ finish z1 = (z2, b, false) ∧ text = a ++ b := by
  unfold unpackMessage at h
  by_cases hp : payload = []
  · rw [if_pos hp] at h
    simp only at h
    rcases hf : finish z with ⟨z3, b, _ | _⟩ <;> rw [hf] at h <;> simp at h
    obtain ⟨rfl, rfl⟩ := h
    exact ⟨z, [], b, fun _ => ⟨rfl, rfl⟩, fun h => absurd hp h, hf, rfl⟩
  · rw [if_neg hp] at h
    rcases hs : stream z payload with ⟨z1, a, _ | _⟩ <;> rw [hs] at h <;> simp only at h
    · rcases hf : finish z1 with ⟨z3, b, _ | _⟩ <;> rw [hf] at h <;> simp at h
      obtain ⟨rfl, rfl⟩ := h
      exact ⟨z1, a, b, fun h => absurd h hp, fun _ => rfl, hf, rfl⟩
    · cases h

/-- One whole frame, which may have a compressed message. -/
theorem sent_step {Z : Type} (env : Env Z) (max : Nat) (hq : Quiet env max) (s : Session Z) (st : MsgState) (ha : Agrees s st) (hst : st ≠ .closed) (hm : s.parser.max_message_length = max) (z : Z) (hz : Holds s z)
    (x : Sent) (t : List Sent) (hr : Readable max (unpackMessage env.inflate_stream env.inflate_finish) z (x :: t)) (hl : x.frame.Legal (isServer s.parser) (hasPmce s.parser) (inMessage s.parser))
    (hw : Room max st x.meant) (addr : Nat) (rest : Bytes) :
    ∃ (u : Session Z) (z' : Z), Agrees u (assemble1 st x.meant).1 ∧ delivered u.trace = delivered s.trace ++ (assemble1 st x.meant).2 ∧ Readable max (unpackMessage env.inflate_stream env.inflate_finish) z' t ∧
      (if (assemble1 st x.meant).1 = .closed then s.iterate env addr (encode (toHeader x.frame) ++ x.frame.transform x.payload ++ rest) = .stop u []
       else s.iterate env addr (encode (toHeader x.frame) ++ x.frame.transform x.payload ++ rest) = .next u rest ∧ Holds u z' ∧
         u.parser.max_message_length = max ∧ isServer u.parser = isServer s.parser ∧ hasPmce u.parser = hasPmce s.parser ∧ inMessage u.parser = x.frame.after (inMessage s.parser)) := by
  obtain ⟨h1, h2, h3, h4⟩ := hr
  by_cases hc : x.frame.rsv1 = true
  · rw [if_pos hc] at h4
    obtain ⟨hfin, hlen, z', hu, hn⟩ := h4
    obtain ⟨z1, a, b, k0, k1, k2, k3⟩ := unpack_spec hu
    have hdata : (x.frame.opcode = 1 ∨ x.frame.opcode = 2) ∧ inMessage s.parser = false ∧ hasPmce s.parser = true := by
      rcases hl.2 with h | h | h
      · exact ⟨h.1, h.2.1, by have := h.2.2; cases hp : hasPmce s.parser <;> simp_all⟩
      · rw [h.2.2.1] at hc; simp at hc
      · rw [h.2.2.2.1] at hc; simp at hc
    obtain ⟨hop, hin, hpm⟩ := hdata
    have hidle : st = .idle := by
      cases st with
      | idle => rfl
      | inside o c => exact absurd (ha.2.2.1.symm.trans hin) (by simp)
      | closed => exact absurd rfl hst
    subst hidle
    obtain ⟨old, hold⟩ := hz.eq hpm
    have hout : (a ++ b).length ≤ max := by rw [← k3]; exact hw
    obtain ⟨u, u1, u2, u3, u4, u5, u6, u7, u8, u9⟩ := compressed_step env s max hq ha.1 ha.2.1 hm x.frame x.payload h1 h2 hl hc hfin (by omega) z z1 z' old a b hold k0 k1 k2 hout addr rest
    have has : assemble1 .idle x.meant = (.idle, [.message x.frame.opcode x.text]) := by
      unfold assemble1 Sent.meant
      simp only
      rw [if_pos hop]
      simp [Verif.Spec.extend, hfin]
    rw [has]
    refine ⟨u, z', ⟨u2, u3, u4⟩, by rw [u5, k3], hn, ?_⟩
    rw [if_neg (by simp)]
    refine ⟨u1, fun _ => by rw [u6]; rfl, u7, u8, u9, ?_⟩
    rw [u4]
    unfold WsFrame.after
    rw [if_neg (by omega), hfin]
    rfl
  · rw [if_neg hc] at h4
    obtain ⟨ht, hn⟩ := h4
    have hx : Plain x.meant := by
      unfold Sent.meant; rw [ht]; exact ⟨h1, h2, by simpa using hc, h3⟩
    obtain ⟨u, u1, u2, u3⟩ := frame_step env max hq s st ha hst hm x.meant hx hl hw addr rest
    refine ⟨u, z, u1, u2, hn, ?_⟩
    by_cases hcl : (assemble1 st x.meant).1 = .closed
    · rw [if_pos hcl] at u3 ⊢
      have : x.meant.2 = x.payload := ht
      rw [this] at u3
      exact u3
    · rw [if_neg hcl] at u3 ⊢
      have : x.meant.2 = x.payload := ht
      rw [this] at u3
      obtain ⟨v1, v2, v3, v4, v5, v6⟩ := u3
      exact ⟨v1, fun hp => by rw [v6]; exact hz (by rw [← v4]; exact hp), v2, v3, v4, v5⟩

theorem assemble_shut : ∀ frames : List (WsFrame × Bytes), assemble .closed frames = (.closed, [])
  | [] => rfl
  | x :: t => by simp [assemble, assemble1, assemble_shut t]

theorem Readable.drop {Z : Type} {max : Nat} {unp : Z → Bytes → Option (Z × Bytes)} : ∀ {a : List Sent} {z : Z} {b : List Sent}, Readable max unp z (a ++ b) → ∃ z', Readable max unp z' b
  | [], z, _, h => ⟨z, h⟩
  | x :: a, z, b, h => by
    obtain ⟨-, -, -, h4⟩ := h
    split at h4
    · obtain ⟨-, -, z', -, h⟩ := h4; exact Readable.drop h
    · exact Readable.drop h4.2

/-- One read of whole frames. -/
theorem sent_read {Z : Type} (env : Env Z) (max : Nat) (hq : Quiet env max) (addr : Nat) (frames more : List Sent) :
    ∀ (s : Session Z) (st : MsgState) (z : Z), Agrees s st → (st ≠ .closed → s.parser.max_message_length = max) → (st ≠ .closed → Holds s z) →
      Readable max (unpackMessage env.inflate_stream env.inflate_finish) z (frames ++ more) →
      (st ≠ .closed → LegalSequence (isServer s.parser) (hasPmce s.parser) (inMessage s.parser) (frames.map Sent.frame)) →
      WithinLimit max st (frames.map Sent.meant) →
      ∃ (t : Session Z) (z' : Z), s.stream env addr (wire (frames.map Sent.raw)) = (t, [], some false) ∧ Agrees t (assemble st (frames.map Sent.meant)).1 ∧
        delivered t.trace = delivered s.trace ++ (assemble st (frames.map Sent.meant)).2 ∧ Readable max (unpackMessage env.inflate_stream env.inflate_finish) z' more ∧
        ((assemble st (frames.map Sent.meant)).1 ≠ .closed → t.parser.max_message_length = max ∧ Holds t z' ∧ isServer t.parser = isServer s.parser ∧
          hasPmce t.parser = hasPmce s.parser ∧ inMessage t.parser = (frames.map Sent.frame).foldl WsFrame.after (inMessage s.parser)) := by
  induction frames with
  | nil =>
    intro s st z ha hm hz hr _ _
    obtain ⟨t, t1, t2, t3, t4⟩ := read_step env max hq addr [] s st ha hm (by simp) (fun _ => trivial) trivial
    refine ⟨t, z, t1, t2, t3, hr, fun h => ?_⟩
    have hst : st ≠ .closed := h
    have hpm : t.pmce = s.pmce := by
      have hwait : Waiting s.parser := by cases st with | idle => exact ha.1 | inside => exact ha.1 | closed => exact absurd rfl hst
      have hopen : s.closure_notified = false := by cases st with | idle => exact ha.2.1 | inside => exact ha.2.1 | closed => exact absurd rfl hst
      obtain ⟨f1, f2, f3, f4, f5, f6, f7, f8⟩ := forget_fields s.parser
      rw [stream_eq] at t1
      have hh : s.parser.parse_frame_header [] = .ok (s.parser.forget, []) := by
        unfold Parser.parse_frame_header
        rw [if_neg (by simp [hwait.established]), if_neg (by simp [hwait.new])]
      have : s.iterate env addr (wire []) = .stop { s with parser := s.parser.forget } [] := by
        unfold Session.iterate
        rw [if_neg (by simp [Parser.error, hwait.new, hopen]), if_pos (by simp [Parser.frame_header_complete, hwait.new])]
        rw [show wire [] = [] from rfl, hh]
        simp only
        rw [if_neg (by simp [Parser.error, f1, hwait.new]), if_pos (by simp [Parser.frame_header_complete, f1, hwait.new])]
      rw [this] at t1
      simp only [Prod.mk.injEq] at t1
      rw [← t1.1]
    obtain ⟨v1, v2, v3, v4⟩ := t4 h
    exact ⟨v1, fun hp => by rw [hpm]; exact hz hst (by rw [← v3]; exact hp), v2, v3, v4⟩
  | cons x rest ih =>
    intro s st z ha hm hz hr hl hw
    by_cases hst : st = .closed
    · subst hst
      obtain ⟨z', hz'⟩ := Readable.drop hr
      refine ⟨s, z', ?_, by rw [assemble_shut]; exact ha, by simp [assemble_shut], hz', fun h => absurd (by rw [assemble_shut]) h⟩
      rw [stream_eq]
      have : s.iterate env addr (wire ((x :: rest).map Sent.raw)) = .stop s [] := by
        unfold Session.iterate; rw [if_pos (by rw [show s.closure_notified = true from ha]; simp)]
      rw [this]
    · obtain ⟨t, z', t1, t2, tr, t3⟩ := sent_step env max hq s st ha hst (hm hst) z (hz hst) x (rest ++ more) hr (hl hst).1 hw.1 addr (wire (rest.map Sent.raw))
      have hwire : wire ((x :: rest).map Sent.raw) = encode (toHeader x.frame) ++ x.frame.transform x.payload ++ wire (rest.map Sent.raw) := by simp [wire, Sent.raw]
      rw [hwire, stream_eq]
      simp only [List.map_cons]
      by_cases hc : (assemble1 st x.meant).1 = .closed
      · rw [if_pos hc] at t3
        rw [t3]
        obtain ⟨z2, hz2⟩ := Readable.drop tr
        refine ⟨t, z2, rfl, ?_, ?_, hz2, fun h => absurd ?_ h⟩
        · simp only [assemble]; rw [hc, assemble_shut]; rw [hc] at t1; exact t1
        · simp only [assemble]; rw [hc, assemble_shut, t2]; simp
        · simp only [assemble]; rw [hc, assemble_shut]
      · rw [if_neg hc] at t3
        obtain ⟨t4, th, t5, t6, t7, t8⟩ := t3
        rw [t4]
        obtain ⟨u, z2, u1, u2, u3, ur, u4⟩ := ih t (assemble1 st x.meant).1 z' t1 (fun _ => t5) (fun _ => th) tr
          (fun _ => by rw [t6, t7, t8]; exact (hl hst).2) hw.2
        refine ⟨u, z2, u1, u2, ?_, ur, ?_⟩
        · rw [u3, t2]; simp [assemble]
        · intro h
          obtain ⟨v1, vh, v2, v3, v4⟩ := u4 h
          exact ⟨v1, vh, v2.trans t6, v3.trans t7, by rw [v4, t8]; rfl⟩

/-- Plain frames are readable. -/
theorem readable_plain {Z : Type} (max : Nat) (unp : Z → Bytes → Option (Z × Bytes)) (z : Z) : ∀ xs : List (WsFrame × Bytes), (∀ x ∈ xs, Plain x) → Readable max unp z (xs.map fun x => ⟨x.1, x.2, x.2⟩)
  | [], _ => trivial
  | x :: t, h => by
    have hx := h x (by simp)
    refine ⟨hx.fits, hx.len, hx.close, ?_⟩
    rw [if_neg (by simp [hx.plain])]
    exact ⟨rfl, readable_plain max unp z t fun y hy => h y (by simp [hy])⟩

end Verif.Props
