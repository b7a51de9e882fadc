import Verif.Proofs.WsHeader
import Verif.Proofs.WsMask
namespace Verif.Ws
open Verif.Spec

/-! ### Header delivery -/

theorem forget_forget (p : Parser) : p.forget.forget = p.forget := by
  unfold Parser.forget
  split
  · rfl
  · rfl

theorem forget_fields (p : Parser) : p.forget.wsf = p.wsf ∧ p.forget.wshs = p.wshs ∧ p.forget.established = p.established ∧
    p.forget.frm_header = p.frm_header ∧ p.forget.m_fin = false ∧ p.forget.pmce_send_window_bits = p.pmce_send_window_bits ∧
    p.forget.frm_payload = p.frm_payload ∧ p.forget.max_message_length = p.max_message_length := by
  unfold Parser.forget Parser.established
  split
  · simp
  · rename_i h; simp at h; simp [h]

/-- A parser that has no message in progress has no message flags either. -/
def Tidy (p : Parser) : Prop := p.m_opcode = 0 → p.m_rsv1 = false ∧ p.m_rsv2 = false ∧ p.m_rsv3 = false ∧ p.m_fin = false

theorem tidy_forget (p : Parser) (h : Tidy p) : Tidy p.forget := by
  unfold Parser.forget
  split
  · intro _; simp
  · exact h

theorem unpack_unpack (h : FrameHeader) (w : Nat) : unpack (unpack h w) w = unpack h w := rfl

theorem check_setLen (p : Parser) (n w : Nat) : (p.setLen n).check w = (p.check w).setLen n := by
  unfold Parser.check Parser.setLen
  simp only
  repeat' split
  all_goals rfl

theorem parse_nonnew (p : Parser) (he : p.established = true) (hn : p.wsf ≠ .new) (d : Bytes) : p.parse_frame_header d = .ok (p, d) := by
  unfold Parser.parse_frame_header
  rw [if_neg (by simp [he]), if_pos hn]

theorem parse_two (p : Parser) (he : p.established = true) (hn : p.wsf = .new) (b0 b1 : Byte) (t : Bytes) :
    p.parse_frame_header (b0 :: b1 :: t) =
      (let w := b1.toNat <<< 8 ||| b0.toNat
       let r := { p.forget with frm_header := unpack p.forget.frm_header w }.check w
       if r.wsf = .error then .ok (r, b0 :: b1 :: t) else .ok (r.parse_length (b0 :: b1 :: t))) := by
  unfold Parser.parse_frame_header
  rw [if_neg (by simp [he]), if_neg (by simp [hn])]

theorem parse_short (p : Parser) (he : p.established = true) (hn : p.wsf = .new) (d : Bytes) (h : d.length < 2) :
    p.parse_frame_header d = .ok (p.forget, d) := by
  unfold Parser.parse_frame_header
  rw [if_neg (by simp [he]), if_neg (by simp [hn])]
  match d, h with
  | [], _ => rfl
  | [_], _ => rfl

theorem finish_header_cases (r : Parser) (n : Nat) (d : Bytes) :
    (r.finish_header n d = (r, d) ∧ r.frm_header.masked = true ∧ d.length < n + 4) ∨
    (∃ p1 m, m ≤ n + 4 ∧ r.finish_header n d = (p1, d.drop m) ∧ p1.wsf = .header_done ∧ p1.wshs = r.wshs ∧
      (n ≤ d.length → m ≤ d.length ∧ ∀ e, r.finish_header n (d ++ e) = (p1, d.drop m ++ e))) := by
  unfold Parser.finish_header
  simp only
  by_cases hm : r.frm_header.masked = true
  · simp only [hm, if_true]
    by_cases hl : d.length < n + 4
    · rw [if_pos hl]; exact Or.inl ⟨rfl, trivial, hl⟩
    · rw [if_neg hl]
      refine Or.inr ⟨_, n + 4, Nat.le_refl _, rfl, rfl, rfl, fun _ => ⟨by omega, fun e => ?_⟩⟩
      rw [if_neg (by simp only [List.length_append]; omega)]
      rw [List.drop_append_of_le_length (by omega), List.take_append_of_le_length (by simp only [List.length_drop]; omega),
        List.drop_append_of_le_length (by omega)]
  · simp only [hm, Bool.false_eq_true, if_false]
    refine Or.inr ⟨_, n, by omega, rfl, rfl, rfl, fun h => ⟨h, fun e => ?_⟩⟩
    rw [List.drop_append_of_le_length h]

/-- Parsing the length: incomplete, or complete independently of what follows. -/
theorem parse_length_cases (r : Parser) (d : Bytes) (h2 : 2 ≤ d.length) :
    (∃ r', (r' = r ∨ ∃ n, r' = r.setLen n) ∧ r.parse_length d = (r', d) ∧ r'.wsf = r.wsf ∧
      ∀ e, r'.parse_length (d ++ e) = r.parse_length (d ++ e)) ∨
    (∃ p1 d1, r.parse_length d = (p1, d1) ∧ p1.wsf = .header_done ∧ p1.wshs = r.wshs ∧
      ∀ e, r.parse_length (d ++ e) = (p1, d1 ++ e)) := by
  have take_ok : ∀ (e : Bytes) n, 2 + n ≤ d.length → ((d ++ e).drop 2).take n = (d.drop 2).take n := by
    intro e n h
    rw [List.drop_append_of_le_length (by omega), List.take_append_of_le_length (by simp only [List.length_drop]; omega)]
  unfold Parser.parse_length
  by_cases h1 : r.frm_header.reserved_1 ≤ 125
  · simp only [h1, if_true]
    rcases finish_header_cases (r.setLen r.frm_header.reserved_1) 2 d with ⟨g, _, _⟩ | ⟨p1, m, _, g1, g2, g3, g4⟩
    · refine Or.inl ⟨_, Or.inr ⟨_, rfl⟩, g, rfl, fun e => ?_⟩
      simp only [Parser.setLen, h1, if_true]
    · exact Or.inr ⟨p1, _, g1, g2, g3, (g4 h2).2⟩
  · simp only [h1, if_false]
    by_cases h3 : r.frm_header.reserved_1 = 126
    · simp only [h3, if_true]
      by_cases hd : d.length < 4
      · rw [if_pos hd]
        refine Or.inl ⟨r, Or.inl rfl, rfl, rfl, fun e => ?_⟩
        simp [h3]
      · rw [if_neg hd]
        rcases finish_header_cases (r.setLen (beNat ((d.drop 2).take 2))) 4 d with ⟨g, _, _⟩ | ⟨p1, m, _, g1, g2, g3, g4⟩
        · refine Or.inl ⟨_, Or.inr ⟨_, rfl⟩, g, rfl, fun e => ?_⟩
          have hx : ¬ (d ++ e).length < 4 := by rw [List.length_append]; omega
          rw [if_neg (by simp only [Parser.setLen, h3]; omega), if_pos (by simp only [Parser.setLen, h3])]
          rw [if_neg hx, if_neg hx, take_ok e 2 (by omega)]
          rfl
        · refine Or.inr ⟨p1, _, g1, g2, g3, fun e => ?_⟩
          rw [if_neg (by simp only [List.length_append]; omega), take_ok e 2 (by omega)]
          exact (g4 (by omega)).2 e
    · simp only [h3, if_false]
      by_cases hd : d.length < 10
      · rw [if_pos hd]
        refine Or.inl ⟨r, Or.inl rfl, rfl, rfl, fun e => ?_⟩
        simp [h1, h3]
      · rw [if_neg hd]
        rcases finish_header_cases (r.setLen (beNat ((d.drop 2).take 8))) 10 d with ⟨g, _, _⟩ | ⟨p1, m, _, g1, g2, g3, g4⟩
        · refine Or.inl ⟨_, Or.inr ⟨_, rfl⟩, g, rfl, fun e => ?_⟩
          rw [if_neg (by simpa only [Parser.setLen] using h1), if_neg (by simpa only [Parser.setLen] using h3)]
          have hx : ¬ (d ++ e).length < 10 := by rw [List.length_append]; omega
          rw [if_neg hx, if_neg hx, take_ok e 8 (by omega)]
          rfl
        · refine Or.inr ⟨p1, _, g1, g2, g3, fun e => ?_⟩
          rw [if_neg (by simp only [List.length_append]; omega), take_ok e 8 (by omega)]
          exact (g4 (by omega)).2 e

/-- Bits of the word. -/
def wFin (w : Nat) : Bool := w.testBit 7
def wOp (w : Nat) : Nat := w &&& 15

theorem and128 (w : Nat) : (w &&& 0b10000000 ≠ 0) ↔ w.testBit 7 = true := by
  have hb : ∀ i, (0b10000000 : Nat).testBit i = decide (7 = i) := fun i => by
    rw [show (0b10000000 : Nat) = 2 ^ 7 from rfl, Nat.testBit_two_pow]
  constructor
  · intro h
    cases hh : w.testBit 7 with
    | true => rfl
    | false =>
      exfalso; apply h
      apply Nat.eq_of_testBit_eq
      intro i
      rw [Nat.testBit_and, hb, Nat.zero_testBit]
      by_cases hi : 7 = i
      · subst hi; simp [hh]
      · simp [hi]
  · intro h h0
    have : (w &&& 0b10000000).testBit 7 = true := by rw [Nat.testBit_and, hb, h]; rfl
    rw [h0] at this
    simp at this

theorem idle_eta (q : Parser) (h1 : q.m_fin = false) (h2 : q.m_rsv1 = false) (h3 : q.m_rsv2 = false) (h4 : q.m_rsv3 = false)
    (h5 : q.m_opcode = 0) : { q with m_fin := false, m_rsv1 := false, m_rsv2 := false, m_rsv3 := false, m_opcode := 0 } = q := by
  cases q
  simp only at h1 h2 h3 h4 h5
  subst h1 h2 h3 h4 h5
  rfl

/-- The message state is the same after a rejected second look, unless the frame starts or ends a fragmented message. -/
theorem check_forget (q : Parser) (w : Nat) (ht : Tidy q) (hf : q.m_fin = false)
    (hu : q.frm_header = unpack q.frm_header w) (hnz : ¬ ((wOp w = 1 ∨ wOp w = 2) ∧ wFin w = false ∨ wOp w = 0 ∧ wFin w = true))
    (herr : (q.check w).wsf ≠ .error) : (q.check w).forget = q := by
  have e1 : q.frm_header.opcode = wOp w := by rw [hu]; rfl
  have e2 : q.frm_header.fin = wFin w := by rw [hu]; rfl
  revert herr
  unfold Parser.check
  simp only
  rw [e1, e2]
  split
  · intro h; exact absurd rfl h
  split
  · rename_i ho
    split
    · intro h; exact absurd rfl h
    · rename_i hm
      by_cases hr : (if w &&& 0b01110000 ≠ 0 ∧ q.pmce_send_window_bits ≠ 0 then w &&& 0b01110000 &&& 0b00110000 else w &&& 0b01110000) ≠ 0
      · rw [if_pos hr]; intro h; exact absurd rfl h
      · rw [if_neg hr]
        intro _
        have hfin : wFin w = true := by
          cases hh : wFin w with
          | true => rfl
          | false => exact absurd (Or.inl ⟨ho, hh⟩) hnz
        unfold Parser.forget
        rw [if_pos (by simpa using hfin)]
        have hm' : q.m_opcode = 0 := by simpa using hm
        obtain ⟨t1, t2, t3, t4⟩ := ht hm'
        exact idle_eta q hf t1 t2 t3 hm'
  split
  · rename_i ho
    split
    · intro h; exact absurd rfl h
    split
    · intro h; exact absurd rfl h
    split
    · rename_i hw
      rw [and128] at hw
      exact absurd (Or.inr ⟨ho, hw⟩) hnz
    · intro _; unfold Parser.forget; rw [if_neg (by simp [hf])]
  split
  · split
    · intro h; exact absurd rfl h
    split
    · intro h; exact absurd rfl h
    split
    · intro h; exact absurd rfl h
    · intro _; unfold Parser.forget; rw [if_neg (by simp [hf])]
  · intro h; exact absurd rfl h

theorem forget_setLen (p : Parser) (n : Nat) : (p.setLen n).forget = p.forget.setLen n := by
  unfold Parser.forget Parser.setLen
  simp only
  split <;> rfl

theorem hazard_iff (b0 b1 : Byte) : (((wOp (b1.toNat <<< 8 ||| b0.toNat) = 1 ∨ wOp (b1.toNat <<< 8 ||| b0.toNat) = 2) ∧
      wFin (b1.toNat <<< 8 ||| b0.toNat) = false ∨ wOp (b1.toNat <<< 8 ||| b0.toNat) = 0 ∧ wFin (b1.toNat <<< 8 ||| b0.toNat) = true))
      ↔ StartsOrEndsFragmented b0 := by
  have h1 : wOp (b1.toNat <<< 8 ||| b0.toNat) = b0.toNat % 16 := by
    unfold wOp; rw [word_and _ _ _ (by omega)]
    exact Nat.and_two_pow_sub_one_eq_mod b0.toNat 4
  have h2 : wFin (b1.toNat <<< 8 ||| b0.toNat) = decide (128 ≤ b0.toNat) := by
    unfold wFin; rw [word_testBit_lo _ _ _ (by omega)]
    revert b0
    intro b0 _
    exact (forall_byte (P := fun b => b.toNat.testBit 7 = decide (128 ≤ b.toNat)) (by decide +kernel)) b0
  rw [h1, h2]
  unfold StartsOrEndsFragmented
  simp

theorem parse_forget (p : Parser) (he : p.established = true) (hn : p.wsf = .new) (d : Bytes) :
    p.forget.parse_frame_header d = p.parse_frame_header d := by
  obtain ⟨f1, _, f3, _⟩ := forget_fields p
  unfold Parser.parse_frame_header
  rw [if_neg (by rw [f3]; simp [he]), if_neg (by rw [f1]; simp [hn]), if_neg (by simp [he]), if_neg (by simp [hn]), forget_forget]

/-- Streaming law of the header parser. -/
theorem header_stream (p : Parser) (he : p.established = true) (ht : Tidy p) (d e : Bytes) (p1 : Parser) (d1 : Bytes)
    (hz : p.wsf = .new → ∀ b0 b1 t, d = b0 :: b1 :: t → ¬ StartsOrEndsFragmented b0)
    (h : p.parse_frame_header d = .ok (p1, d1)) :
    p1.parse_frame_header (d1 ++ e) = p.parse_frame_header (d ++ e) := by
  by_cases hn : ¬ p.wsf = .new
  · rw [parse_nonnew p he hn] at h
    simp only [Except.ok.injEq, Prod.mk.injEq] at h
    rw [← h.1, ← h.2]
  rw [Decidable.not_not] at hn
  obtain ⟨f1, f2, f3, f4, f5, _, _, _⟩ := forget_fields p
  rcases d with _ | ⟨b0, _ | ⟨b1, t⟩⟩
  · rw [parse_short p he hn _ (by simp)] at h
    simp only [Except.ok.injEq, Prod.mk.injEq] at h
    rw [← h.1, ← h.2]
    exact parse_forget p he hn _
  · rw [parse_short p he hn _ (by simp)] at h
    simp only [Except.ok.injEq, Prod.mk.injEq] at h
    rw [← h.1, ← h.2]
    exact parse_forget p he hn _
  · have hz' := hz hn b0 b1 t rfl
    rw [← hazard_iff b0 b1] at hz'
    rw [List.cons_append, List.cons_append, parse_two p he hn]
    rw [parse_two p he hn] at h
    simp only at h ⊢
    generalize hw : b1.toNat <<< 8 ||| b0.toNat = w at *
    generalize hq : ({ p.forget with frm_header := unpack p.forget.frm_header w } : Parser) = q at *
    have hqt : Tidy q := by rw [← hq]; exact tidy_forget p ht
    have hqf : q.m_fin = false := by rw [← hq]; exact f5
    have hqu : q.frm_header = unpack q.frm_header w := by rw [← hq]; rfl
    have hqw : q.wsf = .new := by rw [← hq]; exact f1.trans hn
    have hqe : q.wshs = p.wshs := by rw [← hq]; exact f2
    have check_wshs : (q.check w).wshs = q.wshs := by
      unfold Parser.check Parser.fail; simp only; repeat' split
      all_goals rfl
    have check_wsf : (q.check w).wsf ≠ .error → (q.check w).wsf = .new := by
      unfold Parser.check Parser.fail; simp only; repeat' split
      all_goals simp [hqw]
    by_cases herr : (q.check w).wsf = .error
    · rw [if_pos herr] at h ⊢
      simp only [Except.ok.injEq, Prod.mk.injEq] at h
      rw [← h.1, ← h.2]
      rw [parse_nonnew _ (by simp only [Parser.established, check_wshs, hqe]; exact he) (by rw [herr]; simp)]
      rfl
    · rw [if_neg herr] at h ⊢
      have hcf := check_forget q w hqt hqf hqu hz' herr
      rcases parse_length_cases (q.check w) (b0 :: b1 :: t) (by simp) with ⟨r', hr', g1, g2, g3⟩ | ⟨p1', d1', g1, g2, g3, g4⟩
      · rw [g1] at h
        simp only [Except.ok.injEq, Prod.mk.injEq] at h
        rw [← h.1, ← h.2]
        have hrn : r'.wsf = .new := g2.trans (check_wsf herr)
        have hre : r'.wshs = p.wshs := by
          rcases hr' with rfl | ⟨n, rfl⟩
          · rw [check_wshs, hqe]
          · simp only [Parser.setLen, check_wshs, hqe]
        rw [List.cons_append, List.cons_append, parse_two r' (by simp only [Parser.established, hre]; exact he) hrn]
        simp only
        rw [hw]
        have key : ({ r'.forget with frm_header := unpack r'.forget.frm_header w } : Parser).check w = r' := by
          rcases hr' with rfl | ⟨n, rfl⟩
          · rw [hcf, ← hqu]
          · rw [forget_setLen, hcf]
            have : ({ q.setLen n with frm_header := unpack (q.setLen n).frm_header w } : Parser) = q.setLen n := by
              have : unpack (q.setLen n).frm_header w = (q.setLen n).frm_header := by
                conv => rhs; unfold Parser.setLen; simp only; rw [hqu]
                rfl
              rw [this]
            rw [this, check_setLen]
        rw [key, if_neg (by rw [hrn]; simp)]
        congr 1
        exact g3 e
      · rw [g1] at h
        simp only [Except.ok.injEq, Prod.mk.injEq] at h
        rw [← h.1, ← h.2]
        rw [parse_nonnew _ (by simp only [Parser.established, g3, check_wshs, hqe]; exact he) (by rw [g2]; simp)]
        congr 1
        exact (g4 e).symm

/-! ### Payload -/

theorem payload_step (p : Parser) (addr : Nat) (data : Bytes) (he : p.established = true) (hn : p.wsf = .header_done)
    (hk : p.frm_header.masking_key < 2 ^ 32)
    (hl : min data.length p.frm_payload_rem ≠ 0 → p.frm_payload.length + min data.length p.frm_payload_rem ≤ p.max_message_length) :
    p.parse_frame_payload addr data = .ok
      ({ p with
          frm_header := if p.frm_header.masked then { p.frm_header with masking_key := rotN p.frm_header.masking_key (min data.length p.frm_payload_rem) } else p.frm_header
          frm_payload := p.frm_payload ++ (if p.frm_header.masked then maskRec p.frm_header.masking_key (data.take p.frm_payload_rem) else data.take p.frm_payload_rem)
          frm_payload_rem := p.frm_payload_rem - data.length
          wsf := if p.frm_payload_rem ≤ data.length then .payload_done else .header_done }, data.drop p.frm_payload_rem) := by
  unfold Parser.parse_frame_payload
  rw [if_neg (by simp [he]), if_neg (by simp [Parser.frame_payload_complete, hn]), if_neg (by simp [hn])]
  simp only
  rw [if_neg (by rintro ⟨a, b⟩; have := hl a; omega)]
  have htake : data.take (min data.length p.frm_payload_rem) = data.take p.frm_payload_rem := by
    rw [Nat.min_comm, ← List.take_eq_take_min]
  have hdrop : data.drop (min data.length p.frm_payload_rem) = data.drop p.frm_payload_rem := by
    rcases Nat.le_total data.length p.frm_payload_rem with h | h
    · rw [Nat.min_eq_left h, List.drop_eq_nil_of_le (Nat.le_refl _), List.drop_eq_nil_of_le h]
    · rw [Nat.min_eq_right h]
  have hlen : (data.take p.frm_payload_rem).length = min data.length p.frm_payload_rem := by
    rw [List.length_take, Nat.min_comm]
  have hrem : p.frm_payload_rem - min data.length p.frm_payload_rem = p.frm_payload_rem - data.length := by omega
  by_cases h0 : min data.length p.frm_payload_rem ≠ 0
  · rw [if_pos h0, htake, hdrop, hrem]
    by_cases hm : p.frm_header.masked = true
    · rw [mask_payload_spec _ _ _ hk hm, if_pos hm, if_pos hm, hlen]
      simp only
      by_cases hr : p.frm_payload_rem ≤ data.length
      · rw [if_pos hr, if_neg (by omega)]
      · rw [if_neg hr, if_pos (by omega), hn]
    · rw [mask_payload_unmasked _ _ _ (by simpa using hm), if_neg hm, if_neg hm]
      simp only
      by_cases hr : p.frm_payload_rem ≤ data.length
      · rw [if_pos hr, if_neg (by omega)]
      · rw [if_neg hr, if_pos (by omega), hn]
  · rw [if_neg h0]
    have h0' : min data.length p.frm_payload_rem = 0 := by omega
    have ht : data.take p.frm_payload_rem = [] := by rw [← htake, h0']; rfl
    have hd : data.drop p.frm_payload_rem = data := by rw [← hdrop, h0']; rfl
    rw [ht, hd, h0', ← hrem, h0']
    have hh : (if p.frm_header.masked = true then { p.frm_header with masking_key := rotN p.frm_header.masking_key 0 } else p.frm_header) = p.frm_header := by
      split <;> rfl
    have hp : (p.frm_payload ++ if p.frm_header.masked = true then maskRec p.frm_header.masking_key [] else []) = p.frm_payload := by
      split <;> simp [maskRec]
    rw [hh, hp, Nat.sub_zero]
    simp only
    by_cases hr : p.frm_payload_rem ≤ data.length
    · rw [if_pos hr, if_neg (by omega)]
    · rw [if_neg hr, if_pos (by omega)]
      congr 2
      rw [← hn]

theorem payload_throw (p : Parser) (addr : Nat) (data : Bytes) (he : p.established = true) (hn : p.wsf = .header_done)
    (hl : ¬ (min data.length p.frm_payload_rem ≠ 0 → p.frm_payload.length + min data.length p.frm_payload_rem ≤ p.max_message_length)) :
    p.parse_frame_payload addr data = .error "WebSocket message length limit exceeded" := by
  unfold Parser.parse_frame_payload
  rw [if_neg (by simp [he]), if_neg (by simp [Parser.frame_payload_complete, hn]), if_neg (by simp [hn])]
  simp only
  rw [if_pos (by simp only [Classical.not_imp, Nat.not_le] at hl; exact hl)]

theorem payload_done (p : Parser) (addr : Nat) (data : Bytes) (he : p.established = true) (hn : p.wsf = .payload_done) :
    p.parse_frame_payload addr data = .ok (p, data) := by
  unfold Parser.parse_frame_payload
  rw [if_neg (by simp [he]), if_pos (by simp [Parser.frame_payload_complete, hn])]

/-- Streaming law of the payload parser. -/
theorem payload_stream (p : Parser) (he : p.established = true) (hn : p.wsf = .header_done) (hk : p.frm_header.masking_key < 2 ^ 32)
    (a a' a'' : Nat) (d e : Bytes) :
    (match p.parse_frame_payload a d with
     | .ok (p1, d1) => p1.parse_frame_payload a' (d1 ++ e)
     | .error x => .error x) = p.parse_frame_payload a'' (d ++ e) := by
  by_cases hl : ¬ (min d.length p.frm_payload_rem ≠ 0 → p.frm_payload.length + min d.length p.frm_payload_rem ≤ p.max_message_length)
  · rw [payload_throw p a d he hn hl, payload_throw p a'' (d ++ e) he hn]
    simp only [Classical.not_imp, Nat.not_le, List.length_append] at hl ⊢
    omega
  rw [Decidable.not_not] at hl
  rw [payload_step p a d he hn hk hl]
  simp only
  by_cases hr : p.frm_payload_rem ≤ d.length
  · rw [payload_done _ _ _ (by exact he) (by simp [hr])]
    have hl2 : min (d ++ e).length p.frm_payload_rem ≠ 0 → p.frm_payload.length + min (d ++ e).length p.frm_payload_rem ≤ p.max_message_length := by
      rw [List.length_append]; intro h
      have := hl (by omega)
      omega
    rw [payload_step p a'' (d ++ e) he hn hk hl2, List.drop_append_of_le_length hr, List.take_append_of_le_length hr]
    rw [show min (d ++ e).length p.frm_payload_rem = min d.length p.frm_payload_rem by rw [List.length_append]; omega]
    rw [show p.frm_payload_rem - (d ++ e).length = p.frm_payload_rem - d.length by rw [List.length_append]; omega]
    rw [if_pos hr, if_pos (show p.frm_payload_rem ≤ (d ++ e).length by rw [List.length_append]; omega)]
  · have hr' : d.length < p.frm_payload_rem := by omega
    have ht : d.take p.frm_payload_rem = d := List.take_of_length_le (by omega)
    have hd : d.drop p.frm_payload_rem = [] := List.drop_eq_nil_of_le (by omega)
    rw [ht, hd, if_neg hr, List.nil_append, Nat.min_eq_left (by omega : d.length ≤ p.frm_payload_rem)]
    rw [Nat.min_eq_left (by omega : d.length ≤ p.frm_payload_rem)] at hl
    generalize hp1 : ({ p with
        frm_header := if p.frm_header.masked then { p.frm_header with masking_key := rotN p.frm_header.masking_key d.length } else p.frm_header
        frm_payload := p.frm_payload ++ (if p.frm_header.masked then maskRec p.frm_header.masking_key d else d)
        frm_payload_rem := p.frm_payload_rem - d.length
        wsf := .header_done } : Parser) = p1
    have hlen : (p.frm_payload ++ (if p.frm_header.masked then maskRec p.frm_header.masking_key d else d)).length = p.frm_payload.length + d.length := by
      rw [List.length_append]; split <;> simp
    have g1 : p1.established = true := by rw [← hp1]; exact he
    have g2 : p1.wsf = .header_done := by rw [← hp1]
    have g3 : p1.frm_header.masking_key < 2 ^ 32 := by
      rw [← hp1]; simp only
      split
      · exact rotN_lt _ _ hk
      · exact hk
    have g4 : p1.frm_payload_rem = p.frm_payload_rem - d.length := by rw [← hp1]
    have g5 : p1.frm_payload.length = p.frm_payload.length + d.length := by rw [← hp1]; exact hlen
    have g6 : p1.max_message_length = p.max_message_length := by rw [← hp1]
    by_cases hl2 : min (d ++ e).length p.frm_payload_rem ≠ 0 → p.frm_payload.length + min (d ++ e).length p.frm_payload_rem ≤ p.max_message_length
    · rw [payload_step p a'' (d ++ e) he hn hk hl2]
      rw [payload_step p1 a' e g1 g2 g3 (by
        rw [g4, g5, g6]; intro h
        rw [List.length_append] at hl2
        have := hl2 (by omega)
        omega)]
      rw [g4]
      have e1 : (d ++ e).take p.frm_payload_rem = d ++ e.take (p.frm_payload_rem - d.length) := by
        rw [List.take_append, List.take_of_length_le (by omega)]
      have e2 : (d ++ e).drop p.frm_payload_rem = e.drop (p.frm_payload_rem - d.length) := by
        rw [List.drop_append, List.drop_eq_nil_of_le (by omega), List.nil_append]
      have e3 : min (d ++ e).length p.frm_payload_rem = d.length + min e.length (p.frm_payload_rem - d.length) := by
        rw [List.length_append]; omega
      rw [e1, e2, e3, List.length_append, ← hp1]
      congr 2
      have e4 : p.frm_payload_rem - d.length - e.length = p.frm_payload_rem - (d.length + e.length) := by omega
      have e5 : (p.frm_payload_rem - d.length ≤ e.length) = (p.frm_payload_rem ≤ d.length + e.length) := by
        apply propext; omega
      simp only [e4, e5]
      cases hm : p.frm_header.masked with
      | true => simp [hm, rotN_add, maskRec_append, List.append_assoc]
      | false => simp [hm, List.append_assoc]
    · rw [payload_throw p a'' (d ++ e) he hn hl2]
      rw [payload_throw p1 a' e g1 g2]
      rw [g4, g5, g6]
      simp only [Classical.not_imp, Nat.not_le, List.length_append] at hl2 ⊢
      by_cases hd0 : d.length = 0
      · omega
      · have := hl (by omega)
        omega

end Verif.Ws
