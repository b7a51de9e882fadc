import Verif.Model.Ws
import Verif.Spec.Ws
namespace Verif.Ws
open Verif.Spec

/-- The code's header structure for a frame. -/
def toHeader (f : WsFrame) : FrameHeader where
  opcode := f.opcode
  rsv3 := f.rsv3
  rsv2 := f.rsv2
  rsv1 := f.rsv1
  fin := f.fin
  masked := f.key.isSome
  masking_key := f.key.getD 0
  payload_len := f.len

/-- The 7-bit length code. -/
def len7 (n : Nat) : Nat := if n ≤ 125 then n else if n ≤ 65535 then 126 else 127

/-- The extended length. -/
def extLen (n : Nat) : Bytes := if n ≤ 125 then [] else if n ≤ 65535 then beBytes 2 n else beBytes 8 n

def byte0 (f : WsFrame) : Byte := opcode_byte (toHeader f)
def byte1 (f : WsFrame) : Byte := UInt8.ofNat (f.key.isSome.toNat <<< 7 ||| len7 f.len)
def keyBytes (f : WsFrame) : Bytes := match f.key with | some k => beBytes 4 k | none => []

theorem encode_eq (f : WsFrame) : encode (toHeader f) = byte0 f :: byte1 f :: (extLen f.len ++ keyBytes f) := by
  have hk : (if (toHeader f).masked = true then beBytes 4 (toHeader f).masking_key else []) = keyBytes f := by
    unfold keyBytes toHeader
    cases f.key <;> simp
  unfold encode
  rw [hk]
  unfold byte0 byte1 extLen len7
  have e1 : (toHeader f).payload_len = f.len := rfl
  have e2 : (toHeader f).masked = f.key.isSome := rfl
  rw [e1, e2]
  simp only
  split
  · simp
  · split <;> simp

/-! ### Bits of the first two bytes -/

theorem len7_lt (n : Nat) : len7 n < 128 := by unfold len7; (repeat' split) <;> omega

theorem byte0_toNat (f : WsFrame) (h : f.opcode < 16) :
    (byte0 f).toNat.testBit 7 = f.fin ∧ (byte0 f).toNat.testBit 6 = f.rsv1 ∧ (byte0 f).toNat.testBit 5 = f.rsv2 ∧
    (byte0 f).toNat.testBit 4 = f.rsv3 ∧ (byte0 f).toNat &&& 15 = f.opcode ∧
    ((byte0 f).toNat &&& 0b01110000 ≠ 0 ↔ f.rsv1 = true ∨ f.rsv2 = true ∨ f.rsv3 = true) ∧
    ((byte0 f).toNat &&& 0b01110000 &&& 0b00110000 ≠ 0 ↔ f.rsv2 = true ∨ f.rsv3 = true) ∧
    ((byte0 f).toNat &&& 0b10000000 ≠ 0 ↔ f.fin = true) ∧
    natBits 8 (byte0 f).toNat = [f.fin, f.rsv1, f.rsv2, f.rsv3] ++ natBits 4 f.opcode := by
  have key : ∀ (a b c d : Bool) (o : Fin 16), ∀ x, x = (UInt8.ofNat (a.toNat <<< 7 ||| b.toNat <<< 6 ||| c.toNat <<< 5 ||| d.toNat <<< 4 ||| o.val)).toNat →
      x.testBit 7 = a ∧ x.testBit 6 = b ∧ x.testBit 5 = c ∧ x.testBit 4 = d ∧ x &&& 15 = o.val ∧
      (x &&& 0b01110000 ≠ 0 ↔ b = true ∨ c = true ∨ d = true) ∧
      (x &&& 0b01110000 &&& 0b00110000 ≠ 0 ↔ c = true ∨ d = true) ∧
      (x &&& 0b10000000 ≠ 0 ↔ a = true) ∧ natBits 8 x = [a, b, c, d] ++ natBits 4 o.val := by
    have : ∀ (a b c d : Bool) (o : Fin 16),
      (UInt8.ofNat (a.toNat <<< 7 ||| b.toNat <<< 6 ||| c.toNat <<< 5 ||| d.toNat <<< 4 ||| o.val)).toNat.testBit 7 = a ∧
      (UInt8.ofNat (a.toNat <<< 7 ||| b.toNat <<< 6 ||| c.toNat <<< 5 ||| d.toNat <<< 4 ||| o.val)).toNat.testBit 6 = b ∧
      (UInt8.ofNat (a.toNat <<< 7 ||| b.toNat <<< 6 ||| c.toNat <<< 5 ||| d.toNat <<< 4 ||| o.val)).toNat.testBit 5 = c ∧
      (UInt8.ofNat (a.toNat <<< 7 ||| b.toNat <<< 6 ||| c.toNat <<< 5 ||| d.toNat <<< 4 ||| o.val)).toNat.testBit 4 = d ∧
      (UInt8.ofNat (a.toNat <<< 7 ||| b.toNat <<< 6 ||| c.toNat <<< 5 ||| d.toNat <<< 4 ||| o.val)).toNat &&& 15 = o.val ∧
      ((UInt8.ofNat (a.toNat <<< 7 ||| b.toNat <<< 6 ||| c.toNat <<< 5 ||| d.toNat <<< 4 ||| o.val)).toNat &&& 0b01110000 ≠ 0 ↔ b = true ∨ c = true ∨ d = true) ∧
      ((UInt8.ofNat (a.toNat <<< 7 ||| b.toNat <<< 6 ||| c.toNat <<< 5 ||| d.toNat <<< 4 ||| o.val)).toNat &&& 0b01110000 &&& 0b00110000 ≠ 0 ↔ c = true ∨ d = true) ∧
      ((UInt8.ofNat (a.toNat <<< 7 ||| b.toNat <<< 6 ||| c.toNat <<< 5 ||| d.toNat <<< 4 ||| o.val)).toNat &&& 0b10000000 ≠ 0 ↔ a = true) ∧
      natBits 8 (UInt8.ofNat (a.toNat <<< 7 ||| b.toNat <<< 6 ||| c.toNat <<< 5 ||| d.toNat <<< 4 ||| o.val)).toNat = [a, b, c, d] ++ natBits 4 o.val := by
      decide +kernel
    intro a b c d o x hx
    rw [hx]
    exact this a b c d o
  exact key f.fin f.rsv1 f.rsv2 f.rsv3 ⟨f.opcode, h⟩ _ rfl

theorem byte1_toNat (f : WsFrame) :
    (byte1 f).toNat.testBit 7 = f.key.isSome ∧ (byte1 f).toNat &&& 127 = len7 f.len ∧
    natBits 8 (byte1 f).toNat = [f.key.isSome] ++ natBits 7 (len7 f.len) := by
  have : ∀ (m : Bool) (o : Fin 128), (UInt8.ofNat (m.toNat <<< 7 ||| o.val)).toNat.testBit 7 = m ∧
      (UInt8.ofNat (m.toNat <<< 7 ||| o.val)).toNat &&& 127 = o.val ∧
      natBits 8 (UInt8.ofNat (m.toNat <<< 7 ||| o.val)).toNat = [m] ++ natBits 7 o.val := by decide +kernel
  exact this f.key.isSome ⟨len7 f.len, len7_lt _⟩

theorem word_eq (b0 b1 : Byte) : b1.toNat <<< 8 ||| b0.toNat = 2 ^ 8 * b1.toNat + b0.toNat := by
  rw [← Nat.shiftLeft_add_eq_or_of_lt (UInt8.toNat_lt b0), Nat.shiftLeft_eq, Nat.mul_comm]

theorem word_testBit_lo (b0 b1 : Byte) (i : Nat) (h : i < 8) :
    (b1.toNat <<< 8 ||| b0.toNat).testBit i = b0.toNat.testBit i := by
  rw [word_eq, Nat.testBit_two_pow_mul_add _ (UInt8.toNat_lt b0), if_pos h]

theorem word_testBit_hi (b0 b1 : Byte) (i : Nat) :
    (b1.toNat <<< 8 ||| b0.toNat).testBit (8 + i) = b1.toNat.testBit i := by
  rw [word_eq, Nat.testBit_two_pow_mul_add _ (UInt8.toNat_lt b0), if_neg (by omega)]
  congr 1; omega

theorem word_and (b0 b1 : Byte) (m : Nat) (hm : m < 256) : (b1.toNat <<< 8 ||| b0.toNat) &&& m = b0.toNat &&& m := by
  apply Nat.eq_of_testBit_eq
  intro i
  rw [Nat.testBit_and, Nat.testBit_and]
  by_cases hi : i < 8
  · rw [word_testBit_lo _ _ _ hi]
  · have : m.testBit i = false := Nat.testBit_lt_two_pow (Nat.lt_of_lt_of_le hm (Nat.pow_le_pow_right (n := 2) (by omega) (by omega : 8 ≤ i)))
    simp [this]

theorem word_shift (b0 b1 : Byte) : (b1.toNat <<< 8 ||| b0.toNat) >>> 8 = b1.toNat := by
  rw [word_eq, Nat.shiftRight_eq_div_pow]
  have := UInt8.toNat_lt b0
  omega

def word (f : WsFrame) : Nat := (byte1 f).toNat <<< 8 ||| (byte0 f).toNat

/-- The header fields after unpacking. -/
theorem unpack_word (old : FrameHeader) (f : WsFrame) (h : f.opcode < 16) : unpack old (word f)
    = { old with fin := f.fin, rsv1 := f.rsv1, rsv2 := f.rsv2, rsv3 := f.rsv3, opcode := f.opcode
                 masked := f.key.isSome, reserved_1 := len7 f.len } := by
  obtain ⟨h1, h2, h3, h4, h5, _⟩ := byte0_toNat f h
  obtain ⟨g1, g2, _⟩ := byte1_toNat f
  unfold unpack word
  rw [word_testBit_lo _ _ _ (by omega), word_testBit_lo _ _ _ (by omega), word_testBit_lo _ _ _ (by omega),
    word_testBit_lo _ _ _ (by omega), word_and _ _ _ (by omega), word_shift, h1, h2, h3, h4, h5,
    show (15 : Nat) = 8 + 7 from rfl, word_testBit_hi, g1, g2]

theorem len7_gt (n : Nat) : len7 n > 125 ↔ ¬ n ≤ 125 := by
  unfold len7; (repeat' split) <;> omega

/-! ### The checks -/

/-- The message state after a legal frame. -/
def note (p : Parser) (f : WsFrame) : Parser :=
  if f.opcode = 1 ∨ f.opcode = 2 then
    { p with m_fin := f.fin, m_rsv1 := f.rsv1, m_rsv2 := f.rsv2, m_rsv3 := f.rsv3, m_opcode := f.opcode }
  else if f.opcode = 0 then (if f.fin then { p with m_fin := true } else p)
  else p

def unpacked (p : Parser) (f : WsFrame) : Parser := { p with frm_header := unpack p.frm_header (word f) }

def serverOf (p : Parser) : Bool := p.wshs == .s_accepted
def pmceOf (p : Parser) : Bool := p.pmce_send_window_bits != 0

theorem check_legal (p : Parser) (f : WsFrame) (hf : f.opcode < 16)
    (hl : f.Legal (serverOf p) (pmceOf p) (p.m_opcode != 0)) :
    (unpacked p f).check (word f) = note (unpacked p f) f := by
  obtain ⟨_, _, _, _, _, h6, h7, h8, _⟩ := byte0_toNat f hf
  have e6 : word f &&& 0b01110000 = (byte0 f).toNat &&& 0b01110000 := word_and _ _ _ (by omega)
  have e8 : word f &&& 0b10000000 = (byte0 f).toNat &&& 0b10000000 := word_and _ _ _ (by omega)
  have hu := unpack_word p.frm_header f hf
  obtain ⟨hmask, hl⟩ := hl
  have c1 : ¬ ((unpacked p f).wshs = .s_accepted ∧ (unpacked p f).frm_header.masked = false) := by
    rintro ⟨a, b⟩
    have hs : serverOf p = true := by simpa [serverOf, unpacked] using a
    have hm := hmask hs
    simp only [unpacked, hu] at b
    cases hk : f.key with
    | none => exact hm hk
    | some k => rw [hk] at b; simp at b
  unfold Parser.check
  simp only
  rw [if_neg c1]
  have o1 : (unpacked p f).frm_header.opcode = f.opcode := by simp only [unpacked, hu]
  have o2 : (unpacked p f).m_opcode = p.m_opcode := rfl
  have o3 : (unpacked p f).pmce_send_window_bits = p.pmce_send_window_bits := rfl
  have o4 : (unpacked p f).frm_header.reserved_1 = len7 f.len := by simp only [unpacked, hu]
  have o5 : (unpacked p f).frm_header.fin = f.fin := by simp only [unpacked, hu]
  have o6 : (unpacked p f).frm_header.rsv1 = f.rsv1 := by simp only [unpacked, hu]
  have o7 : (unpacked p f).frm_header.rsv2 = f.rsv2 := by simp only [unpacked, hu]
  have o8 : (unpacked p f).frm_header.rsv3 = f.rsv3 := by simp only [unpacked, hu]
  rw [o1, o2, o3, o4, o5, o6, o7, o8, e6, e8]
  rcases hl with ⟨ho, hin, h1, h2, h3⟩ | ⟨ho, hin, h1, h2, h3⟩ | ⟨ho, hfin, hlen, h1, h2, h3⟩
  · have hin' : p.m_opcode = 0 := by simpa using hin
    have hnote : note (unpacked p f) f = { unpacked p f with m_fin := f.fin, m_rsv1 := f.rsv1, m_rsv2 := f.rsv2, m_rsv3 := f.rsv3, m_opcode := f.opcode } := by
      unfold note; rw [if_pos ho]
    rw [hnote, if_pos ho, if_neg (by simp [hin'])]
    rw [if_neg]
    · rfl
    intro hne
    split at hne
    · rw [h7] at hne; simp [h2, h3] at hne
    · rename_i hcond
      rw [h6] at hne
      have : f.rsv1 = true := by simpa [h2, h3] using hne
      have hp := h1 this
      apply hcond
      rw [h6]
      exact ⟨Or.inl this, by simpa [pmceOf] using hp⟩
  · have hin' : ¬ p.m_opcode = 0 := by simpa using hin
    have hnote : note (unpacked p f) f = if f.fin = true then { unpacked p f with m_fin := true } else unpacked p f := by
      unfold note; rw [if_neg (by omega), if_pos ho]
    rw [hnote, if_neg (show ¬ (f.opcode = ws_TEXT ∨ f.opcode = ws_BINARY) by show ¬ (f.opcode = 1 ∨ f.opcode = 2); omega),
      if_pos ho, if_neg (show ¬ (byte0 f).toNat &&& 0b01110000 ≠ 0 by rw [h6]; simp [h1, h2, h3]), if_neg hin']
    by_cases hfin : f.fin = true
    · rw [if_pos (h8.mpr hfin), if_pos hfin]; rfl
    · rw [if_neg (fun e => hfin (h8.mp e)), if_neg hfin]
  · have hnote : note (unpacked p f) f = unpacked p f := by
      unfold note; rw [if_neg (by omega), if_neg (by omega)]
    rw [hnote, if_neg (show ¬ (f.opcode = 1 ∨ f.opcode = 2) by omega), if_neg (show ¬ f.opcode = 0 by omega), if_pos ho,
      if_neg (by rw [h6]; simp [h1, h2, h3]),
      if_neg (by rw [len7_gt]; omega), if_neg (by simp [hfin])]

theorem check_illegal (p : Parser) (f : WsFrame) (hf : f.opcode < 16)
    (hl : ¬ f.Legal (serverOf p) (pmceOf p) (p.m_opcode != 0)) :
    ∃ desc, (unpacked p f).check (word f) = (unpacked p f).fail desc := by
  obtain ⟨_, _, _, _, _, h6, h7, h8, _⟩ := byte0_toNat f hf
  have e6 : word f &&& 0b01110000 = (byte0 f).toNat &&& 0b01110000 := word_and _ _ _ (by omega)
  have hu := unpack_word p.frm_header f hf
  unfold Parser.check
  simp only
  have o1 : (unpacked p f).frm_header.opcode = f.opcode := by simp only [unpacked, hu]
  have o2 : (unpacked p f).m_opcode = p.m_opcode := rfl
  have o3 : (unpacked p f).pmce_send_window_bits = p.pmce_send_window_bits := rfl
  have o4 : (unpacked p f).frm_header.reserved_1 = len7 f.len := by simp only [unpacked, hu]
  have o5 : (unpacked p f).frm_header.fin = f.fin := by simp only [unpacked, hu]
  have o9 : (unpacked p f).frm_header.masked = f.key.isSome := by simp only [unpacked, hu]
  rw [o1, o2, o3, o4, o5, o9, e6]
  by_cases c1 : (unpacked p f).wshs = .s_accepted ∧ f.key.isSome = false
  · rw [if_pos c1]; exact ⟨_, rfl⟩
  rw [if_neg c1]
  have hmask : serverOf p = true → f.key ≠ none := by
    intro hs hk
    exact c1 ⟨by simpa [serverOf, unpacked] using hs, by simp [hk]⟩
  have hl' := fun h => hl ⟨hmask, h⟩
  split
  · rename_i ho
    split
    · exact ⟨_, rfl⟩
    · rename_i hin
      have hin' : (p.m_opcode != 0) = false := by simpa using hin
      by_cases hr : (if (byte0 f).toNat &&& 0b01110000 ≠ 0 ∧ p.pmce_send_window_bits ≠ 0
          then (byte0 f).toNat &&& 0b01110000 &&& 0b00110000 else (byte0 f).toNat &&& 0b01110000) ≠ 0
      · rw [if_pos hr]; exact ⟨_, rfl⟩
      · exfalso
        apply hl'
        refine Or.inl ⟨ho, hin', ?_⟩
        by_cases hany : f.rsv1 = true ∨ f.rsv2 = true ∨ f.rsv3 = true
        · by_cases hp : p.pmce_send_window_bits ≠ 0
          · rw [if_pos ⟨h6.mpr hany, hp⟩, h7] at hr
            simp only [not_or, Bool.not_eq_true] at hr
            exact ⟨fun _ => by simpa [pmceOf] using hp, hr.1, hr.2⟩
          · rw [if_neg (by simp [hp]), h6] at hr
            exact absurd hany hr
        · simp only [not_or, Bool.not_eq_true] at hany
          exact ⟨fun e => by simp [hany.1] at e, hany.2.1, hany.2.2⟩
  · rename_i ho
    split
    · rename_i ho2
      split
      · exact ⟨_, rfl⟩
      · rename_i hr
        rw [h6] at hr
        simp only [not_or, Bool.not_eq_true] at hr
        split
        · exact ⟨_, rfl⟩
        · rename_i hin
          exact absurd (Or.inr (Or.inl ⟨ho2, by simpa using hin, hr⟩)) hl'
    · rename_i ho2
      split
      · rename_i ho3
        split
        · exact ⟨_, rfl⟩
        · rename_i hr
          rw [h6] at hr
          simp only [not_or, Bool.not_eq_true] at hr
          split
          · exact ⟨_, rfl⟩
          · rename_i hlen
            rw [len7_gt, Decidable.not_not] at hlen
            split
            · exact ⟨_, rfl⟩
            · rename_i hfin
              exact absurd (Or.inr (Or.inr ⟨ho3, by simpa using hfin, hlen, hr⟩)) hl'
      · exact ⟨_, rfl⟩

/-! ### Length and key -/

/-- The parser after a complete legal header. -/
def completed (p : Parser) (f : WsFrame) : Parser :=
  { note p f with
    frm_header := { p.frm_header with fin := f.fin, rsv1 := f.rsv1, rsv2 := f.rsv2, rsv3 := f.rsv3, opcode := f.opcode
                                      masked := f.key.isSome, reserved_1 := len7 f.len, payload_len := f.len
                                      masking_key := f.key.getD p.frm_header.masking_key }
    frm_payload_rem := f.len
    wsf := .header_done }

theorem note_header (p : Parser) (f : WsFrame) (h : FrameHeader) :
    note { p with frm_header := h } f = { note p f with frm_header := h } := by
  unfold note
  split
  · rfl
  · split
    · split <;> rfl
    · rfl

theorem note_fields (p : Parser) (f : WsFrame) : (note p f).frm_header = p.frm_header ∧ (note p f).wsf = p.wsf ∧
    (note p f).wshs = p.wshs ∧ (note p f).frm_payload = p.frm_payload ∧
    (note p f).max_message_length = p.max_message_length ∧
    (note p f).pmce_send_window_bits = p.pmce_send_window_bits ∧ (note p f).error_desc = p.error_desc := by
  unfold note
  split
  · simp
  · split
    · split <;> simp
    · simp

theorem finish_header_complete (q : Parser) (f : WsFrame) (hf : f.Fits) (pre rest : Bytes)
    (hm : q.frm_header.masked = f.key.isSome) :
    q.finish_header pre.length (pre ++ (keyBytes f ++ rest)) =
      ({ q with frm_header := { q.frm_header with masking_key := f.key.getD q.frm_header.masking_key }
                frm_payload_rem := q.frm_header.payload_len, wsf := .header_done }, rest) := by
  unfold Parser.finish_header keyBytes
  rw [hm]
  cases hk : f.key with
  | none => simp
  | some k =>
    have hk' := hf.key k hk
    simp only [Option.isSome_some, if_true]
    rw [if_neg (by simp only [List.length_append, beBytes_length]; omega)]
    simp only [Parser.setKey]
    have e1 : (pre ++ (beBytes 4 k ++ rest)).drop (pre.length + 4) = rest := by
      rw [← List.append_assoc, List.drop_left' (by simp)]
    have e2 : ((pre ++ (beBytes 4 k ++ rest)).drop pre.length).take 4 = beBytes 4 k := by
      rw [List.drop_left, List.take_left' (by simp)]
    rw [e1, e2, beNat_beBytes, Nat.mod_eq_of_lt (by simpa using hk'), Option.getD_some]

theorem parse_length_complete (q : Parser) (f : WsFrame) (hf : f.Fits) (rest : Bytes)
    (hm : q.frm_header.masked = f.key.isSome) (hr : q.frm_header.reserved_1 = len7 f.len) :
    q.parse_length (encode (toHeader f) ++ rest) =
      ({ q with frm_header := { q.frm_header with payload_len := f.len, masking_key := f.key.getD q.frm_header.masking_key }
                frm_payload_rem := f.len, wsf := .header_done }, rest) := by
  rw [encode_eq]
  unfold Parser.parse_length
  rw [hr]
  unfold len7
  by_cases h1 : f.len ≤ 125
  · have e : extLen f.len = [] := by simp [extLen, h1]
    rw [if_pos h1, if_pos h1, e]
    have := finish_header_complete (q.setLen f.len) f hf [byte0 f, byte1 f] rest (by simpa [Parser.setLen] using hm)
    simpa [Parser.setLen] using this
  · rw [if_neg h1]
    by_cases h2 : f.len ≤ 65535
    · have e : extLen f.len = beBytes 2 f.len := by simp [extLen, h1, h2]
      rw [if_pos h2, if_neg (by omega), if_pos rfl, e]
      rw [if_neg (by simp only [List.length_append, List.length_cons, beBytes_length]; omega)]
      have e1 : beNat (((byte0 f :: byte1 f :: (beBytes 2 f.len ++ keyBytes f) ++ rest).drop 2).take 2) = f.len := by
        simp only [List.cons_append, List.drop_succ_cons, List.drop_zero, List.append_assoc]
        rw [List.take_left' (by simp), beNat_beBytes, Nat.mod_eq_of_lt (by omega)]
      rw [e1]
      have := finish_header_complete (q.setLen f.len) f hf (byte0 f :: byte1 f :: beBytes 2 f.len) rest
        (by simpa [Parser.setLen] using hm)
      simpa [Parser.setLen] using this
    · have e : extLen f.len = beBytes 8 f.len := by simp [extLen, h1, h2]
      rw [if_neg h2, if_neg (by omega), if_neg (by omega), e]
      rw [if_neg (by simp only [List.length_append, List.length_cons, beBytes_length]; omega)]
      have e1 : beNat (((byte0 f :: byte1 f :: (beBytes 8 f.len ++ keyBytes f) ++ rest).drop 2).take 8) = f.len := by
        simp only [List.cons_append, List.drop_succ_cons, List.drop_zero, List.append_assoc]
        rw [List.take_left' (by simp), beNat_beBytes, Nat.mod_eq_of_lt (by have := hf.len; omega)]
      rw [e1]
      have := finish_header_complete (q.setLen f.len) f hf (byte0 f :: byte1 f :: beBytes 8 f.len) rest
        (by simpa [Parser.setLen] using hm)
      simpa [Parser.setLen] using this

/-! ### Whole headers -/

theorem parse_legal (p : Parser) (f : WsFrame) (hf : f.Fits) (rest : Bytes) (he : p.established = true) (hn : p.wsf = .new)
    (hl : f.Legal (serverOf p) (pmceOf p) (p.forget.m_opcode != 0)) :
    p.parse_frame_header (encode (toHeader f) ++ rest) = .ok (completed p.forget f, rest) := by
  have hs : serverOf p = serverOf p.forget ∧ pmceOf p = pmceOf p.forget ∧ p.forget.wsf = p.wsf := by
    unfold Parser.forget serverOf pmceOf; split <;> simp
  rw [hs.1, hs.2.1] at hl
  have hc := check_legal p.forget f hf.opcode hl
  unfold Parser.parse_frame_header
  rw [if_neg (by simp [he]), if_neg (by simp [hn])]
  simp only
  have hdata : encode (toHeader f) ++ rest = byte0 f :: byte1 f :: (extLen f.len ++ keyBytes f ++ rest) := by
    rw [encode_eq]; rfl
  split
  · rename_i b0 b1 t heq
    rw [hdata] at heq
    simp only [List.cons.injEq] at heq
    obtain ⟨rfl, rfl, _⟩ := heq
    have hcw : ({ p.forget with frm_header := unpack p.forget.frm_header ((byte1 f).toNat <<< 8 ||| (byte0 f).toNat) }).check
        ((byte1 f).toNat <<< 8 ||| (byte0 f).toNat) = note (unpacked p.forget f) f := hc
    rw [hcw]
    obtain ⟨n1, n2, n3, n4, n5, n6, n7⟩ := note_fields (unpacked p.forget f) f
    rw [if_neg (by rw [n2]; simp [unpacked, hs.2.2, hn])]
    congr 1
    have hu := unpack_word p.forget.frm_header f hf.opcode
    rw [parse_length_complete _ f hf rest (by rw [n1]; simp only [unpacked, hu]) (by rw [n1]; simp only [unpacked, hu])]
    rw [n1]
    unfold completed unpacked
    rw [note_header, hu]
  · rename_i hne
    exact absurd hdata (by intro e; exact hne _ _ _ e)

theorem parse_illegal (p : Parser) (f : WsFrame) (hf : f.opcode < 16) (rest : Bytes) (he : p.established = true) (hn : p.wsf = .new)
    (hl : ¬ f.Legal (serverOf p) (pmceOf p) (p.forget.m_opcode != 0)) :
    ∃ desc, p.parse_frame_header (encode (toHeader f) ++ rest)
      = .ok ((unpacked p.forget f).fail desc, encode (toHeader f) ++ rest) := by
  have hs : serverOf p = serverOf p.forget ∧ pmceOf p = pmceOf p.forget := by
    unfold Parser.forget serverOf pmceOf; split <;> simp
  rw [hs.1, hs.2] at hl
  obtain ⟨desc, hc⟩ := check_illegal p.forget f hf hl
  refine ⟨desc, ?_⟩
  unfold Parser.parse_frame_header
  rw [if_neg (by simp [he]), if_neg (by simp [hn])]
  simp only
  have hdata : encode (toHeader f) ++ rest = byte0 f :: byte1 f :: (extLen f.len ++ keyBytes f ++ rest) := by
    rw [encode_eq]; rfl
  split
  · rename_i b0 b1 t heq
    rw [hdata] at heq
    simp only [List.cons.injEq] at heq
    obtain ⟨rfl, rfl, _⟩ := heq
    have hcw : ({ p.forget with frm_header := unpack p.forget.frm_header ((byte1 f).toNat <<< 8 ||| (byte0 f).toNat) }).check
        ((byte1 f).toNat <<< 8 ||| (byte0 f).toNat) = (unpacked p.forget f).fail desc := hc
    rw [hcw, if_pos (by simp [Parser.fail])]
  · rename_i hne
    exact absurd hdata (by intro e; exact hne _ _ _ e)

/-! ### Layout -/

theorem natBits_byte_append (len n : Nat) : wireBits (beBytes len n) = natBits (8 * len) n := by
  induction len generalizing n with
  | zero => rfl
  | succ k ih =>
    have step : wireBits (beBytes (k + 1) n) = wireBits (beBytes k (n / 256)) ++ natBits 8 (n % 256) := by
      simp [beBytes, wireBits]
    rw [step, ih]
    unfold natBits
    rw [show 8 * (k + 1) = 8 * k + 8 by omega, List.range_add, List.map_append, List.map_map]
    congr 1
    · apply List.map_congr_left
      intro i hi
      have hi := List.mem_range.mp hi
      rw [show (256 : Nat) = 2 ^ 8 from rfl, Nat.testBit_div_two_pow]
      congr 1; omega
    · apply List.map_congr_left
      intro i hi
      have hi := List.mem_range.mp hi
      rw [show (256 : Nat) = 2 ^ 8 from rfl, Nat.testBit_mod_two_pow]
      simp only [Function.comp_apply]
      rw [show 8 * k + 8 - 1 - (8 * k + i) = 8 - 1 - i by omega]
      simp
      omega

theorem encode_bits (f : WsFrame) (hf : f.opcode < 16) : wireBits (encode (toHeader f)) = f.bits := by
  obtain ⟨_, _, _, _, _, _, _, _, h0⟩ := byte0_toNat f hf
  obtain ⟨_, _, h1⟩ := byte1_toNat f
  rw [encode_eq]
  have split : wireBits (byte0 f :: byte1 f :: (extLen f.len ++ keyBytes f))
      = natBits 8 (byte0 f).toNat ++ natBits 8 (byte1 f).toNat ++ wireBits (extLen f.len) ++ wireBits (keyBytes f) := by
    simp [wireBits]
  rw [split, h0, h1]
  unfold WsFrame.bits
  have hk : wireBits (keyBytes f) = (match f.key with | some k => natBits 32 k | none => []) := by
    unfold keyBytes
    cases f.key with
    | none => rfl
    | some k => exact natBits_byte_append 4 k
  rw [hk]
  unfold len7 extLen
  split
  · cases f.key <;> simp [wireBits]
  · split
    · rw [natBits_byte_append]; cases f.key <;> simp
    · rw [natBits_byte_append]; cases f.key <;> simp

end Verif.Ws
