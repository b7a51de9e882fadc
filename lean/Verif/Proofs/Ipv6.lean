import Verif.Spec.Ipv6
import Verif.Proofs.UuidOrder
import Verif.Proofs.HttpMessage
import Verif.Proofs.NetRef
/-! # Lemmas about addresses -/
namespace Verif.Ipv6
open Verif.Spec

theorem beNat_take (a : Bytes) (k : Nat) (hk : k ≤ a.length) : beNat a / 256 ^ (a.length - k) = beNat (a.take k) := by
  conv => lhs; rw [← List.take_append_drop k a, beNat_append]
  have h := beNat_lt (a.drop k)
  rw [List.length_drop] at h
  have hl : (a.take k ++ a.drop k).length - k = a.length - k := by rw [List.take_append_drop]
  rw [hl, List.length_drop]
  have hp : 0 < 256 ^ (a.length - k) := Nat.pow_pos (by decide)
  rw [Nat.mul_comm, Nat.mul_add_div hp, Nat.div_eq_of_lt h, Nat.add_zero]

theorem beNat_drop (a : Bytes) (k : Nat) (hk : k ≤ a.length) : beNat a % 256 ^ (a.length - k) = beNat (a.drop k) := by
  conv => lhs; rw [← List.take_append_drop k a, beNat_append]
  have h := beNat_lt (a.drop k)
  rw [List.length_drop] at h
  have hl : (a.take k ++ a.drop k).length - k = a.length - k := by rw [List.take_append_drop]
  rw [hl, List.length_drop, Nat.mul_comm, Nat.mul_add_mod, Nat.mod_eq_of_lt h]

theorem and_xor (m x y : Byte) : m &&& (x ^^^ y) = (m &&& x) ^^^ (m &&& y) := by
  apply UInt8.toBitVec_inj.1
  simp only [UInt8.toBitVec_and, UInt8.toBitVec_xor]
  ext i hi
  simp only [BitVec.getElem_and, BitVec.getElem_xor]
  cases m.toBitVec[i] <;> simp

theorem xor_mask (m x y : Byte) : (m &&& (x ^^^ y)) = 0 ↔ (m &&& x) = (m &&& y) := by
  constructor
  · intro h
    have h2 : (m &&& x) ^^^ (m &&& y) = 0 := by rw [← h]; rw [and_xor] 
    exact UInt8.xor_eq_zero_iff.1 h2
  · intro h
    rw [and_xor, h, UInt8.xor_self]

/-- A prefix of whole bytes. -/
theorem match_bytes (a m : Bytes) (k : Nat) (ha : k ≤ a.length) (hm : m.length = k) :
    match_subnet a m (8 * k) = decide (beNat a / 256 ^ (a.length - k) = beNat m) := by
  unfold match_subnet
  have h1 : 8 * k / 8 = k := by omega
  have h2 : 8 * k % 8 = 0 := by omega
  rw [h1, h2]
  have h3 : UInt8.ofNat (0xFF &&& (0xFF00 >>> 0)) = 0 := by decide
  dsimp only
  rw [h3, UInt8.zero_and, beq_self_eq_true, Bool.and_true, beNat_take a k ha, List.take_of_length_le (Nat.le_of_eq hm)]
  apply Bool.eq_iff_iff.2
  rw [beq_iff_eq, decide_eq_true_iff]
  constructor
  · intro h; rw [h]
  · intro h; exact Uuid.beNat_inj _ _ (by rw [List.length_take]; omega) h

/-- A prefix of whole bytes and some bits. -/
theorem match_bits (a m : Bytes) (y : Byte) (k r : Nat) (ha : k < a.length) (hm : m.length = k) (hr : r < 8) (mask : Byte)
    (hmask : UInt8.ofNat (0xFF &&& (0xFF00 >>> r)) = mask)
    (hx : ∀ x : Byte, (mask &&& x) = (mask &&& y) ↔ x.toNat / 2 ^ (8 - r) = y.toNat / 2 ^ (8 - r)) :
    match_subnet a (m ++ [y]) (8 * k + r) = decide (beNat a / 256 ^ (a.length - (k + 1)) / 2 ^ (8 - r) = beNat (m ++ [y]) / 2 ^ (8 - r)) := by
  have h1 : (8 * k + r) / 8 = k := by omega
  have h2 : (8 * k + r) % 8 = r := by omega
  unfold match_subnet
  dsimp only
  rw [h1, h2, hmask]
  have h3 : (m ++ [y]).take k = m := by rw [List.take_append_of_le_length (by omega), List.take_of_length_le (by omega)]
  have h4 : (m ++ [y]).getD k 0 = y := by simp [← hm]
  have h5 : a.take (k + 1) = a.take k ++ [a.getD k 0] := by
    rw [List.take_succ_eq_append_getElem ha]; simp [List.getD, ha]
  rw [h3, h4, beNat_take a (k + 1) (by omega), h5, beNat_append_single, beNat_append_single]
  have hxa := hx (a.getD k 0)
  generalize a.getD k 0 = x at *
  have hxl := UInt8.toNat_lt x
  have hyl := UInt8.toNat_lt y
  have h256 : (256 : Nat) = 2 ^ r * 2 ^ (8 - r) := by rw [← Nat.pow_add]; rw [show r + (8 - r) = 8 by omega]
  have hp : 0 < 2 ^ (8 - r) := Nat.pow_pos (by decide)
  have hdiv : ∀ n x, (n * 256 + x) / 2 ^ (8 - r) = n * 2 ^ r + x / 2 ^ (8 - r) := by
    intro n x
    rw [h256, ← Nat.mul_assoc, Nat.mul_comm (n * 2 ^ r), Nat.mul_add_div hp]
  rw [hdiv, hdiv]
  have hsm : ∀ x : Byte, x.toNat / 2 ^ (8 - r) < 2 ^ r := by
    intro x
    have := UInt8.toNat_lt x
    rw [Nat.div_lt_iff_lt_mul hp, ← h256]
    exact this
  apply Bool.eq_iff_iff.2
  rw [Bool.and_eq_true, beq_iff_eq, beq_iff_eq, decide_eq_true_iff, xor_mask, hxa]
  have s1 := hsm x
  have s2 := hsm y
  generalize x.toNat / 2 ^ (8 - r) = u at *
  generalize y.toNat / 2 ^ (8 - r) = w at *
  have hpr : 0 < 2 ^ r := Nat.pow_pos (by decide)
  constructor
  · rintro ⟨h, rfl⟩; rw [h]
  · intro h
    have hu : u = w := by
      have := congrArg (· % 2 ^ r) h
      simpa [Nat.mod_eq_of_lt s1, Nat.mod_eq_of_lt s2] using this
    subst hu
    refine ⟨?_, rfl⟩
    have := Nat.add_right_cancel h
    exact Uuid.beNat_inj _ _ (by rw [List.length_take]; omega) (Nat.eq_of_mul_eq_mul_right hpr this)

/-- Blocks by their common prefix. -/
theorem inBlock_div (w v base len : Nat) (h : base % 2 ^ (w - len) = 0) :
    InBlock w v base len ↔ v / 2 ^ (w - len) = base / 2 ^ (w - len) := by
  unfold InBlock
  have hp : 0 < 2 ^ (w - len) := Nat.pow_pos (by decide)
  generalize 2 ^ (w - len) = P at *
  have hb : base = base / P * P := by have := Nat.div_add_mod base P; rw [h, Nat.add_zero, Nat.mul_comm] at this; exact this.symm
  generalize base / P = q at *
  subst hb
  rw [Nat.div_eq_iff hp]
  omega

theorem decide_block {w v base len : Nat} {P : Prop} [Decidable P] (h : P ↔ InBlock w v base len) : decide P = decide (InBlock w v base len) := by
  rw [decide_eq_decide]; exact h

/-- A whole-byte prefix as a block. -/
theorem match_block (a m : Bytes) (base k : Nat) (ha : k ≤ a.length) (hm : m.length = k) (hb : base = beNat m * 256 ^ (a.length - k)) :
    match_subnet a m (8 * k) = decide (InBlock (8 * a.length) (beNat a) base (8 * k)) := by
  rw [match_bytes a m k ha hm]
  apply decide_block
  have e : 2 ^ (8 * a.length - 8 * k) = 256 ^ (a.length - k) := by
    rw [← Nat.mul_sub, Nat.pow_mul]
  have hp : 0 < 256 ^ (a.length - k) := Nat.pow_pos (by decide)
  rw [inBlock_div _ _ _ _ (by rw [e, hb]; exact Nat.mul_mod_left _ _), e, hb, Nat.mul_div_cancel _ hp]

theorem match_block_bits (a m : Bytes) (y : Byte) (base k r : Nat) (ha : k < a.length) (hm : m.length = k) (hr : r < 8) (mask : Byte)
    (hmask : UInt8.ofNat (0xFF &&& (0xFF00 >>> r)) = mask)
    (hx : ∀ x : Byte, (mask &&& x) = (mask &&& y) ↔ x.toNat / 2 ^ (8 - r) = y.toNat / 2 ^ (8 - r))
    (hb : base = beNat (m ++ [y]) * 256 ^ (a.length - (k + 1))) (hy : y.toNat % 2 ^ (8 - r) = 0) :
    match_subnet a (m ++ [y]) (8 * k + r) = decide (InBlock (8 * a.length) (beNat a) base (8 * k + r)) := by
  rw [match_bits a m y k r ha hm hr mask hmask hx]
  apply decide_block
  have e : 2 ^ (8 * a.length - (8 * k + r)) = 256 ^ (a.length - (k + 1)) * 2 ^ (8 - r) := by
    rw [show (256 : Nat) = 2 ^ 8 by decide, ← Nat.pow_mul, ← Nat.pow_add]
    congr 1; omega
  have hp : 0 < 256 ^ (a.length - (k + 1)) := Nat.pow_pos (by decide)
  have hp2 : 0 < 2 ^ (8 - r) := Nat.pow_pos (by decide)
  have hd : beNat (m ++ [y]) % 2 ^ (8 - r) = 0 := by
    rw [beNat_append_single]
    have h256 : (256 : Nat) = 2 ^ r * 2 ^ (8 - r) := by rw [← Nat.pow_add]; rw [show r + (8 - r) = 8 by omega]
    rw [h256, ← Nat.mul_assoc, Nat.add_comm, Nat.add_mul_mod_self_right, hy]
  rw [inBlock_div]
  · rw [e, ← Nat.div_div_eq_div_mul, ← Nat.div_div_eq_div_mul, hb, Nat.mul_div_cancel _ hp]
  · rw [e, hb, Nat.mul_comm, Nat.mul_mod_mul_left, hd, Nat.mul_zero]

theorem v4_matches (a : Bytes) (ha : a.length = 4) :
    match_subnet a [0, 0, 0, 0] 32 = decide (InBlock 32 (beNat a) (v4 0 0 0 0) 32) ∧
    match_subnet a [0xFF, 0xFF, 0xFF, 0xFF] 32 = decide (InBlock 32 (beNat a) (v4 255 255 255 255) 32) ∧
    match_subnet a [0] 8 = decide (InBlock 32 (beNat a) (v4 0 0 0 0) 8) ∧
    match_subnet a [0x0A] 8 = decide (InBlock 32 (beNat a) (v4 10 0 0 0) 8) ∧
    match_subnet a [0x7F] 8 = decide (InBlock 32 (beNat a) (v4 127 0 0 0) 8) ∧
    match_subnet a [0xAC, 0x10] 12 = decide (InBlock 32 (beNat a) (v4 172 16 0 0) 12) ∧
    match_subnet a [0xA9, 0xFE] 16 = decide (InBlock 32 (beNat a) (v4 169 254 0 0) 16) ∧
    match_subnet a [0xC0, 0xA8] 16 = decide (InBlock 32 (beNat a) (v4 192 168 0 0) 16) ∧
    match_subnet a [0xE0] 4 = decide (InBlock 32 (beNat a) (v4 224 0 0 0) 4) ∧
    match_subnet a [0xF0] 4 = decide (InBlock 32 (beNat a) (v4 240 0 0 0) 4) := by
  refine ⟨?_, ?_, ?_, ?_, ?_, ?_, ?_, ?_, ?_, ?_⟩
  · have := match_block a [0, 0, 0, 0] (v4 0 0 0 0) 4 (by omega) rfl (by rw [ha]; decide +kernel)
    rw [ha] at this; exact this
  · have := match_block a [0xFF, 0xFF, 0xFF, 0xFF] (v4 255 255 255 255) 4 (by omega) rfl (by rw [ha]; decide +kernel)
    rw [ha] at this; exact this
  · have := match_block a [0] (v4 0 0 0 0) 1 (by omega) rfl (by rw [ha]; decide +kernel)
    rw [ha] at this; exact this
  · have := match_block a [0x0A] (v4 10 0 0 0) 1 (by omega) rfl (by rw [ha]; decide +kernel)
    rw [ha] at this; exact this
  · have := match_block a [0x7F] (v4 127 0 0 0) 1 (by omega) rfl (by rw [ha]; decide +kernel)
    rw [ha] at this; exact this
  · have := match_block_bits a [0xAC] 0x10 (v4 172 16 0 0) 1 4 (by omega) rfl (by decide) 240 (by decide) (forall_byte (by decide +kernel)) (by rw [ha]; decide +kernel) (by decide)
    rw [ha] at this; exact this
  · have := match_block a [0xA9, 0xFE] (v4 169 254 0 0) 2 (by omega) rfl (by rw [ha]; decide +kernel)
    rw [ha] at this; exact this
  · have := match_block a [0xC0, 0xA8] (v4 192 168 0 0) 2 (by omega) rfl (by rw [ha]; decide +kernel)
    rw [ha] at this; exact this
  · have := match_block_bits a [] 0xE0 (v4 224 0 0 0) 0 4 (by omega) rfl (by decide) 240 (by decide) (forall_byte (by decide +kernel)) (by rw [ha]; decide +kernel) (by decide)
    rw [ha] at this; exact this
  · have := match_block_bits a [] 0xF0 (v4 240 0 0 0) 0 4 (by omega) rfl (by decide) 240 (by decide) (forall_byte (by decide +kernel)) (by rw [ha]; decide +kernel) (by decide)
    rw [ha] at this; exact this

theorem v6_matches (a : Bytes) (ha : a.length = 16) :
    match_subnet a mapped 96 = decide (InBlock 128 (beNat a) (v6 0 0 0 0 0 0xFFFF 0 0) 96) ∧
    match_subnet a [0, 0, 0, 0, 0, 0, 0, 0, 0, 0, 0, 0, 0, 0, 0, 0] 128 = decide (InBlock 128 (beNat a) (v6 0 0 0 0 0 0 0 0) 128) ∧
    match_subnet a [0, 0, 0, 0, 0, 0, 0, 0, 0, 0, 0, 0, 0, 0, 0, 1] 128 = decide (InBlock 128 (beNat a) (v6 0 0 0 0 0 0 0 1) 128) ∧
    match_subnet a [0, 0x64, 0xFF, 0x9B, 0, 0, 0, 0, 0, 0, 0, 0] 96 = decide (InBlock 128 (beNat a) (v6 0x64 0xFF9B 0 0 0 0 0 0) 96) ∧
    match_subnet a [0, 0x64, 0xFF, 0x9B, 0, 1] 48 = decide (InBlock 128 (beNat a) (v6 0x64 0xFF9B 1 0 0 0 0 0) 48) ∧
    match_subnet a [1, 0, 0, 0, 0, 0, 0, 0] 64 = decide (InBlock 128 (beNat a) (v6 0x100 0 0 0 0 0 0 0) 64) ∧
    match_subnet a [0x20, 0x01, 0x0D, 0xB8] 32 = decide (InBlock 128 (beNat a) (v6 0x2001 0xDB8 0 0 0 0 0 0) 32) ∧
    match_subnet a [0x20, 0x02] 16 = decide (InBlock 128 (beNat a) (v6 0x2002 0 0 0 0 0 0 0) 16) ∧
    match_subnet a [0xFC, 0] 7 = decide (InBlock 128 (beNat a) (v6 0xFC00 0 0 0 0 0 0 0) 7) ∧
    match_subnet a [0xFE, 0x80] 10 = decide (InBlock 128 (beNat a) (v6 0xFE80 0 0 0 0 0 0 0) 10) ∧
    match_subnet a [0xFF, 0] 8 = decide (InBlock 128 (beNat a) (v6 0xFF00 0 0 0 0 0 0 0) 8) := by
  refine ⟨?_, ?_, ?_, ?_, ?_, ?_, ?_, ?_, ?_, ?_, ?_⟩
  · have := match_block a mapped (v6 0 0 0 0 0 0xFFFF 0 0) 12 (by omega) rfl (by rw [ha]; decide +kernel)
    rw [ha] at this; exact this
  · have := match_block a [0, 0, 0, 0, 0, 0, 0, 0, 0, 0, 0, 0, 0, 0, 0, 0] (v6 0 0 0 0 0 0 0 0) 16 (by omega) rfl (by rw [ha]; decide +kernel)
    rw [ha] at this; exact this
  · have := match_block a [0, 0, 0, 0, 0, 0, 0, 0, 0, 0, 0, 0, 0, 0, 0, 1] (v6 0 0 0 0 0 0 0 1) 16 (by omega) rfl (by rw [ha]; decide +kernel)
    rw [ha] at this; exact this
  · have := match_block a [0, 0x64, 0xFF, 0x9B, 0, 0, 0, 0, 0, 0, 0, 0] (v6 0x64 0xFF9B 0 0 0 0 0 0) 12 (by omega) rfl (by rw [ha]; decide +kernel)
    rw [ha] at this; exact this
  · have := match_block a [0, 0x64, 0xFF, 0x9B, 0, 1] (v6 0x64 0xFF9B 1 0 0 0 0 0) 6 (by omega) rfl (by rw [ha]; decide +kernel)
    rw [ha] at this; exact this
  · have := match_block a [1, 0, 0, 0, 0, 0, 0, 0] (v6 0x100 0 0 0 0 0 0 0) 8 (by omega) rfl (by rw [ha]; decide +kernel)
    rw [ha] at this; exact this
  · have := match_block a [0x20, 0x01, 0x0D, 0xB8] (v6 0x2001 0xDB8 0 0 0 0 0 0) 4 (by omega) rfl (by rw [ha]; decide +kernel)
    rw [ha] at this; exact this
  · have := match_block a [0x20, 0x02] (v6 0x2002 0 0 0 0 0 0 0) 2 (by omega) rfl (by rw [ha]; decide +kernel)
    rw [ha] at this; exact this
  · have cut : match_subnet a [0xFC, 0] 7 = match_subnet a [0xFC] 7 := rfl
    rw [cut]
    have := match_block_bits a [] 0xFC (v6 0xFC00 0 0 0 0 0 0 0) 0 7 (by omega) rfl (by decide) 254 (by decide) (forall_byte (by decide +kernel)) (by rw [ha]; decide +kernel) (by decide)
    rw [ha] at this; exact this
  · have := match_block_bits a [0xFE] 0x80 (v6 0xFE80 0 0 0 0 0 0 0) 1 2 (by omega) rfl (by decide) 192 (by decide) (forall_byte (by decide +kernel)) (by rw [ha]; decide +kernel) (by decide)
    rw [ha] at this; exact this
  · have cut : match_subnet a [0xFF, 0] 8 = match_subnet a [0xFF] 8 := rfl
    rw [cut]
    have := match_block a [0xFF] (v6 0xFF00 0 0 0 0 0 0 0) 1 (by omega) rfl (by rw [ha]; decide +kernel)
    rw [ha] at this; exact this

end Verif.Ipv6
