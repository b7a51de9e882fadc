import Verif.Model.UuidLiteral
import Verif.Props.Uuid
/-!
# C01, C02: UUIDs from fields, and the operators on UUIDs
-/
namespace Verif.Props
open Verif Verif.Spec Verif.Uuid

theorem literal_bytes (xh xl y zh zl : Nat) : of_fields xh xl y zh zl = beBytes 4 xh ++ beBytes 2 xl ++ beBytes 2 y ++ beBytes 2 zh ++ beBytes 6 zl := by
  have e : ∀ n : Nat, UInt8.ofNat n = UInt8.ofNat (n % 256) := fun n => by simp [UInt8.ofNat, BitVec.ofNat, Fin.ofNat]
  simp only [of_fields, beBytes, Nat.shiftRight_eq_div_pow, Nat.div_div_eq_div_mul, List.nil_append, List.cons_append]
  rw [e (xh / _), e (xh / _), e (xh / _), e xh, e (xl / _), e xl, e (y / _), e y, e (zh / _), e zh, e (zl / _), e (zl / _), e (zl / _), e (zl / _), e (zl / _), e zl]

theorem literal_num (xh xl y zh zl : Nat) (h1 : xh < 2 ^ 32) (h2 : xl < 2 ^ 16) (h3 : y < 2 ^ 16) (h4 : zh < 2 ^ 16) (h5 : zl < 2 ^ 48) :
    beNat (of_fields xh xl y zh zl) = xh * 2 ^ 96 + xl * 2 ^ 80 + y * 2 ^ 64 + zh * 2 ^ 48 + zl := by
  rw [literal_bytes]
  simp only [beNat_append, beNat_beBytes, beBytes_length]
  have e4 : (256 : Nat) ^ 4 = 2 ^ 32 := by decide
  have e2 : (256 : Nat) ^ 2 = 2 ^ 16 := by decide
  have e6 : (256 : Nat) ^ 6 = 2 ^ 48 := by decide
  rw [e4, e2, e6, Nat.mod_eq_of_lt h1, Nat.mod_eq_of_lt h2, Nat.mod_eq_of_lt h3, Nat.mod_eq_of_lt h4, Nat.mod_eq_of_lt h5]
  omega

theorem hexDigit_lt {d : Byte} {v : Nat} (h : HexDigit d v) : v < 16 := by
  cases h <;> omega

theorem hexNum_append {a b : Bytes} {n m : Nat} (ha : HexNum a n) (hb : HexNum b m) : HexNum (a ++ b) (n * 16 ^ b.length + m) := by
  induction hb with
  | nil => simpa using ha
  | @snoc ds k d v _ hd ih =>
    have := HexNum.snoc ih hd
    rw [← List.append_assoc]
    have e : (n * 16 ^ ds.length + k) * 16 + v = n * 16 ^ (ds ++ [d]).length + (k * 16 + v) := by
      rw [List.length_append, List.length_singleton, Nat.pow_succ, ← Nat.mul_assoc]
      omega
    rwa [e] at this

theorem hexNum_lt {a : Bytes} {n : Nat} (h : HexNum a n) : n < 16 ^ a.length := by
  induction h with
  | nil => decide
  | snoc _ hd ih =>
    have := hexDigit_lt hd
    rw [List.length_append, List.length_singleton, Nat.pow_succ]
    omega

/-- C01: the macro `POSEIDON_UUID(a,b,c,d,e)` with five groups of digits is the UUID whose text is `a-b-c-d-e`. -/
theorem C01_literal (a b c d e rest : Bytes) (xh xl y zh zl : Nat)
    (la : a.length = 8) (lb : b.length = 4) (lc : c.length = 4) (ld : d.length = 4) (le : e.length = 12)
    (ha : HexNum a xh) (hb : HexNum b xl) (hc : HexNum c y) (hd : HexNum d zh) (he : HexNum e zl) :
    parse (a ++ chr '-' :: b ++ chr '-' :: c ++ chr '-' :: d ++ chr '-' :: e ++ rest) = some (of_fields xh xl y zh zl, 36) := by
  have l : (a ++ chr '-' :: b ++ chr '-' :: c ++ chr '-' :: d ++ chr '-' :: e).length = 36 := by simp [la, lb, lc, ld, le]
  rw [parse_iff]
  refine ⟨rfl, rfl, by rw [List.length_append, l]; omega, ?_⟩
  rw [List.take_append_of_le_length (by omega), List.take_of_length_le (by omega)]
  refine ⟨a, b, c, d, e, la, lb, lc, ld, le, rfl, ?_⟩
  have b1 := hexNum_lt ha
  have b2 := hexNum_lt hb
  have b3 := hexNum_lt hc
  have b4 := hexNum_lt hd
  have b5 := hexNum_lt he
  rw [la] at b1
  rw [lb] at b2
  rw [lc] at b3
  rw [ld] at b4
  rw [le] at b5
  rw [literal_num xh xl y zh zl (by omega) (by omega) (by omega) (by omega) (by omega)]
  have h := hexNum_append (hexNum_append (hexNum_append (hexNum_append ha hb) hc) hd) he
  rw [lb, lc, ld, le] at h
  have e : (((xh * 16 ^ 4 + xl) * 16 ^ 4 + y) * 16 ^ 4 + zh) * 16 ^ 12 + zl = xh * 2 ^ 96 + xl * 2 ^ 80 + y * 2 ^ 64 + zh * 2 ^ 48 + zl := by omega
  rwa [e] at h

/-- C01: the number that a UUID made of fields is, and its text. -/
theorem C01_fields (xh xl y zh zl : Nat) (h1 : xh < 2 ^ 32) (h2 : xl < 2 ^ 16) (h3 : y < 2 ^ 16) (h4 : zh < 2 ^ 16) (h5 : zl < 2 ^ 48) :
    UuidText (to_string (of_fields xh xl y zh zl)) (xh * 2 ^ 96 + xl * 2 ^ 80 + y * 2 ^ 64 + zh * 2 ^ 48 + zl) := by
  rw [← literal_num xh xl y zh zl h1 h2 h3 h4 h5]
  exact to_string_uuidText _ rfl

example : of_fields 0x3f2504e0 0x4f89 0x41d3 0x9a0c 0x0305e82c3301 = sampleUuid := by decide +kernel

/-- C02: the operators are those of the lexicographic order of bytes. -/
theorem C02_operators (a b : Bytes) (ha : a.length = 16) (hb : b.length = 16) :
    (op_eq a b = true ↔ a = b) ∧ (op_ne a b = true ↔ a ≠ b) ∧
    (op_lt a b = true ↔ LexLt a b) ∧ (op_gt a b = true ↔ LexLt b a) ∧
    (op_le a b = true ↔ ¬ LexLt b a) ∧ (op_ge a b = true ↔ ¬ LexLt a b) := by
  obtain ⟨c1, c2, c3⟩ := C02_compare_lexicographic a b ha hb
  obtain ⟨e1, -, -⟩ := C02_equals a b ha hb
  have e2 : equals a b = false ↔ a ≠ b := by
    rw [Ne, ← e1, Bool.not_eq_true]
  refine ⟨?_, ?_, ?_, ?_, ?_, ?_⟩
  · simp [op_eq, e1]
  · simp [op_ne, e2]
  · simp [op_lt, c1]
  · simp only [op_gt, decide_eq_true_eq]; exact c3
  · simp only [op_le, decide_eq_true_eq]; rw [← c3]; omega
  · simp only [op_ge, decide_eq_true_eq]; rw [← c1]; omega

theorem min_eq : Uuid.min = List.replicate 16 0 := by decide
theorem max_eq : Uuid.max = List.replicate 16 0xFF := by decide

theorem not_below_zero (a : Bytes) (n : Nat) : ¬ LexLt a (List.replicate n 0) := by
  induction a generalizing n with
  | nil => cases n <;> exact id
  | cons c a ih =>
    cases n with
    | zero => exact id
    | succ n =>
      rintro (h | ⟨-, h⟩)
      · exact absurd (UInt8.lt_iff_toNat_lt.mp h) (Nat.not_lt_zero _)
      · exact ih n h

theorem not_above_ones (a : Bytes) (n : Nat) : ¬ LexLt (List.replicate n 0xFF) a := by
  induction a generalizing n with
  | nil => cases n <;> exact id
  | cons c a ih =>
    cases n with
    | zero => exact id
    | succ n =>
      rintro (h | ⟨-, h⟩)
      · have := UInt8.lt_iff_toNat_lt.mp h
        have := c.toNat_lt
        simp at *
        omega
      · exact ih n h

/-- C02: all UUIDs are between `min()`, which is the only one that is nil, and `max()`. -/
theorem C02_bounds (a : Bytes) (ha : a.length = 16) :
    op_le Uuid.min a = true ∧ op_le a Uuid.max = true ∧ (is_nil a = true ↔ op_eq a Uuid.min = true) := by
  refine ⟨?_, ?_, ?_⟩
  · rw [(C02_operators Uuid.min a rfl ha).2.2.2.2.1, min_eq]; exact not_below_zero a 16
  · rw [(C02_operators a Uuid.max ha rfl).2.2.2.2.1, max_eq]; exact not_above_ones a 16
  · rw [(C02_operators a Uuid.min ha rfl).1, (C02_equals a a ha ha).2.2, min_eq]

/-- C02: UUIDs that compare equal have the same hash value, which is a number of 64 bits. -/
theorem C02_hash (a b : Bytes) (ha : a.length = 16) (hb : b.length = 16) :
    (op_eq a b = true → Uuid.hash a = Uuid.hash b) ∧ Uuid.hash a < 2 ^ 64 := by
  refine ⟨fun h => congrArg _ ((C02_operators a b ha hb).1.mp h), ?_⟩
  unfold Uuid.hash
  dsimp only
  have h1 := Nat.mod_lt ((lane32 a 0 + lane32 a 1) % 2 ^ 32 + (lane32 a 2 + lane32 a 3) % 2 ^ 32) (show 2 ^ 32 > 0 by decide)
  have h2 := Nat.mod_lt ((lane32 a 2 + lane32 a 3) % 2 ^ 32 + (0 + 0) % 2 ^ 32) (show 2 ^ 32 > 0 by decide)
  omega

example : op_lt Uuid.min sampleUuid = true ∧ op_gt Uuid.max sampleUuid = true ∧ op_ne sampleUuid Uuid.max = true ∧
    Uuid.hash sampleUuid = 0x6363982b97be810 := by decide +kernel

end Verif.Props
