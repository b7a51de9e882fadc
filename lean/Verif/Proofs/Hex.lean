import Verif.Model.Hex
import Verif.Model.Uuid
import Verif.Spec.Text
namespace Verif.Hex
open Verif.Spec

/-- Lower-case digit of a nibble. -/
def lowDigit (v : Nat) : Byte := if v < 10 then UInt8.ofNat (0x30 + v) else UInt8.ofNat (0x61 + (v - 10))

/-- Straightforward specification-side encoder. -/
def hexSpec : Bytes → Bytes
  | [] => []
  | b :: t => lowDigit (b.toNat / 16) :: lowDigit (b.toNat % 16) :: hexSpec t

theorem hexSpec_append (a b : Bytes) : hexSpec (a ++ b) = hexSpec a ++ hexSpec b := by
  induction a with
  | nil => rfl
  | cons x t ih => simp [hexSpec, ih]

theorem hexSpec_length (a : Bytes) : (hexSpec a).length = 2 * a.length := by
  induction a with
  | nil => rfl
  | cons x t ih => simp [hexSpec, ih]; omega

theorem srl4_nibbles (l : Bytes) : (srl4 l).map (· &&& 15) = l.map (fun b : Byte => (b >>> 4) &&& 15) := by
  induction l with
  | nil => rfl
  | cons b t ih =>
    cases t with
    | nil => rfl
    | cons c t =>
      simp only [srl4, List.map_cons] at ih ⊢
      refine List.cons_eq_cons.mpr ⟨?_, ih⟩
      have key : ∀ b c : BitVec 8, (b >>> 4 ||| c <<< 4) &&& 15#8 = (b >>> 4) &&& 15#8 := by
        intro b c
        ext i hi
        simp only [BitVec.getElem_and, BitVec.getElem_or, BitVec.getElem_shiftLeft]
        have hi' : i < 8 := hi
        rcases (by omega : i < 4 ∨ 4 ≤ i) with h | h
        · simp [h]
        · have : (15#8)[i] = false := by
            have hb : ∀ i : Fin 8, 4 ≤ i.val → (15#8).getLsbD i.val = false := by decide
            have := hb ⟨i, hi'⟩ h
            rwa [BitVec.getLsbD_eq_getElem hi'] at this
          simp [this]
      have := key b.toBitVec c.toBitVec
      apply UInt8.toBitVec_inj.mp
      simpa using this

theorem xdigit_hi : ∀ b : Byte, xdigit ((b >>> 4) &&& 15) = lowDigit (b.toNat / 16) :=
  forall_byte (by decide +kernel)

theorem xdigit_lo : ∀ b : Byte, xdigit (b &&& 15) = lowDigit (b.toNat % 16) :=
  forall_byte (by decide +kernel)

theorem interleave_map (f g : Byte → Byte) (l : Bytes) :
    interleave (l.map f) (l.map g) = l.flatMap (fun b => [f b, g b]) := by
  induction l with
  | nil => rfl
  | cons b t ih => simp [interleave, ih]

theorem hexSpec_eq_flatMap (l : Bytes) :
    hexSpec l = l.flatMap (fun b => [lowDigit (b.toNat / 16), lowDigit (b.toNat % 16)]) := by
  induction l with
  | nil => rfl
  | cons b t ih => simp [hexSpec, ih]

theorem hex_encode_eq (data : Bytes) : hex_encode_16_partial data = hexSpec data := by
  have h : (srli4_epi64 data).map (· &&& 15) = data.map (fun b : Byte => (b >>> 4) &&& 15) := by
    simp only [srli4_epi64, List.map_append, srl4_nibbles]
    rw [← List.map_append, List.take_append_drop]
  unfold hex_encode_16_partial
  simp only [h, List.map_map]
  rw [interleave_map, hexSpec_eq_flatMap]
  congr 1; funext b
  simp only [Function.comp_apply]
  rw [xdigit_hi, xdigit_lo]

theorem lowDigit_hexDigit (v : Nat) (h : v < 16) : HexDigit (lowDigit v) v := by
  unfold lowDigit
  split
  · exact HexDigit.dec v (by omega)
  · exact HexDigit.lower v (by omega) h

/-- Functional form of `HexNum`, with an accumulator. -/
def hexAcc (val : Byte → Option Nat) : Bytes → Nat → Option Nat
  | [], a => some a
  | d :: ds, a => (val d).bind fun v => hexAcc val ds (a * 16 + v)

theorem hexAcc_append (val : Byte → Option Nat) (xs ys : Bytes) (a : Nat) :
    hexAcc val (xs ++ ys) a = (hexAcc val xs a).bind (fun a' => hexAcc val ys a') := by
  induction xs generalizing a with
  | nil => simp [hexAcc]
  | cons x t ih =>
    simp only [List.cons_append, hexAcc]
    cases val x <;> simp [ih]

theorem hexval_iff (c : Byte) (v : Nat) : Uuid.hexval c = some v ↔ HexDigit c v := by
  constructor
  · intro h
    unfold Uuid.hexval at h
    have hc : c = UInt8.ofNat c.toNat := by simp
    split at h
    · rename_i hr
      injection h with h
      obtain ⟨h1, h2⟩ := hr
      rw [UInt8.le_iff_toNat_le] at h1 h2
      simp at h1 h2
      have : v = c.toNat - 0x30 := by
        rw [← h, UInt8.toNat_sub_of_le _ _ (by rw [UInt8.le_iff_toNat_le]; simpa using h1)]; rfl
      have h3 := HexDigit.dec v (by omega)
      rw [this, show 0x30 + (c.toNat - 0x30) = c.toNat by omega] at h3
      rw [this]; simpa using h3
    · split at h
      · rename_i hr
        injection h with h
        obtain ⟨h1, h2⟩ := hr
        rw [UInt8.le_iff_toNat_le] at h1 h2
        simp at h1 h2
        have h4 : (c - 0x41).toNat = c.toNat - 0x41 := by
          rw [UInt8.toNat_sub_of_le _ _ (by rw [UInt8.le_iff_toNat_le]; simpa using h1)]; rfl
        have : v = c.toNat - 0x41 + 10 := by
          rw [← h, UInt8.toNat_add, h4]; simp; omega
        have h3 := HexDigit.upper v (by omega) (by omega)
        rw [this, show 0x41 + (c.toNat - 0x41 + 10 - 10) = c.toNat by omega] at h3
        rw [this]; simpa using h3
      · split at h
        · rename_i hr
          injection h with h
          obtain ⟨h1, h2⟩ := hr
          rw [UInt8.le_iff_toNat_le] at h1 h2
          simp at h1 h2
          have h4 : (c - 0x61).toNat = c.toNat - 0x61 := by
            rw [UInt8.toNat_sub_of_le _ _ (by rw [UInt8.le_iff_toNat_le]; simpa using h1)]; rfl
          have : v = c.toNat - 0x61 + 10 := by
            rw [← h, UInt8.toNat_add, h4]; simp; omega
          have h3 := HexDigit.lower v (by omega) (by omega)
          rw [this, show 0x61 + (c.toNat - 0x61 + 10 - 10) = c.toNat by omega] at h3
          rw [this]; simpa using h3
        · cases h
  · intro h
    have hd : ∀ v : Fin 16, v.val < 10 → Uuid.hexval (UInt8.ofNat (0x30 + v.val)) = some v.val := by decide
    have hu : ∀ v : Fin 16, 10 ≤ v.val → Uuid.hexval (UInt8.ofNat (0x41 + (v.val - 10))) = some v.val := by decide
    have hl : ∀ v : Fin 16, 10 ≤ v.val → Uuid.hexval (UInt8.ofNat (0x61 + (v.val - 10))) = some v.val := by decide
    cases h with
    | dec v h => exact hd ⟨v, by omega⟩ h
    | upper v h h' => exact hu ⟨v, h'⟩ h
    | lower v h h' => exact hl ⟨v, h'⟩ h

theorem hexval_lt {c : Byte} {v : Nat} (h : Uuid.hexval c = some v) : v < 16 := by
  cases (hexval_iff c v).mp h <;> omega

theorem hexAcc_hexNum (ds : Bytes) (n : Nat) : hexAcc Uuid.hexval ds 0 = some n ↔ HexNum ds n := by
  constructor
  · have gen : ∀ (ds pre : Bytes) (a m : Nat), HexNum pre a → hexAcc Uuid.hexval ds a = some m → HexNum (pre ++ ds) m := by
      intro ds
      induction ds with
      | nil => intro pre a m hp h; simp [hexAcc] at h; subst h; simpa using hp
      | cons d t ih =>
        intro pre a m hp h
        simp only [hexAcc, Option.bind_eq_some_iff] at h
        obtain ⟨v, hv, h⟩ := h
        have := ih (pre ++ [d]) _ _ (HexNum.snoc hp ((hexval_iff d v).mp hv)) h
        simpa using this
    intro h
    simpa using gen ds [] 0 n HexNum.nil h
  · intro h
    induction h with
    | nil => rfl
    | snoc h1 h2 ih =>
      rw [hexAcc_append, ih]
      simp [hexAcc, (hexval_iff _ _).mpr h2]

theorem hexAcc_hexSpec (bs : Bytes) (a : Nat) :
    hexAcc Uuid.hexval (hexSpec bs) a = some (a * 256 ^ bs.length + beNat bs) := by
  induction bs generalizing a with
  | nil => simp [hexSpec, hexAcc]
  | cons b t ih =>
    have hb := UInt8.toNat_lt b
    have h1 := (hexval_iff _ _).mpr (lowDigit_hexDigit (b.toNat / 16) (by omega))
    have h2 := (hexval_iff _ _).mpr (lowDigit_hexDigit (b.toNat % 16) (by omega))
    simp only [hexSpec, hexAcc, h1, h2, Option.bind_some, ih, List.length_cons, beNat_cons]
    congr 1
    have : (a * 16 + b.toNat / 16) * 16 + b.toNat % 16 = a * 256 + b.toNat := by omega
    rw [this, Nat.add_mul, Nat.pow_succ, Nat.mul_assoc, Nat.mul_comm 256]
    omega

end Verif.Hex
