import Verif.Model.Ws
import Verif.Spec.Ws
namespace Verif.Ws
open Verif.Spec

theorem rotl8_eq (k : Nat) (h : k < 2 ^ 32) : rotl8 k = (k % 2 ^ 24) * 256 + k / 2 ^ 24 := by
  unfold rotl8
  rw [Nat.shiftLeft_eq, Nat.shiftRight_eq_div_pow]
  have e : k * 2 ^ 8 % 2 ^ 32 = (k % 2 ^ 24) <<< 8 := by rw [Nat.shiftLeft_eq]; omega
  rw [e, ← Nat.shiftLeft_add_eq_or_of_lt (by omega : k / 2 ^ 24 < 2 ^ 8), Nat.shiftLeft_eq]

theorem rotl8_lt (k : Nat) (h : k < 2 ^ 32) : rotl8 k < 2 ^ 32 := by rw [rotl8_eq k h]; omega

theorem ofNat_congr {a b : Nat} (h : a % 256 = b % 256) : (UInt8.ofNat a) = UInt8.ofNat b := by
  apply UInt8.toNat_inj.mp; simpa using h

theorem ofNat_rotl8 (k : Nat) (h : k < 2 ^ 32) : UInt8.ofNat (rotl8 k) = keyOctet k 0 := by
  rw [rotl8_eq k h, keyOctet]
  apply ofNat_congr; omega

theorem rot_arith0 (k : Nat) (h : k < 4294967296) :
    (k % 16777216 * 256 + k / 16777216) / 16777216 % 256 = k / 65536 % 256 := by
  have q1 : (k % 16777216 * 256 + k / 16777216) / 16777216 = k % 16777216 / 65536 := by omega
  have q2 : k / 65536 = k / 16777216 * 256 + k % 16777216 / 65536 := by omega
  rw [q1, q2]
  omega

theorem rot_arith1 (k : Nat) (h : k < 4294967296) :
    (k % 16777216 * 256 + k / 16777216) / 65536 % 256 = k / 256 % 256 := by
  have q1 : (k % 16777216 * 256 + k / 16777216) / 65536 = k % 16777216 / 256 := by omega
  have q2 : k / 256 = k / 16777216 * 65536 + k % 16777216 / 256 := by omega
  rw [q1, q2]
  omega

theorem rot_arith2 (k : Nat) (h : k < 4294967296) :
    (k % 16777216 * 256 + k / 16777216) / 256 % 256 = k / 1 % 256 := by
  have q1 : (k % 16777216 * 256 + k / 16777216) / 256 = k % 16777216 := by omega
  omega

theorem rot_arith3 (k : Nat) (h : k < 4294967296) :
    (k % 16777216 * 256 + k / 16777216) / 1 % 256 = k / 16777216 % 256 := by
  omega

theorem keyOctet_rotl8 (k : Nat) (h : k < 2 ^ 32) (j : Nat) (hj : j < 4) :
    keyOctet (rotl8 k) j = keyOctet k ((j + 1) % 4) := by
  rw [rotl8_eq k h]
  unfold keyOctet
  apply ofNat_congr
  have p0 : (256 : Nat) ^ (3 - 0) = 16777216 := rfl
  have p1 : (256 : Nat) ^ (3 - 1) = 65536 := rfl
  have p2 : (256 : Nat) ^ (3 - 2) = 256 := rfl
  have p3 : (256 : Nat) ^ (3 - 3) = 1 := rfl
  have p4 : (2 : Nat) ^ 24 = 16777216 := rfl
  have p5 : (2 : Nat) ^ 32 = 4294967296 := rfl
  rw [p5] at h
  rw [p4]
  have : j = 0 ∨ j = 1 ∨ j = 2 ∨ j = 3 := by omega
  rcases this with rfl | rfl | rfl | rfl
  · show _ / 256 ^ (3 - 0) % 256 = _ / 256 ^ (3 - 1) % 256
    rw [p0, p1]; exact rot_arith0 k h
  · show _ / 256 ^ (3 - 1) % 256 = _ / 256 ^ (3 - 2) % 256
    rw [p1, p2]; exact rot_arith1 k h
  · show _ / 256 ^ (3 - 2) % 256 = _ / 256 ^ (3 - 3) % 256
    rw [p2, p3]; exact rot_arith2 k h
  · show _ / 256 ^ (3 - 3) % 256 = _ / 256 ^ (3 - 0) % 256
    rw [p3, p0]; exact rot_arith3 k h

theorem rotl8_four (k : Nat) (h : k < 2 ^ 32) : rotl8 (rotl8 (rotl8 (rotl8 k))) = k := by
  have h1 := rotl8_lt k h
  have h2 := rotl8_lt _ h1
  have h3 := rotl8_lt _ h2
  rw [rotl8_eq _ h3, rotl8_eq _ h2, rotl8_eq _ h1, rotl8_eq _ h]
  omega

/-- Masking with the key rotated after each byte. -/
def maskRec (k : Nat) : Bytes → Bytes
  | [] => []
  | b :: t => (b ^^^ keyOctet k 0) :: maskRec (rotl8 k) t

/-- The key after `n` bytes. -/
def rotN (k : Nat) : Nat → Nat
  | 0 => k
  | n + 1 => rotN (rotl8 k) n

theorem rotN_lt (n : Nat) : ∀ k, k < 2 ^ 32 → rotN k n < 2 ^ 32 := by
  induction n with
  | zero => intro k h; exact h
  | succ n ih => intro k h; exact ih _ (rotl8_lt k h)

theorem rotN_add (m n : Nat) : ∀ k, rotN k (m + n) = rotN (rotN k m) n := by
  induction m with
  | zero => intro k; simp [rotN]
  | succ m ih => intro k; rw [Nat.add_right_comm]; simp only [rotN]; exact ih _

theorem rotN_four_mul (m : Nat) (k : Nat) (h : k < 2 ^ 32) : rotN k (4 * m) = k := by
  induction m with
  | zero => rfl
  | succ m ih =>
    rw [Nat.mul_succ, rotN_add, ih]
    exact rotl8_four k h

theorem keyOctet_rotN (n : Nat) : ∀ k, k < 2 ^ 32 → ∀ j, j < 4 → keyOctet (rotN k n) j = keyOctet k ((j + n) % 4) := by
  induction n with
  | zero => intro k _ j hj; simp only [rotN, Nat.add_zero]; rw [Nat.mod_eq_of_lt hj]
  | succ n ih =>
    intro k h j hj
    simp only [rotN]
    rw [ih _ (rotl8_lt k h) j hj, keyOctet_rotl8 k h _ (Nat.mod_lt _ (by omega))]
    congr 1; omega

theorem maskRec_append (a b : Bytes) : ∀ k, maskRec k (a ++ b) = maskRec k a ++ maskRec (rotN k a.length) b := by
  induction a with
  | nil => intro k; rfl
  | cons x t ih => intro k; simp only [List.cons_append, maskRec, List.length_cons, rotN, ih]

@[simp] theorem maskRec_length (a : Bytes) : ∀ k, (maskRec k a).length = a.length := by
  induction a with
  | nil => intro k; rfl
  | cons x t ih => intro k; simp [maskRec, ih]

theorem maskRec_mapIdx (a : Bytes) (k : Nat) (h : k < 2 ^ 32) : ∀ n, maskRec (rotN k n) a
    = a.mapIdx (fun i b => b ^^^ keyOctet k ((i + n) % 4)) := by
  induction a with
  | nil => intro n; rfl
  | cons x t ih =>
    intro n
    rw [List.mapIdx_cons]
    simp only [maskRec]
    rw [keyOctet_rotN n k h 0 (by omega)]
    have : rotl8 (rotN k n) = rotN k (n + 1) := by rw [rotN_add]; rfl
    rw [this, ih]
    simp only [Nat.zero_add, List.cons.injEq, true_and]
    congr 1
    funext i b
    rw [show i + (n + 1) = i + 1 + n by omega]

theorem maskRec_eq (a : Bytes) (k : Nat) (h : k < 2 ^ 32) : maskRec k a = masking k a := by
  have := maskRec_mapIdx a k h 0
  simpa [rotN, masking] using this

/-! ### The loops -/

theorem mask_align_spec (data : Bytes) : ∀ (addr k : Nat), k < 2 ^ 32 →
    ∃ done rest, data = done ++ rest ∧ (mask_align addr k data).1 = rotN k done.length ∧
      (mask_align addr k data).2.1 = maskRec k done ∧
      ((mask_align addr k data).2.2 = some rest ∨ ((mask_align addr k data).2.2 = none ∧ rest = [])) := by
  induction data with
  | nil =>
    intro addr k h
    refine ⟨[], [], rfl, rfl, rfl, ?_⟩
    by_cases ha : addr % 4 ≠ 0
    · exact Or.inr ⟨by simp only [mask_align, if_pos ha], rfl⟩
    · exact Or.inl (by simp only [mask_align, if_neg ha])
  | cons b t ih =>
    intro addr k h
    by_cases ha : addr % 4 ≠ 0
    · obtain ⟨done, rest, h1, h2, h3, h4⟩ := ih (addr + 1) (rotl8 k) (rotl8_lt k h)
      refine ⟨b :: done, rest, by simp [h1], ?_, ?_, ?_⟩
      · simp only [mask_align, if_pos ha]; exact h2
      · simp only [mask_align, if_pos ha, maskRec, h3, ofNat_rotl8 k h]
      · simp only [mask_align, if_pos ha]; exact h4
    · refine ⟨[], b :: t, rfl, ?_, ?_, Or.inl ?_⟩ <;> simp [mask_align, if_neg ha, rotN, maskRec]

theorem mask_tail_spec (data : Bytes) : ∀ k, k < 2 ^ 32 → mask_tail k data = (rotN k data.length, maskRec k data) := by
  induction data with
  | nil => intro k _; rfl
  | cons b t ih =>
    intro k h
    simp only [mask_tail, ih _ (rotl8_lt k h), ofNat_rotl8 k h, List.length_cons, rotN, maskRec]

theorem beBytes4 (k : Nat) : beBytes 4 k = [keyOctet k 0, keyOctet k 1, keyOctet k 2, keyOctet k 3] := by
  simp only [beBytes, List.nil_append, List.cons_append, keyOctet]
  refine List.cons_eq_cons.mpr ⟨ofNat_congr (by omega), List.cons_eq_cons.mpr ⟨ofNat_congr (by omega),
    List.cons_eq_cons.mpr ⟨ofNat_congr (by omega), List.cons_eq_cons.mpr ⟨ofNat_congr (by omega), rfl⟩⟩⟩⟩

theorem le32_bswap (k : Nat) : le32 (bswap32 k) = [keyOctet k 0, keyOctet k 1, keyOctet k 2, keyOctet k 3] := by
  unfold bswap32
  have h : (le32 k).length = 4 := by simp [le32]
  have := beBytes_beNat (le32 k)
  rw [h] at this
  rw [le32, this]
  simp only [le32, List.reverse_reverse]
  exact beBytes4 k

theorem maskRec_four (k : Nat) (h : k < 2 ^ 32) (a b c d : Byte) (t : Bytes) : maskRec k (a :: b :: c :: d :: t)
    = xorBytes [a, b, c, d] (le32 (bswap32 k)) ++ maskRec k t := by
  have h1 := rotl8_lt k h
  have h2 := rotl8_lt _ h1
  simp only [maskRec, rotl8_four k h, le32_bswap, xorBytes, List.zipWith_cons_cons, List.zipWith_nil_left,
    List.cons_append, List.nil_append]
  rw [keyOctet_rotl8 (rotl8 (rotl8 k)) h2 0 (by omega), keyOctet_rotl8 (rotl8 k) h1 0 (by omega),
    keyOctet_rotl8 k h 0 (by omega), keyOctet_rotl8 (rotl8 k) h1 1 (by omega), keyOctet_rotl8 k h 1 (by omega),
    keyOctet_rotl8 k h 2 (by omega)]

theorem mask_words_spec (k : Nat) (h : k < 2 ^ 32) (data : Bytes) :
    ∃ head, data = head ++ (mask_words (bswap32 k) data).2 ∧ (∃ m, head.length = 4 * m) ∧
      (mask_words (bswap32 k) data).1 = maskRec k head := by
  fun_induction mask_words (bswap32 k) data with
  | case1 a b c d t done rest e ih =>
    rw [e] at ih
    obtain ⟨head, h1, ⟨m, h2⟩, h3⟩ := ih
    refine ⟨a :: b :: c :: d :: head, by simpa using h1, ⟨m + 1, by simp [h2]; omega⟩, ?_⟩
    rw [maskRec_four k h]
    simp only at h3
    rw [h3]
  | case2 => exact ⟨[], rfl, ⟨0, rfl⟩, rfl⟩

theorem xor_append (a b c d : Bytes) (h : a.length = b.length) : xorBytes (a ++ c) (b ++ d) = xorBytes a b ++ xorBytes c d := by
  unfold xorBytes
  exact List.zipWith_append h

theorem maskRec_lanes (k : Nat) (h : k < 2 ^ 32) (n : Nat) : ∀ data : Bytes, data.length = 4 * n →
    maskRec k data = xorBytes data (List.replicate n (le32 (bswap32 k))).flatten := by
  induction n with
  | zero => intro data hd; have : data = [] := List.length_eq_zero_iff.mp (by omega); subst this; rfl
  | succ n ih =>
    intro data hd
    match data, hd with
    | a :: b :: c :: d :: t, hd =>
      simp only [List.length_cons] at hd
      rw [maskRec_four k h, ih t (by omega), List.replicate_succ, List.flatten_cons]
      have : a :: b :: c :: d :: t = [a, b, c, d] ++ t := rfl
      rw [this, xor_append _ _ _ _ (by rw [le32_bswap]; rfl)]

theorem mask_simd_spec (k : Nat) (h : k < 2 ^ 32) (data : Bytes) :
    ∃ head, data = head ++ (mask_simd (bswap32 k) data).2 ∧ (∃ m, head.length = 4 * m) ∧
      (mask_simd (bswap32 k) data).1 = maskRec k head := by
  fun_induction mask_simd (bswap32 k) data with
  | case1 data hlen ymask done rest e ih =>
    rw [e] at ih
    obtain ⟨head, h1, ⟨m, h2⟩, h3⟩ := ih
    simp only at h1 h3
    refine ⟨data.take 32 ++ head, ?_, ⟨m + 8, ?_⟩, ?_⟩
    · rw [List.append_assoc, ← h1, List.take_append_drop]
    · simp [h2]; omega
    · have l : (data.take 32).length = 4 * 8 := by simp; omega
      rw [maskRec_append, l, rotN_four_mul 8 k h, maskRec_lanes k h 8 _ l, h3]
  | case2 => exact ⟨[], rfl, ⟨0, rfl⟩, rfl⟩

theorem mask_payload_spec (addr : Nat) (h : FrameHeader) (data : Bytes) (hk : h.masking_key < 2 ^ 32) (hm : h.masked = true) :
    mask_payload addr h data = ({ h with masking_key := rotN h.masking_key data.length }, maskRec h.masking_key data) := by
  unfold mask_payload
  split
  · rename_i h0
    simp only [hm, Bool.not_true, Bool.false_or, beq_iff_eq] at h0
    have r0 : ∀ n, rotN 0 n = 0 := by intro n; induction n with
      | zero => rfl
      | succ n ih => simpa [rotN, rotl8] using ih
    have m0 : ∀ d, maskRec 0 d = d := by
      intro d; induction d with
      | nil => rfl
      | cons b t ih =>
        have e1 : rotl8 0 = 0 := by decide
        have e2 : keyOctet 0 0 = 0 := by decide
        simp [maskRec, e1, e2, ih]
    obtain ⟨⟩ := h
    simp only at h0
    subst h0
    simp [r0, m0]
  · obtain ⟨done, rest, h1, h2, h3, h4⟩ := mask_align_spec data addr h.masking_key hk
    have hk2 := rotN_lt done.length _ hk
    rcases h4 with h4 | ⟨h4, rfl⟩
    · generalize hma : mask_align addr h.masking_key data = ma at *
      obtain ⟨k1, d1, r1⟩ := ma
      simp only at h2 h3 h4
      subst h2 h3 h4
      simp only
      split
      · obtain ⟨hd1, e1, ⟨m1, l1⟩, f1⟩ := mask_simd_spec _ hk2 rest
        generalize mask_simd (bswap32 (rotN h.masking_key done.length)) rest = s1 at *
        obtain ⟨dd1, rr1⟩ := s1
        simp only at e1 f1
        obtain ⟨hd2, e2, ⟨m2, l2⟩, f2⟩ := mask_words_spec _ hk2 rr1
        generalize mask_words (bswap32 (rotN h.masking_key done.length)) rr1 = s2 at *
        obtain ⟨dd2, rr2⟩ := s2
        simp only at e2 f2
        simp only [mask_tail_spec _ _ hk2]
        rw [h1, e1, e2]
        rw [maskRec_append, maskRec_append, l1, rotN_four_mul m1 _ hk2, maskRec_append, l2, rotN_four_mul m2 _ hk2]
        rw [f1, f2, List.length_append, List.length_append, List.length_append, rotN_add, rotN_add, rotN_add, l1,
          rotN_four_mul m1 _ hk2, l2, rotN_four_mul m2 _ hk2]
        simp only [List.append_assoc]
      · simp only [mask_tail_spec _ _ hk2]
        rw [h1, maskRec_append, List.length_append, rotN_add]
    · generalize hma : mask_align addr h.masking_key data = ma at *
      obtain ⟨k1, d1, r1⟩ := ma
      simp only at h2 h3 h4
      subst h2 h3 h4
      simp only [List.append_nil] at h1
      rw [h1]

theorem mask_payload_unmasked (addr : Nat) (h : FrameHeader) (data : Bytes) (hm : h.masked = false) :
    mask_payload addr h data = (h, data) := by
  simp [mask_payload, hm]

/-- Masking twice gives the data back. -/
theorem maskRec_maskRec (data : Bytes) : ∀ k, maskRec k (maskRec k data) = data := by
  induction data with
  | nil => intro k; rfl
  | cons b t ih =>
    intro k
    simp only [maskRec, ih]
    rw [UInt8.xor_assoc, UInt8.xor_self, UInt8.xor_zero]

end Verif.Ws
