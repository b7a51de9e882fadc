import Verif.Proofs.UuidOrder
/-!
# C01, C02, C03, C04, C54: UUIDs and hexadecimal encoding
-/
namespace Verif.Props
open Verif Verif.Spec Verif.Uuid

/-! ## C01 -/

/-- C01: printing gives 36 characters in the RFC 4122 form which denote the 128-bit number of the UUID. -/
theorem C01_print_form (u : Bytes) (hu : u.length = 16) :
    (to_string u).length = 36 ∧ UuidText (to_string u) (beNat u) :=
  ⟨uuidText_length (to_string_uuidText u hu), to_string_uuidText u hu⟩

/-- C01: parsing the printed text (followed by anything) gives the same UUID and consumes exactly the 36 characters. -/
theorem C01_roundtrip (u rest : Bytes) (hu : u.length = 16) : parse (to_string u ++ rest) = some (u, 36) := by
  have hl := (C01_print_form u hu).1
  rw [parse_iff]
  refine ⟨rfl, hu, by simp [hl], ?_⟩
  rw [List.take_append_of_le_length (by omega), List.take_of_length_le (by omega)]
  exact to_string_uuidText u hu

/-- C01: parsing succeeds exactly on texts that start with an RFC 4122 form, and gives the number it denotes. -/
theorem C01_accepts_exactly (s u : Bytes) (n : Nat) :
    parse s = some (u, n) ↔ n = 36 ∧ u.length = 16 ∧ 36 ≤ s.length ∧ UuidText (s.take 36) (beNat u) :=
  parse_iff s u n

/-- C01: failure is reported exactly when no prefix of 36 characters has the form. -/
theorem C01_rejects_exactly (s : Bytes) :
    parse s = none ↔ ¬ (36 ≤ s.length ∧ ∃ m, m < 2 ^ 128 ∧ UuidText (s.take 36) m) := by
  constructor
  · rintro h ⟨hl, m, hm, ht⟩
    have : parse s = some (beBytes 16 m, 36) := by
      rw [parse_iff]
      refine ⟨rfl, by simp, hl, ?_⟩
      rw [beNat_beBytes, Nat.mod_eq_of_lt (by simpa using hm)]
      exact ht
    rw [h] at this
    cases this
  · intro h
    cases hp : parse s with
    | none => rfl
    | some p =>
      obtain ⟨u, n⟩ := p
      obtain ⟨_, h2, h3, h4⟩ := (parse_iff s u n).mp hp
      exfalso
      refine h ⟨h3, beNat u, ?_, h4⟩
      have := beNat_lt u
      rw [h2] at this
      exact Nat.lt_of_lt_of_eq this (by decide)

/-- C01: on non-empty texts the constructor accepts exactly the 36-character forms.
Missing for the full property: the empty text, which the constructor accepts (see the witness below). -/
theorem C01_constructor_partial (s u : Bytes) (hs : s ≠ []) :
    ofString s = some u ↔ u.length = 16 ∧ s.length = 36 ∧ UuidText s (beNat u) := by
  have hpos : 0 < s.length := List.length_pos_iff.mpr hs
  unfold ofString
  constructor
  · intro h
    cases hp : parse s with
    | none => rw [hp] at h; simp at h; omega
    | some p =>
      obtain ⟨v, n⟩ := p
      rw [hp] at h
      obtain ⟨h1, h2, h3, h4⟩ := (parse_iff s v n).mp hp
      by_cases hn : n = s.length
      · simp [hn] at h
        subst h
        refine ⟨h2, by omega, ?_⟩
        rwa [List.take_of_length_le (by omega)] at h4
      · simp [hn] at h
  · rintro ⟨h1, h2, h3⟩
    have : parse s = some (u, 36) := by
      rw [parse_iff]
      exact ⟨rfl, h1, by omega, by rwa [List.take_of_length_le (by omega)]⟩
    rw [this]
    simp [h2]

/-- Discrepancy: the constructor accepts the empty text as the nil UUID (`parse` returns 0, which equals the length). -/
theorem C01_constructor_accepts_empty : ofString [] = some (List.replicate 16 0) := by decide

/-- The hypotheses are met by a concrete UUID and its text. -/
def sampleUuid : Bytes := [0x3f, 0x25, 0x04, 0xe0, 0x4f, 0x89, 0x41, 0xd3, 0x9a, 0x0c, 0x03, 0x05, 0xe8, 0x2c, 0x33, 0x01]

example : sampleUuid.length = 16 ∧ to_string sampleUuid = b! "3f2504e0-4f89-41d3-9a0c-0305e82c3301" := by decide +kernel
example : parse (b! "3F2504E0-4F89-41D3-9A0C-0305E82C3301xyz") = some (sampleUuid, 36) := by decide +kernel
example : parse (b! "3F2504E0-4F89-41D3-9A0C+0305E82C3301xyz") = none := by decide +kernel

/-! ## C02 -/

/-- C02: the sign of `compare` is the lexicographic order of the bytes. -/
theorem C02_compare_lexicographic (a b : Bytes) (ha : a.length = 16) (hb : b.length = 16) :
    (Uuid.compare a b < 0 ↔ LexLt a b) ∧ (Uuid.compare a b = 0 ↔ a = b) ∧ (Uuid.compare a b > 0 ↔ LexLt b a) := by
  have h : a.length = b.length := by omega
  refine ⟨compare_lt a b h, compare_zero a b h, ?_⟩
  rw [← compare_lt b a h.symm, compare_anti a b h]
  omega

/-- C02: order laws: antisymmetry, transitivity, totality. -/
theorem C02_total_order (a b c : Bytes) (ha : a.length = 16) (hb : b.length = 16) (hc : c.length = 16) :
    (Uuid.compare a b = - Uuid.compare b a) ∧
    (Uuid.compare a b < 0 → Uuid.compare b c < 0 → Uuid.compare a c < 0) ∧
    (Uuid.compare a b < 0 ∨ a = b ∨ Uuid.compare b a < 0) := by
  have e1 := compare_lt a b (by omega)
  have e2 := compare_lt b c (by omega)
  have e3 := compare_lt a c (by omega)
  have e4 := compare_lt b a (by omega)
  rw [lexLt_iff_beNat _ _ (by omega)] at e1 e2 e3 e4
  refine ⟨compare_anti b a (by omega), by omega, ?_⟩
  rcases Nat.lt_trichotomy (beNat a) (beNat b) with h | h | h
  · left; omega
  · right; left; exact beNat_inj a b (by omega) h
  · right; right; omega

/-- C02: `equals` (and so `==`) is equality of the bytes, consistent with `compare`; `is_nil` is equality with zero. -/
theorem C02_equals (a b : Bytes) (ha : a.length = 16) (hb : b.length = 16) :
    (equals a b = true ↔ a = b) ∧ (equals a b = true ↔ Uuid.compare a b = 0) ∧
    (is_nil a = true ↔ a = List.replicate 16 0) := by
  have h1 := equals_iff a b ha hb
  refine ⟨h1, by rw [h1, compare_zero a b (by omega)], ?_⟩
  have h2 : is_nil a = equals a (List.replicate 16 0) := by
    unfold is_nil equals
    congr 2
    match a, ha with
    | [u0, u1, u2, u3, u4, u5, u6, u7, u8, u9, ua, ub, uc, ud, ue, uf], _ => rfl
  rw [h2]
  exact equals_iff a _ ha (by simp)

example : Uuid.compare (0x80 :: List.replicate 15 0) (0x7F :: List.replicate 15 0xFF) > 0 := by decide +kernel
example : LexLt (0x7F :: List.replicate 15 0xFF) (0x80 :: List.replicate 15 0) := Or.inl (by decide)

/-! ## C03 -/

/-- C03 (version 4): the version nibble is 4, the variant bits are 10, all other bits are the bits drawn.  Bit `i` is
counted from the least significant bit of the 128-bit number; `z0..z3` are the 32-bit draws in order. -/
theorem C03_v4_bits (z0 z1 z2 z3 : Nat) (h0 : z0 < 2 ^ 32) (h1 : z1 < 2 ^ 32) (h2 : z2 < 2 ^ 32) (h3 : z3 < 2 ^ 32) :
    (random_v4 z0 z1 z2 z3).length = 16 ∧
    beNat (random_v4 z0 z1 z2 z3) / 2 ^ 76 % 2 ^ 4 = 4 ∧
    beNat (random_v4 z0 z1 z2 z3) / 2 ^ 62 % 2 ^ 2 = 0b10 ∧
    ∀ i, i < 128 → ¬ (76 ≤ i ∧ i < 80) → ¬ (62 ≤ i ∧ i < 64) →
      (beNat (random_v4 z0 z1 z2 z3)).testBit i
        = [z3, z2, z1, z0][i / 32]?.any (fun z => z.testBit (i % 32)) := by
  have key := v4_testBit z0 z1 z2 z3 h0 h1 h2 h3
  refine ⟨by simp [random_v4], ?_, ?_, ?_⟩
  · apply field_eq _ _ _ _ _ (by decide)
    intro j hj
    rw [key, if_pos (by omega)]
    have : ∀ j : Fin 4, decide (76 + j.val = 78) = (4 : Nat).testBit j.val := by decide
    exact this ⟨j, hj⟩
  · apply field_eq _ _ _ _ _ (by decide)
    intro j hj
    rw [key, if_neg (by omega), if_pos (by omega)]
    have : ∀ j : Fin 2, decide (62 + j.val = 63) = (2 : Nat).testBit j.val := by decide
    exact this ⟨j, hj⟩
  · intro i hi hn1 hn2
    rw [key, if_neg hn1, if_neg hn2, words_testBit _ _ _ _ h0 h1 h2 h3]
    by_cases a : i < 32
    · rw [if_pos a, show i / 32 = 0 by omega, show i % 32 = i by omega]; simp
    · by_cases b : i < 64
      · rw [if_neg a, if_pos b, show i / 32 = 1 by omega, show i % 32 = i - 32 by omega]; simp
      · by_cases c : i < 96
        · rw [if_neg a, if_neg b, if_pos c, show i / 32 = 2 by omega, show i % 32 = i - 64 by omega]; simp
        · rw [if_neg a, if_neg b, if_neg c, show i / 32 = 3 by omega, show i % 32 = i - 96 by omega]; simp

/-- C03 (version 7): layout of the 128-bit number, from the top: 48 bits of time, version 7, a 12-bit serial number,
variant 10, 14 bits of process id and 48 random bits. -/
theorem C03_v7_bits (s : GenState) (e : V7Env) (hz : e.z3 < 2 ^ 32) :
    (random_v7 s e).2.length = 16 ∧
    beNat (random_v7 s e).2 / 2 ^ 80 = e.time % 2 ^ 48 ∧
    beNat (random_v7 s e).2 / 2 ^ 76 % 2 ^ 4 = 7 ∧
    beNat (random_v7 s e).2 / 2 ^ 62 % 2 ^ 2 = 0b10 ∧
    beNat (random_v7 s e).2 / 2 ^ 48 % 2 ^ 14 = e.pid % 2 ^ 14 ∧
    beNat (random_v7 s e).2 % 2 ^ 48 = (e.z2 % 2 ^ 16) * 2 ^ 32 + e.z3 := by
  obtain ⟨_, hl, hn⟩ := v7_num s e hz
  have := nextSerial_lt s e.time
  refine ⟨hl, ?_, ?_, ?_, ?_, ?_⟩ <;> rw [hn] <;> omega

example : random_v4 0xFFFFFFFF 0xFFFFFFFF 0xFFFFFFFF 0xFFFFFFFF =
    [0xFF, 0xFF, 0xFF, 0xFF, 0xFF, 0xFF, 0x4F, 0xFF, 0xBF, 0xFF, 0xFF, 0xFF, 0xFF, 0xFF, 0xFF, 0xFF] := by decide +kernel
example : (random_v7 ⟨5, 9⟩ ⟨5, 0xABCD, 0x01020304, 0xFFFF⟩).2 =
    [0, 0, 0, 0, 0, 5, 0x70, 0x0A, 0xBF, 0xFF, 0xAB, 0xCD, 1, 2, 3, 4] := by decide +kernel

/-! ## C04 -/

/-- C04: in a process (initial state all zero) whose clock shows positive, non-decreasing 48-bit millisecond counts,
none of them more than 4096 times, all version 7 UUIDs ever made Uuid.compare as strictly increasing.
Missing for the full ordering promised by the documentation ("sorted in their order of creation"): see the two
counterexamples below. -/
theorem C04_v7_increasing_partial (es : List V7Env)
    (hclock : es.Pairwise (fun a b => a.time ≤ b.time))
    (hrange : ∀ e ∈ es, 0 < e.time ∧ e.time < 2 ^ 48 ∧ e.z3 < 2 ^ 32)
    (hcount : ∀ t, (es.filter (fun e => e.time == t)).length ≤ 4096) :
    (run_v7 ⟨0, 0⟩ es).Pairwise (fun a b => Uuid.compare a b < 0) := by
  have h := run_v7_sorted es ⟨0, 0⟩ hclock (fun e he => ⟨Nat.zero_le _, (hrange e he).2⟩) (by
    intro t
    by_cases ht : t = 0
    · subst ht
      have : es.filter (fun e => e.time == 0) = [] := by
        rw [List.filter_eq_nil_iff]
        intro e he
        have := (hrange e he).1
        simp; omega
      simp [this]
    · simpa [ht] using hcount t)
  refine List.Pairwise.imp_of_mem ?_ h.2
  intro a b ha hb hab
  have la := (h.1 a ha).1
  have lb := (h.1 b hb).1
  rw [compare_lt a b (by omega), lexLt_iff_beNat a b (by omega)]
  exact hab

/-- The hypotheses are met by 4096 calls in one millisecond followed by one in the next. -/
example : ∃ es : List V7Env, es.length = 4097 ∧ es.Pairwise (fun a b => a.time ≤ b.time) ∧
    (∀ e ∈ es, 0 < e.time ∧ e.time < 2 ^ 48 ∧ e.z3 < 2 ^ 32) ∧
    (∀ t, (es.filter (fun e => e.time == t)).length ≤ 4096) := by
  refine ⟨List.replicate 4096 ⟨7, 1, 2, 3⟩ ++ [⟨8, 1, 2, 3⟩], by rw [List.length_append, List.length_replicate]; rfl, ?_, ?_, ?_⟩
  · rw [List.pairwise_append]
    refine ⟨?_, by simp, ?_⟩
    · rw [List.pairwise_replicate]; simp
    · intro a ha b hb
      rw [List.eq_of_mem_replicate ha]
      simp at hb
      rw [hb]; simp
  · intro e he
    rw [List.mem_append] at he
    rcases he with he | he
    · rw [List.eq_of_mem_replicate he]; decide
    · simp at he; rw [he]; decide
  · intro t
    rw [List.filter_append, List.length_append]
    have h1 : (List.filter (fun e => e.time == t) (List.replicate 4096 (⟨7, 1, 2, 3⟩ : V7Env))).length ≤ if t = 7 then 4096 else 0 := by
      by_cases ht : t = 7
      · simp only [if_pos ht]
        exact Nat.le_trans (List.length_filter_le _ _) (by rw [List.length_replicate]; exact Nat.le_refl _)
      · rw [if_neg ht, Nat.le_zero, List.length_eq_zero_iff, List.filter_eq_nil_iff]
        intro e he
        rw [List.eq_of_mem_replicate he]
        simp; omega
    have h2 : (List.filter (fun e => e.time == t) [(⟨8, 1, 2, 3⟩ : V7Env)]).length ≤ if t = 8 then 1 else 0 := by
      by_cases ht : t = 8
      · subst ht; decide
      · rw [if_neg ht, Nat.le_zero, List.length_eq_zero_iff, List.filter_eq_nil_iff]
        intro e he
        simp at he
        rw [he]
        simp; omega
    split at h1 <;> split at h2 <;> omega

/-- Negation: the 4097th UUID of a millisecond is smaller than the 4096th, since the serial number wraps. -/
theorem C04_v7_wraps : ∃ (es : List V7Env) (t : Nat), (∀ e ∈ es, e.time = t) ∧ es.length = 4097 ∧
    ∃ a b, (run_v7 ⟨0, 0⟩ es)[4095]? = some a ∧ (run_v7 ⟨0, 0⟩ es)[4096]? = some b ∧ Uuid.compare b a < 0 := by
  have st : ∀ (n : Nat) (sr : Nat), sr + n < 4096 → ∀ (m : Nat),
      (run_v7 ⟨7, sr⟩ (List.replicate (n + m) ⟨7, 1, 2, 3⟩)).drop n = run_v7 ⟨7, sr + n⟩ (List.replicate m ⟨7, 1, 2, 3⟩) := by
    intro n
    induction n with
    | zero => intro sr _ m; simp
    | succ n ih =>
      intro sr h m
      rw [show n + 1 + m = (n + m) + 1 by omega, List.replicate_succ, run_v7, List.drop_succ_cons]
      obtain ⟨hs, _, _⟩ := v7_num ⟨7, sr⟩ ⟨7, 1, 2, 3⟩ (by decide)
      rw [hs]
      have : nextSerial ⟨7, sr⟩ 7 = sr + 1 := by
        unfold nextSerial
        rw [if_pos rfl]
        exact Nat.mod_eq_of_lt (by simp only; omega)
      rw [this, ih (sr + 1) (by omega) m]
      congr 2
      omega
  refine ⟨List.replicate 4097 ⟨7, 1, 2, 3⟩, 7, ?_, List.length_replicate, ?_⟩
  · intro e he; rw [List.eq_of_mem_replicate he]
  have e0 : run_v7 ⟨0, 0⟩ (List.replicate 4097 ⟨7, 1, 2, 3⟩)
      = (random_v7 ⟨0, 0⟩ ⟨7, 1, 2, 3⟩).2 :: run_v7 ⟨7, 0⟩ (List.replicate 4096 ⟨7, 1, 2, 3⟩) := by
    rw [show (4097 : Nat) = 4096 + 1 by rfl, List.replicate_succ, run_v7]
    have : (random_v7 ⟨0, 0⟩ ⟨7, 1, 2, 3⟩).1 = ⟨7, 0⟩ := by decide
    rw [this]
  have e1 := st 4094 0 (by omega) 2
  rw [show (4094 + 2 : Nat) = 4096 by rfl] at e1
  have g : ∀ k, (run_v7 ⟨7, 0⟩ (List.replicate 4096 ⟨7, 1, 2, 3⟩))[4094 + k]?
      = (run_v7 ⟨7, 0 + 4094⟩ (List.replicate 2 ⟨7, 1, 2, 3⟩))[k]? := by
    intro k
    rw [← e1, List.getElem?_drop]
  rw [e0, show (4096 : Nat) = 4095 + 1 by rfl, List.getElem?_cons_succ, show (4095 : Nat) = 4094 + 1 by rfl,
    List.getElem?_cons_succ]
  have g0 := g 0
  have g1 := g 1
  rw [Nat.add_zero] at g0
  rw [show (4094 + 1 + 1 : Nat) = 4096 by rfl]
  rw [g0, g1]
  exact ⟨_, _, rfl, rfl, by decide +kernel⟩

/-- Negation: when the clock steps back by one millisecond, the later UUID is smaller. -/
theorem C04_v7_clock_back : ∃ e1 e2 : V7Env, e2.time + 1 = e1.time ∧
    ∃ a b, run_v7 ⟨0, 0⟩ [e1, e2] = [a, b] ∧ Uuid.compare b a < 0 :=
  ⟨⟨8, 1, 2, 3⟩, ⟨7, 1, 2, 3⟩, rfl, _, _, rfl, by decide +kernel⟩

/-! ## C54 -/

/-- C54: the encoder writes 32 digits for 16 bytes; each is `0-9` or `a-f`; as a hexadecimal number they denote the
big-endian number of the bytes, so the bytes can be recovered. -/
theorem C54_hex_encode (d : Bytes) (hd : d.length = 16) :
    (Hex.hex_encode_16_partial d).length = 32 ∧
    (∀ c ∈ Hex.hex_encode_16_partial d, (0x30 ≤ c ∧ c ≤ 0x39) ∨ (0x61 ≤ c ∧ c ≤ 0x66)) ∧
    HexNum (Hex.hex_encode_16_partial d) (beNat d) ∧
    (∀ i (h : i < d.length), ∃ hi lo, (Hex.hex_encode_16_partial d)[2 * i]? = some hi ∧
      (Hex.hex_encode_16_partial d)[2 * i + 1]? = some lo ∧ HexNum [hi, lo] d[i].toNat) := by
  rw [Hex.hex_encode_eq]
  have low : ∀ v : Fin 16, (0x30 ≤ Hex.lowDigit v.val ∧ Hex.lowDigit v.val ≤ 0x39) ∨
      (0x61 ≤ Hex.lowDigit v.val ∧ Hex.lowDigit v.val ≤ 0x66) := by decide
  refine ⟨by rw [Hex.hexSpec_length, hd], ?_, ?_, ?_⟩
  · rw [Hex.hexSpec_eq_flatMap]
    intro c hc
    rw [List.mem_flatMap] at hc
    obtain ⟨b, _, hb⟩ := hc
    have := b.toNat_lt
    simp only [List.mem_cons, List.not_mem_nil, or_false] at hb
    rcases hb with rfl | rfl
    · exact low ⟨b.toNat / 16, by omega⟩
    · exact low ⟨b.toNat % 16, by omega⟩
  · rw [← Hex.hexAcc_hexNum, Hex.hexAcc_hexSpec]; simp
  · clear hd
    induction d with
    | nil => intro i h; simp at h
    | cons x t ih =>
      intro i h
      cases i with
      | zero =>
        refine ⟨Hex.lowDigit (x.toNat / 16), Hex.lowDigit (x.toNat % 16), by simp [Hex.hexSpec], by simp [Hex.hexSpec], ?_⟩
        have hx := x.toNat_lt
        have e := HexNum.snoc (HexNum.snoc HexNum.nil (Hex.lowDigit_hexDigit (x.toNat / 16) (by omega)))
          (Hex.lowDigit_hexDigit (x.toNat % 16) (by omega))
        simp only [List.nil_append, List.singleton_append] at e
        rw [show (0 * 16 + x.toNat / 16) * 16 + x.toNat % 16 = x.toNat by omega] at e
        exact e
      | succ j =>
        obtain ⟨hi, lo, h1, h2, h3⟩ := ih j (by simpa using h)
        refine ⟨hi, lo, ?_, ?_, h3⟩
        · rw [show 2 * (j + 1) = 2 * j + 1 + 1 by omega]; simpa [Hex.hexSpec] using h1
        · rw [show 2 * (j + 1) + 1 = 2 * j + 1 + 1 + 1 by omega]; simpa [Hex.hexSpec] using h2

example : sampleUuid.length = 16 ∧
    Hex.hex_encode_16_partial sampleUuid = b! "3f2504e04f8941d39a0c0305e82c3301" := by decide +kernel

end Verif.Props
