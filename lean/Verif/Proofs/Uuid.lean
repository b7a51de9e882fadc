import Verif.Proofs.Hex
namespace Verif.Uuid
open Verif.Hex Verif.Spec

/-! ### Parsing -/

theorem shl4_or (a v : Nat) (ha : a < 16 ^ 15) (hv : v < 16) : ((a <<< 4) % 2 ^ 64 ||| v) = a * 16 + v := by
  have h1 : (a <<< 4) % 2 ^ 64 = a <<< 4 := by
    rw [Nat.shiftLeft_eq]; apply Nat.mod_eq_of_lt; omega
  rw [h1, ← Nat.shiftLeft_add_eq_or_of_lt (by omega : v < 2 ^ 4), Nat.shiftLeft_eq]

theorem dash_iff (k : Nat) (hk : k < 36) :
    ((1 <<< k) &&& 0b100001000010000100000000 ≠ 0) ↔ (k = 8 ∨ k = 13 ∨ k = 18 ∨ k = 23) := by
  have : ∀ k : Fin 36, ((1 <<< k.val) &&& 0b100001000010000100000000 ≠ 0) ↔
      (k.val = 8 ∨ k.val = 13 ∨ k.val = 18 ∨ k.val = 23) := by decide
  exact this ⟨k, hk⟩

/-- One run of hex digits in the upper half. -/
theorem parse_loop_high (seg rest : Bytes) (k h l : Nat) (hk : k + seg.length ≤ 18)
    (hd : ∀ i, k ≤ i → i < k + seg.length → ¬ (i = 8 ∨ i = 13 ∨ i = 18 ∨ i = 23))
    (hh : h * 16 ^ seg.length < 16 ^ 16 ∧ (h + 1) * 16 ^ seg.length ≤ 16 ^ 16) :
    parse_loop k (seg ++ rest) h l
      = (hexAcc hexval seg h).bind (fun h' => parse_loop (k + seg.length) rest h' l) := by
  induction seg generalizing k h with
  | nil => simp [hexAcc]
  | cons c t ih =>
    have hnd := hd k (Nat.le_refl _) (by simp)
    simp only [List.length_cons] at hk
    rw [← dash_iff k (by omega)] at hnd
    simp only [List.cons_append, parse_loop, if_neg hnd, hexAcc]
    cases hv : hexval c with
    | none => rfl
    | some v =>
      have hv16 := hexval_lt hv
      have hb : (h + 1) * 16 ≤ 16 ^ 16 := by
        have h2 := hh.2
        simp only [List.length_cons, Nat.pow_succ 16 t.length] at h2
        have : 1 ≤ 16 ^ t.length := Nat.pow_pos (by decide)
        calc (h + 1) * 16 = (h + 1) * (1 * 16) := by simp
          _ ≤ (h + 1) * (16 ^ t.length * 16) := Nat.mul_le_mul_left _ (Nat.mul_le_mul_right _ this)
          _ ≤ _ := h2
      have h19 : k < 19 := by omega
      simp only [if_pos h19, Option.bind_some]
      rw [shl4_or h v (by omega) hv16]
      rw [ih (k + 1) _ (by omega) (fun i h1 h2 => hd i (by omega) (by simp; omega)) ?_]
      · simp only [List.length_cons]; congr 1; funext h'; congr 1; omega
      · have h2 := hh.2
        simp only [List.length_cons, Nat.pow_succ 16 t.length] at h2
        have h3 : (h * 16 + v + 1) * 16 ^ t.length ≤ (h + 1) * (16 ^ t.length * 16) := by
          rw [Nat.mul_comm (16 ^ t.length) 16, ← Nat.mul_assoc]
          exact Nat.mul_le_mul_right _ (by omega)
        have h4 : 0 < 16 ^ t.length := Nat.pow_pos (by decide)
        have h5 : (h * 16 + v) * 16 ^ t.length < (h * 16 + v + 1) * 16 ^ t.length :=
          Nat.mul_lt_mul_of_pos_right (by omega) h4
        omega

/-- One run of hex digits in the lower half. -/
theorem parse_loop_low (seg rest : Bytes) (k h l : Nat) (hk : 19 ≤ k) (hk' : k + seg.length ≤ 36)
    (hd : ∀ i, k ≤ i → i < k + seg.length → ¬ (i = 8 ∨ i = 13 ∨ i = 18 ∨ i = 23))
    (hl : (l + 1) * 16 ^ seg.length ≤ 16 ^ 16) :
    parse_loop k (seg ++ rest) h l
      = (hexAcc hexval seg l).bind (fun l' => parse_loop (k + seg.length) rest h l') := by
  induction seg generalizing k l with
  | nil => simp [hexAcc]
  | cons c t ih =>
    have hnd := hd k (Nat.le_refl _) (by simp)
    simp only [List.length_cons] at hk'
    rw [← dash_iff k (by omega)] at hnd
    simp only [List.cons_append, parse_loop, if_neg hnd, hexAcc]
    cases hv : hexval c with
    | none => rfl
    | some v =>
      have hv16 := hexval_lt hv
      have hb : (l + 1) * 16 ≤ 16 ^ 16 := by
        have h2 := hl
        simp only [List.length_cons, Nat.pow_succ 16 t.length] at h2
        have : 1 ≤ 16 ^ t.length := Nat.pow_pos (by decide)
        calc (l + 1) * 16 = (l + 1) * (1 * 16) := by simp
          _ ≤ (l + 1) * (16 ^ t.length * 16) := Nat.mul_le_mul_left _ (Nat.mul_le_mul_right _ this)
          _ ≤ _ := h2
      have h19 : ¬ k < 19 := by omega
      simp only [if_neg h19, Option.bind_some]
      rw [shl4_or l v (by omega) hv16]
      rw [ih (k + 1) _ (by omega) (by omega) (fun i h1 h2 => hd i (by omega) (by simp; omega)) ?_]
      · simp only [List.length_cons]; congr 1; funext h'; congr 1; omega
      · have h2 := hl
        simp only [List.length_cons, Nat.pow_succ 16 t.length] at h2
        have h3 : (l * 16 + v + 1) * 16 ^ t.length ≤ (l + 1) * (16 ^ t.length * 16) := by
          rw [Nat.mul_comm (16 ^ t.length) 16, ← Nat.mul_assoc]
          exact Nat.mul_le_mul_right _ (by omega)
        omega

theorem parse_loop_dash (k : Nat) (hk : k = 8 ∨ k = 13 ∨ k = 18 ∨ k = 23) (c : Byte) (rest : Bytes) (h l : Nat) :
    parse_loop k (c :: rest) h l = if c = 0x2D then parse_loop (k + 1) rest h l else none := by
  have : (1 <<< k) &&& 0b100001000010000100000000 ≠ 0 := (dash_iff k (by omega)).mpr hk
  simp only [parse_loop, if_pos this]
  split <;> simp_all

theorem hexAcc_bound (ds : Bytes) (a n : Nat) (h : hexAcc hexval ds a = some n) :
    n + 1 ≤ (a + 1) * 16 ^ ds.length := by
  induction ds generalizing a with
  | nil => simp [hexAcc] at h; simp [h]
  | cons d t ih =>
    simp only [hexAcc, Option.bind_eq_some_iff] at h
    obtain ⟨v, hv, h⟩ := h
    have h1 := ih _ h
    have hv := hexval_lt hv
    calc n + 1 ≤ (a * 16 + v + 1) * 16 ^ t.length := h1
      _ ≤ ((a + 1) * 16) * 16 ^ t.length := Nat.mul_le_mul_right _ (by omega)
      _ = (a + 1) * 16 ^ (t.length + 1) := by rw [Nat.pow_succ, Nat.mul_assoc, Nat.mul_comm 16]

/-- Parsing a 36-character text cut into its groups. -/
theorem parse_loop_groups (a b c d e : Bytes) (s1 s2 s3 s4 : Byte)
    (ha : a.length = 8) (hb : b.length = 4) (hc : c.length = 4) (hd : d.length = 4) (he : e.length = 12) :
    parse_loop 0 (a ++ s1 :: (b ++ s2 :: (c ++ s3 :: (d ++ s4 :: e)))) 0 0 =
      if s1 = 0x2D ∧ s2 = 0x2D ∧ s3 = 0x2D ∧ s4 = 0x2D then
        (hexAcc hexval (a ++ b ++ c) 0).bind fun hi =>
          (hexAcc hexval (d ++ e) 0).bind fun lo => some (hi, lo)
      else none := by
  rw [parse_loop_high a _ 0 0 0 (by omega) (by intro i; omega) (by simp [ha])]
  simp only [hexAcc_append]
  cases hA : hexAcc hexval a 0 with
  | none => simp
  | some x =>
    have hx := hexAcc_bound a 0 x hA
    rw [ha] at hx
    simp only [Option.bind_some, ha, Nat.zero_add]
    rw [parse_loop_dash 8 (by omega)]
    by_cases h1 : s1 = 0x2D
    · simp only [h1, if_true, true_and]
      rw [parse_loop_high b _ _ _ _ (by omega) (by intro i; omega) (by rw [hb]; omega)]
      cases hB : hexAcc hexval b x with
      | none => simp
      | some y =>
        have hy := hexAcc_bound b x y hB
        rw [hb] at hy
        simp only [Option.bind_some, hb]
        rw [parse_loop_dash 13 (by omega)]
        by_cases h2 : s2 = 0x2D
        · simp only [h2, if_true, true_and]
          rw [parse_loop_high c _ _ _ _ (by omega) (by intro i; omega) (by rw [hc]; omega)]
          cases hC : hexAcc hexval c y with
          | none => simp
          | some z =>
            simp only [Option.bind_some, hc]
            rw [parse_loop_dash 18 (by omega)]
            by_cases h3 : s3 = 0x2D
            · simp only [h3, if_true, true_and]
              rw [parse_loop_low d _ _ _ _ (by omega) (by omega) (by intro i; omega) (by rw [hd]; omega)]
              cases hD : hexAcc hexval d 0 with
              | none => simp
              | some w =>
                have hw := hexAcc_bound d 0 w hD
                rw [hd] at hw
                simp only [Option.bind_some, hd]
                rw [parse_loop_dash 23 (by omega)]
                by_cases h4 : s4 = 0x2D
                · simp only [h4, if_true]
                  have := parse_loop_low e [] 24 z w (by omega) (by omega) (by intro i; omega) (by rw [he]; omega)
                  simp only [List.append_nil] at this
                  rw [this]
                  simp [parse_loop]
                · simp [h4]
            · simp [h3]
        · simp [h2]
    · simp [h1]

theorem split36 (s : Bytes) (h : s.length = 36) :
    ∃ (a b c d e : Bytes) (s1 s2 s3 s4 : Byte), a.length = 8 ∧ b.length = 4 ∧ c.length = 4 ∧ d.length = 4 ∧ e.length = 12 ∧
      s = a ++ s1 :: (b ++ s2 :: (c ++ s3 :: (d ++ s4 :: e))) := by
  have key : ∀ (n : Nat) (t : Bytes), n < t.length → ∃ x y z, x.length = n ∧ t = x ++ y :: z := by
    intro n t hn
    exact ⟨t.take n, t[n], t.drop (n + 1), by simp; omega, by simp⟩
  obtain ⟨a, s1, r1, ha, rfl⟩ := key 8 s (by omega)
  simp at h
  obtain ⟨b, s2, r2, hb, rfl⟩ := key 4 r1 (by omega)
  simp at h
  obtain ⟨c, s3, r3, hc, rfl⟩ := key 4 r2 (by omega)
  simp at h
  obtain ⟨d, s4, r4, hd, rfl⟩ := key 4 r3 (by omega)
  simp at h
  exact ⟨a, b, c, d, r4, s1, s2, s3, s4, ha, hb, hc, hd, by omega, rfl⟩

theorem chr_dash : chr '-' = 0x2D := by decide

theorem pow256_8 : (256 : Nat) ^ 8 = 16 ^ 16 := by decide

theorem groups_num {x y : Bytes} {hi lo : Nat} (hy : y.length = 16)
    (h1 : hexAcc hexval x 0 = some hi) (h2 : hexAcc hexval y 0 = some lo) :
    hexAcc hexval (x ++ y) 0 = some (hi * 16 ^ 16 + lo) := by
  have gen : ∀ (y : Bytes) (a lo : Nat), hexAcc hexval y 0 = some lo → hexAcc hexval y a = some (a * 16 ^ y.length + lo) := by
    intro y
    have gen2 : ∀ (y : Bytes) (b lo : Nat), hexAcc hexval y b = some lo →
        ∀ a, hexAcc hexval y (a + b) = some (a * 16 ^ y.length + lo) := by
      intro y
      induction y with
      | nil => intro b lo h a; simp [hexAcc] at h ⊢; omega
      | cons c t ih =>
        intro b lo h a
        simp only [hexAcc, Option.bind_eq_some_iff] at h ⊢
        obtain ⟨v, hv, h⟩ := h
        refine ⟨v, hv, ?_⟩
        have := ih _ _ h (a * 16)
        rw [show (a + b) * 16 + v = a * 16 + (b * 16 + v) by omega, this, List.length_cons, Nat.pow_succ, Nat.mul_assoc,
          Nat.mul_comm 16]
    intro a lo h
    simpa using gen2 y 0 lo h a
  rw [hexAcc_append, h1]
  simp [gen y hi lo h2, hy]

theorem parse_iff (s : Bytes) (u : Bytes) (n : Nat) :
    parse s = some (u, n) ↔ n = 36 ∧ u.length = 16 ∧ 36 ≤ s.length ∧ UuidText (s.take 36) (beNat u) := by
  unfold parse
  by_cases hlen : s.length ≥ 36
  · simp only [if_pos hlen]
    obtain ⟨a, b, c, d, e, s1, s2, s3, s4, ha, hb, hc, hd, he, hs⟩ := split36 (s.take 36) (by simp; omega)
    rw [hs, parse_loop_groups a b c d e s1 s2 s3 s4 ha hb hc hd he]
    constructor
    · intro h
      split at h
      · cases h
      · rename_i high low heq
        simp only [Option.some.injEq, Prod.mk.injEq] at h
        obtain ⟨rfl, rfl⟩ := h
        split at heq
        · rename_i hdash
          simp only [Option.bind_eq_some_iff, Option.some.injEq, Prod.mk.injEq] at heq
          obtain ⟨hi, hhi, lo, hlo, rfl, rfl⟩ := heq
          refine ⟨rfl, by simp, hlen, a, b, c, d, e, ha, hb, hc, hd, he, ?_, ?_⟩
          · simp [chr_dash, hdash.1, hdash.2.1, hdash.2.2.1, hdash.2.2.2]
          · rw [beNat_append, beNat_beBytes, beNat_beBytes, beBytes_length, pow256_8]
            have b1 := hexAcc_bound _ _ _ hhi
            have b2 := hexAcc_bound _ _ _ hlo
            simp [ha, hb, hc, hd, he] at b1 b2
            rw [Nat.mod_eq_of_lt (by omega), Nat.mod_eq_of_lt (by omega)]
            have := groups_num (by simp [hd, he]) hhi hlo
            rw [← hexAcc_hexNum]
            simpa using this
        · cases heq
    · rintro ⟨rfl, hu, _, a', b', c', d', e', ha', hb', hc', hd', he', heq, hnum⟩
      have hinj : ∀ (x y : Bytes) (s t : Byte) (p q : Bytes), x.length = y.length → x ++ s :: p = y ++ t :: q →
          x = y ∧ s = t ∧ p = q := by
        intro x y s t p q hl h
        have := List.append_inj h hl
        simpa using this
      simp only [chr_dash, List.append_assoc, List.cons_append] at heq
      obtain ⟨rfl, rfl, heq1⟩ := hinj _ _ _ _ _ _ (by omega) heq
      obtain ⟨rfl, rfl, heq2⟩ := hinj _ _ _ _ _ _ (by omega) heq1
      obtain ⟨rfl, rfl, heq3⟩ := hinj _ _ _ _ _ _ (by omega) heq2
      obtain ⟨rfl, rfl, rfl⟩ := hinj _ _ _ _ _ _ (by omega) heq3
      rw [← hexAcc_hexNum] at hnum
      rw [show a ++ b ++ c ++ d ++ e = (a ++ b ++ c) ++ (d ++ e) by simp, hexAcc_append, Option.bind_eq_some_iff] at hnum
      obtain ⟨hi, hhi, hlo⟩ := hnum
      have hlo' : ∃ lo, hexAcc hexval (d ++ e) 0 = some lo := by
        have gen : ∀ (y : Bytes) (p q m : Nat), hexAcc hexval y p = some m → ∃ m', hexAcc hexval y q = some m' := by
          intro y
          induction y with
          | nil => intro p q m h; exact ⟨q, rfl⟩
          | cons c t ih =>
            intro p q m h
            simp only [hexAcc, Option.bind_eq_some_iff] at h ⊢
            obtain ⟨v, hv, h⟩ := h
            obtain ⟨m', hm'⟩ := ih _ (q * 16 + v) _ h
            exact ⟨m', v, hv, hm'⟩
        exact gen _ _ _ _ hlo
      obtain ⟨lo, hlo0⟩ := hlo'
      have htot := groups_num (x := a ++ b ++ c) (by simp [hd, he]) hhi hlo0
      rw [hexAcc_append, hhi] at htot
      simp only [Option.bind_some] at htot
      rw [hlo] at htot
      injection htot with htot
      have b2 := hexAcc_bound _ _ _ hlo0
      have b1 := hexAcc_bound _ _ _ hhi
      simp [ha, hb, hc, hd, he] at b1 b2
      simp only [hhi, hlo0, Option.bind_some, and_self, if_true]
      have hub := beBytes_beNat u
      rw [hu] at hub
      have e1 : u = u.take 8 ++ u.drop 8 := (List.take_append_drop 8 u).symm
      have l1 : (u.take 8).length = 8 := by simp; omega
      have l2 : (u.drop 8).length = 8 := by simp; omega
      have hbe : beNat u = beNat (u.take 8) * 16 ^ 16 + beNat (u.drop 8) := by
        conv => lhs; rw [e1]
        rw [beNat_append, l2, pow256_8]
      have q2 := beNat_lt (u.drop 8)
      rw [l2, pow256_8] at q2
      have e2 : hi = beNat (u.take 8) := by omega
      have e3 : lo = beNat (u.drop 8) := by omega
      have f1 := beBytes_beNat (u.take 8)
      have f2 := beBytes_beNat (u.drop 8)
      rw [l1] at f1
      rw [l2] at f2
      rw [e2, e3, f1, f2, List.take_append_drop]
  · simp only [if_neg hlen]
    constructor
    · intro h; cases h
    · rintro ⟨_, _, h, _⟩; omega

/-! ### Printing -/

theorem copyAt_length (buf src : Bytes) (off : Nat) (h : off + src.length ≤ buf.length) :
    (copyAt buf off src).length = buf.length := by
  simp [copyAt]; omega

theorem to_string_eq (u : Bytes) (hu : u.length = 16) :
    to_string u = hexSpec (u.take 4) ++ 0x2D :: (hexSpec ((u.drop 4).take 2) ++ 0x2D :: (hexSpec ((u.drop 6).take 2)
      ++ 0x2D :: (hexSpec ((u.drop 8).take 2) ++ 0x2D :: hexSpec (u.drop 10)))) := by
  match u, hu with
  | [u0, u1, u2, u3, u4, u5, u6, u7, u8, u9, ua, ub, uc, ud, ue, uf], _ =>
    simp [to_string, print_buffer, hex_encode_eq, hexSpec, copyAt]

theorem to_string_uuidText (u : Bytes) (hu : u.length = 16) : UuidText (to_string u) (beNat u) := by
  rw [to_string_eq u hu]
  refine ⟨hexSpec (u.take 4), hexSpec ((u.drop 4).take 2), hexSpec ((u.drop 6).take 2), hexSpec ((u.drop 8).take 2),
    hexSpec (u.drop 10), ?_, ?_, ?_, ?_, ?_, ?_, ?_⟩
  · simp [hexSpec_length]; omega
  · simp [hexSpec_length]; omega
  · simp [hexSpec_length]; omega
  · simp [hexSpec_length]; omega
  · simp [hexSpec_length]; omega
  · simp [chr_dash]
  · rw [← hexAcc_hexNum]
    simp only [← hexSpec_append]
    have : u.take 4 ++ (u.drop 4).take 2 ++ (u.drop 6).take 2 ++ (u.drop 8).take 2 ++ u.drop 10 = u := by
      match u, hu with
      | [u0, u1, u2, u3, u4, u5, u6, u7, u8, u9, ua, ub, uc, ud, ue, uf], _ => rfl
    rw [this, hexAcc_hexSpec]
    simp

theorem uuidText_length {s : Bytes} {n : Nat} (h : UuidText s n) : s.length = 36 := by
  obtain ⟨a, b, c, d, e, ha, hb, hc, hd, he, rfl, _⟩ := h
  simp [ha, hb, hc, hd, he]

end Verif.Uuid
