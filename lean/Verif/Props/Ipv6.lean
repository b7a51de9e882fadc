import Verif.Proofs.Ipv6
/-! # C40, C41, C62: IP addresses -/
namespace Verif.Props
open Verif.Spec Verif.Ipv6

/-- C40, IPv4: the class of an address is that of the smallest special-purpose block that contains it. -/
theorem C40_ipv4 (a : Bytes) (ha : a.length = 4) (e : Nat × Nat × Class) (he : Best 32 v4Table (beNat a) e) : classify_ipv4 a = e.2.2 := by
  obtain ⟨m1, m2, m3, m4, m5, m6, m7, m8, m9, m10⟩ := v4_matches a ha
  unfold classify_ipv4
  rw [m1, m2, m3, m4, m5, m6, m7, m8, m9, m10]
  obtain ⟨hm, hi, hx⟩ := he
  have hlt := beNat_lt a
  rw [ha] at hlt
  generalize beNat a = v at *
  simp only [v4Table, List.mem_cons, List.not_mem_nil, or_false, forall_eq_or_imp, forall_eq] at hm hx
  clear m1 m2 m3 m4 m5 m6 m7 m8 m9 m10
  simp only [decide_eq_true_eq]
  rcases hm with rfl | rfl | rfl | rfl | rfl | rfl | rfl | rfl | rfl | rfl | rfl <;>
    simp only [Nat.reduceLeDiff, imp_true_iff, true_and, and_true, imp_false, Nat.le_refl] at hi hx ⊢ <;>
    simp only [InBlock, v4, Nat.reduceSub, Nat.reducePow, Nat.reduceMul, Nat.reduceAdd] at hi hx hlt <;>
    repeat' (first | rfl | rw [if_pos (by simp only [InBlock, v4, Nat.reduceSub, Nat.reducePow, Nat.reduceMul, Nat.reduceAdd]; omega)] |
      rw [if_neg (by simp only [InBlock, v4, Nat.reduceSub, Nat.reducePow, Nat.reduceMul, Nat.reduceAdd]; omega)])

/-- C40, IPv6: the class of an address is that of the smallest special-purpose block that contains it, or of the IPv4 address that the
block embeds. -/
theorem C40_ipv6 (a : Bytes) (ha : a.length = 16) (e : Nat × Nat × Meaning) (he : Best 128 v6Table (beNat a) e) :
    match e.2.2 with
    | .cls c => classify a = c
    | .embedded low => ∀ e4, Best 32 v4Table (beNat a / 2 ^ low % 2 ^ 32) e4 → classify a = e4.2.2 := by
  obtain ⟨m1, m2, m3, m4, m5, m6, m7, m8, m9, m10, m11⟩ := v6_matches a ha
  have d12 : beNat (a.drop 12) = beNat a / 2 ^ 0 % 2 ^ 32 := by
    have := beNat_drop a 12 (by omega)
    rw [ha] at this
    rw [← this, Nat.pow_zero, Nat.div_one]
  have d2 : beNat ((a.drop 2).take 4) = beNat a / 2 ^ 80 % 2 ^ 32 := by
    have h1 := beNat_drop a 2 (by omega)
    have h2 := beNat_take (a.drop 2) 4 (by rw [List.length_drop]; omega)
    rw [List.length_drop, ha] at h2
    rw [ha] at h1
    rw [← h2, ← h1]
    omega
  have c12 := C40_ipv4 (a.drop 12) (by rw [List.length_drop]; omega)
  have c2 := C40_ipv4 ((a.drop 2).take 4) (by rw [List.length_take, List.length_drop]; omega)
  rw [d12] at c12
  rw [d2] at c2
  unfold classify
  rw [m1, m2, m3, m4, m5, m6, m7, m8, m9, m10, m11]
  obtain ⟨hm, hi, hx⟩ := he
  have hlt := beNat_lt a
  rw [ha] at hlt
  clear d12 d2
  generalize beNat a = v at *
  simp only [v6Table, List.mem_cons, List.not_mem_nil, or_false, forall_eq_or_imp, forall_eq] at hm hx
  clear m1 m2 m3 m4 m5 m6 m7 m8 m9 m10 m11
  simp only [decide_eq_true_eq]
  rcases hm with rfl | rfl | rfl | rfl | rfl | rfl | rfl | rfl | rfl | rfl | rfl | rfl <;>
    simp only [Nat.reduceLeDiff, imp_true_iff, true_and, and_true, imp_false, Nat.le_refl] at hi hx ⊢ <;>
    simp only [InBlock, v6, Nat.reduceSub, Nat.reducePow, Nat.reduceMul, Nat.reduceAdd] at hi hx hlt <;>
    repeat' (first | rfl | exact c12 | exact c2 | rw [if_pos (by simp only [InBlock, v6, Nat.reduceSub, Nat.reducePow, Nat.reduceMul, Nat.reduceAdd]; omega)] |
      rw [if_neg (by simp only [InBlock, v6, Nat.reduceSub, Nat.reducePow, Nat.reduceMul, Nat.reduceAdd]; omega)])

theorem best_exists {α : Type} (w : Nat) (table : List (Nat × Nat × α)) (v : Nat) (h : ∃ e ∈ table, InBlock w v e.1 e.2.1) : ∃ e, Best w table v e := by
  induction table with
  | nil => obtain ⟨e, he, -⟩ := h; exact nomatch he
  | cons x t ih =>
    by_cases ht : ∃ e ∈ t, InBlock w v e.1 e.2.1
    · obtain ⟨e, h1, h2, h3⟩ := ih ht
      by_cases hx : InBlock w v x.1 x.2.1 ∧ e.2.1 < x.2.1
      · refine ⟨x, by simp, hx.1, ?_⟩
        intro e' he' hi
        rcases List.mem_cons.1 he' with rfl | he'
        · exact Nat.le_refl _
        · exact Nat.le_trans (h3 e' he' hi) (Nat.le_of_lt hx.2)
      · refine ⟨e, List.mem_cons_of_mem _ h1, h2, ?_⟩
        intro e' he' hi
        rcases List.mem_cons.1 he' with rfl | he'
        · exact Nat.le_of_not_lt fun hlt => hx ⟨hi, hlt⟩
        · exact h3 e' he' hi
    · obtain ⟨e, he, hi⟩ := h
      rcases List.mem_cons.1 he with rfl | he
      · refine ⟨e, by simp, hi, ?_⟩
        intro e' he' hi'
        rcases List.mem_cons.1 he' with rfl | he'
        · exact Nat.le_refl _
        · exact absurd ⟨e', he', hi'⟩ ht
      · exact absurd ⟨e, he, hi⟩ ht

/-- The tables cover all addresses, so that `C40_ipv4` and `C40_ipv6` speak about each of them. -/
theorem C40_covered : (∀ v < 2 ^ 32, ∃ e, Best 32 v4Table v e) ∧ (∀ v < 2 ^ 128, ∃ e, Best 128 v6Table v e) := by
  constructor
  · intro v hv
    exact best_exists _ _ _ ⟨(v4 0 0 0 0, 0, .public_), by simp [v4Table], by simp [InBlock, v4]; exact hv⟩
  · intro v hv
    exact best_exists _ _ _ ⟨(v6 0 0 0 0 0 0 0 0, 0, .cls .public_), by simp [v6Table], by simp [InBlock, v6]; exact hv⟩

/-- `172.31.255.255` is in `172.16.0.0/12`, `172.32.0.0` is not; `2002:ac1f:ffff::` embeds the first one. -/
example : classify_ipv4 [172, 31, 255, 255] = .private_ ∧ classify_ipv4 [172, 32, 0, 0] = .public_ ∧
    classify [0x20, 0x02, 172, 31, 255, 255, 0, 0, 0, 0, 0, 0, 0, 0, 0, 0] = .private_ := by decide +kernel
example : Best 32 v4Table (v4 10 1 2 3) (v4 10 0 0 0, 8, .private_) := by
  refine ⟨by simp [v4Table], by decide, ?_⟩
  intro e' he' hi
  simp only [v4Table, List.mem_cons, List.not_mem_nil, or_false] at he'
  rcases he' with rfl | rfl | rfl | rfl | rfl | rfl | rfl | rfl | rfl | rfl | rfl <;> revert hi <;> decide

/-! ### C41 -/

theorem memcmp_lt (a b : Bytes) (h : a.length = b.length) : (memcmp a b < 0 ↔ LexLt a b) ∧ (memcmp a b = 0 ↔ a = b) ∧ memcmp b a = - memcmp a b := by
  induction a generalizing b with
  | nil =>
    cases b with
    | nil => simp [memcmp, LexLt]
    | cons => simp at h
  | cons x a ih =>
    cases b with
    | nil => simp at h
    | cons y b =>
      obtain ⟨i1, i2, i3⟩ := ih b (by simpa using h)
      unfold memcmp LexLt
      by_cases h1 : x < y
      · have h2 : ¬ y < x := fun h => UInt8.lt_irrefl x (UInt8.lt_trans h1 h)
        have h3 : x ≠ y := fun h => UInt8.lt_irrefl x (h ▸ h1)
        simp [h1, h2, h3]
      · by_cases h2 : y < x
        · have h3 : x ≠ y := fun h => UInt8.lt_irrefl x (h ▸ h2)
          simp [h1, h2, h3]
        · have h3 : x = y := UInt8.le_antisymm (UInt8.not_lt.1 h2) (UInt8.not_lt.1 h1)
          subst h3
          simp only [h1, if_false, false_or, true_and, List.cons.injEq]
          exact ⟨i1, i2, i3⟩

theorem lex_append (a b x y : Bytes) (h : a.length = b.length) : LexLt (a ++ x) (b ++ y) ↔ LexLt a b ∨ (a = b ∧ LexLt x y) := by
  induction a generalizing b with
  | nil =>
    cases b with
    | nil => simp [LexLt]
    | cons => simp at h
  | cons u a ih =>
    cases b with
    | nil => simp at h
    | cons w b =>
      simp only [List.cons_append, LexLt, ih b (by simpa using h), List.cons.injEq]
      constructor
      · rintro (h | ⟨h, h2 | ⟨h2, h3⟩⟩)
        · exact .inl (.inl h)
        · exact .inl (.inr ⟨h, h2⟩)
        · exact .inr ⟨⟨h, h2⟩, h3⟩
      · rintro ((h | ⟨h, h2⟩) | ⟨⟨h, h2⟩, h3⟩)
        · exact .inl h
        · exact .inr ⟨h, .inl h2⟩
        · exact .inr ⟨h, .inr ⟨h2, h3⟩⟩

theorem port_bytes {p q : Nat} (hp : p < 65536) (hq : q < 65536) : (LexLt (beBytes 2 p) (beBytes 2 q) ↔ p < q) ∧ (beBytes 2 p = beBytes 2 q ↔ p = q) := by
  have e1 : beNat (beBytes 2 p) = p := by rw [beNat_beBytes]; exact Nat.mod_eq_of_lt hp
  have e2 : beNat (beBytes 2 q) = q := by rw [beNat_beBytes]; exact Nat.mod_eq_of_lt hq
  refine ⟨?_, ?_⟩
  · rw [Uuid.lexLt_iff_beNat _ _ (by simp), e1, e2]
  · constructor
    · intro h; rw [← e1, ← e2, h]
    · rintro rfl; rfl

/-- C41: `compare` orders by the address as a number, then by the port number. -/
theorem C41_order (a b : Bytes) (p q : Nat) (ha : a.length = 16) (hb : b.length = 16) (hp : p < 65536) (hq : q < 65536) :
    (compare a p b q < 0 ↔ beNat a < beNat b ∨ (beNat a = beNat b ∧ p < q)) ∧ (compare a p b q = 0 ↔ a = b ∧ p = q) ∧
    compare b q a p = - compare a p b q := by
  have hl : (a ++ beBytes 2 p).length = (b ++ beBytes 2 q).length := by simp [ha, hb]
  obtain ⟨h1, h2, h3⟩ := memcmp_lt _ _ hl
  unfold Ipv6.compare
  refine ⟨?_, ?_, h3⟩
  · rw [h1, lex_append _ _ _ _ (by omega), Uuid.lexLt_iff_beNat _ _ (by omega), (port_bytes hp hq).1]
    constructor
    · rintro (h | ⟨rfl, h⟩)
      · exact .inl h
      · exact .inr ⟨rfl, h⟩
    · rintro (h | ⟨h, h'⟩)
      · exact .inl h
      · exact .inr ⟨Uuid.beNat_inj _ _ (by omega) h, h'⟩
  · rw [h2]
    constructor
    · intro h
      have := List.append_inj h (by omega)
      exact ⟨this.1, (port_bytes hp hq).2.1 this.2⟩
    · rintro ⟨rfl, rfl⟩; rfl

/-- C41: the order laws. -/
theorem C41_total_order (a b c : Bytes) (p q r : Nat) (ha : a.length = 16) (hb : b.length = 16) (hc : c.length = 16) (hp : p < 65536)
    (hq : q < 65536) (hr : r < 65536) :
    (compare a p b q < 0 → compare b q c r < 0 → compare a p c r < 0) ∧
    (compare a p b q < 0 ∨ (a = b ∧ p = q) ∨ compare b q a p < 0) ∧ ¬ compare a p a p < 0 := by
  have h1 := C41_order a b p q ha hb hp hq
  have h2 := C41_order b c q r hb hc hq hr
  have h3 := C41_order a c p r ha hc hp hr
  have h4 := C41_order a a p p ha ha hp hp
  rw [h1.1, h2.1, h3.1, ← h1.2.1, h1.2.2]
  refine ⟨by omega, ?_, ?_⟩
  · have := h1.1; omega
  · rw [h4.1]; omega

theorem movemask_pairs (a b : Bytes) (h : a.length = b.length) (he : a.length % 2 = 0) :
    (cmpeq_epi16 a b).length = a.length ∧ ((∀ x ∈ cmpeq_epi16 a b, x = true) ↔ a = b) := by
  match a, b, h with
  | [], [], _ => simp [cmpeq_epi16]
  | [_], [_], _ => simp at he
  | x0 :: x1 :: a, y0 :: y1 :: b, h =>
    obtain ⟨i1, i2⟩ := movemask_pairs a b (by simpa using h) (by simp at he; omega)
    simp only [cmpeq_epi16, List.length_cons, i1, List.mem_cons, forall_eq_or_imp, i2, Bool.and_eq_true, beq_iff_eq, List.cons.injEq]
    refine ⟨trivial, ?_⟩
    constructor
    · rintro ⟨⟨h1, h2⟩, -, h3⟩; exact ⟨h1, h2, h3⟩
    · rintro ⟨h1, h2, h3⟩; exact ⟨⟨h1, h2⟩, ⟨h1, h2⟩, h3⟩

theorem nat_xor_zero (x y : Nat) : x ^^^ y = 0 ↔ x = y := by
  constructor
  · intro h
    have : (x ^^^ y) ^^^ y = y := by rw [h, Nat.zero_xor]
    rwa [Nat.xor_assoc, Nat.xor_self, Nat.xor_zero] at this
  · rintro rfl; exact Nat.xor_self _

/-- C41: `equals` holds exactly when `compare` is zero, i.e. when all address bytes and the ports agree. -/
theorem C41_equals (a b : Bytes) (p q : Nat) (ha : a.length = 16) (hb : b.length = 16) (hp : p < 65536) (hq : q < 65536) :
    (equals a p b q = true ↔ a = b ∧ p = q) ∧ (equals a p b q = true ↔ compare a p b q = 0) := by
  have key : equals a p b q = true ↔ a = b ∧ p = q := by
    obtain ⟨h1, h2⟩ := movemask_pairs a b (by omega) (by omega)
    have h3 := Uuid.movemask_all (cmpeq_epi16 a b)
    rw [h1, ha] at h3
    unfold equals
    rw [beq_iff_eq, Nat.or_eq_zero_iff, nat_xor_zero, nat_xor_zero, show (0xFFFF : Nat) = 2 ^ 16 - 1 by decide, h3, h2]
  exact ⟨key, by rw [key, (C41_order a b p q ha hb hp hq).2.1]⟩

/-- C41: `is_v4mapped` holds exactly for the addresses of `::ffff:0:0/96`. -/
theorem C41_v4mapped (a : Bytes) (ha : a.length = 16) : is_v4mapped a = true ↔ beNat a / 2 ^ 32 = 0xFFFF := by
  have key : ∀ e0 e1 e2 e3 e4 e5 e6 e7 : Bool,
      ((Uuid.movemask [e0, e0, e1, e1, e2, e2, e3, e3, e4, e4, e5, e5, e6, e6, e7, e7] ^^^ 0xFFFF) &&& 0x0FFF = 0) ↔
        (e0 = true ∧ e1 = true ∧ e2 = true ∧ e3 = true ∧ e4 = true ∧ e5 = true) := by
    intro e0 e1 e2 e3 e4 e5 e6 e7
    cases e0 <;> cases e1 <;> cases e2 <;> cases e3 <;> cases e4 <;> cases e5 <;> cases e6 <;> cases e7 <;> decide +kernel
  have ht : beNat (a.take 12) = beNat a / 2 ^ 32 := by
    have := beNat_take a 12 (by omega)
    rw [ha] at this
    exact this.symm
  have hm : beNat a / 2 ^ 32 = 0xFFFF ↔ a.take 12 = mapped := by
    rw [← ht]
    constructor
    · intro h
      exact Uuid.beNat_inj _ _ (by rw [List.length_take, ha]; rfl) (h.trans (by decide +kernel))
    · intro h; rw [h]; decide +kernel
  rw [hm]
  match a, ha with
  | [a0, a1, a2, a3, a4, a5, a6, a7, a8, a9, a10, a11, a12, a13, a14, a15], _ =>
    unfold is_v4mapped
    simp only [cmpeq_epi16, beq_iff_eq, key, mapped, List.take_succ_cons, List.take_zero, List.cons.injEq, Bool.and_eq_true, and_true, and_assoc]

example : compare ([0, 0, 0, 1] ++ List.replicate 12 0) 65535 ([0, 0, 0, 1] ++ List.replicate 12 0) 1 > 0 ∧
    compare ([0, 0, 0, 1] ++ List.replicate 12 0) 255 ([0, 0, 0, 1] ++ List.replicate 12 0) 256 < 0 ∧
    equals ([0, 0, 0, 1] ++ List.replicate 12 0) 1 ([0, 0, 0, 1] ++ List.replicate 12 0) 1 = true := by decide +kernel

/-! ### C62: text -/

/-- What is needed of `inet_ntop` and `inet_pton`: they invert each other, and use only digits, letters, dots and (for IPv6)
colons. -/
structure InetOk (I : Inet) : Prop where
  back6 : ∀ a : Bytes, a.length = 16 → I.pton6 (I.ntop6 a) = some a
  chars6 : ∀ a : Bytes, a.length = 16 → I.ntop6 a ≠ [] ∧ (I.ntop6 a).length ≤ 45 ∧ ∀ c ∈ I.ntop6 a, c ∈ host6Chars
  back4 : ∀ a : Bytes, a.length = 4 → I.pton4 (I.ntop4 a) = some a
  chars4 : ∀ a : Bytes, a.length = 4 → I.ntop4 a ≠ [] ∧ (I.ntop4 a).length ≤ 15 ∧ ∀ c ∈ I.ntop4 a, c ∈ hostChars

/-- C62: the text of an address, alone or followed by a character that cannot continue it, is parsed back to the same
address and port, and exactly that text is consumed. -/
theorem C62_text (I : Inet) (hI : InetOk I) (a : Bytes) (p : Nat) (ha : a.length = 16) (hp : p < 65536) (rest : Bytes)
    (hr : ∀ c, rest.head? = some c → c ∉ fragmentChars) :
    parse I (print I a p ++ rest) = some (a, p, (print I a p).length) := by
  have hdec := Http.decimal_decNum p
  have hdne : Http.decimal p ≠ [] := by
    unfold Http.decimal
    cases p with
    | zero => simp [Http.digits]
    | succ n => unfold Http.digits; split <;> simp
  by_cases hm : match_subnet a mapped 96 = true
  · have htext : print I a p = RefParts.text ⟨false, I.ntop4 (a.drop 12), some (Http.decimal p, p), none, none, none⟩ := by
      unfold print RefParts.text; rw [if_pos hm]; simp [optText]; rfl
    have h4 : (a.drop 12).length = 4 := by rw [List.length_drop]; omega
    obtain ⟨n1, n2, n3⟩ := hI.chars4 _ h4
    have hv : RefParts.Valid ⟨false, I.ntop4 (a.drop 12), some (Http.decimal p, p), none, none, none⟩ :=
      ⟨n1, by simpa using n3, by
        intro t n h
        simp only [Option.some.injEq, Prod.mk.injEq] at h
        obtain ⟨rfl, rfl⟩ := h
        exact ⟨hdne, hdec, by omega⟩, nofun, nofun, nofun⟩
    have hpr := Uri.parse_complete {} _ hv rest hr
    unfold parse
    rw [htext, hpr]
    simp only [Uri.store, Option.map_some, Option.getD_some, Option.getD_none, Bool.or_self]
    have l1 : (I.ntop4 (a.drop 12)).length ≠ 0 := fun h => n1 (List.length_eq_zero_iff.1 h)
    have l2 : (Http.decimal p).length ≠ 0 := fun h => hdne (List.length_eq_zero_iff.1 h)
    rw [if_neg (by omega), if_neg (by simp [l2])]
    have hmap : mapped ++ a.drop 12 = a := by
      have ht : a.take 12 = mapped := by
        unfold match_subnet at hm
        simp only [Bool.and_eq_true, beq_iff_eq] at hm
        exact hm.1
      rw [← ht, List.take_append_drop]
    rw [← htext]
    simp only [Bool.false_eq_true, if_false, hI.back4 _ h4, Option.map_some, hmap]
    rw [if_neg (by unfold print; simp)]
  · have htext : print I a p = RefParts.text ⟨true, I.ntop6 a, some (Http.decimal p, p), none, none, none⟩ := by
      unfold print RefParts.text; rw [if_neg hm]; simp [optText]; decide
    obtain ⟨n1, n2, n3⟩ := hI.chars6 a ha
    have hv : RefParts.Valid ⟨true, I.ntop6 a, some (Http.decimal p, p), none, none, none⟩ :=
      ⟨n1, by simpa using n3, by
        intro t n h
        simp only [Option.some.injEq, Prod.mk.injEq] at h
        obtain ⟨rfl, rfl⟩ := h
        exact ⟨hdne, hdec, by omega⟩, nofun, nofun, nofun⟩
    have hpr := Uri.parse_complete {} _ hv rest hr
    unfold parse
    rw [htext, hpr]
    simp only [Uri.store, Option.map_some, Option.getD_some, Option.getD_none, Bool.or_false]
    have l1 : (I.ntop6 a).length ≠ 0 := fun h => n1 (List.length_eq_zero_iff.1 h)
    have l2 : (Http.decimal p).length ≠ 0 := fun h => hdne (List.length_eq_zero_iff.1 h)
    rw [if_neg (by omega), if_neg (by simp [l2])]
    rw [← htext]
    simp only [if_true, hI.back6 a ha]
    rw [if_neg (by unfold print; simp)]

/-- C62: the text fits the 48 characters that the header asks for. -/
theorem C62_fits (I : Inet) (hI : InetOk I) (a : Bytes) (p : Nat) (ha : a.length = 16) (hp : p < 65536)
    (h39 : match_subnet a mapped 96 = false → (I.ntop6 a).length ≤ 39) : (print I a p).length ≤ 48 := by
  have hd : (Http.decimal p).length ≤ 5 := by
    have digs : ∀ (k f n : Nat), n < 10 ^ k → 0 < k → (Http.digits 10 (fun d => UInt8.ofNat (0x30 + d)) f n).length ≤ k := by
      intro k
      induction k with
      | zero => intro f n _ h; omega
      | succ k ih =>
        intro f n hn _
        cases f with
        | zero => simp [Http.digits]
        | succ f =>
          unfold Http.digits
          split
          · simp
          · rename_i h
            have : n / 10 < 10 ^ k := by rw [Nat.div_lt_iff_lt_mul (by decide), ← Nat.pow_succ]; exact hn
            have hk : 0 < k := by
              rcases Nat.eq_zero_or_pos k with rfl | h'
              · simp at hn; omega
              · exact h'
            have := ih f (n / 10) this hk
            simp only [List.length_append, List.length_cons, List.length_nil]; omega
    exact digs 5 p p (by omega) (by decide)
  unfold print
  simp only [List.length_append, List.length_cons]
  cases hm : match_subnet a mapped 96 with
  | true =>
    have := (hI.chars4 (a.drop 12) (by rw [List.length_drop]; omega)).2.1
    simp only [if_true]; omega
  | false =>
    have := h39 hm
    simp only [Bool.false_eq_true, if_false, List.cons_append, List.length_cons, List.length_append, List.length_nil]; omega

/-- C62: constructing an address from its own text gives the same address. -/
theorem C62_constructor (I : Inet) (hI : InetOk I) (a : Bytes) (p : Nat) (ha : a.length = 16) (hp : p < 65536) :
    of_text I (print I a p) = some (a, p) := by
  have := C62_text I hI a p ha hp [] (by simp)
  rw [List.append_nil] at this
  simp [of_text, this]

/-- C62: the constructor accepts a text other than the empty one only if it was parsed entirely. -/
theorem C62_constructor_rejects_partial (I : Inet) (t : Bytes) (r : Bytes × Nat) (h : of_text I t = some r) : t = [] ∨ parse I t = some (r.1, r.2, t.length) := by
  unfold of_text at h
  split at h
  · rename_i addr port n he
    split at h
    · rename_i hn
      cases h
      exact .inr (by rw [he, hn])
    · exact nomatch h
  · split at h
    · rename_i hn
      exact .inl (List.length_eq_zero_iff.1 hn.symm)
    · exact nomatch h

/-- The constructor does not throw for the empty text, although it is not an address. -/
theorem C62_constructor_accepts_empty (I : Inet) : parse I [] = none ∧ of_text I [] = some (List.replicate 16 0, 0) := ⟨rfl, rfl⟩

def nib (n : Nat) : Byte := UInt8.ofNat (0x61 + n)
def spell (a : Bytes) : Bytes := a.flatMap fun b => [nib (b.toNat / 16), nib (b.toNat % 16)]
def unspell : Bytes → Option Bytes
  | [] => some []
  | [_] => none
  | x :: y :: t => (unspell t).map (UInt8.ofNat ((x.toNat - 0x61) * 16 + (y.toNat - 0x61)) :: ·)

/-- A (made up) notation that meets `InetOk`. -/
def demoInet : Inet := ⟨unspell, spell, unspell, spell⟩

theorem spell_facts : ∀ b : Byte, UInt8.ofNat (((nib (b.toNat / 16)).toNat - 0x61) * 16 + ((nib (b.toNat % 16)).toNat - 0x61)) = b ∧
    nib (b.toNat / 16) ∈ hostChars ∧ nib (b.toNat % 16) ∈ hostChars ∧ nib (b.toNat / 16) ∈ host6Chars ∧ nib (b.toNat % 16) ∈ host6Chars :=
  forall_byte (by decide +kernel)

theorem spell_back (a : Bytes) : unspell (spell a) = some a ∧ (spell a).length = 2 * a.length ∧ ∀ c ∈ spell a, c ∈ hostChars ∧ c ∈ host6Chars := by
  induction a with
  | nil => simp [spell, unspell]
  | cons b a ih =>
    obtain ⟨i1, i2, i3⟩ := ih
    obtain ⟨f1, f2, f3, f4, f5⟩ := spell_facts b
    have e : spell (b :: a) = nib (b.toNat / 16) :: nib (b.toNat % 16) :: spell a := rfl
    refine ⟨by rw [e, unspell, i1, f1]; rfl, by rw [e]; simp only [List.length_cons, i2]; omega, ?_⟩
    intro c hc
    rw [e] at hc
    rcases List.mem_cons.1 hc with rfl | hc
    · exact ⟨f2, f4⟩
    · rcases List.mem_cons.1 hc with rfl | hc
      · exact ⟨f3, f5⟩
      · exact i3 c hc

example : InetOk demoInet where
  back6 a _ := (spell_back a).1
  chars6 a ha := ⟨fun h => by have := (spell_back a).2.1; simp only [demoInet] at h; rw [h, ha] at this; simp at this,
    by show (spell a).length ≤ 45; rw [(spell_back a).2.1]; omega, fun c hc => ((spell_back a).2.2 c hc).2⟩
  back4 a _ := (spell_back a).1
  chars4 a ha := ⟨fun h => by have := (spell_back a).2.1; simp only [demoInet] at h; rw [h, ha] at this; simp at this,
    by show (spell a).length ≤ 15; rw [(spell_back a).2.1]; omega, fun c hc => ((spell_back a).2.2 c hc).1⟩

end Verif.Props
