import Verif.Proofs.HeaderParser
/-! # The header parser always moves forward -/
namespace Verif.Http
open Verif.Spec

/-- How far the parser is. -/
def HeaderParser.left {L : Lib} (q : HeaderParser L) : Nat := match q.hpos with
  | .before => q.hstr.length + 1
  | .at n => q.hstr.length - n
  | .error => 0

theorem attribute_value_length (L : Lib) (s : Bytes) : (attribute_value L s).2.length ≤ s.length := by
  unfold attribute_value
  have h := (List.dropWhile_sublist (p := is_blank) (l := s)).length_le
  split
  · rename_i c t hc
    rw [hc] at h
    split
    · have h2 := (List.dropWhile_sublist (p := is_blank) (l := t)).length_le
      simp only [List.length_cons] at h
      simp only [List.length_drop]
      omega
    · exact h
  · simp

theorem attribute_at_left {L : Lib} (q : HeaderParser L) (start : Nat) (hs : start ≤ q.hstr.length) :
    (q.attribute_at start).1.hstr = q.hstr ∧ (q.attribute_at start).1.left ≤ q.hstr.length - start := by
  unfold HeaderParser.attribute_at
  have h := (List.dropWhile_sublist (p := is_blank) (l := q.hstr.drop start)).length_le
  simp only [List.length_drop] at h
  generalize (q.hstr.drop start).dropWhile is_blank = S at h
  dsimp only
  split
  · exact ⟨rfl, Nat.le_refl _⟩
  · rename_i c t
    split
    · exact ⟨rfl, Nat.le_refl _⟩
    · split
      · exact ⟨rfl, Nat.zero_le _⟩
      · rename_i hp
        have h2 := attribute_value_length L ((c :: t).drop (parse_token_partial L (c_string (c :: t))).2)
        generalize attribute_value L _ = v at h2
        simp only [List.length_drop] at h2
        have h3 := (List.dropWhile_sublist (p := is_blank) (l := v.2)).length_le
        split
        · exact ⟨rfl, by simp [HeaderParser.left]⟩
        · rename_i c' t' hc'
          rw [hc'] at h3
          split
          · exact ⟨rfl, Nat.zero_le _⟩
          · refine ⟨rfl, ?_⟩
            simp only [HeaderParser.left]
            omega

theorem next_attribute_left {L : Lib} (q : HeaderParser L) :
    q.next_attribute.1.hstr = q.hstr ∧ q.next_attribute.1.left ≤ q.left ∧ (q.next_attribute.2 = true → q.next_attribute.1.left < q.left) := by
  unfold HeaderParser.next_attribute
  split
  · rename_i hp
    have h := attribute_at_left q 0 (Nat.zero_le _)
    refine ⟨h.1, ?_, fun _ => ?_⟩ <;> simp only [HeaderParser.left, hp] at h ⊢ <;> omega
  · exact ⟨rfl, Nat.le_refl _, nofun⟩
  · rename_i n hp
    split
    · exact ⟨rfl, Nat.le_refl _, nofun⟩
    · rename_i c hc
      obtain ⟨hn, -⟩ := List.getElem?_eq_some_iff.1 hc
      split
      · exact ⟨rfl, Nat.le_refl _, nofun⟩
      · split
        · have h := attribute_at_left q (n + 1) hn
          have hl : q.left = q.hstr.length - n := by simp only [HeaderParser.left, hp]
          refine ⟨h.1, ?_, fun _ => ?_⟩ <;> dsimp only <;> omega
        · exact ⟨rfl, Nat.zero_le _, nofun⟩

theorem next_element_fuel_left {L : Lib} (fuel : Nat) : ∀ (q : HeaderParser L),
    (q.next_element_fuel fuel).1.hstr = q.hstr ∧ (q.next_element_fuel fuel).1.left ≤ q.left ∧
      ((q.next_element_fuel fuel).2 = true → (q.next_element_fuel fuel).1.left < q.left) := by
  induction fuel with
  | zero => intro q; exact ⟨rfl, Nat.le_refl _, nofun⟩
  | succ fuel ih =>
    intro q
    unfold HeaderParser.next_element_fuel
    split
    · rename_i hp
      have h := attribute_at_left q 0 (Nat.zero_le _)
      refine ⟨h.1, ?_, fun _ => ?_⟩ <;> simp only [HeaderParser.left, hp] at h ⊢ <;> omega
    · exact ⟨rfl, Nat.le_refl _, nofun⟩
    · rename_i n hp
      split
      · exact ⟨rfl, Nat.le_refl _, nofun⟩
      · rename_i c hc
        obtain ⟨hn, -⟩ := List.getElem?_eq_some_iff.1 hc
        have h := attribute_at_left q (n + 1) hn
        have hl : q.left = q.hstr.length - n := by simp only [HeaderParser.left, hp]
        split
        · refine ⟨h.1, ?_, fun _ => ?_⟩ <;> dsimp only <;> omega
        · split
          · have h' := ih (q.attribute_at (n + 1)).1
            refine ⟨h'.1.trans h.1, ?_, fun e => ?_⟩ <;> omega
          · exact ⟨rfl, Nat.zero_le _, nofun⟩

theorem next_element_left {L : Lib} (q : HeaderParser L) :
    q.next_element.1.hstr = q.hstr ∧ q.next_element.1.left ≤ q.left ∧ (q.next_element.2 = true → q.next_element.1.left < q.left) :=
  next_element_fuel_left _ q

/-- The loop of `next_element()` never runs out of fuel. -/
theorem next_element_stable {L : Lib} (f1 : Nat) : ∀ (f2 : Nat) (q : HeaderParser L), q.left < f1 → q.left < f2 →
    q.next_element_fuel f1 = q.next_element_fuel f2 := by
  induction f1 with
  | zero => intro f2 q h; omega
  | succ f1 ih =>
    intro f2 q h1 h2
    obtain ⟨f2, rfl⟩ : ∃ f, f2 = f + 1 := ⟨f2 - 1, by omega⟩
    unfold HeaderParser.next_element_fuel
    split
    · rfl
    · rfl
    · rename_i n hp
      split
      · rfl
      · rename_i c hc
        obtain ⟨hn, -⟩ := List.getElem?_eq_some_iff.1 hc
        have h := attribute_at_left q (n + 1) hn
        have hl : q.left = q.hstr.length - n := by simp only [HeaderParser.left, hp]
        split
        · rfl
        · split
          · exact ih _ _ (by omega) (by omega)
          · rfl

theorem attributes_left {L : Lib} (fuel : Nat) : ∀ (q : HeaderParser L),
    (q.attributes fuel).2.hstr = q.hstr ∧ (q.attributes fuel).2.left ≤ q.left := by
  induction fuel with
  | zero => intro q; exact ⟨rfl, Nat.le_refl _⟩
  | succ fuel ih =>
    intro q
    have h := next_attribute_left q
    unfold HeaderParser.attributes
    split
    · rename_i q' e; rw [e] at h; exact ⟨h.1, h.2.1⟩
    · rename_i q' e
      rw [e] at h
      have h' := ih q'
      split
      rename_i as q'' e'
      rw [e'] at h'
      exact ⟨h'.1.trans h.1, Nat.le_trans h'.2 h.2.1⟩

theorem attributes_stable {L : Lib} (f1 : Nat) : ∀ (f2 : Nat) (q : HeaderParser L), q.left < f1 → q.left < f2 →
    q.attributes f1 = q.attributes f2 := by
  induction f1 with
  | zero => intro f2 q h; omega
  | succ f1 ih =>
    intro f2 q h1 h2
    obtain ⟨f2, rfl⟩ : ∃ f, f2 = f + 1 := ⟨f2 - 1, by omega⟩
    have h := next_attribute_left q
    unfold HeaderParser.attributes
    split
    · rfl
    · rename_i q' e
      rw [e] at h
      have := h.2.2 rfl
      dsimp only at this
      rw [ih f2 q' (by omega) (by omega)]

theorem all_stable {L : Lib} (f1 : Nat) : ∀ (f2 : Nat) (q : HeaderParser L), q.left < f1 → q.left < f2 → q.all f1 = q.all f2 := by
  induction f1 with
  | zero => intro f2 q h; omega
  | succ f1 ih =>
    intro f2 q h1 h2
    obtain ⟨f2, rfl⟩ : ∃ f, f2 = f + 1 := ⟨f2 - 1, by omega⟩
    have h := next_element_left q
    unfold HeaderParser.all
    split
    · rfl
    · rename_i q' e
      rw [e] at h
      have := h.2.2 rfl
      dsimp only at this
      have h' := attributes_left (q'.hstr.length + 2) q'
      dsimp only
      rw [ih f2 _ (by omega) (by omega)]

theorem left_le {L : Lib} (q : HeaderParser L) : q.left ≤ q.hstr.length + 1 := by
  unfold HeaderParser.left; split <;> omega

end Verif.Http
