import Verif.Spec.ErrorText
import Verif.Proofs.LogEntry
/-!
# Proofs about the texts of exceptions
-/
namespace Verif.ErrorText

theorem blank_iff : ∀ c : Byte, blank c = true ↔ c ∈ b! " \t\r\n" := forall_byte (by decide +kernel)

theorem trimEnd_trimmed : ∀ s : Bytes, Trimmed s (trimEnd s)
  | [] => ⟨⟨[], rfl, by simp⟩, fun a c h => by simp [trimEnd] at h⟩
  | c :: t => by
    obtain ⟨⟨b, h1, h2⟩, h3⟩ := trimEnd_trimmed t
    unfold trimEnd
    split
    · rename_i e
      rw [e, List.nil_append] at h1
      subst h1
      split
      · rename_i hb
        refine ⟨⟨c :: t, rfl, fun x hx => ?_⟩, fun a x h => by simp at h⟩
        rcases List.mem_cons.mp hx with rfl | hx
        · exact (blank_iff _).mp hb
        · exact h2 x hx
      · rename_i hb
        refine ⟨⟨t, rfl, h2⟩, fun a x h => ?_⟩
        cases a with
        | nil => simp only [List.nil_append, List.cons.injEq, and_true] at h; subst h; exact fun hx => hb ((blank_iff _).mpr hx)
        | cons y a => simp at h
    · rename_i hne
      refine ⟨⟨b, by rw [List.cons_append, ← h1], h2⟩, fun a x h => ?_⟩
      cases a with
      | nil =>
        simp only [List.nil_append, List.cons.injEq] at h
        exact absurd h.2 hne
      | cons y a =>
        simp only [List.cons_append, List.cons.injEq] at h
        exact h3 a x h.2

theorem dec_eq (n : Nat) : Http.decimal n = dec n := Log.decimal_toDigits n

theorem hex_digits : ∀ fuel n, n ≤ fuel → Http.digits 16 Http.upper_hex fuel n = ((Nat.toDigits 16 n).map Char.toUpper).map chr := by
  have hd : ∀ d < 16, Http.upper_hex d = chr (Nat.digitChar d).toUpper := by decide
  intro fuel
  induction fuel with
  | zero =>
    intro n h
    obtain rfl : n = 0 := by omega
    decide
  | succ f ih =>
    intro n h
    unfold Http.digits
    by_cases hn : n < 16
    · rw [if_pos hn, Nat.toDigits_of_lt_base hn, hd n hn]; rfl
    · rw [if_neg hn, Nat.toDigits_of_base_le (by decide) (by omega), ih (n / 16) (by omega), List.map_append, List.map_append, hd _ (by omega)]; rfl

theorem putXU_eq (n : Nat) : putXU n = hex n := by
  unfold putXU hex Http.hex_length
  rw [hex_digits n n (Nat.le_refl n)]

theorem dec_length_mono : ∀ m n : Nat, n ≤ m → ∀ k ≤ n, (dec k).length ≤ (dec n).length := by
  intro m
  induction m with
  | zero => intro n hn k hk; obtain rfl : n = 0 := by omega
            obtain rfl : k = 0 := by omega
            exact Nat.le_refl _
  | succ m ih =>
    intro n hn k hk
    by_cases h : n < 10
    · unfold dec
      rw [Nat.toDigits_of_lt_base h, Nat.toDigits_of_lt_base (by omega)]
      simp
    · have e : (dec n).length = (dec (n / 10)).length + 1 := by
        unfold dec
        rw [Nat.toDigits_of_base_le (by decide) (by omega)]; simp
      by_cases h2 : k < 10
      · have : (dec k).length = 1 := by unfold dec; rw [Nat.toDigits_of_lt_base h2]; rfl
        omega
      · have e2 : (dec k).length = (dec (k / 10)).length + 1 := by
          unfold dec
          rw [Nat.toDigits_of_base_le (by decide) (by omega)]; simp
        have := ih (n / 10) (by omega) (k / 10) (by omega)
        omega

theorem frameText_eq (f : Frame) : frameText f = described f := by
  obtain ⟨ip, name⟩ := f
  cases name with
  | none => simp [frameText, described, putXU_eq]
  | some p =>
    obtain ⟨name, offset⟩ := p
    cases offset with
    | zero => simp [frameText, described, putXU_eq, List.append_assoc]
    | succ n => simp [frameText, described, putXU_eq, List.append_assoc]

/-- The field has blanks, and digits of a number no longer than the next one. -/
theorem frames_eq (total : Nat) : ∀ (fs : List Frame) (field : Bytes) (k : Nat), k + fs.length ≤ total → field.length = (dec total).length →
    (∀ i, i + (dec (k + 1)).length ≤ (dec total).length → field.take i = List.replicate i (chr ' ')) → frames field k fs = callers total (k + 1) fs
  | [], _, _, _, _, _ => rfl
  | f :: fs, field, k, hk, hl, hb => by
    simp only [List.length_cons] at hk
    have hm := dec_length_mono total total (Nat.le_refl _) (k + 1) (by omega)
    have e : overwriteEnd field (Http.decimal (k + 1)) = right (dec total).length (dec (k + 1)) := by
      unfold overwriteEnd right
      rw [dec_eq, hl, hb _ (by omega)]
    unfold frames callers
    dsimp only
    rw [e, frameText_eq, frames_eq total fs _ (k + 1) (by omega) (by simp [right]; omega) ?_]
    intro i hi
    have := dec_length_mono (k + 1 + 1) (k + 1 + 1) (Nat.le_refl _) (k + 1) (by omega)
    unfold right
    rw [List.take_append_of_le_length (by simp; omega), List.take_replicate]
    congr 1; omega

end Verif.ErrorText
