import Verif.Model.HttpValue
import Verif.Spec.HttpValue
/-! # Proofs about HTTP values -/
namespace Verif.Http
open Verif.Spec

theorem ctl_iff : ∀ c : Byte, is_ctl_or_ws c = true ↔ CtlOrSpace c := by
  unfold CtlOrSpace; exact forall_byte (by decide +kernel)

theorem sep_iff : ∀ c : Byte, is_ctl_or_sep c = false ↔ TokenChar c := by
  unfold TokenChar CtlOrSpace; exact forall_byte (by decide +kernel)

theorem quoted_text {w s : Bytes} (h : QuotedText w s) (rest acc : Bytes) :
    quoted_loop (w ++ chr '"' :: rest) true acc = some (acc ++ s, rest) := by
  induction h generalizing acc with
  | nil => simp [quoted_loop]
  | plain h1 h2 _ ih =>
    rw [List.cons_append]
    unfold quoted_loop
    rw [if_neg (fun h => h1 h.1), if_pos (.inl h2), ih]; simp
  | pair _ ih =>
    rw [List.cons_append, List.cons_append]
    conv => lhs; unfold quoted_loop
    rw [if_neg (fun h => absurd h.1 (by decide)), if_neg (by decide)]
    conv => lhs; unfold quoted_loop
    rw [if_neg (by simp), if_pos (.inr rfl), ih]; simp

theorem quote_collapsed (s : Bytes) : (∃ t, Collapsed s t ∧ QuotedText (quote_loop s false) t) ∧
    (∃ r s' t, s = r ++ s' ∧ (∀ c ∈ r, CtlOrSpace c) ∧ (∀ c, s'.head? = some c → ¬ CtlOrSpace c) ∧ Collapsed s' t ∧
      QuotedText (quote_loop s true) t) := by
  induction s with
  | nil => exact ⟨⟨[], .nil, .nil⟩, [], [], [], rfl, by simp, by simp, .nil, .nil⟩
  | cons c s ih =>
    obtain ⟨⟨t, h1, h2⟩, r, s', t', h3, h4, h5, h6, h7⟩ := ih
    by_cases hq : c = chr '\\' ∨ c = chr '"'
    · have hn : ¬ CtlOrSpace c := by
        rcases hq with rfl | rfl <;> (unfold CtlOrSpace; decide)
      have hw : ∀ b, quote_loop (c :: s) b = chr '\\' :: c :: quote_loop s false := by
        intro b; conv => lhs; unfold quote_loop
        rw [if_pos hq]
      refine ⟨⟨c :: t, .char hn h1, hw false ▸ .pair h2⟩, [], c :: s, c :: t, rfl, by simp, ?_, .char hn h1, hw true ▸ .pair h2⟩
      intro x hx; cases hx; exact hn
    · by_cases hc : CtlOrSpace c
      · have hcb := (ctl_iff c).2 hc
        have hw : quote_loop (c :: s) true = quote_loop s true := by
          conv => lhs; unfold quote_loop
          rw [if_neg hq, if_pos hcb, if_pos rfl]
        have hw' : quote_loop (c :: s) false = chr ' ' :: quote_loop s true := by
          conv => lhs; unfold quote_loop
          rw [if_neg hq, if_pos hcb, if_neg (by decide)]
        have hall : ∀ x ∈ c :: r, CtlOrSpace x := by
          intro x hx; rcases List.mem_cons.1 hx with rfl | hx
          · exact hc
          · exact h4 x hx
        refine ⟨⟨chr ' ' :: t', ?_, ?_⟩, c :: r, s', t', by rw [h3]; rfl, hall, h5, h6, hw ▸ h7⟩
        · rw [h3, ← List.cons_append]
          exact .run (by simp) hall h5 h6
        · rw [hw']; exact .plain (by decide) (by decide) h7
      · have hcb : ¬ is_ctl_or_ws c = true := fun h => hc ((ctl_iff c).1 h)
        have hw : ∀ b, quote_loop (c :: s) b = c :: quote_loop s false := by
          intro b; conv => lhs; unfold quote_loop
          rw [if_neg hq, if_neg hcb]
        have hq1 : c ≠ chr '"' := fun h => hq (.inr h)
        have hq2 : c ≠ chr '\\' := fun h => hq (.inl h)
        refine ⟨⟨c :: t, .char hc h1, hw false ▸ .plain hq1 hq2 h2⟩, [], c :: s, c :: t, rfl, by simp, ?_, .char hc h1,
          hw true ▸ .plain hq1 hq2 h2⟩
        intro x hx; cases hx; exact hc

theorem collapsed_unique {s t : Bytes} (h : Collapsed s t) : ∀ {t'}, Collapsed s t' → t = t' := by
  induction h with
  | nil =>
    intro t' h'
    generalize hs : ([] : Bytes) = s at h'
    cases h' with
    | nil => rfl
    | char => simp at hs
    | run hr => simp at hs; exact absurd hs.1 hr
  | @char c s t hc _ ih =>
    intro t' h'
    generalize hs : c :: s = s' at h'
    cases h' with
    | nil => simp at hs
    | char _ h => simp at hs; rw [hs.1, ih (hs.2 ▸ h)]
    | @run r s2 t2 hr hc2 _ _ =>
      cases r with
      | nil => exact absurd rfl hr
      | cons x r => simp at hs; exact absurd (hs.1 ▸ hc2 x (by simp)) hc
  | @run r s t hr hc hh _ ih =>
    intro t' h'
    generalize hs : r ++ s = s' at h'
    cases h' with
    | nil => simp at hs; exact absurd hs.1 hr
    | @char c s2 t2 hc2 _ =>
      cases r with
      | nil => exact absurd rfl hr
      | cons x r => simp at hs; exact absurd (hs.1 ▸ hc x (by simp)) hc2
    | @run r2 s2 t2 hr2 hc2 hh2 h2 =>
      have hrs : r = r2 ∧ s = s2 := by
        rcases List.append_eq_append_iff.1 hs with ⟨a, h1, h2⟩ | ⟨a, h1, h2⟩
        · cases a with
          | nil => simp at h1 h2; exact ⟨h1.symm, h2⟩
          | cons x a => exact absurd (hc2 x (by rw [h1]; simp)) (hh x (by rw [h2]; rfl))
        · cases a with
          | nil => simp at h1 h2; exact ⟨h1, h2.symm⟩
          | cons x a => exact absurd (hc x (by rw [h1]; simp)) (hh2 x (by rw [h2]; rfl))
      rw [ih (hrs.2 ▸ h2)]

theorem carriable_collapsed (s : Bytes) (h : Carriable s) : Collapsed s s := by
  induction s with
  | nil => exact .nil
  | cons c s ih =>
    have hs : Carriable s := ⟨fun x hx => h.1 x (List.mem_cons_of_mem _ hx), fun ⟨a, b, e⟩ => h.2 ⟨c :: a, b, by rw [e]; rfl⟩⟩
    by_cases hc : CtlOrSpace c
    · obtain rfl := h.1 c (by simp) hc
      refine Collapsed.run (r := [chr ' ']) (by simp) (by simpa using hc) ?_ (ih hs)
      intro x hx hcx
      cases s with
      | nil => simp at hx
      | cons y s =>
        simp at hx; subst hx
        obtain rfl := h.1 y (by simp) hcx
        exact h.2 ⟨[], s, rfl⟩
    · exact .char hc (ih hs)

theorem takeWhile_append_stop {p : Byte → Bool} {l rest : Bytes} (h : ∀ c ∈ l, p c = true) (hr : ∀ c, rest.head? = some c → p c = false) :
    (l ++ rest).takeWhile p = l := by
  induction l with
  | nil => cases rest with
    | nil => rfl
    | cons c t => simp [hr c rfl]
  | cons c l ih =>
    simp only [List.cons_append, List.takeWhile_cons, h c (by simp), if_true, ih (fun x hx => h x (List.mem_cons_of_mem _ hx))]

theorem dropWhile_append_stop {p : Byte → Bool} {l rest : Bytes} (h : ∀ c ∈ l, p c = true) (hr : ∀ c, rest.head? = some c → p c = false) :
    (l ++ rest).dropWhile p = rest := by
  induction l with
  | nil => cases rest with
    | nil => rfl
    | cons c t => simp [hr c rfl]
  | cons c l ih =>
    simp only [List.cons_append, List.dropWhile_cons, h c (by simp), if_true, ih (fun x hx => h x (List.mem_cons_of_mem _ hx))]

end Verif.Http
