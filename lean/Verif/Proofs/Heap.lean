import Verif.Model.Heap
/-! # Facts about heaps -/
namespace Verif.Heap

theorem isHeap_iff {key : α → Int} {l : List α} : isHeap key l = true ↔ ∀ i x y, l[(i - 1) / 2]? = some x → l[i]? = some y → key x ≤ key y := by
  simp only [isHeap, List.all_eq_true, List.mem_range]
  constructor
  · intro h i x y hx hy
    have hi : i < l.length := (List.getElem?_eq_some_iff.mp hy).1
    have := h i hi
    rw [hx, hy] at this
    simpa using this
  · intro h i hi
    cases hx : l[(i - 1) / 2]? with
    | none => rfl
    | some x =>
      cases hy : l[i]? with
      | none => rfl
      | some y => simpa using h i x y hx hy

theorem head_least {key : α → Int} {a : α} {t : List α} (h : isHeap key (a :: t) = true) : ∀ x ∈ a :: t, key a ≤ key x := by
  rw [isHeap_iff] at h
  suffices ∀ n i, i < n → ∀ x, (a :: t)[i]? = some x → key a ≤ key x by
    intro x hx
    obtain ⟨i, hi, rfl⟩ := List.getElem_of_mem hx
    exact this (i + 1) i (by omega) _ (List.getElem?_eq_getElem hi)
  intro n
  induction n with
  | zero => intro i hi; omega
  | succ n ih =>
    intro i hi x hx
    cases i with
    | zero => simp only [List.getElem?_cons_zero, Option.some.injEq] at hx; subst hx; exact Int.le_refl _
    | succ i =>
      have hl : i + 1 < (a :: t).length := (List.getElem?_eq_some_iff.mp hx).1
      have hp : (i + 1 - 1) / 2 < (a :: t).length := by omega
      have := h (i + 1) _ x (List.getElem?_eq_getElem hp) hx
      exact Int.le_trans (ih ((i + 1 - 1) / 2) (by omega) _ (List.getElem?_eq_getElem hp)) this

theorem isHeap_nil {key : α → Int} : isHeap key [] = true := rfl

/-- A sorted array is a heap. -/
theorem isHeap_sorted {key : α → Int} {l : List α} (h : l.Pairwise fun x y => key x ≤ key y) : isHeap key l = true := by
  rw [isHeap_iff]
  intro i x y hx hy
  obtain ⟨h1, rfl⟩ := List.getElem?_eq_some_iff.mp hx
  obtain ⟨h2, rfl⟩ := List.getElem?_eq_some_iff.mp hy
  rcases Nat.lt_or_ge ((i - 1) / 2) i with h3 | h3
  · exact List.pairwise_iff_getElem.mp h _ _ h1 h2 h3
  · have : i = 0 := by omega
    subst this; exact Int.le_refl _

theorem arranged_iff [DecidableEq α] {key : α → Int} {l l' : List α} : arranged key l l' = true ↔ l'.Perm l ∧ isHeap key l' = true := by
  simp [arranged, List.isPerm_iff]

/-- Every array can be arranged. -/
theorem exists_arranged [DecidableEq α] (key : α → Int) (l : List α) : ∃ l', arranged key l l' = true := by
  refine ⟨l.mergeSort (fun x y => decide (key x ≤ key y)), arranged_iff.mpr ⟨List.mergeSort_perm _ _, isHeap_sorted ?_⟩⟩
  refine (List.pairwise_mergeSort (le := fun x y => decide (key x ≤ key y)) ?_ ?_ l).imp ?_
  · intro a b c h1 h2; simp only [decide_eq_true_eq] at *; omega
  · intro a b; simp only [Bool.or_eq_true, decide_eq_true_eq]; omega
  · intro a b h; simpa using h

theorem popped_iff [DecidableEq α] {key : α → Int} {l l' : List α} : popped key l l' = true ↔ l'.Perm l ∧ l'.getLast? = l.head? ∧ isHeap key l'.dropLast = true := by
  simp [popped, List.isPerm_iff, and_assoc]

/-- What is known when an element has been taken out. -/
theorem popped_last [DecidableEq α] {key : α → Int} {l l' : List α} {e : α} (h : isHeap key l = true) (hp : popped key l l' = true) (he : l'.getLast? = some e) :
    l' = l'.dropLast ++ [e] ∧ (l'.dropLast ++ [e]).Perm l ∧ l.head? = some e ∧ (∀ x ∈ l, key e ≤ key x) ∧ isHeap key l'.dropLast = true := by
  rw [popped_iff] at hp
  obtain ⟨h1, h2, h3⟩ := hp
  have hd : l' = l'.dropLast ++ [e] := by
    have hne : l' ≠ [] := by rintro rfl; simp at he
    rw [List.getLast?_eq_some_getLast hne, Option.some.injEq] at he
    rw [← he]; exact (List.dropLast_concat_getLast hne).symm
  have hh : l.head? = some e := by rw [← h2, he]
  refine ⟨hd, hd ▸ h1, hh, ?_, h3⟩
  cases l with
  | nil => simp at hh
  | cons a t =>
    simp only [List.head?_cons, Option.some.injEq] at hh
    subst hh
    exact head_least h

/-- Every array with an element can have its first element moved to the end. -/
theorem exists_popped [DecidableEq α] (key : α → Int) {l : List α} (h : l ≠ []) : ∃ l', popped key l l' = true := by
  cases l with
  | nil => exact absurd rfl h
  | cons a t =>
    obtain ⟨t', ht⟩ := exists_arranged key t
    rw [arranged_iff] at ht
    refine ⟨t' ++ [a], popped_iff.mpr ⟨?_, by simp, by simpa using ht.2⟩⟩
    exact (List.perm_append_comm).trans (by simpa using ht.1)

end Verif.Heap
