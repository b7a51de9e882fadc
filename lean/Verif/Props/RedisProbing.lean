import Verif.Props.Redis

/-!
# C58: what a map with linear probing keeps when an element is erased

`C58_relocation` is not due to a map that loses elements: erasing an element keeps all others, with their values.
-/

namespace Verif.Props

open Verif.Redis

/-- Putting an element into a vacant bucket adds it. -/
theorem set_vacant (t : Table) (j : Nat) (e : Bytes × Bytes) (h : t[j]? = some none) : ((t.set j (some e)).filterMap id).Perm (e :: t.filterMap id) := by
  induction t generalizing j with
  | nil => simp at h
  | cons a t ih =>
    cases j with
    | zero => simp at h; subst h; simp
    | succ j =>
      have := ih j (by simpa using h)
      cases a with
      | none => simpa using this
      | some b => simpa using (this.cons b).trans (List.Perm.swap _ _ _)

/-- Taking an element out of its bucket leaves the others. -/
theorem set_taken (t : Table) (j : Nat) (e : Bytes × Bytes) (h : t[j]? = some (some e)) : (e :: (t.set j none).filterMap id).Perm (t.filterMap id) := by
  have hj : j < t.length := (List.getElem?_eq_some_iff.1 h).1
  have := set_vacant (t.set j none) j e (by simp [hj])
  have hs : t.set j (some e) = t := by
    apply List.ext_getElem?
    intro i
    rw [List.getElem?_set]
    split
    · rename_i hi; subst hi; exact h.symm
    · rfl
  rw [List.set_set, hs] at this
  exact this.symm

/-- If there is a vacant bucket among those that are looked at, then the element is put into one. -/
theorem probeInsert_adds (home : Bytes → Nat) (t : Table) (e : Bytes × Bytes) (n : Nat) :
    ∀ i, (∃ d < n, t[(home e.1 + (i + d)) % t.length]? = some none) →
      ((probeInsert home t e n i).filterMap id).Perm (e :: t.filterMap id) ∧ (probeInsert home t e n i).length = t.length := by
  induction n with
  | zero => rintro i ⟨d, hd, -⟩; omega
  | succ n ih =>
    rintro i ⟨d, hd, h⟩
    unfold probeInsert
    split
    · rename_i hv
      exact ⟨set_vacant t _ e hv, by simp⟩
    · rename_i hv
      apply ih
      cases d with
      | zero => exact absurd h hv
      | succ d => exact ⟨d, by omega, by rw [show i + 1 + d = i + (d + 1) by omega]; exact h⟩

/-- Every bucket is looked at. -/
theorem probe_reaches (a j len : Nat) (h : j < len) : ∃ d < len, (a + (0 + d)) % len = j := by
  have hm := Nat.mod_lt a (show 0 < len by omega)
  have hdiv := Nat.mod_add_div a len
  by_cases hc : a % len ≤ j
  · refine ⟨j - a % len, by omega, ?_⟩
    rw [show a + (0 + (j - a % len)) = j + len * (a / len) by omega, Nat.add_mul_mod_self_left, Nat.mod_eq_of_lt h]
  · refine ⟨j + len - a % len, by omega, ?_⟩
    rw [show a + (0 + (j + len - a % len)) = j + len * 1 + len * (a / len) by omega, Nat.add_mul_mod_self_left, Nat.add_mul_mod_self_left, Nat.mod_eq_of_lt h]

/-- Moving elements loses none. -/
theorem relocate_keeps (home : Bytes → Nat) (n : Nat) : ∀ (t : Table) (q : Nat), ((relocate home n t q).filterMap id).Perm (t.filterMap id) := by
  induction n with
  | zero => intro t q; exact .refl _
  | succ n ih =>
    intro t q
    unfold relocate
    split
    · rename_i e he
      have hj : q % t.length < t.length := (List.getElem?_eq_some_iff.1 he).1
      obtain ⟨d, hd, hr⟩ := probe_reaches (home e.1) (q % t.length) t.length hj
      have := (probeInsert_adds home (t.set (q % t.length) none) e t.length 0 ⟨d, hd, by rw [List.length_set, hr]; simp [hj]⟩).1
      exact (ih _ _).trans (this.trans (set_taken t _ e he))
    · exact .refl _

/-- C58: in a map with linear probing, erasing an element removes this one and keeps all others with their values, whatever the hash function and however full the map is; what
`C58_relocation` shows comes from the loop that goes on with the next bucket. -/
theorem C58_probing (home : Bytes → Nat) (t : Table) (q : Nat) (e : Bytes × Bytes) (h : t[q]? = some (some e)) :
    (e :: (eraseProbing home t q).filterMap id).Perm (t.filterMap id) :=
  ((relocate_keeps home _ _ _).cons e).trans (set_taken t q e h)

/-- Non-vacuity: `y` is erased, and `x` moves into its bucket. -/
example : eraseProbing (fun k => if k = b! "z" then 3 else 2) [some (b! "x", b! "1"), none, some (b! "y", []), some (b! "z", [])] 2 =
    [none, none, some (b! "x", b! "1"), some (b! "z", [])] := by decide

end Verif.Props
