import Verif.Proofs.Utils
import Verif.Spec.Segments
/-!
# C05, C52, C53, C55: small utilities
-/
namespace Verif.Props
open Verif Verif.Spec Verif.Utils

/-! ## C05 -/

/-- C05: for every 64-bit nanosecond count from -9223372036 s on, the nanosecond part is in [0, 999999999] and joining
gives the same time back. -/
theorem C05_timespec_exact (ns : Int) (hlo : -9223372036000000000 ≤ ns) (hhi : ns < 2 ^ 63) :
    0 ≤ (timespec_from_system_time ns).nsec ∧ (timespec_from_system_time ns).nsec ≤ 999999999 ∧
    (timespec_from_system_time ns).sec * 1000000000 + (timespec_from_system_time ns).nsec = ns ∧
    system_time_from_timespec (timespec_from_system_time ns) = ns := by
  rw [timespec_eq ns (by omega) hhi (ns + 9223372036000000000) (if_pos hlo).symm]
  simp only [system_time_from_timespec]
  omega

/-- C05: splitting the time that a normalized timespec denotes gives the same timespec. -/
theorem C05_timespec_unique (ts : Timespec) (h0 : 0 ≤ ts.nsec) (h1 : ts.nsec ≤ 999999999)
    (hlo : -9223372036 ≤ ts.sec) (hhi : system_time_from_timespec ts < 2 ^ 63) :
    timespec_from_system_time (system_time_from_timespec ts) = ts := by
  obtain ⟨s, n⟩ := ts
  simp only [system_time_from_timespec] at *
  rw [timespec_eq _ (by omega) hhi (s * 1000000000 + n + 9223372036000000000) (if_pos (by omega)).symm, Timespec.mk.injEq]
  omega

/-- C05, the excluded window: every time in it converts to a different time. -/
theorem C05_low_window_wrong (ns : Int) (hlo : -2 ^ 63 ≤ ns) (hhi : ns < -9223372036000000000) :
    system_time_from_timespec (timespec_from_system_time ns) ≠ ns := by
  rw [timespec_eq ns hlo (by omega) (ns + 9223372036000000000 + 2 ^ 64) (if_neg (by omega)).symm]
  simp only [system_time_from_timespec]
  omega

example : timespec_from_system_time (-1) = ⟨-1, 999999999⟩ := by decide
example : timespec_from_system_time 1500000000000000007 = ⟨1500000000, 7⟩ := by decide

/-! ## C52 -/

/-- C52: `reduce360` gives the congruent number in [0, 359]. -/
theorem C52_reduce360 (t : Int) (hlo : -2147483160 ≤ t) (hhi : t < 2 ^ 31) :
    0 ≤ reduce360 t ∧ reduce360 t ≤ 359 ∧ (reduce360 t - t) % 360 = 0 := by
  rw [reduce360_eq t (by omega) hhi, if_pos hlo]
  omega

/-- C52: `reduce180` gives the congruent number in [-179, 180]. -/
theorem C52_reduce180 (t : Int) (hlo : -2147483339 ≤ t) (hhi : t < 2 ^ 31) :
    -179 ≤ reduce180 t ∧ reduce180 t ≤ 180 ∧ (reduce180 t - t) % 360 = 0 := by
  rw [reduce180_eq t (by omega) hhi, if_pos hlo]
  omega

/-- C52: the results are in range for every `int`. -/
theorem C52_range (t : Int) (hlo : -2 ^ 31 ≤ t) (hhi : t < 2 ^ 31) :
    0 ≤ reduce360 t ∧ reduce360 t ≤ 359 ∧ -179 ≤ reduce180 t ∧ reduce180 t ≤ 180 := by
  rw [reduce360_eq t hlo hhi, reduce180_eq t hlo hhi]
  omega

/-- C52: every excluded lowest integer is reduced to an angle that is not congruent. -/
theorem C52_lowest_wrong (t : Int) (hlo : -2 ^ 31 ≤ t) :
    (t < -2147483160 → (reduce360 t - t) % 360 ≠ 0) ∧ (t < -2147483339 → (reduce180 t - t) % 360 ≠ 0) := by
  refine ⟨fun h => ?_, fun h => ?_⟩
  · rw [reduce360_eq t hlo (by omega), if_neg (by omega)]; omega
  · rw [reduce180_eq t hlo (by omega), if_neg (by omega)]; omega

example : reduce360 (-1) = 359 ∧ reduce180 181 = -179 ∧ reduce180 180 = 180 := by decide
example : reduce360 (-2147483648) = 128 ∧ (-2147483648 : Int) % 360 = 232 := by decide

/-! ## C53 -/

theorem blank_iff (c : Byte) : isBlank c = true ↔ Blank c := by
  unfold isBlank Blank
  simp [show chr ' ' = 0x20 by decide, show chr '\t' = 0x09 by decide]

theorem joinWith_eq (d : Byte) (l : List Bytes) : joinWith d l = implode l d := by
  induction l with
  | nil => rfl
  | cons s t ih =>
    cases t with
    | nil => simp [joinWith, implode]
    | cons r rest => simp only [joinWith]; rw [ih, implode_cons_cons]

theorem good_of_trimmed {d : Byte} {l s r : Bytes} (hs : TrimmedSegment d s) (hl : ∀ c ∈ l, Blank c)
    (hr : ∀ c ∈ r, Blank c) (hrd : d ∉ r) : (Cell.mk l s r).Good d where
  left_blank := fun x hx => (blank_iff x).mpr (hl x hx)
  right_blank := fun x hx => (blank_iff x).mpr (hr x hx)
  right_delim := hrd
  seg_delim := hs.no_delim
  head := by
    cases s with
    | nil => exact absurd rfl hs.nonempty
    | cons x t =>
      refine ⟨x, t, rfl, ?_⟩
      have := hs.first x rfl
      rw [← blank_iff] at this
      simpa using this
  last := by
    have hne := hs.nonempty
    refine ⟨s.dropLast, s.getLast hne, (List.dropLast_concat_getLast hne).symm, ?_⟩
    have := hs.last (s.getLast hne) (List.getLast?_eq_some_getLast hne)
    rw [← blank_iff] at this
    simpa using this

/-- C53: `implode` joins segments with the delimiter. -/
theorem C53_implode (segs : List Bytes) (d : Byte) : implode segs d = joinWith d segs := (joinWith_eq d segs).symm

/-- C53: joining trimmed segments and splitting the result gives the segments back, for any delimiter and any limit
that is not smaller than their number. -/
theorem C53_explode_implode (segs : List Bytes) (d : Byte) (limit : Nat) (hs : ∀ s ∈ segs, TrimmedSegment d s)
    (hl : segs.length ≤ limit) : explode (implode segs d) d limit = .ok segs := by
  have h := loop_all d limit (segs.map (fun s => Cell.mk [] s [])) [] (implode segs d) [] (by
    intro c hc
    rw [List.mem_map] at hc
    obtain ⟨s, hs', rfl⟩ := hc
    exact good_of_trimmed (hs s hs') (by simp) (by simp) (by simp)) (by simpa using hl) (by simp [Cell.text, Function.comp_def])
  unfold explode
  simpa [Function.comp_def] using h

/-- C53: blanks around the segments (other than the delimiter itself) do not matter. -/
theorem C53_explode_padded (cells : List (Bytes × Bytes × Bytes)) (d : Byte) (limit : Nat)
    (hs : ∀ c ∈ cells, TrimmedSegment d c.2.1 ∧ (∀ x ∈ c.1, Blank x) ∧ (∀ x ∈ c.2.2, Blank x) ∧ d ∉ c.2.2)
    (hl : cells.length ≤ limit) :
    explode (joinWith d (cells.map (fun c => c.1 ++ c.2.1 ++ c.2.2))) d limit = .ok (cells.map (fun c => c.2.1)) := by
  have h := loop_all d limit (cells.map (fun c => Cell.mk c.1 c.2.1 c.2.2)) [] (implode (cells.map (fun c => c.1 ++ c.2.1 ++ c.2.2)) d) [] (by
    intro c hc
    rw [List.mem_map] at hc
    obtain ⟨s, hs', rfl⟩ := hc
    obtain ⟨h1, h2, h3, h4⟩ := hs s hs'
    exact good_of_trimmed h1 h2 h3 h4) (by simpa using hl) (by simp [Cell.text, Function.comp_def])
  unfold explode
  rw [joinWith_eq]
  simpa [Function.comp_def] using h

/-- C53: with a limit smaller than the number of segments, the first `limit - 1` segments come out singly and the rest of
the text is the last segment. -/
theorem C53_explode_limit (segs : List Bytes) (d : Byte) (limit : Nat) (hs : ∀ s ∈ segs, TrimmedSegment d s)
    (h1 : 1 ≤ limit) (h2 : limit ≤ segs.length) :
    explode (implode segs d) d limit = .ok (segs.take (limit - 1) ++ [joinWith d (segs.drop (limit - 1))]) := by
  obtain ⟨l, r, hl, hr, T, hT, hTh, hTl, hrun⟩ := loop_limit d limit (segs.map (fun s => Cell.mk [] s [])) [] (implode segs d) []
    (limit - 1) (by
      intro c hc
      rw [List.mem_map] at hc
      obtain ⟨s, hs', rfl⟩ := hc
      exact good_of_trimmed (hs s hs') (by simp) (by simp) (by simp)) (by simp; omega) (by simp; omega)
    (by simp [Cell.text, Function.comp_def])
  have hJ : l ++ T ++ r = joinWith d (segs.drop (limit - 1)) := by
    rw [joinWith_eq, hT, ← List.map_drop]
    simp [Cell.text, Function.comp_def]
  -- the joined rest starts and ends with a non-blank character
  have hdrop : segs.drop (limit - 1) ≠ [] := by
    intro h; rw [List.drop_eq_nil_iff] at h; omega
  have edges : ∀ (L : List Bytes), L ≠ [] → (∀ s ∈ L, TrimmedSegment d s) →
      (∀ c, (joinWith d L).head? = some c → ¬ Blank c) ∧ (∀ c, (joinWith d L).getLast? = some c → ¬ Blank c) ∧ joinWith d L ≠ [] := by
    intro L
    induction L with
    | nil => intro h; exact absurd rfl h
    | cons a as ih =>
      intro _ hg
      have ga := hg a (by simp)
      cases as with
      | nil => exact ⟨ga.first, ga.last, ga.nonempty⟩
      | cons b bs =>
        obtain ⟨e1, e2, e3⟩ := ih (by simp) (fun s hs => hg s (by simp at hs ⊢; right; exact hs))
        simp only [joinWith]
        refine ⟨?_, ?_, by simp⟩
        · cases a with
          | nil => exact absurd rfl ga.nonempty
          | cons x t => intro c hc; exact ga.first c (by simpa using hc)
        · intro c hc
          refine e2 c ?_
          rw [List.getLast?_append] at hc
          cases hj : joinWith d (b :: bs) with
          | nil => exact absurd hj e3
          | cons y ys => rw [hj, List.getLast?_cons_cons] at hc; simpa using hc
  obtain ⟨e1, e2, _⟩ := edges _ hdrop (fun s hs' => hs s (List.mem_of_mem_drop hs'))
  have hl0 : l = [] := by
    cases l with
    | nil => rfl
    | cons x t =>
      exfalso
      exact e1 x (by rw [← hJ]; rfl) ((blank_iff x).mp (hl x (by simp)))
  have hr0 : r = [] := by
    by_cases hr' : r = []
    · exact hr'
    · exfalso
      refine e2 (r.getLast hr') ?_ ((blank_iff _).mp (hr _ (List.getLast_mem hr')))
      rw [← hJ, List.getLast?_append]
      simp [List.getLast?_eq_some_getLast hr']
  rw [hl0, hr0] at hJ
  simp only [List.nil_append, List.append_nil] at hJ
  unfold explode
  rw [← hJ]
  simpa [List.map_take, Function.comp_def] using hrun

/-- C53: whatever the text, there are never more segments than the limit (0 counts as 1). -/
theorem C53_limit_bound (text : Bytes) (d : Byte) (limit : Nat) (out : List Bytes)
    (h : explode text d limit = .ok out) : out.length ≤ max 1 limit := by
  have := loop_count text d limit _ 0 [] rfl (Or.inl (by simp)) out h
  simpa using this

/-- Discrepancy: a leading delimiter makes the whole text the first segment. -/
theorem C53_leading_delimiter_wrong : explode (b! ",a") (chr ',') 100 = .ok [b! ",a", b! "a"] := by decide +kernel

/-- Discrepancy: a blank-only middle piece makes a length underflow; a blank-only first piece fails an assertion. -/
theorem C53_blank_piece_wrong : explode (b! "a, ,b") (chr ',') 100 = .underflow ∧
    explode (b! " ,b") (chr ',') 100 = .assertFailed := by decide +kernel

example : ∀ s ∈ [b! "ab", b! "c d", b! "e"], TrimmedSegment (chr ',') s := by
  intro s hs
  simp only [List.mem_cons, List.not_mem_nil, or_false] at hs
  rcases hs with rfl | rfl | rfl <;>
    exact ⟨by decide, by decide, by intro c hc; cases hc; unfold Blank; decide, by intro c hc; cases hc; unfold Blank; decide⟩
example : explode (b! " ab ,c d,,  e") (chr ',') 100 = .ok [b! "ab", b! "c d", [], b! "e"] := by decide +kernel
example : explode (b! "ab,c d,e") (chr ',') 2 = .ok [b! "ab", b! "c d,e"] := by decide +kernel

/-! ## C55 -/

/-- C55: after splicing, the target holds its old bytes followed by those of the source, and the source is empty. -/
theorem C55_splice (out inp : Bytes) : splice_buffers out inp = (out ++ inp, []) := by
  unfold splice_buffers
  cases inp with
  | nil => simp
  | cons x t => cases out <;> simp

/-- C55: splicing a buffer onto itself changes nothing. -/
theorem C55_splice_self (buf : Bytes) : splice_self buf = buf := rfl

example : splice_buffers [1, 2] [3] = ([1, 2, 3], []) := by decide

end Verif.Props
