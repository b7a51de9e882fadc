import Verif.Spec.HttpStore
/-!
# Proofs about the fields of an HTTP value
-/
namespace Verif.HttpStore
open Verif.Http Verif.Spec.HttpStore

variable {L : Lib} (C : Conv L)

theorem run_append (v : Store L) (a b : List (Op L)) : run C v (a ++ b) = run C (run C v a) b := by
  induction a generalizing v with
  | nil => rfl
  | cons o a ih => exact ih _

/-- A value as its flags say: the abstraction which the other models use. -/
def toValue (v : Store L) : Value L :=
  { str := v.str, str_valid := v.vstr, int := if v.vint then some v.int else none, dbl := if v.vdbl then some v.dbl else none,
    dt := if v.vdt then some v.dt else none }

theorem set_str_eq (v : Store L) (s : Bytes) : set_str C v s = from_str C { v with str := s, vstr := true, vint := false, vdbl := false, vdt := false } := rfl

theorem toValue_set_str (v : Store L) (s : Bytes) : toValue (set_str C v s) = Value.ofString L s := by
  rw [set_str_eq]
  unfold from_str Value.ofString
  dsimp only
  by_cases h : trim s = []
  · rw [if_pos h, if_pos h]; rfl
  · rw [if_neg h, if_neg h]
    cases h1 : L.parse_I (trim s) <;> cases h2 : L.parse_D (trim s) <;> cases h3 : L.dt_parse (trim s) with
    | none => rfl
    | some x =>
      obtain ⟨t, n⟩ := x
      by_cases hn : n = (trim s).length <;> simp [toValue, hn]

theorem toValue_clear : toValue (clear C) = {} := rfl

theorem toValue_quoted (s : Bytes) (h : (quoted C s).2 ≠ 0) : toValue (quoted C s).1 = (parse_quoted_string_partial L s).1 ∧ (quoted C s).2 = (parse_quoted_string_partial L s).2 := by
  unfold quoted parse_quoted_string_partial at *
  cases s with
  | nil => exact absurd rfl h
  | cons c t =>
    dsimp only at h ⊢
    by_cases hc : c = chr '"' ∧ t ≠ []
    · rw [if_pos hc] at h ⊢
      rw [if_pos hc]
      cases hq : quoted_loop t true [] with
      | none => rw [hq] at h; exact absurd rfl h
      | some x => exact ⟨toValue_set_str C _ _, rfl⟩
    · rw [if_neg hc] at h
      exact absurd rfl h

theorem quoted_count (s : Bytes) : (quoted C s).2 = (parse_quoted_string_partial L s).2 := by
  unfold quoted parse_quoted_string_partial
  cases s with
  | nil => rfl
  | cons c t =>
    dsimp only
    by_cases hc : c = chr '"' ∧ t ≠ []
    · rw [if_pos hc, if_pos hc]
      cases quoted_loop t true [] <;> rfl
    · rw [if_neg hc, if_neg hc]

theorem datetime_count (s : Bytes) : (datetime C s).2 = (parse_datetime_partial L s).2 := by
  unfold datetime parse_datetime_partial
  cases L.dt_parse s with
  | none => rfl
  | some x => dsimp only; split <;> rfl

theorem toValue_datetime (s : Bytes) (h : (datetime C s).2 ≠ 0) : toValue (datetime C s).1 = (parse_datetime_partial L s).1 := by
  unfold datetime parse_datetime_partial at *
  cases hd : L.dt_parse s with
  | none => rw [hd] at h; exact absurd rfl h
  | some x =>
    rw [hd] at h
    dsimp only at h ⊢
    by_cases hn : x.2 = 0
    · rw [if_pos hn] at h; exact absurd rfl h
    · rw [if_neg hn, if_neg hn]; rfl

theorem toValue_unquoted (s : Bytes) : toValue (unquoted C s).1 = (parse_unquoted_partial L s).1 ∧ (unquoted C s).2 = (parse_unquoted_partial L s).2 := by
  unfold unquoted parse_unquoted_partial
  dsimp only
  split
  · exact ⟨rfl, rfl⟩
  · exact ⟨toValue_set_str C _ _, rfl⟩

theorem pick {q d u : Store L × Nat} {q' d' u' : Value L × Nat} (hq : q.2 = q'.2) (hd : d.2 = d'.2) (hu : u.2 = u'.2)
    (eq : q.2 ≠ 0 → toValue q.1 = q'.1) (ed : d.2 ≠ 0 → toValue d.1 = d'.1) (eu : toValue u.1 = u'.1) :
    (if q.2 ≠ 0 then q else if d.2 ≠ 0 then d else u).2 = (if q'.2 ≠ 0 then q' else if d'.2 ≠ 0 then d' else u').2 ∧
    toValue (if q.2 ≠ 0 then q else if d.2 ≠ 0 then d else u).1 = (if q'.2 ≠ 0 then q' else if d'.2 ≠ 0 then d' else u').1 := by
  rw [← hq, ← hd]
  by_cases h1 : q.2 ≠ 0
  · rw [if_pos h1, if_pos h1]; exact ⟨hq, eq h1⟩
  · rw [if_neg h1, if_neg h1]
    by_cases h2 : d.2 ≠ 0
    · rw [if_pos h2, if_pos h2]; exact ⟨hd, ed h2⟩
    · rw [if_neg h2, if_neg h2]; exact ⟨hu, eu⟩

theorem parse_both (v : Store L) (s : Bytes) (h : s ≠ []) : (parse C v s).2 = (parse_value L s).2 ∧ toValue (parse C v s).1 = (parse_value L s).1 := by
  unfold parse parse_value
  rw [if_neg h, if_neg h]
  dsimp only
  refine pick ?_ (datetime_count C s) (toValue_unquoted C s).2 ?_ (toValue_datetime C s) (toValue_unquoted C s).1
  · by_cases hh : s.head? = some (chr '"')
    · rw [if_pos hh, if_pos hh]; exact quoted_count C s
    · rw [if_neg hh, if_neg hh]
  · by_cases hh : s.head? = some (chr '"')
    · rw [if_pos hh, if_pos hh]; exact fun e => (toValue_quoted C s e).1
    · rw [if_neg hh, if_neg hh]; exact fun e => absurd rfl e

theorem parse_count (v : Store L) (s : Bytes) : (parse C v s).2 = (parse_value L s).2 := by
  by_cases h : s = []
  · subst h; rfl
  · exact (parse_both C v s h).1

theorem toValue_parse (v : Store L) (s : Bytes) (h : (parse C v s).2 ≠ 0) : toValue (parse C v s).1 = (parse_value L s).1 :=
  (parse_both C v s (by rintro rfl; exact h rfl)).2

/-- The careful user sees only what the other models have. -/
theorem told_eq (v : Store L) : told (view v) = ⟨(toValue v).is_null, (toValue v).str, (toValue v).int, (toValue v).dbl, (toValue v).dt, (toValue v).print⟩ := by
  cases v with
  | mk str int dbl dt vstr vint vdbl vdt => cases vint <;> cases vdbl <;> cases vdt <;> rfl

theorem parse_forgets (v w : Store L) {s : Bytes} (h : s ≠ []) : parse C v s = parse C w s := by
  unfold parse
  rw [if_neg h, if_neg h]
  dsimp only
  by_cases hh : s.head? = some (chr '"')
  · simp only [if_pos hh]
  · simp only [if_neg hh]
    simp

theorem step_forgets (v w : Store L) {o : Op L} (h : Gives o) (hs : ¬ Assigns o) : step C v o = step C w o := by
  cases o with
  | str s => exact absurd trivial hs
  | parse s => exact parse_forgets C v w h
  | _ => rfl

theorem told_forgets (v w : Store L) {o : Op L} (h : Gives o) : told (view (step C v o).1) = told (view (step C w o).1) := by
  by_cases hs : Assigns o
  · cases o with
    | str s => rw [told_eq, told_eq]; show _ = _; simp only [step, toValue_set_str]
    | _ => exact absurd hs id
  · rw [step_forgets C v w h hs]

end Verif.HttpStore
