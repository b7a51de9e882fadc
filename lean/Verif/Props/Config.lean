import Verif.Proofs.Config
/-!
# C48, C49: configuration queries
-/
namespace Verif.Props
open Verif.Config

variable {R : Type}

/-- C48: for every spelling of a list of parts, the query gives what is reached by following them from the root: the value; null if a part is missing; an
exception if a part is applied to a value of the wrong kind. -/
theorem C48_spelled (root : List (Bytes × Value R)) (path : Bytes) (parts : List Part) (h : Spells path parts) :
    query root path = match follow (.object root) parts with
      | .found v => some v
      | .missing => some .null
      | .error => none := by
  unfold query
  rw [go_spells root h]
  cases follow (.object root) parts <;> rfl

/-- C48: conversely, a value other than null is returned only if the whole text spells parts that lead to it. -/
theorem C48_only_spelled (root : List (Bytes × Value R)) (path : Bytes) (v : Value R) (hv : v ≠ .null) : query root path = some v ↔ Denotes root path v := by
  rw [query_eq]
  exact ⟨fun h => h.resolve_right fun e => hv e.1, .inl⟩

/-- C48: null is returned only if the path denotes a null value, or some beginning of it denotes a value that does not exist. -/
theorem C48_null (root : List (Bytes × Value R)) (path : Bytes) (h : query root path = some .null) : Denotes root path .null ∨ Absent root path := by
  rw [query_eq] at h
  exact h.imp id fun h => go_missing root path h.2

/-- A configuration for examples: `a { b: [1, null, { c: "x" }] }`. -/
def demoConfig : List (Bytes × Value Unit) :=
  [(b! "main", .boolean true), (b! "a", .object [(b! "b", .array [.integer 1, .null, .object [(b! "c", .string (b! "x"))]])])]

/-- Non-vacuity: a spelling with blanks. -/
example : Spells (b! " a.\t b [ 002] .c ") [.name (b! "a"), .name (b! "b"), .index 2, .name (b! "c")] := by
  refine ⟨b! " ", b! "a", b! ".\t b [ 002] .c ", _, rfl, rfl, by simp [Blanks, chr], ⟨97, [], rfl, by decide, by simp⟩, ?_⟩
  refine Tail.name (p := []) (q := b! "\t ") (n := b! "b") (rest := b! " [ 002] .c ") (by simp [Blanks]) (by simp [Blanks, chr]) ⟨98, [], rfl, by decide, by simp⟩ ?_
  refine Tail.index (p := b! " ") (q := b! " ") (ds := b! "002") (r := []) (rest := b! " .c ") (by simp [Blanks, chr]) (by simp [Blanks, chr])
    ⟨by simp, by decide, by decide⟩ (by simp [Blanks]) ?_
  refine Tail.name (p := b! " ") (q := []) (n := b! "c") (rest := b! " ") (by simp [Blanks, chr]) (by simp [Blanks]) ⟨99, [], rfl, by decide, by simp⟩ ?_
  exact .done (by simp [Blanks, chr])

/-- Non-vacuity: a value is found; a part is missing; a part is applied to a value of the wrong kind; a text is not a path. -/
example : query demoConfig (b! " a.\t b [ 002] .c ") = some (.string (b! "x")) := by simp [query, demoConfig, go, applyName, applyIndex, lookup, isBlank, isNameStart, isNameChar, isDigit, digit, chr]
example : query demoConfig (b! "a.b[3].c") = some .null := by simp [query, demoConfig, go, applyName, applyIndex, lookup, isBlank, isNameStart, isNameChar, isDigit, digit, chr]
example : query demoConfig (b! "a.b.c") = none := by simp [query, demoConfig, go, applyName, applyIndex, lookup, isBlank, isNameStart, isNameChar, isDigit, digit, chr]
example : query demoConfig (b! "") = none := by simp [query, demoConfig, go]

/-- C48: as the documentation does not say, what follows a part that is missing is not looked at: this text is not a path, but gives null. -/
theorem C48_rest_ignored : query demoConfig (b! "x.[") = some .null := by
  simp [query, demoConfig, go, applyName, lookup, isBlank, isNameStart, isNameChar, isDigit, chr]

theorem got_eq {α : Type} {a b : α} : Got.got a = Got.got b ↔ a = b := ⟨fun h => Got.got.inj h, fun h => h ▸ rfl⟩

/-- C49: `get_boolean()` returns a value if and only if the path denotes that value, and otherwise throws. -/
theorem C49_boolean (root : List (Bytes × Value R)) (path : Bytes) (b : Bool) :
    (getBoolean root path = .got b ↔ Denotes root path (.boolean b)) ∧ getBoolean root path ≠ .nothing ∧
    (getBooleanOpt root path = .got b ↔ Denotes root path (.boolean b)) ∧ (getBooleanOpt root path = .nothing ↔ query root path = some .null) := by
  rw [← C48_only_spelled root path (.boolean b) (fun e => nomatch e)]
  unfold getBoolean getBooleanOpt
  cases hq : query root path with
  | none => simp
  | some v => cases v <;> simp

/-- C49: `get_integer()` returns a value if and only if the path denotes that value and it is in the range, and otherwise throws. -/
theorem C49_integer (root : List (Bytes × Value R)) (path : Bytes) (min max i : Int) :
    (getInteger root path min max = .got i ↔ Denotes root path (.integer i) ∧ min ≤ i ∧ i ≤ max) ∧ getInteger root path min max ≠ .nothing ∧
    (getIntegerOpt root path min max = .got i ↔ Denotes root path (.integer i) ∧ min ≤ i ∧ i ≤ max) ∧
    (getIntegerOpt root path min max = .nothing ↔ query root path = some .null) := by
  rw [← C48_only_spelled root path (.integer i) (fun e => nomatch e)]
  unfold getInteger getIntegerOpt
  cases hq : query root path with
  | none => simp
  | some v =>
    cases v with
    | integer j =>
      by_cases hj : j ≥ min ∧ j ≤ max
      · simp only [hj, not_true_eq_false, if_false, got_eq, Option.some.injEq, Value.integer.injEq, reduceCtorEq, ne_eq, not_false_eq_true, true_and, and_true, iff_false]
        constructor
        · constructor
          · rintro rfl; exact ⟨rfl, hj.1, hj.2⟩
          · exact fun h => h.1
        · constructor
          · rintro rfl; exact ⟨rfl, hj.1, hj.2⟩
          · exact fun h => h.1
      · simp only [hj, not_false_eq_true, if_true, reduceCtorEq, Option.some.injEq, Value.integer.injEq, ne_eq, false_iff, iff_false, true_and, and_true]
        constructor
        · rintro ⟨rfl, h⟩; exact hj h
        · rintro ⟨rfl, h⟩; exact hj h
    | _ => simp

/-- C49: `get_real()` returns a number if and only if the path denotes it, or an integer that converts to it, and it is in the range (which excludes NaN), and
otherwise throws. -/
theorem C49_real [RealOps R] (root : List (Bytes × Value R)) (path : Bytes) (min max r : R) :
    let ok := ((∃ i, Denotes root path (.integer i) ∧ r = RealOps.ofInt i) ∨ Denotes root path (.real r)) ∧ RealOps.le min r = true ∧ RealOps.le r max = true
    (getReal root path min max = .got r ↔ ok) ∧ getReal root path min max ≠ .nothing ∧ (getRealOpt root path min max = .got r ↔ ok) ∧
    (getRealOpt root path min max = .nothing ↔ query root path = some .null) := by
  have hi : ∀ i, Denotes root path (.integer i) ↔ query root path = some (.integer i) := fun i => (C48_only_spelled root path (.integer i) (fun e => nomatch e)).symm
  have hr : Denotes root path (.real r) ↔ query root path = some (.real r) := (C48_only_spelled root path (.real r) (fun e => nomatch e)).symm
  simp only [hi, hr]
  unfold getReal getRealOpt
  have key : ∀ x : R, (if ¬ (RealOps.le min x ∧ RealOps.le x max) then Got.threw else Got.got x) = .got r ↔ r = x ∧ RealOps.le min r = true ∧ RealOps.le r max = true := by
    intro x
    by_cases hx : RealOps.le min x = true ∧ RealOps.le x max = true
    · rw [if_neg (fun e => e hx), got_eq]
      constructor
      · rintro rfl; exact ⟨rfl, hx⟩
      · exact fun h => h.1.symm
    · rw [if_pos hx]
      constructor
      · exact fun h => nomatch h
      · rintro ⟨rfl, h⟩; exact absurd h hx
  have key2 : ∀ x : R, (if ¬ (RealOps.le min x ∧ RealOps.le x max) then Got.threw else Got.got x) ≠ .nothing := by
    intro x; split <;> exact fun h => nomatch h
  cases hq : query root path with
  | none => simp
  | some v =>
    cases v with
    | integer j =>
      simp only [asReal]
      have hx : (∃ i, some (Value.integer j : Value R) = some (.integer i) ∧ r = RealOps.ofInt i) ∨ some (Value.integer j : Value R) = some (.real r) ↔ r = RealOps.ofInt j := by
        simp only [Option.some.injEq, Value.integer.injEq, reduceCtorEq, or_false, exists_eq_left']
      refine ⟨?_, key2 _, ?_, ⟨fun h => absurd h (key2 _), fun h => (nomatch h)⟩⟩ <;> rw [key, hx]
    | real x =>
      simp only [asReal]
      have hx : (∃ i, some (Value.real x : Value R) = some (.integer i) ∧ r = RealOps.ofInt i) ∨ some (Value.real x : Value R) = some (.real r) ↔ r = x := by
        simp only [Option.some.injEq, Value.real.injEq, reduceCtorEq, false_and, exists_false, false_or]
        exact ⟨fun e => e.symm, fun e => e.symm⟩
      refine ⟨?_, key2 _, ?_, ⟨fun h => absurd h (key2 _), fun h => (nomatch h)⟩⟩ <;> rw [key, hx]
    | _ => simp [asReal]

/-- C49: `get_string()` returns a value if and only if the path denotes that value, and otherwise throws. -/
theorem C49_string (root : List (Bytes × Value R)) (path : Bytes) (s : Bytes) :
    (getString root path = .got s ↔ Denotes root path (.string s)) ∧ getString root path ≠ .nothing ∧
    (getStringOpt root path = .got s ↔ Denotes root path (.string s)) ∧ (getStringOpt root path = .nothing ↔ query root path = some .null) := by
  rw [← C48_only_spelled root path (.string s) (fun e => nomatch e)]
  unfold getString getStringOpt
  cases hq : query root path with
  | none => simp
  | some v => cases v <;> simp

/-- C49: `get_array_size()` returns a number if and only if the path denotes an array with that many elements, and otherwise throws. -/
theorem C49_array_size (root : List (Bytes × Value R)) (path : Bytes) (n : Nat) :
    (getArraySize root path = .got n ↔ ∃ l, Denotes root path (.array l) ∧ l.length = n) ∧ getArraySize root path ≠ .nothing ∧
    (getArraySizeOpt root path = .got n ↔ ∃ l, Denotes root path (.array l) ∧ l.length = n) ∧
    (getArraySizeOpt root path = .nothing ↔ query root path = some .null) := by
  have hl : ∀ l, Denotes root path (.array l) ↔ query root path = some (.array l) := fun l => (C48_only_spelled root path (.array l) (fun e => nomatch e)).symm
  simp only [hl]
  unfold getArraySize getArraySizeOpt
  cases hq : query root path with
  | none => simp
  | some v => cases v <;> simp

/-- Non-vacuity: a value in the range, a value out of the range, and nothing. -/
example : getInteger demoConfig (b! "a.b[0]") 0 9 = .got 1 := by simp [getInteger, query, demoConfig, go, applyName, applyIndex, lookup, isBlank, isNameStart, isNameChar, isDigit, digit, chr]
example : getInteger demoConfig (b! "a.b[0]") 2 9 = .threw := by simp [getInteger, query, demoConfig, go, applyName, applyIndex, lookup, isBlank, isNameStart, isNameChar, isDigit, digit, chr]
example : getIntegerOpt demoConfig (b! "a.b[1]") 2 9 = .nothing := by simp [getIntegerOpt, query, demoConfig, go, applyName, applyIndex, lookup, isBlank, isNameStart, isNameChar, isDigit, digit, chr]

end Verif.Props
