import Verif.Proofs.HttpStore
import Verif.Props.HttpValue
/-!
# C115: HTTP values that are assigned again and again
-/
namespace Verif.Props
open Verif.Http Verif.HttpStore Verif.Spec.HttpStore Verif.Spec

/-- Halves for fractions, decimal numbers, and a date that begins with `D`. -/
def halfLib : Lib where
  D := Int
  parse_I := plainLib.parse_I
  parse_D s := (plainLib.parse_I s).map (· * 2)
  print_I := plainLib.print_I
  print_D h := if h % 2 = 0 then decimal (h / 2).toNat else decimal (h / 2).toNat ++ b! ".5"
  dt_parse s := if s.head? = some (chr 'D') then some (5, 1) else none
  dt_print _ := b! "D"

def halfConv : Conv halfLib where
  zero := (0 : Int)
  of_int i := i * 2
  to_int := fun h : Int => (h / 2, decide (h % 2 = 0))
  dt_left _ _ := -1

/-- Whatever has been done with a value, a user who asks first whether it is a number or a date is told only what was last put into it.
Partial: a user who does not ask may be told something else, see `C115_stale`. -/
theorem C115_last_partial {L : Lib} (C : Conv L) (v : Store L) (h : List (Op L)) (o : Op L) (ho : Gives o) :
    told (view (run C v (h ++ [o]))) = told (view (run C (clear C) [o])) := by
  rw [run_append]
  exact told_forgets C _ _ ho

/-- For anything but the assignment of a text, this is true of every accessor. -/
theorem C115_all_partial {L : Lib} (C : Conv L) (v : Store L) (h : List (Op L)) (o : Op L) (ho : Gives o) (hs : ¬ Assigns o) :
    view (run C v (h ++ [o])) = view (run C (clear C) [o]) := by
  rw [run_append]
  exact congrArg (fun x => view x.1) (step_forgets C _ _ ho hs)

/-- Discrepancy: the assignment of a text leaves numbers of the value before in `as_integer()` and `as_double()`, although the header
says that the fields are always synchronized: 42, then `abc`. -/
theorem C115_stale : ¬ ∀ (L : Lib) (C : Conv L) (v : Store L) (h : List (Op L)) (o : Op L), Gives o →
    view (run C v (h ++ [o])) = view (run C (clear C) [o]) := by
  intro h
  have h1 := congrArg View.as_integer (h halfLib halfConv (clear halfConv) [.int 42] (.str (b! "abc")) trivial)
  exact absurd h1 (by decide +kernel)

example : (view (run halfConv (clear halfConv) [.int 42, .str (b! "abc")])).as_integer = 42 ∧
    (view (run halfConv (clear halfConv) [.int 42, .str (b! "abc")])).is_integer = false := by decide +kernel

/-- An integer: it is read back as an integer, as a double and as its digits, and is not a date. -/
theorem C115_integer {L : Lib} (C : Conv L) (v : Store L) (h : List (Op L)) (i : Int) :
    told (view (run C v (h ++ [.int i]))) = ⟨false, L.print_I i, some i, some (C.of_int i), none, L.print_I i⟩ := by
  rw [run_append]; rfl

/-- A double: it is read back as a double; also as an integer, if the conversion is exact. -/
theorem C115_double {L : Lib} (C : Conv L) (v : Store L) (h : List (Op L)) (d : L.D) :
    told (view (run C v (h ++ [.dbl d]))) =
      if (C.to_int d).2 then ⟨false, L.print_D d, some (C.to_int d).1, some d, none, L.print_I (C.to_int d).1⟩
      else ⟨false, L.print_D d, none, some d, none, L.print_D d⟩ := by
  rw [run_append]
  show told (view (from_dbl C _)) = _
  unfold from_dbl told view print
  dsimp only
  cases (C.to_int d).2 <;> rfl

/-- A date: it is read back as a date and as its text, and is no number. -/
theorem C115_date {L : Lib} (C : Conv L) (v : Store L) (h : List (Op L)) (t : Int) :
    told (view (run C v (h ++ [.dt t]))) = ⟨false, L.dt_print t, none, none, some t, L.dt_print t⟩ := by
  rw [run_append]; rfl

/-- A text: it is read back, and it is a number or a date if it is one without the blanks at its ends. -/
theorem C115_text {L : Lib} (C : Conv L) (v : Store L) (h : List (Op L)) (s m : Bytes) (hm : Core s m) :
    let r := told (view (run C v (h ++ [.str s])))
    r.null = false ∧ r.string = s ∧ (m = [] → r.integer = none ∧ r.double = none ∧ r.datetime = none) ∧
      (m ≠ [] → r.integer = L.parse_I m ∧ r.double = L.parse_D m ∧ ∀ t, r.datetime = some t ↔ L.dt_parse m = some (t, m.length)) := by
  have e : told (view (run C v (h ++ [.str s]))) = told (view (set_str C (run C v h) s)) := by rw [run_append]; rfl
  rw [e, told_eq, toValue_set_str]
  obtain ⟨h1, h2, h3, h4⟩ := C21_meaning L s m hm
  exact ⟨h2, h1, h3, h4⟩

/-- After `clear()` there is nothing. -/
theorem C115_cleared {L : Lib} (C : Conv L) (v : Store L) (h : List (Op L)) :
    view (run C v (h ++ [.clear])) = ⟨true, [], false, 0, false, C.zero, false, 0, []⟩ := by
  rw [run_append]; rfl

/-- If `parse()` accepts something, the value is that of the text accepted, whatever it was before. -/
theorem C115_parsed {L : Lib} (C : Conv L) (v : Store L) (h : List (Op L)) (s : Bytes) :
    (step C (run C v h) (.parse s)).2 = (parse_value L s).2 ∧
    ((parse_value L s).2 ≠ 0 → told (view (run C v (h ++ [.parse s]))) =
      ⟨(parse_value L s).1.is_null, (parse_value L s).1.str, (parse_value L s).1.int, (parse_value L s).1.dbl, (parse_value L s).1.dt, (parse_value L s).1.print⟩) := by
  refine ⟨parse_count C _ s, fun hp => ?_⟩
  rw [run_append]
  show told (view (parse C _ s).1) = _
  rw [told_eq, toValue_parse C _ s (by rw [parse_count]; exact hp)]

/-- `parse_token_partial()` accepts the characters of a token at the beginning; the value is then as if this text had been assigned, or nothing if there is none. -/
theorem C115_token {L : Lib} (C : Conv L) (v : Store L) (h : List (Op L)) (s rest : Bytes) (hs : ∀ c ∈ s, TokenChar c) (hr : ∀ c, rest.head? = some c → ¬ TokenChar c) :
    (step C (run C v h) (.token (s ++ rest))).2 = s.length ∧
    told (view (run C v (h ++ [.token (s ++ rest)]))) = told (view (run C v (h ++ [if s = [] then .clear else .str s]))) := by
  have ht : (s ++ rest).takeWhile (fun c => !is_ctl_or_sep c) = s :=
    takeWhile_append_stop (fun c hc => by simp [(sep_iff c).2 (hs c hc)]) (fun c hc => by
      have := hr c hc
      rw [← sep_iff] at this
      simpa using this)
  rw [run_append, run_append]
  by_cases he : s = []
  · subst he
    simp only [if_true]
    show (token C _).2 = _ ∧ told (view (token C _).1) = _
    unfold token
    simp only [ht, if_true]
    exact ⟨rfl, rfl⟩
  · rw [if_neg he]
    show (token C _).2 = _ ∧ told (view (token C _).1) = told (view (set_str C _ s))
    unfold token
    simp only [ht, if_neg he]
    exact ⟨trivial, by rw [told_eq, told_eq, toValue_set_str, toValue_set_str]⟩

/-- `parse_unquoted_partial()` likewise accepts what is before a blank, a control character, a comma or a semicolon. -/
theorem C115_unquoted {L : Lib} (C : Conv L) (v : Store L) (h : List (Op L)) (s rest : Bytes) (hs : ∀ c ∈ s, ¬ CtlOrSpace c ∧ c ≠ chr ',' ∧ c ≠ chr ';')
    (hr : ∀ c, rest.head? = some c → CtlOrSpace c ∨ c = chr ',' ∨ c = chr ';') :
    (step C (run C v h) (.unquoted (s ++ rest))).2 = s.length ∧
    told (view (run C v (h ++ [.unquoted (s ++ rest)]))) = told (view (run C v (h ++ [if s = [] then .clear else .str s]))) := by
  have hu : ∀ c : Byte, is_ctl_or_unquoted_sep c = true ↔ CtlOrSpace c ∨ c = chr ',' ∨ c = chr ';' := by
    unfold CtlOrSpace; exact forall_byte (by decide +kernel)
  have ht : (s ++ rest).takeWhile (fun c => !is_ctl_or_unquoted_sep c) = s :=
    takeWhile_append_stop (fun c hc => by
      obtain ⟨h1, h2, h3⟩ := hs c hc
      have : ¬ is_ctl_or_unquoted_sep c = true := fun e => by rcases (hu c).1 e with e | e | e <;> contradiction
      simpa using this) (fun c hc => by simp [(hu c).2 (hr c hc)])
  rw [run_append, run_append]
  by_cases he : s = []
  · subst he
    simp only [if_true]
    show (unquoted C _).2 = _ ∧ told (view (unquoted C _).1) = _
    unfold unquoted
    simp only [ht, if_true]
    exact ⟨rfl, rfl⟩
  · rw [if_neg he]
    show (unquoted C _).2 = _ ∧ told (view (unquoted C _).1) = told (view (set_str C _ s))
    unfold unquoted
    simp only [ht, if_neg he]
    exact ⟨trivial, by rw [told_eq, told_eq, toValue_set_str, toValue_set_str]⟩

/-- `parse_quoted_string_partial()` accepts a quoted string at the beginning; the value is then as if the text that it denotes had been assigned. -/
theorem C115_quoted {L : Lib} (C : Conv L) (v : Store L) (h : List (Op L)) (w s rest : Bytes) (hw : QuotedText w s) :
    (step C (run C v h) (.quoted (chr '"' :: w ++ chr '"' :: rest))).2 = w.length + 2 ∧
    told (view (run C v (h ++ [.quoted (chr '"' :: w ++ chr '"' :: rest)]))) = told (view (run C v (h ++ [.str s]))) := by
  have hq := quoted_text hw rest []
  rw [List.nil_append] at hq
  rw [run_append, run_append]
  show (quoted C _).2 = _ ∧ told (view (quoted C _).1) = told (view (set_str C _ s))
  unfold quoted
  simp only [List.cons_append]
  rw [if_pos (by simp), hq]
  refine ⟨?_, by rw [told_eq, told_eq, toValue_set_str, toValue_set_str]⟩
  simp
  omega

example : (step halfConv (clear halfConv) (.token (b! "gzip;q=1"))).2 = 4 ∧ (told (view (run halfConv (clear halfConv) [.token (b! "gzip;q=1")]))).string = b! "gzip" ∧
    (step halfConv (clear halfConv) (.unquoted (b! "a/b=c, d"))).2 = 5 ∧ (told (view (run halfConv (clear halfConv) [.unquoted (b! "a/b=c, d")]))).string = b! "a/b=c" ∧
    (told (view (run halfConv (clear halfConv) [.quoted (b! "\"1\\2\"x")]))).integer = some 12 := by decide +kernel

/-- The calls that put something in. -/
def Puts {L : Lib} : Op L → Prop
  | .str _ | .int _ | .dbl _ | .dt _ => True
  | _ => False

/-- A value that something was assigned to is not null.  Partial: a date that is parsed leaves the value null, see `C115_null_date`. -/
theorem C115_not_null_partial {L : Lib} (C : Conv L) (v : Store L) (h : List (Op L)) (o : Op L) (ho : Puts o) :
    (view (run C v (h ++ [o]))).is_null = false := by
  rw [run_append]
  cases o with
  | str s =>
    show (toValue (set_str C _ s)).is_null = false
    rw [toValue_set_str]
    unfold Value.ofString
    dsimp only
    split <;> rfl
  | int i => rfl
  | dbl d => rfl
  | dt t => rfl
  | _ => exact absurd ho id

/-- Discrepancy: when a date is parsed, the value is that date and has its text, and `is_null()` is true. -/
theorem C115_null_date {L : Lib} (C : Conv L) (v : Store L) (s : Bytes) (t : Int) (n : Nat) (h : L.dt_parse s = some (t, n)) (hn : n ≠ 0)
    (hq : s.head? ≠ some (chr '"')) :
    step C v (.parse s) = ({ clear C with str := s.take n, dt := t, vdt := true }, n) ∨ s = [] := by
  by_cases h0 : s = []
  · exact .inr h0
  · refine .inl ?_
    show parse C v s = _
    unfold parse datetime
    rw [if_neg h0, if_neg hq, h]
    dsimp only
    rw [if_neg (fun e => e rfl), if_neg hn, if_pos hn]

example : (view (run halfConv (clear halfConv) [.parse (b! "Date")])).is_null = true ∧
    (view (run halfConv (clear halfConv) [.parse (b! "Date")])).is_datetime = true ∧
    (view (run halfConv (clear halfConv) [.parse (b! "Date")])).as_string = b! "D" := by decide +kernel

/-- `swap` exchanges two values. -/
theorem C115_swap {L : Lib} (a b : Store L) : view (swap a b).1 = view b ∧ view (swap a b).2 = view a := ⟨rfl, rfl⟩

/-- A history with all of them. -/
example : (told (view (run halfConv (clear halfConv) [.dbl (5 : Int), .dt 7, .quoted (b! "\"x"), .str (b! " 12\t")]))).integer = some 12 ∧
    (told (view (run halfConv (clear halfConv) [.str (b! "z"), .dbl (5 : Int)]))).integer = none ∧
    (told (view (run halfConv (clear halfConv) [.str (b! "z"), .dbl (6 : Int)]))).integer = some 3 ∧
    (told (view (run halfConv (clear halfConv) [.int 3, .clear, .token (b! "z,"), .unquoted (b! "8/9")]))).string = b! "8/9" := by decide +kernel

end Verif.Props
