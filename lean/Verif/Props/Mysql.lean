import Verif.Proofs.Mysql
/-!
# C43 and C44: MySQL values
-/
namespace Verif.Props
open Verif.Mysql

/-- C43: MySQL reads a printed blob as exactly the original bytes, and goes on after its closing quote, whatever the bytes are.  (A quote must not follow at once: two quotes
would be one.) -/
theorem C43_literal (str rest : Bytes) (h : rest.head? ≠ some (chr '\'')) : readLiteral (printBlob str [] ++ rest) = some (str, rest) := by
  rw [printBlob_eq, List.nil_append, List.cons_append, List.append_assoc]
  exact read_escape rest h str

/-- Non-vacuity. -/
example : printBlob (b! "a'); DROP TABLE t; -- \\") [] = b! "'a\\'); DROP TABLE t; -- \\\\'" ∧
    readLiteral (b! "'a\\'); DROP TABLE t; -- \\\\', 7)") = some (b! "a'); DROP TABLE t; -- \\", b! ", 7)") := ⟨rfl, rfl⟩

/-- C43: printing appends to what has been printed before. -/
theorem C43_append (str fmt : Bytes) : printBlob str fmt = fmt ++ printBlob str [] := by
  rw [printBlob_eq, printBlob_eq]; rfl

/-- C43: so a statement which is put together from literals and other text is read back as the same literals. -/
theorem C43_two (a b sep rest : Bytes) (h1 : sep.head? ≠ some (chr '\'')) (hs : sep ≠ []) (h2 : rest.head? ≠ some (chr '\'')) :
    ∃ r, readLiteral (printBlob b (printBlob a [] ++ sep) ++ rest) = some (a, sep ++ r) ∧ readLiteral r = some (b, rest) := by
  refine ⟨printBlob b [] ++ rest, ?_, C43_literal b rest h2⟩
  rw [C43_append b, List.append_assoc, List.append_assoc]
  refine C43_literal a _ ?_
  cases sep with
  | nil => exact absurd rfl hs
  | cons c s => exact h1

/-- C43: a date-time is read as the text of the local date and time. -/
theorem C43_datetime (zone : Int → Int) (ns : Int) (rest : Bytes) (h : rest.head? ≠ some (chr '\'')) :
    readLiteral (printTime zone ns [] ++ rest) = some ((DateTime.print_git_partial zone ns).take 19, rest) := by
  have e : printTime zone ns [] = chr '\'' :: (escape ((DateTime.print_git_partial zone ns).take 19) ++ [chr '\'']) := by
    rw [escape_plain]
    · rfl
    · intro c hc
      have hd : ∀ n : Nat, special (DateTime.dig (n % 10)) = false := fun n => by
        have : ∀ i : Fin 10, special (DateTime.dig i) = false := by decide
        exact this ⟨n % 10, Nat.mod_lt _ (by decide)⟩
      generalize ht : DateTime.breakDown (DateTime.clamp (DateTime.seconds ns)) (zone (DateTime.clamp (DateTime.seconds ns))) = tm at *
      have hp : (DateTime.print_git_partial zone ns).take 19 = DateTime.strftime DateTime.gitLocal tm := by
        unfold DateTime.print_git_partial
        simp only [ht]
        rfl
      rw [hp] at hc
      simp only [DateTime.strftime, DateTime.gitLocal, DateTime.hms, List.flatMap_cons, List.flatMap_append, List.flatMap_nil, List.cons_append, List.nil_append, DateTime.print1, DateTime.pad4,
        DateTime.pad2, List.mem_cons, List.append_nil, List.not_mem_nil, or_false] at hc
      rcases hc with rfl | rfl | rfl | rfl | rfl | rfl | rfl | rfl | rfl | rfl | rfl | rfl | rfl | rfl | rfl | rfl | rfl | rfl | rfl <;> first | exact hd _ | rfl
  rw [e, List.cons_append, List.append_assoc]
  exact read_escape rest h _

example : printTime (fun _ => 28800) 784111777000000000 [] = b! "'1994-11-06 16:49:37'" := by decide +kernel

/-- C44 (part): a date-time that is bound as an argument and then decoded from a row is the same millisecond, if the offset of the local zone at that time is a multiple of 30
minutes which is greater than -15 hours (and less than 35 hours).  Missing: other offsets, for which it does not hold, see `C44_offset`; and times in the first second that can be
represented, see `C44_lowest`. -/
theorem C44_instant_partial (timelocal : DateTime.Tm → Int → Int) (isdst : Int) (zone : Int → Int) (ns : Int) (h1 : -9223372036000000000 ≤ ns) (h2 : ns ≤ 9223372036854775807)
    (h3 : zone (ns / 1000000000) % 1800 = 0) (h4 : -54000 < zone (ns / 1000000000)) (h5 : zone (ns / 1000000000) < 126000) :
    fetchTime timelocal isdst (bindTime zone ns) = .ok (ns / 1000000 * 1000000) 0 := by
  rw [fetch_bind timelocal isdst zone h1 h2 (by omega) h5]
  simp only [h3]
  rw [if_pos (by omega)]
  simp

/-- Non-vacuity: Newfoundland, before 1970. -/
example : bindTime (fun _ => -12600) (-1234567890123) = ⟨1969, 12, 31, 20, 9, 25, 432023⟩ ∧ fetchTime (fun _ _ => 0) 0 ⟨1969, 12, 31, 20, 9, 25, 432023⟩ = .ok (-1234568000000) 0 := by
  decide +kernel

/-- C44 does not hold for other offsets: the result is later than it should be, by the remainder of the offset and 30 minutes. -/
theorem C44_offset (timelocal : DateTime.Tm → Int → Int) (isdst : Int) (zone : Int → Int) (ns : Int) (h1 : -9223372036000000000 ≤ ns) (h2 : ns ≤ 9000000000000000000)
    (h4 : -52200 ≤ zone (ns / 1000000000)) (h5 : zone (ns / 1000000000) < 126000) :
    fetchTime timelocal isdst (bindTime zone ns) = .ok (ns / 1000000 * 1000000 + zone (ns / 1000000000) % 1800 * 1000000000) 0 := by
  rw [fetch_bind timelocal isdst zone h1 (by omega) h4 h5]
  simp only
  rw [if_pos (by omega)]

/-- In Nepal, times are received 15 minutes later. -/
example : fetchTime (fun _ _ => 0) 0 (bindTime (fun _ => 20700) 1700000000000000000) = .ok 1700000900000000000 0 := by decide +kernel

/-- The nanoseconds in the first second overflow when they are split. -/
theorem C44_lowest : fetchTime (fun _ _ => 0) 0 (bindTime (fun _ => 0) (-9223372036500000000)) ≠ .ok (-9223372036500000000) 0 := by decide +kernel

/-- C44: a date-time without an encoded offset, such as one which has been stored by another program, is converted from local time; but whether it is daylight saving time is
read from memory that has not been initialized, so, wherever that matters, the result is indeterminate. -/
theorem C44_uninitialized (timelocal : DateTime.Tm → Int → Int) (t : Time) (h : t.secondPart % 100 = 0) (a b : Int)
    (ha : ∃ x, fetchTime timelocal a t = .ok x 0) (hb : ∃ x, fetchTime timelocal b t = .ok x 0)
    (hab : timelocal { year := t.year, mon := t.month - 1, mday := t.day, hour := t.hour, min := t.minute, sec := t.second } a ≠
      timelocal { year := t.year, mon := t.month - 1, mday := t.day, hour := t.hour, min := t.minute, sec := t.second } b) :
    fetchTime timelocal a t ≠ fetchTime timelocal b t := by
  obtain ⟨x, hx⟩ := ha
  obtain ⟨y, hy⟩ := hb
  rw [hx, hy]
  unfold fetchTime at hx hy
  simp only [if_pos h] at hx hy
  split at hx <;> simp only [DateTime.Res.ok.injEq, reduceCtorEq] at hx
  split at hy <;> simp only [DateTime.Res.ok.injEq, reduceCtorEq] at hy
  intro e
  simp only [DateTime.Res.ok.injEq, and_true] at e
  omega

/-- Non-vacuity: a zone with daylight saving time, where `timelocal` believes `tm_isdst`. -/
example : fetchTime (fun tm d => DateTime.timegm tm - 3600 - (if 0 < d then 3600 else 0)) 0 ⟨2024, 7, 1, 12, 0, 0, 0⟩ = .ok 1719831600000000000 0 ∧
    fetchTime (fun tm d => DateTime.timegm tm - 3600 - (if 0 < d then 3600 else 0)) 1 ⟨2024, 7, 1, 12, 0, 0, 0⟩ = .ok 1719828000000000000 0 := by decide +kernel

end Verif.Props
