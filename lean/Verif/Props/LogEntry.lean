import Verif.Proofs.LogEntry
/-!
# C50: log entries
-/
namespace Verif.Props
open Verif.Log

/-- C50: whatever text is logged, the entry has exactly one line feed, at its end. -/
theorem C50_one_line (l : Level) (t : Time) (m : Msg) (h : Plain l m) : ∃ body, entry l t m = body ++ [lf] ∧ lf ∉ body := by
  refine ⟨rtrim (head l t ++ m.text.flatMap (char l)) ++ footInit l m, ?_, ?_⟩
  · rw [entry, foot_eq, List.append_assoc]
  · exact clean_no_lf (clean_append (clean_rtrim (clean_append (head_clean t h) (clean_flatMap (char_clean l) _))) (foot_clean h))

/-- C50: whatever text is logged, the only control characters before the final line feed are tabs and the `ESC` of the new-line sequence, and of color
sequences if colors are enabled. -/
theorem C50_no_controls (l : Level) (t : Time) (m : Msg) (h : Plain l m) : clean (l.color != []) (entry l t m).dropLast = true := by
  have e : (entry l t m).dropLast = rtrim (head l t ++ m.text.flatMap (char l)) ++ footInit l m := by
    rw [entry, foot_eq, ← List.append_assoc, List.dropLast_concat]
  rw [e]
  exact clean_append (clean_rtrim (clean_append (head_clean t h) (clean_flatMap (char_clean l) _))) (foot_clean h)

/-- C50: a text without control characters and invalid bytes, which does not end in a space, appears as it is. -/
theorem C50_verbatim (l : Level) (t : Time) (m : Msg) (a : Bytes) (c : Byte) (hm : m.text = a ++ [c]) (hc : c ≠ chr ' ')
    (h : ∀ x ∈ m.text, 0x20 ≤ x ∧ x ≠ 0x7F ∧ x ≠ 0xC0 ∧ x ≠ 0xC1 ∧ x < 0xF5) : entry l t m = head l t ++ m.text ++ foot l m := by
  have key : ∀ x : Byte, 0x20 ≤ x ∧ x ≠ 0x7F ∧ x ≠ 0xC0 ∧ x ≠ 0xC1 ∧ x < 0xF5 → escapes x = [x] := forall_byte (by decide +kernel)
  have hch : ∀ x ∈ m.text, char l x = [x] := fun x hx => by
    unfold char; rw [key x (h x hx)]; simp only; split <;> rfl
  have hflat : ∀ s : Bytes, (∀ x ∈ s, char l x = [x]) → s.flatMap (char l) = s := by
    intro s
    induction s with
    | nil => intro _; rfl
    | cons x s ih =>
      intro hs
      rw [List.flatMap_cons, hs x (List.mem_cons_self ..), ih fun y hy => hs y (List.mem_cons_of_mem _ hy)]; rfl
  have hsp : ∀ x : Byte, 0x20 ≤ x → x ≠ chr ' ' → isSpace x = false := forall_byte (by decide +kernel)
  rw [entry, hflat _ hch, hm, rtrim_append (hsp c (h c (by rw [hm]; simp)).1 hc)]

/-- C50: when colors are disabled, an entry whose text does not end in a space, tab or line feed, is: the date and time, with nanoseconds; the tag of the level; the text, with each byte as the
specification shows it; the new-line sequence; the number and the name of the thread; the function, the file and the line. -/
theorem C50_text (l : Level) (t : Time) (m : Msg) (a : Bytes) (c : Byte) (hl : l.color = []) (ht : t.Ok) (hm : m.text = a ++ [c]) (hc : c ∉ b! " \t\n") :
    entry l t m = fixed 4 t.year ++ b! "-" ++ fixed 2 t.mon ++ b! "-" ++ fixed 2 t.mday ++ b! " " ++ fixed 2 t.hour ++ b! ":" ++ fixed 2 t.min ++ b! ":" ++ fixed 2 t.sec ++ b! "." ++ fixed 9 t.nsec ++
      b! " " ++ l.tag ++ b! " " ++ m.text.flatMap shown ++ (0x1B :: b! "E\t@@ thread ") ++ (Nat.toDigits 10 m.lwpid).map chr ++ b! " [" ++ m.name ++ b! "] inside function `" ++ m.func ++ b! "` at '" ++
      m.file ++ b! ":" ++ (Nat.toDigits 10 m.line).map chr ++ (chr '\'' :: 0x1B :: b! "E\n") := by
  have hk : ∀ code, color l code = [] := fun code => by simp [color, hl]
  rw [entry_eq l t m a c hm hc, show char l = shown from funext fun x => (char_plain hl x).trans (escapes_shown x)]
  unfold head foot
  rw [padded_fixed (by decide) ht.year, padded_fixed (by decide) ht.mon, padded_fixed (by decide) ht.mday, padded_fixed (by decide) ht.hour, padded_fixed (by decide) ht.min,
    padded_fixed (by decide) ht.sec, padded_fixed (by decide) ht.nsec, decimal_toDigits, decimal_toDigits]
  simp only [hk, List.append_nil, List.nil_append, List.append_assoc, List.cons_append]
  rfl

/-- C50: where colors are enabled, a terminal shows the same as without them. -/
theorem C50_colors (l : Level) (t : Time) (m : Msg) (a : Bytes) (c : Byte) (h : Plain l m) (hl : chr 'm' ∉ l.color) (hm : m.text = a ++ [c]) (hc : c ∉ b! " \t\n") :
    uncolor false (entry l t m) = entry { l with color := [] } t m := by
  rw [entry_eq l t m a c hm hc, entry_eq _ t m a c hm hc, show char { l with color := [] } = escapes from funext fun x => char_plain rfl x]
  have := ((Strips.head t h hl).append (Strips.flatMap (Strips.char l) m.text)).append (Strips.foot h) []
  simpa [uncolor] using this

/-- Two lines, with colors. -/
example : ∃ l m, Plain l m ∧ (∃ a c, m.text = a ++ [c] ∧ c ≠ chr ' ' ∧ isSpace c = false) ∧ l.color ≠ [] ∧ lf ∈ m.text ∧ entry l ⟨2024, 2, 29, 12, 0, 0, 1⟩ m =
    [esc] ++ b! "[31m2024-02-29 12:00:00.000000001 " ++ [esc] ++ b! "[22;7m[error]" ++ [esc] ++ b! "[0m " ++ [esc] ++ b! "[0m" ++ [esc] ++ b! "[31ma" ++ [esc] ++ b! "E\tb" ++
    [esc] ++ b! "[7m\\x1B" ++ [esc] ++ b! "[27mc" ++ [esc] ++ b! "[0m" ++ [esc] ++ b! "E\t" ++ [esc] ++ b! "[90m@@ thread 7 [main] " ++ [esc] ++ b! "[34minside function `f` at 'x.cpp:10'" ++
    [esc] ++ b! "E" ++ [esc] ++ b! "[0m" ++ [lf] := by
  refine ⟨⟨b! "[error]", b! "31"⟩, ⟨b! "a\nb" ++ [esc] ++ b! "c", 7, b! "main", b! "f", b! "x.cpp", 10⟩, ?_, ?_, ?_, ?_, ?_⟩
  · exact ⟨by decide, by decide, by decide, by decide, by decide⟩
  · exact ⟨b! "a\nb" ++ [esc], chr 'c', by decide, by decide, by decide⟩
  · decide
  · decide
  · decide +kernel

/-- The same without colors, and what a terminal shows of the one with colors; a thread's name and a text with control characters. -/
example : (⟨2024, 2, 29, 12, 0, 0, 1⟩ : Time).Ok ∧ Plain ⟨b! "[error]", b! "31"⟩ ⟨b! "a\nb" ++ [esc] ++ b! "c", 7, b! "main", b! "f", b! "x.cpp", 10⟩ ∧ chr 'm' ∉ b! "31" ∧ chr 'c' ∉ b! " \t\n" ∧
    uncolor false (entry ⟨b! "[error]", b! "31"⟩ ⟨2024, 2, 29, 12, 0, 0, 1⟩ ⟨b! "a\nb" ++ [esc] ++ b! "c", 7, b! "main", b! "f", b! "x.cpp", 10⟩) =
      b! "2024-02-29 12:00:00.000000001 [error] a" ++ [esc] ++ b! "E\tb\\x1Bc" ++ [esc] ++ b! "E\t@@ thread 7 [main] inside function `f` at 'x.cpp:10'" ++ [esc] ++ b! "E\n" :=
  ⟨⟨by decide, by decide, by decide, by decide, by decide, by decide, by decide⟩, ⟨by decide, by decide, by decide, by decide, by decide⟩, by decide, by decide, by decide +kernel⟩

end Verif.Props
