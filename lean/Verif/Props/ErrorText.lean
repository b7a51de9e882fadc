import Verif.Proofs.ErrorText
import Verif.Props.LogEntry
/-!
# C124: what is said about errors
-/
namespace Verif.Props
open Verif.ErrorText

/-- C124: an exception which is thrown has the message, without blanks at its end; then the place where it is thrown; and, if the stack can be examined, the callers, one on each line, in order, with numbers from 1
on which are aligned at the right.  (There have to be less than a hundred million of them.) -/
theorem C124_exception (composed func file : Bytes) (line : Nat) (stack : Option (List Frame)) (h : ∀ fs ∈ stack, fs.length < 100000000) :
    ∃ message, Trimmed composed message ∧ create composed func file line stack = some (message ++ location func file line ++ match stack with
      | none => []
      | some fs => b! "\n[stack backtrace:" ++ callers fs.length 1 fs ++ b! "\n  -- end of stack backtrace]") := by
  refine ⟨_, trimEnd_trimmed composed, ?_⟩
  unfold create location
  dsimp only
  rw [dec_eq]
  cases stack with
  | none => simp
  | some fs =>
    have h8 : (Http.decimal fs.length).length ≤ 8 := by
      rw [dec_eq]
      have h1 := dec_length_mono 99999999 99999999 (Nat.le_refl _) fs.length (by have := h fs rfl; omega)
      exact Nat.le_trans h1 (by decide)
    simp only [numfield, h8, if_true, Option.map_some]
    rw [frames_eq fs.length fs _ 0 (by omega) (by simp [dec_eq]) ?_]
    · simp [List.append_assoc]
    · intro i hi
      rw [List.take_replicate, dec_eq]
      congr 1; omega

/-- C124: what is left of a text is the only thing that it can be. -/
theorem C124_message {s r r' : Bytes} (h : Trimmed s r) (h' : Trimmed s r') : r = r' := by
  obtain ⟨⟨b, h1, h2⟩, h3⟩ := h
  obtain ⟨⟨b', h1', h2'⟩, h3'⟩ := h'
  have key : ∀ (x y b b' : Bytes), x ++ b = y ++ b' → (∀ c ∈ b', c ∈ b! " \t\r\n") → (∀ a c, x = a ++ [c] → c ∉ b! " \t\r\n") → x.length ≤ y.length := by
    intro x y b b' e hb hx
    by_cases hlen : x.length ≤ y.length
    · exact hlen
    · exfalso
      have hne : x ≠ [] := by intro e; rw [e] at hlen; simp at hlen
      have hl := List.dropLast_concat_getLast hne
      refine hx _ _ hl.symm (hb _ ?_)
      have e1 : x = y ++ b'.take (x.length - y.length) := by
        have := congrArg (List.take x.length) e
        rwa [List.take_left', List.take_append, List.take_of_length_le (by omega)] at this
        rfl
      have hne2 : b'.take (x.length - y.length) ≠ [] := by
        intro e2; rw [e2, List.append_nil] at e1; rw [e1] at hlen; omega
      have e3 : x.getLast hne = (b'.take (x.length - y.length)).getLast hne2 := by
        have : ∀ (p q : Bytes) (hq : q ≠ []) (hp : p ≠ []), p = y ++ q → p.getLast hp = q.getLast hq := by
          intro p q hq hp e; subst e; exact List.getLast_append_of_ne_nil _ hq
        exact this _ _ hne2 hne e1
      rw [e3]
      exact List.mem_of_mem_take (List.getLast_mem hne2)
  have e : r ++ b = r' ++ b' := h1.symm.trans h1'
  have l1 := key r r' b b' e h2' h3
  have l2 := key r' r b' b e.symm h2 h3'
  have := congrArg (List.take r.length) e
  rwa [List.take_left', List.take_left' (by omega)] at this
  rfl

/-- C124: every message that has anything but blanks in it is logged as C50_text says, whatever it ends with. -/
theorem C124_logged (l : Log.Level) (t : Log.Time) (m : Log.Msg) (composed message : Bytes) (hl : l.color = []) (ht : t.Ok) (hm : Trimmed composed message) (hne : message ≠ []) :
    logText composed = message ∧
    Log.entry l t { m with text := logText composed } =
      Log.fixed 4 t.year ++ b! "-" ++ Log.fixed 2 t.mon ++ b! "-" ++ Log.fixed 2 t.mday ++ b! " " ++ Log.fixed 2 t.hour ++ b! ":" ++ Log.fixed 2 t.min ++ b! ":" ++ Log.fixed 2 t.sec ++ b! "." ++
      Log.fixed 9 t.nsec ++ b! " " ++ l.tag ++ b! " " ++ message.flatMap Log.shown ++ (0x1B :: b! "E\t@@ thread ") ++ dec m.lwpid ++ b! " [" ++ m.name ++ b! "] inside function `" ++ m.func ++
      b! "` at '" ++ m.file ++ b! ":" ++ dec m.line ++ (chr '\'' :: 0x1B :: b! "E\n") := by
  have e : logText composed = message := C124_message (trimEnd_trimmed composed) hm
  refine ⟨e, ?_⟩
  rw [e]
  have hd := (List.dropLast_concat_getLast hne).symm
  refine C50_text l t { m with text := message } _ _ hl ht hd fun hc => hm.2 _ _ hd ?_
  revert hc
  generalize message.getLast hne = c
  exact (forall_byte (P := fun c => c ∈ b! " \t\n" → c ∈ b! " \t\r\n") (by decide +kernel)) c

/-- Non-vacuity: eleven callers, of which the first has a name, and the tenth has a name and an offset. -/
example : create (b! "bad \r\n") (b! "f") (b! "x.cpp") 12 (some ([⟨0xAB, some (b! "g", 0)⟩] ++ List.replicate 8 ⟨0, none⟩ ++ [⟨0x10, some (b! "main", 0x1F)⟩, ⟨1, none⟩])) =
    some (b! "bad\n[thrown from function `f` at 'x.cpp:12']\n[stack backtrace:\n   1) 0xAB `g`\n   2) 0x0 (unknown)\n   3) 0x0 (unknown)\n   4) 0x0 (unknown)\n   5) 0x0 (unknown)\n   6) 0x0 (unknown)\n   7) 0x0 (unknown)\n   8) 0x0 (unknown)\n   9) 0x0 (unknown)\n  10) 0x10 `main`+0x1F\n  11) 0x1 (unknown)\n  -- end of stack backtrace]") := by
  decide +kernel
example : ∃ message, Trimmed (b! "a b\t\r\n") message ∧ message ≠ [] := ⟨b! "a b", ⟨⟨b! "\t\r\n", by decide, by decide⟩, fun a c h => by
  have : a = b! "a " ∧ c = chr 'b' := by
    rw [show b! "a b" = b! "a " ++ [chr 'b'] by decide] at h
    have := List.append_inj' h rfl
    exact ⟨this.1.symm, by simpa using this.2.symm⟩
  rw [this.2]; decide⟩, by decide⟩

end Verif.Props
