import Verif.Spec.Startup
/-! # Proofs about the start of the program -/
namespace Verif.Startup
open Verif.Spec.Startup

theorem letters_spec (w : Bytes) (o : Options) :
    (letters o w = none ↔ ∃ c ∈ w, c ≠ chr 'd' ∧ c ≠ chr 'h' ∧ c ≠ chr 'V' ∧ c ≠ chr 'v') ∧
    ∀ o', letters o w = some o' → o' = { daemonize := o.daemonize || decide (chr 'd' ∈ w), verbose := o.verbose || decide (chr 'v' ∈ w), help := o.help || decide (chr 'h' ∈ w), version := o.version || decide (chr 'V' ∈ w) } := by
  induction w generalizing o with
  | nil => constructor <;> simp [letters]
  | cons c t ih =>
    have hd : chr 'h' ≠ chr 'd' ∧ chr 'V' ≠ chr 'd' ∧ chr 'v' ≠ chr 'd' ∧ chr 'V' ≠ chr 'h' ∧ chr 'v' ≠ chr 'h' ∧ chr 'v' ≠ chr 'V' := by decide
    by_cases h1 : c = chr 'd'
    · subst h1
      simp only [letters, letter, if_true]
      refine ⟨by rw [(ih _).1]; simp, fun o' h => ?_⟩
      rw [(ih _).2 o' h]; simp [hd]
    · by_cases h2 : c = chr 'h'
      · subst h2
        simp only [letters, letter, if_true, if_neg h1]
        refine ⟨by rw [(ih _).1]; simp, fun o' h => ?_⟩
        rw [(ih _).2 o' h]; simp [hd, Ne.symm h1]
      · by_cases h3 : c = chr 'V'
        · subst h3
          simp only [letters, letter, if_true, if_neg h1, if_neg h2]
          refine ⟨by rw [(ih _).1]; simp, fun o' h => ?_⟩
          rw [(ih _).2 o' h]; simp [hd, Ne.symm h1, Ne.symm h2]
        · by_cases h4 : c = chr 'v'
          · subst h4
            simp only [letters, letter, if_true, if_neg h1, if_neg h2, if_neg h3]
            refine ⟨by rw [(ih _).1]; simp, fun o' h => ?_⟩
            rw [(ih _).2 o' h]; simp [Ne.symm h1, Ne.symm h2, Ne.symm h3]
          · simp [letters, letter, h1, h2, h3, h4]

theorem getopt_spec (args : List Bytes) (o : Options) :
    (getopt o args = none ↔ ∃ c ∈ optionLetters args, c ≠ chr 'd' ∧ c ≠ chr 'h' ∧ c ≠ chr 'V' ∧ c ≠ chr 'v') ∧
    ∀ o' rest, getopt o args = some (o', rest) → rest = operands args ∧
      o' = { daemonize := o.daemonize || decide (chr 'd' ∈ optionLetters args), verbose := o.verbose || decide (chr 'v' ∈ optionLetters args), help := o.help || decide (chr 'h' ∈ optionLetters args), version := o.version || decide (chr 'V' ∈ optionLetters args) } := by
  induction args generalizing o with
  | nil =>
    refine ⟨by simp [getopt, optionLetters, front], fun o' rest h => ?_⟩
    simp only [getopt, Option.some.injEq, Prod.mk.injEq] at h
    obtain ⟨rfl, rfl⟩ := h
    simp [operands, front, back, optionLetters]
  | cons a t ih =>
    by_cases hdd : a = [chr '-', chr '-']
    · have hl : optionLetters (a :: t) = [] := by simp [optionLetters, front, hdd]
      have ho : operands (a :: t) = t := by simp [operands, front, back, hdd]
      refine ⟨by simp [getopt, hdd, optionLetters, front], fun o' rest h => ?_⟩
      simp only [getopt, if_pos hdd, Option.some.injEq, Prod.mk.injEq] at h
      obtain ⟨rfl, rfl⟩ := h
      rw [hl, ho]; simp
    · have hplain : ∀ (_ : isOption a = false), optionLetters (a :: t) = optionLetters t ∧ operands (a :: t) = a :: operands t := by
        intro h; simp [optionLetters, operands, front, back, hdd, h]
      have hopt : ∀ (_ : isOption a = true), optionLetters (a :: t) = a.drop 1 ++ optionLetters t ∧ operands (a :: t) = operands t := by
        intro h; simp [optionLetters, operands, front, back, hdd, h]
      have hskip : ∀ (_ : isOption a = false), getopt o (a :: t) = (getopt o t).map (fun r => (r.1, a :: r.2)) →
          (getopt o (a :: t) = none ↔ ∃ c ∈ optionLetters (a :: t), c ≠ chr 'd' ∧ c ≠ chr 'h' ∧ c ≠ chr 'V' ∧ c ≠ chr 'v') ∧
          ∀ o' rest, getopt o (a :: t) = some (o', rest) → rest = operands (a :: t) ∧
            o' = { daemonize := o.daemonize || decide (chr 'd' ∈ optionLetters (a :: t)), verbose := o.verbose || decide (chr 'v' ∈ optionLetters (a :: t)), help := o.help || decide (chr 'h' ∈ optionLetters (a :: t)), version := o.version || decide (chr 'V' ∈ optionLetters (a :: t)) } := by
        intro h1 h2
        rw [h2, (hplain h1).1, (hplain h1).2]
        refine ⟨by rw [Option.map_eq_none_iff]; exact (ih o).1, fun o' rest h => ?_⟩
        rw [Option.map_eq_some_iff] at h
        obtain ⟨⟨o1, r1⟩, hg, he⟩ := h
        simp only [Prod.mk.injEq] at he
        obtain ⟨rfl, rfl⟩ := he
        obtain ⟨rfl, rfl⟩ := (ih o).2 _ _ hg
        exact ⟨rfl, rfl⟩
      rcases a with _ | ⟨m, _ | ⟨c, w⟩⟩
      · exact hskip (by simp [isOption]) (by simp [getopt])
      · exact hskip (by simp [isOption]) (by simp [getopt])
      · by_cases hm : m = chr '-'
        · subst hm
          have hi : isOption (chr '-' :: c :: w) = true := by simp [isOption]
          rw [(hopt hi).1, (hopt hi).2]
          simp only [getopt, if_neg hdd, if_true, List.drop_succ_cons, List.drop_zero]
          obtain ⟨hl1, hl2⟩ := letters_spec (c :: w) o
          cases hl : letters o (c :: w) with
          | none =>
            refine ⟨?_, by simp⟩
            obtain ⟨x, hx, hy⟩ := hl1.mp hl
            simp only [true_iff]
            exact ⟨x, List.mem_append_left _ hx, hy⟩
          | some o1 =>
            have hno : ¬ ∃ x ∈ c :: w, x ≠ chr 'd' ∧ x ≠ chr 'h' ∧ x ≠ chr 'V' ∧ x ≠ chr 'v' := fun h => by rw [hl1.mpr h] at hl; cases hl
            obtain ⟨h1, h2⟩ := ih o1
            refine ⟨?_, fun o' rest h => ?_⟩
            · rw [h1]
              constructor
              · rintro ⟨x, hx, hy⟩; exact ⟨x, List.mem_append_right _ hx, hy⟩
              · rintro ⟨x, hx, hy⟩
                rcases List.mem_append.mp hx with hx | hx
                · exact absurd ⟨x, hx, hy⟩ hno
                · exact ⟨x, hx, hy⟩
            · obtain ⟨rfl, rfl⟩ := h2 o' rest h
              rw [hl2 o1 hl]
              refine ⟨rfl, ?_⟩
              simp [List.mem_append, Bool.or_assoc, -List.mem_cons]
        · exact hskip (by simp [isOption, hm]) (by simp [getopt, hm, hdd])

theorem paths_spec (env : Env) (l : List Bytes) : (∀ ps, paths env l = some ps ↔ l.map env.realpath = ps.map some) := by
  induction l with
  | nil => intro ps; simp only [paths, List.map_nil]; cases ps <;> simp
  | cons a t ih =>
    intro ps
    simp only [paths, List.map_cons]
    cases h : env.realpath a with
    | none => cases ps <;> simp
    | some p =>
      cases ps with
      | nil => simp
      | cons q qs =>
        simp only [Option.map_eq_some_iff, List.cons.injEq, List.map_cons, Option.some.injEq]
        constructor
        · rintro ⟨r, hr, rfl, rfl⟩; exact ⟨rfl, (ih r).mp hr⟩
        · rintro ⟨rfl, hr⟩; exact ⟨qs, (ih qs).mpr hr, rfl, rfl⟩

theorem loadModules_spec (env : Env) (ms : List Bytes) :
    (loadModules env ms).1 <+: ms.flatMap (moduleEvents env) ++ [.ready] ∧
    ((loadModules env ms).2 = .serving ↔ (loadModules env ms).1 = ms.flatMap (moduleEvents env) ++ [.ready]) ∧
    (.ready ∈ (loadModules env ms).1 ↔ (loadModules env ms).2 = .serving) := by
  induction ms with
  | nil => simp [loadModules]
  | cons m t ih =>
    obtain ⟨h1, h2, h3⟩ := ih
    cases hm : env.module m with
    | missing => simp [loadModules, hm, moduleEvents]
    | plain =>
      simp only [loadModules, hm, List.flatMap_cons, moduleEvents, List.cons_append, List.nil_append, List.prefix_cons_inj, List.cons.injEq, true_and, List.mem_cons, reduceCtorEq, false_or]
      exact ⟨h1, h2, h3⟩
    | main r =>
      cases r with
      | ok =>
        simp only [loadModules, hm, List.flatMap_cons, moduleEvents, List.cons_append, List.nil_append, List.prefix_cons_inj, List.cons.injEq, true_and, List.mem_cons, reduceCtorEq, false_or]
        exact ⟨h1, h2, h3⟩
      | throws => simp [loadModules, hm, moduleEvents, stop]
      | exits n => simp [loadModules, hm, moduleEvents, stop]
      | killed n => simp [loadModules, hm, moduleEvents, stop]

theorem parts_spec (env : Env) (mods : Option (List Bytes)) (ps : List Part) :
    (parts env mods ps).1 <+: ps.map .done ++ ((mods.getD []).flatMap (moduleEvents env) ++ [.ready]) ∧
    ((parts env mods ps).2 = .serving ↔ (parts env mods ps).1 = ps.map .done ++ ((mods.getD []).flatMap (moduleEvents env) ++ [.ready])) ∧
    (.ready ∈ (parts env mods ps).1 ↔ (parts env mods ps).2 = .serving) := by
  induction ps with
  | nil =>
    cases mods with
    | none => simp [parts]
    | some ms => simpa [parts] using loadModules_spec env ms
  | cons p t ih =>
    obtain ⟨h1, h2, h3⟩ := ih
    cases hp : env.part p with
    | ok =>
      simp only [parts, hp, List.map_cons, List.cons_append, List.prefix_cons_inj, List.cons.injEq, true_and, List.mem_cons, reduceCtorEq, false_or]
      exact ⟨h1, h2, h3⟩
    | throws => simp [parts, hp, stop]
    | exits n => simp [parts, hp, stop]
    | killed n => simp [parts, hp, stop]

theorem waitAndExit_exited {b : Bool} {f : Final} {n : Nat} (h : waitAndExit b f = .exited n) : n = 1 ∨ f = .exited n ∨ ∃ k, f = .signaled k ∧ n = 128 + k := by
  cases f <;> cases b <;> simp [waitAndExit] at h ⊢ <;> omega

end Verif.Startup
