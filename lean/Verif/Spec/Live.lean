/-!
# Infinite executions and fairness

General notions for properties of the form "eventually": an execution is an infinite sequence of states; in every step, one action is done, or nothing.
-/
namespace Verif.Live

structure Exec {S A : Type} (step : S → A → Option S) where
  st : Nat → S
  /-- what is done at every time; `none` is nothing -/
  act : Nat → Option A
  ok : ∀ n, match act n with
    | none => st (n + 1) = st n
    | some a => step (st n) a = some (st (n + 1))

variable {S A : Type} {step : S → A → Option S}

/-- Some action of this kind is possible. -/
def Enabled (step : S → A → Option S) (T : A → Prop) (s : S) : Prop := ∃ a, T a ∧ (step s a).isSome = true

/-- An action of this kind is done at this time. -/
def Exec.Taken (e : Exec step) (T : A → Prop) (n : Nat) : Prop := ∃ a, e.act n = some a ∧ T a

/-- Strong fairness: if actions of this kind are possible again and again, then one is done eventually. -/
def Exec.Fair (e : Exec step) (T : A → Prop) : Prop := ∀ n, (∀ m, n ≤ m → ∃ k, m ≤ k ∧ Enabled step T (e.st k)) → ∃ m, n ≤ m ∧ e.Taken T m

end Verif.Live
