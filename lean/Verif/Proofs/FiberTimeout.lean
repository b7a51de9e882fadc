import Verif.Proofs.Fiber
/-!
# No fiber is checked later than its time limit
-/
namespace Verif.Fiber

structure Bounded (fail clock : Nat) (x : Fib) : Prop where
  yield : x.yield ≤ clock
  check : x.check ≤ max (x.yield + fail) clock
  async : x.async ≤ max (x.yield + fail) clock

theorem Bounded.later {fail c d : Nat} {x : Fib} (h : Bounded fail c x) (hd : c ≤ d) : Bounded fail d x := by
  obtain ⟨h1, h2, h3⟩ := h
  exact ⟨by omega, by omega, by omega⟩

theorem upd_bounded {s : Sys} {k : Nat} {v : Fib} (h : ∀ i, Bounded s.fail s.clock (s.fib i)) (hv : Bounded s.fail s.clock v) (i : Nat) :
    Bounded s.fail s.clock (upd s.fib k v i) := by
  unfold upd; split
  · exact hv
  · exact h i

theorem bounded_step {s s' : Sys} {a : Act} (h : ∀ k, Bounded s.fail s.clock (s.fib k)) (hs : step s a = some s') : ∀ k, Bounded s'.fail s'.clock (s'.fib k) := by
  cases step_case hs with
  | tick d => exact fun k => (h k).later (Nat.le_add_right _ _)
  | launch v hl hv => exact upd_bounded h ⟨hv, Nat.le_trans hv (Nat.le_max_right _ _), Nat.le_trans hv (Nat.le_max_right _ _)⟩
  | notify t f since k v todo ht hv hk =>
    obtain ⟨h1, h2, h3⟩ := h k
    exact upd_bounded h ⟨h1, h2, Nat.le_trans hv (Nat.le_max_right _ _)⟩
  | scan i now k hp hk =>
    obtain ⟨h1, h2, h3⟩ := h k
    exact upd_bounded h ⟨h1, h3, h3⟩
  | pick k now hp hk hmin hc next hn =>
    obtain ⟨h1, h2, h3⟩ := h k
    refine upd_bounded h ⟨h1, ?_, ?_⟩
    · show next ≤ max ((s.fib k).yield + s.fail) s.clock
      omega
    · show (if (s.fib k).async = (s.fib k).check then next else (s.fib k).async) ≤ max ((s.fib k).yield + s.fail) s.clock
      split <;> omega
  | begin_ k now hp hst =>
    obtain ⟨h1, h2, h3⟩ := h k
    exact upd_bounded h ⟨h1, h2, h3⟩
  | resume k now ok hp hst hf hok =>
    obtain ⟨h1, h2, h3⟩ := h k
    exact upd_bounded h ⟨h1, h2, h3⟩
  | yieldOn k f hp =>
    obtain ⟨h1, h2, h3⟩ := h k
    refine upd_bounded h ⟨Nat.le_refl _, ?_, Nat.le_max_right _ _⟩
    show (s.fib k).check ≤ max (s.clock + s.fail) s.clock
    omega
  | yield k hp =>
    obtain ⟨h1, h2, h3⟩ := h k
    refine upd_bounded h ⟨Nat.le_refl _, ?_, Nat.le_max_right _ _⟩
    show (s.fib k).check ≤ max (s.clock + s.fail) s.clock
    omega
  | register k f hp hl hi =>
    obtain ⟨h1, h2, h3⟩ := h k
    exact upd_bounded h ⟨h1, h2, h3⟩
  | finish k hp =>
    obtain ⟨h1, h2, h3⟩ := h k
    exact upd_bounded h ⟨h1, h2, Nat.le_max_right _ _⟩
  | _ => exact h

theorem bounded {s : Sys} (h : Reachable s) : ∀ k, Bounded s.fail s.clock (s.fib k) := by
  induction h with
  | init warn fail => exact fun _ => ⟨Nat.le_refl _, Nat.zero_le _, Nat.zero_le _⟩
  | step a hr hs ih => exact bounded_step ih hs

end Verif.Fiber
