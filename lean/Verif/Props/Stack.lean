import Verif.Proofs.StackInv
/-!
# C35: the cache of fiber stacks
-/
namespace Verif.Props
open Verif.Stack

theorem stack_run_reachable (acts : List Act) : ∀ {s s' : Sys}, Reachable s → run s acts = some s' → Reachable s' := by
  induction acts with
  | nil => intro s s' hr h; cases h; exact hr
  | cons a acts ih =>
    intro s s' hr h
    simp only [run] at h
    cases hs : step s a with
    | none => rw [hs] at h; exact nomatch h
    | some s1 => rw [hs] at h; exact ih (.step a hr hs) h

/-- C35: whatever threads allocate and free stacks at the same time, no stack is handed out while it is in use, none is unmapped while it is in use or
twice, and a stack has exactly the size that was asked for. -/
theorem C35_exclusive (s : Sys) (h : Reachable s) : stacksOk s.trace := by
  obtain ⟨own, C, T, hi⟩ := inv h
  exact hi.ok

/-- C35: no access to memory that is not mapped, and no mapping is unmapped with a wrong size. -/
theorem C35_no_wild_access (s : Sys) (h : Reachable s) : s.ub = false := by
  obtain ⟨own, C, T, hi⟩ := inv h
  exact hi.ub

/-- C35: no stack is both cached and in use, and everything in the cache is mapped. -/
theorem C35_not_cached_and_used (s : Sys) (h : Reachable s) (a : Nat) (hc : OnChain s.next s.cache a) : inUse a s.trace = false ∧ (live a s.trace).isSome = true := by
  obtain ⟨own, C, T, hi⟩ := inv h
  have ho := (hi.ownC a).1 (onChain_mem hc hi.cache)
  constructor
  · cases hu : Stack.inUse a s.trace with
    | false => rfl
    | true => rw [hi.inUse a, ho] at hu; exact nomatch hu
  · rw [hi.live a, hi.sizeC a ho]; rfl

/-- C35: nothing leaks: when no thread is in the two functions, every stack that is mapped is in use or in the cache. -/
theorem C35_no_leak (s : Sys) (h : Reachable s) (hq : ∀ t, s.pc t = .idle) (a : Nat) (hl : (live a s.trace).isSome = true) :
    inUse a s.trace = true ∨ OnChain s.next s.cache a := by
  obtain ⟨own, C, T, hi⟩ := inv h
  have ht : ∀ t, own a ≠ .thr t := by
    intro t e
    have h1 := hi.thr t
    rw [hq t] at h1
    have h1 : T t = [] := h1
    have h2 := (hi.ownT t a).2 e
    rw [h1] at h2
    exact nomatch h2
  cases ho : own a with
  | none => rw [hi.live a, (hi.maps a).2 ho] at hl; exact nomatch hl
  | cache => exact .inr (chain_onChain hi.cache ((hi.ownC a).2 ho))
  | thr t => exact absurd ho (ht t)
  | used => exact .inl ((hi.inUse a).2 ho)

/-- Two stacks are allocated and overwritten by their fibers; two threads free them at the same time, so that a compare-and-exchange fails. -/
def stackActs : List Act :=
  [.alloc 1 64, .go 1, .go 1, .mmap 1 100, .alloc 1 64, .go 1, .go 1, .mmap 1 200, .scribble 100 (some 200) 7, .free 1 100 64, .free 2 200 64, .go 1, .go 2, .go 1, .go 2,
   .go 2, .go 1, .go 1]

/-- Non-vacuity: both are in the cache afterwards, and all threads are through. -/
example : ∃ s, run {} stackActs = some s ∧ s.cache = some 100 ∧ s.next 100 = some 200 ∧ s.pc 1 = .idle ∧ s.pc 2 = .idle ∧ s.ub = false :=
  ⟨_, rfl, rfl, rfl, rfl, rfl, rfl⟩

/-- Non-vacuity: a thread takes the cache, and another one frees a stack before the rest is put back; that one is unmapped. -/
example : ∃ s, run {} (stackActs ++ [.alloc 3 64, .go 3, .go 3, .alloc 4 64, .go 4, .go 4, .mmap 4 300, .free 4 300 64, .go 4, .go 4, .go 4, .go 3, .go 3, .go 3, .go 3, .go 3]) = some s ∧
    Ev.unmapped 100 64 ∈ s.trace ∧ s.trace.head? = some (.allocated 300 64 64) ∧ s.cache = some 200 := ⟨_, rfl, by decide, rfl, rfl⟩

/-- Non-vacuity: all threads are idle in a reachable state with a cached stack. -/
example : ∃ s, run {} [.alloc 1 64, .go 1, .go 1, .mmap 1 100, .free 1 100 64, .go 1, .go 1, .go 1] = some s ∧ (∀ t, s.pc t = .idle) ∧ (live 100 s.trace).isSome = true ∧
    inUse 100 s.trace = false := by
  refine ⟨_, rfl, ?_, rfl, rfl⟩
  intro t
  simp only [upd]
  split
  · rfl
  · rename_i h; simp [h]

end Verif.Props
