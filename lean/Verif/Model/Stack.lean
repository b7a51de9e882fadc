/-!
# The cache of fiber stacks

Models `do_allocate_stack()` and `do_free_stack()` (fiber_scheduler.cpp:22-101), called by any number of threads.  Every access to memory is a
transition of its own.  The memory of a stack that is in use may be overwritten by its fiber at any time, including the words in which the cache keeps
its link and size.

Simplifications: interleavings are sequentially consistent; a mapping is identified by the address behind its guard page, and `mmap()` returns an
address that is not in use, or fails; `munmap()` does not fail; a caller frees what it has been given, once.
-/
namespace Verif.Stack

/-- Where a thread is. -/
inductive Pc where
  | idle
  /-- before `s_stack_cache.xchg(nullptr)` -/
  | take (sz : Nat)
  /-- before `if(cst && cst->next)` -/
  | peek (sz : Nat) (cst : Option Nat)
  /-- before `s_stack_cache.xchg(cst->next)`, which has been loaded -/
  | back (sz c n : Nat)
  /-- before the result is stored in `cst->next` -/
  | link (sz c : Nat) (prev : Option Nat)
  /-- before the condition of `while` -/
  | loop (sz : Nat) (cst : Option Nat)
  /-- before `munmap()`; the size and the next stack have been loaded -/
  | drop (sz c z : Nat) (n : Option Nat)
  /-- in `do_free_stack()`, before the header is written -/
  | reset (c z : Nat)
  /-- before `cst->next = s_stack_cache.load()` -/
  | load (c : Nat)
  /-- before `s_stack_cache.cmpxchg_weak(cst->next, cst)` -/
  | cas (c : Nat)
deriving DecidableEq, Repr

inductive Ev where
  | mapped (a z : Nat)
  | unmapped (a z : Nat)
  /-- stack `a` with size `z` is handed out to a caller that asked for `sz` bytes -/
  | allocated (a z sz : Nat)
  | freed (a : Nat)
deriving DecidableEq, Repr

structure Sys where
  /-- `s_stack_cache` -/
  cache : Option Nat := none
  /-- `Cached_Stack::next`, by address (fiber_scheduler.cpp:22-26) -/
  next : Nat → Option Nat := fun _ => none
  /-- `Cached_Stack::vm_size` -/
  size : Nat → Nat := fun _ => 0
  /-- the mappings of the process, and their sizes -/
  maps : Nat → Option Nat := fun _ => none
  pc : Nat → Pc := fun _ => .idle
  /-- what has been handed out and not freed: `ss_sp` and `ss_size` -/
  used : List (Nat × Nat) := []
  /-- memory has been accessed that is not mapped, or unmapped with a wrong size -/
  ub : Bool := false
  /-- history, latest event first -/
  trace : List Ev := []

def upd {α : Type} (f : Nat → α) (k : Nat) (v : α) : Nat → α := fun i => if i = k then v else f i

/-- An access to the header of stack `c`. -/
def Sys.touch (s : Sys) (c : Nat) : Sys := { s with ub := s.ub || (s.maps c).isNone }

inductive Act where
  /-- thread `t` calls `do_allocate_stack(sz)` -/
  | alloc (t sz : Nat)
  /-- thread `t` goes on -/
  | go (t : Nat)
  /-- `mmap()` returns `a` to thread `t` -/
  | mmap (t a : Nat)
  /-- `mmap()` fails, and `do_allocate_stack()` throws -/
  | fail (t : Nat)
  /-- thread `t` calls `do_free_stack()` -/
  | free (t a z : Nat)
  /-- the compare-and-exchange fails spuriously -/
  | spurious (t : Nat)
  /-- a fiber overwrites the memory of its stack -/
  | scribble (a : Nat) (n : Option Nat) (z : Nat)
deriving DecidableEq, Repr

/-- One step of thread `t`.  (fiber_scheduler.cpp:34-48, 63-73, 88-100) -/
def go (s : Sys) (t : Nat) : Option Sys :=
  match s.pc t with
  | .take sz => some { s with cache := none, pc := upd s.pc t (.peek sz s.cache) }
  | .peek sz none => some { s with pc := upd s.pc t (.loop sz none) }
  | .peek sz (some c) =>
    match s.next c with
    | none => some { s.touch c with pc := upd s.pc t (.loop sz (some c)) }
    | some n => some { s.touch c with pc := upd s.pc t (.back sz c n) }
  | .back sz c n => some { s with cache := some n, pc := upd s.pc t (.link sz c s.cache) }
  | .link sz c prev => some { s.touch c with next := upd s.next c prev, pc := upd s.pc t (.loop sz (some c)) }
  | .loop sz (some c) =>
    if s.next c ≠ none ∨ s.size c ≠ sz then some { s.touch c with pc := upd s.pc t (.drop sz c (s.size c) (s.next c)) }
    else some { s.touch c with
      pc := upd s.pc t .idle
      used := (c, s.size c) :: s.used
      trace := .allocated c (s.size c) sz :: s.trace }
  | .drop sz c z n => some { s with
      maps := upd s.maps c none
      ub := s.ub || decide (s.maps c ≠ some z)
      pc := upd s.pc t (.loop sz n)
      trace := .unmapped c z :: s.trace }
  | .reset c z => some { s.touch c with next := upd s.next c none, size := upd s.size c z, pc := upd s.pc t (.load c) }
  | .load c => some { s.touch c with next := upd s.next c s.cache, pc := upd s.pc t (.cas c) }
  | .cas c =>
    if s.cache = s.next c then some { s.touch c with cache := some c, pc := upd s.pc t .idle }
    else some { s.touch c with next := upd s.next c s.cache }
  | _ => none

def step (s : Sys) : Act → Option Sys
  | .alloc t sz => if s.pc t = .idle then some { s with pc := upd s.pc t (.take sz) } else none
  | .go t => go s t
  /- (fiber_scheduler.cpp:50-64) -/
  | .mmap t a =>
    match s.pc t with
    | .loop sz none =>
      if s.maps a = none then
        some { s with
          maps := upd s.maps a (some sz)
          next := upd s.next a none
          size := upd s.size a sz
          pc := upd s.pc t .idle
          used := (a, sz) :: s.used
          trace := .allocated a sz sz :: .mapped a sz :: s.trace }
      else none
    | _ => none
  /- (fiber_scheduler.cpp:54-59) -/
  | .fail t =>
    match s.pc t with
    | .loop _ none => some { s with pc := upd s.pc t .idle }
    | _ => none
  /- (fiber_scheduler.cpp:78-83) -/
  | .free t a z =>
    if s.pc t = .idle ∧ (a, z) ∈ s.used then
      some { s with pc := upd s.pc t (.reset a z), used := s.used.filter fun e => e.1 != a, trace := .freed a :: s.trace }
    else none
  | .spurious t =>
    match s.pc t with
    | .cas c => some { s.touch c with next := upd s.next c s.cache }
    | _ => none
  | .scribble a n z =>
    if (s.used.any fun e => e.1 == a) = true then some { s.touch a with next := upd s.next a n, size := upd s.size a z } else none

def run (s : Sys) : List Act → Option Sys
  | [] => some s
  | a :: as => (step s a).bind fun s' => run s' as

inductive Reachable : Sys → Prop
  | init : Reachable {}
  | step {s s' : Sys} (a : Act) : Reachable s → step s a = some s' → Reachable s'

end Verif.Stack
