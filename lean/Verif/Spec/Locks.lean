import Verif.Model.Locks
/-!
# What it means for threads to block one another
-/
namespace Verif.Spec.Locks
open Verif.Locks

/-- Every thread has done all it had to do, and has nothing locked. -/
def Finished (st : State) : Prop := ∀ t ∈ st, t.rest = [] ∧ t.held = []

/-- The threads `C` block one another forever: each of them is about to lock a mutex that one of them has locked (itself only if the mutex is not recursive). -/
def Deadlock (st : State) (C : List Nat) : Prop :=
  C ≠ [] ∧ ∀ k ∈ C, ∃ t l r, st[k]? = some t ∧ t.rest = .acq l :: r ∧
    ∃ j ∈ C, ∃ u, st[j]? = some u ∧ l ∈ u.held ∧ (j = k → l.recursive = false)

/-- Calls that an item makes. -/
def calls : Item → List Call
  | .call c => [c]
  | .init _ cs => cs
  | .await _ | .inited _ => []

/-- What threads other than the network thread do. -/
def elsewhere (p : Program) : List Item :=
  p.main.flatMap (fun | .idle _ => [] | .fiber _ _ is => is | .other is => is)
    ++ p.timer.flatMap (fun x => x.2.getD [])
    ++ p.tasks.flatten.flatMap (fun x => x.2.getD [])
    ++ p.others.flatten

/-- No task is executed by two threads. -/
def TasksApart (p : Program) : Prop :=
  p.tasks.Pairwise fun rs rs' => ∀ i is is', (i, some is) ∈ rs → (i, some is') ∈ rs' → False

/-- No session is sent compressed messages both from its own callbacks in the network thread and from elsewhere. -/
def CompressionApart (p : Program) : Prop :=
  ∀ s, (∀ c cs n, NetRun.event c s cs n ∈ p.network → ∀ m f, Call.sendCompressed s m f ∉ cs) ∨
    (∀ i ∈ elsewhere p, ∀ m f, Call.sendCompressed s m f ∉ calls i)

end Verif.Spec.Locks
