import Verif.Model.ValueDrop
/-!
# What is expected of the destruction of values

Blocks and the values in them, without the machine that destroys them.
-/
namespace Verif.ValueDrop

def Frame.vals : Frame → List Val
  | .loop this stack => this :: stack
  | .tail this stack => this :: stack
  | .fin => []
  | .drop _ rest => rest

def cellVals : Option Cell → List Val
  | some c => c.elems
  | none => []

/-- All values there are: in variables, in functions that are running, and in arrays. -/
def vals (s : Sys) : List Val := s.roots ++ ((s.frames.flatMap fun fs => fs.flatMap Frame.vals) ++ s.heap.flatMap cellVals)

/-- How often a block is referred to. -/
def refs (s : Sys) (a : Nat) : Nat := (vals s).count (.ref a)

/-- A program before it destroys anything: the counts are right, no block is useless, and no array contains itself. -/
structure Start (s : Sys) : Prop where
  idle : ∀ fs ∈ s.frames, fs = []
  counts : ∀ (a : Nat) (c : Cell), s.heap[a]? = some (some c) → c.count = refs s a ∧ 0 < c.count
  valid : ∀ a, refs s a ≠ 0 → ∃ c, s.heap[a]? = some (some c)
  acyclic : ∃ rank : Nat → Nat, ∀ (a : Nat) (c : Cell), s.heap[a]? = some (some c) → ∀ b, Val.ref b ∈ c.elems → rank b < rank a

/-- A block that the program can get at from its variables. -/
inductive Used (s : Sys) : Nat → Prop
  | root {a : Nat} : .ref a ∈ s.roots → Used s a
  | elem {a b : Nat} {c : Cell} : Used s a → s.heap[a]? = some (some c) → .ref b ∈ c.elems → Used s b

/-- How many destructors of values are running in a thread, one in another. -/
def depth : List Frame → Nat
  | [] => 0
  | .drop _ _ :: fs => depth fs
  | _ :: fs => depth fs + 1

end Verif.ValueDrop
