/-!
# The destruction of nested values

Models `Mongo_Value::~Mongo_Value()` (mongo_value.cpp:11-51) and `Redis_Value::~Redis_Value()` (redis_value.cpp:10-38), which is the same without documents.  Arrays and documents are copied on write: a value
has a pointer to a block with a reference count and with the elements.  Any number of threads destroy values at the same time, and copy and move other ones.  `cow_vector` and `cow_bivector` of asteria are
contracts: `unique()` tells whether the count is one; the destructor of a pointer decrements the count, and if it becomes zero destroys the elements and then frees the block.  Keys of documents, and everything
that is neither an array nor a document, are not modelled: such values are all `leaf`.
-/
namespace Verif.ValueDrop

inductive Val where
  | leaf
  /-- an array or a document, by the number of its block -/
  | ref (a : Nat)
deriving DecidableEq, Repr

structure Cell where
  count : Nat
  elems : List Val
deriving DecidableEq, Repr

/-- What a thread is doing. -/
inductive Frame where
  /-- in the destructor of a value, at `do_unpack_loop_`; `this` is `m_stor`, and the last element of `stack` is its back -/
  | loop (this : Val) (stack : List Val)
  /-- behind the `switch` -/
  | tail (this : Val) (stack : List Val)
  /-- at the end of the destructor -/
  | fin
  /-- in the destructor of a pointer, where the elements are being destroyed; `rest` are those left -/
  | drop (a : Nat) (rest : List Val)
deriving DecidableEq, Repr

structure Sys where
  /-- all blocks that have ever been; `none` are those that have been freed -/
  heap : List (Option Cell)
  /-- for each thread, innermost first -/
  frames : List (List Frame)
  /-- values that the program has in variables, and does not destroy now -/
  roots : List Val
deriving DecidableEq, Repr

inductive Act where
  /-- A thread begins to destroy the `i`th variable. -/
  | begin (t i : Nat)
  /-- A thread copies the `i`th variable. -/
  | copy (i : Nat)
  /-- A thread goes on.  If it is about to unpack an array, there is memory for `k` elements on the stack. -/
  | go (t k : Nat)
deriving DecidableEq, Repr

inductive Out where
  /-- it is not possible -/
  | no
  /-- A block is accessed after it has been freed, or while it is being destroyed. -/
  | undefined
  | ok (s : Sys)
deriving DecidableEq, Repr

/-- The `switch`: the elements are swapped with new null values on the stack, in order, until there is no memory.  (mongo_value.cpp:18-41, redis_value.cpp:17-29) -/
def unpack (s : Sys) (t : Nat) (fs : List Frame) (k : Nat) (this : Val) (stack : List Val) : Out :=
  match this with
  | .leaf => .ok { s with frames := s.frames.set t (.tail this stack :: fs) }
  | .ref a => match s.heap[a]? with
    | some (some c) =>
      if c.count = 0 then .undefined
      -- `if(sa.unique())`
      else if c.count = 1 then
        let n := min k c.elems.length
        .ok { s with heap := s.heap.set a (some { c with elems := List.replicate n .leaf ++ c.elems.drop n }), frames := s.frames.set t (.tail this (stack ++ c.elems.take n) :: fs) }
      else .ok { s with frames := s.frames.set t (.tail this stack :: fs) }
    | _ => .undefined

/-- Destroys a pointer, and goes on with `fs`. -/
def release (s : Sys) (t : Nat) (fs : List Frame) (this : Val) : Out :=
  match this with
  | .leaf => .ok { s with frames := s.frames.set t fs }
  | .ref a => match s.heap[a]? with
    | some (some c) =>
      if c.count = 0 then .undefined
      else if c.count = 1 then .ok { s with heap := s.heap.set a (some ⟨0, []⟩), frames := s.frames.set t (.drop a c.elems :: fs) }
      else .ok { s with heap := s.heap.set a (some { c with count := c.count - 1 }), frames := s.frames.set t fs }
    | _ => .undefined

/-- What is left to do when `m_stor` has been destroyed: the back of the stack is taken, or else the destructor ends, and `m_stor` is destroyed implicitly.  (mongo_value.cpp:43-50, redis_value.cpp:31-37) -/
def next (stack : List Val) : Frame :=
  match stack.getLast? with
  | some v => .loop v stack.dropLast
  | none => .fin

/-- One step of a thread that is in destructors: of a value, or of a pointer.  (mongo_value.cpp:16-51, redis_value.cpp:15-38; `cow_vector` and `cow_bivector` by their contracts) -/
def go (s : Sys) (t k : Nat) : Out :=
  match s.frames[t]? with
  | some (.loop this stack :: fs) => unpack s t fs k this stack
  | some (.tail this stack :: fs) => release s t (next stack :: fs) this
  | some (.fin :: fs) => .ok { s with frames := s.frames.set t fs }
  | some (.drop a (v :: vs) :: fs) => .ok { s with frames := s.frames.set t (.loop v [] :: .drop a vs :: fs) }
  | some (.drop a [] :: fs) => match s.heap[a]? with
    | some (some ⟨0, []⟩) => .ok { s with heap := s.heap.set a none, frames := s.frames.set t fs }
    | _ => .undefined
  | _ => .no

/-- One step of any thread.  That variables are destroyed and copied is up to the program.  (mongo_value.hpp and redis_value.hpp: the copy constructors) -/
def step (s : Sys) : Act → Out
  | .begin t i => match s.frames[t]?, s.roots[i]? with
    | some [], some v => .ok { s with roots := s.roots.eraseIdx i, frames := s.frames.set t [.loop v []] }
    | _, _ => .no
  | .copy i => match s.roots[i]? with
    | some .leaf => .ok { s with roots := .leaf :: s.roots }
    | some (.ref a) => match s.heap[a]? with
      | some (some c) => if c.count = 0 then .undefined else .ok { s with roots := .ref a :: s.roots, heap := s.heap.set a (some { c with count := c.count + 1 }) }
      | _ => .undefined
    | none => .no
  | .go t k => go s t k

def run (s : Sys) : List Act → Out
  | [] => .ok s
  | a :: as => match step s a with
    | .ok s' => run s' as
    | o => o

/-- What can be reached from a state. -/
inductive Reachable (s0 : Sys) : Sys → Prop
  | init : Reachable s0 s0
  | step {s s' : Sys} (a : Act) : Reachable s0 s → step s a = .ok s' → Reachable s0 s'

end Verif.ValueDrop
