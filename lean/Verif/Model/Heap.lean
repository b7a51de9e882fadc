/-!
# Heaps of the C++ library

`std::push_heap()`, `std::pop_heap()` and `std::make_heap()` are not part of the repository.  What the standard says about them ([alg.heap.operations]) is stated here: when they may be called, and
which arrays may be the result.  Which one of these it is, is left open.  The comparators of timer_scheduler.cpp:21-38 and fiber_scheduler.cpp:122-140 compare two elements with `>`, so
that the first element of a heap has the least key.
-/
namespace Verif.Heap

/-- `std::is_heap()`: no element has a lesser key than the one at index `(i - 1) / 2`. -/
def isHeap (key : α → Int) (l : List α) : Bool :=
  (List.range l.length).all fun i => match l[(i - 1) / 2]?, l[i]? with
    | some x, some y => decide (key x ≤ key y)
    | _, _ => true

/-- `std::push_heap()` may be called: all elements but the last are a heap. -/
def mayPush (key : α → Int) (l : List α) : Bool := !l.isEmpty && isHeap key l.dropLast

/-- What `std::push_heap()` and `std::make_heap()` may make of an array. -/
def arranged [DecidableEq α] (key : α → Int) (l l' : List α) : Bool := l'.isPerm l && isHeap key l'

/-- `std::pop_heap()` may be called. -/
def mayPop (key : α → Int) (l : List α) : Bool := !l.isEmpty && isHeap key l

/-- What `std::pop_heap()` may make of an array: the first element has been moved to the end, and the others are a heap. -/
def popped [DecidableEq α] (key : α → Int) (l l' : List α) : Bool := l'.isPerm l && l'.getLast? == l.head? && isHeap key l'.dropLast

end Verif.Heap
