import Verif.Model.Futures
namespace Verif.Futures

/-- The position of the first occurrence. -/
def firstAt {α : Type} [DecidableEq α] (a : α) (l : List α) : Nat := l.findIdx (fun x => x = a)

/-- What a file system may return for a file with content `file`, when `pos` bytes have been read: between one byte and as many as have been asked for, but not more than there
are, from where the previous call has stopped; no error occurs; and there are enough of them. -/
inductive Honest (file : Bytes) (limit : Nat) (offset : Nat) : Nat → Reads → Prop
  | done (pos : Nat) (rs : Reads) : offset + pos = file.length ∨ pos = limit → Honest file limit offset pos rs
  | more (pos k : Nat) (rs : Reads) : 0 < k → pos + k ≤ limit → k ≤ 2147483647 → offset + pos + k ≤ file.length → Honest file limit offset (pos + k) rs →
      Honest file limit offset pos (some ((file.drop (offset + pos)).take k) :: rs)

end Verif.Futures
