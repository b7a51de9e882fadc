import Verif.Spec.Live
import Verif.Spec.Socket
/-!
# Executions of a stream socket
-/
namespace Verif.Socket
open Verif.Live

/-- Thread `t` does something that can be done any number of times before what it is doing ends: a callback calls a function or consumes data; data have arrived, once more, while data are being
read; or the kernel takes no byte. -/
def Again (t : Nat) : Act → Prop
  | .call u _ => u = t
  | .run u (.consume _) => u = t
  | .run u (.data _) => u = t
  | .run u (.io 0) => u = t
  | _ => False

/-- An execution in which all threads are scheduled fairly, the mutex is fair, and events that have been reported by `epoll_wait()` are taken out of the buffer.  Callbacks do not go on calling functions for ever, and data are read faster than they arrive, at times. -/
structure Live {ssl : Bool} (e : Exec (step ssl)) : Prop where
  start : Reachable ssl (e.st 0)
  goes : ∀ t, e.Fair fun a => ∃ o, a = .run t o
  takes : e.Fair fun a => ∃ n, a = .take n
  calm : ∀ t n, (∀ m, n ≤ m → (e.st m).stk t ≠ []) → ∃ m, n ≤ m ∧ ∀ k, m ≤ k → ¬ e.Taken (Again t) k

/-- The network thread is about to give queued data to the kernel. -/
def Sends (s : Sys) : Prop := s.wq ≠ [] ∧ ∃ r, s.stk 0 = .wr_loop :: r

/-- Thread `t` is about to give data to the kernel. -/
def Offers (s : Sys) (t : Nat) : Prop := (∃ id d w r, s.stk t = .send_loop id d w :: r ∧ w ≠ []) ∨ (s.wq ≠ [] ∧ ∃ r, s.stk t = .wr_loop :: r)

/-- The system owes a report that the socket is writeable: it has refused data, or it has been told about the socket, and since then neither has it taken data, nor has it made this report.  (Events are
edge-triggered: a socket that is writeable is not reported again just because nobody has written to it.) -/
def OutOwed {ssl : Bool} (e : Exec (step ssl)) : Nat → Prop
  | 0 => True
  | n + 1 => match e.act n with
    | some (.poll fl) => fl.out = false ∧ OutOwed e n
    | some (.run t o) => (Offers (e.st n) t ∧ o = .block) ∨ (¬ Offers (e.st n) t ∧ OutOwed e n)
    | _ => OutOwed e n

/-- An execution in which, in addition, the kernel can take data eventually: as long as data have been accepted and have not been given to the kernel, `epoll_wait()` reports the socket as writeable (or
an error) if such a report is owed, and, if it is asked again and again, the kernel takes some bytes. -/
structure Writeable {ssl : Bool} (e : Exec (step ssl)) : Prop extends Live e where
  polls : ∀ n, OutOwed e n →
    (∀ m, n ≤ m → (e.st m).registered = true ∧ (∀ g, Ev.shutdown g ∉ (e.st m).trace) ∧ (kernelBytes (e.st m).trace).length < (acceptedBytes (e.st m).trace).length) →
    ∃ m fl, n ≤ m ∧ e.act m = some (.poll fl) ∧ fl.out = true
  room : ∀ n, (∀ m, n ≤ m → ∃ k, m ≤ k ∧ Sends (e.st k)) → ∃ m k, n ≤ m ∧ Sends (e.st m) ∧ e.act m = some (.run 0 (.io (k + 1)))

/-- `es` contains the callbacks for all events. -/
def Handled (fl : Flags) (es : List Ev) : Prop :=
  if fl.err then .on_closed ∈ es else (fl.out = true → .on_writeable ∈ es) ∧ (fl.in_ = true → .on_readable ∈ es) ∧ (fl.hup = true → .on_closed ∈ es)

end Verif.Socket
