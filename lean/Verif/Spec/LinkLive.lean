import Verif.Spec.SocketLive
import Verif.Model.TcpLink
/-!
# Executions of the two ends of a stream connection
-/
namespace Verif.TcpLink
open Verif.Live Verif.Socket

def linkStep (ssl : Bool) (w : World) (x : Bool × Act) : Option World := step ssl w x.1 x.2

/-- One of the ends. -/
def endOf : Bool → World → Sys
  | false, w => w.a
  | true, w => w.b

theorem stepA_end {ssl w x w'} (h : stepA ssl w x = some w') : Socket.step ssl w.a x = some w'.a ∧ w'.b = w.b := by
  unfold stepA at h
  split at h
  · cases h
  · rename_i s hs
    split at h
    · cases h
    · cases h; exact ⟨hs, rfl⟩

theorem step_end {ssl w c x w'} (h : step ssl w c x = some w') (b : Bool) : if c = b then Socket.step ssl (endOf b w) x = some (endOf b w') else endOf b w' = endOf b w := by
  unfold step at h
  cases c with
  | false =>
    have := stepA_end h
    cases b with
    | false => exact this.1
    | true => exact this.2
  | true =>
    obtain ⟨v, hv, rfl⟩ := Option.map_eq_some_iff.1 h
    have := stepA_end hv
    cases b with
    | false => exact this.2
    | true => exact this.1

/-- What happens at one of the ends. -/
def side {ssl : Bool} (e : Exec (linkStep ssl)) (b : Bool) : Exec (Socket.step ssl) where
  st n := endOf b (e.st n)
  act n := match e.act n with
    | some (c, x) => if c = b then some x else none
    | none => none
  ok n := by
    have h := e.ok n
    cases ha : e.act n with
    | none => rw [ha] at h; dsimp only at h ⊢; rw [h]
    | some y =>
      obtain ⟨c, x⟩ := y
      rw [ha] at h
      have h := step_end h b
      dsimp only
      by_cases hc : c = b
      · rw [if_pos hc] at h ⊢; exact h
      · rw [if_neg hc] at h ⊢; exact h

/-- There is something for `b` to read: bytes, or the end of the stream. -/
def Avail (w : World) : Prop := w.ab ≠ [] ∨ (down w.a.trace = true ∧ ∀ d, Ev.stream d true ∉ w.b.trace)

/-- The network thread of `b` is about to read. -/
def AtRead (w : World) : Prop := ∃ r, w.b.stk 0 = .rd_loop :: r

/-- The system owes a report that the socket is readable: it has had no data for `recv()`, or it has been told about the socket, and since then it has neither delivered anything, nor made this report.
(Events are edge-triggered: a socket that is readable is not reported again just because nobody has read from it.) -/
def InOwed {ssl : Bool} (e : Exec (Socket.step ssl)) : Nat → Prop
  | 0 => True
  | n + 1 => match e.act n with
    | some (.poll fl) => fl.in_ = false ∧ InOwed e n
    | some (.run t o) => ((∃ r, (e.st n).stk t = .rd_loop :: r) ∧ o = .block) ∨ ((¬ ∃ r, (e.st n).stk t = .rd_loop :: r) ∧ InOwed e n)
    | _ => InOwed e n

/-- An execution in which `a` can send and `b` can receive.  `b` is not throttled for ever; if there is something to read, then it is reported by `epoll_wait()`, if such a report is owed; and if the
network thread of `b` reads again and again when there is something to read, then it gets something. -/
structure Delivers {ssl : Bool} (e : Exec (linkStep ssl)) : Prop where
  start : Reachable ssl (e.st 0)
  sender : Writeable (side e false)
  receiver : Live (side e true)
  opens : ∀ n, ∃ m, n ≤ m ∧ (e.st m).b.write_only = false
  polls : ∀ n, InOwed (side e true) n → (∀ m, n ≤ m → (e.st m).b.registered = true ∧ down (e.st m).b.trace = false ∧ Avail (e.st m)) → (∀ m, n ≤ m → ∃ k, m ≤ k ∧ (e.st k).b.write_only = false) →
    ∃ m fl, n ≤ m ∧ e.act m = some (true, .poll fl) ∧ fl.in_ = true
  reads : ∀ n, (∀ m, n ≤ m → ∃ k, m ≤ k ∧ Avail (e.st k) ∧ AtRead (e.st k)) →
    ∃ m, n ≤ m ∧ Avail (e.st m) ∧ AtRead (e.st m) ∧ ((∃ d, e.act m = some (true, .run 0 (.data d))) ∨ e.act m = some (true, .run 0 .eof))

end Verif.TcpLink
