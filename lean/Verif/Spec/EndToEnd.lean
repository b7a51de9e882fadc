import Verif.Spec.LinkLive
import Verif.Spec.EasyLive
import Verif.Spec.SocketReports
/-!
# An easy server or client at one end of a stream connection
-/
namespace Verif.TcpLink
open Verif.Live Verif.Socket

variable {M : Type} [DecidableEq M] {C : EasyNet.Class M} {ssl : Bool}

/-- Session `i` of an easy server or client uses the socket at the end `b` of a connection, which is closed for the reason `r`: whatever the socket has told is what has happened to the session, at some time. -/
def Uses (f : Exec (EasyNet.step (C := C))) (i : Nat) (e : Exec (linkStep ssl)) (r : Bytes) : Prop :=
  ∀ m, ∃ k, i < (f.st k).easy.count ∧ (f.st k).input i = reports r (e.st m).b.trace

/-- The connection has been abandoned or closed at one of its ends. -/
def Broken (w : World) : Prop := Aborted w.a.trace ∨ ShutFirst w.b.trace ∨ Ev.on_closed ∈ w.a.trace ∨ Ev.on_closed ∈ w.b.trace

end Verif.TcpLink
