import Verif.Spec.Socket
import Verif.Spec.EasyNet
/-!
# What a stream socket tells its user

Histories list the latest event first; what the user is told is listed in the order of time.
-/
namespace Verif.Socket
open Verif.EasyNet (In)

/-- What the user of a socket is told by an event: `do_on_tcp_connected()`, `do_on_tcp_stream(data, eof)`, and the callback for the closure, for the reason `r`. -/
def told (r : Bytes) : Ev → Option In
  | .connected => some .connected
  | .stream d false => some (.read d)
  | .stream _ true => some .eof
  | .on_closed => some (.closed r)
  | _ => none

/-- All that the user has been told, in the order of time. -/
def reports (r : Bytes) (tr : List Ev) : List In := tr.reverse.filterMap (told r)

/-- The system reports that a connection can be read only after it has reported that it can be written to: a connection that has just been opened has room for output. -/
def WriteableFirst (tr : List Ev) : Prop := ∀ a b, tr = a ++ .on_readable :: b → Ev.on_writeable ∈ b

/-- Nobody shuts the socket down before its user has been told that it is open, or that it is closed. -/
def ShutLater (tr : List Ev) : Prop := ∀ a e b, tr = a ++ e :: b → e = .shut true ∨ (∃ g, e = .shutdown g) → Ev.connected ∈ b ∨ Ev.on_closed ∈ b

/-- The socket has been shut down before its user has been told about the end of the stream.  (After that, `recv()` reports an end which is not that of the stream.) -/
def ShutFirst (tr : List Ev) : Prop := ∃ x g y, tr = x ++ .shutdown g :: y ∧ ∀ d, Ev.stream d true ∉ y

/-- The data of a stream: pieces that are not empty, and ends. -/
def isData : In → Prop
  | .read d => d ≠ []
  | .eof => True
  | _ => False

end Verif.Socket
