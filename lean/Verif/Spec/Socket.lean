import Verif.Model.Socket
/-!
# What is expected of a stream socket, in terms of its history (latest event first)
-/
namespace Verif.Socket

/-- All bytes that the kernel took. -/
def kernelBytes : List Ev → Bytes
  | [] => []
  | .kernel d :: t => kernelBytes t ++ d
  | _ :: t => kernelBytes t

/-- All data for which `tcp_send()` returned `true`. -/
def acceptedBytes : List Ev → Bytes
  | [] => []
  | .sent _ d :: t => acceptedBytes t ++ d
  | _ :: t => acceptedBytes t

/-- The connection has been abandoned: by an I/O error, the end of the peer's stream, an exception from a callback, or a call of
`quick_shut_down()`. -/
def Aborted (tr : List Ev) : Prop := Ev.write_error ∈ tr ∨ Ev.shutdown false ∈ tr

/-- Bytes received that the stream callback has not removed from its buffer. -/
def unread : List Ev → Bytes
  | [] => []
  | .received d :: t => unread t ++ d
  | .consume k :: t => (unread t).drop k
  | _ :: t => unread t

/-- All bytes that the kernel delivered. -/
def receivedBytes : List Ev → Bytes
  | [] => []
  | .received d :: t => receivedBytes t ++ d
  | _ :: t => receivedBytes t

/-- All bytes that the stream callback has been called with. -/
def shownBytes : List Ev → Bytes
  | [] => []
  | .stream d _ :: t => shownBytes t ++ d
  | _ :: t => shownBytes t

/-- A callback by which the network thread reports to the socket. -/
def Ev.isCallback : Ev → Bool
  | .on_writeable | .on_readable | .on_closed | .connected | .stream .. => true
  | _ => false

/-- The latest subscription: whether it was for writability only. -/
def lastSub : List Ev → Option Bool
  | [] => none
  | .subscribed wo _ _ :: _ => some wo
  | _ :: t => lastSub t

end Verif.Socket
