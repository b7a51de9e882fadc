import Verif.Model.EasyNet
/-!
# Sessions of `Easy_TCP_Server` and `Easy_TCP_Client`

easy_ssl_server.cpp and easy_ssl_client.cpp have the same code.
-/
namespace Verif.EasyStream
open Verif.Easy Verif.EasyNet

/-- What `Final_Socket` pushes.  What comes with data tells whether the stream has ended.  The error number that comes with the closure is not modelled; its text is.  (easy_tcp_server.cpp:163-200, easy_tcp_client.cpp:161-198) -/
def event : In → Event Bool
  | .connected => { ty := .other }
  | .read d => { ty := .data, data := d, msg := some false }
  | .eof => { ty := .data, msg := some true }
  | .closed r => { ty := .close, data := r }

/-- `Final_Socket` has no state of its own.  (easy_tcp_server.cpp:121-201, easy_tcp_client.cpp:119-199) -/
def tcp : Class Bool where
  σ := Unit
  init := ()
  on := fun _ i => some ((), [event i])

end Verif.EasyStream
