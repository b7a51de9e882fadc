import Verif.Model.EasyNet
import Verif.Model.WsServer
import Verif.Model.WsClient
/-!
# Sessions of `Easy_WS_Server` and `Easy_WS_Client`

What the functions of `Final_Session` in easy/easy_ws_server.cpp and easy/easy_ws_client.cpp push.  easy_wss_server.cpp and easy_wss_client.cpp have the same code.
-/
namespace Verif.EasyWs
open Verif.Easy Verif.EasyNet
open Verif.HttpLib (Lib)

/-- The type of an event that is not a closure: `easy_ws_open`, `easy_ws_text`, `easy_ws_binary`, `easy_ws_pong`. -/
inductive WMsg where
  | open | text | binary | pong
deriving DecidableEq, Repr

/-- What `do_on_ws_message_finish()` pushes.  (easy_ws_server.cpp:163-181, easy_ws_client.cpp:181-199) -/
def message (op : Nat) (data : Bytes) : List (Event WMsg) :=
  if op = 1 then [{ ty := .other, data := data, msg := some .text }]
  else if op = 2 then [{ ty := .other, data := data, msg := some .binary }]
  else if op = 10 then [{ ty := .other, data := data, msg := some .pong }]
  else []

/-- What `do_on_ws_close()` pushes.  (easy_ws_server.cpp:183-196, easy_ws_client.cpp:201-215) -/
def closing (status : Nat) (reason : Bytes) : Event WMsg := { ty := .close, data := Http.decimal status ++ b! ": " ++ reason }

/-- What a call of a function of `Final_Session` pushes, where `addr` is what comes with the opening; other functions are not overridden.  (easy_ws_server.cpp:152-196, easy_ws_client.cpp:160-215) -/
def event (addr : Bytes) : Ws.Ev → List (Event WMsg)
  | .accepted => [{ ty := .other, data := addr, msg := some .open }]
  | .finish op data => message op data
  | .close status reason => [closing status reason]
  | _ => []

/-- What is pushed when the history of a session has been extended. -/
def events (addr : Bytes) (old new : List Ws.Ev) : List (Event WMsg) := (new.drop old.length).flatMap (event addr)

section
variable {Z : Type} {L : Lib}

/-- A session of a server: its state `w`, which is that after `acts`, from the state `base` on, and the HTTP session below, which was in the state `http` then.  That was the start of the session, or
the last exception. -/
structure SNode (Z : Type) (L : Lib) where
  base : WsServer.W Z
  http : HttpServer.Sess L := {}
  acts : List HttpServer.Act := []
  w : WsServer.W Z

/-- Data, or the end of the stream.  After an exception the HTTP parser is in some state: see `WsServer.Again`. -/
def SNode.read (g : WsServer.Cfg Z) (c : HttpRequest.Cfg) (resume : WsServer.W Z → HttpRequest.Parser × L.σ) (x : SNode Z L) (data : Bytes) (eof : Bool) : Option (SNode Z L × List (Event WMsg)) :=
  let x' : SNode Z L :=
    if x.w.threw then
      { x with base := { x.w with threw := false }, http := { p := (resume x.w).1, st := (resume x.w).2, ack := x.w.ws.upgraded }, acts := [.receive data eof] }
    else { x with acts := x.acts ++ [.receive data eof] }
  match x'.base.reads g c x'.http x'.acts with
  | none => none
  | some w => some ({ x' with w := w }, events (w.addresses.getLastD []) x.w.ws.trace w.ws.trace)

/-- `Final_Session` of `Easy_WS_Server`.  (easy_ws_server.cpp:107-197) -/
def server (g : WsServer.Cfg Z) (c : HttpRequest.Cfg) (L : Lib) (resume : WsServer.W Z → HttpRequest.Parser × L.σ) : Class WMsg where
  σ := SNode Z L
  init := { base := .start g, w := .start g }
  on := fun x i => match i with
    | .connected => some (x, [])
    | .read data => x.read g c resume data false
    | .eof => x.read g c resume [] true
    | .closed _ => some ({ x with w := x.w.closed g }, events (x.w.addresses.getLastD []) x.w.ws.trace (x.w.closed g).ws.trace)

/-- The same for a session of a client. -/
structure CNode (Z : Type) (L : Lib) where
  base : WsClient.W Z
  http : HttpClient.Sess L := {}
  acts : List HttpClient.Act := []
  w : WsClient.W Z

/-- Data, or the end of the stream.  After an exception the HTTP parser is in some state: see `WsClient.Again`. -/
def CNode.read (g : WsClient.Cfg Z) (c : HttpRequest.Cfg) (addr : Bytes) (resume : WsClient.W Z → HttpResponse.Parser × L.σ) (x : CNode Z L) (data : Bytes) (eof : Bool) :
    Option (CNode Z L × List (Event WMsg)) :=
  let x' : CNode Z L :=
    if x.w.threw then
      { x with base := { x.w with threw := false }, http := { p := (resume x.w).1, st := (resume x.w).2, ack := x.w.ws.upgraded }, acts := [⟨data, eof⟩] }
    else { x with acts := x.acts ++ [⟨data, eof⟩] }
  match x'.base.reads g c x'.http x'.acts with
  | none => none
  | some w => some ({ x' with w := w }, events addr x.w.ws.trace w.ws.trace)

/-- `Final_Session` of `Easy_WS_Client`, where `uri` has host and port, path, query and fragment.  (easy_ws_client.cpp:109-217) -/
def client (g : WsClient.Cfg Z) (c : HttpRequest.Cfg) (L : Lib) (uri : Bytes × Bytes × Bytes × Bytes) (resume : WsClient.W Z → HttpResponse.Parser × L.σ) : Class WMsg where
  σ := CNode Z L
  init := { base := .start g, w := .start g }
  on := fun x i => match i with
    | .connected => some (x, [])
    | .read data => x.read g c addr resume data false
    | .eof => x.read g c addr resume [] true
    | .closed _ => some ({ x with w := x.w.closed g }, events addr x.w.ws.trace (x.w.closed g).ws.trace)
where
  addr : Bytes := uri.1 ++ uri.2.1 ++ [chr '?'] ++ uri.2.2.1 ++ [chr '#'] ++ uri.2.2.2

end

end Verif.EasyWs
