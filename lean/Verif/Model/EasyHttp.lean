import Verif.Model.EasyNet
import Verif.Model.HttpServer
import Verif.Model.HttpClient
/-!
# Sessions of `Easy_HTTP_Server` and `Easy_HTTP_Client`

What the functions of `Final_Session` in easy/easy_http_server.cpp and easy/easy_http_client.cpp push.  easy_https_server.cpp and easy_https_client.cpp have the same code.
-/
namespace Verif.EasyHttp
open Verif.Easy Verif.EasyNet
open Verif.HttpLib (Lib)

/-- What comes with an event of a server: `easy_http_open`, `easy_http_message`, or a bad request. -/
inductive SMsg where
  | open
  | request (h : HttpRequest.Headers) (payload : Bytes) (eot : Bool)
  | bad (head : Bool) (status : Nat)
deriving DecidableEq, Repr

/-- What a call of a function of `Final_Session` pushes; other functions are not overridden.  The type of the event for a bad request is not initialized; here it is any function of
what has happened before.  (easy_http_server.cpp:179-202) -/
def serverEvent (junk : List HttpServer.Ev → Ty) (past : List HttpServer.Ev) : HttpServer.Ev → List (Event SMsg)
  | .finish h b e => [{ ty := .other, msg := some (.request h b e) }]
  | .error head status => [{ ty := junk past, error := true, msg := some (.bad head status) }]
  | .reject head status => [{ ty := junk past, error := true, msg := some (.bad head status) }]
  | _ => []

def serverEvents (junk : List HttpServer.Ev → Ty) (past : List HttpServer.Ev) : List HttpServer.Ev → List (Event SMsg)
  | [] => []
  | e :: t => serverEvent junk past e ++ serverEvents junk (past ++ [e]) t

/-- Data, or the end of the stream, for a session of a server. -/
def serverRead {L : Lib} (c : HttpRequest.Cfg) (junk : List HttpServer.Ev → Ty) (s : HttpServer.Sess L) (data : Bytes) (eof : Bool) : Option (HttpServer.Sess L × List (Event SMsg)) :=
  match HttpServer.step HttpServer.defaultApp c s [] (.receive data eof) with
  | none => none
  | some (s', _) => some (s', serverEvents junk s.trace (s'.trace.drop s.trace.length))

/-- `Final_Session` of `Easy_HTTP_Server`.  Simplified: the callback sends no response with status 101, and after an exception nothing but the closure of the socket is noted: see
`Model/HttpAgain.lean`.  (easy_http_server.cpp:169-217) -/
def server (c : HttpRequest.Cfg) (L : Lib) (junk : List HttpServer.Ev → Ty) : Class SMsg where
  σ := HttpServer.Sess L
  init := {}
  on := fun s i => match i with
    | .connected => some (s, [{ ty := .other, msg := some .open }])
    | .read data => serverRead c junk s data false
    | .eof => serverRead c junk s [] true
    | .closed reason => some (s, [{ ty := .close, data := reason }])

/-- What comes with an event of a client: `easy_http_open` or `easy_http_message`. -/
inductive CMsg where
  | open
  | response (h : HttpResponse.Headers) (payload : Bytes)
deriving DecidableEq, Repr

/-- What a call of a function of `Final_Session` pushes; other functions are not overridden.  (easy_http_client.cpp:166-175) -/
def clientEvent : HttpClient.Ev → List (Event CMsg)
  | .finish h b => [{ ty := .other, msg := some (.response h b) }]
  | _ => []

/-- Data, or the end of the stream, for a session of a client. -/
def clientRead {L : Lib} (c : HttpRequest.Cfg) (s : HttpClient.Sess L) (data : Bytes) (eof : Bool) : Option (HttpClient.Sess L × List (Event CMsg)) :=
  match HttpClient.step HttpClient.defaultApp c s [] ⟨data, eof⟩ with
  | none => none
  | some (s', _) => some (s', (s'.trace.drop s.trace.length).flatMap clientEvent)

/-- `Final_Session` of `Easy_HTTP_Client`.  Simplified: after an exception nothing but the closure of the socket is noted: see `Model/HttpAgain.lean`.  (easy_http_client.cpp:156-191) -/
def client (c : HttpRequest.Cfg) (L : Lib) : Class CMsg where
  σ := HttpClient.Sess L
  init := {}
  on := fun s i => match i with
    | .connected => some (s, [{ ty := .other, msg := some .open }])
    | .read data => clientRead c s data false
    | .eof => clientRead c s [] true
    | .closed reason => some (s, [{ ty := .close, data := reason }])

end Verif.EasyHttp
