import Verif.Base.Bytes
/-!
# The interface of the `http-parser` library

The library (submodule `http-parser`, not in this checkout) is called through `http_parser_execute()` by
`poseidon/src/http/http_request_parser.cpp:285-295, 310-320` and `http_response_parser.cpp:151-161, 172-182`.  It reads
bytes one after another, invokes the functions in `s_settings`, and stops when one of them has set an error number.  The
state machine itself is a parameter of the model: any machine of this shape is allowed.
-/
namespace Verif.HttpLib

/-- The functions that receive pieces of text; `on_status` reads the status code too.  (http_request_parser.cpp:19-67, 165-186; http_response_parser.cpp:23-63, 74-86) -/
inductive Data
  | url (s : Bytes)
  | status (code : Nat) (s : Bytes)
  | field (s : Bytes)
  | value (s : Bytes)
  | body (s : Bytes)
deriving DecidableEq, Repr

/-- Error numbers; those which this code does not tell apart are `other`.  (http_request_parser.cpp:75-142, 230-247) -/
inductive Errno
  | ok | paused | invalidVersion | invalidMethod | invalidTransferEncoding | invalidUrl | invalidHost | invalidPath | other
deriving DecidableEq, Repr

/-- What follows the pieces of text for a byte: nothing, `on_headers_complete` with the method, the status code and the
result of `http_should_keep_alive()`, `on_message_complete`, or an error found by the library. -/
inductive End
  | go
  | headers (method : Bytes) (status : Nat) (keep : Bool)
  | done
  | bad (e : Errno)
deriving DecidableEq, Repr

/-- The library: `micro` reads one byte, `eof` is a call with no bytes.  When `on_headers_complete` pauses the parser, the
byte that completed the headers is not consumed; when `on_message_complete` does, it is.  `skip` sets the flag `F_SKIPBODY`, which tells that there is no payload
(http_response_parser.hpp:83-91). -/
structure Lib where
  σ : Type
  init : σ
  micro : σ → Byte → σ × List Data × End
  eof : σ → σ × End
  skip : σ → σ := id

end Verif.HttpLib
