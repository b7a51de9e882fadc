import Verif.Spec.HttpExchange
import Verif.Spec.WsServer
import Verif.Spec.EasyConnect
import Verif.Model.WsExchange
/-! # Specification vocabulary for both ends of a WebSocket connection -/
namespace Verif.Spec
open Verif.HttpLib

/-- The fields tell to switch to the WebSocket protocol (RFC 9110, 7.8, and RFC 6455, 4), and nothing about a payload. -/
structure Switches (fs : List (Bytes × Bytes)) : Prop where
  connection : Only fs (b! "Connection") (b! "Upgrade")
  upgrade : Only fs (b! "Upgrade") (b! "websocket")
  length : Absent fs (b! "Content-Length")
  coding : Absent fs (b! "Transfer-Encoding")
  proxy : Absent fs (b! "Proxy-Connection")

/-- The library reads every valid GET request to switch protocols that comes first; it may hand over the parts in any pieces, and stops nowhere before the last byte. -/
def ReadsSwitchRequests (limit : Nat) (L : Lib) : Prop :=
  ∀ (o : OriginForm) (fs : List (Bytes × Bytes)), o.Valid → o.fragment = none → GoodFields fs → Switches fs →
    ∀ head, head = b! "GET " ++ o.text ++ b! " HTTP/1.1\r\n" ++ fieldLines fs → head.length ≤ limit →
      ∃ (url : List Bytes) (fields : List (List Bytes × List Bytes)) (st' : L.σ), url.flatten = o.text ∧ flat fields = fs ∧ (∀ p ∈ fields, p.1 ≠ [] ∧ p.2 ≠ []) ∧
        Reads L L.init head (headCalls url fields) [] (b! "GET") true st' ∧ EndsWithHead L L.init head

/-- The library reads every valid response to such a request likewise. -/
def ReadsSwitchReplies (limit : Nat) (L : Lib) : Prop :=
  ∀ (reason : Bytes) (fs : List (Bytes × Bytes)), (∀ c ∈ reason, c = 9 ∨ 32 ≤ c.toNat ∧ c ≠ 127) → GoodFields fs → Switches fs →
    ∀ head, head = b! "HTTP/1.1 101 " ++ reason ++ b! "\r\n" ++ fieldLines fs → head.length ≤ limit →
      ∃ (rs : List Bytes) (fields : List (List Bytes × List Bytes)) (st' : L.σ), rs ≠ [] ∧ rs.flatten = reason ∧ flat fields = fs ∧ (∀ p ∈ fields, p.1 ≠ [] ∧ p.2 ≠ []) ∧
        (Client.Response.mk head 101 rs fields [] true).Reads L false false L.init st' ∧ EndsWithHead L L.init head

namespace WsExchange
open Verif.EasyConnect (Kind Plan)
open Verif.WsExchange (World)

/-- The values that are handed over are what they should be: keys and their answers have 24 and 28 characters, and all texts fit in a header. -/
structure Sane (w : World) (key : Bytes) : Prop where
  request : key.length = 24 ∧ key.headD 0 ≠ 0 ∧ FieldText key
  digest : (w.digest key).length = 28 ∧ (w.digest key).headD 0 ≠ 0 ∧ FieldText (w.digest key)
  date : FieldText w.date
  reason : ∀ c ∈ w.status_str 101, c = 9 ∨ 32 ≤ c.toNat ∧ c ≠ 127

/-- `p` are the parts of an address of a WebSocket server, which is not an IPv6 address in brackets, and in which `://` does not occur; `plan` is what a client makes of it. -/
structure Address (k : Kind) (p : RefParts) (plan : Plan) : Prop where
  kind : k = .ws ∨ k = .wss
  valid : p.Valid
  plain : p.bracketed = false
  scheme : ¬ Occurs (b! "://") (p.path.getD [] ++ b! "?" ++ p.query.getD [])
  connect : EasyConnect.connect k p.text = .ok plan

/-- The request that a client should send: a GET request for the path and the query of the address, to `host`, with the headers of the handshake (see C61). -/
def asked (host : Bytes) (p : RefParts) (key : Bytes) : HttpRequest.Headers :=
  { method := b! "GET", raw_host := host, raw_path := p.path.getD (b! "/"), raw_query := p.query.getD [], headers := (Ws.handshake_request key ++ [(b! "Host", host)]).map (fun f => (f.1, some f.2)) }

/-- A server that has the parser `s` has answered the request, and a client that has the parser `c` has received the answer: then they have the parsers `sp` and `cp`. -/
def Shaken (w : World) (key : Bytes) (request : HttpRequest.Headers) (s c sp cp : Ws.Parser) : Prop :=
  ∃ resp, Verif.WsExchange.answer w s request = some (sp, resp) ∧ resp.status = 101 ∧ Ws.accept_handshake_response w.values (w.digest key) c resp.headers = some cp

/-- What both ends know after a handshake: both have accepted it; they compress messages in both ways, with the largest windows and with context takeover, or not at all if `lv` is zero. -/
structure Met (lv : Nat) (sp cp : Ws.Parser) : Prop where
  server : sp.wshs = .s_accepted
  client : cp.wshs = .c_accepted
  send : sp.pmce_send_window_bits = (if lv = 0 then 0 else 15) ∧ cp.pmce_send_window_bits = (if lv = 0 then 0 else 15)
  receive : sp.pmce_receive_window_bits = (if lv = 0 then 0 else 15) ∧ cp.pmce_receive_window_bits = (if lv = 0 then 0 else 15)
  takeover : sp.pmce_send_no_context_takeover = false ∧ cp.pmce_send_no_context_takeover = false
  level : (sp.pmce_compression_level_m2 ≠ 0 ↔ lv ≠ 0) ∧ (cp.pmce_compression_level_m2 ≠ 0 ↔ lv ≠ 0)

end WsExchange
end Verif.Spec
