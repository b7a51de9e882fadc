import Verif.Spec.HttpExchange
/-! # Responses that end with the connection (RFC 9112, 6.3, rule 8) -/
namespace Verif.Spec
open Verif.HttpLib

/-- A response that tells nothing about the end of its payload, and that the connection will be closed. -/
structure WireReply.UntilClose (limit : Nat) (r : WireReply) : Prop where
  status : 100 ≤ r.status ∧ r.status ≤ 999 ∧ ¬ NoPayload r.status
  digits : DecNum r.digits r.status ∧ r.digits.length = 3
  reason : ∀ c ∈ r.reason, c = 9 ∨ 32 ≤ c.toNat ∧ c ≠ 127
  fields : GoodFields r.fields
  framed : Absent r.fields (b! "Content-Length") ∧ Absent r.fields (b! "Transfer-Encoding") ∧ r.text = r.body
  persists : Persists r.fields r.keep
  close : r.keep = false
  size : r.head.length ≤ limit

/-- The library reads every valid response, as for `ReadsReplies`; and also responses that end with the connection: all that follows their heads is their payload, and the end of the stream completes them. -/
def ReadsRepliesToEnd (limit : Nat) (L : Lib) : Prop :=
  ∃ idle : L.σ → Prop, idle L.init ∧ (∀ st, idle st → L.eof st = (st, .go)) ∧
    (∀ st empty (r : WireReply), idle st → r.Valid limit empty →
      ∃ (reason : List Bytes) (fields : List (List Bytes × List Bytes)) (body : List Bytes) (st' : L.σ), reason ≠ [] ∧ reason.flatten = r.reason ∧ flat fields = r.fields ∧ (∀ p ∈ fields, p.1 ≠ [] ∧ p.2 ≠ []) ∧ body.flatten = r.body ∧
        (Client.Response.mk (r.head ++ r.text) r.status reason fields body r.keep).Reads L empty false st st' ∧ L.eof st' = (st', .go) ∧ (r.keep = true → idle st')) ∧
    ∀ st (r : WireReply), idle st → r.UntilClose limit →
      ∃ (reason : List Bytes) (fields : List (List Bytes × List Bytes)) (body : List Bytes) (st' : L.σ), reason ≠ [] ∧ reason.flatten = r.reason ∧ flat fields = r.fields ∧ (∀ p ∈ fields, p.1 ≠ [] ∧ p.2 ≠ []) ∧ body.flatten = r.body ∧
        (Client.Response.mk (r.head ++ r.text) r.status reason fields body r.keep).Reads L false true st st' ∧ (L.eof st').2 = .go

/-- The status that a client is told when a server shuts a connection down with a number: 400, Bad Request, unless it is one of a final response. -/
def toldStatus (status : Int) : Nat := if 200 ≤ status ∧ status < 600 then status.toNat else 400

/-- The page for a status and a reason. -/
def pageText (digits reason : Bytes) : Bytes :=
  b! "<html><head><title>" ++ digits ++ b! " " ++ reason ++ b! "</title></head><body><h1>" ++ digits ++ b! " " ++ reason ++ b! "</h1></body></html>"

end Verif.Spec
