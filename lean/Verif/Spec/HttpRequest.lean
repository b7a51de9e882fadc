import Verif.Spec.Http
import Verif.Model.HttpLib
/-! # Specification vocabulary for HTTP requests -/
namespace Verif.Spec
open Verif.HttpLib

/-! ### Pieces of a message head -/

/-- The callbacks for a request head whose URL, names and values come in the given pieces. -/
def headCalls (url : List Bytes) (hs : List (List Bytes × List Bytes)) : List Data :=
  url.map .url ++ hs.flatMap (fun h => h.1.map .field ++ h.2.map .value)

/-- The size of a request head: the URL, and the name and value of each header with `": "` and a line break. -/
def headSize (url : List Bytes) (hs : List (List Bytes × List Bytes)) : Nat :=
  url.flatten.length + (hs.map (fun h => 4 + h.1.flatten.length + h.2.flatten.length)).sum

/-- `Regroup a b`: the callbacks `b` carry the same text as the callbacks `a`, cut into pieces in another way. -/
inductive Regroup : List Data → List Data → Prop
  | refl (a) : Regroup a a
  | symm {a b} : Regroup a b → Regroup b a
  | trans {a b c} : Regroup a b → Regroup b c → Regroup a c
  | url (pre s t post) : Regroup (pre ++ [.url s, .url t] ++ post) (pre ++ [.url (s ++ t)] ++ post)
  | status (pre n s t post) : Regroup (pre ++ [.status n s, .status n t] ++ post) (pre ++ [.status n (s ++ t)] ++ post)
  | field (pre s t post) : Regroup (pre ++ [.field s, .field t] ++ post) (pre ++ [.field (s ++ t)] ++ post)
  | value (pre s t post) : Regroup (pre ++ [.value s, .value t] ++ post) (pre ++ [.value (s ++ t)] ++ post)
  | body (pre s t post) : Regroup (pre ++ [.body s, .body t] ++ post) (pre ++ [.body (s ++ t)] ++ post)

/-! ### Request targets -/

/-- The first form of a request target: a path with an optional query.  (The fragment is not allowed there by RFC 9112, but
it is accepted.) -/
structure OriginForm where
  path : Bytes
  query : Option Bytes
  fragment : Option Bytes

def OriginForm.text (o : OriginForm) : Bytes := o.path ++ optText (b! "?") o.query ++ optText (b! "#") o.fragment

structure OriginForm.Valid (o : OriginForm) : Prop where
  path_start : ∃ t, o.path = b! "/" ++ t
  path_chars : ∀ c ∈ o.path, c ∈ pathChars
  query_chars : ∀ t, o.query = some t → ∀ c ∈ t, c ∈ queryChars
  fragment_chars : ∀ t, o.fragment = some t → ∀ c ∈ t, c ∈ fragmentChars

/-- RFC 3986: unreserved, sub-delims, `%` and `:`. -/
def userinfoChars : Bytes := alnumChars ++ b! "-._~!$&'()*+,;=%:"

/-- The second form: an absolute URI. -/
structure AbsoluteForm where
  https : Bool
  userinfo : Option Bytes
  ref : RefParts

/-- The userinfo with its delimiter. -/
def AbsoluteForm.user (a : AbsoluteForm) : Bytes :=
  match a.userinfo with
  | none => []
  | some u => u ++ b! "@"

/-- `a.Text s`: `s` is a text of the URI `a`; the scheme may be in any case. -/
def AbsoluteForm.Text (a : AbsoluteForm) (s : Bytes) : Prop :=
  ∃ scheme, SameButCase scheme (if a.https then b! "https://" else b! "http://") ∧
    s = scheme ++ a.user ++ a.ref.text

structure AbsoluteForm.Valid (a : AbsoluteForm) : Prop where
  userinfo_chars : ∀ u, a.userinfo = some u → ∀ c ∈ u, c ∈ userinfoChars
  ref_valid : a.ref.Valid

/-- There is exactly one header which is called `Host`, and this is its value. -/
def OneHost (hs : List (Bytes × Option Bytes)) (host : Bytes) : Prop :=
  ∃ a b n v, hs = a ++ (n, v) :: b ∧ v.getD [] = host ∧ SameButCase n (b! "Host") ∧ ∀ hr ∈ a ++ b, ¬ SameButCase hr.1 (b! "Host")

/-- `s` occurs in `t`. -/
def Occurs (s t : Bytes) : Prop := ∃ a b, t = a ++ s ++ b

end Verif.Spec
