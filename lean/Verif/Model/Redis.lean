import Verif.Model.Http
/-!
# Redis values

Models `Redis_Connection::fetch_reply()` (redis_connection.cpp:151-229), `Redis_Value::print_to()` (redis_value.cpp:43-115) and `Redis_Scan_and_Get_Future`
(redis_scan_and_get_future.cpp:31-105).

Simplifications: pointers to values that are being built are replaced with values that are put into place when they are complete; `c_quote()` and the formatting of integers, which
are in another library, are parameters.
-/
namespace Verif.Redis

/-- `Redis_Value`.  (redis_value.hpp:17-23) -/
inductive Value where
  | nil
  | integer (n : Int)
  | string (s : Bytes)
  | array (vs : List Value)

/-- `redisReply`, where `other` is one of the types of RESP3: double, boolean, map, set and so on. -/
inductive Reply where
  | nil
  | integer (n : Int)
  | string (s : Bytes)
  | array (rs : List Reply)
  | status (s : Bytes)
  | error (s : Bytes)
  | other

/-- `xFrame`.  The last element of `*psa`, which is being built, is not in `psa`.  (redis_connection.cpp:162-168) -/
structure Frame where
  psa : List Value
  parent : List Reply

inductive St where
  /-- at `do_pack_loop_` -/
  | pack (reply : Reply) (stack : List Frame)
  /-- at `while`; `*pval` is complete -/
  | ret (val : Value) (stack : List Frame)
  | done (val : Value)
  | ub

/-- (redis_connection.cpp:180-227) -/
def step : St → St
  | .pack .nil st => .ret .nil st
  | .pack (.integer n) st => .ret (.integer n) st
  | .pack (.string s) st => .ret (.string s) st
  | .pack (.array rs) st =>
    match rs with
    | [] => .ret (.array []) st
    | r :: rs => .pack r ({ psa := [], parent := r :: rs } :: st)
  | .pack (.status _) st => .ret .nil st
  | .pack (.error _) st => .ret .nil st
  | .pack .other st => .ret .nil st
  | .ret v [] => .done v
  | .ret v (f :: st) =>
    let psa := f.psa ++ [v]
    if psa.length ≠ f.parent.length then
      match f.parent[psa.length]? with
      | some r => .pack r ({ f with psa := psa } :: st)
      | none => .ub
    else .ret (.array psa) st
  | .done v => .done v
  | .ub => .ub

def iter : Nat → St → St
  | 0, s => s
  | n + 1, s => iter n (step s)

mutual
/-- The number of nodes, which bounds the number of iterations. -/
def Reply.nodes : Reply → Nat
  | .array rs => 1 + nodesList rs
  | _ => 1
def nodesList : List Reply → Nat
  | [] => 0
  | r :: rs => r.nodes + nodesList rs
end

/-- `fetch_reply()`, given `m_reply`: the return value, `status` and `value`.  `none` means that it does not return, or has undefined behavior.
(redis_connection.cpp:151-229) -/
def fetchReply : Option Reply → Option (Bool × Bytes × Value)
  | none => some (false, [], .nil)
  | some (.status s) => some (true, s, .nil)
  | some r =>
    match iter (2 * r.nodes + 1) (.pack r []) with
    | .done v => some (true, [], v)
    | _ => none

/-! ## Printing -/

/-- `xFrame`: the elements from `ita` on.  (redis_value.cpp:48-52) -/
abbrev PFrame := List Value

inductive PSt where
  /-- at `do_unpack_loop_` -/
  | print (val : Value) (stack : List PFrame) (fmt : Bytes)
  /-- at `while` -/
  | ret (stack : List PFrame) (fmt : Bytes)
  | done (fmt : Bytes)
  | ub

/-- (redis_value.cpp:57-112) -/
def pstep (quote : Bytes → Bytes) (num : Int → Bytes) : PSt → PSt
  | .print .nil st fmt => .ret st (fmt ++ b! "nil")
  | .print (.integer n) st fmt => .ret st (fmt ++ num n)
  | .print (.string s) st fmt => .ret st (fmt ++ [chr '"'] ++ quote s ++ [chr '"'])
  | .print (.array vs) st fmt =>
    match vs with
    | [] => .ret st (fmt ++ b! "[]")
    | v :: vs => .print v ((v :: vs) :: st) (fmt ++ [chr '['])
  | .ret [] fmt => .done fmt
  | .ret ([] :: _) _ => .ub
  | .ret ((_ :: vs) :: st) fmt =>
    match vs with
    | [] => .ret st (fmt ++ [chr ']'])
    | v :: vs => .print v ((v :: vs) :: st) (fmt ++ [chr ','])
  | .done fmt => .done fmt
  | .ub => .ub

def piter (quote : Bytes → Bytes) (num : Int → Bytes) : Nat → PSt → PSt
  | 0, s => s
  | n + 1, s => piter quote num n (pstep quote num s)

mutual
def Value.nodes : Value → Nat
  | .array vs => 1 + vnodesList vs
  | _ => 1
def vnodesList : List Value → Nat
  | [] => 0
  | v :: vs => v.nodes + vnodesList vs
end

/-- `print_to()`, given what `fmt` contains.  (redis_value.cpp:43-115) -/
def printTo (quote : Bytes → Bytes) (num : Int → Bytes) (v : Value) (fmt : Bytes) : Option Bytes :=
  match piter quote num (2 * v.nodes + 1) (.print v [] fmt) with
  | .done fmt => some fmt
  | _ => none

/-! ## Scan and get -/

/-- `open_array()` (redis_value.hpp:186-194) -/
def Value.openArray : Value → List Value
  | .array vs => vs
  | _ => []

/-- `open_string()` (redis_value.hpp:162-170) -/
def Value.openString : Value → Bytes
  | .string s => s
  | _ => []

/-- The buckets of a hash map. -/
abbrev Table := List (Option (Bytes × Bytes))

inductive Outcome where
  | threw
  /-- The list of replies has been used up: the server does not answer. -/
  | waiting
  /-- The commands that have been sent, and `m_res`. -/
  | ok (cmds : List (List Bytes)) (res : Table)

/-- What a scan ends with: an exception, the end of the list of replies, or commands, keys and remaining replies. -/
inductive Scan where
  | threw
  | waiting
  | keys (cmds : List (List Bytes)) (ks : List Bytes) (rest : List (Option Value))

/-- From `do_scan_more_`.  A reply is `none` if the server replies with an error, or if the connection fails.  `cmds` and `ks` are what has been sent and received before, `ks` in
the order of `try_emplace()`.  (redis_scan_and_get_future.cpp:41-65) -/
def scan (pattern : Bytes) : List (Option Value) → Bytes → List (List Bytes) → List Bytes → Scan
  | [], _, _, _ => .waiting
  | none :: _, _, _, _ => .threw
  | some v :: rest, cursor, cmds, ks =>
    let cmds := cmds ++ [[b! "SCAN", cursor, b! "MATCH", pattern]]
    match v.openArray with
    | cur :: page :: _ =>
      let ks := ks ++ page.openArray.map Value.openString
      if cur.openString ≠ b! "0" then scan pattern rest cur.openString cmds ks
      else .keys cmds ks rest
    | _ => .threw

def nextIn : Table → Nat → Option (Nat × Bytes)
  | [], _ => none
  | some (k, _) :: _, p => some (p, k)
  | none :: t, p => nextIn t (p + 1)

/-- The first occupied bucket at or after a position. -/
def next (t : Table) (p : Nat) : Option (Nat × Bytes) := nextIn (t.drop p) p

/-- The last loop; `er` is what erasing an element does to the buckets, after which the iteration goes on from the same bucket.
(redis_scan_and_get_future.cpp:87-100) -/
def assign (er : Table → Nat → Table) : List Value → Table → Nat → Table
  | [], t, _ => t
  | v :: vs, t, p =>
    match next t p with
    | none => t
    | some (q, k) =>
      match v with
      | .string s => assign er vs (t.set q (some (k, s))) (q + 1)
      | _ => assign er vs (er t q) q

/-- The keys of a map in the order of iteration. -/
def keys (t : Table) : List Bytes := (t.filterMap id).map Prod.fst

/-- `do_on_abstract_future_initialize()`.  `build` makes a map of keys, all values being empty.  (redis_scan_and_get_future.cpp:31-105) -/
def scanAndGet (er : Table → Nat → Table) (build : List Bytes → Table) (pattern : Bytes) (replies : List (Option Value)) : Outcome :=
  match scan pattern replies (b! "0") [] [] with
  | .threw => .threw
  | .waiting => .waiting
  | .keys cmds ks rest =>
    let t := build ks
    if keys t = [] then .ok cmds t
    else match rest with
      | [] => .waiting
      | none :: _ => .threw
      | some v :: _ => .ok (cmds ++ [b! "MGET" :: keys t]) (assign er v.openArray t 0)

/-- Erasing an element without moving any other one. -/
def eraseStable (t : Table) (q : Nat) : Table := t.set q none

/-- Puts an element into the first vacant bucket at or after its own one. -/
def probeInsert (home : Bytes → Nat) (t : Table) (e : Bytes × Bytes) : Nat → Nat → Table
  | 0, _ => t
  | n + 1, i => if t[(home e.1 + i) % t.length]? = some none then t.set ((home e.1 + i) % t.length) (some e) else probeInsert home t e n (i + 1)

/-- Takes out and reinserts all elements from a bucket on, up to the first vacant one. -/
def relocate (home : Bytes → Nat) : Nat → Table → Nat → Table
  | 0, t, _ => t
  | n + 1, t, q =>
    match t[q % t.length]? with
    | some (some e) => relocate home n (probeInsert home (t.set (q % t.length) none) e t.length 0) (q + 1)
    | _ => t

/-- Erasing an element from a table with linear probing. -/
def eraseProbing (home : Bytes → Nat) (t : Table) (q : Nat) : Table := relocate home (t.length - 1) (t.set q none) (q + 1)

end Verif.Redis
