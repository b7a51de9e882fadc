import Verif.Model.Ipv6
/-!
# Futures that query DNS and read files

Models `DNS_Query_Future` (dns_query_future.cpp:24-65) and `Read_File_Future` (read_file_future.cpp:24-83).  The answers of the resolver, and what the file system returns, are
parameters.
-/
namespace Verif.Futures
open Verif.Ipv6

/-- An element of the list from `getaddrinfo()`: `AF_INET` with 4 bytes, `AF_INET6` with 16 bytes, or something else. -/
inductive Rec where
  | inet (a : Bytes)
  | inet6 (a : Bytes)
  | other
deriving DecidableEq, Repr

/-- The body of the loop, which converts a record to an address; `none` is `continue`.  (dns_query_future.cpp:43-58) -/
def convert (port : Nat) : Rec → Option (Bytes × Nat)
  | .inet a => some (mapped ++ a, port)
  | .inet6 a => some (a, port)
  | .other => none

/-- The loop; `res` is `m_res`.  (dns_query_future.cpp:42-65) -/
def collect (port : Nat) : List Rec → List (Bytes × Nat) → List (Bytes × Nat)
  | [], res => res
  | r :: rs, res =>
    match convert port r with
    | none => collect port rs res
    | some addr => if addr ∈ res then collect port rs res else collect port rs (res ++ [addr])

/-- `do_on_abstract_future_initialize()`, where `none` is an exception.  (dns_query_future.cpp:24-65) -/
def query (port : Nat) : Option (List Rec) → Option (List (Bytes × Nat))
  | none => none
  | some rs => some (collect port rs [])

/-- What `read()` returns for each call: an error, or some bytes. -/
abbrev Reads := List (Option Bytes)

/-- How a read operation ends.  `starved` means that the list of results of `read()` has been used up. -/
inductive Outcome where
  | threw
  | ok (data : Bytes)
  | starved
deriving DecidableEq, Repr

/-- `static_cast<int64_t>()` of a `size_t` -/
def int64 (n : Int) : Int := if n % 2 ^ 64 < 2 ^ 63 then n % 2 ^ 64 else n % 2 ^ 64 - 2 ^ 64

/-- The number of bytes to read next, before it is converted to `size_t`.  (read_file_future.cpp:64-67) -/
def reserve (limit : Nat) (size offset : Int) (have_ : Nat) : Int := min (min (int64 ((limit : Int) - have_)) (size - offset - have_)) 2147483647

/-- The loop.  A negative number, converted to `size_t`, exceeds the maximum length of a string, so `insert()` throws.  (read_file_future.cpp:63-83) -/
def readLoop (limit : Nat) (size offset : Int) : Reads → Bytes → Outcome
  | rs, data =>
    let n := reserve limit size offset data.length
    if n = 0 then .ok data
    else if n < 0 then .threw
    else match rs with
      | [] => .starved
      | none :: _ => .threw
      | some bs :: rs => if bs = [] then .ok data else readLoop limit size offset rs (data ++ bs)

/-- `lseek64()` on a file with `size` bytes; `none` is an error.  (read_file_future.cpp:52-61) -/
def seek (size req : Int) : Option Int :=
  if req = 0 then some 0
  else if req > 0 then some req
  else if size + req < 0 then none
  else some (size + req)

/-- `do_on_abstract_future_initialize()` on a file that can be opened, is a regular file, and has `size` bytes.  (read_file_future.cpp:24-83) -/
def readFile (limit : Nat) (req size : Int) (rs : Reads) : Outcome :=
  match seek size req with
  | none => .threw
  | some offset => readLoop limit size offset rs []

end Verif.Futures
