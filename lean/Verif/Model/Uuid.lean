import Verif.Model.Hex
/-!
# Model of `UUID` (poseidon/base/uuid.hpp, poseidon/src/base/uuid.cpp)

A UUID is its 16 bytes (`m_bytes`, uuid.hpp:25-28).
-/
namespace Verif.Uuid
open Verif.Hex

/-- `UUID::random_v4()` given the four numbers drawn from the random engine.  (uuid.cpp:46-66) -/
def random_v4 (z0 z1 z2 z3 : Nat) : Bytes :=
  let z1 := (z1 &&& 0xFFFF0FFF) ||| 0x00004000
  let z2 := (z2 &&& 0x3FFFFFFF) ||| 0x80000000
  beBytes 4 z0 ++ beBytes 4 z1 ++ beBytes 4 z2 ++ beBytes 4 z3

/-- The file-level generator state `s_gen_time`, `s_gen_serial`.  (uuid.cpp:16-17) -/
structure GenState where
  time : Nat
  serial : Nat
deriving Repr, DecidableEq

/-- What one call of `random_v7` reads from its environment: the clock in milliseconds since the epoch (uuid.cpp:75-76;
assumed in `[0, 2^64)`), two random numbers (uuid.cpp:80-81) and the process id (uuid.cpp:86). -/
structure V7Env where
  time : Nat
  z2 : Nat
  z3 : Nat
  pid : Nat
deriving Repr, DecidableEq

/-- `UUID::random_v7()`.  (uuid.cpp:70-93) `time << 16` is a 64-bit shift, so the upper 16 bits are lost. -/
def random_v7 (s : GenState) (e : V7Env) : GenState × Bytes :=
  let serial := if s.time = e.time then (s.serial + 1) &&& 0x0FFF else 0
  let x0 := ((e.time <<< 16) % 2 ^ 64 ||| 0x7000) ||| serial
  let z2 := (0x80000000 ||| ((e.pid &&& 0x3FFF) <<< 16)) ||| (e.z2 &&& 0xFFFF)
  (⟨e.time, serial⟩, beBytes 8 x0 ++ beBytes 4 z2 ++ beBytes 4 e.z3)

/-- A sequence of calls of `random_v7` (they are serialised by `s_gen_mutex`, uuid.cpp:73). -/
def run_v7 (s : GenState) : List V7Env → List Bytes
  | [] => []
  | e :: es => (random_v7 s e).2 :: run_v7 (random_v7 s e).1 es

/-- `_mm_movemask_epi8`: bit `i` of the result is the top bit of byte `i`; here the lanes are given as booleans, lane 0
first.  (uuid.cpp:105-106) -/
def movemask : List Bool → Nat
  | [] => 0
  | b :: bs => b.toNat + 2 * movemask bs

/-- `_mm_cmpgt_epi8` on lists of lanes (signed bytes).  (uuid.cpp:105-106) -/
def cmpgt_epi8 (a b : Bytes) : List Bool := List.zipWith (fun x y => decide (y.toInt8 < x.toInt8)) a b

/-- `UUID::compare()`.  (uuid.cpp:97-108) -/
def compare (a b : Bytes) : Int :=
  let tval := a.reverse.map (· ^^^ 0x80)
  let oval := b.reverse.map (· ^^^ 0x80)
  let gt := movemask (cmpgt_epi8 tval oval)
  let lt := movemask (cmpgt_epi8 oval tval)
  (gt : Int) - (lt : Int)

/-- `UUID::equals()`.  (uuid.hpp:166-174) -/
def equals (a b : Bytes) : Bool :=
  movemask (List.zipWith (fun x y => decide (x = y)) a b) == 0xFFFF

/-- `UUID::is_nil()`.  (uuid.hpp:156-164) -/
def is_nil (a : Bytes) : Bool :=
  movemask (a.map (fun x => decide (x = 0))) == 0xFFFF

/-- The value of a hexadecimal digit as decided at uuid.cpp:126-134 (`char` comparisons; bytes above 0x7F are negative
`char`s and match no range, like here). -/
def hexval (c : Byte) : Option Nat :=
  if 0x30 ≤ c ∧ c ≤ 0x39 then some (c - 0x30).toNat
  else if 0x41 ≤ c ∧ c ≤ 0x46 then some (c - 0x41 + 10).toNat
  else if 0x61 ≤ c ∧ c ≤ 0x66 then some (c - 0x61 + 10).toNat
  else none

/-- The loop of `UUID::parse_partial()` over the characters at positions `k, k+1, …`; `high` and `low` are 64-bit
accumulators.  `none` is "return 0".  (uuid.cpp:118-140) -/
def parse_loop : (k : Nat) → (cs : Bytes) → (high low : Nat) → Option (Nat × Nat)
  | _, [], high, low => some (high, low)
  | k, c :: cs, high, low =>
    if (1 <<< k) &&& 0b100001000010000100000000 ≠ 0 then
      if c ≠ 0x2D then none else parse_loop (k + 1) cs high low
    else
      match hexval c with
      | none => none
      | some val =>
        if k < 19 then parse_loop (k + 1) cs ((high <<< 4) % 2 ^ 64 ||| val) low
        else parse_loop (k + 1) cs high ((low <<< 4) % 2 ^ 64 ||| val)

/-- `UUID::parse()` / `UUID::parse_partial()`: the value and the number of characters consumed; `none` stands for the
return value 0, after which the object's contents are unspecified.  (uuid.cpp:110-157) -/
def parse (str : Bytes) : Option (Bytes × Nat) :=
  if str.length ≥ 36 then
    match parse_loop 0 (str.take 36) 0 0 with
    | none => none
    | some (high, low) => some (beBytes 8 high ++ beBytes 8 low, 36)
  else none

/-- `UUID::UUID(chars_view)`: `none` is "an exception is thrown".  On success the object is the parsed value, or, if
nothing was parsed (`parse` returned 0 and `str.n` is 0), the default all-zero one (uuid.hpp:26).  (uuid.cpp:21-26) -/
def ofString (str : Bytes) : Option Bytes :=
  match parse str with
  | some (u, n) => if n ≠ str.length then none else some u
  | none => if 0 ≠ str.length then none else some (List.replicate 16 0)

/-- `memcpy(str + off, src, src.length)` into a buffer. -/
def copyAt (buf : Bytes) (off : Nat) (src : Bytes) : Bytes :=
  buf.take off ++ src ++ buf.drop (off + src.length)

/-- `UUID::print_partial()`: the 37-byte buffer after the call, whatever it held before.  (uuid.cpp:159-181) -/
def print_buffer (buf : Bytes) (u : Bytes) : Bytes :=
  let hexstr := hex_encode_16_partial u
  let s := copyAt buf 36 [0]
  let s := copyAt s 20 ((hexstr.drop 16).take 16)
  let s := copyAt s 23 [0x2D]
  let s := copyAt s 19 ((hexstr.drop 16).take 4)
  let s := copyAt s 18 [0x2D]
  let s := copyAt s 14 ((hexstr.drop 12).take 4)
  let s := copyAt s 13 [0x2D]
  let s := copyAt s 9 ((hexstr.drop 8).take 4)
  let s := copyAt s 8 [0x2D]
  copyAt s 0 (hexstr.take 8)

/-- `UUID::to_string()`: the first 36 bytes of the buffer.  (uuid.cpp:193-201) -/
def to_string (u : Bytes) : Bytes := (print_buffer (List.replicate 64 0) u).take 36

end Verif.Uuid
