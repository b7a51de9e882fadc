import Verif.Model.Uri
import Verif.Model.Uuid
import Verif.Model.Http
/-!
# `IPv6_Address`

Models `poseidon/src/socket/ipv6_address.cpp` and `poseidon/socket/ipv6_address.hpp`.  An address is 16 bytes and a port.
-/
namespace Verif.Ipv6

/-- `IP_Address_Class`.  (poseidon/socket/enums.hpp) -/
inductive Class where
  | unspecified | reserved | public_ | loopback | private_ | link_local | multicast | broadcast
deriving DecidableEq, Repr

/-- `do_match_subnet(addr, mask, bits)`.  With `bits % 8 = 0` the byte behind the prefix is read (for `bits = 128` it is the
low byte of the port) and masked with zero, so its value does not matter; the model reads zero there.
(ipv6_address.cpp:11-19) -/
def match_subnet (addr mask : Bytes) (bits : Nat) : Bool :=
  let bi := bits / 8
  (addr.take bi == mask.take bi)
  && (UInt8.ofNat (0xFF &&& (0xFF00 >>> (bits % 8))) &&& (addr.getD bi 0 ^^^ mask.getD bi 0)) == 0

/-- `do_classify_ipv4_generic(addr)`.  (ipv6_address.cpp:21-67) -/
def classify_ipv4 (addr : Bytes) : Class :=
  if match_subnet addr [0, 0, 0, 0] 32 then .unspecified
  else if match_subnet addr [0xFF, 0xFF, 0xFF, 0xFF] 32 then .broadcast
  else if match_subnet addr [0] 8 then .reserved
  else if match_subnet addr [0x0A] 8 then .private_
  else if match_subnet addr [0x7F] 8 then .loopback
  else if match_subnet addr [0xAC, 0x10] 12 then .private_
  else if match_subnet addr [0xA9, 0xFE] 16 then .link_local
  else if match_subnet addr [0xC0, 0xA8] 16 then .private_
  else if match_subnet addr [0xE0] 4 then .multicast
  else if match_subnet addr [0xF0] 4 then .reserved
  else .public_

/-- The prefix `::ffff:0:0/96`. -/
def mapped : Bytes := [0, 0, 0, 0, 0, 0, 0, 0, 0, 0, 0xFF, 0xFF]

/-- `do_classify_ipv6_generic(addr)`, i.e. `classify()`.  (ipv6_address.cpp:69-122, 157-163) -/
def classify (addr : Bytes) : Class :=
  if match_subnet addr mapped 96 then classify_ipv4 (addr.drop 12)
  else if match_subnet addr [0, 0, 0, 0, 0, 0, 0, 0, 0, 0, 0, 0, 0, 0, 0, 0] 128 then .unspecified
  else if match_subnet addr [0, 0, 0, 0, 0, 0, 0, 0, 0, 0, 0, 0, 0, 0, 0, 1] 128 then .loopback
  else if match_subnet addr [0, 0x64, 0xFF, 0x9B, 0, 0, 0, 0, 0, 0, 0, 0] 96 then classify_ipv4 (addr.drop 12)
  else if match_subnet addr [0, 0x64, 0xFF, 0x9B, 0, 1] 48 then classify_ipv4 (addr.drop 12)
  else if match_subnet addr [1, 0, 0, 0, 0, 0, 0, 0] 64 then .reserved
  else if match_subnet addr [0x20, 0x01, 0x0D, 0xB8] 32 then .reserved
  else if match_subnet addr [0x20, 0x02] 16 then classify_ipv4 ((addr.drop 2).take 4)
  else if match_subnet addr [0xFC, 0] 7 then .private_
  else if match_subnet addr [0xFE, 0x80] 10 then .link_local
  else if match_subnet addr [0xFF, 0] 8 then .multicast
  else .public_

/-- The sign of `memcmp` for the first difference of two equally long texts, as -1, 0 or 1. -/
def memcmp : Bytes → Bytes → Int
  | [], _ => 0
  | _ :: _, [] => 0
  | x :: xs, y :: ys => if x < y then -1 else if y < x then 1 else memcmp xs ys

/-- `compare(other)`.  (ipv6_address.cpp:141-155) -/
def compare (a : Bytes) (port_a : Nat) (b : Bytes) (port_b : Nat) : Int :=
  memcmp (a ++ beBytes 2 port_a) (b ++ beBytes 2 port_b)

/-- `_mm_cmpeq_epi16`: both bytes of a lane are set when the lanes are equal. -/
def cmpeq_epi16 : Bytes → Bytes → List Bool
  | x0 :: x1 :: xs, y0 :: y1 :: ys => let e := x0 == y0 && x1 == y1; e :: e :: cmpeq_epi16 xs ys
  | _, _ => []

/-- `equals(other)`.  (ipv6_address.hpp:101-111) -/
def equals (a : Bytes) (port_a : Nat) (b : Bytes) (port_b : Nat) : Bool :=
  (Uuid.movemask (cmpeq_epi16 a b) ^^^ 0xFFFF) ||| (port_a ^^^ port_b) == 0

/-- `is_v4mapped()`.  (ipv6_address.hpp:124-133) -/
def is_v4mapped (a : Bytes) : Bool :=
  ((Uuid.movemask (cmpeq_epi16 a [0, 0, 0, 0, 0, 0, 0, 0, 0, 0, 0xFF, 0xFF, 0, 0, 0, 0]) ^^^ 0xFFFF) &&& 0x0FFF) == 0

/-- `inet_pton` and `inet_ntop` of the C library. -/
structure Inet where
  pton6 : Bytes → Option Bytes
  ntop6 : Bytes → Bytes
  pton4 : Bytes → Option Bytes
  ntop4 : Bytes → Bytes

/-- `parse(str)`: the address, the port and the number of characters; `none` when zero is returned.  A host with an embedded NUL
cannot come out of `parse_network_reference`.  (ipv6_address.cpp:165-201) -/
def parse (I : Inet) (str : Bytes) : Option (Bytes × Nat × Nat) :=
  let (caddr, aclen) := Uri.parse_network_reference {} str
  if caddr.host.length = 0 ∨ caddr.host.length > 63 then none
  else if caddr.port.length = 0 ∨ caddr.path.length ≠ 0 ∨ caddr.query.length ≠ 0 ∨ caddr.fragment.length ≠ 0 then none
  else
    match (if caddr.is_ipv6 then I.pton6 caddr.host else (I.pton4 caddr.host).map (mapped ++ ·)) with
    | none => none
    | some addr => if aclen = 0 then none else some (addr, caddr.port_num, aclen)

/-- `IPv6_Address(str)`: throws (`none`) unless `parse` returns the length of the text; an object for which `parse` returned
zero keeps its initial value, all zeros.  (ipv6_address.cpp:135-140) -/
def of_text (I : Inet) (str : Bytes) : Option (Bytes × Nat) :=
  match parse I str with
  | some (addr, port, n) => if n = str.length then some (addr, port) else none
  | none => if 0 = str.length then some (List.replicate 16 0, 0) else none

/-- `print_partial(str)`: the characters written.  (ipv6_address.cpp:203-235) -/
def print (I : Inet) (addr : Bytes) (port : Nat) : Bytes :=
  (if match_subnet addr mapped 96 then I.ntop4 (addr.drop 12) else chr '[' :: I.ntop6 addr ++ [chr ']'])
  ++ chr ':' :: Http.decimal port

end Verif.Ipv6
