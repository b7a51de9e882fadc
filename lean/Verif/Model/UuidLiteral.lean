import Verif.Model.Uuid
/-!
# UUIDs from fields, and the operators on UUIDs  (poseidon/base/uuid.hpp)
-/
namespace Verif.Uuid

/-- `UUID(const fields&)`; assigning to `uint8_t` keeps the low eight bits.  (uuid.hpp:16-23, 35-60) -/
def of_fields (xh xl y zh zl : Nat) : Bytes :=
  [UInt8.ofNat (xh >>> 24), UInt8.ofNat (xh >>> 16), UInt8.ofNat (xh >>> 8), UInt8.ofNat xh,
   UInt8.ofNat (xl >>> 8), UInt8.ofNat xl,
   UInt8.ofNat (y >>> 8), UInt8.ofNat y,
   UInt8.ofNat (zh >>> 8), UInt8.ofNat zh,
   UInt8.ofNat (zl >>> 40), UInt8.ofNat (zl >>> 32), UInt8.ofNat (zl >>> 24), UInt8.ofNat (zl >>> 16), UInt8.ofNat (zl >>> 8), UInt8.ofNat zl]

/-- `UUID::min()`.  (uuid.cpp:11, 28-34) -/
def min : Bytes := of_fields 0x00000000 0x0000 0x0000 0x0000 0x000000000000
/-- `UUID::max()`.  (uuid.cpp:12, 36-42) -/
def max : Bytes := of_fields 0xffffffff 0xffff 0xffff 0xffff 0xffffffffffff

/-- `lhs == rhs` and so on.  (uuid.hpp:243-275) -/
def op_eq (a b : Bytes) : Bool := equals a b != false
def op_ne (a b : Bytes) : Bool := equals a b == false
def op_lt (a b : Bytes) : Bool := decide (compare a b < 0)
def op_gt (a b : Bytes) : Bool := decide (compare a b > 0)
def op_le (a b : Bytes) : Bool := decide (compare a b ≤ 0)
def op_ge (a b : Bytes) : Bool := decide (compare a b ≥ 0)

/-- Lane `i` of a 128-bit register as a little-endian 32-bit integer. -/
def lane32 (u : Bytes) (i : Nat) : Nat := beNat ((u.drop (4 * i)).take 4).reverse

/-- `UUID::hash`: `_mm_hadd_epi32` adds neighbours, `_mm_bsrli_si128` moves the two upper lanes down.  (uuid.hpp:212-227) -/
def hash (u : Bytes) : Nat :=
  let add (x y : Nat) : Nat := (x + y) % 2 ^ 32
  let t0 := lane32 u 0; let t1 := lane32 u 1; let t2 := lane32 u 2; let t3 := lane32 u 3
  let s0 := add t0 t1; let s1 := add t2 t3; let s2 := add t2 t3; let s3 := add 0 0
  add s0 s1 + 2 ^ 32 * add s2 s3

end Verif.Uuid
