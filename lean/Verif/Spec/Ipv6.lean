import Verif.Model.Ipv6
/-!
# Specification vocabulary for IP addresses

Addresses as numbers, address blocks, and the tables of special-purpose blocks; only the enumeration of classes is taken from
the model.
-/
namespace Verif.Spec
open Verif.Ipv6 (Class)

/-- The address `v` of `width` bits lies in the block `base/len`. -/
def InBlock (width v base len : Nat) : Prop := base ≤ v ∧ v < base + 2 ^ (width - len)

instance (width v base len : Nat) : Decidable (InBlock width v base len) := inferInstanceAs (Decidable (_ ∧ _))

/-- `a.b.c.d` -/
def v4 (a b c d : Nat) : Nat := ((a * 256 + b) * 256 + c) * 256 + d

/-- `a:b:c:d:e:f:g:h` -/
def v6 (a b c d e f g h : Nat) : Nat :=
  ((((((a * 65536 + b) * 65536 + c) * 65536 + d) * 65536 + e) * 65536 + f) * 65536 + g) * 65536 + h

/-- Special-purpose IPv4 blocks. -/
def v4Table : List (Nat × Nat × Class) :=
  [(v4 0 0 0 0, 32, .unspecified), (v4 255 255 255 255, 32, .broadcast), (v4 0 0 0 0, 8, .reserved), (v4 10 0 0 0, 8, .private_),
   (v4 127 0 0 0, 8, .loopback), (v4 172 16 0 0, 12, .private_), (v4 169 254 0 0, 16, .link_local), (v4 192 168 0 0, 16, .private_),
   (v4 224 0 0 0, 4, .multicast), (v4 240 0 0 0, 4, .reserved), (v4 0 0 0 0, 0, .public_)]

/-- What an IPv6 block means: a class, or the class of the IPv4 address that is found above the given number of low bits. -/
inductive Meaning where
  | cls (c : Class)
  | embedded (low : Nat)

/-- Special-purpose IPv6 blocks. -/
def v6Table : List (Nat × Nat × Meaning) :=
  [(v6 0 0 0 0 0 0xFFFF 0 0, 96, .embedded 0), (v6 0 0 0 0 0 0 0 0, 128, .cls .unspecified), (v6 0 0 0 0 0 0 0 1, 128, .cls .loopback),
   (v6 0x64 0xFF9B 0 0 0 0 0 0, 96, .embedded 0), (v6 0x64 0xFF9B 1 0 0 0 0 0, 48, .embedded 0), (v6 0x100 0 0 0 0 0 0 0, 64, .cls .reserved),
   (v6 0x2001 0xDB8 0 0 0 0 0 0, 32, .cls .reserved), (v6 0x2002 0 0 0 0 0 0 0, 16, .embedded 80), (v6 0xFC00 0 0 0 0 0 0 0, 7, .cls .private_),
   (v6 0xFE80 0 0 0 0 0 0 0, 10, .cls .link_local), (v6 0xFF00 0 0 0 0 0 0 0, 8, .cls .multicast), (v6 0 0 0 0 0 0 0 0, 0, .cls .public_)]

/-- The entry of a table whose block is the smallest that contains the address. -/
def Best {α : Type} (width : Nat) (table : List (Nat × Nat × α)) (v : Nat) (e : Nat × Nat × α) : Prop :=
  e ∈ table ∧ InBlock width v e.1 e.2.1 ∧ ∀ e' ∈ table, InBlock width v e'.1 e'.2.1 → e'.2.1 ≤ e.2.1

end Verif.Spec
