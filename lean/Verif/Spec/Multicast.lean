import Verif.Model.Multicast
/-!
# What is to be known about multicast groups after any calls
-/
namespace Verif.Spec.Multicast
open Verif.Multicast

/-- The group which a call is about.  An address in ::ffff:0:0/96 stands for an IPv4 one. -/
def about (ifs : Interfaces) (maddr ifname : Bytes) (g : Group) : Prop :=
  g.ifindex = ifs ifname ∧
  ((g.v4 = true ∧ maddr = [0, 0, 0, 0, 0, 0, 0, 0, 0, 0, 0xFF, 0xFF] ++ g.addr) ∨
   (g.v4 = false ∧ maddr = g.addr ∧ ¬ [0, 0, 0, 0, 0, 0, 0, 0, 0, 0, 0xFF, 0xFF] <+: maddr))

/-- The last of some calls which matters is one that has joined the group: since then no call has left it, and none has thrown when joining it
(an exception when leaving has no effect). -/
inductive Joined (ifs : Interfaces) (g : Group) : List (Call × Bool) → Prop where
  | now {h m i t l f1 f2 f3} : about ifs m i g → Joined ifs g (h ++ [(.join m i t l f1 f2 f3, false)])
  | other {h m i t l f1 f2 f3 b} : Joined ifs g h → ¬ about ifs m i g → Joined ifs g (h ++ [(.join m i t l f1 f2 f3, b)])
  | apart {h m i f b} : Joined ifs g h → ¬ about ifs m i g → Joined ifs g (h ++ [(.leave m i f, b)])
  | failed {h m i f} : Joined ifs g h → Joined ifs g (h ++ [(.leave m i f, true)])

/-- The group has never been joined, or it has been left and no call has tried to join it since then. -/
inductive Left (ifs : Interfaces) (g : Group) : List (Call × Bool) → Prop where
  | never : Left ifs g []
  | now {h m i f} : about ifs m i g → Left ifs g (h ++ [(.leave m i f, false)])
  | other {h m i t l f1 f2 f3 b} : Left ifs g h → ¬ about ifs m i g → Left ifs g (h ++ [(.join m i t l f1 f2 f3, b)])
  | stays {h m i f b} : Left ifs g h → Left ifs g (h ++ [(.leave m i f, b)])

/-- The last call that tried to join a group of the family has succeeded, with this TTL and loopback. -/
inductive Options (v4 : Bool) (ttl : UInt8) (loopback : Bool) : List (Call × Bool) → Prop where
  | now {h m i f1 f2 f3} : (v4 = true ↔ [0, 0, 0, 0, 0, 0, 0, 0, 0, 0, 0xFF, 0xFF] <+: m) →
      Options v4 ttl loopback (h ++ [(.join m i ttl loopback f1 f2 f3, false)])
  | other {h m i t l f1 f2 f3 b} : Options v4 ttl loopback h → ¬ (v4 = true ↔ [0, 0, 0, 0, 0, 0, 0, 0, 0, 0, 0xFF, 0xFF] <+: m) →
      Options v4 ttl loopback (h ++ [(.join m i t l f1 f2 f3, b)])
  | leave {h m i f b} : Options v4 ttl loopback h → Options v4 ttl loopback (h ++ [(.leave m i f, b)])

end Verif.Spec.Multicast
