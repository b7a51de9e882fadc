import Verif.Proofs.Multicast
/-!
# C106: multicast groups
-/
namespace Verif.Props
open Verif.Multicast Verif.Spec.Multicast

/-- Interfaces `lo` and `eth0`. -/
def Multicast.ifs : Interfaces := fun n => if n = b! "lo" then 1 else if n = b! "eth0" then 2 else 0

/-- ::ffff:224.0.0.5 -/
def Multicast.m4 : Bytes := [0, 0, 0, 0, 0, 0, 0, 0, 0, 0, 0xFF, 0xFF, 224, 0, 0, 5]
/-- ff02::7 -/
def Multicast.m6 : Bytes := [0xFF, 2, 0, 0, 0, 0, 0, 0, 0, 0, 0, 0, 0, 0, 0, 7]

/-- The groups are joined; joining one again fails, as does joining on an interface that does not exist; one is left. -/
def Multicast.calls : List Call :=
  [.join Multicast.m4 (b! "eth0") 5 true false false false, .join Multicast.m6 (b! "eth0") 9 false false false false,
   .join Multicast.m6 (b! "eth1") 7 false false false false, .leave Multicast.m4 (b! "lo") false, .leave Multicast.m4 (b! "eth0") false]

theorem Multicast.calls_run : (run Multicast.ifs {} Multicast.calls).2 = Multicast.calls.zip [false, false, true, true, false] := by decide +kernel

/-- After any calls, a group that was joined, and has been neither left nor tried again since then, is one of the socket; a group that has not been
joined, or has been left, is not. -/
theorem C106_groups (ifs : Interfaces) (cs : List Call) (g : Group) :
    (Joined ifs g (run ifs {} cs).2 → g ∈ (run ifs {} cs).1.groups) ∧ (Left ifs g (run ifs {} cs).2 → g ∉ (run ifs {} cs).1.groups) :=
  ⟨(known ifs cs).joined g, (known ifs cs).left g⟩

/-- After any calls, the TTL and the loopback of packets of a family are those of the last successful call that joined a group of that family, unless
one has failed since then. -/
theorem C106_options (ifs : Interfaces) (cs : List Call) (v4 : Bool) (ttl : UInt8) (loopback : Bool)
    (h : Options v4 ttl loopback (run ifs {} cs).2) :
    (run ifs {} cs).1.ttl v4 = ttl.toNat ∧ (run ifs {} cs).1.loop v4 = if loopback then 1 else 0 :=
  (known ifs cs).options v4 ttl loopback h

/-- A group can be joined if and only if the name of the interface is valid, the address is a multicast one which has not been joined, and the kernel has no other error. -/
theorem C106_join (ifs : Interfaces) (cs : List Call) (maddr ifname : Bytes) (ttl : UInt8) (loopback f1 f2 f3 : Bool) (g : Group)
    (hg : about ifs maddr ifname g) :
    (join ifs (run ifs {} cs).1 maddr ifname ttl loopback f1 f2 f3).2 = false ↔
      0 ∉ ifname ∧ ifs ifname ≠ 0 ∧ isMulticast g = true ∧ g ∉ (run ifs {} cs).1.groups ∧ f1 = false ∧ f2 = false ∧ f3 = false := by
  rw [join_ok, about_group.1 hg]

/-- A group can be left if and only if the name of the interface is valid, the group has been joined, and the kernel has no other error. -/
theorem C106_leave (ifs : Interfaces) (cs : List Call) (maddr ifname : Bytes) (f : Bool) (g : Group) (hg : about ifs maddr ifname g) :
    (leave ifs (run ifs {} cs).1 maddr ifname f).2 = false ↔ 0 ∉ ifname ∧ ifs ifname ≠ 0 ∧ g ∈ (run ifs {} cs).1.groups ∧ f = false := by
  rw [leave_ok, about_group.1 hg]

/-- The IPv4 group of the example is the one of ::ffff:224.0.0.5, it has been left, and the other one has not. -/
example : about Multicast.ifs Multicast.m4 (b! "eth0") ⟨true, [224, 0, 0, 5], 2⟩ ∧
    Left Multicast.ifs ⟨true, [224, 0, 0, 5], 2⟩ (run Multicast.ifs {} Multicast.calls).2 ∧
    ⟨false, Multicast.m6, 2⟩ ∈ (run Multicast.ifs {} Multicast.calls).1.groups := by
  have ha : about Multicast.ifs Multicast.m4 (b! "eth0") ⟨true, [224, 0, 0, 5], 2⟩ := ⟨by decide +kernel, .inl ⟨rfl, rfl⟩⟩
  refine ⟨ha, ?_, by decide +kernel⟩
  rw [Multicast.calls_run]
  exact Left.now (h := (Multicast.calls.zip [false, false, true, true, false]).take 4) ha

/-- The other group has been joined: the calls behind that one are about other groups. -/
example : Joined Multicast.ifs ⟨false, Multicast.m6, 2⟩ (run Multicast.ifs {} Multicast.calls).2 := by
  have h4 : ∀ n : Bytes, ¬ about Multicast.ifs Multicast.m4 n ⟨false, Multicast.m6, 2⟩ := by
    rintro n ⟨-, ⟨h, -⟩ | ⟨-, h, -⟩⟩
    · simp at h
    · simp [Multicast.m4, Multicast.m6] at h
  have h6 : ¬ about Multicast.ifs Multicast.m6 (b! "eth1") ⟨false, Multicast.m6, 2⟩ := by
    rintro ⟨h, -⟩
    revert h
    decide +kernel
  have ha : about Multicast.ifs Multicast.m6 (b! "eth0") ⟨false, Multicast.m6, 2⟩ :=
    ⟨by decide +kernel, .inr ⟨rfl, rfl, by decide +kernel⟩⟩
  rw [Multicast.calls_run]
  have j1 : Joined Multicast.ifs ⟨false, Multicast.m6, 2⟩ ((Multicast.calls.zip [false, false, true, true, false]).take 2) :=
    Joined.now (h := (Multicast.calls.zip [false, false, true, true, false]).take 1) ha
  exact Joined.apart (Joined.apart (Joined.other j1 h6) (h4 _)) (h4 _)

/-- The options of both families have been set. -/
example : Options true 5 true (run Multicast.ifs {} (Multicast.calls.take 2)).2 ∧ (run Multicast.ifs {} Multicast.calls).1.ttl false = 9 := by
  have e : (run Multicast.ifs {} (Multicast.calls.take 2)).2 = (Multicast.calls.take 2).zip [false, false] := by decide +kernel
  refine ⟨?_, by decide +kernel⟩
  rw [e]
  exact Options.other (Options.now (h := []) (by decide +kernel)) (by decide +kernel)

end Verif.Props
