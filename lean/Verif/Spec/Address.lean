import Verif.Model.Address
/-!
# What calls of `local_address()` and `remote_address()` should return
-/
namespace Verif.Spec.Address
open Verif.Address

/-- All names that are given to a socket are the same: it is bound, or connected, once. -/
def Only (A : Addr) (acts : List Act) : Prop := ∀ a, Act.assign a ∈ acts → a = A

/-- What a thread sees. -/
def of (t : Nat) (tr : List Ev) : List Ev :=
  tr.filter (fun | .called u => u == t | .asked u _ => u == t | .returned u _ => u == t)

/-- `[2001:db8:f397:d617:4aa2:82e0:2c5f:edd9]:0`, an address for documentation, which no socket has. -/
def noAddress : Addr := ⟨[0x2001, 0x0db8, 0xf397, 0xd617, 0x4aa2, 0x82e0, 0x2c5f, 0xedd9].flatMap fun g => [UInt8.ofNat (g / 256), UInt8.ofNat (g % 256)], 0⟩

/-- What is to be returned for an answer of the system. -/
inductive Shown (remote : Bool) (A : Addr) : Answer → Addr → Prop where
  /-- The socket has its name. -/
  | name : Shown remote A (.name A) A
  /-- The socket has no name yet. -/
  | unbound : Shown remote A (.name unspecified) unspecified
  /-- The socket has no peer. -/
  | unconnected : remote = true → Shown remote A .notConnected unspecified
  | notConnected : remote = false → Shown remote A .notConnected noAddress
  /-- Errors. -/
  | failed : Shown remote A .failed noAddress
  | other : Shown remote A .other noAddress

/-- The calls of one thread.  Each of them returns the address of the socket without asking, or asks once and returns what is appropriate. -/
inductive Calls (remote : Bool) (A : Addr) (t : Nat) : List Ev → Prop where
  | none : Calls remote A t []
  | cached {l} : Calls remote A t l → Calls remote A t (l ++ [.called t, .returned t A])
  | asked {l x r} : Calls remote A t l → Shown remote A x r → Calls remote A t (l ++ [.called t, .asked t x, .returned t r])

/-- The same, when the last call has not returned. -/
def Sees (remote : Bool) (A : Addr) (t : Nat) (l : List Ev) : Prop :=
  Calls remote A t l ∨ (∃ l', Calls remote A t l' ∧ (l = l' ++ [.called t] ∨ ∃ x, l = l' ++ [.called t, .asked t x]))

/-- If the system says that the port is zero, then the socket has no address yet, whatever the other bytes are. -/
def Portless (tr : List Ev) : Prop :=
  ∀ pre t a post, tr = pre ++ .asked t (.name a) :: post → a.port = 0 → ∃ more, post = .returned t ⟨List.replicate 16 0, 0⟩ :: more

/-- An address was obtained from the system before it is returned. -/
def Known (A : Addr) (tr : List Ev) : Prop :=
  ∀ pre t post, tr = pre ++ .returned t A :: post → ∃ u, Ev.asked u (.name A) ∈ pre

/-- After the address of the socket has been returned by any call, calls that begin later return it and do not ask. -/
def Kept (A : Addr) (tr : List Ev) : Prop :=
  ∀ pre t mid u post, tr = pre ++ .returned t A :: mid ++ .called u :: post →
    (∀ x, Ev.asked u x ∉ post) ∧ ∀ r, Ev.returned u r ∈ post → r = A

end Verif.Spec.Address
