import Verif.Model.Stack
/-!
# Specification of the stack cache, in terms of the history
-/
namespace Verif.Stack

/-- Stack `a` has been handed out and not freed since. -/
def inUse (a : Nat) : List Ev → Bool
  | [] => false
  | .allocated b _ _ :: tr => if b = a then true else inUse a tr
  | .freed b :: tr => if b = a then false else inUse a tr
  | _ :: tr => inUse a tr

/-- The size of the mapping at `a`, if there is one. -/
def live (a : Nat) : List Ev → Option Nat
  | [] => none
  | .mapped b z :: tr => if b = a then some z else live a tr
  | .unmapped b _ :: tr => if b = a then none else live a tr
  | _ :: tr => live a tr

/-- What is handed out is not in use, and is a mapping of exactly the size asked for; what is unmapped is not in use, and is a mapping of exactly that
size. -/
def stacksOk : List Ev → Prop
  | [] => True
  | .allocated a z sz :: tr => inUse a tr = false ∧ live a tr = some z ∧ z = sz ∧ stacksOk tr
  | .unmapped a z :: tr => inUse a tr = false ∧ live a tr = some z ∧ stacksOk tr
  | .mapped a _ :: tr => inUse a tr = false ∧ live a tr = none ∧ stacksOk tr
  | .freed a :: tr => inUse a tr = true ∧ stacksOk tr

/-- Address `a` can be found by following the links from `p`. -/
inductive OnChain (next : Nat → Option Nat) : Option Nat → Nat → Prop
  | head (a : Nat) : OnChain next (some a) a
  | tail {b a : Nat} : OnChain next (next b) a → OnChain next (some b) a

end Verif.Stack
