import Verif.Model.Listen
namespace Verif.Listen

/-- The address that is meant by what the kernel gives. -/
def sourceOf (sa : Sockaddr) : Address := { addr := sa.addr, port := 256 * sa.port.1.toNat + sa.port.2.toNat }

/-- Packets that can be read before there is none. -/
def packetsOf : List Recv → List (Address × Bytes)
  | [] => []
  | .again :: _ => []
  | .error :: r => packetsOf r
  | .packet sa data :: r => (sourceOf sa, data) :: packetsOf r

/-- Each connection and what the `n`th callback and later ones do. -/
def numbered (cb : Nat → Taken) : Nat → List Sockaddr → List (Address × Taken)
  | _, [] => []
  | n, sa :: r => (sourceOf sa, cb n) :: numbered cb (n + 1) r

/-- How many sockets there are in the end. -/
def keptCount (l : List (Address × Taken)) : Nat := (l.filter (·.2 = .kept)).length

end Verif.Listen
