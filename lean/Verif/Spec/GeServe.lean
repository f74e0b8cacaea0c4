import Verif.Model.GeServe

/-!
# Specification: what gemexp listens on
-/

set_option autoImplicit false

namespace Gmid.Spec
open Gmid

/-- the addresses that could be bound, with their sockets, in the order of getaddrinfo(3) -/
def boundTo : List (AddrInfo × GeBind) → List (AddrInfo × Int)
  | [] => []
  | (ai, .bound fd _) :: r => (ai, fd) :: boundTo r
  | _ :: r => boundTo r

/-- where calloc(3) put them -/
def placedAt : List (AddrInfo × GeBind) → List Nat
  | [] => []
  | (_, .bound _ p) :: r => p :: placedAt r
  | _ :: r => placedAt r

/-- calloc(3): nothing is at NULL, and no two at the same place -/
def Apart (l : List (AddrInfo × GeBind)) : Prop := (placedAt l).Nodup ∧ 0 ∉ placedAt l

/-- listen(2) failed for one -/
def NoListen (l : List (AddrInfo × GeBind)) : Prop := ∃ ai, (ai, GeBind.noListen) ∈ l

/-- both lists hold these addresses, and no other -/
def BothAre (s : GeLists) (l : List (AddrInfo × Int)) : Prop :=
  ∃ ns, (∀ fuel, ns.length ≤ fuel → walkAddrs s.mem fuel s.conf = .ok ns ∧ walkAddrs s.mem fuel s.host = .ok ns) ∧ ns.map (fun n => (n.ai, n.sock)) = l

end Gmid.Spec
