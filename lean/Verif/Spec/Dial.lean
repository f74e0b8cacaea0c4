import Verif.Model.Dial

/-!
# What it is to connect to the first address that can be reached
-/

set_option autoImplicit false

namespace Gmid.Spec

/-- an address can be reached: there is a descriptor for it and the connection is accepted -/
def Reachable {α : Type} (t : Socks α) (a : Attempt α) : Prop := ∃ n, a.sock = some n ∧ t n = none ∧ a.conn = true

/-- the first address of the list that can be reached gets a new descriptor and nothing else changes; if there is
none nothing changes -/
inductive FirstReachable {α : Type} (t : Socks α) (l : List (Attempt α)) : Socks α → Option Nat → Prop where
  | connected (pre : List (Attempt α)) (a : Attempt α) (post : List (Attempt α)) (n : Nat) :
    l = pre ++ a :: post → (∀ b ∈ pre, ¬ Reachable t b) → a.sock = some n → t n = none → a.conn = true →
    FirstReachable t l (fun x => if x = n then some (some a.addr) else t x) (some n)
  | failed : (∀ b ∈ l, ¬ Reachable t b) → FirstReachable t l t none

end Gmid.Spec
