import Verif.Model.Splay

/-!
# What the table of open connections is for (C121)
-/

set_option autoImplicit false

namespace Gmid.Spec

/-- the connections open after an event -/
def openThen (live : List Nat) : TEv → List Nat
  | .accept p => p :: live
  | .close p => live.filter (· ≠ p)

/-- the connections open after a history -/
def openAfter : List Nat → List TEv → List Nat
  | live, [] => live
  | live, ev :: r => openAfter (openThen live ev) r

/-- a history that can be: calloc gives a place that is not in use, nor NULL, nor a local variable's (server.c:1425); a connection is closed when it is open,
hence once -/
def CanBe : List Nat → List TEv → Prop
  | _, [] => True
  | live, .accept p :: r => (2 ≤ p ∧ p ∉ live) ∧ CanBe (openThen live (.accept p)) r
  | live, .close p :: r => p ∈ live ∧ CanBe (openThen live (.close p)) r

/-- how many connections were accepted -/
def acceptsIn : List TEv → Nat
  | [] => 0
  | .accept _ :: r => acceptsIn r + 1
  | .close _ :: r => acceptsIn r

/-- there is a way from `r` down to `p`, along the left and right pointers -/
inductive TreeBelow (h : SHeap) : Nat → Nat → Prop
  | refl (p : Nat) : p ≠ 0 → TreeBelow h p p
  | left (r p : Nat) (n : SNode) : h r = some n → TreeBelow h n.left p → TreeBelow h r p
  | right (r p : Nat) (n : SNode) : h r = some n → TreeBelow h n.right p → TreeBelow h r p

/-- the client at `p` is in the table -/
def InTable (t : Table) (p : Nat) : Prop := TreeBelow t.h t.root p

/-- a search tree: the clients left of one have smaller ids, those right of it greater ones -/
def SearchTree (t : Table) : Prop :=
  ∀ p n q m, InTable t p → t.h p = some n → t.h q = some m → (TreeBelow t.h n.left q → m.id < n.id) ∧ (TreeBelow t.h n.right q → n.id < m.id)

end Gmid.Spec
