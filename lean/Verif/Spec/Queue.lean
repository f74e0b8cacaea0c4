import Verif.Model.Queue

/-!
# Lists in memory: what they mean
-/

set_option autoImplicit false

namespace Gmid.Spec

/-- from the cell `a` on, the first words lead through the elements `l` to NULL, and the second word of each element leads back -/
def Leads (m : QMem) : Nat → List Nat → Prop
  | a, [] => ∃ p, m a = some ⟨0, p⟩
  | a, b :: l => (∃ p, m a = some ⟨b, p⟩) ∧ (∃ n, m b = some ⟨n, a⟩) ∧ Leads m b l

/-- the last cell of a list with the head `h` -/
def endOf (h : Nat) (l : List Nat) : Nat := l.getLast?.getD h

/-- memory has, at the head `h`, the list of the elements `l` -/
structure IsQueue (m : QMem) (h : Nat) (l : List Nat) : Prop where
  apart : (h :: l).Nodup
  notNull : 0 ∉ h :: l
  leads : Leads m h l
  last : ∃ f, m h = some ⟨f, endOf h l⟩

/-- nothing changes but for the cells of S -/
def Within (S : List Nat) (m m' : QMem) : Prop := ∀ x, x ∉ S → m' x = m x

/-- a location: its address and its parameters -/
structure LocShape where
  at_ : Nat
  params : List Nat

/-- a host: its address, and its addresses, locations, aliases and relays -/
structure HostShape where
  at_ : Nat
  addrs : List Nat
  locs : List LocShape
  aliases : List Nat
  proxies : List Nat

/-- a configuration -/
structure ConfShape where
  fcgi : List Nat
  hosts : List HostShape
  pkis : List Nat
  addrs : List Nat

/-- all cells of it -/
def LocShape.cells (l : LocShape) : List Nat := l.at_ :: (l.at_ + 1) :: l.params

def HostShape.cells (h : HostShape) : List Nat :=
  h.at_ :: (h.at_ + 1) :: (h.at_ + 2) :: (h.at_ + 3) :: (h.at_ + 4) :: (h.addrs ++ h.locs.flatMap LocShape.cells ++ h.aliases ++ h.proxies)

def ConfShape.cells (c : ConfShape) : List Nat := c.fcgi ++ c.hosts.flatMap HostShape.cells ++ c.pkis ++ c.addrs

/-- memory has a configuration, at `c` -/
structure HoldsConf (m : QMem) (c : Nat) (s : ConfShape) : Prop where
  apart : (c :: (c + 1) :: (c + 2) :: (c + 3) :: s.cells).Nodup
  fcgi : IsQueue m c s.fcgi
  hosts : IsQueue m (c + 1) (s.hosts.map (·.at_))
  pkis : IsQueue m (c + 2) s.pkis
  addrs : IsQueue m (c + 3) s.addrs
  inHosts : ∀ h ∈ s.hosts, IsQueue m (h.at_ + 1) h.addrs ∧ IsQueue m (h.at_ + 2) (h.locs.map (·.at_)) ∧ IsQueue m (h.at_ + 3) h.aliases ∧
    IsQueue m (h.at_ + 4) h.proxies ∧ ∀ l ∈ h.locs, IsQueue m (l.at_ + 1) l.params

end Gmid.Spec
