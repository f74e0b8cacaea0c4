import Verif.Spec.Server
import Verif.Model.ProxyProto

/-!
# The line of the log for a header of the PROXY protocol
-/

set_option autoImplicit false

namespace Gmid.Spec

/-- `line` says: from the host `a` and the port `p`, through the host `d` and the port `q` -/
def LogLine (line a : List UInt8) (p : Nat) (d : List UInt8) (q : Nat) : Prop :=
  ∃ ps qs, Numeral p ps ∧ Numeral q qs ∧
    line = b%"proxy-protocol v1: from " ++ a ++ b%" port " ++ ps ++ b%" via " ++ d ++ b%" port " ++ qs

/-- the names that getnameinfo(3) gives with NI_NUMERICHOST: short (an address, and the name of an interface), without spaces, and different for different addresses -/
structure NumericNames {A : Type} (name : A → Option (List UInt8)) : Prop where
  short : ∀ a t, name a = some t → t.length ≤ 64
  word : ∀ a t, name a = some t → (32 : UInt8) ∉ t
  inj : ∀ a b t, name a = some t → name b = some t → a = b

end Gmid.Spec
