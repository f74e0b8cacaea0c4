import Verif.Model.Close

/-!
# C140: the connected clients, by the history
-/

set_option autoImplicit false

namespace Gmid.Spec

/-- the connection was accepted and given a TLS context -/
def Accepted (es : List RelEv) (i : Nat) : Prop := ∃ fd k, RelEv.accept i fd (some k) ∈ es

/-- closing the connection has finished: `tls_close` was done at once or, later, when called again -/
def Finished (es : List RelEv) (i : Nat) : Prop := (∃ pr, RelEv.close i pr .done ∈ es) ∨ RelEv.fire (.closeEv i) .done ∈ es

/-- the connections there are after the history -/
def Connected (es : List RelEv) (i : Nat) : Prop := Accepted es i ∧ ¬ Finished es i

end Gmid.Spec
