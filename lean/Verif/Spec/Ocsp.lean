import Verif.Model.Ocsp
import Verif.Spec.TlsName

/-!
# The OCSP response of a server
-/

set_option autoImplicit false

namespace Gmid.Spec

/-- what a client that asks for the status of the certificate gets when the response of the server is `ocsp`: nothing when there is none or it is empty -/
def StapleOf (ocsp : Option Bytes) : StapleRes → Prop
  | .ok d => ocsp = some d ∧ d ≠ []
  | .noack => ocsp = none ∨ ocsp = some []
  | .alert => False

end Gmid.Spec
