import Verif.Model.TlsLib

/-!
# C141: how a TLS connection ends
-/

set_option autoImplicit false

namespace Gmid.Spec

/-- the connection ended without a close_notify, and OpenSSL has no error for it -/
def CutOff (f : SslFail) : Prop := f.err = .syscall ∧ f.queue = none ∧ f.ret = 0

/-- the peer has ended the connection with a close_notify -/
def Notified (f : SslFail) : Prop := f.err = .zeroReturn ∨ f.err = .none

/-- it is to be tried again -/
def Wanted (f : SslFail) : Prop := f.err = .wantRead ∨ f.err = .wantWrite

instance (f : SslFail) : Decidable (CutOff f) := inferInstanceAs (Decidable (_ ∧ _ ∧ _))
instance (f : SslFail) : Decidable (Notified f) := inferInstanceAs (Decidable (_ ∨ _))
instance (f : SslFail) : Decidable (Wanted f) := inferInstanceAs (Decidable (_ ∨ _))

/-- what arrives, and how the connection ends (`none`: it has not ended) -/
def arrives : List SslRd → Bytes × Option SslFail
  | [] => ([], none)
  | .data b t :: rs => (b :: t ++ (arrives rs).1, (arrives rs).2)
  | .no f :: rs => if Wanted f then arrives rs else ([], some f)

/-- a call that found the connection cut off -/
def CutOp : LibOp → Prop
  | .read (.no f) => CutOff f
  | .write (.no f) => CutOff f
  | _ => False

end Gmid.Spec
