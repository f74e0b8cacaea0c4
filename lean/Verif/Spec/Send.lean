import Verif.Model.Send

/-!
# What is sent to whom
-/

set_option autoImplicit false

namespace Gmid.Spec

variable {M : Type}

/-- the messages for a process and the files that go with them -/
def SendCmd.for (privsep : Bool) (id : Nat) : SendCmd M → List (M × Option Nat)
  | .compose d m => if d = id then [(m, none)] else []
  | .file d m f => if d = id then [(m, f)] else []
  | .openSend d m f => if d = id then [(m, some f)] else []
  | .kp cm km c k =>
    if privsep then
      if id = pServer then [(cm, some c)] else if id = pCrypto then [(cm, some c), (km, some k)] else []
    else if id = pServer then [(cm, some c), (km, some k)] else []
  | .flush _ => []

/-- what arrived at an instance and what is still on its way there, which has no descriptors -/
def Snd.delivers (s : Snd M) (p : PI) : List (M × Option Nat) := s.out p ++ (s.q p).map fun x => (x.1, none)

/-- nothing with a descriptor is in a queue, and no descriptor is there twice -/
def Snd.Quiet (s : Snd M) : Prop := (∀ p, ∀ x ∈ s.q p, x.2 = none) ∧ (s.fds.map (·.1)).Nodup

end Gmid.Spec
