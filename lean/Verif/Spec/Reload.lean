import Verif.Model.Reload

/-!
# Specification: reloads
-/

set_option autoImplicit false

namespace Gmid.Spec

variable {X : Type}

/-- no reload is in progress: every configuration sent has been applied and acknowledged, and the acknowledgements handled -/
def Idle (s : RSys X) : Prop := s.dones = 0 ∧ ∀ c ∈ s.children, c.inbox = []

/-- every process uses the configuration sent last -/
def UpToDate (s : RSys X) : Prop := ∀ c ∈ s.children, c.cfg = s.started.getLast?

/-- in this history every configuration file parses -/
def AllParse (evs : List (REv X)) : Prop := ∀ p, REv.hup (.fail p) ∉ evs

end Gmid.Spec
