import Verif.Model.Proc

/-!
# Which processes talk to each other
-/

set_option autoImplicit false

namespace Gmid.Spec

/-- The main process (0) talks to all the others, and the servers (1) to the crypto process (2) and to the logger (3). -/
def MayTalk : Nat → Nat → Prop
  | 0, 1 => True
  | 0, 2 => True
  | 0, 3 => True
  | 1, 0 => True
  | 2, 0 => True
  | 3, 0 => True
  | 1, 2 => True
  | 2, 1 => True
  | 1, 3 => True
  | 3, 1 => True
  | _, _ => False

/-- the other end of a socketpair -/
def otherEnd (e : Nat) : Nat := if e % 2 = 0 then e + 1 else e - 1

/-- Whatever happens next, after finitely many steps no process is left: some step is possible until then, and any step leads closer to it. -/
inductive AllEnd (prefork : Nat) : Running → Prop where
  | done (s : Running) (h : ∀ p, isProc prefork p → s.alive p = false) : AllEnd prefork s
  | step (s : Running) (hs : ∃ s', Internal prefork s s')
      (h : ∀ s', Internal prefork s s' ∨ External prefork s s' → AllEnd prefork s') : AllEnd prefork s

/-- what can come of `s` when the main process itself is not killed -/
inductive Becomes (prefork : Nat) : Running → Running → Prop where
  | refl (s : Running) : Becomes prefork s s
  | internal (s s' s'' : Running) (h : Becomes prefork s s') (hi : Internal prefork s' s'') : Becomes prefork s s''
  | external (s s' s'' : Running) (h : Becomes prefork s s') (he : External prefork s' s'') (hm : s''.alive (0, 0) = s'.alive (0, 0)) :
      Becomes prefork s s''

end Gmid.Spec
