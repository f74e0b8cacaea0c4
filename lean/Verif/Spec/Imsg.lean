import Verif.Model.Imsg

/-!
# Specification: messages between processes

What the receiver should get for each message: the same, with the sender's pid in place of 0.
-/

set_option autoImplicit false

namespace Gmid.Spec

/-- a message as the receiver should see it -/
def seenAs (mypid : Nat) (m : IMsg) : IMsg := { m with pid := if m.pid = 0 then mypid else m.pid }

/-- but for its descriptor -/
def noFd (m : IMsg) : IMsg := { m with fd := none }

/-- the fields fit in 32 bits -/
def Fits (m : IMsg) : Prop := m.ty < 4294967296 ∧ m.peer < 4294967296 ∧ m.pid < 4294967296

/-- the messages composed by a sequence of steps -/
def composed (acts : List ChanAct) : List IMsg := acts.filterMap fun | .compose m => some m | _ => none

/-- of these, the ones not too large: at most 16384 bytes with the 16 bytes of the header -/
def accepted (acts : List ChanAct) : List IMsg := (composed acts).filter fun m => decide (m.data.length + 16 ≤ 16384)

end Gmid.Spec
