import Verif.Model.Vis

/-!
# Model of write_pidfile (gmid.c)

Several gmids started with the same -P option, each of which can end at any time.  The file itself is not removed or replaced by others (gmid does not do
so); advisory locks are those of fcntl(2): held by a process, and gone when it ends.  A gmid calls write_pidfile once it is a daemon (gmid.c:372-375), so that its
process id does not change after that.
-/

set_option autoImplicit false

namespace Gmid

/-- how far a process got in write_pidfile: `opened`, `locked`, `truncated`, and `running` when it returned -/
inductive PidPhase where
  | none
  | opened
  | locked
  | truncated
  | running
  deriving Repr, DecidableEq

/-- the file (`none`: there is none), the process that holds its lock, and the processes by their id -/
structure PidSys where
  content : Option Bytes
  lock : Option Nat
  phase : Nat → PidPhase

def PidSys.set (s : PidSys) (p : Nat) (ph : PidPhase) : PidSys := { s with phase := fun q => if q = p then ph else s.phase q }

/-- write(2) at the start of a file -/
def writeAt0 (old t : Bytes) : Bytes := t ++ old.drop t.length

/-- gmid.c:206-236, write_pidfile, one system call at a time; the id a process has is not used by another one as long as it runs.  The end of a process,
at any point, is `stop`. -/
inductive PidStep : PidSys → PidSys → Prop where
  /-- 214-215: open with O_CREAT -/
  | open (s : PidSys) (p : Nat) (h : s.phase p = .none) : PidStep s ({ s with content := some (s.content.getD []) }.set p .opened)
  /-- 217-223: fcntl(F_SETLK) -/
  | lock (s : PidSys) (p : Nat) (h : s.phase p = .opened) (hl : s.lock = none) : PidStep s ({ s with lock := some p }.set p .locked)
  /-- 222-223: it fails, fatalx -/
  | busy (s : PidSys) (p : Nat) (h : s.phase p = .opened) (hl : s.lock ≠ none) : PidStep s (s.set p .none)
  /-- 225-226: ftruncate -/
  | truncate (s : PidSys) (p : Nat) (h : s.phase p = .locked) : PidStep s ({ s with content := some [] }.set p .truncated)
  /-- 228: dprintf -/
  | write (s : PidSys) (p : Nat) (h : s.phase p = .truncated) :
      PidStep s ({ s with content := some (writeAt0 (s.content.getD []) (natDec p ++ [10])) }.set p .running)
  | stop (s : PidSys) (p : Nat) : PidStep s ({ s with lock := if s.lock = some p then none else s.lock }.set p .none)

/-- any number of steps -/
inductive PidSteps : PidSys → PidSys → Prop where
  | refl (s : PidSys) : PidSteps s s
  | step (s s' s'' : PidSys) (h : PidSteps s s') (hs : PidStep s' s'') : PidSteps s s''

end Gmid
