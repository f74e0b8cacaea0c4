import Verif.Model.Logger

/-!
# What ends up in the logs
-/

set_option autoImplicit false

namespace Gmid.Spec

/-- the last thing the main process (0) said about something, or what held before -/
def lastSaid {α : Type} (t : Nat) (f : Raw → α) (before : α) (ms : List (Nat × Raw)) : α :=
  ((ms.filter fun x => decide (x.1 = 0 ∧ x.2.type = t)).getLast?.map fun x => f x.2).getD before

/-- the line for a request: the text of the message, up to its first NUL -/
def lineOf (data : Bytes) : Bytes := data.dropLast.takeWhile (· ≠ 0)

/-- what is to be written for the request `m`, that comes after `before`: one line to the log file, if there is one, and one to syslog, if it is on -/
def linesAt (s : Lg) (before : List (Nat × Raw)) (m : Raw) : List (LogDest × Bytes) :=
  (match lastSaid 1 (·.fd) s.logfd before with
    | some fd => [(.file fd, lineOf m.data ++ b%"\n")]
    | none => []) ++
  (if ∃ x ∈ lastSaid 2 (·.data) s.syslog before, x ≠ 0 then [(.syslog (lastSaid 3 (·.data) s.facility before), lineOf m.data)] else [])

/-- for all the requests (the messages of the servers, 1), in the order in which they come -/
def linesFor (s : Lg) (ms : List (Nat × Raw)) : List (LogDest × Bytes) :=
  (List.range ms.length).flatMap fun i =>
    match ms[i]? with
    | some (p, m) => if p = 1 then linesAt s (ms.take i) m else []
    | none => []

/-- what the servers and the main process send to the logger once it runs -/
def ProperLogMsg (x : Nat × Raw) : Prop :=
  (x.1 = 1 ∧ x.2.type = 0 ∧ x.2.data ≠ []) ∨ (x.1 = 0 ∧ (x.2.type = 1 ∨ ((x.2.type = 2 ∨ x.2.type = 3) ∧ x.2.data.length = 4)))

/-- the configuration in use: the last one that was accepted -/
def confInUse (c : LogConf) (evs : List LogEv) : LogConf :=
  evs.foldl (fun c e => match e with | .hupOk _ c' => c' | _ => c) c

/-- the file of the access log -/
def logFile (c : LogConf) : Option Bytes :=
  c.access.map fun a => if c.chroot = [] then a else c.chroot ++ b%"/" ++ a

end Gmid.Spec
