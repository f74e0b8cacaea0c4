import Verif.Model.Basic

/-!
# Model of gmid.c: reloading the configuration

The main process, the server processes and the crypto process, with the messages in flight between them.  A whole
configuration (the messages from RECONF_START to RECONF_END) is one message here: C38 shows that they put a process in the
state described by the configuration, whatever it was before.  `X` is the type of configurations.
-/

set_option autoImplicit false

namespace Gmid

/-- a server process or the crypto process: the configuration it uses, and those sent to it but not yet applied -/
structure Child (X : Type) where
  cfg : Option X
  inbox : List X
  deriving Repr, DecidableEq

/-- `prefork` and `reload` are the fields of struct conf in the main process, `dones` the number of IMSG_RECONF_DONE sent to it
and not yet handled, `started` the configurations sent so far (a history variable) -/
structure RSys (X : Type) where
  prefork : Nat
  reload : Nat
  children : List (Child X)
  dones : Nat
  started : List X
  deriving Repr, DecidableEq

/-- what parse_conf does with the file: it fails, or gives a configuration; either way conf->prefork is what the
file says, or else 0 (config_purge, config.c:147, clears struct conf and does not set it) -/
inductive Parsed (X : Type) where
  | fail (prefork : Nat)
  | ok (x : X) (prefork : Nat)
  deriving Repr, DecidableEq

variable {X : Type}

/-- gmid.c:445-469, main_configure -/
def rConfigure (s : RSys X) (x : X) : RSys X :=
  { s with
    reload := s.prefork + 1
    children := s.children.map fun c => { c with inbox := c.inbox ++ [x] }
    started := s.started ++ [x] }

/-- gmid.c:471-481, main_configure_done -/
def rConfigureDone (s : RSys X) : RSys X :=
  if s.reload = 0 then s else { s with reload := s.reload - 1 }

/-- gmid.c:483-509, main_reload; `pr` is the outcome of parse_conf, if it gets there -/
def rReload (s : RSys X) (pr : Parsed X) : RSys X :=
  let prefork := s.prefork
  if s.reload ≠ 0 then s
  else
    match pr with
    | .fail p => { s with prefork := p, reload := 0 }
    | .ok x _ => rConfigure { s with prefork := prefork, reload := 0 } x

/-- one child applies the first configuration sent to it and acknowledges (config.c:740-744, IMSG_RECONF_END) -/
def childApply (c : Child X) : Child X × Nat :=
  match c.inbox with
  | [] => (c, 0)
  | x :: r => ({ cfg := some x, inbox := r }, 1)

/-- what can happen: SIGHUP, child number `i` handles its messages, the main process handles a RECONF_DONE -/
inductive REv (X : Type) where
  | hup (pr : Parsed X)
  | apply (i : Nat)
  | ack
  deriving Repr, DecidableEq

/-- gmid.c:511-541 (main_sig_handler, SIGHUP) and 543-592 (main_dispatch_server, main_dispatch_crypto) -/
def rStep (s : RSys X) : REv X → RSys X
  | .hup pr => rReload s pr
  | .apply i =>
    match s.children[i]? with
    | none => s
    | some c => let (c', n) := childApply c; { s with children := s.children.set i c', dones := s.dones + n }
  | .ack => if s.dones = 0 then s else rConfigureDone { s with dones := s.dones - 1 }

def rRun (s : RSys X) (evs : List (REv X)) : RSys X := evs.foldl rStep s

/-- gmid.c:329-403, in main: `n` server processes and the crypto process, and the first configuration -/
def rInit (n : Nat) (x : X) : RSys X :=
  rConfigure { prefork := n, reload := 0, children := List.replicate (n + 1) { cfg := none, inbox := [] }, dones := 0, started := [] } x

end Gmid
