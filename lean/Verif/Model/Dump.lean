import Verif.Model.Pki

/-!
# gmid -n

The check of a configuration (gmid.c:238-357 with -n) and the dump of it (with -n twice).
-/

set_option autoImplicit false

namespace Gmid

/-- gmid.c:626-632, in main_print_conf: a server.  printf(3) of a path that is not set is left out: accepted files set both. -/
def printHost (h : CHost) : Bytes :=
  b%"\nserver \"" ++ h.domain ++ b%"\" {\n\tcert \"" ++ h.certPath.getD [] ++ b%"\"\n\tkey \"" ++ h.keyPath.getD [] ++ b%"\"\n}\n"

/-- gmid.c:610-633, main_print_conf: what it writes on the standard output -/
def printConf (c : CConf) : Bytes :=
  (if c.chroot ≠ [] then b%"chroot \"" ++ c.chroot ++ b%"\"\n" else []) ++
  (b%"prefork " ++ intDec c.prefork ++ b%"\n") ++
  (if c.user ≠ [] then b%"user \"" ++ c.user ++ b%"\"\n" else []) ++
  c.hosts.flatMap printHost

variable {X K P : Type} (lib : PkiLib X K P)

/-- gmid.c:319-357, main of the parent with -n given `n` > 0 times, run by root: the exit status and the standard output.  What goes to the
standard error is left out. -/
def gmidTest [DecidableEq P] (penv : PEnv) (home : Bytes → Option Bytes) (files : Bytes → Option Bytes) (junk : Nat → Bytes)
    (dirs : Bytes → Option Int) (n : Nat) (ds : List Directive) : Nat × Bytes :=
  match mainStart penv home ds with
  | none => (1, [])
  | some c =>
    match configTest lib files junk dirs c with
    | some true => (0, if n > 1 then printConf c else [])
    | _ => (1, [])

end Gmid
