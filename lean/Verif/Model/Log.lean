import Verif.Model.Server

/-!
# Model of log.c

The messages of the program.  printf(3) is modelled for the conversions %s, %d, %u, %c and %%; %x and field widths, used by two messages, are not.
-/

set_option autoImplicit false

namespace Gmid

/-- an argument of printf(3) -/
inductive FmtArg where
  | str (s : Bytes)
  | int (n : Int)
  deriving Repr, DecidableEq

/-- printf(3): `none` is undefined behaviour, an argument that is missing or of another kind, or a conversion that is not one -/
def fmtText : Bytes → List FmtArg → Option Bytes
  | [], _ => some []
  | 37 :: 37 :: r, as => (fmtText r as).map (c%'%' :: ·)
  | 37 :: 115 :: r, .str s :: as => (fmtText r as).map (s ++ ·)
  | 37 :: 100 :: r, .int n :: as => (fmtText r as).map (intDec n ++ ·)
  | 37 :: 117 :: r, .int n :: as => if n < 0 then none else (fmtText r as).map (intDec n ++ ·)
  | 37 :: 99 :: r, .int n :: as => if n < 0 ∨ 255 < n then none else (fmtText r as).map (UInt8.ofNat n.toNat :: ·)
  | 37 :: _, _ => none
  | c :: r, as => (fmtText r as).map (c :: ·)

/-- what log.c keeps (lines 31-33), the standard error, what syslogd(8) was sent, errno, and the exit status once the process has ended -/
structure LogSt where
  debug : Bool
  verbose : Bool
  procname : Bytes
  err : Bytes := []
  syslog : List (Nat × Bytes) := []
  errno : Int := 0
  exited : Option Nat := none
  deriving Repr, DecidableEq

/-- the C library: strerror(3); what a call makes of errno; whether the n-th allocation of a call succeeds -/
structure LogLib where
  strerror : Int → Bytes
  clobber : Int → Int
  alloc : Nat → Bool

def logCrit : Nat := 2
def logErr : Nat := 3
def logInfo : Nat := 6
def logDebugPri : Nat := 7

/-- log.c:36-46, log_init -/
def logInit (debug : Bool) (progname : Bytes) (st : LogSt) : LogSt := { st with debug := debug, verbose := debug, procname := progname }

/-- log.c:49-53, log_procinit -/
def logProcinit (name : Option Bytes) (st : LogSt) : LogSt :=
  match name with
  | none => st
  | some n => { st with procname := n }

/-- log.c:56-59, log_setverbose -/
def logSetverbose (v : Bool) (st : LogSt) : LogSt := { st with verbose := v }

/-- log.c:78-97, vlog, and logit (68-75); `k` is the number of its allocation -/
def vlogMsg (lib : LogLib) (k : Nat) (pri : Nat) (fmt : Bytes) (as : List FmtArg) (st : LogSt) : Option LogSt :=
  let saved := st.errno
  if st.debug then
    if lib.alloc k then
      -- asprintf(&nfmt, "%s\n", fmt); vfprintf(stderr, nfmt, ap)
      match fmtText (fmt ++ b%"\n") as with
      | none => none
      | some m => some { st with err := st.err ++ m, errno := saved }
    else
      match fmtText fmt as with
      | none => none
      | some m => some { st with err := st.err ++ m ++ b%"\n", errno := saved }
  else
    match fmtText fmt as with
    | none => none
    | some m => some { st with syslog := st.syslog ++ [(pri, m)], errno := saved }

/-- log.c:100-125, log_warn; `none` for emsg is NULL -/
def logWarn (lib : LogLib) (emsg : Option Bytes) (as : List FmtArg) (st : LogSt) : Option LogSt :=
  let saved := st.errno
  let st := { st with errno := lib.clobber st.errno }
  let r :=
    match emsg with
    | none => vlogMsg lib 0 logErr b%"%s" [.str (lib.strerror saved)] st
    | some f =>
      if lib.alloc 0 then vlogMsg lib 1 logErr (f ++ b%": " ++ lib.strerror saved) as st
      else
        match vlogMsg lib 1 logErr f as st with
        | none => none
        | some st => vlogMsg lib 2 logErr b%"%s" [.str (lib.strerror saved)] st
  r.map fun st => { st with errno := saved }

/-- log.c:128-135, log_warnx -/
def logWarnx (lib : LogLib) (emsg : Bytes) (as : List FmtArg) (st : LogSt) : Option LogSt := vlogMsg lib 0 logErr emsg as st

/-- log.c:138-145, log_info -/
def logInfoMsg (lib : LogLib) (emsg : Bytes) (as : List FmtArg) (st : LogSt) : Option LogSt := vlogMsg lib 0 logInfo emsg as st

/-- log.c:148-157, log_debug -/
def logDebug (lib : LogLib) (emsg : Bytes) (as : List FmtArg) (st : LogSt) : Option LogSt :=
  if st.verbose then vlogMsg lib 0 logDebugPri emsg as st else some st

/-- log.c:160-177, vfatalc; `bufsiz` is BUFSIZ -/
def vfatalc (lib : LogLib) (bufsiz : Nat) (code : Int) (emsg : Option Bytes) (as : List FmtArg) (st : LogSt) : Option LogSt :=
  match (match emsg with | none => some [] | some f => (fmtText f as).map (·.take (bufsiz - 1))) with
  | none => none
  | some s =>
    let sep := if emsg.isSome then b%": " else []
    if code ≠ 0 then vlogMsg lib 0 logCrit b%"fatal in %s: %s%s%s" [.str st.procname, .str s, .str sep, .str (lib.strerror code)] st
    else vlogMsg lib 0 logCrit b%"fatal in %s%s%s" [.str st.procname, .str sep, .str s] st

/-- log.c:180-188, fatal -/
def fatalMsg (lib : LogLib) (bufsiz : Nat) (emsg : Option Bytes) (as : List FmtArg) (st : LogSt) : Option LogSt :=
  (vfatalc lib bufsiz st.errno emsg as st).map fun st => { st with exited := some 1 }

/-- log.c:191-199, fatalx -/
def fatalxMsg (lib : LogLib) (bufsiz : Nat) (emsg : Option Bytes) (as : List FmtArg) (st : LogSt) : Option LogSt :=
  (vfatalc lib bufsiz 0 emsg as st).map fun st => { st with exited := some 1 }

end Gmid
