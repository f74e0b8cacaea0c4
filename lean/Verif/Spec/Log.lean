import Verif.Model.Log

/-!
# Specification: messages

A format as its author reads it: literal text and arguments.
-/

set_option autoImplicit false

namespace Gmid.Spec

/-- `Formats f as m`: with the format `f` and the arguments `as` the message is `m` -/
inductive Formats : Bytes → List FmtArg → Bytes → Prop where
  | done (as : List FmtArg) : Formats [] as []
  | char (c : UInt8) (f : Bytes) (as : List FmtArg) (m : Bytes) (hc : c ≠ c%'%') (h : Formats f as m) : Formats (c :: f) as (c :: m)
  | percent (f : Bytes) (as : List FmtArg) (m : Bytes) (h : Formats f as m) : Formats (b%"%%" ++ f) as (c%'%' :: m)
  | str (s f : Bytes) (as : List FmtArg) (m : Bytes) (h : Formats f as m) : Formats (b%"%s" ++ f) (.str s :: as) (s ++ m)
  | int (n : Int) (f : Bytes) (as : List FmtArg) (m : Bytes) (h : Formats f as m) : Formats (b%"%d" ++ f) (.int n :: as) (intDec n ++ m)
  | nat (n : Nat) (f : Bytes) (as : List FmtArg) (m : Bytes) (h : Formats f as m) : Formats (b%"%u" ++ f) (.int n :: as) (natDec n ++ m)
  | byte (c : UInt8) (f : Bytes) (as : List FmtArg) (m : Bytes) (h : Formats f as m) : Formats (b%"%c" ++ f) (.int c.toNat :: as) (c :: m)

/-- the messages `ms` of the level `pri` were written, in this order: in the foreground on lines of their own on the standard error, otherwise to syslogd.
Nothing else has changed. -/
def Logs (pri : Nat) (ms : List Bytes) (st st' : LogSt) : Prop :=
  st' = if st.debug then { st with err := st.err ++ ms.flatMap (· ++ b%"\n") } else { st with syslog := st.syslog ++ ms.map fun m => (pri, m) }

end Gmid.Spec
