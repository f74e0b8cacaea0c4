import Verif.Model.Cli
import Verif.Spec.Exec
import Verif.Spec.Compat
import Verif.Spec.TlsName
import Verif.Spec.Clients

/-!
# The command lines of gg(1) and titan(1)
-/

set_option autoImplicit false

namespace Gmid.Spec

/-- the arguments `args` are options written as POSIX wants them, and give the options `os`, each with its argument: alone, with their
argument in the next word or in the same one, or several in one word.  `flags` are the letters without an argument, `valued` the others. -/
inductive OptLine (flags valued : List UInt8) : List Bytes → List (UInt8 × Bytes) → Prop where
  | nil : OptLine flags valued [] []
  | flag (c : UInt8) (rest : List Bytes) (os : List (UInt8 × Bytes)) : c ∈ flags → OptLine flags valued rest os →
      OptLine flags valued ([c%'-', c] :: rest) ((c, []) :: os)
  | apart (c : UInt8) (v : Bytes) (rest : List Bytes) (os : List (UInt8 × Bytes)) : c ∈ valued → OptLine flags valued rest os →
      OptLine flags valued ([c%'-', c] :: v :: rest) ((c, v) :: os)
  | joined (c : UInt8) (v : Bytes) (rest : List Bytes) (os : List (UInt8 × Bytes)) : c ∈ valued → v ≠ [] → OptLine flags valued rest os →
      OptLine flags valued ((c%'-' :: c :: v) :: rest) ((c, v) :: os)
  | cluster (c d : UInt8) (r : Bytes) (rest : List Bytes) (os : List (UInt8 × Bytes)) : c ∈ flags → OptLine flags valued ((c%'-' :: d :: r) :: rest) os →
      OptLine flags valued ((c%'-' :: c :: d :: r) :: rest) ((c, []) :: os)

/-- what follows the options: these arguments, the first of which may not look like an option unless `--` precedes them -/
def Operands (tail ops : List Bytes) : Prop :=
  tail = b%"--" :: ops ∨ (tail = ops ∧ ∀ r, ops.head? = some (c%'-' :: r) → r = [])

/-- the command line `args` has the options `os` and the arguments `ops` -/
def CliLine (flags valued : List UInt8) (args : List Bytes) (os : List (UInt8 × Bytes)) (ops : List Bytes) : Prop :=
  ∃ pre tail, args = pre ++ tail ∧ OptLine flags valued pre os ∧ Operands tail ops

/-- the option is there -/
def Has (c : UInt8) (os : List (UInt8 × Bytes)) : Prop := ∃ v, (c, v) ∈ os

/-! ## gg(1) -/

def ggFlags : List UInt8 := [c%'2', c%'3', c%'N', c%'n', c%'q']
def ggValued : List UInt8 := [c%'C', c%'d', c%'H', c%'K', c%'P', c%'T']

/-- the modes of `-d` -/
inductive ModeNamed : Bytes → GgMode → Prop where
  | none : ModeNamed b%"none" .none
  | code : ModeNamed b%"code" .code
  | header : ModeNamed b%"header" .header
  | onlyMeta : ModeNamed b%"meta" .onlyMeta
  | all : ModeNamed b%"all" .all

/-- the argument of `-P` -/
inductive ProxyArg : Bytes → Bytes × Bytes → Prop where
  | host (h : Bytes) : c%':' ∉ h → h.head? ≠ some c%'[' → ProxyArg h (h, b%"1965")
  | hostPort (h p : Bytes) : c%':' ∉ h → h.head? ≠ some c%'[' → ProxyArg (h ++ b%":" ++ p) (h, p)
  | addr (h : Bytes) : c%']' ∉ h → ProxyArg (b%"[" ++ h ++ b%"]") (h, b%"1965")
  | addrPort (h p : Bytes) : c%']' ∉ h → ProxyArg (b%"[" ++ h ++ b%"]:" ++ p) (h, p)

/-- the argument of `-T`: a number from 1 to 1000 -/
def Seconds (v : Bytes) (n : Int) : Prop := StrtonumForm v n ∧ 1 ≤ n ∧ n ≤ 1000

/-- the options are ones gg(1) allows: every argument is as it should be, `-2` and `-3` are not both given, and `-C` and `-K` both or none -/
structure GgAllowed (os : List (UInt8 × Bytes)) : Prop where
  modes : ∀ v, (c%'d', v) ∈ os → ∃ m, ModeNamed v m
  proxies : ∀ v, (c%'P', v) ∈ os → ∃ p, ProxyArg v p
  seconds : ∀ v, (c%'T', v) ∈ os → ∃ n, Seconds v n
  oneVersion : ¬ (Has c%'2' os ∧ Has c%'3' os)
  pair : Has c%'C' os ↔ Has c%'K' os

/-- what the options of the command line ask for -/
structure GgSet (os : List (UInt8 × Bytes)) (o : GgOpts) : Prop where
  two : o.two = true ↔ Has c%'2' os
  three : o.three = true ↔ Has c%'3' os
  cert : o.cert = lastArg c%'C' os
  key : o.key = lastArg c%'K' os
  sni : o.sni = lastArg c%'H' os
  mode : (lastArg c%'d' os = none ∧ o.mode = .none) ∨ ∃ v, lastArg c%'d' os = some v ∧ ModeNamed v o.mode
  noVerify : o.noVerify = true ↔ Has c%'N' os ∨ Has c%'P' os
  nop : o.nop = true ↔ Has c%'n' os
  quiet : o.quiet = true ↔ Has c%'q' os
  proxy : (lastArg c%'P' os = none ∧ o.proxy = none) ∨ ∃ v p, lastArg c%'P' os = some v ∧ ProxyArg v p ∧ o.proxy = some p
  timer : (lastArg c%'T' os = none ∧ o.timer = 0) ∨ ∃ v, lastArg c%'T' os = some v ∧ Seconds v o.timer

/-- the certificate is for `name`, less the final dot of a full domain name -/
def CertIsFor (inet : Bytes → Option Bytes) (cert : Option CertNames) (name : Bytes) : Prop :=
  ∃ c n, cert = some c ∧ (name = n ++ b%"." ∨ (name = n ∧ ∀ m, name ≠ m ++ b%".")) ∧ Covers (inet n) c n

/-- the host and port that are asked for: those of the last `-P`, or else those of the url, 1965 if it has none -/
def GgHost (os : List (UInt8 × Bytes)) (i : Iri) (hp : Bytes × Bytes) : Prop :=
  (∃ v, lastArg c%'P' os = some v ∧ ProxyArg v hp) ∨
  (lastArg c%'P' os = none ∧ hp.1 = i.host ∧ (i.port = [] ∧ hp.2 = b%"1965" ∨ i.port ≠ [] ∧ hp.2 = i.port))

/-- the name that is asked for: the last `-H`, or else the host -/
def GgName (os : List (UInt8 × Bytes)) (host name : Bytes) : Prop :=
  lastArg c%'H' os = some name ∨ (lastArg c%'H' os = none ∧ name = host)

/-- the versions of TLS that may be used -/
def GgVersion (os : List (UInt8 × Bytes)) (v : TlsVer) : Prop :=
  (v = .tls12 ∧ ¬ Has c%'3' os) ∨ (v = .tls13 ∧ ¬ Has c%'2' os)

/-! ## titan(1) -/

def titanValued : List UInt8 := [c%'C', c%'K', c%'m', c%'t']

/-- what the options of titan(1) ask for: `-K` defaults to `-C` -/
structure TitanSet (os : List (UInt8 × Bytes)) (o : TitanOpts) : Prop where
  cert : o.cert = lastArg c%'C' os
  key : (lastArg c%'K' os ≠ none → o.key = lastArg c%'K' os) ∧ (lastArg c%'K' os = none → o.key = lastArg c%'C' os)
  mime : o.mime = lastArg c%'m' os
  token : o.token = lastArg c%'t' os

/-- everything there is on standard input, if it can be read to its end -/
def everything : List InRead → Option Bytes
  | [] => some []
  | .fail :: _ => none
  | .data _ _ true :: _ => none
  | .data b t false :: r => (everything r).map (b :: t ++ ·)

end Gmid.Spec
