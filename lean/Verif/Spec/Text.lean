import Verif.Spec.Lex
import Verif.Spec.Compat
import Verif.Model.Grammar

/-!
# How a configuration is written

The text of a configuration as its author sees it: tokens, each after any number of blanks.  The spelling of the keywords is that of the
table of the model (C44).
-/

set_option autoImplicit false

namespace Gmid.Spec

/-- spaces and tabs -/
def Blank (bs : Bytes) : Prop := ∀ c ∈ bs, c = c%' ' ∨ c = c%'\t'

/-- a digit -/
def Digit (c : UInt8) : Prop := 48 ≤ c ∧ c ≤ 57

/-- what a word can be made of -/
def WordChar (c : UInt8) : Prop := 33 ≤ c ∧ c ≤ 126 ∧ c ∉ b%"(){}!=#,;\\"

/-- what a word can begin with -/
def WordStart (c : UInt8) : Prop := (48 ≤ c ∧ c ≤ 57) ∨ (65 ≤ c ∧ c ≤ 90) ∨ (97 ≤ c ∧ c ≤ 122) ∨ c = c%':' ∨ c = c%'_'

/-- what can follow a word -/
def EndsWord (c : UInt8) : Prop := c ∈ b%" \t\n{}=;#,()!"

/-- what can follow a number: not a semicolon, nor an open brace -/
def EndsNumber (c : UInt8) : Prop := c ∈ b%" \t\n}=,/)"

/-- `Written w t next`: the token `t` can be written `w` in front of the character `next` -/
inductive Written : Bytes → Tok → UInt8 → Prop where
  /-- a string between quotes -/
  | quoted (q : UInt8) (t s : Bytes) (next : UInt8) (hq : q = c%'\'' ∨ q = c%'"') (hs : InQuotes q t s) (hl : s.length ≤ 8094) :
      Written (q :: t ++ [q]) (.str s) next
  /-- a string without quotes: it is not a keyword, and if it begins with digits they do not make a number -/
  | word (c : UInt8) (w : Bytes) (next : UInt8) (hc : WordStart c) (hw : ∀ d ∈ w, WordChar d) (hl : w.length ≤ 8094) (hn : EndsWord next)
      (hk : ∀ t, (c :: w, t) ∉ keywords)
      (hd : ∀ ds d r, c :: w ++ [next] = ds ++ d :: r → ds ≠ [] → (∀ x ∈ ds, Digit x) → ¬ Digit d → ¬ EndsNumber d) :
      Written (c :: w) (.str (c :: w)) next
  | keyword (w t : Bytes) (next : UInt8) (h : (w, t) ∈ keywords) (hn : EndsWord next) : Written w (.kw t) next
  | number (ds : Bytes) (next : UInt8) (h0 : ds ≠ []) (hd : ∀ c ∈ ds, Digit c) (hl : ds.length ≤ 8094) (hv : decValue ds ≤ 2147483647)
      (hn : EndsNumber next) : Written ds (.num (decValue ds)) next
  | negative (ds : Bytes) (next : UInt8) (h0 : ds ≠ []) (hd : ∀ c ∈ ds, Digit c) (hl : ds.length ≤ 8093) (hv : decValue ds ≤ 2147483648)
      (hn : EndsNumber next) : Written (c%'-' :: ds) (.num (- (decValue ds : Int))) next
  | symbol (c : UInt8) (next : UInt8) (h : c ∈ b%"{}=*;\n,()!") : Written [c] (.chr c) next

/-- `Text txt ts`: the file `txt` has the tokens `ts`.  The end of the file is as good as a newline. -/
inductive Text : Bytes → List Tok → Prop where
  | done (bs : Bytes) (hb : Blank bs) : Text bs []
  | tok (bs w rest : Bytes) (t : Tok) (ts : List Tok) (hb : Blank bs) (hw : Written w t (rest.headD c%'\n')) (h : Text rest ts) :
      Text (bs ++ w ++ rest) (t :: ts)
  | comment (bs c rest : Bytes) (ts : List Tok) (hb : Blank bs) (hc : ∀ x ∈ c, x ≠ 1 ∧ x ≠ 2 ∧ x ≠ c%'\n' ∧ x ≠ c%'\\') (h : Text rest ts) :
      Text (bs ++ c%'#' :: c ++ c%'\n' :: rest) (.chr c%'\n' :: ts)

/-- what a file says: its tokens, the end left out, are derived from the grammar, and these are the directives they stand for -/
def Says (txt : Bytes) (ds : List Directive) : Prop :=
  ∃ n ts is, lexAll n (lexStart txt []) = ts ++ [.eof] ∧ Grammar ts is ∧ is.flatMap Item.directives = ds

/-- a string that quotes can hold -/
def WritableStr (s : Bytes) : Prop := (∀ c ∈ s, Quotable c) ∧ s.getLast? ≠ some c%'\\' ∧ s.length ≤ 8094

/-- an int -/
def WritableInt (n : Int) : Prop := -2147483648 ≤ n ∧ n ≤ 2147483647

/-! The directives all of whose strings and numbers can be written, and whose `types` blocks have a line, with a name in each. -/

def WritableLocOpt : LocOpt → Prop
  | .autoIndex _ | .block | .fcgiOff | .log _ => True
  | .blockReturn n t => WritableInt n ∧ ∀ s, t = some s → WritableStr s
  | .defaultType s | .index s | .lang s | .requireCa s | .root s => WritableStr s
  | .fcgiParam n v => WritableStr n ∧ WritableStr v
  | .fcgiSocket s p => WritableStr s ∧ ∀ x, p = some x → WritableStr x
  | .fcgiStrip n | .strip n => WritableInt n

def WritablePort : PortArg → Prop
  | .none => True
  | .name s => WritableStr s
  | .num n => WritableInt n

def WritableProxyMatch : ProxyMatch → Prop
  | .proto s => WritableStr s
  | .forHost s p => WritableStr s ∧ WritablePort p

def WritableProxyOpt : ProxyOpt → Prop
  | .cert s | .key s | .protocols s | .requireCa s | .sni s => WritableStr s
  | .relayTo s p => WritableStr s ∧ WritablePort p
  | .proxyV1 | .useTls _ | .verifyName _ => True

def WritableSrvOpt : SrvOpt → Prop
  | .alias s | .cert s | .cgi s | .key s | .ocsp s => WritableStr s
  | .listen h p _ => (∀ s, h = some s → WritableStr s) ∧ WritableStr p
  | .opt o => WritableLocOpt o
  | .location s os => WritableStr s ∧ ∀ o ∈ os, WritableLocOpt o
  | .proxy ms os => (∀ m ∈ ms, WritableProxyMatch m) ∧ ∀ o ∈ os, WritableProxyOpt o

def WritableDirective : Directive → Prop
  | .chroot s | .protocols s | .user s | .logAccess s | .logStyle s | .syslogFacility s => WritableStr s
  | .ipv6 _ | .syslogOff | .syslog => True
  | .port n | .prefork n => WritableInt n
  | .server s os => WritableStr s ∧ ∀ o ∈ os, WritableSrvOpt o
  | .types l => l ≠ [] ∧ ∀ x ∈ l, WritableStr x.1 ∧ x.2 ≠ [] ∧ ∀ s ∈ x.2, WritableStr s

end Gmid.Spec
