import Verif.Model.Parse

/-!
# Model of the lexer of parse.y

Line numbers are not modelled.  Characters are `some c`, EOF is `none`.  isalnum(3) and the like are those of Model/Basic.lean.
getc(3) at the end of a file keeps returning EOF, and there are no read errors.
-/

set_option autoImplicit false

namespace Gmid

/-- START_EXPAND and DONE_EXPAND (parse.y:804-805) -/
abbrev startExpand : UInt8 := 1
abbrev doneExpand : UInt8 := 2

/-- struct file (parse.y:45-55).  `unget` is ungetbuf[0..ungetpos), last byte first; `cap` is ungetsize; `stream` is what
getc(3) has still to return. -/
structure LFile where
  unget : Bytes
  cap : Nat
  stream : Bytes
  eofReached : Bool
  errors : Nat
  deriving Repr, DecidableEq

/-- the state of the lexer: `file`, the files that include it (its predecessor in `files` first; topfile is the last, or
`file` itself if there is none), `expanding` and the macros -/
structure Lex where
  file : LFile
  outer : List LFile
  expanding : Bool
  syms : List Sym
  deriving Repr, DecidableEq

/-- the loop of igetc on a sequence of bytes: the character, what follows, `expanding` -/
def igetcFrom : Bool → Bytes → Option UInt8 × Bytes × Bool
  | e, [] => (none, [], e)
  | e, c :: r =>
    if c = startExpand then igetcFrom true r
    else if c = doneExpand then igetcFrom false r
    else (some c, r, e)

/-- parse.y:809-828, igetc -/
def igetc (l : Lex) : Option UInt8 × Lex :=
  match igetcFrom l.expanding l.file.unget with
  | (some c, r, e) => (some c, { l with file := { l.file with unget := r }, expanding := e })
  | (none, _, e) =>
    match igetcFrom e l.file.stream with
    | (c, r, e) => (c, { l with file := { l.file with unget := [], stream := r }, expanding := e })

/-- yyerror (parse.y:757-769) -/
def Lex.yyerror (l : Lex) : Lex := { l with file := { l.file with errors := l.file.errors + 1 } }

/-- parse.y:1107-1122, popfile, when there is a previous file: its errors are added to those of that one -/
def Lex.popTo (l : Lex) (f : LFile) (fs : List LFile) : Lex :=
  { l with file := { f with errors := f.errors + l.file.errors }, outer := fs }

/-- parse.y:833-842, lgetc with a quote -/
def lgetcQ (q : UInt8) (l : Lex) : Option UInt8 × Lex :=
  match igetc l with
  | (some c, l) => (some c, l)
  | (none, l) =>
    match l.outer with
    | [] => (none, l.yyerror)
    | f :: fs => (some q, l.yyerror.popTo f fs)

/-- how many bytes of the current file are left -/
def LFile.left (f : LFile) : Nat := f.unget.length + f.stream.length

/-- parse.y:845-853, the loop over continuation lines; `n` bounds its turns: they are at most the bytes left -/
def contLoop : Nat → Lex → Option UInt8 × Lex
  | 0, l => (none, l)
  | n + 1, l =>
    match igetc l with
    | (some c, l) =>
      if c = c%'\\' then
        match igetc l with
        | (some d, l) => if d = c%'\n' then contLoop n l else (some d, l)
        | (none, l) => (none, l)
      else (some c, l)
    | (none, l) => (none, l)

/-- parse.y:865-869, the loop over the including files -/
def popFiles : List LFile → Lex → Option UInt8 × Lex
  | [], l => (none, l)
  | f :: fs, l =>
    match igetc (l.popTo f fs) with
    | (some c, l) => (some c, l)
    | (none, l) => popFiles fs l

/-- parse.y:830-872, lgetc(0) -/
def lgetc (l : Lex) : Option UInt8 × Lex :=
  match contLoop (l.file.left + 1) l with
  | (some c, l) => (some c, l)
  | (none, l) =>
    if l.file.eofReached then popFiles l.outer l
    else (some c%'\n', { l with file := { l.file with eofReached := true } })

/-- parse.y:874-889, lungetc -/
def lungetc (c : Option UInt8) (l : Lex) : Lex :=
  match c with
  | none => l
  | some c =>
    let cap := if l.file.unget.length ≥ l.file.cap then l.file.cap * 2 else l.file.cap
    { l with file := { l.file with unget := c :: l.file.unget, cap := cap } }

/-- bounds how many characters lgetc can still return -/
def LFile.weight (f : LFile) : Nat := f.left + (if f.eofReached then 1 else 2)
def Lex.weight (l : Lex) : Nat := l.file.weight + (l.outer.map LFile.weight).sum

/-- what yylex returns; `kw` is a keyword, `chr` any other character, `eof` is 0 -/
inductive Tok where
  | str (s : Bytes)
  | num (n : Int)
  | kw (t : Bytes)
  | chr (c : UInt8)
  | error
  | eof
  deriving Repr, DecidableEq

/-- the outcome of a piece of yylex: `go` when it does not return; `ub` is a write out of buf; `fuel` that a loop did not end -/
inductive LexRes (α : Type) where
  | go (a : α) (l : Lex)
  | tok (t : Tok) (l : Lex)
  | ub
  | fuel
  deriving Repr, DecidableEq

/-- parse.y:891-907, findeol; `none` when `n` turns are not enough -/
def findeolN : Nat → Lex → LexRes Empty
  | 0, _ => .fuel
  | n + 1, l =>
    match lgetc l with
    | (none, l) => .tok .error l
    | (some c, l) => if c = c%'\n' then .tok .error l else findeolN n l

/-- findeol, with as many turns as there can be -/
def findeol {α : Type} (l : Lex) : LexRes α :=
  match findeolN (l.weight + 1) l with
  | .tok t l => .tok t l
  | .ub => .ub
  | _ => .fuel

/-- sizeof(buf) in yylex -/
abbrev bufSize : Nat := 8096

/-- parse.y:918-919, the spaces before a token -/
def skipBlanks : Nat → Lex → LexRes (Option UInt8)
  | 0, _ => .fuel
  | n + 1, l =>
    match lgetc l with
    | (some c, l) => if c = c%' ' ∨ c = c%'\t' then skipBlanks n l else .go (some c) l
    | (none, l) => .go none l

/-- parse.y:923-924, the body of a comment -/
def skipComment : Nat → Lex → LexRes (Option UInt8)
  | 0, _ => .fuel
  | n + 1, l =>
    match lgetc l with
    | (some c, l) => if c = c%'\n' then .go (some c) l else skipComment n l
    | (none, l) => .go none l

/-- a character of the name of a macro -/
def nameChar (c : UInt8) : Bool := isAlnum c || c = c%'_'

/-- parse.y:926-940 and 950-965, the name of a macro -/
def readName : Nat → Bytes → Lex → LexRes Bytes
  | 0, _, _ => .fuel
  | n + 1, buf, l =>
    match lgetc l with
    | (none, l) => .tok .eof l
    | (some c, l) =>
      if buf.length + 1 ≥ bufSize - 1 then findeol l.yyerror
      else if nameChar c then
        (if buf.length < bufSize then readName n (buf ++ [c]) l else .ub)
      else (if buf.length < bufSize then .go buf (lungetc (some c) l) else .ub)

/-- parse.y:983-1017, a quoted string -/
def readQuoted (q : UInt8) : Nat → Bytes → Lex → LexRes Bytes
  | 0, _, _ => .fuel
  | n + 1, buf, l =>
    let put (c : UInt8) (l : Lex) : LexRes Bytes :=
      if buf.length + 1 ≥ bufSize - 1 then findeol l.yyerror
      else if buf.length < bufSize then readQuoted q n (buf ++ [c]) l else .ub
    match lgetcQ q l with
    | (none, l) => .tok .eof l
    | (some c, l) =>
      if c = c%'\n' then readQuoted q n buf l
      else if c = c%'\\' then
        match lgetcQ q l with
        | (none, l) => .tok .eof l
        | (some d, l) =>
          if d = q ∨ d = c%' ' ∨ d = c%'\t' then put d l
          else if d = c%'\n' then readQuoted q n buf l
          else put c (lungetc (some d) l)
      else if c = q then (if buf.length < bufSize then .go buf l else .ub)
      else if c = 0 then findeol l.yyerror
      else put c l

/-- parse.y:1020-1021, allowed_to_end_number -/
def endsNumber (c : UInt8) : Bool :=
  isSpace c || c = c%')' || c = c%',' || c = c%'/' || c = c%'}' || c = c%'='

/-- ispunct(3) -/
def isPunct (c : UInt8) : Bool := 33 ≤ c && c ≤ 126 && !isAlnum c

/-- parse.y:1054-1058, allowed_in_string -/
def inString (c : UInt8) : Bool :=
  isAlnum c || (isPunct c && c ≠ c%'(' && c ≠ c%')' && c ≠ c%'{' && c ≠ c%'}' && c ≠ c%'!' && c ≠ c%'=' && c ≠ c%'#' &&
    c ≠ c%',' && c ≠ c%';')

/-- parse.y:1024-1031 and 1061-1068, the loop over the characters of a number or a word: what was read and the character after it,
already pushed back -/
def readWhile (p : UInt8 → Bool) : Nat → Bytes → UInt8 → Lex → LexRes (Bytes × Option UInt8)
  | 0, _, _, _ => .fuel
  | n + 1, buf, c, l =>
    if buf.length < bufSize then
      if (buf ++ [c]).length ≥ bufSize then findeol l.yyerror
      else
        match lgetc l with
        | (some d, l) => if p d then readWhile p n (buf ++ [c]) d l else .go (buf ++ [c], some d) (lungetc (some d) l)
        | (none, l) => .go (buf ++ [c], none) l
    else .ub

/-- lungetc(*--p) for every byte but the first, from the last one (parse.y:1046-1047) -/
def lungetAll (s : Bytes) (l : Lex) : Lex := s.reverse.foldl (fun l c => lungetc (some c) l) l

/-- parse.y:1060-1073, a word -/
def readWord (c : UInt8) (l : Lex) : LexRes Empty :=
  match readWhile inString (l.weight + 2) [] c l with
  | .go (w, _) l =>
    if w.length < bufSize then
      match lookupKw w with
      | some t => .tok (.kw t) l
      | none => .tok (.str w) l
    else .ub
  | .tok t l => .tok t l
  | .ub => .ub
  | .fuel => .fuel

/-- parse.y:1060-1082, the rest of yylex, from the words on -/
def lexRest (c : Option UInt8) (l : Lex) : LexRes Empty :=
  match c with
  | none => .tok .eof l
  | some c =>
    if isAlnum c || c = c%':' || c = c%'_' then readWord c l
    else if c = 0 then .tok .eof l
    else .tok (.chr c) l

/-- parse.y:1023-1051, a number, or what only looked like it -/
def readNumber (c : UInt8) (l : Lex) : LexRes Empty :=
  match readWhile isDigit (l.weight + 2) [] c l with
  | .go (s, d) l =>
    if s ≠ [c%'-'] ∧ (d.map endsNumber).getD true then
      if s.length < bufSize then
        match numToken s with
        | some n => .tok (.num n) l
        | none => findeol l.yyerror
      else .ub
    else
      -- nodigits
      match s with
      | [] => .ub
      | c :: r => if c = c%'-' then .tok (.chr c) (lungetAll r l) else lexRest (some c) (lungetAll r l)
  | .tok t l => .tok t l
  | .ub => .ub
  | .fuel => .fuel

/-- parse.y:978-1082, yylex from the switch on -/
def lexSwitch (c : Option UInt8) (l : Lex) : LexRes Empty :=
  match c with
  | none => lexRest none l
  | some c =>
    if c = c%'\'' ∨ c = c%'"' then
      match readQuoted c (l.weight + 1) [] l with
      | .go s l => .tok (.str s) l
      | .tok t l => .tok t l
      | .ub => .ub
      | .fuel => .fuel
    else if c = c%'-' ∨ isDigit c then readNumber c l
    else lexRest (some c) l

/-- parse.y:967-976, the value of a macro is put in front of the input -/
def pushMacro (v : Bytes) (l : Lex) : Lex :=
  lungetc (some startExpand) (lungetAll v (lungetc (some doneExpand) l))

/-- parse.y:909-1085, yylex; `n` bounds the turns of `goto top` -/
def yylexN : Nat → Lex → LexRes Empty
  | 0, _ => .fuel
  | n + 1, l =>
    match skipBlanks (l.weight + 1) l with
    | .tok t l => .tok t l
    | .ub => .ub
    | .fuel => .fuel
    | .go c l =>
      match (if c = some c%'#' then skipComment (l.weight + 1) l else .go c l) with
      | .tok t l => .tok t l
      | .ub => .ub
      | .fuel => .fuel
      | .go c l =>
        if c = some c%'$' ∧ l.expanding = false then
          match readName (l.weight + 1) [] l with
          | .tok t l => .tok t l
          | .ub => .ub
          | .fuel => .fuel
          | .go nm l =>
            match symget l.syms nm with
            | none => findeol l.yyerror
            | some v => .tok (.str v) l
        else if c = some c%'@' ∧ l.expanding = false then
          match readName (l.weight + 1) [] l with
          | .tok t l => .tok t l
          | .ub => .ub
          | .fuel => .fuel
          | .go nm l =>
            match symget l.syms nm with
            | none => findeol l.yyerror
            | some v => yylexN n (pushMacro v l)
        else lexSwitch c l

/-- all the bytes that are still to be read -/
def LFile.flat (f : LFile) : Bytes := f.unget ++ f.stream
def Lex.whole (l : Lex) : Bytes := l.file.flat ++ (l.outer.map LFile.flat).flatten

/-- yylex, with a bound on the macros it can expand in a row -/
def yylex (l : Lex) : LexRes Empty := yylexN (l.whole.length + 1) l

/-- parse.y:1087-1105, pushfile, once the file is open, and 175, in include: it becomes the current one -/
def pushFile (contents : Bytes) (l : Lex) : Lex :=
  { l with file := { unget := [], cap := 16, stream := contents, eofReached := false, errors := 0 }, outer := l.file :: l.outer }

/-- the lexer in parse_conf, before yyparse (parse.y:1130-1137) -/
def lexStart (contents : Bytes) (syms : List Sym) : Lex :=
  { file := { unget := [], cap := 16, stream := contents, eofReached := false, errors := 0 }, outer := [], expanding := false, syms := syms }

/-- the tokens yyparse gets when it does not include files or set macros, until the end, an error of the lexer that does not end or
`n` tokens -/
def lexAll : Nat → Lex → List Tok
  | 0, _ => []
  | n + 1, l =>
    match yylex l with
    | .tok .eof _ => [.eof]
    | .tok t l => t :: lexAll n l
    | _ => []

/-- parse.y:1139-1155, the end of parse_conf, after yyparse: the errors of the file that was being read -/
def parseFailed (l : Lex) : Bool := l.file.errors ≠ 0

end Gmid
