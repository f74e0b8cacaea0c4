import Verif.Model.Basic

/-!
# Specification: the text of a configuration file
-/

set_option autoImplicit false

namespace Gmid.Spec

/-- a string as it is written between quotes `q`: the quote, spaces and tabs are preceded by a backslash -/
def escapeIn (q : UInt8) : Bytes → Bytes
  | [] => []
  | c :: r => (if c = q ∨ c = c%' ' ∨ c = c%'\t' then [c%'\\', c] else [c]) ++ escapeIn q r

def quoted (q : UInt8) (s : Bytes) : Bytes := q :: escapeIn q s ++ [q]

/-- a byte that can be part of a quoted string: not NUL, not one of the two the lexer keeps for itself, not a newline -/
def Quotable (c : UInt8) : Prop := c ≠ 0 ∧ c ≠ 1 ∧ c ≠ 2 ∧ c ≠ c%'\n'

/-- `InQuotes q t s`: the text `t` between two quotes `q` stands for the string `s`.  A backslash makes the quote, a space or a tab part of the
string, and is part of it itself before anything else; spaces and tabs need none; a newline, with a backslash or without, is left out. -/
inductive InQuotes (q : UInt8) : Bytes → Bytes → Prop where
  | nil : InQuotes q [] []
  | char (c : UInt8) (t s : Bytes) (hc : Quotable c) (hq : c ≠ q) (hb : c ≠ c%'\\') (h : InQuotes q t s) : InQuotes q (c :: t) (c :: s)
  | escaped (c : UInt8) (t s : Bytes) (hc : c = q ∨ c = c%' ' ∨ c = c%'\t') (h : InQuotes q t s) : InQuotes q (c%'\\' :: c :: t) (c :: s)
  | backslash (d : UInt8) (t s : Bytes) (hd : d ∉ [q, c%' ', c%'\t', c%'\n']) (h : InQuotes q (d :: t) s) :
      InQuotes q (c%'\\' :: d :: t) (c%'\\' :: s)
  | newline (t s : Bytes) (h : InQuotes q t s) : InQuotes q (c%'\n' :: t) s
  | joined (t s : Bytes) (h : InQuotes q t s) : InQuotes q (c%'\\' :: c%'\n' :: t) s

/-- text without the two bytes the lexer keeps for itself -/
def Plain (s : Bytes) : Prop := ∀ c ∈ s, c ≠ 1 ∧ c ≠ 2

/-- a byte of the name of a macro -/
def MacroChar (c : UInt8) : Prop :=
  (c%'a' ≤ c ∧ c ≤ c%'z') ∨ (c%'A' ≤ c ∧ c ≤ c%'Z') ∨ (c%'0' ≤ c ∧ c ≤ c%'9') ∨ c = c%'_'

end Gmid.Spec
