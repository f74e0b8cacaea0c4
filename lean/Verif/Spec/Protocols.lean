import Verif.Model.Protocols

/-!
# What a `protocols` string means

Independent of the code: only `TlsVer`, the list of the versions, comes from the model.
-/

set_option autoImplicit false

namespace Gmid.Spec

/-- what separates the words of the list -/
def SepChar (c : UInt8) : Prop := c = c%',' ∨ c = c%':'

/-- `s` is the list of these strings, with a comma or a colon between each two -/
inductive Fields : Bytes → List Bytes → Prop
  | one (f : Bytes) (h : ∀ c ∈ f, ¬ SepChar c) : Fields f [f]
  | more (f : Bytes) (sep : UInt8) (rest : Bytes) (fs : List Bytes) (h : ∀ c ∈ f, ¬ SepChar c) (hs : SepChar sep) (hr : Fields rest fs) :
      Fields (f ++ sep :: rest) (f :: fs)

/-- the letters A to Z as a to z -/
def small (c : UInt8) : UInt8 := if 65 ≤ c ∧ c ≤ 90 then c + 32 else c

/-- the versions a name stands for.  tlsv1.0 and tlsv1.1, which are not supported any more, are "effectively the minimum
supported version" (the comment in tls.h). -/
def namedVersions (n : Bytes) : List TlsVer :=
  if n ∈ [b%"all", b%"legacy", b%"default", b%"secure", b%"tlsv1"] then [.tls12, .tls13]
  else if n ∈ [b%"tlsv1.0", b%"tlsv1.1", b%"tlsv1.2"] then [.tls12]
  else if n = b%"tlsv1.3" then [.tls13]
  else []

/-- a word of the list: it lets the versions in or keeps them out -/
structure PWord where
  incl : Bool
  vers : List TlsVer
deriving DecidableEq

/-- the field is a word: blanks, an optional exclamation mark, a known name in any case -/
def IsWord (f : Bytes) (w : PWord) : Prop :=
  ∃ blanks name, (∀ c ∈ blanks, c = c%' ' ∨ c = 9) ∧ f = blanks ++ (if w.incl then [] else [c%'!']) ++ name ∧
    w.vers = namedVersions (name.map small) ∧ w.vers ≠ []

/-- each of the fields is the word -/
inductive Words : List Bytes → List PWord → Prop
  | nil : Words [] []
  | cons (f : Bytes) (w : PWord) (fs : List Bytes) (ws : List PWord) (h : IsWord f w) (hs : Words fs ws) : Words (f :: fs) (w :: ws)

/-- what the list lets in: the last word about a version decides; a version no word is about is let in when the list begins
with a word that keeps something out -/
def Enabled (ws : List PWord) (v : TlsVer) : Prop :=
  (∃ pre w post, ws = pre ++ w :: post ∧ w.incl = true ∧ v ∈ w.vers ∧ ∀ u ∈ post, v ∉ u.vers) ∨
  ((v = .tls12 ∨ v = .tls13) ∧ (∃ w rest, ws = w :: rest ∧ w.incl = false) ∧ ∀ u ∈ ws, v ∉ u.vers)

/-- something has been let in whenever the list goes on with a word that keeps something out -/
def NeverEmptied (ws : List PWord) : Prop :=
  ∀ pre w post, ws = pre ++ w :: post → pre ≠ [] → w.incl = false → ∃ v, Enabled pre v

end Gmid.Spec
