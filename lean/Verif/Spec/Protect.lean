import Verif.Spec.Server

/-!
# Specification: a protected directory

`location "/private/*" { ... }`: what the author of the block wants kept from the public.
-/

set_option autoImplicit false

namespace Gmid.Spec

/-- the text has no character that is special to fnmatch(3) -/
def GlobPlain (d : List UInt8) : Prop := ∀ c ∈ d, c ∉ b%"*?[\\"

/-- what fnmatch(3), without flags, makes of plain text followed by an asterisk: it matches the strings that start with the text -/
def GlobLaw (fnm : List UInt8 → List UInt8 → Bool) : Prop := ∀ d s, GlobPlain d → (fnm (d ++ b%"*") s = true ↔ d <+: s)

/-- what fnmatch(3) makes of plain text: it matches itself -/
def GlobExact (fnm : List UInt8 → List UInt8 → Bool) : Prop := ∀ d s, GlobPlain d → (fnm d s = true ↔ d = s)

/-- the name is that of something in the directory `d` (or of the directory itself, as a directory) -/
def InDir (d name : List UInt8) : Prop := d ++ b%"/" <+: name

/-- the server has a block `location "d/*"` that sets the option, and no location before it sets it -/
def DirBlock (set : Location → Prop) (v : Vhost) (d : List UInt8) (l : Location) : Prop :=
  GlobPlain d ∧ l.pat = d ++ b%"/*" ∧ set l ∧ ∃ before after, v.locs = before ++ l :: after ∧ ∀ x ∈ before, ¬ set x

/-- names are not changed on their way from the request to the file system: no `strip`, and no `index` with a slash -/
def PlainNames (v : Vhost) : Prop := v.dflt.strip = 0 ∧ c%'/' ∉ v.dflt.index ∧ ∀ l ∈ v.locs, l.strip = 0 ∧ c%'/' ∉ l.index

end Gmid.Spec
