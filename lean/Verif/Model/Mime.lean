import Verif.Model.Vhost
import Verif.Model.CStr

/-! # Model of mime.c -/

set_option autoImplicit false

namespace Gmid

/-- strcmp(3), as an ordering of unsigned bytes; the end of a string sorts first -/
def strcmp : Bytes → Bytes → Ordering
  | [], [] => .eq
  | [], _ :: _ => .lt
  | _ :: _, [] => .gt
  | a :: x, b :: y => if a = b then strcmp x y else if a < b then .lt else .gt

/-- `struct etm`, gmid.h: the two strings -/
structure Etm where
  mime : Bytes
  ext : Bytes
  deriving Repr, DecidableEq

/-- `struct mime`: the allocated array (of `cap` slots) and the number of slots in use -/
structure MimeTab where
  t : List Etm
  len : Nat
  cap : Nat
  deriving Repr, DecidableEq

/-- a zeroed slot -/
def Etm.zero : Etm := ⟨[], []⟩

/-- mime.c:25-34, init_mime: 16 zeroed slots -/
def initMime : MimeTab := ⟨List.replicate 16 Etm.zero, 0, 16⟩

/-- `strlcpy(t->field, s, 128)`: the string stored, and whether it was truncated -/
def field128 (s : Bytes) : Bytes × Bool := (s.take 127, decide (s.length ≥ 128))

/-- mime.c:42-50: make room when the array is full.  recallocarray zeroes the new slots and may
fail (`alloc`). -/
def mimeGrow (alloc : Bool) (m : MimeTab) : Option MimeTab :=
  if m.len = m.cap then
    if alloc then
      let newcap := m.cap * 3 / 2
      some ⟨m.t.take newcap ++ List.replicate (newcap - m.cap) Etm.zero, m.len, newcap⟩
    else none
  else some m

/-- mime.c:36-60, add_mime.  `.ok (m, true)` is the return value 0, `.ok (m, false)` is -1 (with
whatever has been modified), `.ub` a write outside the array.  `mime->cap * 1.5` is computed in
floating point and truncated; exact for the sizes at hand. -/
def addMime (alloc : Bool) (m : MimeTab) (mt ext : Bytes) : Res (MimeTab × Bool) :=
  match mimeGrow alloc m with
  | none => .ok (m, false)
  | some m =>
    match m.t[m.len]? with
    | none => .ub
    | some old =>
      let f := field128 mt
      let t1 := m.t.set m.len { old with mime := f.1 }
      if f.2 then .ok ({ m with t := t1 }, false)
      else
        let g := field128 ext
        let t2 := m.t.set m.len { mime := f.1, ext := g.1 }
        if g.2 then .ok ({ m with t := t2 }, false)
        else .ok ({ m with t := t2, len := m.len + 1 }, true)

/-- the entries in use -/
def MimeTab.entries (m : MimeTab) : List Etm := m.t.take m.len

/-- mime.c:64-83, the default table -/
def defaultMimes : List Etm :=
  [⟨b%"application/pdf", b%"pdf"⟩, ⟨b%"image/gif", b%"gif"⟩, ⟨b%"image/jpeg", b%"jpg"⟩,
   ⟨b%"image/jpeg", b%"jpeg"⟩, ⟨b%"image/png", b%"png"⟩, ⟨b%"image/svg+xml", b%"svg"⟩,
   ⟨b%"text/gemini", b%"gemini"⟩, ⟨b%"text/gemini", b%"gmi"⟩, ⟨b%"text/markdown", b%"markdown"⟩,
   ⟨b%"text/markdown", b%"md"⟩, ⟨b%"text/plain", b%"txt"⟩, ⟨b%"text/x-patch", b%"diff"⟩,
   ⟨b%"text/x-patch", b%"patch"⟩, ⟨b%"text/xml", b%"xml"⟩]

/-- mime.c:90-94, the loop of load_default_mime -/
def loadLoop (alloc : Bool) : List Etm → MimeTab → Res (MimeTab × Bool)
  | [], m => .ok (m, true)
  | e :: r, m =>
    match addMime alloc m e.mime e.ext with
    | .ok (m', true) => loadLoop alloc r m'
    | .ok (m', false) => .ok (m', false)
    | .err => .err
    | .ub => .ub

/-- mime.c:62-97, load_default_mime -/
def loadDefaultMime (alloc : Bool) (m : MimeTab) : Res (MimeTab × Bool) :=
  if m.len ≠ 0 then .ok (m, true) else loadLoop alloc defaultMimes m

/-- mime.c:104-110: the scan backwards from the end; the argument is the reversed path, `acc` the
text already passed.  The loop ends before looking at the first byte. -/
def pathExtLoop : Bytes → Bytes → Option Bytes
  | [], _ => none                         -- not reached: the path has a first byte
  | [_], _ => none                        -- end == path
  | c :: r, acc =>
    if c = c%'.' then some acc
    else if c = c%'/' then none
    else pathExtLoop r (c :: acc)

/-- mime.c:99-113, path_ext.  On an empty path the initial pointer lies before the string. -/
def pathExt (path : Bytes) : Res (Option Bytes) :=
  if path = [] then .ub else .ok (pathExtLoop path.reverse [])

/-- bsearch(3) as in libc: the interval `[l, u)`, probing the middle; fuel = size of the table -/
def bsearchLoop (key : Bytes) (t : List Etm) : Nat → Nat → Nat → Option Etm
  | 0, _, _ => none
  | n + 1, l, u =>
    if l < u then
      let i := (l + u) / 2
      match t[i]? with
      | none => none
      | some e =>
        match strcmp key e.ext with
        | .lt => bsearchLoop key t n l i
        | .gt => bsearchLoop key t n (i + 1) u
        | .eq => some e
    else none

def bsearchExt (key : Bytes) (t : List Etm) : Option Etm := bsearchLoop key t (t.length + 1) 0 t.length

/-- mime.c:138-156, mime.  `tab` is the table in use after sort_mime. -/
def mimeType (fnm : Bytes → Bytes → Bool) (tab : List Etm) (v : Option Vhost) (path : Bytes) : Res Bytes :=
  let dflt := vhostDefaultMime fnm v (some path)
  match pathExt path with
  | .ub => .ub
  | .err => .err
  | .ok none => .ok dflt
  | .ok (some ext) =>
    match bsearchExt ext tab with
    | some t => .ok t.mime
    | none => if ext = b%"gmi" || ext = b%"gemini" then .ok b%"text/gemini" else .ok dflt

end Gmid
