import Verif.Model.Exec

/-!
# Model of how a process gives up its privileges

proc.c:588-591 and the replacements of setresuid(2) and setresgid(2), compat/setresuid.c and compat/setresgid.c, over a kernel's rules for user and
group ids.  The rules are those of Linux (credentials(7)); privileged is who has the effective user id 0: capabilities given otherwise, securebits and user
namespaces are left out.  `fail` is whether the kernel refuses a call for another reason, such as EAGAIN.  An id is 32 bits wide and `noId` is (uid_t)-1.
-/

set_option autoImplicit false

namespace Gmid

/-- the real, effective and saved set id -/
structure Ids where
  r : Nat
  e : Nat
  s : Nat
  deriving Repr, DecidableEq

/-- user ids, group ids and supplementary groups of a process -/
structure Creds where
  u : Ids
  g : Ids
  groups : List Nat
  deriving Repr, DecidableEq

/-- (uid_t)-1 -/
def noId : Nat := 4294967295

/-- Linux: may a process with the ids `i` take the id `x`? -/
def Ids.has (i : Ids) (x : Nat) : Bool := x == i.r || x == i.e || x == i.s

/-- setuid(2) and setgid(2) -/
def kSet (fail priv : Bool) (x : Nat) (i : Ids) : Option Ids :=
  if fail || x == noId then none
  else if priv then some { r := x, e := x, s := x }
  else if x == i.r || x == i.s then some { i with e := x }
  else none

/-- seteuid(3) and setegid(3), which are setresuid(-1, x, -1) -/
def kSetE (fail priv : Bool) (x : Nat) (i : Ids) : Option Ids :=
  if fail || x == noId then none
  else if priv || i.has x then some { i with e := x }
  else none

/-- the new value of an id that is left alone when it is `noId` -/
def orKeep (x old : Nat) : Nat := if x == noId then old else x

/-- setreuid(2) and setregid(2) -/
def kSetRe (fail priv : Bool) (r e : Nat) (i : Ids) : Option Ids :=
  if fail then none
  else if !(priv || ((r == noId || r == i.r || r == i.e) && (e == noId || i.has e))) then none
  else
    let e' := orKeep e i.e
    some { r := orKeep r i.r, e := e', s := if r != noId || (e != noId && e != i.r) then e' else i.s }

/-- setresuid(2) and setresgid(2) of the kernel -/
def kSetRes (fail priv : Bool) (r e s : Nat) (i : Ids) : Option Ids :=
  if fail then none
  else if !(priv || ((r == noId || i.has r) && (e == noId || i.has e) && (s == noId || i.has s))) then none
  else some { r := orKeep r i.r, e := orKeep e i.e, s := orKeep s i.s }

/-- may the process change its ids at will? -/
def Creds.priv (c : Creds) : Bool := c.u.e == 0

/-- the system calls that change ids -/
inductive IdCall where
  | setuid (x : Nat)
  | seteuid (x : Nat)
  | setreuid (r e : Nat)
  | setresuid (r e s : Nat)
  | setgid (x : Nat)
  | setegid (x : Nat)
  | setregid (r e : Nat)
  | setresgid (r e s : Nat)
  | setgroups (l : List Nat)
  deriving Repr, DecidableEq

/-- one call: `none` is -1 -/
def idCall (fail : Bool) (x : IdCall) (c : Creds) : Option Creds :=
  let us (r : Option Ids) : Option Creds := r.map fun u => { c with u := u }
  let gs (r : Option Ids) : Option Creds := r.map fun g => { c with g := g }
  match x with
  | .setuid x => us (kSet fail c.priv x c.u)
  | .seteuid x => us (kSetE fail c.priv x c.u)
  | .setreuid r e => us (kSetRe fail c.priv r e c.u)
  | .setresuid r e s => us (kSetRes fail c.priv r e s c.u)
  | .setgid x => gs (kSet fail c.priv x c.g)
  | .setegid x => gs (kSetE fail c.priv x c.g)
  | .setregid r e => gs (kSetRe fail c.priv r e c.g)
  | .setresgid r e s => gs (kSetRes fail c.priv r e s c.g)
  | .setgroups l => if fail || !c.priv || l.contains noId then none else some { c with groups := l }

/-- the credentials after a call, whether it succeeded or not -/
def afterCall (fail : Bool) (x : IdCall) (c : Creds) : Creds := (idCall fail x c).getD c

/-- compat/setresuid.c:46-47, `setuid(ouid) != -1 && seteuid(ouid) != -1`: what they leave, and whether both succeeded -/
def goBack (fail : Nat → Bool) (ouid : Nat) (c1 : Creds) : Creds × Bool :=
  match idCall (fail 3) (.setuid ouid) c1 with
  | none => (c1, false)
  | some c2 =>
    match idCall (fail 4) (.seteuid ouid) c2 with
    | none => (c2, false)
    | some c3 => (c3, true)

/-- compat/setresuid.c:25-62.  The calls it makes are numbers 2 to 4 of those of proc_run.  The second component is what it returns. -/
def compatSetresuid (fail : Nat → Bool) (r e s : Nat) (c : Creds) : Creds × Bool :=
  if r != e || e != s then (c, false)
  else
    let ouid := c.u.r
    match idCall (fail 2) (.setreuid e e) c with
    | none => (c, false)
    | some c1 =>
      let back : Creds × Bool := if r == e && e == s && ouid != r then goBack fail ouid c1 else (c1, false)
      if back.2 then (back.1, false)
      else if back.1.u.r != r || back.1.u.e != e then (back.1, false)
      else (back.1, true)

/-- compat/setresgid.c:23-34 -/
def compatSetresgid (fail : Nat → Bool) (r e s : Nat) (c : Creds) : Creds × Bool :=
  if r != e || e != s then (c, false)
  else
    match idCall (fail 1) (.setregid r e) c with
    | none => (c, false)
    | some c1 => (c1, true)

/-- setresgid as proc_run calls it: `native` is whether the system has one (configure) -/
def doSetresgid (native : Bool) (fail : Nat → Bool) (x : Nat) (c : Creds) : Creds × Bool :=
  if native then
    match idCall (fail 1) (.setresgid x x x) c with
    | none => (c, false)
    | some c1 => (c1, true)
  else compatSetresgid fail x x x c

/-- setresuid as proc_run calls it -/
def doSetresuid (native : Bool) (fail : Nat → Bool) (x : Nat) (c : Creds) : Creds × Bool :=
  if native then
    match idCall (fail 2) (.setresuid x x x) c with
    | none => (c, false)
    | some c1 => (c1, true)
  else compatSetresuid fail x x x c

/-- proc.c:588-591, in proc_run: the credentials the process goes on with; `none` is fatal -/
def dropIds (native : Bool) (fail : Nat → Bool) (pw : Passwd) (c : Creds) : Option Creds :=
  match idCall (fail 0) (.setgroups [pw.gid]) c with
  | none => none
  | some c0 =>
    let g := doSetresgid native fail pw.gid c0
    if !g.2 then none
    else
      let u := doSetresuid native fail pw.uid g.1
      if !u.2 then none else some u.1

/-- what a process does with its ids later: any calls, of which any may be refused -/
def idRun : List (Bool × IdCall) → Creds → Creds
  | [], c => c
  | (f, x) :: r, c => idRun r (afterCall f x c)

end Gmid
