import Verif.Model.Basic

/-!
# Lists in memory: the TAILQ macros (compat/queue.h:404-534) and config_purge (config.c:58-171)

A head is {tqh_first, tqh_last} and an entry {tqe_next, tqe_prev}: two words each, the second the address of a first word.  So memory is cells of two
words, and the address of an element is that of its entry.  (Simplification: elements have no other members but the heads of other lists, which are cells
of their own, next to the entry.)  Using a cell that is not allocated is undefined, `none`.
-/

set_option autoImplicit false

namespace Gmid

/-- {tqh_first, tqh_last} or {tqe_next, tqe_prev}; 0 is NULL -/
structure QCell where
  fst : Nat
  snd : Nat
  deriving Repr, DecidableEq

/-- the allocated cells -/
abbrev QMem := Nat → Option QCell

def QMem.upd (m : QMem) (a : Nat) (c : Option QCell) : QMem := fun x => if x = a then c else m x

/-- a->tqh_first = v, a->tqe_next = v or *p = v -/
def QMem.setFst (m : QMem) (a v : Nat) : Option QMem :=
  match m a with
  | none => none
  | some c => some (m.upd a (some { c with fst := v }))

/-- a->tqh_last = v or a->tqe_prev = v -/
def QMem.setSnd (m : QMem) (a v : Nat) : Option QMem :=
  match m a with
  | none => none
  | some c => some (m.upd a (some { c with snd := v }))

/-- queue.h:426, TAILQ_FIRST, and 428, TAILQ_NEXT -/
def tailqFirst (m : QMem) (a : Nat) : Option Nat := (m a).map (·.fst)

/-- queue.h:429-430, TAILQ_LAST, and 432-433, TAILQ_PREV: what the second word points to is taken for a head, and what its second word points to is read -/
def tailqPrev (m : QMem) (a : Nat) : Option Nat :=
  match m a with
  | none => none
  | some c =>
    match m c.snd with
    | none => none
    | some p => (m p.snd).map (·.fst)

/-- queue.h:434-435, TAILQ_EMPTY -/
def tailqEmpty (m : QMem) (h : Nat) : Option Bool := (tailqFirst m h).map (· == 0)

/-- queue.h:463-466, TAILQ_INIT -/
def tailqInit (m : QMem) (h : Nat) : Option QMem :=
  match m.setFst h 0 with
  | none => none
  | some m => m.setSnd h h

/-- queue.h:468-476, TAILQ_INSERT_HEAD -/
def tailqInsertHead (m : QMem) (h e : Nat) : Option QMem := do
  let hc ← m h
  let m ← m.setFst e hc.fst
  let m ← if hc.fst ≠ 0 then m.setSnd hc.fst e else m.setSnd h e
  let m ← m.setFst h e
  m.setSnd e h

/-- queue.h:478-483, TAILQ_INSERT_TAIL -/
def tailqInsertTail (m : QMem) (h e : Nat) : Option QMem := do
  let m ← m.setFst e 0
  let hc ← m h
  let m ← m.setSnd e hc.snd
  let m ← m.setFst hc.snd e
  m.setSnd h e

/-- queue.h:502-511, TAILQ_REMOVE; _Q_INVALIDATE does nothing -/
def tailqRemove (m : QMem) (h e : Nat) : Option QMem := do
  let ec ← m e
  let m ← if ec.fst ≠ 0 then m.setSnd ec.fst ec.snd else m.setSnd h ec.snd
  m.setFst ec.snd ec.fst

/-- free(3) of an object of `n` cells; a cell that is not allocated: undefined -/
def QMem.free (m : QMem) (a : Nat) : Nat → Option QMem
  | 0 => some m
  | n + 1 =>
    match m a with
    | none => none
    | some _ => QMem.free (m.upd a none) (a + 1) n

/-- queue.h:437-440, TAILQ_FOREACH: the elements the body sees, when it changes no list; `fuel` is the number of rounds we follow it -/
def tailqForeach (m : QMem) : Nat → Nat → Option (List Nat)
  | _, 0 => some []
  | 0, _ => none
  | fuel + 1, e =>
    match tailqFirst m e with
    | none => none
    | some n => (tailqForeach m fuel n).map (e :: ·)

/-- queue.h:442-446, TAILQ_FOREACH_SAFE -/
def tailqForeachSafe (body : QMem → Nat → Option QMem) : Nat → QMem → Nat → Option QMem
  | _, m, 0 => some m
  | 0, _, _ => none
  | fuel + 1, m, e =>
    match tailqFirst m e with
    | none => none
    | some n =>
      match body m e with
      | none => none
      | some m => tailqForeachSafe body fuel m n

/-- the loops of config_purge: first the element leaves its list, then what is in it is freed, then the element of `n` cells -/
def purgeFirst (inner : QMem → Nat → Option QMem) (n : Nat) (h : Nat) (m : QMem) (e : Nat) : Option QMem := do
  let m ← tailqRemove m h e
  let m ← inner m e
  m.free e n

/-- the same with what is in the element freed before it leaves its list -/
def purgeLast (inner : QMem → Nat → Option QMem) (n : Nat) (h : Nat) (m : QMem) (e : Nat) : Option QMem := do
  let m ← inner m e
  let m ← tailqRemove m h e
  m.free e n

/-- a loop over a list -/
def purgeLoop (body : Nat → QMem → Nat → Option QMem) (fuel : Nat) (m : QMem) (h : Nat) : Option QMem :=
  match tailqFirst m h with
  | none => none
  | some e => tailqForeachSafe (body h) fuel m e

/-- config.c:79-82, 91-94, 105-108, 113-116, 118-127, 133-138, 140-148: elements without lists -/
def purgePlain : Nat → QMem → Nat → Option QMem := purgeLoop (purgeFirst (fun m _ => some m) 1)

/-- config.c:96-111, the locations; a location is two cells, the second the head of its parameters -/
def purgeLocations (fuel : Nat) : QMem → Nat → Option QMem := purgeLoop (purgeFirst (fun m l => purgePlain fuel m (l + 1)) 2) fuel

/-- config.c:84-130, what is in a host: its addresses, locations, aliases and relays; a host is five cells -/
def purgeInHost (fuel : Nat) (m : QMem) (h : Nat) : Option QMem := do
  let m ← purgePlain fuel m (h + 1)
  let m ← purgeLocations fuel m (h + 2)
  let m ← purgePlain fuel m (h + 3)
  purgePlain fuel m (h + 4)

/-- config.c:84-131, the hosts -/
def purgeHosts (fuel : Nat) : QMem → Nat → Option QMem := purgeLoop (purgeLast (purgeInHost fuel) 5) fuel

/-- config.c:150-168, memset of struct conf and TAILQ_INIT of three of its four lists, the cells from `c` on: fcgi, hosts, pkis, addrs -/
def purgeReset (c : Nat) (m : QMem) : Option QMem := do
  let m ← some (m.upd c (some ⟨0, 0⟩))
  let m ← some (m.upd (c + 1) (some ⟨0, 0⟩))
  let m ← some (m.upd (c + 2) (some ⟨0, 0⟩))
  let m ← some (m.upd (c + 3) (some ⟨0, 0⟩))
  let m ← tailqInit m c
  let m ← tailqInit m (c + 1)
  tailqInit m (c + 2)

/-- config.c:58-171, config_purge -/
def purgeConf (fuel : Nat) (m : QMem) (c : Nat) : Option QMem := do
  let m ← purgePlain fuel m c
  let m ← purgeHosts fuel m (c + 1)
  let m ← purgePlain fuel m (c + 2)
  let m ← purgePlain fuel m (c + 3)
  purgeReset c m

/-- parse.y:1143-1152, the end of parse_conf: the macros that are not `persist` go.  An element is one cell. -/
def freeMacros (persist : Nat → Bool) (fuel : Nat) (m : QMem) (h : Nat) : Option QMem :=
  purgeLoop (fun h m e => if persist e then some m else purgeFirst (fun m _ => some m) 1 h m e) fuel m h

/-- parse.y:1107-1123, popfile, when the list of the files is at `h`: memory after it, and the new `file` -/
def popfileList (m : QMem) (h file : Nat) : Option (QMem × Nat) := do
  let prev ← tailqPrev m file
  let m ← tailqRemove m h file
  let m ← m.free file 1
  some (m, prev)

end Gmid
