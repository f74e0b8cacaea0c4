import Verif.Model.Proc

/-!
# Model of the table of open connections

compat/tree.h, the splay tree (SPLAY_*), as used by server.c for `clients` (server.c:89-91, 1275, 1429, 1453, 1569, 1661-1671).  Memory is modelled: a
client is a place in memory that exists from calloc to free, and reading or writing one that does not exist is undefined.  SPLAY_FIND, SPLAY_NEXT,
SPLAY_MIN and SPLAY_MAX are not used by gmid.
-/

set_option autoImplicit false

namespace Gmid

/-- what the table uses of a struct client (gmid.h:340-364): its id, a uint32_t, and its entry -/
structure SNode where
  id : Nat
  left : Nat
  right : Nat
  deriving Repr, DecidableEq

/-- memory: 0 is NULL, 1 the local variable __node of SPLAY; clients are elsewhere -/
abbrev SHeap := Nat → Option SNode

/-- read a struct -/
def ld (h : SHeap) (p : Nat) : Res SNode :=
  match h p with
  | some n => .ok n
  | none => .ub

/-- memory with the struct at `p` replaced -/
def hset (h : SHeap) (p : Nat) (n : Option SNode) : SHeap := fun q => if q = p then n else h q

/-- compat/tree.h:83, `SPLAY_LEFT(p) = x` -/
def stL (h : SHeap) (p x : Nat) : Res SHeap := (ld h p).bind fun n => .ok (hset h p (some { n with left := x }))

/-- compat/tree.h:84, `SPLAY_RIGHT(p) = x` -/
def stR (h : SHeap) (p x : Nat) : Res SHeap := (ld h p).bind fun n => .ok (hset h p (some { n with right := x }))

/-- server.c:1661-1669, client_tree_cmp -/
def treeCmp (h : SHeap) (a b : Nat) : Res Int :=
  (ld h a).bind fun x => (ld h b).bind fun y => .ok (if x.id = y.id then 0 else if x.id < y.id then -1 else 1)

/-- the variables of SPLAY -/
structure SpSt where
  h : SHeap
  root : Nat
  left : Nat
  right : Nat

/-- compat/tree.h:89-93, SPLAY_ROTATE_RIGHT -/
def rotRight (s : SpSt) (tmp : Nat) : Res SpSt :=
  (ld s.h tmp).bind fun t =>
  (stL s.h s.root t.right).bind fun h1 =>
  (stR h1 tmp s.root).bind fun h2 => .ok { s with h := h2, root := tmp }

/-- compat/tree.h:95-99, SPLAY_ROTATE_LEFT -/
def rotLeft (s : SpSt) (tmp : Nat) : Res SpSt :=
  (ld s.h tmp).bind fun t =>
  (stR s.h s.root t.left).bind fun h1 =>
  (stL h1 tmp s.root).bind fun h2 => .ok { s with h := h2, root := tmp }

/-- compat/tree.h:101-105, SPLAY_LINKLEFT(head, __right) -/
def linkLeft (s : SpSt) : Res SpSt :=
  (stL s.h s.right s.root).bind fun h1 =>
  (ld h1 s.root).bind fun n => .ok { s with h := h1, right := s.root, root := n.left }

/-- compat/tree.h:107-111, SPLAY_LINKRIGHT(head, __left) -/
def linkRight (s : SpSt) : Res SpSt :=
  (stR s.h s.left s.root).bind fun h1 =>
  (ld h1 s.root).bind fun n => .ok { s with h := h1, left := s.root, root := n.right }

/-- compat/tree.h:113-118, SPLAY_ASSEMBLE; __node is at 1 -/
def assemble (s : SpSt) : Res SHeap :=
  (ld s.h s.root).bind fun n =>
  (stR s.h s.left n.left).bind fun h1 =>
  (ld h1 s.root).bind fun n =>
  (stL h1 s.right n.right).bind fun h2 =>
  (ld h2 1).bind fun nd =>
  (stL h2 s.root nd.right).bind fun h3 =>
  (ld h3 1).bind fun nd =>
  stR h3 s.root nd.left

/-- compat/tree.h:220-229, in SPLAY: `__comp` is negative.  The second component is whether the loop goes on. -/
def spLess (elm : Nat) (s : SpSt) : Res (SpSt × Bool) :=
  (ld s.h s.root).bind fun n =>
  if n.left = 0 then .ok (s, false)
  else
    (treeCmp s.h elm n.left).bind fun c =>
    if c < 0 then
      (rotRight s n.left).bind fun s1 =>
      (ld s1.h s1.root).bind fun n1 =>
      if n1.left = 0 then .ok (s1, false) else (linkLeft s1).bind fun s2 => .ok (s2, true)
    else (linkLeft s).bind fun s2 => .ok (s2, true)

/-- compat/tree.h:230-240, in SPLAY: `__comp` is positive -/
def spGreater (elm : Nat) (s : SpSt) : Res (SpSt × Bool) :=
  (ld s.h s.root).bind fun n =>
  if n.right = 0 then .ok (s, false)
  else
    (treeCmp s.h elm n.right).bind fun c =>
    if c > 0 then
      (rotLeft s n.right).bind fun s1 =>
      (ld s1.h s1.root).bind fun n1 =>
      if n1.right = 0 then .ok (s1, false) else (linkRight s1).bind fun s2 => .ok (s2, true)
    else (linkRight s).bind fun s2 => .ok (s2, true)

/-- compat/tree.h:219-241, the loop of SPLAY; `err` when the fuel does not suffice -/
def spLoop (elm : Nat) : Nat → SpSt → Res SpSt
  | 0, _ => .err
  | n + 1, s =>
    (treeCmp s.h elm s.root).bind fun c =>
    if c = 0 then .ok s
    else
      (if c < 0 then spLess elm s else spGreater elm s).bind fun r =>
      if r.2 then spLoop elm n r.1 else .ok r.1

/-- compat/tree.h:210-243, SPLAY: memory and the new root.  __node is uninitialised but for its entry; its id is not used. -/
def splay (fuel : Nat) (elm : Nat) (h : SHeap) (root : Nat) : Res (SHeap × Nat) :=
  (spLoop elm fuel { h := hset h 1 (some { id := 0, left := 0, right := 0 }), root := root, left := 1, right := 1 }).bind fun s =>
  (assemble s).bind fun h1 => .ok (hset h1 1 none, s.root)

/-- compat/tree.h:165-187, SPLAY_INSERT: memory and the new root -/
def splayInsert (fuel : Nat) (elm : Nat) (h : SHeap) (root : Nat) : Res (SHeap × Nat) :=
  if root = 0 then
    (stR h elm 0).bind fun h1 => (stL h1 elm 0).bind fun h2 => .ok (h2, elm)
  else
    (splay fuel elm h root).bind fun r =>
    (treeCmp r.1 elm r.2).bind fun c =>
    if c < 0 then
      (ld r.1 r.2).bind fun n =>
      (stL r.1 elm n.left).bind fun h1 => (stR h1 elm r.2).bind fun h2 => (stL h2 r.2 0).bind fun h3 => .ok (h3, elm)
    else if c > 0 then
      (ld r.1 r.2).bind fun n =>
      (stR r.1 elm n.right).bind fun h1 => (stL h1 elm r.2).bind fun h2 => (stR h2 r.2 0).bind fun h3 => .ok (h3, elm)
    else .ok r

/-- compat/tree.h:189-208, SPLAY_REMOVE: memory and the new root -/
def splayRemove (fuel : Nat) (elm : Nat) (h : SHeap) (root : Nat) : Res (SHeap × Nat) :=
  if root = 0 then .ok (h, root)
  else
    (splay fuel elm h root).bind fun r =>
    (treeCmp r.1 elm r.2).bind fun c =>
    if c = 0 then
      (ld r.1 r.2).bind fun n =>
      if n.left = 0 then .ok (r.1, n.right)
      else
        (splay fuel elm r.1 n.left).bind fun q =>
        (stR q.1 q.2 n.right).bind fun h1 => .ok (h1, q.2)
    else .ok r

/-- the table: memory, `clients` and server_client_id (server.c:89-91) -/
structure Table where
  h : SHeap
  root : Nat
  count : Nat

/-- what happens to it: a connection is accepted, its client at `p`, or the one at `p` is closed -/
inductive TEv where
  | accept (p : Nat)
  | close (p : Nat)
  deriving Repr, DecidableEq

/-- server.c:1404-1456, server_accept: calloc gave `p`; the id, a uint32_t, wraps around.  server.c:1265-1306, client_close with client_close_ev
(1207-1263): the client is freed at once or later; what is left of it is not in the table. -/
def tableStep (fuel : Nat) (ev : TEv) (t : Table) : Res Table :=
  match ev with
  | .accept p =>
    let id := (t.count + 1) % 2 ^ 32
    (splayInsert fuel p (hset t.h p (some { id := id, left := 0, right := 0 })) t.root).bind fun r => .ok { h := r.1, root := r.2, count := id }
  | .close p => (splayRemove fuel p t.h t.root).bind fun r => .ok { h := hset r.1 p none, root := r.2, count := t.count }

/-- a history -/
def tableRun (fuel : Nat) : List TEv → Table → Res Table
  | [], t => .ok t
  | ev :: r, t => (tableStep fuel ev t).bind fun t => tableRun fuel r t

/-- server.c:1569, SPLAY_INIT in server_init -/
def tableInit : Table := { h := fun _ => none, root := 0, count := 0 }

end Gmid
