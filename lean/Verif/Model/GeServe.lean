import Verif.Model.Ge
import Verif.Model.TlsName
import Verif.Model.Exec

/-!
# Model of the rest of gemexp (ge.c): the addresses it listens on
-/


set_option autoImplicit false

namespace Gmid

/-! ## the addresses -/

/-- struct address (gmid.h:119-136), as far as serve sets it; `next` is the member tqe_next of its one list entry `addrs` -/
structure ANode where
  ai : AddrInfo
  sock : Int
  next : Nat
  deriving Repr, DecidableEq

/-- memory for addresses and the two lists of them, that of the configuration and that of its only host; 0 is NULL.  Both are empty at first: the first is
initialised (config.c:34-56), the other all zero (ge.c:325), which TAILQ_INSERT_HEAD and TAILQ_FOREACH cannot tell from it. -/
structure GeLists where
  mem : Nat → Option ANode := fun _ => none
  conf : Nat := 0
  host : Nat := 0

/-- compat/queue.h:468-476, TAILQ_INSERT_HEAD, for a list that starts at `first`: memory, and the new start.  tqe_prev is written to, in `elm` and in the one that was first,
and never read by gmid: what is left of it is that the one that was first has to be there. -/
def insertHead (mem : Nat → Option ANode) (first elm : Nat) : Res ((Nat → Option ANode) × Nat) :=
  match mem elm with
  | none => .ub
  | some n =>
    let mem' := fun q => if q = elm then some { n with next := first } else mem q
    if first ≠ 0 then
      match mem' first with
      | none => .ub
      | some _ => .ok (mem', elm)
    else .ok (mem', elm)

/-- what becomes of one result of getaddrinfo(3): socket(2) fails, bind(2) does, listen(2) does, or all is well and `fd` listens, its struct address being at `p` -/
inductive GeBind where
  | noSocket | noBind | noListen
  | bound (fd : Int) (p : Nat)
  deriving Repr, DecidableEq

/-- ge.c:192-234, the body of the loop of serve.  fatal() exits with 1.  The second insertion is of `addr` as well, not of its copy `acp`. -/
def geBindOne (ai : AddrInfo) (b : GeBind) (s : GeLists) : MStep (Res (GeLists × Bool)) :=
  match b with
  | .noSocket => .go (.ok (s, false))
  | .noBind => .go (.ok (s, false))
  | .noListen => .exit 1
  | .bound fd p =>
    let mem := fun q => if q = p then some { ai := ai, sock := fd, next := 0 } else s.mem q
    match insertHead mem s.conf p with
    | .ok (mem, conf) =>
      match insertHead mem s.host p with
      | .ok (mem, host) => .go (.ok ({ mem := mem, conf := conf, host := host }, true))
      | .err => .go .err
      | .ub => .go .ub
    | .err => .go .err
    | .ub => .go .ub

/-- ge.c:191-235, the loop, with `any` -/
def geBindAll : List (AddrInfo × GeBind) → Bool → GeLists → MStep (Res (GeLists × Bool))
  | [], any, s => .go (.ok (s, any))
  | (ai, b) :: r, any, s =>
    match geBindOne ai b s with
    | .exit n => .exit n
    | .go (.ok (s, x)) => geBindAll r (any || x) s
    | .go .err => .go .err
    | .go .ub => .go .ub

/-- ge.c:168-239, serve up to the configuration of the server; `res` is what getaddrinfo(3) gave, `none` when it failed -/
def geServe (res : Option (List (AddrInfo × GeBind))) : MStep (Res GeLists) :=
  match res with
  | none => .exit 1
  | some l =>
    match geBindAll l false {} with
    | .exit n => .exit n
    | .go (.ok (s, any)) => if any then .go (.ok s) else .exit 1
    | .go .err => .go .err
    | .go .ub => .go .ub

/-- TAILQ_FOREACH from `p` on (compat/queue.h:437-440): the addresses, in order; `err` when there are more than the fuel -/
def walkAddrs (mem : Nat → Option ANode) : Nat → Nat → Res (List ANode)
  | 0, p => if p = 0 then .ok [] else .err
  | fuel + 1, p =>
    if p = 0 then .ok []
    else
      match mem p with
      | none => .ub
      | some n =>
        match walkAddrs mem fuel n.next with
        | .ok l => .ok (n :: l)
        | .err => .err
        | .ub => .ub

end Gmid
