import Verif.Model.Live

/-!
# What a reload is to leave alone
-/

set_option autoImplicit false

namespace Gmid.Spec

/-- the events of one established connection -/
def eventsOf (i : Nat) (evs : List LEv) : List (Env × ConnEv) :=
  evs.filterMap fun e => match e with
    | .conn j env ev => if j = i then some (env, ev) else none
    | _ => none

/-- the client of the connection sends nothing more -/
def SendsNothing (i : Nat) (evs : List LEv) : Prop := ∀ env data, LEv.conn i env (.readable (.got data)) ∈ evs → data = []

/-- the header of the reply is on its way, and what is still to come of the history has no other request -/
def ReplyUnderWay (i : Nat) (l : LConn) (evs : List LEv) : Prop :=
  l.shaking = false ∧ l.k.c.code ≠ 0 ∧ l.k.phase ≠ .connecting ∧ (l.k.c.type ≠ .undecided ∨ SendsNothing i evs)

/-- every reload begins at a time at which all the open connections have their reply under way -/
def ReloadsBetweenRequests (bufsiz : Nat) (evs : List LEv) : Prop :=
  ∀ pre post p, evs = pre ++ .purge :: post → lrun bufsiz pre {} = .ok p →
    ∀ (i : Nat) (l : LConn), p.conns[i]? = some l → l.k.c.closed = true ∨ ReplyUnderWay i l post

/-- the same, but for what is known of the server it is a client of -/
def SameBut (k k' : Conn) : Prop := ∃ h, k' = { k with c := { k.c with host := h } }

end Gmid.Spec
