import Verif.Model.Close

/-!
# What releasing resources means
-/
set_option autoImplicit false

namespace Gmid.Spec

open Gmid

/-- nothing is left of what was opened or made for connection `i` -/
def Released (w : World) (i : Nat) : Prop := (∀ n, w.fds n ≠ some i) ∧ ∀ k, w.ctxs k ≠ some i

/-- connection `i` still has its socket and its TLS context -/
def Live (w : World) (i : Nat) : Prop :=
  w.fds (w.conns i).fd = some i ∧ w.ctxs (w.conns i).ctx = some i

/-- the request events -/
def RelEv.request? : RelEv → Option Nat
  | .file i _ => some i
  | .dir i _ _ => some i
  | .fastcgi i _ _ => some i
  | .proxy i _ _ => some i
  | _ => none

/-- the events the positive theorem is about: no directory is scanned for a listing, no second
request is acted on while a FastCGI application is answering, and `tls_close` on an upstream
connection does not ask to be called again -/
def Ordinary (w : World) : RelEv → Prop
  | .dir i _ r => (∀ m, r ≠ .list m .scanned) ∧ (w.conns i).cgibev = false
  | .file i _ => (w.conns i).cgibev = false
  | .fastcgi i _ _ => (w.conns i).cgibev = false
  | .proxy i _ _ => (w.conns i).cgibev = false
  | .close i pr _ => (w.conns i).pctx = none ∨ pr = .done
  | _ => True

/-- a history made of ordinary events, starting with nothing open -/
inductive OrdinaryRun : World → Prop where
  | start : OrdinaryRun {}
  | next (w w' : World) (e : RelEv) : OrdinaryRun w → Ordinary w e → w.step e = some w' → OrdinaryRun w'

end Gmid.Spec
