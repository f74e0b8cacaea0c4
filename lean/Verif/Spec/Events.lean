import Verif.Model.Events
import Verif.Spec.Imsg

/-!
# Specification: two processes that send messages to each other
-/

set_option autoImplicit false

namespace Gmid.Spec

/-- what becomes of a process that handles these messages, one after the other; `none` when one of them is fatal -/
def handleAll {σ : Type} (f : σ → IMsg → Option (σ × List IMsg)) : σ → List IMsg → Option σ
  | st, [] => some st
  | st, m :: r =>
    match f st m with
    | none => none
    | some (st, _) => handleAll f st r

/-- the messages that a callback composes have fields of 32 bits -/
def HandlerFits {σ : Type} (h : Handler σ) : Prop := ∀ s st m st' ms, h s st m = some (st', ms) → ∀ x ∈ ms, Fits x

/-- and so have those that are composed for other reasons -/
def EventFits : LinkEv → Prop
  | .compose _ m => Fits m
  | _ => True

/-- the bytes under way from one process to the other: those queued, those in the socket -/
def queued (c : Chan) : Nat := (c.queue.map (fun b => b.1.length)).sum
def inSocket (c : Chan) : Nat := c.wire.length

/-- the socket takes bytes from `s`, then the other process gets some; the sizes are whatever the kernel likes -/
def rounds (s : Bool) (sizes : List (Nat × Nat)) : List LinkEv :=
  sizes.flatMap fun x => [.ready s { wr := some x.1 }, .ready (!s) { rd := some x.2 }]

end Gmid.Spec
