import Verif.Model.Ibuf

/-!
# What a message buffer is for its users: a queue of bytes, of which those that were taken can be had again
-/

set_option autoImplicit false

namespace Gmid.Spec

/-- `taken` was read, `data` is still there; at most `cap` bytes in all, `none` when the buffer cannot be added to -/
structure Queue where
  taken : Bytes
  data : Bytes
  cap : Option Nat

/-- is there room for `n` more? -/
def Queue.Room (q : Queue) (n : Nat) : Prop := ∃ c, q.cap = some c ∧ q.taken.length + q.data.length + n ≤ c

instance (q : Queue) (n : Nat) : Decidable (q.Room n) :=
  match h : q.cap with
  | none => isFalse (by rintro ⟨c, hc, _⟩; rw [h] at hc; cases hc)
  | some c => if hl : q.taken.length + q.data.length + n ≤ c then isTrue ⟨c, h, hl⟩
    else isFalse (by rintro ⟨c', hc, hl'⟩; rw [h] at hc; cases hc; exact hl hl')

/-- put at the end -/
def Queue.push (q : Queue) (d : Bytes) : Queue × IbufOut :=
  if q.Room d.length then ({ q with data := q.data ++ d }, .done) else (q, .failed)

/-- replace what is at `pos` -/
def Queue.put (q : Queue) (pos : Nat) (d : Bytes) : Queue × IbufOut :=
  if pos + d.length ≤ q.data.length then ({ q with data := q.data.take pos ++ d ++ q.data.drop (pos + d.length) }, .done) else (q, .failed)

/-- take from the front -/
def Queue.pop (q : Queue) (n : Nat) (f : Bytes → IbufOut) : Queue × IbufOut :=
  if n ≤ q.data.length then ({ q with taken := q.taken ++ q.data.take n, data := q.data.drop n }, f (q.data.take n)) else (q, .failed)

/-- the number `v` in `w` bytes: big end first on the network -/
def digits256 : Nat → Nat → Bytes
  | 0, _ => []
  | w + 1, v => UInt8.ofNat (v / 256 ^ w) :: digits256 w (v % 256 ^ w)

def encodes (net : Bool) (w v : Nat) : Bytes := if net then digits256 w v else (digits256 w v).reverse

def valueOf : Bytes → Nat
  | [] => 0
  | c :: r => c.toNat * 256 ^ r.length + valueOf r

def decodesTo (net : Bool) (d : Bytes) : Nat := if net then valueOf d else valueOf d.reverse

def Queue.step (q : Queue) : IbufOp → Queue × IbufOut
  | .add d => q.push d
  | .addNum net w v => if v < 256 ^ w then q.push (encodes net w v) else (q, .failed)
  | .addZero n => q.push (List.replicate n 0)
  | .set pos d => q.put pos d
  | .setNum pos net w v => if v < 256 ^ w then q.put pos (encodes net w v) else (q, .failed)
  | .truncate n => if n ≤ q.data.length then ({ q with data := q.data.take n }, .done) else q.push (List.replicate (n - q.data.length) 0)
  | .rewind => ({ q with taken := [], data := q.taken ++ q.data }, .done)
  | .get n => q.pop n .bytes
  | .getNum net w => q.pop w fun d => .num (decodesTo net d)
  | .getString n => q.pop n fun d => .bytes (d.takeWhile (· ≠ 0))
  | .skip n => q.pop n fun _ => .done
  | .size => (q, .num q.data.length)
  | .left => (q, .num ((q.cap.getD 0) - (if q.cap.isSome then q.taken.length + q.data.length else 0)))

/-- a call that finds no memory may fail instead, and then changes nothing -/
def Queue.Step (ok : Bool) (q : Queue) (op : IbufOp) (q' : Queue) (o : IbufOut) : Prop :=
  (q', o) = q.step op ∨ (ok = false ∧ q' = q ∧ o = .failed)

/-- what a sequence of calls may return -/
inductive Queue.Runs : Queue → List (Bool × IbufOp) → Queue → List IbufOut → Prop
  | nil (q : Queue) : Runs q [] q []
  | cons {q q' q'' : Queue} {ok : Bool} {op : IbufOp} {o : IbufOut} {r : List (Bool × IbufOp)} {os : List IbufOut} :
      Queue.Step ok q op q' o → Runs q' r q'' os → Runs q ((ok, op) :: r) q'' (o :: os)

end Gmid.Spec
