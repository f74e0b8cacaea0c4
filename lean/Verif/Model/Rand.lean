import Verif.Model.Basic

/-!
# arc4random

compat/arc4random.c and compat/arc4random.h (with KEYSTREAM_ONLY, arc4random.c:59, and without threads, arc4random.h:31-33), used for the session
ids of libtls (compat/libtls/tls_config.c:127-130, 921, tls_server.c:190).

ChaCha and the system's entropy are symbolic: a byte in memory is known by where it comes from.  Two bytes are taken to be the same only if
they come from the same place; that ChaCha's output does not repeat and says nothing about its key is assumed, as is that getentropy(2) always
gives something new.
-/

set_option autoImplicit false

namespace Gmid

/-- a byte of memory -/
inductive Cell where
  | zero                                      -- the byte 0, erased or never written
  | ent (n j : Nat)                           -- the `j`th byte of what the `n`th getentropy(2) gave
  | ks (key : List Cell) (i : Nat)            -- the `i`th byte of the keystream of a key and iv
  | xor (a b : Cell)

/-- arc4random.c:69-73: KEYSZ + IVSZ, BLOCKSZ, RSBUFSZ, REKEY_BASE -/
def rsKey : Nat := 40
def rsBlock : Nat := 64
def rsBufSize : Nat := 1024
def rekeyBase : Nat := 1048576

/-- arc4random.c:76-85 and `_rs_pid` (arc4random.h:53): `ready`: `rs` is not NULL; `key` and `blk` are the chacha context: the key and iv, and
the block counter -/
structure RState0 where
  ready : Bool := false
  have_ : Nat := 0
  count : Nat := 0
  key : List Cell := []
  blk : Nat := 0
  buf : List Cell := []
  pid : Nat := 0

/-- chacha_private.h:87-216, chacha_encrypt_bytes of `n` zero bytes; a block that is begun is not used again -/
def keystream (s : RState0) (n : Nat) : List Cell := (List.range n).map fun j => .ks s.key (s.blk * rsBlock + j)
def afterStream (s : RState0) (n : Nat) : RState0 := { s with blk := s.blk + (n + rsBlock - 1) / rsBlock }

/-- arc4random.c:160-161, the data is mixed into the first bytes -/
def mixIn : List Cell → List Cell → List Cell
  | c :: cs, d :: ds => .xor c d :: mixIn cs ds
  | cs, _ => cs

/-- arc4random.c:147-168, _rs_rekey, with chacha_keysetup and chacha_ivsetup (chacha_private.h:53-85), which also puts the block counter to 0 -/
def rsRekey (dat : Option (List Cell)) (s : RState0) : RState0 :=
  let b := keystream s rsBufSize
  let b := match dat with | some d => mixIn b (d.take rsKey) | none => b
  { afterStream s rsBufSize with key := b.take rsKey, blk := 0, buf := List.replicate rsKey .zero ++ b.drop rsKey, have_ := rsBufSize - rsKey }

/-- what the `n`th getentropy(2) gave (arc4random.c:116) -/
def entropy (n : Nat) : List Cell := (List.range rsKey).map (.ent n)

/-- arc4random.c:95-108, _rs_init, the first time: mmap(2) gives zeroed memory -/
def rsInit (rnd : List Cell) (s : RState0) : RState0 :=
  { s with ready := true, have_ := 0, count := 0, key := rnd, blk := 0, buf := List.replicate rsBufSize .zero }

/-- arc4random.c:110-133, _rs_stir; `fuzz` is the number that some bytes make -/
def rsStir (fuzz : List Cell → Nat) (n : Nat) (s : RState0) : RState0 :=
  let s := if s.ready then rsRekey (some (entropy n)) s else rsInit (entropy n) s
  let s := { s with have_ := 0, buf := List.replicate rsBufSize .zero }
  { afterStream s 4 with count := rekeyBase + fuzz (keystream s 4) % rekeyBase }

/-- arc4random.h:51-64, _rs_forkdetect; `_rs_forked` is never set, as _ARC4_ATFORK does nothing -/
def rsForkdetect (pid : Nat) (s : RState0) : RState0 :=
  if s.pid = 0 ∨ s.pid = 1 ∨ s.pid ≠ pid then { s with pid := pid, have_ := 0, count := 0 } else s

/-- arc4random.c:135-145, _rs_stir_if_needed; the number tells how often getentropy was called by all the processes -/
def rsStirIfNeeded (fuzz : List Cell → Nat) (pid len n : Nat) (s : RState0) : RState0 × Nat :=
  let s := rsForkdetect pid s
  let r := if s.ready = false ∨ s.count ≤ len then (rsStir fuzz n s, n + 1) else (s, n)
  ({ r.1 with count := if r.1.count ≤ len then 0 else r.1.count - len }, r.2)

/-- arc4random.c:182-188: `m` bytes are given out, and erased -/
def rsTake (m : Nat) (s : RState0) : List Cell × RState0 :=
  let at_ := rsBufSize - s.have_
  ((s.buf.drop at_).take m,
   { s with buf := s.buf.take at_ ++ List.replicate m .zero ++ s.buf.drop (at_ + m), have_ := s.have_ - m })

/-- arc4random.c:179-191, the loop of _rs_random_buf; `fuel` bounds the rounds: `n + 1` are enough (each but the first gives a byte at least) -/
def rsLoop : Nat → Nat → RState0 → List Cell × RState0
  | 0, _, s => ([], s)
  | _ + 1, 0, s => ([], s)
  | f + 1, n + 1, s =>
    let m := min (n + 1) s.have_
    let t := rsTake m s
    let s := if t.2.have_ = 0 then rsRekey none t.2 else t.2
    let r := rsLoop f (n + 1 - m) s
    (t.1 ++ r.1, r.2)

/-- arc4random.c:170-192, _rs_random_buf, arc4random_buf -/
def rsBuf (fuzz : List Cell → Nat) (pid len n : Nat) (s : RState0) : List Cell × RState0 × Nat :=
  let r := rsStirIfNeeded fuzz pid len n s
  let t := rsLoop (len + 1) len r.1
  (t.1, t.2, r.2)

/-- arc4random.c:194-206, _rs_random_u32, arc4random -/
def rsU32 (fuzz : List Cell → Nat) (pid n : Nat) (s : RState0) : List Cell × RState0 × Nat :=
  let r := rsStirIfNeeded fuzz pid 4 n s
  let s := if r.1.have_ < 4 then rsRekey none r.1 else r.1
  let t := rsTake 4 s
  (t.1, t.2, r.2)

/-- a process -/
structure RProc where
  pid : Nat
  st : RState0

/-- the processes, by a number of their own, what was given out to whom, and how often getentropy was called -/
structure RWorld where
  procs : Nat → Option RProc
  given : List (Nat × Cell) := []
  ents : Nat := 0

/-- what can happen: a process asks for bytes, or for a number; a process forks: the new one is known by the number `q` and has the pid `pid`; a
process exits (or getentropy fails, which is fatal) -/
inductive REvent where
  | bytes (p len : Nat)
  | number (p : Nat)
  | fork (p q pid : Nat)
  | exit (p : Nat)
  deriving DecidableEq, Repr

def RWorld.put (w : RWorld) (p : Nat) (x : Option RProc) : Nat → Option RProc := fun i => if i = p then x else w.procs i

def rStepOut (w : RWorld) (p pid : Nat) (r : List Cell × RState0 × Nat) : RWorld :=
  { procs := w.put p (some { pid := pid, st := r.2.1 }), given := w.given ++ r.1.map (p, ·), ents := r.2.2 }

/-- one event; an event of a process that does not exist, and a fork to a number that is in use, do nothing -/
def rEvent (fuzz : List Cell → Nat) (w : RWorld) (e : REvent) : RWorld :=
  match e with
  | .bytes p len =>
    match w.procs p with
    | none => w
    | some x => rStepOut w p x.pid (rsBuf fuzz x.pid len w.ents x.st)
  | .number p =>
    match w.procs p with
    | none => w
    | some x => rStepOut w p x.pid (rsU32 fuzz x.pid w.ents x.st)
  | .fork p q pid =>
    match w.procs p with
    | none => w
    | some x =>
      match w.procs q with
      | none => { w with procs := w.put q (some { pid := pid, st := x.st }) }
      | some _ => w
  | .exit p => { w with procs := w.put p none }

def rHistory (fuzz : List Cell → Nat) : List REvent → RWorld → RWorld
  | [], w => w
  | e :: es, w => rHistory fuzz es (rEvent fuzz w e)

/-- in the beginning there is one process, with the pid `pid` -/
def rBegin (pid : Nat) : RWorld := { procs := fun i => if i = 0 then some { pid := pid, st := {} } else none }

end Gmid
