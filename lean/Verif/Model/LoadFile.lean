import Verif.Model.Basic

/-!
# Loading the file of a certificate or of a key

compat/libtls/tls_util.c:152-230, compat/libtls/tls_config.c:43-91, compat/libtls/tls_keypair.c:62-67 and 88-96 and compat/freezero.c, in a world with a heap and
descriptors.  What is freed is remembered with what was in it at that time.  (Simplifications: the messages are left out, tls_load_file is the branch without a
password, the only one that gmid uses, and the compiler keeps the memset of freezero.)
-/

set_option autoImplicit false

namespace Gmid

/-- the blocks that are allocated with their contents, the contents of those that were freed, and the descriptors that are open -/
structure LWorld where
  live : Nat → Option Bytes := fun _ => none
  next : Nat := 0
  freed : List Bytes := []
  fds : List Nat := []

/-- what the system does: open(2) (`none`: -1), the st_size of fstat(2), what malloc(3) of so many bytes finds in the memory it gives (`none`: NULL), and what read(2)
of so many bytes puts into the buffer (`none`: -1) -/
structure LSys where
  opened : Option Nat
  stat : Option Int
  mem : Nat → Option Bytes
  read : Nat → Option Bytes

/-- close(2); a descriptor that is not open must not be closed -/
def LWorld.close (w : LWorld) (fd : Nat) : Option LWorld := if fd ∈ w.fds then some { w with fds := w.fds.erase fd } else none

/-- malloc(3), when there is memory -/
def LWorld.malloc (w : LWorld) (g : Bytes) : LWorld × Nat := ({ w with live := fun q => if q = w.next then some g else w.live q, next := w.next + 1 }, w.next)

/-- writing `d` at the beginning of a block; past its end is undefined -/
def LWorld.write (w : LWorld) (p : Nat) (d : Bytes) : Option LWorld :=
  match w.live p with
  | none => none
  | some c => if d.length ≤ c.length then some { w with live := fun q => if q = p then some (d ++ c.drop d.length) else w.live q } else none

/-- free(3); what is not allocated must not be freed -/
def LWorld.free (w : LWorld) : Option Nat → Option LWorld
  | none => some w
  | some p =>
    match w.live p with
    | none => none
    | some c => some { w with live := fun q => if q = p then none else w.live q, freed := c :: w.freed }

/-- compat/freezero.c:24-32, freezero -/
def LWorld.freezero (w : LWorld) (p : Option Nat) (len : Nat) : Option LWorld :=
  match p with
  | none => some w
  | some q => (w.write q (List.replicate len 0)).bind fun w => w.free (some q)

/-- compat/libtls/tls_util.c:209-221, the label err of tls_load_file -/
def loadErr (w : LWorld) (fd : Option Nat) (buf : Option Nat) (size : Nat) : Option (LWorld × Option (Nat × Nat)) :=
  (match fd with | some x => w.close x | none => some w).bind fun w => (w.freezero buf size).map fun w => (w, none)

/-- compat/libtls/tls_util.c:152-221, tls_load_file with a null password; a pointer and a length are returned, or NULL -/
def tlsLoadFile (s : LSys) (w : LWorld) : Option (LWorld × Option (Nat × Nat)) :=
  match s.opened with
  | none => some (w, none)
  | some fd =>
    let w := { w with fds := fd :: w.fds }
    match s.stat with
    | none => loadErr w (some fd) none 0
    | some z =>
      if z < 0 then loadErr w (some fd) none 0
      else
        let size := z.toNat
        match s.mem size with
        | none => loadErr w (some fd) none size
        | some g =>
          let (w, p) := w.malloc g
          match s.read size with
          | none => loadErr w (some fd) (some p) size
          | some d =>
            (w.write p d).bind fun w =>
              if d.length ≠ size then loadErr w (some fd) (some p) size
              else (w.close fd).map fun w => (w, some (p, size))

/-- compat/libtls/tls_config.c:82-90, the label err of tls_config_load_file: `*buf` is NULL and `*len` 0 -/
def configLoadErr (w : LWorld) (fd : Option Nat) (buf : Option Nat) (len : Nat) : Option (LWorld × Bool × Option Nat × Nat) :=
  (match fd with | some x => w.close x | none => some w).bind fun w => (w.freezero buf len).map fun w => (w, false, none, 0)

/-- compat/libtls/tls_config.c:43-91, tls_config_load_file; `buf` is `*buf` before; returned are whether it is 0, `*buf` and `*len` -/
def tlsConfigLoadFile (s : LSys) (buf : Option Nat) (w : LWorld) : Option (LWorld × Bool × Option Nat × Nat) :=
  (w.free buf).bind fun w =>
    match s.opened with
    | none => configLoadErr w none none 0
    | some fd =>
      let w := { w with fds := fd :: w.fds }
      match s.stat with
      | none => configLoadErr w (some fd) none 0
      | some z =>
        if z < 0 then configLoadErr w (some fd) none 0
        else
          let len := z.toNat
          match s.mem len with
          | none => configLoadErr w (some fd) none len
          | some g =>
            let (w, p) := w.malloc g
            match s.read len with
            | none => configLoadErr w (some fd) (some p) len
            | some d =>
              (w.write p d).bind fun w =>
                if d.length ≠ len then configLoadErr w (some fd) (some p) len
                else (w.close fd).map fun w => (w, true, some p, len)

/-- compat/libtls/tls_keypair.c:62-67 and 88-96, tls_keypair_clear_key and tls_keypair_set_key_file; `key`, `len`: the key_mem and key_len there were -/
def tlsKeypairSetKeyFile (s : LSys) (key : Option Nat) (len : Nat) (w : LWorld) : Option (LWorld × Bool × Option Nat × Nat) :=
  (w.freezero key len).bind fun w => tlsConfigLoadFile s none w

end Gmid
