import Verif.Spec.LoadFile

/-!
# C145: the file of a certificate or key is loaded whole or not at all, and a key is erased
-/

set_option autoImplicit false

namespace Gmid.Props
open Gmid.Spec

theorem erased_zero (n : Nat) : Erased (List.replicate n 0) := fun x hx => (List.mem_replicate.1 hx).2

theorem freezero_live (w : LWorld) (p : Nat) (c : Bytes) (h : w.live p = some c) :
    w.freezero (some p) c.length = some { w with live := fun q => if q = p then none else w.live q, freed := List.replicate c.length 0 :: w.freed } := by
  unfold LWorld.freezero LWorld.write
  simp only [h, List.length_replicate, Nat.le_refl, if_true, Option.bind_some, LWorld.free, List.drop_length, List.append_nil]
  congr 2
  funext q
  by_cases hq : q = p <;> simp [hq]

theorem close_new (w : LWorld) (fd : Nat) : LWorld.close { w with fds := fd :: w.fds } fd = some w := by
  simp [LWorld.close]

theorem upd_back (w : LWorld) (f : w.live w.next = none) : (fun q => if q = w.next then none else w.live q) = w.live := by
  funext q
  by_cases hq : q = w.next
  · rw [if_pos hq, hq, f]
  · rw [if_neg hq]

theorem nothingLeft_refl (w : LWorld) : NothingLeft w w := ⟨rfl, rfl, [], rfl, by simp⟩

/-- **C145.** Whatever the system does, tls_load_file closes what it opens, uses no memory that it must not use, and gives back either a block of as many bytes as
the file was said to have, which read(2) has put there all of them, or nothing; then nothing is left behind, and what had been read is erased.  Nothing is given back only
when the file cannot be opened or read, there is no memory, or the file turns out to be shorter than it was said to be. -/
theorem C145_load (s : LSys) (w : LWorld) (h : SysOk s w) : ∃ w' r, tlsLoadFile s w = some (w', r) ∧ LoadsFile s w w' r := by
  unfold tlsLoadFile
  cases ho : s.opened with
  | none => exact ⟨w, none, rfl, nothingLeft_refl w, by simp [ho]⟩
  | some fd =>
    dsimp only
    have early : ∀ n, loadErr { w with fds := fd :: w.fds } (some fd) none n = some (w, none) := by
      intro n
      simp [loadErr, close_new, LWorld.freezero]
    cases hs : s.stat with
    | none => exact ⟨w, none, early 0, nothingLeft_refl w, by simp [hs]⟩
    | some z =>
      dsimp only
      by_cases hz : z < 0
      · rw [if_pos hz, early]
        refine ⟨w, none, rfl, nothingLeft_refl w, ?_⟩
        rintro ⟨n, b, -, h2, -⟩
        rw [hs] at h2; cases h2
        exact absurd hz (by simp)
      · rw [if_neg hz]
        obtain ⟨n, rfl⟩ : ∃ n : Nat, z = Int.ofNat n := ⟨z.toNat, by simp; omega⟩
        simp only [Int.ofNat_eq_natCast, Int.toNat_natCast]
        cases hm : s.mem n with
        | none =>
          dsimp only
          rw [early]
          refine ⟨w, none, rfl, nothingLeft_refl w, ?_⟩
          rintro ⟨m, b, -, h2, h3, -⟩
          rw [hs] at h2; cases h2
          exact h3 hm
        | some g =>
          have hg := h.mem n g hm
          -- what is left when the buffer is given up
          have late : ∀ c : Bytes, c.length = n →
              ∃ w', loadErr { w with fds := fd :: w.fds, live := fun q => if q = w.next then some c else w.live q, next := w.next + 1 } (some fd) (some w.next) n
                = some (w', none) ∧ NothingLeft w w' := by
            intro c hc
            subst hc
            unfold loadErr
            simp only [LWorld.close, List.mem_cons, true_or, if_true, List.erase_cons_head, Option.bind_some]
            rw [freezero_live _ w.next c (by simp)]
            refine ⟨_, rfl, ?_, rfl, [List.replicate c.length 0], rfl, ?_⟩
            · funext q
              by_cases hq : q = w.next
              · simp [hq, h.fresh]
              · simp [hq]
            · intro b hb
              rw [List.mem_singleton.1 hb]
              exact erased_zero _
          dsimp only [LWorld.malloc]
          cases hr : s.read n with
          | none =>
            obtain ⟨w', e, hw⟩ := late g hg
            refine ⟨w', none, e, hw, ?_⟩
            rintro ⟨m, b, -, h2, -, h4, -⟩
            rw [hs] at h2; cases h2
            rw [hr] at h4; cases h4
          | some d =>
            have hd := h.read n d hr
            have ew : LWorld.write { w with fds := fd :: w.fds, live := fun q => if q = w.next then some g else w.live q, next := w.next + 1 } w.next d
                = some { w with fds := fd :: w.fds, live := fun q => if q = w.next then some (d ++ g.drop d.length) else w.live q, next := w.next + 1 } := by
              unfold LWorld.write
              simp only [if_true]
              rw [if_pos (by omega)]
              congr 2
              funext q
              by_cases hq : q = w.next <;> simp [hq]
            dsimp only
            rw [ew, Option.bind_some]
            by_cases hl : d.length = n
            · rw [if_neg (by simpa using hl)]
              have : g.drop d.length = [] := List.drop_eq_nil_of_le (by omega)
              refine ⟨{ w with live := fun q => if q = w.next then some d else w.live q, next := w.next + 1 }, some (w.next, n), ?_, d, ⟨h.fresh, by simp, ?_, rfl, rfl⟩, hl, by simp [ho], hs, hr⟩
              · simp [LWorld.close, this]
              · intro q hq; simp [hq]
            · rw [if_pos (by simpa using hl)]
              obtain ⟨w', e, hw⟩ := late (d ++ g.drop d.length) (by simp; omega)
              refine ⟨w', none, e, hw, ?_⟩
              rintro ⟨m, b, -, h2, -, h4, h5⟩
              rw [hs] at h2; cases h2
              rw [hr] at h4; cases h4
              exact hl h5

/-- what tls_config_load_file gives back -/
def asConfig (x : LWorld × Option (Nat × Nat)) : LWorld × Bool × Option Nat × Nat :=
  match x.2 with
  | none => (x.1, false, none, 0)
  | some (p, n) => (x.1, true, some p, n)

theorem configErr_eq (w : LWorld) (fd p : Option Nat) (n : Nat) : configLoadErr w fd p n = (loadErr w fd p n).map asConfig := by
  unfold configLoadErr loadErr
  cases fd with
  | none => simp only [Option.bind_some]; cases w.freezero p n <;> simp [asConfig]
  | some x =>
    dsimp only
    cases w.close x with
    | none => rfl
    | some w1 => simp only [Option.bind_some]; cases w1.freezero p n <;> simp [asConfig]

theorem config_eq (s : LSys) (buf : Option Nat) (w : LWorld) :
    tlsConfigLoadFile s buf w = (w.free buf).bind fun w => (tlsLoadFile s w).map asConfig := by
  unfold tlsConfigLoadFile tlsLoadFile
  congr 1
  funext w
  cases s.opened with
  | none => simp [configErr_eq, loadErr, asConfig, LWorld.freezero]
  | some fd =>
    dsimp only
    cases s.stat with
    | none => exact configErr_eq _ _ _ _
    | some z =>
      dsimp only
      by_cases hz : z < 0
      · rw [if_pos hz, if_pos hz]; exact configErr_eq _ _ _ _
      · rw [if_neg hz, if_neg hz]
        cases s.mem z.toNat with
        | none => exact configErr_eq _ _ _ _
        | some g =>
          dsimp only
          cases s.read z.toNat with
          | none => exact configErr_eq _ _ _ _
          | some d =>
            dsimp only
            generalize LWorld.write _ _ d = x
            cases x with
            | none => rfl
            | some w1 =>
              simp only [Option.bind_some]
              by_cases hl : d.length = z.toNat
              · rw [if_neg (by simpa using hl), if_neg (by simpa using hl)]
                cases w1.close fd <;> simp [asConfig]
              · rw [if_pos (by simpa using hl), if_pos (by simpa using hl)]
                exact configErr_eq _ _ _ _

theorem read_all (s : LSys) (f : Bytes) (hc : Contents s f) : s.read f.length = some f := by
  rw [hc.read, List.take_length]

/-- **C145.** A file that is there and does not change is loaded as it is, also when it is empty. -/
theorem C145_whole (s : LSys) (w : LWorld) (h : SysOk s w) (f : Bytes) (hc : Contents s f) :
    ∃ w' p, tlsLoadFile s w = some (w', some (p, f.length)) ∧ OneMore w w' p f := by
  obtain ⟨w', r, e, hl⟩ := C145_load s w h
  cases r with
  | none => exact absurd ⟨f.length, f, hc.opened, hc.stat, hc.mem, read_all s f hc, rfl⟩ hl.2
  | some x =>
    obtain ⟨p, n⟩ := x
    obtain ⟨b, h1, h2, -, h4, h5⟩ := hl
    have : n = f.length := by
      have := h4.symm.trans hc.stat
      simp only [Option.some.injEq, Int.ofNat_eq_natCast] at this
      omega
    subst this
    rw [read_all s f hc] at h5
    cases h5
    exact ⟨w', p, e, h1⟩

/-- **C145.** A file that has become shorter since its size was asked for is not loaded, and nothing of it is left. -/
theorem C145_truncated (s : LSys) (w : LWorld) (h : SysOk s w) (n : Nat) (hs : s.stat = some (Int.ofNat n)) (f : Bytes) (hr : ∀ m, s.read m = some (f.take m))
    (hf : f.length < n) : ∃ w', tlsLoadFile s w = some (w', none) ∧ NothingLeft w w' := by
  obtain ⟨w', r, e, hl⟩ := C145_load s w h
  cases r with
  | none => exact ⟨w', e, hl.1⟩
  | some x =>
    obtain ⟨p, m⟩ := x
    obtain ⟨b, -, h2, -, h4, h5⟩ := hl
    rw [hs] at h4
    have : n = m := by
      simp only [Option.some.injEq, Int.ofNat_eq_natCast] at h4
      omega
    subst this
    rw [hr] at h5
    cases h5
    simp at h2
    omega

/-- **C145.** Of what is not a regular file, such as a pipe, the size is said to be 0; it is loaded as nothing, whatever can be read from it. -/
theorem C145_not_regular (s : LSys) (w : LWorld) (h : SysOk s w) (ho : s.opened ≠ none) (hs : s.stat = some 0) (hm : s.mem 0 ≠ none) (d : Bytes)
    (hr : ∀ m, s.read m = some (d.take m)) : ∃ w' p, tlsLoadFile s w = some (w', some (p, 0)) ∧ OneMore w w' p [] := by
  obtain ⟨w', r, e, hl⟩ := C145_load s w h
  cases r with
  | none => exact absurd ⟨0, [], ho, hs, hm, by simp [hr], rfl⟩ hl.2
  | some x =>
    obtain ⟨p, m⟩ := x
    obtain ⟨b, h1, h2, -, h4, h5⟩ := hl
    rw [hs] at h4
    have : m = 0 := by simpa using h4.symm
    subst this
    rw [List.length_eq_zero_iff.1 h2] at h1
    exact ⟨w', p, e, h1⟩

/-- the world without the block at `p` -/
def without (w : LWorld) (p : Nat) (c : Bytes) : LWorld := { w with live := fun q => if q = p then none else w.live q, freed := c :: w.freed }

/-- **C145.** tls_config_load_file does the same as tls_load_file once what there was is freed; when it fails there is no pointer left to it. -/
theorem C145_replaced (s : LSys) (w : LWorld) (h : SysOk s w) (old : Nat) (c : Bytes) (ho : w.live old = some c) :
    ∃ w' rc buf len, tlsConfigLoadFile s (some old) w = some (w', rc, buf, len) ∧
      (rc = false → buf = none ∧ len = 0 ∧ NothingLeft (without w old c) w') ∧
      (rc = true → ∃ p b, buf = some p ∧ len = b.length ∧ s.stat = some (Int.ofNat len) ∧ s.read len = some b ∧ OneMore (without w old c) w' p b) := by
  have h' : SysOk s (without w old c) := ⟨h.fd, h.mem, h.read, by
    show (if w.next = old then none else w.live w.next) = none
    rw [h.fresh]; simp⟩
  obtain ⟨w', r, e, hl⟩ := C145_load s _ h'
  have hf : w.free (some old) = some (without w old c) := by simp [LWorld.free, ho, without]
  rw [config_eq, hf, Option.bind_some, e]
  cases r with
  | none => exact ⟨w', false, none, 0, rfl, fun _ => ⟨rfl, rfl, hl.1⟩, by simp⟩
  | some x =>
    obtain ⟨p, n⟩ := x
    obtain ⟨b, h1, h2, -, h4, h5⟩ := hl
    exact ⟨w', true, some p, n, rfl, by simp, fun _ => ⟨p, b, rfl, h2.symm, h4, h5, h1⟩⟩

/-- **C145.** A key is erased before a new one is loaded in its place, also when that fails; whatever else is freed is erased, too. -/
theorem C145_key_erased (s : LSys) (w : LWorld) (h : SysOk s w) (old : Nat) (c : Bytes) (ho : w.live old = some c) :
    ∃ w' rc key len, tlsKeypairSetKeyFile s (some old) c.length w = some (w', rc, key, len) ∧
      (∃ l, w'.freed = l ++ w.freed ∧ ∀ b ∈ l, Erased b) ∧
      (rc = false → key = none ∧ ∀ q, w'.live q = if q = old then none else w.live q) ∧
      (rc = true → ∃ p b, key = some p ∧ w'.live p = some b ∧ len = b.length ∧ s.read len = some b) ∧ w'.fds = w.fds := by
  have h' : SysOk s (without w old (List.replicate c.length 0)) := ⟨h.fd, h.mem, h.read, by
    show (if w.next = old then none else w.live w.next) = none
    rw [h.fresh]; simp⟩
  obtain ⟨w', r, e, hl⟩ := C145_load s _ h'
  have hz : w.freezero (some old) c.length = some (without w old (List.replicate c.length 0)) := freezero_live w old c ho
  unfold tlsKeypairSetKeyFile
  rw [hz, Option.bind_some, config_eq]
  simp only [LWorld.free, Option.bind_some]
  rw [e]
  cases r with
  | none =>
    obtain ⟨⟨h1, h2, l, h3, h4⟩, -⟩ := hl
    refine ⟨w', false, none, 0, rfl, ⟨l ++ [List.replicate c.length 0], by simp [h3, without], ?_⟩, fun _ => ⟨rfl, fun q => by rw [h1]; rfl⟩, by simp, h2⟩
    intro b hb
    rcases List.mem_append.1 hb with hb | hb
    · exact h4 b hb
    · rw [List.mem_singleton.1 hb]; exact erased_zero _
  | some x =>
    obtain ⟨p, n⟩ := x
    obtain ⟨b, ⟨-, h1, -, h2, h3⟩, h4, -, -, h5⟩ := hl
    refine ⟨w', true, some p, n, rfl, ⟨[List.replicate c.length 0], by simp [h3, without], ?_⟩, by simp, fun _ => ⟨p, b, rfl, h1, h4.symm, h5⟩, h2⟩
    intro b hb
    rw [List.mem_singleton.1 hb]; exact erased_zero _

/-! ## a concrete case -/

/-- a system with the file `f`, all memory and the descriptor 3 -/
def sysOf (f : Bytes) : LSys := { opened := some 3, stat := some f.length, mem := fun n => some (List.replicate n 0xaa), read := fun n => some (f.take n) }

theorem sysOf_ok (f : Bytes) (w : LWorld) (h1 : 3 ∉ w.fds) (h2 : w.live w.next = none) : SysOk (sysOf f) w :=
  ⟨by rintro _ ⟨⟩; exact h1, by rintro n _ ⟨⟩; simp, by rintro n _ ⟨⟩; simp; omega, h2⟩

theorem sysOf_contents (f : Bytes) : Contents (sysOf f) f := ⟨by simp [sysOf], rfl, by simp [sysOf], fun _ => rfl⟩

example : ∃ w' p, tlsLoadFile (sysOf b%"key") {} = some (w', some (p, 3)) ∧ OneMore {} w' p b%"key" :=
  C145_whole _ {} (sysOf_ok _ _ (by simp) rfl) _ (sysOf_contents _)

/-- the file loses two bytes between fstat and read -/
def shorterNow : LSys := { sysOf b%"k" with stat := some 3 }

example : ∃ w', tlsLoadFile shorterNow {} = some (w', none) ∧ NothingLeft {} w' :=
  C145_truncated shorterNow {} ⟨by rintro _ ⟨⟩; simp, by rintro n _ ⟨⟩; simp, by rintro n _ ⟨⟩; simp; omega, rfl⟩ 3 rfl b%"k" (fun _ => rfl) (by decide)

/-- a pipe -/
def aPipe : LSys := { sysOf b%"key" with stat := some 0 }

example : ∃ w' p, tlsLoadFile aPipe {} = some (w', some (p, 0)) ∧ OneMore {} w' p [] :=
  C145_not_regular aPipe {} ⟨by rintro _ ⟨⟩; simp, by rintro n _ ⟨⟩; simp, by rintro n _ ⟨⟩; simp; omega, rfl⟩ (by simp [aPipe, sysOf]) rfl (by simp [aPipe, sysOf]) b%"key"
    (fun _ => rfl)

/-- a world with an old key -/
def oldKey : LWorld := { live := fun q => if q = 0 then some b%"old" else none, next := 1 }

example : ∃ w' rc key len, tlsKeypairSetKeyFile shorterNow (some 0) 3 oldKey = some (w', rc, key, len) ∧ ∃ l, w'.freed = l ++ [] ∧ ∀ b ∈ l, Erased b := by
  obtain ⟨w', rc, key, len, h1, h2, -⟩ := C145_key_erased shorterNow oldKey
    ⟨by rintro _ ⟨⟩; simp [oldKey], by rintro n _ ⟨⟩; simp, by rintro n _ ⟨⟩; simp; omega, rfl⟩ 0 b%"old" rfl
  exact ⟨w', rc, key, len, h1, h2⟩

example : ∃ w' rc buf len, tlsConfigLoadFile (sysOf b%"new") (some 0) oldKey = some (w', rc, buf, len) ∧
    (rc = true → ∃ p b, buf = some p ∧ len = b.length ∧ w'.live p = some b) := by
  obtain ⟨w', rc, buf, len, h1, -, h2⟩ := C145_replaced (sysOf b%"new") oldKey (sysOf_ok _ _ (by simp [oldKey]) rfl) 0 b%"old" rfl
  refine ⟨w', rc, buf, len, h1, fun e => ?_⟩
  obtain ⟨p, b, h3, h4, -, -, h5⟩ := h2 e
  exact ⟨p, b, h3, h4, h5.2.1⟩

end Gmid.Props
