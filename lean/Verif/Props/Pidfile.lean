import Verif.Model.Pidfile

/-!
# C91: the pidfile
-/

set_option autoImplicit false

namespace Gmid.Props

/-- the lock is held exactly by the one process that is past the call that takes it, and the file has what it wrote -/
structure PidInv (s : PidSys) : Prop where
  holder : ∀ p, s.phase p = .locked ∨ s.phase p = .truncated ∨ s.phase p = .running ↔ s.lock = some p
  trunc : ∀ p, s.phase p = .truncated → s.content = some []
  written : ∀ p, s.phase p = .running → s.content = some (natDec p ++ [10])
  exist : ∀ p, s.phase p ≠ .none → s.content ≠ none

theorem pidInv_step (s s' : PidSys) (h : PidStep s s') (i : PidInv s) : PidInv s' := by
  obtain ⟨h1, h2, h3, h4⟩ := i
  cases h with
  | «open» p h =>
    constructor <;> intro q <;> simp only [PidSys.set] <;> have := h1 q <;> have := h2 q <;> have := h3 q <;> have := h4 q <;> have := h1 p <;> grind
  | lock p h hl =>
    constructor <;> intro q <;> simp only [PidSys.set] <;> have := h1 q <;> have := h2 q <;> have := h3 q <;> have := h4 q <;> have := h1 p <;> have := h4 p <;> grind
  | busy p h hl =>
    constructor <;> intro q <;> simp only [PidSys.set] <;> have := h1 q <;> have := h2 q <;> have := h3 q <;> have := h4 q <;> have := h1 p <;> grind
  | truncate p h =>
    constructor <;> intro q <;> simp only [PidSys.set] <;> have := h1 q <;> have := h2 q <;> have := h3 q <;> have := h4 q <;> have := h1 p <;> grind
  | write p h =>
    have e : writeAt0 (s.content.getD []) (natDec p ++ [10]) = natDec p ++ [10] := by rw [h2 p h]; simp [writeAt0]
    rw [e]
    constructor <;> intro q <;> simp only [PidSys.set] <;> have := h1 q <;> have := h2 q <;> have := h3 q <;> have := h4 q <;> have := h1 p <;> grind
  | stop p =>
    constructor <;> intro q <;> simp only [PidSys.set] <;> have := h1 q <;> have := h2 q <;> have := h3 q <;> have := h4 q <;> have := h1 p <;> grind

theorem pidInv_steps (s s' : PidSys) (h : PidSteps s s') (i : PidInv s) : PidInv s' := by
  induction h with
  | refl => exact i
  | step s1 s2 _ hs ih => exact pidInv_step _ _ hs ih

/-- no gmid yet, and whatever file there may be -/
def pidStart (content : Option Bytes) : PidSys := { content := content, lock := none, phase := fun _ => .none }

theorem pidInv_start (c : Option Bytes) : PidInv (pidStart c) := by
  constructor <;> simp [pidStart]

/-- C91: Whatever the file had before, and however many gmids are started and end, at any point and in any order, at most one of them gets to run,
and as long as it does the file has its process id and nothing else. -/
theorem C91_one_gmid (c : Option Bytes) (s : PidSys) (h : PidSteps (pidStart c) s) :
    (∀ p q, s.phase p = .running → s.phase q = .running → p = q) ∧
    (∀ p, s.phase p = .running → s.content = some (natDec p ++ b%"\n")) := by
  obtain ⟨h1, h2, h3, h4⟩ := pidInv_steps _ _ h (pidInv_start c)
  refine ⟨fun p q hp hq => ?_, h3⟩
  have a := (h1 p).1 (.inr (.inr hp))
  have b := (h1 q).1 (.inr (.inr hq))
  rw [a] at b
  simpa using b

/-- C91: A gmid that does not get to run changes nothing: as long as one runs, the file does not change. -/
theorem C91_untouched (c : Option Bytes) (s s' : PidSys) (h : PidSteps (pidStart c) s) (hs : PidStep s s') (p : Nat)
    (hp : s.phase p = .running) (hp' : s'.phase p = .running) : s'.content = s.content := by
  have i := pidInv_steps _ _ h (pidInv_start c)
  rw [i.written p hp, (pidInv_step _ _ hs i).written p hp']

/-- C91: A file that was left behind does not prevent a start: when none runs, or is about to, a new one gets there with its four calls. -/
theorem C91_starts (c : Option Bytes) (s : PidSys) (h : PidSteps (pidStart c) s) (p : Nat) (hn : s.phase p = .none)
    (hnone : ∀ q, s.phase q = .none ∨ s.phase q = .opened) : ∃ s', PidSteps s s' ∧ s'.phase p = .running ∧ s'.content = some (natDec p ++ b%"\n") := by
  have i := pidInv_steps _ _ h (pidInv_start c)
  have hl : s.lock = none := by
    cases e : s.lock with
    | none => rfl
    | some q =>
      have := (i.holder q).2 e
      have := hnone q
      grind
  have k1 := PidSteps.step _ _ _ (.refl s) (.open s p hn)
  have k2 := PidSteps.step _ _ _ k1 (.lock _ p (by simp [PidSys.set]) (by simp [PidSys.set, hl]))
  have k3 := PidSteps.step _ _ _ k2 (.truncate _ p (by simp [PidSys.set]))
  have k4 := PidSteps.step _ _ _ k3 (.write _ p (by simp [PidSys.set]))
  exact ⟨_, k4, by simp [PidSys.set], by simp [PidSys.set, writeAt0]⟩

/-- A gmid crashed with process id 12345; another one, with 77, starts. -/
example : ∃ s, PidSteps (pidStart (some b%"12345\n")) s ∧ s.phase 77 = .running ∧ s.content = some b%"77\n" := by
  obtain ⟨s, h1, h2, h3⟩ := C91_starts (some b%"12345\n") _ (.refl _) 77 rfl (fun _ => .inl rfl)
  refine ⟨s, h1, h2, ?_⟩
  rw [h3]
  decide +kernel

end Gmid.Props
