import Verif.Model.Reload
import Verif.Spec.Reload

/-!
# C40: reloads are serialised
-/

set_option autoImplicit false

namespace Gmid.Props

open Spec

variable {X : Type}

/-- the acknowledgements still to come -/
def outstanding (s : RSys X) : Nat := s.dones + (s.children.map fun c => c.inbox.length).sum

/-- **C40.** A reload requested while another is in progress, as far as the main process knows, has no effect. -/
theorem C40_ignored (s : RSys X) (pr : Parsed X) (h : s.reload ≠ 0) : rStep s (.hup pr) = s := by
  simp [rStep, rReload, h]

/-- **C40.** A file that does not parse changes nothing in the other processes. -/
theorem C40_parse_failure (s : RSys X) (p : Nat) :
    (rStep s (.hup (.fail p))).children = s.children ∧ (rStep s (.hup (.fail p))).dones = s.dones ∧
    (rStep s (.hup (.fail p))).started = s.started := by
  by_cases h : s.reload ≠ 0 <;> simp [rStep, rReload, h]

theorem sum_set {l : List Nat} {i v : Nat} (h : i < l.length) : (l.set i v).sum + l[i] = l.sum + v := by
  induction l generalizing i with
  | nil => simp at h
  | cons a r ih =>
    cases i with
    | zero => simp only [List.set_cons_zero, List.sum_cons, List.getElem_cons_zero]; omega
    | succ i =>
      simp only [List.set_cons_succ, List.sum_cons, List.getElem_cons_succ]
      have := ih (i := i) (by simpa using h)
      omega

theorem apply_facts (s : RSys X) (i : Nat) :
    outstanding (rStep s (.apply i)) = outstanding s ∧ (rStep s (.apply i)).reload = s.reload ∧ (rStep s (.apply i)).prefork = s.prefork ∧
    (rStep s (.apply i)).started = s.started ∧ (rStep s (.apply i)).children.length = s.children.length := by
  simp only [rStep]
  cases hi : s.children[i]? with
  | none => simp
  | some c =>
    obtain ⟨hlt, hc⟩ := List.getElem?_eq_some_iff.mp hi
    refine ⟨?_, rfl, rfl, rfl, by simp⟩
    simp only [outstanding]
    cases hb : c.inbox with
    | nil => simp [childApply, hb, hc ▸ List.set_getElem_self hlt]
    | cons x r =>
      simp only [childApply, hb, List.map_set]
      have := sum_set (l := s.children.map fun c => c.inbox.length) (i := i) (v := r.length) (by simpa using hlt)
      simp only [List.getElem_map, hc, hb, List.length_cons] at this
      omega

theorem sum_zero {l : List Nat} : l.sum = 0 ↔ ∀ x ∈ l, x = 0 := by
  induction l with
  | nil => simp
  | cons a r ih => simp [ih]

theorem idle_iff (s : RSys X) : Idle s ↔ outstanding s = 0 := by
  unfold Idle outstanding
  rw [Nat.add_eq_zero_iff, sum_zero]
  simp

theorem configure_outstanding (s : RSys X) (x : X) : outstanding (rConfigure s x) = outstanding s + s.children.length := by
  have : ∀ l : List (Child X), ((l.map fun c => { c with inbox := c.inbox ++ [x] }).map fun c => c.inbox.length).sum =
      (l.map fun c => c.inbox.length).sum + l.length := by
    intro l; induction l with
    | nil => rfl
    | cons a r ih => simp only [List.map_cons, List.sum_cons, List.length_cons, List.length_append, List.length_nil] at ih ⊢; omega
  simp only [outstanding, rConfigure, this]; omega

/-- what is true at every moment if every file parses, with `n` server processes -/
structure ReloadInv (n : Nat) (s : RSys X) : Prop where
  pf : s.prefork = n
  len : s.children.length = n + 1
  rl : s.reload = outstanding s
  /-- a process has the last configuration, or it is on its way, alone -/
  cfgs : ∀ c ∈ s.children, (c.inbox = [] ∧ c.cfg = s.started.getLast?) ∨ (∃ x, c.inbox = [x] ∧ s.started.getLast? = some x)

theorem reloadInv_configure {n : Nat} {s : RSys X} (x : X) (hp : s.prefork = n) (hl : s.children.length = n + 1) (hi : Idle s) : ReloadInv n (rConfigure s x) where
  pf := hp
  len := by simp [rConfigure, hl]
  rl := by rw [configure_outstanding, (idle_iff s).mp hi, hl]; simp [rConfigure, hp]
  cfgs := by
    intro c hc
    simp only [rConfigure, List.mem_map] at hc
    obtain ⟨c0, h0, e⟩ := hc
    right
    refine ⟨x, ?_, by simp [rConfigure]⟩
    subst e
    simp [hi.2 c0 h0]

theorem reloadInv_step {n : Nat} {s : RSys X} (ev : REv X) (hev : ∀ p, ev ≠ .hup (.fail p)) (h : ReloadInv n s) : ReloadInv n (rStep s ev) := by
  cases ev with
  | hup pr =>
    cases pr with
    | fail p => exact absurd rfl (hev p)
    | ok x p =>
      by_cases hr : s.reload ≠ 0
      · rw [C40_ignored s _ hr]; exact h
      · have hr0 : s.reload = 0 := by omega
        simp only [rStep, rReload, hr]
        have hi : Idle s := (idle_iff s).mpr (h.rl ▸ hr0)
        exact reloadInv_configure x h.pf h.len hi
  | apply i =>
    obtain ⟨a1, a2, a3, a4, a5⟩ := apply_facts s i
    refine ⟨by rw [a3]; exact h.pf, by rw [a5]; exact h.len, by rw [a1, a2]; exact h.rl, ?_⟩
    rw [a4]
    simp only [rStep]
    cases hi : s.children[i]? with
    | none => exact h.cfgs
    | some c =>
      intro c' hc'
      simp only at hc'
      rcases List.mem_or_eq_of_mem_set hc' with hm | hm
      · exact h.cfgs c' hm
      · have hcm : c ∈ s.children := List.mem_of_getElem? hi
        rcases h.cfgs c hcm with ⟨hb, hcf⟩ | ⟨x, hb, hl⟩
        · left; subst hm; simp [childApply, hb, hcf]
        · left; subst hm; simp [childApply, hb, hl]
  | ack =>
    simp only [rStep]
    by_cases hd : s.dones = 0
    · rw [if_pos hd]; exact h
    · rw [if_neg hd]
      have hr := h.rl
      have ho : outstanding s ≠ 0 := by unfold outstanding; omega
      have hne : ({ s with dones := s.dones - 1 } : RSys X).reload ≠ 0 := by show s.reload ≠ 0; omega
      simp only [rConfigureDone]
      rw [if_neg hne]
      refine ⟨h.pf, h.len, ?_, h.cfgs⟩
      show s.reload - 1 = _
      simp only [outstanding] at hr ⊢
      omega

theorem reloadInv_run {n : Nat} (evs : List (REv X)) : ∀ {s : RSys X}, AllParse evs → ReloadInv n s → ReloadInv n (rRun s evs) := by
  induction evs with
  | nil => intro s _ h; exact h
  | cons e r ih =>
    intro s ha h
    refine ih (fun p hp => ha p (List.mem_cons_of_mem _ hp)) (reloadInv_step e (fun p hp => ha p (by simp [hp])) h)

theorem reloadInv_init (n : Nat) (x : X) : ReloadInv n (rInit n x) :=
  reloadInv_configure x rfl (by simp) ⟨rfl, by intro c hc; simp only [List.mem_replicate] at hc; rw [hc.2]⟩

/-- **C40, when every file parses.** In any history: the main process counts a reload as complete exactly when every child has
applied and acknowledged it; then every child uses the configuration sent last; and a SIGHUP starts a reload exactly when none is in
progress.  The full property, for histories in which some file does not parse, is false: see `C40_overlap` and `C40_stuck`. -/
theorem C40_serialised_partial (n : Nat) (x0 : X) (evs : List (REv X)) (hp : AllParse evs) :
    let s := rRun (rInit n x0) evs
    (s.reload = 0 ↔ Idle s) ∧ (Idle s → UpToDate s) ∧
    (∀ x p, (Idle s → (rStep s (.hup (.ok x p))).started = s.started ++ [x]) ∧ (¬ Idle s → rStep s (.hup (.ok x p)) = s)) := by
  intro s
  have h : ReloadInv n s := reloadInv_run evs hp (reloadInv_init n x0)
  have e : s.reload = 0 ↔ Idle s := by rw [idle_iff, h.rl]
  refine ⟨e, ?_, fun x p => ⟨?_, ?_⟩⟩
  · intro hi c hc
    rcases h.cfgs c hc with ⟨_, h2⟩ | ⟨x, h1, _⟩
    · exact h2
    · rw [hi.2 c hc] at h1; cases h1
  · intro hi
    have := e.mpr hi
    simp [rStep, rReload, this, rConfigure]
  · intro hi
    exact C40_ignored s _ (fun h0 => hi (e.mp h0))

/-- **C40, when every file parses.** There is never more than one configuration on its way to a process. -/
theorem C40_one_at_a_time_partial (n : Nat) (x0 : X) (evs : List (REv X)) (hp : AllParse evs) :
    ∀ c ∈ (rRun (rInit n x0) evs).children, c.inbox.length ≤ 1 := by
  intro c hc
  rcases (reloadInv_run evs hp (reloadInv_init n x0)).cfgs c hc with ⟨h, _⟩ | ⟨x, h, _⟩ <;> simp [h]

/-- a history in which a file does not parse: two server processes; the first configuration is acknowledged, a reload fails, the next is
acknowledged by one process only, and yet another is accepted -/
def overlapHist : List (REv Nat) :=
  [.apply 0, .apply 1, .apply 2, .ack, .ack, .ack, .hup (.fail 0), .hup (.ok 1 2), .apply 0, .ack]

/-- **C40, the rest is false.** After a file failed to parse, a reload is accepted while another is in progress: the
failure clears conf->prefork, so the main process waits for one acknowledgement only. -/
theorem C40_overlap :
    let s := rRun (rInit 2 0) overlapHist
    ¬ Idle s ∧ (rStep s (.hup (.ok 2 2))).started = s.started ++ [2] ∧ ∃ c ∈ (rStep s (.hup (.ok 2 2))).children, c.inbox = [1, 2] := by
  refine ⟨?_, by decide, ?_⟩
  · intro h; exact absurd (h.2 { cfg := some 0, inbox := [1] } (by decide)) (by decide)
  · exact ⟨{ cfg := some 0, inbox := [1, 2] }, by decide, rfl⟩

theorem stuck_step (s : RSys X) (ev : REv X) (h : outstanding s < s.reload) :
    outstanding (rStep s ev) < (rStep s ev).reload ∧ (rStep s ev).started = s.started := by
  cases ev with
  | hup pr => rw [C40_ignored s pr (by omega)]; exact ⟨h, rfl⟩
  | apply i =>
    obtain ⟨a1, a2, a3, a4, a5⟩ := apply_facts s i
    rw [a1, a2]; exact ⟨h, a4⟩
  | ack =>
    simp only [rStep]
    by_cases hd : s.dones = 0
    · rw [if_pos hd]; exact ⟨h, rfl⟩
    · rw [if_neg hd]
      have hne : ({ s with dones := s.dones - 1 } : RSys X).reload ≠ 0 := by show s.reload ≠ 0; omega
      simp only [rConfigureDone]
      rw [if_neg hne]
      refine ⟨?_, rfl⟩
      show _ < s.reload - 1
      simp only [outstanding] at h ⊢
      omega

theorem stuck_run (evs : List (REv X)) : ∀ s : RSys X, outstanding s < s.reload → (rRun s evs).started = s.started := by
  induction evs with
  | nil => intro s _; rfl
  | cons e r ih =>
    intro s h
    obtain ⟨h1, h2⟩ := stuck_step s e h
    exact (ih (rStep s e) h1).trans h2

/-- a file with "prefork 7" that does not parse, then one that does -/
def stuckHist : List (REv Nat) :=
  [.apply 0, .apply 1, .apply 2, .ack, .ack, .ack, .hup (.fail 7), .hup (.ok 1 2), .apply 0, .apply 1, .apply 2, .ack, .ack, .ack]

/-- **C40, the rest is false.** After a file failed to parse that sets a larger prefork number, the next reload is never
complete for the main process, although every child acknowledged it, and no reload is ever started again. -/
theorem C40_stuck :
    let s := rRun (rInit 2 0) stuckHist
    Idle s ∧ UpToDate s ∧ s.started = [0, 1] ∧ ∀ evs, (rRun s evs).started = [0, 1] := by
  refine ⟨⟨by decide, by decide⟩, ?_, by decide, ?_⟩
  · unfold UpToDate; decide
  · intro evs
    exact stuck_run evs _ (by decide)

/-- with files that parse, the same history is fine -/
example :
    let s := rRun (rInit 2 0) [.apply 0, .apply 1, .apply 2, .ack, .hup (.ok 9 2), .ack, .ack, .hup (.ok 1 7), .apply 1, .ack]
    s.started = [0, 1] ∧ s.reload = 2 ∧ (s.children.map fun c => c.cfg) = [some 0, some 1, some 0] := by decide

example : AllParse ([.apply 0, .hup (.ok 1 2), .ack] : List (REv Nat)) := by intro p hp; simp at hp

end Gmid.Props
