import Verif.Spec.Send

/-!
# C101: every instance gets every message, with a descriptor of its own, and the main process keeps none
-/

set_option autoImplicit false

namespace Gmid.Props
open Gmid.Spec

variable {M : Type}

/-- the queue `p` is that of an instance from `n` on, `k` in all -/
def InRange (id n k : Nat) (p : PI) : Prop := p.1 = id ∧ n ≤ p.2 ∧ p.2 < n + k

theorem composeLoop_spec (id : Nat) (m : M) (fd : Option Nat) (k n : Nat) (s : Snd M) :
    (composeLoop id m fd k n s).fds = s.fds ∧ (composeLoop id m fd k n s).out = s.out ∧
      (∀ p, InRange id n k p → (composeLoop id m fd k n s).q p = s.q p ++ [(m, fd)]) ∧
      (∀ p, ¬ InRange id n k p → (composeLoop id m fd k n s).q p = s.q p) := by
  induction k generalizing n s with
  | zero => exact ⟨rfl, rfl, by intro p h; have := h.2; omega, fun _ _ => rfl⟩
  | succ k ih =>
    rw [composeLoop]
    obtain ⟨h1, h2, h3, h4⟩ := ih (n + 1) (s.push (id, n) m fd)
    refine ⟨h1, h2, ?_, ?_⟩
    · rintro ⟨a, b⟩ ⟨ha, hb⟩
      dsimp only at ha hb
      subst ha
      by_cases hbn : b = n
      · subst hbn
        rw [h4 _ (by rintro ⟨_, hx⟩; dsimp only at hx; omega)]
        simp [Snd.push]
      · rw [h3 _ ⟨rfl, by dsimp only; omega⟩]
        simp [Snd.push, hbn]
    · rintro ⟨a, b⟩ hp
      rw [h4]
      · have : ¬ ((a, b) = (id, n)) := by
          intro e; cases e; exact hp ⟨rfl, by dsimp only; omega⟩
        simp only [Snd.push, this, if_false]
      · rintro ⟨ha, hb⟩; dsimp only at ha hb; exact hp ⟨ha, by dsimp only; omega⟩

theorem composeOne (inst : Nat → Nat) (s : Snd M) (id n : Nat) (m : M) (fd : Option Nat) : composeImsg inst s id (some n) m fd = s.push (id, n) m fd := by
  simp only [composeImsg, procRange, Nat.add_sub_cancel_left]
  rfl

theorem flushQueue_free (p : PI) (l : List (M × Option Nat)) (s : Snd M) (hl : ∀ x ∈ l, x.2 = none) (t : List (M × Option Nat)) :
    flushQueue p (l ++ t) s = flushQueue p t { s with out := fun x => if x = p then s.out x ++ l else s.out x } := by
  induction l generalizing s with
  | nil =>
    congr 1
    cases s
    simp
  | cons a r ih =>
    obtain ⟨m, fd⟩ := a
    have := hl (m, fd) (by simp)
    dsimp only at this
    subst this
    rw [List.cons_append, flushQueue, ih _ (fun x hx => hl x (by simp [hx]))]
    congr 1
    simp only [Snd.mk.injEq, true_and]
    funext x
    by_cases hx : x = p <;> simp [hx]

theorem file_of_mem {s : Snd M} {fd f : Nat} (hn : (s.fds.map (·.1)).Nodup) (h : (fd, f) ∈ s.fds) : s.file fd = some f := by
  unfold Snd.file
  generalize s.fds = l at *
  induction l with
  | nil => cases h
  | cons a r ih =>
    rw [List.find?_cons]
    rw [List.map_cons, List.nodup_cons] at hn
    rcases List.mem_cons.mp h with h | h
    · subst h; simp
    · have : a.1 ≠ fd := fun e => hn.1 (by rw [e]; exact List.mem_map.mpr ⟨(fd, f), h, rfl⟩)
      have hb : (a.1 == fd) = false := by simpa using this
      rw [hb]
      exact ih hn.2 h

theorem close_eq {s : Snd M} {fd f : Nat} {a b : List (Nat × Nat)} (hs : s.fds = a ++ (fd, f) :: b) (hn : (s.fds.map (·.1)).Nodup) :
    (s.close fd).fds = a ++ b := by
  unfold Snd.close
  dsimp only
  rw [hs] at hn ⊢
  simp only [List.map_append, List.map_cons] at hn
  rw [List.nodup_append] at hn
  obtain ⟨h1, h2, h3⟩ := hn
  rw [List.nodup_cons] at h2
  rw [List.filter_append, List.filter_cons]
  simp only [bne_self_eq_false, Bool.false_eq_true, if_false]
  rw [List.filter_eq_self.mpr, List.filter_eq_self.mpr]
  · intro x hx
    simp only [bne_iff_ne, ne_eq]
    exact fun e => h2.1 (by rw [← e]; exact List.mem_map.mpr ⟨x, hx, rfl⟩)
  · intro x hx
    simp only [bne_iff_ne, ne_eq]
    exact fun e => h3 x.1 (List.mem_map.mpr ⟨x, hx, rfl⟩) fd (by simp) e

/-- flushing queues without descriptors -/
theorem flushLoop_free (id k n : Nat) (s : Snd M) (h : ∀ p, InRange id n k p → ∀ x ∈ s.q p, x.2 = none) :
    (flushLoop id k n s).fds = s.fds ∧
      (∀ p, InRange id n k p → (flushLoop id k n s).q p = [] ∧ (flushLoop id k n s).out p = s.out p ++ s.q p) ∧
      (∀ p, ¬ InRange id n k p → (flushLoop id k n s).q p = s.q p ∧ (flushLoop id k n s).out p = s.out p) := by
  induction k generalizing n s with
  | zero => exact ⟨rfl, by intro p h; have := h.2; omega, fun _ _ => ⟨rfl, rfl⟩⟩
  | succ k ih =>
    rw [flushLoop]
    have hf := flushQueue_free (id, n) (s.q (id, n)) s (h (id, n) ⟨rfl, by dsimp only; omega⟩) []
    rw [List.append_nil] at hf
    rw [hf, flushQueue]
    dsimp only
    obtain ⟨h1, h2, h3⟩ := ih (n + 1) { fds := s.fds, q := fun x => if x = (id, n) then [] else s.q x, out := fun x => if x = (id, n) then s.out x ++ s.q (id, n) else s.out x }
      (by
        rintro ⟨a, b⟩ hp x hx
        dsimp only at hx
        split at hx
        · cases hx
        · exact h (a, b) ⟨hp.1, by have := hp.2; dsimp only at this ⊢; omega⟩ x hx)
    refine ⟨h1, ?_, ?_⟩
    · rintro ⟨a, b⟩ ⟨ha, hb⟩
      dsimp only at ha hb
      subst ha
      by_cases hbn : b = n
      · subst hbn
        have := h3 (a, b) (by rintro ⟨_, hx⟩; dsimp only at hx; omega)
        simpa using this
      · have := h2 (a, b) ⟨rfl, by dsimp only; omega⟩
        simpa [hbn] using this
    · rintro ⟨a, b⟩ hp
      have hne : ¬ ((a, b) = (id, n)) := by
        intro e; cases e; exact hp ⟨rfl, by dsimp only; omega⟩
      have := h3 (a, b) (by rintro ⟨ha, hb⟩; dsimp only at ha hb; exact hp ⟨ha, by dsimp only; omega⟩)
      simpa only [hne, if_false] using this

theorem flushQueue_fd (p : PI) (l : List (M × Option Nat)) (m : M) (d f : Nat) (s : Snd M) (hl : ∀ x ∈ l, x.2 = none) (hf : s.file d = some f) :
    flushQueue p (l ++ [(m, some d)]) s =
      (⟨(s.close d).fds, fun x => if x = p then [] else s.q x, fun x => if x = p then s.out x ++ l ++ [(m, some f)] else s.out x⟩, true) := by
  rw [flushQueue_free p l s hl, flushQueue]
  have hf' : Snd.file { s with out := fun x => if x = p then s.out x ++ l else s.out x } d = some f := hf
  rw [hf']
  dsimp only
  rw [flushQueue]
  simp only [Snd.close, Prod.mk.injEq, Snd.mk.injEq, true_and, and_true]
  funext x
  by_cases hx : x = p <;> simp [hx]

/-- flushing queues that end with one descriptor each -/
theorem flushLoop_fds (id : Nat) (m : M) (f : Nat) (ds : List Nat) (n : Nat) (s : Snd M) (base : List (Nat × Nat))
    (hfds : s.fds = base ++ ds.map fun d => (d, f)) (hn : (s.fds.map (·.1)).Nodup) (q0 : PI → List (M × Option Nat)) (h0 : ∀ p, ∀ x ∈ q0 p, x.2 = none)
    (h : ∀ j, j < ds.length → s.q (id, n + j) = q0 (id, n + j) ++ [(m, ds[j]?)]) :
    (flushLoop id ds.length n s).fds = base ∧
      (∀ p, InRange id n ds.length p → (flushLoop id ds.length n s).q p = [] ∧ (flushLoop id ds.length n s).out p = s.out p ++ q0 p ++ [(m, some f)]) ∧
      (∀ p, ¬ InRange id n ds.length p → (flushLoop id ds.length n s).q p = s.q p ∧ (flushLoop id ds.length n s).out p = s.out p) := by
  induction ds generalizing n s with
  | nil => exact ⟨by simpa [flushLoop] using hfds, by intro p h; have := h.2; simp at this; omega, fun _ _ => ⟨rfl, rfl⟩⟩
  | cons d ds ih =>
    rw [List.length_cons, flushLoop]
    have hq := h 0 (by simp)
    simp only [Nat.add_zero, List.getElem?_cons_zero] at hq
    rw [hq, flushQueue_fd _ _ m d f s (h0 _) (file_of_mem hn (by simp [hfds]))]
    dsimp only
    have hc : (s.close d).fds = base ++ ds.map fun d => (d, f) := close_eq (f := f) (by simp [hfds]) hn
    rw [hc]
    have hn' : ((base ++ ds.map fun d => (d, f)).map (·.1)).Nodup := by
      rw [hfds] at hn
      simp only [List.map_append, List.map_cons, List.map_map] at hn ⊢
      rw [List.nodup_append] at hn ⊢
      obtain ⟨g1, g2, g3⟩ := hn
      exact ⟨g1, (List.nodup_cons.mp g2).2, fun a ha b hb => g3 a ha b (by simp only [List.mem_cons]; exact .inr hb)⟩
    obtain ⟨h1, h2, h3⟩ := ih (n + 1)
      { fds := base ++ ds.map fun d => (d, f), q := fun x => if x = (id, n) then [] else s.q x, out := fun x => if x = (id, n) then s.out x ++ q0 (id, n) ++ [(m, some f)] else s.out x }
      rfl hn' (by
        intro j hj
        have := h (j + 1) (by simp; omega)
        have hne : ¬ ((id, n + 1 + j) = (id, n)) := by intro e; simp at e; omega
        rw [show n + 1 + j = n + (j + 1) by omega] at hne ⊢
        simp only [hne, if_false, this, List.getElem?_cons_succ])
    refine ⟨h1, ?_, ?_⟩
    · rintro ⟨a, b⟩ ⟨ha, hb⟩
      dsimp only at ha hb
      subst ha
      by_cases hbn : b = n
      · subst hbn
        have := h3 (a, b) (by rintro ⟨_, hx⟩; dsimp only at hx; omega)
        simpa using this
      · have := h2 (a, b) ⟨rfl, by dsimp only; omega⟩
        simpa [hbn] using this
    · rintro ⟨a, b⟩ hp
      have hne : ¬ ((a, b) = (id, n)) := by
        intro e; cases e; exact hp ⟨rfl, by dsimp only; omega⟩
      have := h3 (a, b) (by rintro ⟨ha, hb⟩; dsimp only at ha hb; exact hp ⟨ha, by dsimp only; omega⟩)
      simpa only [hne, if_false] using this

variable (inst : Nat → Nat) (alloc : List Nat → Nat) (hal : ∀ l, alloc l ∉ l)
include hal

theorem openFile_spec (s : Snd M) (f : Nat) (hn : (s.fds.map (·.1)).Nodup) :
    ∃ fd, s.openFile alloc f = ({ s with fds := s.fds ++ [(fd, f)] }, fd) ∧ ((s.fds ++ [(fd, f)]).map (·.1)).Nodup := by
  refine ⟨_, rfl, ?_⟩
  rw [List.map_append, List.nodup_append]
  refine ⟨hn, by simp, ?_⟩
  intro a ha b hb e
  simp at hb
  rw [e, hb] at ha
  exact hal _ ha

theorem sendFileLoop_fd (id : Nat) (m : M) (x f k n : Nat) (s : Snd M) (hx : (x, f) ∈ s.fds) (hn : (s.fds.map (·.1)).Nodup) :
    ∃ (ds : List Nat) (s' : Snd M), ds.length = k ∧ sendFileLoop inst alloc id m (some x) k n s = some s' ∧ s'.fds = s.fds ++ ds.map (fun d => (d, f)) ∧
      (s'.fds.map (·.1)).Nodup ∧ s'.out = s.out ∧ (∀ j, j < k → s'.q (id, n + j) = s.q (id, n + j) ++ [(m, ds[j]?)]) ∧
      (∀ p, ¬ InRange id n k p → s'.q p = s.q p) := by
  induction k generalizing n s with
  | zero => exact ⟨[], s, rfl, rfl, by simp, hn, rfl, by intro j hj; omega, fun _ _ => rfl⟩
  | succ k ih =>
    rw [sendFileLoop]
    obtain ⟨d, hd, hdn⟩ := openFile_spec alloc hal s f hn
    rw [Snd.dup, file_of_mem hn hx]
    dsimp only [Option.map]
    rw [hd]
    dsimp only
    rw [composeOne]
    obtain ⟨ds, s', h1, h2, h3, h4, h5, h6, h7⟩ := ih (n + 1) (Snd.push { s with fds := s.fds ++ [(d, f)] } (id, n) m (some d)) (by simp [Snd.push, hx]) hdn
    refine ⟨d :: ds, s', by simp [h1], h2, ?_, h4, by rw [h5]; rfl, ?_, ?_⟩
    · rw [h3]; simp [Snd.push]
    · intro j hj
      cases j with
      | zero =>
        rw [h7 _ (by rintro ⟨_, hx⟩; dsimp only at hx; omega)]
        simp [Snd.push]
      | succ j =>
        rw [show n + (j + 1) = n + 1 + j by omega, h6 j (by omega)]
        have hne : ¬ ((id, n + 1 + j) = (id, n)) := by intro e; simp at e; omega
        simp [Snd.push, hne]
    · rintro ⟨a, b⟩ hp
      rw [h7 _ (by rintro ⟨ha, hb⟩; dsimp only at ha hb; exact hp ⟨ha, by dsimp only; omega⟩)]
      have hne : ¬ ((a, b) = (id, n)) := by
        intro e; cases e; exact hp ⟨rfl, by dsimp only; omega⟩
      simp only [Snd.push, hne, if_false]

omit hal in
theorem sendFileLoop_none (id : Nat) (m : M) (k n : Nat) (s : Snd M) :
    sendFileLoop inst alloc id m none k n s = some (composeLoop id m none k n s) := by
  induction k generalizing n s with
  | zero => rfl
  | succ k ih => rw [sendFileLoop, composeOne, ih]; rfl

/-- the effect of sending `l` to all instances of `id` -/
structure Sent (s s' : Snd M) (id : Nat) (l : List (M × Option Nat)) : Prop where
  quiet : Snd.Quiet s'
  to : ∀ p : PI, p.1 = id → p.2 < inst id → Snd.delivers s' p = Snd.delivers s p ++ l
  other : ∀ p : PI, ¬ (p.1 = id ∧ p.2 < inst id) → Snd.delivers s' p = Snd.delivers s p

omit hal in
theorem free_map (l : List (M × Option Nat)) (h : ∀ x ∈ l, x.2 = none) : (l.map fun x => (x.1, (none : Option Nat))) = l := by
  conv => rhs; rw [← List.map_id l]
  apply List.map_congr_left
  intro x hx
  have := h x hx
  obtain ⟨a, b⟩ := x
  dsimp only at this
  subst this
  rfl

omit hal in
theorem flush_sent (s : Snd M) (id : Nat) (h : Snd.Quiet s) : Sent inst s (flushImsg inst s id none) id [] ∧ (flushImsg inst s id none).fds = s.fds := by
  unfold flushImsg procRange
  dsimp only
  obtain ⟨h1, h2, h3⟩ := flushLoop_free id (inst id - 0) 0 s (fun p _ => h.1 p)
  simp only [Nat.sub_zero] at h1 h2 h3 ⊢
  refine ⟨⟨⟨?_, by rw [h1]; exact h.2⟩, ?_, ?_⟩, h1⟩
  · intro p x hx
    by_cases hp : InRange id 0 (inst id) p
    · rw [(h2 p hp).1] at hx; cases hx
    · rw [(h3 p hp).1] at hx; exact h.1 p x hx
  · intro p hp hp'
    have := h2 p ⟨hp, by omega⟩
    simp only [Snd.delivers, this.1, this.2, List.map_nil, List.append_nil]
    rw [free_map _ (h.1 p)]
  · intro p hp
    have := h3 p (fun hx => hp ⟨hx.1, by have := hx.2; omega⟩)
    simp only [Snd.delivers, this.1, this.2]

omit hal in
theorem compose_sent (s : Snd M) (id : Nat) (m : M) (h : Snd.Quiet s) :
    Sent inst s (composeImsg inst s id none m none) id [(m, none)] ∧ (composeImsg inst s id none m none).fds = s.fds := by
  unfold composeImsg procRange
  dsimp only
  obtain ⟨h1, h2, h3, h4⟩ := composeLoop_spec id m none (inst id - 0) 0 s
  simp only [Nat.sub_zero] at h1 h2 h3 h4 ⊢
  refine ⟨⟨⟨?_, by rw [h1]; exact h.2⟩, ?_, ?_⟩, h1⟩
  · intro p x hx
    by_cases hp : InRange id 0 (inst id) p
    · rw [h3 p hp, List.mem_append] at hx
      rcases hx with hx | hx
      · exact h.1 p x hx
      · simp at hx; rw [hx]
    · rw [h4 p hp] at hx; exact h.1 p x hx
  · intro p hp hp'
    simp only [Snd.delivers, h2, h3 p ⟨hp, by omega⟩]
    simp
  · intro p hp
    simp only [Snd.delivers, h2, h4 p (fun hx => hp ⟨hx.1, by have := hx.2; omega⟩)]

omit hal in
theorem Sent.trans {s s' s'' : Snd M} {id : Nat} {l l' : List (M × Option Nat)} (h : Sent inst s s' id l) (h' : Sent inst s' s'' id l') :
    Sent inst s s'' id (l ++ l') :=
  ⟨h'.quiet, fun p h1 h2 => by rw [h'.to p h1 h2, h.to p h1 h2, List.append_assoc], fun p hp => by rw [h'.other p hp, h.other p hp]⟩

omit hal in
theorem sendFile_none (s : Snd M) (id : Nat) (m : M) (h : Snd.Quiet s) :
    ∃ s', sendFile inst alloc s id m none = some s' ∧ Sent inst s s' id [(m, none)] ∧ s'.fds = s.fds := by
  unfold sendFile procRange
  dsimp only
  rw [sendFileLoop_none]
  obtain ⟨h1, h2⟩ := compose_sent inst s id m h
  simp only [composeImsg, procRange, Nat.sub_zero] at h1 h2
  obtain ⟨h3, h4⟩ := flush_sent inst _ id h1.quiet
  exact ⟨_, rfl, by simpa using h1.trans inst h3, by rw [h4, h2]⟩

theorem sendFile_fd (s : Snd M) (id : Nat) (m : M) (x f : Nat) (a b : List (Nat × Nat)) (hfds : s.fds = a ++ (x, f) :: b) (h : Snd.Quiet s) :
    ∃ s', sendFile inst alloc s id m (some x) = some s' ∧ Sent inst s s' id [(m, some f)] ∧ s'.fds = a ++ b := by
  unfold sendFile procRange
  dsimp only
  obtain ⟨ds, s1, h1, h2, h3, h4, h5, h6, h7⟩ := sendFileLoop_fd inst alloc hal id m x f (inst id) 0 s (by simp [hfds]) h.2
  rw [h2]
  dsimp only
  have hcl : (s1.close x).fds = (a ++ b) ++ ds.map fun d => (d, f) := by
    rw [close_eq (a := a) (b := b ++ ds.map fun d => (d, f)) (f := f) (by rw [h3, hfds]; simp) h4, List.append_assoc]
  have hnd : ((s1.close x).fds.map (·.1)).Nodup := by
    unfold Snd.close
    exact List.Sublist.nodup (List.Sublist.map _ List.filter_sublist) h4
  obtain ⟨g1, g2, g3⟩ := flushLoop_fds id m f ds 0 (s1.close x) (a ++ b) hcl hnd s.q h.1 (by
    intro j hj
    have := h6 j (by omega)
    exact this)
  unfold flushImsg procRange
  simp only [Nat.sub_zero]
  rw [h1] at g1 g2 g3
  refine ⟨_, rfl, ⟨⟨?_, ?_⟩, ?_, ?_⟩, g1⟩
  · intro p y hy
    by_cases hp : InRange id 0 (inst id) p
    · rw [(g2 p hp).1] at hy; cases hy
    · rw [(g3 p hp).1] at hy
      have : (s1.close x).q p = s.q p := h7 p hp
      rw [this] at hy
      exact h.1 p y hy
  · rw [g1]
    have hx : ((a ++ b).map (·.1)).Sublist (s.fds.map (·.1)) := by
      rw [hfds]
      apply List.Sublist.map
      exact List.Sublist.append (List.Sublist.refl a) (List.sublist_cons_self _ _)
    exact hx.nodup h.2
  · intro p hp hp'
    obtain ⟨e1, e2⟩ := g2 p ⟨hp, by omega⟩
    have : (s1.close x).out p = s.out p := by rw [← h5]; rfl
    simp only [Snd.delivers, e1, e2, this, List.map_nil, List.append_nil]
    rw [free_map _ (h.1 p)]
  · intro p hp
    have hr : ¬ InRange id 0 (inst id) p := fun hx => hp ⟨hx.1, by have := hx.2; omega⟩
    obtain ⟨e1, e2⟩ := g3 p hr
    have : (s1.close x).out p = s.out p := by rw [← h5]; rfl
    have h8 : (s1.close x).q p = s.q p := h7 p hr
    simp only [Snd.delivers, e1, e2, this, h8]

theorem openSend_sent (s : Snd M) (id : Nat) (m : M) (f : Nat) (h : Snd.Quiet s) :
    ∃ s', openSendFd inst alloc s id m f = some s' ∧ Sent inst s s' id [(m, some f)] ∧ s'.fds = s.fds := by
  unfold openSendFd
  obtain ⟨fd, h1, h2⟩ := openFile_spec alloc hal s f h.2
  rw [h1]
  dsimp only
  obtain ⟨s', g1, g2, g3⟩ := sendFile_fd inst alloc hal { s with fds := s.fds ++ [(fd, f)] } id m fd f s.fds [] (by simp) ⟨h.1, h2⟩
  exact ⟨s', g1, ⟨g2.quiet, g2.to, g2.other⟩, by simpa using g3⟩

theorem kp_sent (s : Snd M) (cm km : M) (c k : Nat) (h : Snd.Quiet s) :
    ∃ s', sendKpFds inst alloc true s cm km c k = some s' ∧ Snd.Quiet s' ∧ s'.fds = s.fds ∧
      ∀ p : PI, p.2 < inst p.1 → Snd.delivers s' p = Snd.delivers s p ++ SendCmd.for true p.1 (.kp cm km c k) := by
  unfold sendKpFds
  obtain ⟨fd, h1, h2⟩ := openFile_spec alloc hal s c h.2
  rw [h1]
  dsimp only
  have hf : Snd.file { s with fds := s.fds ++ [(fd, c)] } fd = some c := file_of_mem (s := { s with fds := _ }) h2 (by simp)
  obtain ⟨d, h3, h4⟩ := openFile_spec alloc hal { s with fds := s.fds ++ [(fd, c)] } c h2
  rw [Snd.dup, hf]
  dsimp only [Option.map]
  rw [h3]
  dsimp only
  obtain ⟨s1, g1, g2, g3⟩ := sendFile_fd inst alloc hal { s with fds := s.fds ++ [(fd, c)] ++ [(d, c)] } pServer cm fd c s.fds [(d, c)] (by simp) ⟨h.1, h4⟩
  rw [g1]
  dsimp only
  simp only [if_true]
  obtain ⟨s2, e1, e2, e3⟩ := sendFile_fd inst alloc hal s1 pCrypto cm d c s.fds [] g3 g2.quiet
  rw [e1]
  dsimp only
  obtain ⟨s3, f1, f2, f3⟩ := openSend_sent inst alloc hal s2 pCrypto km k e2.quiet
  refine ⟨s3, f1, f2.quiet, by rw [f3, e3]; simp, ?_⟩
  intro p hp
  have hd0 : ∀ p, Snd.delivers { s with fds := s.fds ++ [(fd, c)] ++ [(d, c)] } p = Snd.delivers s p := fun _ => rfl
  by_cases h1 : p.1 = pServer
  · have hne : ¬ (p.1 = pCrypto ∧ p.2 < inst pCrypto) := by rw [h1]; simp [pServer, pCrypto]
    rw [f2.other p hne, e2.other p hne, g2.to p h1 (by rw [← h1]; exact hp), hd0]
    simp [SendCmd.for, h1]
  · have hne : ¬ (p.1 = pServer ∧ p.2 < inst pServer) := fun hx => h1 hx.1
    by_cases h2 : p.1 = pCrypto
    · rw [f2.to p h2 (by rw [← h2]; exact hp), e2.to p h2 (by rw [← h2]; exact hp), g2.other p hne, hd0]
      simp [SendCmd.for, h2, pServer, pCrypto]
    · have hne' : ¬ (p.1 = pCrypto ∧ p.2 < inst pCrypto) := fun hx => h2 hx.1
      rw [f2.other p hne', e2.other p hne', g2.other p hne, hd0]
      have h1' : p.1 ≠ 1 := h1
      have h2' : p.1 ≠ 2 := h2
      simp [SendCmd.for, pServer, pCrypto, h1', h2']

omit hal in
theorem Sent.cmd {s s' : Snd M} {id : Nat} {l : List (M × Option Nat)} (h : Sent inst s s' id l) (p : PI) (hp : p.2 < inst p.1) :
    Snd.delivers s' p = Snd.delivers s p ++ (if id = p.1 then l else []) := by
  by_cases hi : id = p.1
  · rw [if_pos hi, h.to p hi.symm (by rw [hi]; exact hp)]
  · rw [if_neg hi, h.other p (fun hx => hi hx.1.symm), List.append_nil]

theorem cmd_sent (s : Snd M) (cmd : SendCmd M) (h : Snd.Quiet s) :
    ∃ s', sendCmd inst alloc true s cmd = some s' ∧ Snd.Quiet s' ∧ s'.fds = s.fds ∧
      ∀ p : PI, p.2 < inst p.1 → Snd.delivers s' p = Snd.delivers s p ++ SendCmd.for true p.1 cmd := by
  cases cmd with
  | compose id m =>
    obtain ⟨h1, h2⟩ := compose_sent inst s id m h
    exact ⟨_, rfl, h1.quiet, h2, fun p hp => h1.cmd inst p hp⟩
  | file id m f =>
    cases f with
    | none =>
      obtain ⟨s', h1, h2, h3⟩ := sendFile_none inst alloc s id m h
      exact ⟨s', h1, h2.quiet, h3, fun p hp => h2.cmd inst p hp⟩
    | some f =>
      obtain ⟨s', h1, h2, h3⟩ := openSend_sent inst alloc hal s id m f h
      exact ⟨s', h1, h2.quiet, h3, fun p hp => h2.cmd inst p hp⟩
  | openSend id m f =>
    obtain ⟨s', h1, h2, h3⟩ := openSend_sent inst alloc hal s id m f h
    exact ⟨s', h1, h2.quiet, h3, fun p hp => h2.cmd inst p hp⟩
  | kp cm km c k => exact kp_sent inst alloc hal s cm km c k h
  | flush id =>
    obtain ⟨h1, h2⟩ := flush_sent inst s id h
    exact ⟨_, rfl, h1.quiet, h2, fun p hp => by rw [h1.cmd inst p hp]; simp [SendCmd.for]⟩

/-- C101: whatever is sent, and however many instances each process has, every instance gets all that is for its process, in order, each file with its own
message; and in the end the main process has exactly the descriptors it had. -/
theorem C101_everyone_gets_everything (cmds : List (SendCmd M)) (s : Snd M) (h : Snd.Quiet s) :
    ∃ s', sendCmds inst alloc true cmds s = some s' ∧ s'.fds = s.fds ∧ Snd.Quiet s' ∧
      ∀ p : PI, p.2 < inst p.1 → Snd.delivers s' p = Snd.delivers s p ++ cmds.flatMap (SendCmd.for true p.1) := by
  induction cmds generalizing s with
  | nil => exact ⟨s, rfl, rfl, h, fun p _ => by simp⟩
  | cons c r ih =>
    obtain ⟨s1, h1, h2, h3, h4⟩ := cmd_sent inst alloc hal s c h
    obtain ⟨s2, g1, g2, g3, g4⟩ := ih s1 h2
    refine ⟨s2, by rw [sendCmds, h1]; exact g1, by rw [g2, h3], g3, ?_⟩
    intro p hp
    rw [g4 p hp, h4 p hp]
    simp

omit hal

/-- the kernel gives the first number after all those in use -/
def exAlloc (l : List Nat) : Nat := l.foldr (fun a b => max (a + 1) b) 0

/-- C101 needs the crypto process, which gmid always has: without it, the second descriptor of a certificate is never closed. -/
theorem C101_leak_without_crypto : ∃ s : Snd Nat, (sendCmds (fun _ => 3) exAlloc false [.kp 1 2 10 20, .kp 1 2 11 21] ⟨[(0, 0)], fun _ => [], fun _ => []⟩) = some s ∧
    s.fds = [(0, 0), (2, 10), (4, 11)] := by
  refine ⟨(sendCmds (fun _ => 3) exAlloc false [.kp 1 2 10 20, .kp 1 2 11 21] ⟨[(0, 0)], fun _ => [], fun _ => []⟩).get (by decide +kernel), by simp, by decide +kernel⟩

/-- three servers, one crypto process -/
example : ∃ s : Snd Nat, (sendCmds (fun p => if p = pServer then 3 else 1) exAlloc true [.compose pServer 5, .kp 1 2 10 20, .file pServer 7 (some 30), .flush pServer]
      ⟨[(0, 0)], fun _ => [], fun _ => []⟩) = some s ∧
    s.out (pServer, 2) = [(5, none), (1, some 10), (7, some 30)] ∧ s.out (pCrypto, 0) = [(1, some 10), (2, some 20)] := by
  refine ⟨(sendCmds (fun p => if p = pServer then 3 else 1) exAlloc true [.compose pServer 5, .kp 1 2 10 20, .file pServer 7 (some 30), .flush pServer]
    ⟨[(0, 0)], fun _ => [], fun _ => []⟩).get (by decide +kernel), by simp, by decide +kernel, by decide +kernel⟩

example : ∀ l, exAlloc l ∉ l := by
  have : ∀ (l : List Nat), ∀ x ∈ l, x < exAlloc l := by
    intro l
    induction l with
    | nil => simp
    | cons a r ih =>
      intro x hx
      rcases List.mem_cons.mp hx with rfl | hx
      · simp only [exAlloc, List.foldr_cons]; omega
      · have := ih x hx; simp only [exAlloc, List.foldr_cons] at this ⊢; omega
  exact fun l h => Nat.lt_irrefl _ (this l _ h)

end Gmid.Props
