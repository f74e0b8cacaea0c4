import Verif.Lemmas.Proc
import Verif.Spec.Proc

/-!
# C85 C86 C87: the processes of gmid
-/

set_option autoImplicit false

namespace Gmid.Props

open Gmid.Spec

/-- what chanOf is -/
theorem chan_spec (prefork n : Nat) (hn : instances prefork pServer = n) :
    (∀ q, chanOf prefork (0, 0) q = if q.1 = 1 ∧ q.2 < n then some (2 * q.2) else if q = (2, 0) then some (2 * n)
      else if q = (3, 0) then some (2 * (n + 1)) else none) ∧
    (∀ i, i < n → ∀ q, chanOf prefork (1, i) q = if q = (3, 0) then some (2 * (2 * n + 2 + i)) else if q = (2, 0) then some (2 * (n + 2 + i))
      else if q = (0, 0) then some (2 * i + 1) else none) ∧
    (∀ q, chanOf prefork (2, 0) q = if q.1 = 1 ∧ q.2 < n then some (2 * (n + 2 + q.2) + 1) else if q = (0, 0) then some (2 * n + 1) else none) ∧
    (∀ q, chanOf prefork (3, 0) q = if q.1 = 1 ∧ q.2 < n then some (2 * (2 * n + 2 + q.2) + 1) else if q = (0, 0) then some (2 * (n + 1) + 1) else none) := by
  refine ⟨?_, ?_, ?_, ?_⟩
  · intro q; unfold chanOf; rw [if_pos rfl]; exact (startup_spec prefork n hn).1 q
  · intro i hi q; unfold chanOf; rw [if_neg (by simp [pParent]), show (1, i) = (pServer, i) from rfl, ready_server prefork n hn i hi]
  · intro q; unfold chanOf; rw [if_neg (by simp [pParent]), show ((2, 0) : PI) = (pCrypto, 0) from rfl, ready_crypto prefork n hn]
  · intro q; unfold chanOf; rw [if_neg (by simp [pParent]), show ((3, 0) : PI) = (pLogger, 0) from rfl, ready_logger prefork n hn]

theorem proc_cases (prefork : Nat) (p : PI) (hp : isProc prefork p) :
    p = (0, 0) ∨ (p.1 = 1 ∧ p.2 < instances prefork pServer) ∨ p = (2, 0) ∨ p = (3, 0) := by
  obtain ⟨p1, p2⟩ := p
  obtain ⟨h1, h2⟩ := hp
  simp only [procMax] at h1 h2
  by_cases e : p1 = pServer
  · subst e; exact .inr (.inl ⟨rfl, h2⟩)
  · rw [instances_other _ _ e] at h2
    simp only [pServer] at e
    have : p2 = 0 := by omega
    subst this
    simp only [Prod.mk.injEq, and_true]
    omega

/-- C85: for any number of servers, when the start is over two processes are connected exactly when they are to talk to each other; each has one
end of a socketpair and the other process the other end, and no end is held by two processes or for two purposes. -/
theorem C85_connected (prefork : Nat) (p q : PI) (hp : isProc prefork p) (hq : isProc prefork q) :
    ((chanOf prefork p q).isSome ↔ MayTalk p.1 q.1) ∧ ∀ e, chanOf prefork p q = some e → chanOf prefork q p = some (otherEnd e) := by
  obtain ⟨n, hn⟩ : ∃ n, instances prefork pServer = n := ⟨_, rfl⟩
  obtain ⟨c0, c1, c2, c3⟩ := chan_spec prefork n hn
  have k1 := proc_cases prefork p hp
  have k2 := proc_cases prefork q hq
  rw [hn] at k1 k2
  obtain ⟨p1, p2⟩ := p
  obtain ⟨q1, q2⟩ := q
  simp only [Prod.mk.injEq] at k1 k2
  have o : ∀ m : Nat, otherEnd (2 * m) = 2 * m + 1 := by intro m; unfold otherEnd; rw [if_pos (by omega)]
  have o' : ∀ m : Nat, otherEnd (2 * m + 1) = 2 * m := by intro m; unfold otherEnd; rw [if_neg (by omega)]; omega
  rcases k1 with ⟨rfl, rfl⟩ | ⟨rfl, hi⟩ | ⟨rfl, rfl⟩ | ⟨rfl, rfl⟩ <;>
    rcases k2 with ⟨rfl, rfl⟩ | ⟨rfl, hj⟩ | ⟨rfl, rfl⟩ | ⟨rfl, rfl⟩ <;>
      simp [c0, c1, c2, c3, MayTalk, *]

theorem C85_one_end (prefork : Nat) (p q p' q' : PI) (hp : isProc prefork p) (hp' : isProc prefork p') (e : Nat)
    (h : chanOf prefork p q = some e) (h' : chanOf prefork p' q' = some e) : p = p' ∧ q = q' := by
  obtain ⟨n, hn⟩ : ∃ n, instances prefork pServer = n := ⟨_, rfl⟩
  obtain ⟨c0, c1, c2, c3⟩ := chan_spec prefork n hn
  have k1 := proc_cases prefork p hp
  have k2 := proc_cases prefork p' hp'
  rw [hn] at k1 k2
  obtain ⟨p1, p2⟩ := p
  obtain ⟨q1, q2⟩ := q
  obtain ⟨r1, r2⟩ := p'
  obtain ⟨s1, s2⟩ := q'
  simp only [Prod.mk.injEq] at k1 k2
  rcases k1 with ⟨rfl, rfl⟩ | ⟨rfl, hi⟩ | ⟨rfl, rfl⟩ | ⟨rfl, rfl⟩ <;>
    rcases k2 with ⟨rfl, rfl⟩ | ⟨rfl, hj⟩ | ⟨rfl, rfl⟩ | ⟨rfl, rfl⟩ <;>
      simp (discharger := assumption) only [c0, c1, c2, c3] at h h' <;> grind

/-- a socket leads to a process that exists -/
theorem chan_isProc (prefork : Nat) (p q : PI) (hp : isProc prefork p) (h : (chanOf prefork p q).isSome) : isProc prefork q := by
  obtain ⟨n, hn⟩ : ∃ n, instances prefork pServer = n := ⟨_, rfl⟩
  obtain ⟨c0, c1, c2, c3⟩ := chan_spec prefork n hn
  have k1 := proc_cases prefork p hp
  have o : ∀ x, x ≠ 1 → instances prefork x = 1 := fun x hx => instances_other _ _ hx
  have o0 := o 0 (by decide)
  have o2 := o 2 (by decide)
  have o3 := o 3 (by decide)
  rw [hn] at k1
  obtain ⟨p1, p2⟩ := p
  obtain ⟨q1, q2⟩ := q
  simp only [Prod.mk.injEq] at k1
  simp only [isProc, procMax]
  simp only [pServer] at hn
  rcases k1 with ⟨rfl, rfl⟩ | ⟨rfl, hi⟩ | ⟨rfl, rfl⟩ | ⟨rfl, rfl⟩ <;>
    simp (discharger := assumption) only [c0, c1, c2, c3] at h <;> grind

theorem C85_only_these (prefork : Nat) (p q : PI) (hp : isProc prefork p) (h : (chanOf prefork p q).isSome) : isProc prefork q :=
  chan_isProc prefork p q hp h

/-- C85: a socket is never replaced: whatever comes later, and whatever is in it, a process goes on with the sockets it has, and closes one that it gets
for a process it is connected to, or does not talk to. -/
theorem C85_not_replaced (prefork : Nat) (c c' : PChild) (fd : Option Nat) (dst n : Nat) (h : procAccept prefork c fd dst n = .ok c') :
    (∀ q, c.pp q ≠ none → c'.pp q = c.pp q) ∧ (∀ q, q ≠ (dst, n) → c'.pp q = c.pp q) ∧
      ((c'.pp (dst, n) = fd ∧ c'.closed = c.closed) ∨ (c'.pp = c.pp ∧ c'.closed = c.closed ++ [fd])) := by
  unfold procAccept at h
  split at h
  · cases h
  split at h
  · cases h; exact ⟨fun _ _ => rfl, fun _ _ => rfl, .inr ⟨rfl, rfl⟩⟩
  split at h
  · cases h
  split at h
  · cases h; exact ⟨fun _ _ => rfl, fun _ _ => rfl, .inr ⟨rfl, rfl⟩⟩
  · rename_i hn
    cases h
    refine ⟨fun q hq => ?_, fun q hq => if_neg hq, .inl ⟨if_pos rfl, rfl⟩⟩
    refine if_neg ?_
    rintro rfl
    exact hn hq

/-- the logger gets a second socket for the first server -/
example : ∃ c', procAccept 2 { me := (3, 0), pp := fun q => if q = (1, 0) then some 7 else none, closed := [] } (some 9) 1 0 = .ok c' ∧
    c'.pp (1, 0) = some 7 ∧ c'.closed = [some 9] := ⟨_, rfl, by decide, by decide⟩

/-- With `prefork 2` the second server talks to the crypto process and to the logger, and not to the first server. -/
example : isProc 2 (1, 1) ∧ chanOf 2 (1, 1) (2, 0) = some 10 ∧ chanOf 2 (2, 0) (1, 1) = some 11 ∧
    chanOf 2 (1, 1) (3, 0) = some 14 ∧ chanOf 2 (1, 1) (1, 0) = none ∧ chanOf 2 (0, 0) (1, 1) = some 2 := by
  refine ⟨⟨by decide, by decide⟩, ?_⟩
  decide +kernel

/-- C86: whatever the main process sends to a child after the start, the child handles none of it before it has all of its sockets: of all the
messages to it, in the order they come, the first that is not about the sockets finds all of them there. -/
theorem C86_ready (prefork : Nat) (p : PI) (hp : isProc prefork p) (hp0 : p.1 ≠ 0) (later : List PMsg) (hl : ∀ m ∈ later, m = .other)
    (before after : List PMsg) (h : inboxOf prefork p ++ later = before ++ .other :: after) :
    ∃ c, (childStart prefork p ((startup prefork).fd3 p)).bind (fun c => childSteps prefork c before) = .ok c ∧
      ∀ q, c.pp q = chanOf prefork p q := by
  have hin : .other ∉ inboxOf prefork p := by
    rcases proc_cases prefork p hp with rfl | ⟨h1, h2⟩ | rfl | rfl
    · exact absurd rfl hp0
    · obtain ⟨p1, p2⟩ := p
      subst h1
      rw [show ((1, p2) : PI) = (pServer, p2) from rfl, inbox_server prefork _ rfl p2 h2]; simp
    · rw [show ((2, 0) : PI) = (pCrypto, 0) from rfl, inbox_crypto prefork _ rfl]; simp
    · rw [show ((3, 0) : PI) = (pLogger, 0) from rfl, inbox_logger prefork _ rfl]; simp
  have hk : ∃ k, before = inboxOf prefork p ++ k ∧ ∀ m ∈ k, m = .other := by
    rcases List.append_eq_append_iff.1 h with ⟨k, h1, h2⟩ | ⟨k, h1, h2⟩
    · exact ⟨k, h1, fun m hm => hl m (by rw [h2]; simp [hm])⟩
    · cases k with
      | nil => exact ⟨[], by simpa using h1.symm, by simp⟩
      | cons a k =>
        simp only [List.cons_append, List.cons.injEq] at h2
        exact absurd (by rw [h1, ← h2.1]; simp) hin
  obtain ⟨k, rfl, hk⟩ := hk
  have hs : ∀ c, childSteps prefork c k = .ok c := by
    clear h
    intro c
    induction k with
    | nil => rfl
    | cons m k ih =>
      have : m = .other := hk m (by simp)
      subst this
      exact ih (fun m hm => hk m (by simp [hm]))
  have hr : ∃ c, childReady prefork p = .ok c := by
    rcases proc_cases prefork p hp with rfl | ⟨h1, h2⟩ | rfl | rfl
    · exact absurd rfl hp0
    · obtain ⟨p1, p2⟩ := p
      subst h1
      exact ⟨_, ready_server prefork _ rfl p2 h2⟩
    · exact ⟨_, ready_crypto prefork _ rfl⟩
    · exact ⟨_, ready_logger prefork _ rfl⟩
  obtain ⟨c, hc⟩ := hr
  refine ⟨c, ?_, ?_⟩
  · have hc' := hc
    unfold childReady at hc'
    cases e : childStart prefork p ((startup prefork).fd3 p) with
    | ok c0 =>
      rw [e] at hc'
      simp only [Res.bind] at hc' ⊢
      rw [childSteps_append, hc']
      exact hs c
    | err => rw [e] at hc'; cases hc'
    | ub => rw [e] at hc'; cases hc'
  · intro q
    unfold chanOf
    rw [if_neg (by rintro rfl; exact hp0 rfl), hc]

/-- The first message of the configuration for the second of two servers comes after its two sockets. -/
example : inboxOf 2 (1, 1) ++ [.other, .other] = [.procfd 2 0 10, .procfd 3 0 14] ++ .other :: [.other] := by decide +kernel

/-- all the processes -/
def allProcs (prefork : Nat) : List PI :=
  (0, 0) :: (2, 0) :: (3, 0) :: (List.range (instances prefork pServer)).map (fun i => (1, i))

theorem mem_allProcs (prefork : Nat) (p : PI) (hp : isProc prefork p) : p ∈ allProcs prefork := by
  rcases proc_cases prefork p hp with rfl | ⟨h1, h2⟩ | rfl | rfl <;> simp [allProcs]
  obtain ⟨p1, p2⟩ := p
  simp only at h1; subst h1
  simp; exact h2

/-- how far the end is -/
def toEnd (prefork : Nat) (s : Running) : Nat := ((allProcs prefork).countP (fun p => s.alive p)) + (if s.closing then 0 else 1)

theorem countP_stop (s : Running) (p : PI) (l : List PI) (hp : p ∈ l) (ha : s.alive p = true) :
    l.countP (fun q => (s.stop p).alive q) < l.countP (fun q => s.alive q) := by
  have mono : ∀ l : List PI, l.countP (fun q => (s.stop p).alive q) ≤ l.countP (fun q => s.alive q) := by
    intro l
    apply List.countP_mono_left
    intro q _ h
    simp only [Running.stop] at h
    split at h
    · cases h
    · exact h
  induction l with
  | nil => cases hp
  | cons a l ih =>
    simp only [List.countP_cons]
    rcases List.mem_cons.1 hp with rfl | h
    · have := mono l
      simp only [ha]
      simp [Running.stop] at this ⊢
      omega
    · have := ih h
      by_cases e : a = p
      · subst e; simp only [ha]; simp [Running.stop] at this ⊢; omega
      · simp [Running.stop, e] at this ⊢; omega

/-- C87: once any process has ended, for whatever reason, or the main process was told to stop, all of them end, whatever else happens and in
whatever order. -/
theorem C87_all_end (prefork : Nat) (s : Running) (h : s.closing = true ∨ ∃ p, isProc prefork p ∧ s.alive p = false) : AllEnd prefork s := by
  generalize hk : toEnd prefork s = k
  induction k using Nat.strongRecOn generalizing s with
  | _ k ih =>
  have down : ∀ s', Internal prefork s s' ∨ External prefork s s' →
      toEnd prefork s' < k ∧ (s'.closing = true ∨ ∃ p, isProc prefork p ∧ s'.alive p = false) := by
    have hstop : ∀ p, isProc prefork p → s.alive p = true → toEnd prefork (s.stop p) < k ∧
        ((s.stop p).closing = true ∨ ∃ q, isProc prefork q ∧ (s.stop p).alive q = false) := by
      intro p hp ha
      refine ⟨?_, .inr ⟨p, hp, by simp [Running.stop]⟩⟩
      have := countP_stop s p _ (mem_allProcs prefork p hp) ha
      rw [← hk]; unfold toEnd
      have e : (s.stop p).closing = s.closing := rfl
      rw [e]; omega
    have hclose : s.closing = false → toEnd prefork { s with closing := true } < k ∧
        (({ s with closing := true } : Running).closing = true ∨ ∃ q, isProc prefork q ∧ ({ s with closing := true } : Running).alive q = false) := by
      intro hc
      refine ⟨?_, .inl rfl⟩
      rw [← hk]; unfold toEnd
      simp [hc]
    have h0 : isProc prefork (pParent, 0) := ⟨by decide, by rw [instances_other _ _ (by decide)]; decide⟩
    rintro s' (hi | he)
    · cases hi with
      | eof p q hp _ ha _ _ => exact hstop p hp ha
      | mainEof q _ hc _ _ => exact hclose hc
      | sigchld q _ _ _ _ hc _ => exact hclose hc
      | exit ha _ _ => exact hstop _ h0 ha
    · cases he with
      | crash p hp ha => exact hstop p hp ha
      | term _ hc => exact hclose hc
  by_cases hd : ∀ p, isProc prefork p → s.alive p = false
  · exact .done s hd
  refine .step s ?_ (fun s' hs => ih _ (down s' hs).1 s' (down s' hs).2 rfl)
  have h0 : isProc prefork (0, 0) := ⟨by decide, by rw [instances_other _ _ (by decide)]; decide⟩
  have hchan : ∀ p, isProc prefork p → p.1 ≠ 0 → (chanOf prefork p (0, 0)).isSome := by
    intro p hp hp0
    refine (C85_connected prefork p (0, 0) hp h0).1.2 ?_
    rcases proc_cases prefork p hp with rfl | ⟨h1, _⟩ | rfl | rfl
    · exact absurd rfl hp0
    · rw [h1]; trivial
    · trivial
    · trivial
  by_cases hm : s.alive (0, 0) = true
  · by_cases hc : s.closing = true
    · by_cases hall : ∀ q, isProc prefork q → q.1 ≠ 0 → s.alive q = false
      · exact ⟨_, .exit s hm hc (.inr hall)⟩
      · simp only [Classical.not_forall] at hall
        obtain ⟨p, hp, hp0, ha⟩ := hall
        exact ⟨_, .eof s p (0, 0) hp hp0 (by simpa using ha) (hchan p hp hp0) (.inr ⟨rfl, hc⟩)⟩
    · rcases h with h | ⟨p, hp, hpd⟩
      · exact absurd h hc
      · refine ⟨_, .mainEof s p hm (by simpa using hc) ((C85_connected prefork (0, 0) p h0 hp).1.2 ?_) hpd⟩
        rcases proc_cases prefork p hp with rfl | ⟨h1, _⟩ | rfl | rfl
        · rw [hm] at hpd; cases hpd
        · rw [h1]; trivial
        · trivial
        · trivial
  · simp only [Classical.not_forall] at hd
    obtain ⟨p, hp, ha⟩ := hd
    have ha : s.alive p = true := by simpa using ha
    refine ⟨_, .eof s p (0, 0) hp ?_ ha (hchan p hp ?_) (.inl (by simpa using hm))⟩ <;>
    · intro e
      rcases proc_cases prefork p hp with rfl | ⟨h1, _⟩ | rfl | rfl
      · exact hm ha
      · rw [h1] at e; cases e
      · cases e
      · cases e

/-- A server is killed. -/
example : AllEnd 3 (({ alive := fun _ => true, closing := false, daemon := true } : Running).stop (1, 2)) :=
  C87_all_end 3 _ (.inr ⟨(1, 2), ⟨by decide, by decide⟩, by simp [Running.stop]⟩)

/-- and as long as none ended, and the main one was not told to stop, nothing inside of gmid makes any of them end -/
theorem C87_until_then (prefork : Nat) (s s' : Running) (h : ∀ p, isProc prefork p → s.alive p = true) (hc : s.closing = false) :
    ¬ Internal prefork s s' := by
  intro hi
  cases hi with
  | eof p q hp hp0 ha hch hq =>
    rcases hq with hq | ⟨_, hq⟩
    · have : isProc prefork q := chan_isProc prefork p q hp hch
      rw [h q this] at hq; cases hq
    · rw [hc] at hq; cases hq
  | mainEof q _ _ hch hd =>
    have h0 : isProc prefork (0, 0) := ⟨by decide, by rw [instances_other _ _ (by decide)]; decide⟩
    rw [h q (chan_isProc prefork _ q h0 hch)] at hd; cases hd
  | sigchld q hq _ _ _ _ hd => rw [h q hq] at hd; cases hd
  | exit _ hc' _ => rw [hc] at hc'; cases hc'

/-- C87: in the foreground the main process is the last to end, unless it is killed. -/
theorem C87_main_last (prefork : Nat) (s s' : Running) (h : Becomes prefork s s') (h0 : s.alive (0, 0) = true) (hf : s.daemon = false)
    (hm : s'.alive (0, 0) = false) : ∀ p, isProc prefork p → s'.alive p = false := by
  have key : s'.daemon = false ∧ (s'.alive (0, 0) = false → ∀ p, isProc prefork p → s'.alive p = false) := by
    clear hm
    have mono : ∀ (t : Running) (p : PI), (∀ q, isProc prefork q → t.alive q = false) → ∀ q, isProc prefork q → (t.stop p).alive q = false := by
      intro t p ht q hq
      simp only [Running.stop]
      split
      · rfl
      · exact ht q hq
    induction h with
    | refl => exact ⟨hf, fun h => by rw [h0] at h; cases h⟩
    | internal s1 s2 _ hi ih =>
      obtain ⟨ih1, ih2⟩ := ih
      cases hi with
      | eof p q hp hp0 ha hc hq =>
        refine ⟨ih1, fun h => mono _ _ (ih2 ?_)⟩
        simp only [Running.stop] at h
        rwa [if_neg (by rintro rfl; exact hp0 rfl)] at h
      | mainEof q ha _ _ _ => exact ⟨ih1, fun h => by rw [show s1.alive (0, 0) = true from ha] at h; cases h⟩
      | sigchld q _ _ _ ha _ _ => exact ⟨ih1, fun h => by rw [show s1.alive (0, 0) = true from ha] at h; cases h⟩
      | exit ha hc hd =>
        refine ⟨ih1, fun _ p hp => ?_⟩
        rcases hd with hd | hd
        · rw [ih1] at hd; cases hd
        · simp only [Running.stop]
          split
          · rfl
          · rename_i hne
            refine hd p hp (fun e => hne ?_)
            rcases proc_cases prefork p hp with rfl | ⟨h1, _⟩ | rfl | rfl
            · rfl
            · rw [h1] at e; cases e
            · cases e
            · cases e
    | external s1 s2 _ he hm ih =>
      obtain ⟨ih1, ih2⟩ := ih
      cases he with
      | crash p hp ha => exact ⟨ih1, fun h => mono _ _ (ih2 (hm ▸ h))⟩
      | term ha hc => exact ⟨ih1, fun h => by rw [show s1.alive (0, 0) = true from ha] at h; cases h⟩
  exact key.2 hm

/-- As a daemon it does not wait for the others: they can be left running, with their sockets, when the main process is gone and the lock on the
pidfile with it. -/
theorem C87_daemon_main_first : ∃ s', Becomes 1 { alive := fun _ => true, closing := false, daemon := true } s' ∧
    s'.alive (0, 0) = false ∧ s'.alive (1, 0) = true :=
  ⟨_, .internal _ _ _ (.external _ _ _ (.refl _) (.term _ rfl rfl) rfl) (.exit _ rfl rfl (.inl rfl)), by simp [Running.stop, pParent],
    by simp [Running.stop, pParent]⟩

/-- Told to stop in the foreground, with one server: it ends after the others. -/
example : ∃ s', Becomes 1 { alive := fun _ => true, closing := false, daemon := false } s' ∧ s'.alive (1, 0) = false ∧ s'.alive (0, 0) = true :=
  ⟨_, .internal _ _ _ (.external _ _ _ (.refl _) (.term _ rfl rfl) rfl)
      (.eof _ (1, 0) (0, 0) ⟨by decide, by decide⟩ (by decide) rfl (by decide +kernel) (.inr ⟨rfl, rfl⟩)),
    by simp [Running.stop], by simp [Running.stop]⟩

end Gmid.Props
