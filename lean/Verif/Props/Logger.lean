import Verif.Props.Proc
import Verif.Props.Imsg
import Verif.Spec.Logger

/-!
# C88 C89 C90: the access log
-/

set_option autoImplicit false

namespace Gmid.Props

open Gmid.Spec

theorem loggerRun_append (prefork : Nat) (s : Lg) (a b : List (Nat × Raw)) :
    loggerRun prefork s (a ++ b) = (loggerRun prefork s a).bind fun s => loggerRun prefork s b := by
  induction a generalizing s with
  | nil => rfl
  | cons x r ih =>
    obtain ⟨p, m⟩ := x
    simp only [List.cons_append, loggerRun]
    cases loggerDispatch prefork s p m with
    | ok s1 => exact ih s1
    | err => rfl
    | ub => rfl

theorem lastSaid_snoc {α : Type} (t : Nat) (f : Raw → α) (d : α) (ms : List (Nat × Raw)) (x : Nat × Raw) :
    lastSaid t f d (ms ++ [x]) = if x.1 = 0 ∧ x.2.type = t then f x.2 else lastSaid t f d ms := by
  unfold lastSaid
  rw [List.filter_append]
  by_cases h : x.1 = 0 ∧ x.2.type = t
  · simp [h]
  · simp [h]

theorem linesFor_snoc (s : Lg) (ms : List (Nat × Raw)) (x : Nat × Raw) :
    linesFor s (ms ++ [x]) = linesFor s ms ++ (if x.1 = 1 then linesAt s ms x.2 else []) := by
  unfold linesFor
  rw [List.length_append, List.length_singleton, List.range_succ, List.flatMap_append]
  congr 1
  · simp only [List.flatMap]
    congr 1
    apply List.map_congr_left
    intro i hi
    rw [List.mem_range] at hi
    rw [List.getElem?_append_left hi, List.take_append_of_le_length (by omega)]
  · simp

theorem lineOf_msg (d : Bytes) (h : d ≠ []) : cstr (d.take (d.length - 1) ++ [0]) = lineOf d := by
  unfold cstr lineOf
  rw [List.dropLast_eq_take]
  rw [List.takeWhile_append]
  split
  · rename_i h1
    have := List.takeWhile_prefix (l := d.take (d.length - 1)) (fun x => decide (x ≠ 0))
    rw [this.eq_of_length h1]
    simp
  · rfl

theorem snocInd {α : Type} {P : List α → Prop} (nil : P []) (snoc : ∀ l a, P l → P (l ++ [a])) (l : List α) : P l := by
  rw [← List.reverse_reverse l]
  induction l.reverse with
  | nil => exact nil
  | cons a r ih => rw [List.reverse_cons]; exact snoc _ a ih

/-- C88: Each request is logged exactly once, in the order in which they come, to the file (and to syslog, as the settings are then) that the
main process named last, and its line is the text the server sent. -/
theorem C88_lines (prefork : Nat) (s : Lg) (ms : List (Nat × Raw)) (h : ∀ x ∈ ms, ProperLogMsg x) :
    ∃ s', loggerRun prefork s ms = .ok s' ∧ s'.out = s.out ++ linesFor s ms ∧ s'.logfd = lastSaid 1 (·.fd) s.logfd ms ∧
      s'.syslog = lastSaid 2 (·.data) s.syslog ms ∧ s'.facility = lastSaid 3 (·.data) s.facility ms := by
  induction ms using snocInd with
  | nil => exact ⟨s, rfl, by simp [linesFor], rfl, rfl, rfl⟩
  | snoc ms x ih =>
    obtain ⟨s1, h1, h2, h3, h4, h5⟩ := ih (fun y hy => h y (by simp [hy]))
    have hx := h x (by simp)
    obtain ⟨p, m⟩ := x
    rw [loggerRun_append, h1, linesFor_snoc]
    simp only [Res.bind, loggerRun, lastSaid_snoc]
    rcases hx with ⟨hp, ht, hd⟩ | ⟨hp, ht⟩
    · simp only at hp ht hd
      subst hp
      have hl : m.data.length ≠ 0 := by simpa using hd
      simp only [loggerDispatch, pParent, loggerServer, ht, hl, if_true, if_false, Nat.one_ne_zero, tLogRequest]
      refine ⟨_, rfl, ?_, by simp [Lg.free, h3], by simp [Lg.free, h4], by simp [Lg.free, h5]⟩
      simp only [Lg.free, h2, h3, h4, h5, List.append_assoc, linesAt, lineOf_msg _ hd, List.any_eq_true, decide_eq_true_eq, if_true]
      cases lastSaid 1 (fun x => x.fd) s.logfd ms <;> rfl
    · simp only at hp ht
      subst hp
      rcases ht with ht | ⟨ht | ht, hl⟩
      · simp only [loggerDispatch, pParent, loggerParent, ht, tLogFacility, tLogSyslog, tLogAccess, if_true]
        exact ⟨_, rfl, by simp [h2], by simp, by simp [h4], by simp [h5]⟩
      · simp only [loggerDispatch, pParent, loggerParent, ht, tLogFacility, tLogSyslog, tLogAccess, if_true, hl]
        exact ⟨_, rfl, by simp [h2, Lg.free], by simp [h3, Lg.free], by simp [Lg.free], by simp [h5, Lg.free]⟩
      · simp only [loggerDispatch, pParent, loggerParent, ht, tLogFacility, tLogSyslog, tLogAccess, if_true, hl]
        exact ⟨_, rfl, by simp [h2, Lg.free], by simp [h3, Lg.free], by simp [h4, Lg.free], by simp [Lg.free]⟩

/-- Two servers; the first request comes before the log is reopened, the second after it, when syslog is off. -/
example : linesFor (lgStart { me := (3, 0), pp := fun _ => none, closed := [] })
    [(0, ⟨1, [], some 5⟩), (1, ⟨0, b%"one\x00", none⟩), (0, ⟨1, [], some 6⟩), (0, ⟨2, [0, 0, 0, 0], none⟩), (1, ⟨0, b%"two\x00", none⟩)] =
    [(.file 5, b%"one\n"), (.syslog logDaemon, b%"one"), (.file 6, b%"two\n")] := by decide +kernel

/-- C88: until the main process says something else a request is logged to syslog, with the facility LOG_DAEMON, and to no file. -/
theorem C88_at_start (prefork : Nat) (c : PChild) (m : Raw) (ht : m.type = 0) (hd : m.data ≠ []) :
    ∃ s', loggerRun prefork (lgStart c) [(1, m)] = .ok s' ∧ s'.out = [(.syslog [24, 0, 0, 0], lineOf m.data)] := by
  obtain ⟨s', h1, h2, _⟩ := C88_lines prefork (lgStart c) [(1, m)] (by intro x hx; simp at hx; subst hx; exact .inl ⟨rfl, ht, hd⟩)
  exact ⟨s', h1, by rw [h2]; rfl⟩

/-- C88: what the server sends for a line without NULs is that line -/
theorem C88_text (t : Bytes) (h : 0 ∉ t) : lineOf (t ++ [0]) = t := by
  unfold lineOf
  rw [List.dropLast_concat]
  induction t with
  | nil => rfl
  | cons a r ih =>
    rw [List.takeWhile_cons, if_pos, ih (fun hx => h (by simp [hx]))]
    simp only [ne_eq, decide_eq_true_eq]
    rintro rfl
    exact h (by simp)

/-- C88: No descriptor is lost: each one the logger got is the one of the log, or was closed, once. -/
theorem C88_descriptors (prefork : Nat) (s s' : Lg) (ms : List (Nat × Raw)) (h : ∀ x ∈ ms, ProperLogMsg x)
    (hr : loggerRun prefork s ms = .ok s') :
    (s'.closed ++ s'.logfd.toList).Perm (s.closed ++ s.logfd.toList ++ ms.flatMap fun x => x.2.fd.toList) := by
  induction ms generalizing s with
  | nil => simp only [loggerRun, Res.ok.injEq] at hr; subst hr; simp
  | cons x r ih =>
    obtain ⟨p, m⟩ := x
    have hx := h (p, m) (by simp)
    have hr' := fun y hy => h y (List.mem_cons_of_mem _ hy)
    simp only [loggerRun] at hr
    rw [List.flatMap_cons]
    rcases hx with ⟨hp, ht, hd⟩ | ⟨hp, ht⟩
    · simp only at hp ht hd
      subst hp
      have hl : m.data.length ≠ 0 := by simpa using hd
      simp only [loggerDispatch, pParent, loggerServer, ht, hl, if_true, if_false, Nat.one_ne_zero, tLogRequest, Res.bind] at hr
      refine (ih _ hr' hr).trans ?_
      simp only [Lg.free, List.append_assoc]
      refine List.Perm.append_left _ ?_
      rw [← List.append_assoc, ← List.append_assoc]
      exact List.Perm.append_right _ List.perm_append_comm
    · simp only at hp ht
      subst hp
      rcases ht with ht | ⟨ht | ht, hl⟩
      · simp only [loggerDispatch, pParent, loggerParent, ht, tLogFacility, tLogSyslog, tLogAccess, if_true, Res.bind] at hr
        refine (ih _ hr' hr).trans ?_
        simp
      · simp only [loggerDispatch, pParent, loggerParent, ht, tLogFacility, tLogSyslog, tLogAccess, if_true, hl, Res.bind] at hr
        refine (ih _ hr' hr).trans ?_
        simp only [Lg.free, List.append_assoc]
        refine List.Perm.append_left _ ?_
        rw [← List.append_assoc, ← List.append_assoc]
        exact List.Perm.append_right _ List.perm_append_comm
      · simp only [loggerDispatch, pParent, loggerParent, ht, tLogFacility, tLogSyslog, tLogAccess, if_true, hl, Res.bind] at hr
        refine (ih _ hr' hr).trans ?_
        simp only [Lg.free, List.append_assoc]
        refine List.Perm.append_left _ ?_
        rw [← List.append_assoc, ← List.append_assoc]
        exact List.Perm.append_right _ List.perm_append_comm

/-! ## C89 -/

theorem logEvs_append (c : LogConf) (a b : List LogEv) :
    logEvs c (a ++ b) = ((logEvs (logEvs c a).1 b).1, (logEvs c a).2 ++ (logEvs (logEvs c a).1 b).2) := by
  induction a generalizing c with
  | nil => simp [logEvs]
  | cons e r ih => simp [logEvs, ih]

/-- each configuration has ints for what is an int -/
def LogConfOk (c : LogConf) : Prop := c.syslog.length = 4 ∧ c.facility.length = 4

theorem logEvs_proper (c : LogConf) (evs : List LogEv) (hc : LogConfOk c) (hf : ∀ op c', LogEv.hupOk op c' ∈ evs → LogConfOk c')
    (hf' : ∀ c', LogEv.hupFail c' ∈ evs → LogConfOk c') : ∀ m ∈ (logEvs c evs).2, ProperLogMsg (0, m) := by
  induction evs generalizing c with
  | nil => simp [logEvs]
  | cons e r ih =>
    intro m hm
    have h1 : LogConfOk (logEv c e).1 := by
      cases e with
      | usr1 op => exact hc
      | hupBusy => exact hc
      | hupOk op c' => exact hf op c' (by simp)
      | hupFail c' => exact hf' c' (by simp)
    have h2 : ∀ op c', LogConfOk c' → ∀ m ∈ mainSendLogfd op c', ProperLogMsg (0, m) := by
      intro op c' hc' m hm
      simp only [mainSendLogfd, List.mem_cons, List.not_mem_nil, or_false] at hm
      rcases hm with rfl | rfl | rfl
      · exact .inr ⟨rfl, .inl rfl⟩
      · exact .inr ⟨rfl, .inr ⟨.inr rfl, hc'.2⟩⟩
      · exact .inr ⟨rfl, .inr ⟨.inl rfl, hc'.1⟩⟩
    simp only [logEvs, List.mem_append] at hm
    rcases hm with hm | hm
    · cases e with
      | usr1 op => exact h2 op c hc m hm
      | hupBusy => cases hm
      | hupOk op c' => exact h2 op c' h1 m hm
      | hupFail c' => cases hm
    · exact ih _ h1 (fun op c' h => hf op c' (by simp [h])) (fun c' h => hf' c' (by simp [h])) m hm

theorem conf_no_fail (c : LogConf) (evs : List LogEv) (h : ∀ c', LogEv.hupFail c' ∉ evs) : (logEvs c evs).1 = confInUse c evs := by
  induction evs generalizing c with
  | nil => rfl
  | cons e r ih =>
    have := ih (logEv c e).1 (fun c' hc' => h c' (by simp [hc']))
    simp only [logEvs, confInUse, List.foldl_cons]
    rw [this, confInUse]
    cases e with
    | hupFail c' => exact absurd (by simp) (h c')
    | _ => rfl

/-- C89: After SIGUSR1, or a SIGHUP that was heeded, once the logger has what was sent to it, it writes to the file the configuration in use names,
as it was opened at that signal, and to syslog as that configuration says; whatever signals came before and whatever requests in between.  Missing:
this with a reload that failed in between (`C89_failed_reload`), and paths longer than PATH_MAX. -/
theorem C89_reopened_partial (prefork : Nat) (s : Lg) (c : LogConf) (evs : List LogEv) (e : LogEv) (op : Bytes → Option Nat)
    (he : e = .usr1 op ∨ ∃ c', e = .hupOk op c') (hc : LogConfOk c)
    (hf : ∀ op c', LogEv.hupOk op c' ∈ evs ++ [e] → LogConfOk c') (hfail : ∀ c', LogEv.hupFail c' ∉ evs)
    (hlen : ∀ p, logFile (confInUse c (evs ++ [e])) = some p → p.length < 4096)
    (msgs : List (Nat × Raw)) (hm : ∀ x ∈ msgs, ProperLogMsg x)
    (hmain : (msgs.filter fun x => decide (x.1 = 0)).map (·.2) = (logEvs c (evs ++ [e])).2) :
    ∃ s', loggerRun prefork s msgs = .ok s' ∧ s'.logfd = (logFile (confInUse c (evs ++ [e]))).bind op ∧
      s'.syslog = (confInUse c (evs ++ [e])).syslog ∧ s'.facility = (confInUse c (evs ++ [e])).facility := by
  obtain ⟨s', h1, _, h3, h4, h5⟩ := C88_lines prefork s msgs hm
  refine ⟨s', h1, ?_⟩
  have hl : ∀ {α : Type} (t : Nat) (f : Raw → α) (d : α), lastSaid t f d msgs = lastSaid t f d ((logEvs c (evs ++ [e])).2.map fun m => (0, m)) := by
    intro α t f d
    rw [← hmain, List.map_map]
    have : ((msgs.filter fun x => decide (x.1 = 0)).map ((fun m => ((0 : Nat), m)) ∘ (·.2))) = msgs.filter fun x => decide (x.1 = 0) := by
      rw [List.map_congr_left (g := id)]
      · simp
      · intro x hx
        obtain ⟨p, m⟩ := x
        simp only [List.mem_filter, decide_eq_true_eq] at hx
        simp [hx.2]
    rw [this]
    unfold lastSaid
    rw [List.filter_filter]
    congr 4
    funext x
    by_cases h0 : x.1 = 0 <;> simp [h0]
  have hcu := conf_no_fail c evs hfail
  have hsent : (logEvs c (evs ++ [e])).2 = (logEvs c evs).2 ++ mainSendLogfd op (confInUse c (evs ++ [e])) := by
    rw [logEvs_append]
    rcases he with rfl | ⟨c', rfl⟩
    · simp [logEvs, logEv, hcu, confInUse]
    · simp [logEvs, logEv, confInUse]
  rw [h3, h4, h5, hl, hl, hl, hsent]
  generalize confInUse c (evs ++ [e]) = k at hlen ⊢
  simp only [mainSendLogfd, List.map_append, List.map_cons, List.map_nil]
  have e3 : ∀ (l : List (Nat × Raw)) (a b d : Nat × Raw), l ++ [a, b, d] = l ++ [a] ++ [b] ++ [d] := by simp
  rw [e3]
  simp only [lastSaid_snoc, tLogAccess, tLogFacility, tLogSyslog]
  refine ⟨?_, by simp, by simp⟩
  simp only [logFile] at hlen ⊢
  cases ha : k.access with
  | none => simp
  | some a =>
    rw [ha] at hlen
    have := hlen _ rfl
    by_cases h0 : k.chroot = []
    · simp only [h0, if_true] at this
      have hp : logPath k a = some a := by simp only [logPath, h0]; simp; omega
      simp [hp, h0]
    · simp only [h0, if_false, List.length_append] at this
      have hp : logPath k a = some (k.chroot ++ b%"/" ++ a) := by
        simp only [logPath, h0, if_false]
        rw [if_neg]
        simp at this ⊢
        omega
      simp [hp, h0]

/-- C89: no file other than the one the configuration names is ever opened for the log, and a path that does not fit is not used at all. -/
theorem C89_only_that_file (op : Bytes → Option Nat) (c : LogConf) (m : Raw) (hm : m ∈ mainSendLogfd op c) (fd : Nat) (hfd : m.fd = some fd) :
    ∃ p, logFile c = some p ∧ op p = some fd ∧ p.length < 4096 := by
  simp only [mainSendLogfd, List.mem_cons, List.not_mem_nil, or_false] at hm
  rcases hm with rfl | rfl | rfl
  · simp only [Option.bind_eq_some_iff] at hfd
    obtain ⟨a, ha, p, hp, ho⟩ := hfd
    simp only [logPath] at hp
    by_cases hl : (c.chroot ++ (if c.chroot = [] then [] else b%"/") ++ a).length ≥ 4096
    · rw [if_pos hl] at hp; cases hp
    · rw [if_neg hl] at hp
      have hp := Option.some.inj hp
      refine ⟨p, ?_, ho, by rw [← hp]; omega⟩
      rw [← hp]
      simp only [logFile, ha, Option.map_some]
      by_cases h0 : c.chroot = [] <;> simp [h0]
  · cases hfd
  · cases hfd

example : (mainSendLogfd (fun p => if p = b%"/var/www/logs/gmid.log" then some 5 else none)
    { chroot := b%"/var/www", access := some b%"logs/gmid.log", syslog := [0, 0, 0, 0], facility := logDaemon }).map (·.fd) = [some 5, none, none] := by
  decide +kernel

/-- A reload that changes the log, a request, then SIGUSR1. -/
example : ∃ s', loggerRun 3 (lgStart { me := (3, 0), pp := fun _ => none, closed := [] })
    [(0, ⟨1, [], some 5⟩), (0, ⟨3, logDaemon, none⟩), (0, ⟨2, [0, 0, 0, 0], none⟩), (1, ⟨0, b%"one\x00", none⟩),
     (0, ⟨1, [], some 6⟩), (0, ⟨3, logDaemon, none⟩), (0, ⟨2, [0, 0, 0, 0], none⟩)] = .ok s' ∧ s'.logfd = some 6 := by
  let c : LogConf := { chroot := [], access := some b%"/var/log/gmid", syslog := [0, 0, 0, 0], facility := logDaemon }
  obtain ⟨s', h1, h2, _⟩ := C89_reopened_partial 3 (lgStart { me := (3, 0), pp := fun _ => none, closed := [] })
    { c with access := none } [.hupOk (fun _ => some 5) c] (.usr1 fun _ => some 6) (fun _ => some 6) (.inl rfl) ⟨rfl, rfl⟩
    (by intro op c' h; simp at h; rw [h.2]; exact ⟨rfl, rfl⟩) (by simp) (by intro p h; cases h; decide +kernel)
    [(0, ⟨1, [], some 5⟩), (0, ⟨3, logDaemon, none⟩), (0, ⟨2, [0, 0, 0, 0], none⟩), (1, ⟨0, b%"one\x00", none⟩),
     (0, ⟨1, [], some 6⟩), (0, ⟨3, logDaemon, none⟩), (0, ⟨2, [0, 0, 0, 0], none⟩)]
    (by intro x hx; simp only [List.mem_cons, List.not_mem_nil, or_false] at hx
        rcases hx with rfl | rfl | rfl | rfl | rfl | rfl | rfl <;> simp [ProperLogMsg, logDaemon]) (by decide +kernel)
  exact ⟨s', h1, h2⟩

/-- C89 is false after a reload that fails: the configuration the main process has is then whatever parse_conf made of the file, here nothing, and
SIGUSR1 makes the logger close the log for good. -/
theorem C89_failed_reload : ∃ (c : LogConf) (evs : List LogEv) (op : Bytes → Option Nat) (s' : Lg),
    LogConfOk c ∧ logFile (confInUse c evs) = some b%"/var/www/logs/gmid.log" ∧ op b%"/var/www/logs/gmid.log" = some 7 ∧
    loggerRun 3 (lgStart { me := (3, 0), pp := fun _ => none, closed := [] }) ((logEvs c (evs ++ [.usr1 op])).2.map fun m => (0, m)) = .ok s' ∧
    s'.logfd = none := by
  refine ⟨{ chroot := b%"/var/www", access := some b%"logs/gmid.log", syslog := [0, 0, 0, 0], facility := logDaemon },
    [.usr1 (fun _ => some 6), .hupFail { chroot := [], access := none, syslog := [1, 0, 0, 0], facility := logDaemon }], fun _ => some 7, ?_⟩
  refine ⟨_, ⟨rfl, rfl⟩, by decide +kernel, rfl, rfl, rfl⟩

/-! ## C90 -/

/-- C90: Messages of the servers that are requests, whatever is in them, do not end the logger and change nothing but what is written.  Missing:
the same for other messages, for which it is false (`C90_memory`, `C90_end`). -/
theorem C90_requests_partial (prefork : Nat) (s : Lg) (ms : List Raw) (h : ∀ m ∈ ms, m.type = 0 ∧ m.data ≠ []) :
    ∃ s', loggerRun prefork s (ms.map fun m => (1, m)) = .ok s' ∧ s'.logfd = s.logfd ∧ s'.syslog = s.syslog ∧ s'.facility = s.facility ∧
      s'.child = s.child ∧ s'.closed = s.closed ++ ms.flatMap (fun m => m.fd.toList) := by
  induction ms generalizing s with
  | nil => exact ⟨s, rfl, by simp⟩
  | cons m r ih =>
    obtain ⟨ht, hd⟩ := h m (by simp)
    have hl : m.data.length ≠ 0 := by simpa using hd
    simp only [List.map_cons, loggerRun, loggerDispatch, pParent, loggerServer, ht, hl, if_true, if_false, Nat.one_ne_zero, tLogRequest, Res.bind]
    obtain ⟨s', h1, h2, h3, h4, h5, h6⟩ := ih _ (fun m' hm' => h m' (by simp [hm']))
    exact ⟨s', h1, h2, h3, h4, h5, by rw [h6]; simp [Lg.free]⟩

example : ∃ s', loggerRun 1 (lgStart { me := (3, 0), pp := fun _ => none, closed := [] })
    ([⟨0, b%"a\nb\x00c", some 9⟩, ⟨0, [1], none⟩].map fun m => (1, m)) = .ok s' ∧ s'.closed = [9] := by
  obtain ⟨s', h1, _, _, _, _, h2⟩ := C90_requests_partial 1 (lgStart { me := (3, 0), pp := fun _ => none, closed := [] })
    [⟨0, b%"a\nb\x00c", some 9⟩, ⟨0, [1], none⟩] (by simp)
  exact ⟨s', h1, h2⟩

theorem u32le_eq (l : Bytes) : u32le l = rd32 l := by
  unfold u32le rd32
  rcases l with _ | ⟨a, _ | ⟨b, _ | ⟨c, _ | ⟨d, l⟩⟩⟩⟩ <;> rfl

/-- C90, and how far it is false: a message of a server, of any type and with anything in it, makes the logger leave its tables just when it is an
IMSG_CTL_PROCFD of two integers that name no process, or an instance that is not there of one the logger talks to. -/
theorem C90_memory_exactly (prefork : Nat) (s : Lg) (hme : s.child.me.1 = 3) (m : Raw) :
    loggerDispatch prefork s 1 m = .ub ↔
      m.type = 26 ∧ ∃ id inst : Nat, id < 4294967296 ∧ inst < 4294967296 ∧ m.data = le32 id ++ le32 inst ∧
        (4 ≤ id ∨ (id = 0 ∧ 1 ≤ inst) ∨ (id = 1 ∧ instances prefork 1 ≤ inst)) := by
  have hinst0 : instances prefork 0 = 1 := rfl
  have key : ∀ c : PChild, c.me.1 = 3 → ∀ fd id inst, procAccept prefork c fd id inst = .ub ↔
      (4 ≤ id ∨ (id = 0 ∧ 1 ≤ inst) ∨ (id = 1 ∧ instances prefork 1 ≤ inst)) := by
    intro c hc fd id inst
    have hp : peersOf 3 = [0, 1] := rfl
    unfold procAccept
    rw [hc, hp]
    simp only [procMax]
    by_cases h4 : id ≥ 4
    · simp [h4]
    · rw [if_neg h4]
      by_cases hm : id ∈ [0, 1]
      · rw [if_neg (fun h => h hm)]
        simp only [List.mem_cons, List.not_mem_nil, or_false] at hm
        rcases hm with rfl | rfl
        · rw [hinst0]
          by_cases hi : inst ≥ 1
          · simp [hi]
          · rw [if_neg hi]; split <;> simp <;> omega
        · by_cases hi : inst ≥ instances prefork 1
          · simp [hi]
          · rw [if_neg hi]; split <;> simp <;> omega
      · rw [if_pos hm]
        simp only [List.mem_cons, List.not_mem_nil, or_false, not_or] at hm
        simp; omega
  have hbind : ∀ (r : Res PChild), (r.bind fun c => .ok { s with child := c }) = Res.ub ↔ r = .ub := by intro r; cases r <;> simp [Res.bind]
  unfold loggerDispatch loggerServer
  simp only [pParent, Nat.one_ne_zero, if_false, tLogRequest, tCtlProcfd]
  by_cases h0 : m.type = 0
  · simp only [h0, if_true]
    split <;> simp
  · simp only [h0, if_false]
    by_cases h26 : m.type = 26
    · simp only [h26, if_true, true_and]
      by_cases hl : m.data.length = 8
      · simp only [hl, ne_eq, not_true_eq_false, if_false, hbind, u32le_eq, key _ hme]
        constructor
        · intro h
          have hlt : ∀ l : Bytes, rd32 l < 4294967296 := by
            intro l
            rcases l with _ | ⟨a, _ | ⟨b, _ | ⟨c, _ | ⟨d, l⟩⟩⟩⟩ <;> simp only [rd32] <;> try omega
            have := a.toNat_lt; have := b.toNat_lt; have := c.toNat_lt; have := d.toNat_lt
            omega
          have hle : ∀ a b c d : UInt8, le32 (rd32 [a, b, c, d]) = [a, b, c, d] := by
            intro a b c d
            have := a.toNat_lt; have := b.toNat_lt; have := c.toNat_lt; have := d.toNat_lt
            simp only [rd32, le32, List.cons.injEq, and_true]
            refine ⟨?_, ?_, ?_, ?_⟩ <;> apply UInt8.toNat_inj.mp <;> simp only [UInt8.toNat_ofNat'] <;> omega
          refine ⟨rd32 m.data, rd32 (m.data.drop 4), hlt _, hlt _, ?_, h⟩
          rcases hm : m.data with _ | ⟨a, _ | ⟨b, _ | ⟨c, _ | ⟨d, _ | ⟨e, _ | ⟨f, _ | ⟨g, _ | ⟨i, _ | ⟨j, l⟩⟩⟩⟩⟩⟩⟩⟩⟩ <;> rw [hm] at hl <;> simp at hl
          have e1 : rd32 [a, b, c, d, e, f, g, i] = rd32 [a, b, c, d] := rfl
          have e2 : List.drop 4 [a, b, c, d, e, f, g, i] = [e, f, g, i] := rfl
          rw [e1, e2, hle, hle]
          rfl
        · rintro ⟨id, inst, h1, h2, hd, h⟩
          have e1 : rd32 m.data = id := by rw [hd]; exact rd32_le32 _ h1 _
          have e2 : rd32 (m.data.drop 4) = inst := by
            have : m.data.drop 4 = le32 inst ++ [] := by rw [hd]; simp [le32]
            rw [this]; exact rd32_le32 _ h2 _
          rw [e1, e2]; exact h
      · simp only [hl, ne_eq, not_false_eq_true, if_true]
        constructor
        · intro h; cases h
        · rintro ⟨id, inst, h1, h2, hd, h⟩
          rw [hd] at hl; simp [le32] at hl
    · simp [h26]

/-- C90 is false: a server can make the logger use an index out of the bounds of its tables, with the eight bytes of one message. -/
theorem C90_memory (prefork : Nat) (s : Lg) : loggerDispatch prefork s 1 { type := 26, data := [200, 0, 0, 0, 0, 0, 0, 0], fd := none } = .ub := by
  rfl

/-- and it can make it end, and so all of gmid (C87) -/
theorem C90_end (prefork : Nat) (s : Lg) : loggerDispatch prefork s 1 { type := 0, data := [], fd := none } = .err := rfl

end Gmid.Props
