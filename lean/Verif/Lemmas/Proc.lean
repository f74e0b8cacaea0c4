import Verif.Model.Proc

/-!
# What the parent has done when the start is over
-/

set_option autoImplicit false

namespace Gmid

theorem init_fold (dst : Nat) (hd : dst ≠ pParent) (m : Nat) (s : Startup) :
    let t := (List.range m).foldl (fun s inst => initOne s dst inst) s
    t.socks = s.socks + m ∧ t.fd3 = s.fd3 ∧ t.sent = s.sent ∧
    ∀ a b, t.pipes a b = if a = (pParent, 0) ∧ b.1 = dst ∧ b.2 < m then some (2 * (s.socks + b.2))
      else if b = (pParent, 0) ∧ a.1 = dst ∧ a.2 < m then some (2 * (s.socks + a.2) + 1) else s.pipes a b := by
  induction m with
  | zero => simp
  | succ m ih =>
    simp only [List.range_succ, List.foldl_append, List.foldl_cons, List.foldl_nil]
    obtain ⟨h1, h2, h3, h4⟩ := ih
    generalize (List.range m).foldl (fun s inst => initOne s dst inst) s = t at *
    refine ⟨by simp [initOne, h1]; omega, by simp [initOne, h2], by simp [initOne, h3], ?_⟩
    rintro ⟨a1, a2⟩ ⟨b1, b2⟩
    simp only [initOne, setPipe, h4, h1]
    simp only [pParent] at *
    grind

theorem exec_fold (p : Nat) (m : Nat) (s : Startup) :
    let t := (List.range m).foldl (fun s i => execOne s p i) s
    t.socks = s.socks ∧ t.sent = s.sent ∧
    (∀ a, t.fd3 a = if a.1 = p ∧ a.2 < m then s.pipes a (pParent, 0) else s.fd3 a) ∧
    ∀ a b, t.pipes a b = if b = (pParent, 0) ∧ a.1 = p ∧ a.2 < m then none else s.pipes a b := by
  induction m with
  | zero => simp
  | succ m ih =>
    simp only [List.range_succ, List.foldl_append, List.foldl_cons, List.foldl_nil]
    obtain ⟨h1, h2, h3, h4⟩ := ih
    generalize (List.range m).foldl (fun s i => execOne s p i) s = t at *
    refine ⟨by simp [execOne, h1], by simp [execOne, h2], ?_, ?_⟩
    · rintro ⟨a1, a2⟩
      simp only [execOne, h3, h4]
      grind
    · rintro ⟨a1, a2⟩ ⟨b1, b2⟩
      simp only [execOne, setPipe, h4]
      grind

/-- a process of many instances and another of one -/
theorem open_fold (src dst : Nat) (hd : dst ≠ src) (hs : dst ≠ pServer) (m : Nat) (s : Startup) :
    let t := (List.range m).foldl (fun s i => (List.range 1).foldl (fun s j => openOne s src i dst j) s) s
    t.socks = s.socks + m ∧ t.fd3 = s.fd3 ∧
    (∀ b, src ≠ pParent → dst ≠ pParent → t.pipes (pParent, 0) b = s.pipes (pParent, 0) b) ∧
    t.sent = s.sent ++ (List.range m).flatMap (fun i =>
      [((dst, 0), .procfd src i (2 * (s.socks + i) + 1)), ((src, i), .procfd dst 0 (2 * (s.socks + i)))]) := by
  induction m with
  | zero => simp
  | succ m ih =>
    simp only [List.range_succ (n := m), List.foldl_append, List.foldl_cons, List.foldl_nil, List.flatMap_append]
    obtain ⟨h1, h2, h3, h4⟩ := ih
    generalize (List.range m).foldl (fun s i => (List.range 1).foldl (fun s j => openOne s src i dst j) s) s = t at *
    have e : (List.range 1).foldl (fun s j => openOne s src m dst j) t = openOne t src m dst 0 := rfl
    rw [e]
    unfold openOne
    rw [if_neg (by rintro ⟨h, _⟩; exact hd h.symm), if_neg (by rintro ⟨_, h⟩; exact hs h)]
    refine ⟨by simp [h1]; omega, by simp [h2], ?_, by simp [h4, h1]⟩
    rintro ⟨b1, b2⟩ k1 k2
    simp only [setPipe]
    rw [if_neg, if_neg]
    · exact h3 _ k1 k2
    · rintro ⟨h, _⟩; simp only [Prod.mk.injEq] at h; exact k1 h.1.symm
    · rintro ⟨h, _⟩; simp only [Prod.mk.injEq] at h; exact k2 h.1.symm

/-- processes that do not talk to each other -/
theorem open_same (src : Nat) (m : Nat) (hs : src = pServer ∨ m = 1) (s : Startup) :
    (List.range m).foldl (fun s i => (List.range m).foldl (fun s j => openOne s src i src j) s) s = s := by
  rcases hs with rfl | rfl
  · have e : ∀ i j (s : Startup), openOne s pServer i pServer j = s := by intro i j s; simp [openOne]
    have e2 : ∀ (l : List Nat) (i : Nat) (s : Startup), l.foldl (fun s j => openOne s pServer i pServer j) s = s := by
      intro l i
      induction l with
      | nil => intro s; rfl
      | cons x r ih => intro s; rw [List.foldl_cons, e, ih]
    generalize List.range m = l
    have : ∀ (k : List Nat) (s : Startup), k.foldl (fun s i => l.foldl (fun s j => openOne s pServer i pServer j) s) s = s := by
      intro k
      induction k with
      | nil => intro s; rfl
      | cons x r ih => intro s; rw [List.foldl_cons, e2, ih]
    exact this l s
  · show openOne s src 0 src 0 = s
    simp [openOne]

theorem instances_server (prefork : Nat) : 1 ≤ instances prefork pServer := by
  unfold instances; simp; split <;> omega

theorem instances_other (prefork p : Nat) (h : p ≠ pServer) : instances prefork p = 1 := by
  unfold instances; simp [h]

/-- the state of the parent after the start; `n` is the number of servers -/
theorem startup_spec (prefork n : Nat) (hn : instances prefork pServer = n) :
    (∀ q, (startup prefork).pipes (pParent, 0) q =
      if q.1 = pServer ∧ q.2 < n then some (2 * q.2) else if q = (pCrypto, 0) then some (2 * n)
      else if q = (pLogger, 0) then some (2 * (n + 1)) else none) ∧
    (∀ i, i < n → (startup prefork).fd3 (pServer, i) = some (2 * i + 1)) ∧
    (startup prefork).fd3 (pCrypto, 0) = some (2 * n + 1) ∧
    (startup prefork).fd3 (pLogger, 0) = some (2 * (n + 1) + 1) ∧
    (startup prefork).sent =
      (List.range n).flatMap (fun i => [((pCrypto, 0), .procfd pServer i (2 * (n + 2 + i) + 1)), ((pServer, i), .procfd pCrypto 0 (2 * (n + 2 + i)))]) ++
      (List.range n).flatMap (fun i => [((pLogger, 0), .procfd pServer i (2 * (2 * n + 2 + i) + 1)), ((pServer, i), .procfd pLogger 0 (2 * (2 * n + 2 + i)))]) ++
      [((pLogger, 0), .procfd pCrypto 0 (2 * (3 * n + 2) + 1)), ((pCrypto, 0), .procfd pLogger 0 (2 * (3 * n + 2)))] := by
  have o2 : instances prefork pCrypto = 1 := instances_other _ _ (by decide)
  have o3 : instances prefork pLogger = 1 := instances_other _ _ (by decide)
  -- proc_init
  obtain ⟨a1, a2, a3, a4⟩ := init_fold pServer (by decide) n startNone
  generalize ht1 : (List.range n).foldl (fun s inst => initOne s pServer inst) startNone = t1 at *
  obtain ⟨b1, b2, b3, b4⟩ := init_fold pCrypto (by decide) 1 t1
  generalize ht2 : (List.range 1).foldl (fun s inst => initOne s pCrypto inst) t1 = t2 at *
  obtain ⟨c1, c2, c3, c4⟩ := init_fold pLogger (by decide) 1 t2
  generalize ht3 : (List.range 1).foldl (fun s inst => initOne s pLogger inst) t2 = t3 at *
  have hi : procInit prefork startNone = t3 := by
    have : procInit prefork startNone = (List.range (instances prefork pLogger)).foldl (fun s inst => initOne s pLogger inst)
        ((List.range (instances prefork pCrypto)).foldl (fun s inst => initOne s pCrypto inst)
          ((List.range (instances prefork pServer)).foldl (fun s inst => initOne s pServer inst) startNone)) := rfl
    rw [this, hn, o2, o3, ht1, ht2, ht3]
  -- proc_exec
  obtain ⟨d1, d2, d3, d4⟩ := exec_fold pServer n t3
  generalize ht4 : (List.range n).foldl (fun s i => execOne s pServer i) t3 = t4 at *
  obtain ⟨e1, e2, e3, e4⟩ := exec_fold pCrypto 1 t4
  generalize ht5 : (List.range 1).foldl (fun s i => execOne s pCrypto i) t4 = t5 at *
  obtain ⟨f1, f2, f3, f4⟩ := exec_fold pLogger 1 t5
  generalize ht6 : (List.range 1).foldl (fun s i => execOne s pLogger i) t5 = t6 at *
  have he : procExec prefork t3 = t6 := by
    have : procExec prefork t3 = (List.range (instances prefork pLogger)).foldl (fun s i => execOne s pLogger i)
        ((List.range (instances prefork pCrypto)).foldl (fun s i => execOne s pCrypto i)
          ((List.range (instances prefork pServer)).foldl (fun s i => execOne s pServer i) t3)) := rfl
    rw [this, hn, o2, o3, ht4, ht5, ht6]
  -- proc_connect
  obtain ⟨g1, g2, g3, g4⟩ := open_fold pServer pCrypto (by decide) (by decide) n t6
  generalize ht7 : (List.range n).foldl (fun s i => (List.range 1).foldl (fun s j => openOne s pServer i pCrypto j) s) t6 = t7 at *
  obtain ⟨h1, h2, h3, h4⟩ := open_fold pServer pLogger (by decide) (by decide) n t7
  generalize ht8 : (List.range n).foldl (fun s i => (List.range 1).foldl (fun s j => openOne s pServer i pLogger j) s) t7 = t8 at *
  obtain ⟨i1, i2, i3, i4⟩ := open_fold pCrypto pLogger (by decide) (by decide) 1 t8
  generalize ht9 : (List.range 1).foldl (fun s i => (List.range 1).foldl (fun s j => openOne s pCrypto i pLogger j) s) t8 = t9 at *
  have hc : procConnect prefork t6 = t9 := by
    have : procConnect prefork t6 = procOpen prefork (procOpen prefork (procOpen prefork (procOpen prefork (procOpen prefork
      (procOpen prefork t6 pServer pServer) pServer pCrypto) pServer pLogger) pCrypto pCrypto) pCrypto pLogger) pLogger pLogger := rfl
    rw [this]
    have w1 : ∀ s, procOpen prefork s pServer pServer = s := fun s => open_same pServer _ (.inl rfl) s
    have w2 : ∀ s, procOpen prefork s pCrypto pCrypto = s := fun s => open_same pCrypto _ (.inr o2) s
    have w3 : ∀ s, procOpen prefork s pLogger pLogger = s := fun s => open_same pLogger _ (.inr o3) s
    rw [w1, w2, w3]
    unfold procOpen
    rw [hn, o2, o3, ht7, ht8, ht9]
  have hst : startup prefork = t9 := by rw [startup, hi, he, hc]
  rw [hst]
  have s0 : startNone.socks = 0 := rfl
  have p0 : ∀ a b, startNone.pipes a b = none := fun _ _ => rfl
  have n0 : t6.sent = [] := by rw [f2, e2, d2, c3, b3, a3]; rfl
  have k6 : t6.socks = n + 2 := by rw [f1, e1, d1, c1, b1, a1, s0]; omega
  refine ⟨?_, ?_, ?_, ?_, ?_⟩
  · rintro ⟨q1, q2⟩
    rw [i3 _ (by decide) (by decide), h3 _ (by decide) (by decide), g3 _ (by decide) (by decide), f4, e4, d4, c4, b4, a4, p0]
    simp only [c1, b1, a1, s0, pParent, pServer, pCrypto, pLogger]
    grind
  · intro i hi
    rw [i2, h2, g2, f3, e3, d3, c4, b4, a4]
    simp only [c1, b1, a1, s0, pParent, pServer, pCrypto, pLogger]
    grind
  · rw [i2, h2, g2, f3, e3, d4, c4, b4, a4]
    simp only [c1, b1, a1, s0, pParent, pServer, pCrypto, pLogger]
    grind
  · rw [i2, h2, g2, f3, e4, d4, c4, b4, a4]
    simp only [c1, b1, a1, s0, pParent, pServer, pCrypto, pLogger]
    grind
  · rw [i4, h4, g4, n0, h1, g1, k6]
    simp only [List.nil_append]
    congr 1
    · congr 1
      have : ∀ i, n + 2 + n + i = 2 * n + 2 + i := by intro i; omega
      simp only [this]
    · simp; omega

/-! ## What each child gets -/

theorem flatMap_single {β : Type} (n i : Nat) (g : Nat → List β) (h : i < n) :
    (List.range n).flatMap (fun a => if a = i then g a else []) = g i := by
  induction n with
  | zero => omega
  | succ n ih =>
    rw [List.range_succ, List.flatMap_append]
    by_cases hi : i = n
    · subst hi
      have : (List.range i).flatMap (fun a => if a = i then g a else []) = [] := by
        rw [List.flatMap_eq_nil_iff]
        intro a ha
        rw [if_neg (by have := List.mem_range.1 ha; omega)]
      rw [this]; simp
    · rw [ih (by omega)]
      simp [Ne.symm hi]

theorem inbox_server (prefork n : Nat) (hn : instances prefork pServer = n) (i : Nat) (hi : i < n) :
    inboxOf prefork (pServer, i) = [.procfd pCrypto 0 (2 * (n + 2 + i)), .procfd pLogger 0 (2 * (2 * n + 2 + i))] := by
  obtain ⟨_, _, _, _, h⟩ := startup_spec prefork n hn
  unfold inboxOf
  rw [h]
  simp only [List.filter_append, List.filter_flatMap, List.map_append, List.map_flatMap]
  have e1 : ∀ (x : Nat → PI × PMsg) (y : Nat → PMsg) (hx : ∀ a, (x a).1.1 ≠ pServer),
      (List.range n).flatMap (fun a => ([x a, ((pServer, a), y a)].filter (fun m => decide (m.1 = (pServer, i)))).map (·.2)) = [y i] := by
    intro x y hx
    have : (fun a => ([x a, ((pServer, a), y a)].filter (fun m => decide (m.1 = (pServer, i)))).map (·.2)) =
        fun a => if a = i then [y a] else [] := by
      funext a
      have : ¬ (x a).1 = (pServer, i) := fun k => hx a (by rw [k])
      by_cases h : a = i
      · subst h; simp [this]
      · simp [this, h]
    rw [this, flatMap_single n i (fun a => [y a]) hi]
  rw [e1 (fun a => ((pCrypto, 0), .procfd pServer a (2 * (n + 2 + a) + 1))) (fun a => .procfd pCrypto 0 (2 * (n + 2 + a))) (fun _ => by simp [pServer, pCrypto, pLogger]),
    e1 (fun a => ((pLogger, 0), .procfd pServer a (2 * (2 * n + 2 + a) + 1))) (fun a => .procfd pLogger 0 (2 * (2 * n + 2 + a))) (fun _ => by simp [pServer, pCrypto, pLogger])]
  simp [pServer, pCrypto, pLogger]

theorem inbox_crypto (prefork n : Nat) (hn : instances prefork pServer = n) :
    inboxOf prefork (pCrypto, 0) = (List.range n).map (fun i => .procfd pServer i (2 * (n + 2 + i) + 1)) ++ [.procfd pLogger 0 (2 * (3 * n + 2))] := by
  obtain ⟨_, _, _, _, h⟩ := startup_spec prefork n hn
  unfold inboxOf
  rw [h]
  simp only [List.filter_append, List.filter_flatMap, List.map_append, List.map_flatMap]
  simp [← List.map_eq_flatMap, List.flatMap_eq_nil_iff, pServer, pCrypto, pLogger]

theorem inbox_logger (prefork n : Nat) (hn : instances prefork pServer = n) :
    inboxOf prefork (pLogger, 0) = (List.range n).map (fun i => .procfd pServer i (2 * (2 * n + 2 + i) + 1)) ++ [.procfd pCrypto 0 (2 * (3 * n + 2) + 1)] := by
  obtain ⟨_, _, _, _, h⟩ := startup_spec prefork n hn
  unfold inboxOf
  rw [h]
  simp only [List.filter_append, List.filter_flatMap, List.map_append, List.map_flatMap]
  simp [← List.map_eq_flatMap, List.flatMap_eq_nil_iff, pServer, pCrypto, pLogger]

theorem childSteps_append (prefork : Nat) (c : PChild) (a b : List PMsg) :
    childSteps prefork c (a ++ b) = (childSteps prefork c a).bind fun c => childSteps prefork c b := by
  induction a generalizing c with
  | nil => rfl
  | cons m r ih =>
    simp only [List.cons_append, childSteps]
    cases childStep prefork c m with
    | ok c => exact ih c
    | err => rfl
    | ub => rfl

/-- crypto and logger get one message per server, which they accept -/
theorem accept_servers (prefork n : Nat) (hn : instances prefork pServer = n) (c : PChild) (hc : c.me.1 ≠ pServer) (hp : ∀ i, c.pp (pServer, i) = none)
    (f : Nat → Nat) (m : Nat) (hm : m ≤ n) :
    childSteps prefork c ((List.range m).map (fun i => .procfd pServer i (f i))) =
      .ok { c with pp := fun q => if q.1 = pServer ∧ q.2 < m then some (f q.2) else c.pp q } := by
  induction m with
  | zero => simp [childSteps]
  | succ m ih =>
    rw [List.range_succ, List.map_append, childSteps_append, ih (by omega)]
    simp only [Res.bind, List.map_cons, List.map_nil, childSteps, childStep, procAccept]
    rw [if_neg (by decide), if_neg (by simp [peersOf, hc]), if_neg (by rw [hn]; omega)]
    simp only [hp]
    simp
    funext ⟨q1, q2⟩
    grind

theorem ready_server (prefork n : Nat) (hn : instances prefork pServer = n) (i : Nat) (hi : i < n) :
    childReady prefork (pServer, i) = .ok { me := (pServer, i), pp := fun q => if q = (pLogger, 0) then some (2 * (2 * n + 2 + i)) else if q = (pCrypto, 0) then some (2 * (n + 2 + i)) else if q = (pParent, 0) then some (2 * i + 1) else none, closed := [] } := by
  obtain ⟨_, h2, _, _, _⟩ := startup_spec prefork n hn
  have o2 : instances prefork pCrypto = 1 := instances_other _ _ (by decide)
  have o3 : instances prefork pLogger = 1 := instances_other _ _ (by decide)
  have o0 : instances prefork pParent = 1 := instances_other _ _ (by decide)
  unfold childReady
  rw [inbox_server prefork n hn i hi, h2 i hi]
  simp [childStart, procAccept, peersOf, Res.bind, childSteps, childStep, o2, o3, o0, pParent, pServer, pCrypto, pLogger, procMax]

theorem ready_crypto (prefork n : Nat) (hn : instances prefork pServer = n) :
    childReady prefork (pCrypto, 0) = .ok { me := (pCrypto, 0), pp := fun q => if q.1 = pServer ∧ q.2 < n then some (2 * (n + 2 + q.2) + 1) else if q = (pParent, 0) then some (2 * n + 1) else none, closed := [some (2 * (3 * n + 2))] } := by
  obtain ⟨_, _, h3, _, _⟩ := startup_spec prefork n hn
  have o0 : instances prefork pParent = 1 := instances_other _ _ (by decide)
  unfold childReady
  rw [inbox_crypto prefork n hn, h3]
  have e : childStart prefork (pCrypto, 0) (some (2 * n + 1)) = .ok { me := (pCrypto, 0), pp := fun q => if q = (pParent, 0) then some (2 * n + 1) else none, closed := [] } := by
    simp [childStart, procAccept, peersOf, o0, pParent, pServer, pCrypto, pLogger, procMax]
  rw [e]
  simp only [Res.bind]
  rw [childSteps_append, accept_servers prefork n hn _ (by simp [pServer, pCrypto, pLogger]) (by intro i; simp [pServer, pParent]) (fun i => 2 * (n + 2 + i) + 1) n (Nat.le_refl _)]
  simp [Res.bind, childSteps, childStep, procAccept, peersOf, pParent, pServer, pCrypto, pLogger, procMax]

theorem ready_logger (prefork n : Nat) (hn : instances prefork pServer = n) :
    childReady prefork (pLogger, 0) = .ok { me := (pLogger, 0), pp := fun q => if q.1 = pServer ∧ q.2 < n then some (2 * (2 * n + 2 + q.2) + 1) else if q = (pParent, 0) then some (2 * (n + 1) + 1) else none, closed := [some (2 * (3 * n + 2) + 1)] } := by
  obtain ⟨_, _, _, h4, _⟩ := startup_spec prefork n hn
  have o0 : instances prefork pParent = 1 := instances_other _ _ (by decide)
  unfold childReady
  rw [inbox_logger prefork n hn, h4]
  have e : childStart prefork (pLogger, 0) (some (2 * (n + 1) + 1)) = .ok { me := (pLogger, 0), pp := fun q => if q = (pParent, 0) then some (2 * (n + 1) + 1) else none, closed := [] } := by
    simp [childStart, procAccept, peersOf, o0, pParent, pServer, pCrypto, pLogger, procMax]
  rw [e]
  simp only [Res.bind]
  rw [childSteps_append, accept_servers prefork n hn _ (by simp [pServer, pCrypto, pLogger]) (by intro i; simp [pServer, pParent]) (fun i => 2 * (2 * n + 2 + i) + 1) n (Nat.le_refl _)]
  simp [Res.bind, childSteps, childStep, procAccept, peersOf, pParent, pServer, pCrypto, pLogger, procMax]

end Gmid
