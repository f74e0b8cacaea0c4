import Verif.Model.Parse
import Verif.Spec.Parse
import Verif.Spec.Compat
import Verif.Props.Mime
import Verif.Props.Compat

/-!
# C41-C44, C56: macros, fastcgi endpoints, numbers, keywords, listen addresses
-/

set_option autoImplicit false

namespace Gmid.Props

open Spec

/-! ## C41 -/

def symFind (syms : List Sym) (n : Bytes) : Option Sym := syms.find? (fun s => decide (s.name = n))

theorem find_erase_ne (syms : List Sym) (s : Sym) (m : Bytes) (h : s.name ≠ m) : symFind (syms.erase s) m = symFind syms m := by
  unfold symFind
  induction syms with
  | nil => rfl
  | cons a r ih =>
    rw [List.erase_cons]
    by_cases ha : (a == s) = true
    · rw [if_pos ha]
      have : a = s := by simpa using ha
      subst this
      simp [h]
    · rw [if_neg ha]
      simp only [List.find?_cons]
      cases decide (a.name = m) <;> simp [ih]

theorem find_erase_self (syms : List Sym) (s : Sym) (hn : (syms.map (·.name)).Nodup) (hs : s ∈ syms) : symFind (syms.erase s) s.name = none := by
  unfold symFind
  induction syms with
  | nil => rfl
  | cons a r ih =>
    simp only [List.map_cons, List.nodup_cons] at hn
    rw [List.erase_cons]
    by_cases ha : (a == s) = true
    · rw [if_pos ha]
      have : a = s := by simpa using ha
      subst this
      rw [List.find?_eq_none]
      intro x hx
      simp only [decide_eq_true_eq]
      intro he
      exact hn.1 (he ▸ List.mem_map_of_mem hx)
    · rw [if_neg ha]
      have hne : s ≠ a := by intro e; subst e; simp at ha
      have hsr : s ∈ r := by
        rcases List.mem_cons.mp hs with h | h
        · exact absurd h hne
        · exact h
      have hnm : a.name ≠ s.name := fun e => hn.1 (e ▸ List.mem_map_of_mem hsr)
      simp only [List.find?_cons]
      rw [decide_eq_false hnm]
      exact ih hn.2 hsr

theorem nodup_erase_names (syms : List Sym) (s : Sym) (hn : (syms.map (·.name)).Nodup) : ((syms.erase s).map (·.name)).Nodup :=
  List.Nodup.sublist (List.Sublist.map _ List.erase_sublist) hn

theorem symset_spec (syms : List Sym) (n v : Bytes) (p : Bool) (hn : (syms.map (·.name)).Nodup) :
    ((symset syms n v p).map (·.name)).Nodup ∧
    ∀ m, symFind (symset syms n v p) m =
      if m = n then (match symFind syms n with | some s => if s.persist then some s else some ⟨n, v, p⟩ | none => some ⟨n, v, p⟩)
      else symFind syms m := by
  have addN : ∀ l : List Sym, (l.map (·.name)).Nodup → symFind l n = none →
      ((l ++ [(⟨n, v, p⟩ : Sym)]).map (·.name)).Nodup ∧ ∀ m, symFind (l ++ [⟨n, v, p⟩]) m = if m = n then some ⟨n, v, p⟩ else symFind l m := by
    intro l hl hf
    constructor
    · rw [List.map_append, List.nodup_append]
      refine ⟨hl, by simp, ?_⟩
      intro x hx y hy
      simp only [List.map_cons, List.map_nil, List.mem_singleton] at hy
      obtain ⟨z, hz, e⟩ := List.mem_map.mp hx
      unfold symFind at hf
      rw [List.find?_eq_none] at hf
      have := hf z hz
      simp only [decide_eq_true_eq] at this
      rw [← e, hy]; exact this
    · intro m
      unfold symFind at hf ⊢
      rw [List.find?_append]
      by_cases hm : m = n
      · subst hm; rw [hf]; simp
      · rw [if_neg hm]
        have : ¬ n = m := fun e => hm e.symm
        simp [this]
  unfold symset
  cases hf : syms.find? (fun s => decide (s.name = n)) with
  | none =>
    have hf' : symFind syms n = none := hf
    simp only [hf']
    exact addN syms hn hf'
  | some s =>
    have hf' : symFind syms n = some s := hf
    have hsn : s.name = n := by have := List.find?_some hf; simpa using this
    have hsm : s ∈ syms := List.mem_of_find?_eq_some hf
    simp only [hf']
    by_cases hp : s.persist = true
    · simp only [hp, if_true]
      refine ⟨hn, fun m => ?_⟩
      by_cases hm : m = n
      · subst hm; simp [hf']
      · simp [hm]
    · simp only [if_neg hp]
      have h0 : symFind (syms.erase s) n = none := hsn ▸ find_erase_self syms s hn hsm
      obtain ⟨h1, h2⟩ := addN (syms.erase s) (nodup_erase_names syms s hn) h0
      refine ⟨h1, fun m => ?_⟩
      rw [h2 m]
      by_cases hm : m = n
      · simp [hm]
      · rw [if_neg hm, if_neg hm, find_erase_ne _ _ _ (by rw [hsn]; exact fun e => hm e.symm)]

theorem cmdline_spec (ds : List (Bytes × Bytes)) : ∀ syms : List Sym, (syms.map (·.name)).Nodup → (∀ m s, symFind syms m = some s → s.persist = true) →
    let r := ds.foldl (fun s d => symset s d.1 d.2 true) syms
    (r.map (·.name)).Nodup ∧ (∀ m s, symFind r m = some s → s.persist = true) ∧
    ∀ m, (symFind r m).map (·.val) = match symFind syms m with | some s => some s.val | none => (ds.find? (fun d => decide (d.1 = m))).map (·.2) := by
  induction ds with
  | nil =>
    intro syms hn hp
    refine ⟨hn, hp, fun m => ?_⟩
    simp only [List.foldl_nil]
    cases symFind syms m <;> rfl
  | cons d r ih =>
    intro syms hn hp
    obtain ⟨h1, h2⟩ := symset_spec syms d.1 d.2 true hn
    have hp' : ∀ m s, symFind (symset syms d.1 d.2 true) m = some s → s.persist = true := by
      intro m s hs
      rw [h2 m] at hs
      by_cases hm : m = d.1
      · rw [if_pos hm] at hs
        cases hf : symFind syms d.1 with
        | none => rw [hf] at hs; simp only [Option.some.injEq] at hs; subst hs; rfl
        | some t =>
          rw [hf] at hs
          have := hp _ _ hf
          simp only [this, if_true, Option.some.injEq] at hs
          subst hs; exact this
      · rw [if_neg hm] at hs; exact hp _ _ hs
    obtain ⟨g1, g2, g3⟩ := ih _ h1 hp'
    refine ⟨g1, g2, fun m => ?_⟩
    simp only [List.foldl_cons]
    rw [g3 m, h2 m]
    by_cases hm : m = d.1
    · rw [if_pos hm]
      cases hf : symFind syms d.1 with
      | none => subst hm; simp [hf]
      | some t =>
        have := hp _ _ hf
        subst hm
        simp [hf, this]
    · rw [if_neg hm]
      have : ¬ d.1 = m := fun e => hm e.symm
      simp [this]

theorem file_spec (ds : List (Bytes × Bytes)) : ∀ syms : List Sym, (syms.map (·.name)).Nodup →
    let r := ds.foldl (fun s d => symset s d.1 d.2 false) syms
    (r.map (·.name)).Nodup ∧
    ∀ m, symFind r m =
      match symFind syms m with
      | some s => if s.persist then some s else (match ds.reverse.find? (fun d => decide (d.1 = m)) with | some d => some ⟨m, d.2, false⟩ | none => some s)
      | none => (ds.reverse.find? (fun d => decide (d.1 = m))).map fun d => ⟨m, d.2, false⟩ := by
  induction ds with
  | nil =>
    intro syms hn
    refine ⟨hn, fun m => ?_⟩
    simp only [List.foldl_nil]
    cases symFind syms m <;> simp
  | cons d r ih =>
    intro syms hn
    obtain ⟨h1, h2⟩ := symset_spec syms d.1 d.2 false hn
    obtain ⟨g1, g2⟩ := ih _ h1
    refine ⟨g1, fun m => ?_⟩
    simp only [List.foldl_cons]
    rw [g2 m, h2 m, List.reverse_cons, List.find?_append]
    by_cases hm : m = d.1
    · subst hm
      simp only [if_true]
      cases hf : symFind syms d.1 with
      | none =>
        cases hr : r.reverse.find? (fun x => decide (x.1 = d.1)) <;> simp
      | some t =>
        by_cases hp : t.persist = true
        · simp [hp]
        · simp only [hp]
          cases hr : r.reverse.find? (fun x => decide (x.1 = d.1)) <;> simp
    · have : ¬ d.1 = m := fun e => hm e.symm
      simp [hm, this]

/-- **C41, in part.** Whatever macros are defined on the command line and then in the file, in whatever order and however often, the
value found for a name is that of the command line, or else that of the latest definition in the file; a name defined by neither
is not found (an error, parse.y:944-947).  For definitions on the command line see also `C41_cmdline_partial`. -/
theorem C41_value_partial (cmdline file : List (Bytes × Bytes)) (name : Bytes) :
    symget (defineAll cmdline file) name = macroValue cmdline file name := by
  obtain ⟨h1, h2, h3⟩ := cmdline_spec cmdline [] (by simp) (by intro m s h; simp [symFind] at h)
  obtain ⟨_, g⟩ := file_spec file _ h1
  have h3' := h3 name
  have h2' := h2 name
  have g' := g name
  show (symFind (defineAll cmdline file) name).map (·.val) = _
  unfold defineAll macroValue
  rw [g']
  cases hc : symFind (cmdline.foldl (fun s d => symset s d.1 d.2 true) []) name with
  | none =>
    rw [hc] at h3'
    have : cmdline.find? (fun d => decide (d.1 = name)) = none := by
      cases hx : cmdline.find? (fun d => decide (d.1 = name)) with
      | none => rfl
      | some d => rw [hx] at h3'; simp [symFind] at h3'
    rw [this]
    cases file.reverse.find? (fun d => decide (d.1 = name)) <;> rfl
  | some s =>
    rw [hc] at h3'
    have hp := h2' s hc
    cases hx : cmdline.find? (fun d => decide (d.1 = name)) with
    | none => rw [hx] at h3'; simp [symFind] at h3'
    | some d => rw [hx] at h3'; simp [symFind] at h3'; simp [hp, h3']

/-- after the file is parsed only those of the command line are left, so a reload starts over -/
theorem C41_reload_partial (cmdline file : List (Bytes × Bytes)) (name : Bytes) :
    symget (symsAfterParse (defineAll cmdline file)) name = macroValue cmdline [] name := by
  obtain ⟨h1, h2, h3⟩ := cmdline_spec cmdline [] (by simp) (by intro m s h; simp [symFind] at h)
  obtain ⟨gn, g⟩ := file_spec file _ h1
  have find_filter : ∀ l : List Sym, (l.map (·.name)).Nodup → symFind (l.filter (·.persist)) name = (symFind l name).filter (·.persist) := by
    intro l hl
    induction l with
    | nil => rfl
    | cons a r ih =>
      simp only [List.map_cons, List.nodup_cons] at hl
      have ih' := ih hl.2
      unfold symFind at ih' ⊢
      by_cases hn : a.name = name
      · by_cases hp : a.persist = true
        · simp [hp, hn, Option.filter]
        · have hnone : r.find? (fun s => decide (s.name = name)) = none := by
            rw [List.find?_eq_none]
            intro x hx
            simp only [decide_eq_true_eq]
            intro e
            exact hl.1 (hn.trans e.symm ▸ List.mem_map_of_mem hx)
          rw [List.filter_cons_of_neg (by simpa using hp), ih', hnone, List.find?_cons_of_pos (by simpa using hn)]
          simp [Option.filter, hp]
      · by_cases hp : a.persist = true
        · rw [List.filter_cons_of_pos (by simpa using hp), List.find?_cons_of_neg (by simpa using hn), List.find?_cons_of_neg (by simpa using hn), ih']
        · rw [List.filter_cons_of_neg (by simpa using hp), List.find?_cons_of_neg (by simpa using hn), ih']
  show (symFind (symsAfterParse (defineAll cmdline file)) name).map (·.val) = _
  unfold symsAfterParse defineAll
  rw [find_filter _ gn]
  have h3' := h3 name
  have g' := g name
  unfold macroValue
  rw [g']
  cases hc : symFind (cmdline.foldl (fun s d => symset s d.1 d.2 true) []) name with
  | none =>
    rw [hc] at h3'
    have : cmdline.find? (fun d => decide (d.1 = name)) = none := by
      cases hx : cmdline.find? (fun d => decide (d.1 = name)) with
      | none => rfl
      | some d => rw [hx] at h3'; simp [symFind] at h3'
    rw [this]
    cases file.reverse.find? (fun d => decide (d.1 = name)) <;> simp [Option.filter]
  | some s =>
    rw [hc] at h3'
    have hp := h2 name s hc
    cases hx : cmdline.find? (fun d => decide (d.1 = name)) with
    | none => rw [hx] at h3'; simp [symFind] at h3'
    | some d => rw [hx] at h3'; simp [symFind] at h3'; simp [hp, h3', Option.filter]

theorem splitLastEq_none {v : Bytes} (h : c%'=' ∉ v) : splitLastEq v = none := by
  induction v with
  | nil => rfl
  | cons a r ih =>
    simp only [List.mem_cons, not_or] at h
    rw [splitLastEq, ih h.2]
    simp only
    rw [if_neg (fun e => h.1 e.symm)]

theorem splitLastEq_append (n v : Bytes) (h : c%'=' ∉ v) : splitLastEq (n ++ c%'=' :: v) = some (n, v) := by
  induction n with
  | nil => rw [List.nil_append, splitLastEq, splitLastEq_none h]; simp
  | cons a r ih => rw [List.cons_append, splitLastEq, ih]

/-- **C41, in part.** `-D name=value` defines `name`, if the value has no '='.  Otherwise it does not: see `C41_cmdline_equals`. -/
theorem C41_cmdline_partial (syms : List Sym) (n v : Bytes) (h : c%'=' ∉ v) :
    cmdlineSymset syms (n ++ c%'=' :: v) = some (symset syms n v true) := by
  rw [cmdlineSymset, splitLastEq_append n v h]; rfl

/-- **C41, the rest is false.** `-D q=a=b` does not define `q`, but `q=a`, a name that no reference can denote. -/
theorem C41_cmdline_equals :
    ∃ syms, cmdlineSymset [] b%"q=a=b" = some syms ∧ symget syms b%"q" = none ∧ symget syms b%"q=a" = some b%"b" :=
  ⟨[⟨b%"q=a", b%"b", true⟩], by decide, by decide, by decide⟩

example : macroValue [(b%"a", b%"1")] [(b%"a", b%"2"), (b%"b", b%"3"), (b%"b", b%"4")] b%"a" = some b%"1" := by decide
example : symget (defineAll [(b%"a", b%"1")] [(b%"a", b%"2"), (b%"b", b%"3"), (b%"b", b%"4")]) b%"b" = some b%"4" := by decide
example : symget (defineAll [(b%"a", b%"1")] [(b%"b", b%"3")]) b%"c" = none := by decide

/-! ## C42 -/

theorem fcgiFind_spec (path : Bytes) (port : Option Bytes) (fs : List FcgiEp) : ∀ i,
    (∀ k, fcgiFind path port i fs = .ok (some k) → i ≤ k ∧ fs[k - i]? = some (endpoint (path, port))) ∧
    (fcgiFind path port i fs = .ok none → endpoint (path, port) ∉ fs) ∧
    (fcgiFind path port i fs ≠ .err) ∧
    (fcgiFind path port i fs = .ub → port = none ∧ ∃ f ∈ fs, f.path = path ∧ f.port ≠ []) := by
  induction fs with
  | nil => intro i; simp [fcgiFind]
  | cons f r ih =>
    intro i
    obtain ⟨h1, h2, h3, h4⟩ := ih (i + 1)
    have next : fcgiFind path port i (f :: r) = fcgiFind path port (i + 1) r → f ≠ endpoint (path, port) → _ := fun e hne =>
      show (∀ k, fcgiFind path port i (f :: r) = .ok (some k) → i ≤ k ∧ (f :: r)[k - i]? = some (endpoint (path, port))) ∧
        (fcgiFind path port i (f :: r) = .ok none → endpoint (path, port) ∉ f :: r) ∧
        (fcgiFind path port i (f :: r) ≠ .err) ∧
        (fcgiFind path port i (f :: r) = .ub → port = none ∧ ∃ g ∈ f :: r, g.path = path ∧ g.port ≠ []) from by
      rw [e]
      refine ⟨fun k hk => ?_, fun hk => ?_, h3, fun hk => ?_⟩
      · obtain ⟨a, b⟩ := h1 k hk
        refine ⟨by omega, ?_⟩
        have : k - i = (k - (i + 1)) + 1 := by omega
        rw [this, List.getElem?_cons_succ]; exact b
      · simp only [List.mem_cons, not_or]; exact ⟨fun e => hne e.symm, h2 hk⟩
      · obtain ⟨a, g, hg, hb⟩ := h4 hk
        exact ⟨a, g, List.mem_cons_of_mem _ hg, hb⟩
    by_cases hp : f.path = path
    · cases port with
      | none =>
        by_cases he : f.port = []
        · have e : fcgiFind path none i (f :: r) = .ok (some i) := by simp [fcgiFind, hp, he]
          rw [e]
          have hf : f = endpoint (path, none) := by cases f; simp only at hp he; subst hp he; rfl
          refine ⟨fun k hk => ?_, fun hk => (by cases hk), by simp, fun hk => by cases hk⟩
          simp only [Res.ok.injEq, Option.some.injEq] at hk
          subst hk; simp [hf]
        · have e : fcgiFind path none i (f :: r) = .ub := by simp [fcgiFind, hp, he]
          rw [e]
          exact ⟨fun k hk => (by cases hk), fun hk => (by cases hk), by simp, fun _ => ⟨rfl, f, by simp, hp, he⟩⟩
      | some p =>
        by_cases he : f.port = p
        · have e : fcgiFind path (some p) i (f :: r) = .ok (some i) := by simp [fcgiFind, hp, he]
          rw [e]
          have hf : f = endpoint (path, some p) := by cases f; simp only at hp he; subst hp he; rfl
          refine ⟨fun k hk => ?_, fun hk => (by cases hk), by simp, fun hk => by cases hk⟩
          simp only [Res.ok.injEq, Option.some.injEq] at hk
          subst hk; simp [hf]
        · exact next (by simp [fcgiFind, hp, he]) (fun e => he (by rw [e]; rfl))
    · exact next (by simp [fcgiFind, hp]) (fun e => hp (by rw [e]; rfl))

/-- one directive, without errors -/
theorem fastcgiConf_spec {fs fs' : List FcgiEp} {d : Bytes × Option Bytes} {i : Nat} (hn : fs.Nodup) (h : fastcgiConf fs d.1 d.2 = .ok (fs', i, 0)) :
    fs'.Nodup ∧ fs'[i]? = some (endpoint d) ∧ (fs' = fs ∨ fs' = fs ++ [endpoint d]) := by
  obtain ⟨h1, h2, h3, h4⟩ := fcgiFind_spec d.1 d.2 fs 0
  unfold fastcgiConf at h
  cases hf : fcgiFind d.1 d.2 0 fs with
  | ub => rw [hf] at h; cases h
  | err => rw [hf] at h; cases h
  | ok o =>
    rw [hf] at h
    cases o with
    | some k =>
      simp only [Res.ok.injEq, Prod.mk.injEq] at h
      obtain ⟨e1, e2, _⟩ := h
      subst e1 e2
      exact ⟨hn, (h1 k hf).2, .inl rfl⟩
    | none =>
      simp only [Res.ok.injEq, Prod.mk.injEq] at h
      obtain ⟨e1, e2, e3⟩ := h
      have hl1 : ¬ d.1.length ≥ 4096 := by intro hc; rw [if_pos hc] at e3; omega
      have hl2 : ¬ (d.2.getD []).length ≥ 32 := by intro hc; rw [if_pos hc] at e3; omega
      have ep : ({ path := d.1.take 4095, port := (d.2.getD []).take 31 } : FcgiEp) = endpoint d := by
        unfold endpoint; rw [List.take_of_length_le (by omega), List.take_of_length_le (by omega)]
      rw [ep] at e1
      subst e1 e2
      refine ⟨?_, by simp, .inr rfl⟩
      rw [List.nodup_append]
      exact ⟨hn, by simp, fun a ha b hb e => by
        simp only [List.mem_singleton] at hb
        exact h2 hf (hb ▸ e ▸ ha)⟩

theorem declareFcgi_spec (ds : List (Bytes × Option Bytes)) : ∀ fs fs' is, fs.Nodup → declareFcgi fs ds = .ok (fs', is, 0) →
    fs'.Nodup ∧ fs <+: fs' ∧ is.map (fs'[·]?) = ds.map (fun d => some (endpoint d)) := by
  induction ds with
  | nil =>
    intro fs fs' is hn h
    simp only [declareFcgi, Res.ok.injEq, Prod.mk.injEq] at h
    obtain ⟨e1, e2, _⟩ := h
    subst e1 e2
    exact ⟨hn, List.prefix_refl _, rfl⟩
  | cons d r ih =>
    intro fs fs' is hn h
    rw [declareFcgi] at h
    cases h1 : fastcgiConf fs d.1 d.2 with
    | ub => rw [h1] at h; cases h
    | err => rw [h1] at h; cases h
    | ok x =>
      obtain ⟨f1, i, e⟩ := x
      rw [h1] at h
      simp only at h
      cases h2 : declareFcgi f1 r with
      | ub => rw [h2] at h; cases h
      | err => rw [h2] at h; cases h
      | ok y =>
        obtain ⟨f2, js, e'⟩ := y
        rw [h2] at h
        simp only [Res.ok.injEq, Prod.mk.injEq] at h
        obtain ⟨g1, g2, g3⟩ := h
        have he : e = 0 := by omega
        have he' : e' = 0 := by omega
        subst g1 g2 he he'
        obtain ⟨a1, a2, a3⟩ := fastcgiConf_spec hn h1
        obtain ⟨b1, b2, b3⟩ := ih f1 f2 js a1 h2
        refine ⟨b1, ?_, ?_⟩
        · rcases a3 with a3 | a3
          · subst a3; exact b2
          · exact List.IsPrefix.trans (by rw [a3]; exact List.prefix_append _ _) b2
        · rw [List.map_cons, List.map_cons, b3]
          congr 1
          obtain ⟨t, ht⟩ := b2
          rw [← ht]
          obtain ⟨hlt, _⟩ := List.getElem?_eq_some_iff.mp a2
          rw [List.getElem?_append_left hlt]; exact a2

/-- **C42, in part.** If the fastcgi directives of a file give no error, then the index given to each denotes its endpoint in the final list,
whatever is declared later, and two directives get the same index exactly when they declare the same endpoint.  The hypothesis excludes
undefined behaviour: see `C42_undefined`. -/
theorem C42_indexes_partial (ds : List (Bytes × Option Bytes)) (fs : List FcgiEp) (is : List Nat) (h : declareFcgi [] ds = .ok (fs, is, 0)) :
    is.map (fs[·]?) = ds.map (fun d => some (endpoint d)) ∧
    ∀ (j k : Nat) (dj dk : Bytes × Option Bytes) (ij ik : Nat), ds[j]? = some dj → ds[k]? = some dk → is[j]? = some ij → is[k]? = some ik →
      (ij = ik ↔ endpoint dj = endpoint dk) := by
  obtain ⟨h1, _, h3⟩ := declareFcgi_spec ds [] fs is (by simp) h
  refine ⟨h3, ?_⟩
  have at_ : ∀ (j : Nat) (d : Bytes × Option Bytes) (i : Nat), ds[j]? = some d → is[j]? = some i → fs[i]? = some (endpoint d) := by
    intro j d i hd hi
    have := congrArg (fun l => l[j]?) h3
    simp only [List.getElem?_map, hd, hi, Option.map_some, Option.some.injEq] at this
    exact this
  intro j k dj dk ij ik hj hk hij hik
  have a := at_ j dj ij hj hij
  have b := at_ k dk ik hk hik
  constructor
  · intro e; subst e; rw [a] at b; simpa using b
  · intro e
    rw [← e] at b
    obtain ⟨la, _⟩ := List.getElem?_eq_some_iff.mp a
    exact (List.getElem?_inj la h1).mp (a.trans b.symm)

/-- the directives do not name one path both with a port and without -/
def NoMix (ds : List (Bytes × Option Bytes)) : Prop := ∀ d ∈ ds, ∀ d' ∈ ds, d.2 = none → d'.1.take 4095 = d.1 → d'.2.getD [] = []

theorem declareFcgi_defined (all ds : List (Bytes × Option Bytes)) (hm : NoMix all) : ∀ fs, (∀ d ∈ ds, d ∈ all) →
    (∀ f ∈ fs, ∃ d ∈ all, f.path = d.1.take 4095 ∧ f.port = (d.2.getD []).take 31) → ∃ r, declareFcgi fs ds = .ok r := by
  induction ds with
  | nil => intro fs _ _; exact ⟨_, rfl⟩
  | cons d r ih =>
    intro fs hd hf
    obtain ⟨h1, h2, h3, h4⟩ := fcgiFind_spec d.1 d.2 fs 0
    have hok : ∃ x, fastcgiConf fs d.1 d.2 = .ok x ∧ (∀ f ∈ x.1, ∃ d ∈ all, f.path = d.1.take 4095 ∧ f.port = (d.2.getD []).take 31) := by
      unfold fastcgiConf
      cases hc : fcgiFind d.1 d.2 0 fs with
      | err => exact absurd hc h3
      | ub =>
        obtain ⟨hn, f, hfm, hp, hpo⟩ := h4 hc
        obtain ⟨d', hd', e1, e2⟩ := hf f hfm
        have := hm d (hd d (by simp)) d' hd' hn (e1 ▸ hp)
        rw [this] at e2
        exact absurd e2 hpo
      | ok o =>
        cases o with
        | some k => exact ⟨_, rfl, hf⟩
        | none =>
          refine ⟨_, rfl, fun f hfm => ?_⟩
          simp only [List.mem_append, List.mem_singleton] at hfm
          rcases hfm with hfm | hfm
          · exact hf f hfm
          · exact ⟨d, hd d (by simp), by rw [hfm], by rw [hfm]⟩
    obtain ⟨x, hx, hxf⟩ := hok
    obtain ⟨fs', i, e⟩ := x
    obtain ⟨y, hy⟩ := ih fs' (fun d' h => hd d' (by simp [h])) hxf
    obtain ⟨a, b, c⟩ := y
    exact ⟨(a, i :: b, e + c), by rw [declareFcgi, hx]; simp only [hy]⟩

/-- **C42, in part.** The directives are handled without undefined behaviour if no path is declared both with a port and without. -/
theorem C42_defined_partial (ds : List (Bytes × Option Bytes)) (h : NoMix ds) : ∃ r, declareFcgi [] ds = .ok r :=
  declareFcgi_defined ds ds h [] (fun _ h => h) (by simp)

/-- **C42, the rest is false.** `fastcgi socket tcp "a"` followed by `fastcgi socket "a"` passes a null pointer to strcmp(3). -/
theorem C42_undefined : declareFcgi [] [(b%"a", some b%"9000"), (b%"a", none)] = .ub := by decide

example : declareFcgi [] [(b%"/run/a", none), (b%"h", some b%"9000"), (b%"/run/a", none), (b%"h", some b%"9001")] =
    .ok ([⟨b%"/run/a", []⟩, ⟨b%"h", b%"9000"⟩, ⟨b%"h", b%"9001"⟩], [0, 1, 0, 2], 0) := by decide

/-! ## C43 -/

theorem llToInt_id {v : Int} (h1 : -2147483648 ≤ v) (h2 : v ≤ 2147483647) : llToInt v = v := by
  unfold llToInt; omega

/-- a number that fits in an int is read as itself -/
theorem numToken_int {s : Bytes} {v : Int} (hs : StrtonumForm s v) (h1 : -2147483648 ≤ v) (h2 : v ≤ 2147483647) : numToken s = some v := by
  have := (C46_strtonum s (-9223372036854775808) 9223372036854775807 v (by omega) (by omega)).mpr ⟨hs, by omega, by omega⟩
  unfold numToken
  rw [this]
  simp only [llToInt_id h1 h2]

/-- **C43, in part: numbers.** A number written in the file that fits in an int is accepted as a `block return` code exactly when it is a documented one
(10 to 69 but not 2x), as a `strip` number exactly when positive, as a `prefork` number exactly from 1 to 15.  Beyond an int, and for
`prefork 16`, the property is false: see `C43_wraps` and `C43_prefork_16`. -/
theorem C43_numbers_partial (s : Bytes) (v : Int) (hs : StrtonumForm s v) (h1 : -2147483648 ≤ v) (h2 : v ≤ 2147483647) :
    numToken s = some v ∧
    (checkBlockCode v = true ↔ (10 ≤ v ∧ v ≤ 19) ∨ (30 ≤ v ∧ v ≤ 69)) ∧ (checkStripNo v = true ↔ 1 ≤ v) ∧
    (checkPreforkNum v = true ↔ 1 ≤ v ∧ v ≤ 15) := by
  refine ⟨numToken_int hs h1 h2, ?_, ?_, ?_⟩
  · simp only [checkBlockCode, Bool.not_eq_true', Bool.or_eq_false_iff, Bool.and_eq_false_iff, decide_eq_false_iff_not]; omega
  · simp only [checkStripNo, Bool.not_eq_true', decide_eq_false_iff_not]; omega
  · simp only [checkPreforkNum, Bool.not_eq_true', Bool.or_eq_false_iff, decide_eq_false_iff_not]; omega

/-- **C43, the rest is false.** `block return 4294967347` is accepted, as 51; `strip 4294967297` as 1. -/
theorem C43_wraps :
    numToken b%"4294967347" = some 51 ∧ checkBlockCode 51 = true ∧ numToken b%"4294967297" = some 1 ∧ checkStripNo 1 = true := by decide

/-- **C43, the rest is false.** The manual allows up to 16 server processes; `prefork 16` is refused. -/
theorem C43_prefork_16 : numToken b%"16" = some 16 ∧ checkPreforkNum 16 = false := by decide

theorem blockFmt_cons_pct {r : Bytes} : BlockFmt (c%'%' :: r) ↔ ∃ c t, r = c :: t ∧ c ∈ b%"%pqPN" ∧ BlockFmt t := by
  constructor
  · intro h
    generalize hx : c%'%' :: r = x at h
    cases h with
    | nil => cases hx
    | text c r' hc hr => simp only [List.cons.injEq] at hx; exact absurd hx.1.symm hc
    | spec c r' hc hr => simp only [List.cons.injEq, true_and] at hx; exact ⟨c, r', hx, hc, hr⟩
  · rintro ⟨c, t, rfl, hc, ht⟩; exact .spec c t hc ht

theorem blockFmt_cons_text {c : UInt8} {r : Bytes} (hc : c ≠ c%'%') : BlockFmt (c :: r) ↔ BlockFmt r := by
  constructor
  · intro h
    generalize hx : c :: r = x at h
    cases h with
    | nil => cases hx
    | text c' r' hc hr => simp only [List.cons.injEq] at hx; rw [hx.2]; exact hr
    | spec c' r' hc' hr => simp only [List.cons.injEq] at hx; exact absurd hx.1 hc
  · intro h; exact .text c r hc h

/-- **C43, in part: formats.** A `block return` format is accepted exactly when every % in it is followed by one of the documented specifiers; if it does not
end in an odd run of %, checking it is well defined.  Otherwise it is not: see `C43_trailing_percent`. -/
theorem C43_format_partial (f : Bytes) : (checkBlockFmt f = .ok true ↔ BlockFmt f) ∧ (checkBlockFmt f ≠ .err) ∧
    (checkBlockFmt f = .ub → f.getLast? = some c%'%') := by
  have skip : ∀ (c : UInt8) (r : Bytes), c ∈ b%"%pqPN" →
      ((checkBlockFmt r = .ok true ↔ BlockFmt r) ∧ (checkBlockFmt r ≠ .err) ∧ (checkBlockFmt r = .ub → r.getLast? = some c%'%')) →
      ((checkBlockFmt r = .ok true ↔ BlockFmt (c%'%' :: c :: r)) ∧ (checkBlockFmt r ≠ .err) ∧
        (checkBlockFmt r = .ub → (c%'%' :: c :: r).getLast? = some c%'%')) := by
    rintro c r hc ⟨h1, h2, h3⟩
    refine ⟨⟨fun h => .spec c r hc (h1.mp h), fun h => ?_⟩, h2, fun h => ?_⟩
    · obtain ⟨c', t, e, _, ht⟩ := blockFmt_cons_pct.mp h
      simp only [List.cons.injEq] at e
      rw [e.2] at h1 ⊢; exact h1.mpr ht
    · have := h3 h
      cases r with
      | nil => simp at this
      | cons a t => simpa using this
  fun_induction checkBlockFmt f with
  | case1 => exact ⟨⟨fun _ => .nil, fun _ => rfl⟩, by simp, by simp⟩
  | case2 => exact ⟨⟨fun h => (by cases h), fun h => by obtain ⟨c, t, h, _⟩ := blockFmt_cons_pct.mp h; cases h⟩, by simp, fun _ => rfl⟩
  | case3 r ih => exact skip _ _ (by decide) ih
  | case4 r ih => exact skip _ _ (by decide) ih
  | case5 r ih => exact skip _ _ (by decide) ih
  | case6 r ih => exact skip _ _ (by decide) ih
  | case7 r ih => exact skip _ _ (by decide) ih
  | case8 c r h1 h2 h3 h4 h5 b hb ih =>
    refine ⟨⟨fun h => (by cases h), fun h => ?_⟩, by simp, fun h => by cases h⟩
    obtain ⟨c', t, e, hc, _⟩ := blockFmt_cons_pct.mp h
    simp only [List.cons.injEq] at e
    rw [← e.1] at hc
    simp only [List.mem_cons, List.not_mem_nil, or_false] at hc
    rcases hc with h | h | h | h | h
    · exact absurd h h1
    · exact absurd h h2
    · exact absurd h h3
    · exact absurd h h4
    · exact absurd h h5
  | case9 c r h1 h2 h3 h4 h5 hb ih => exact absurd hb ih.2.1
  | case10 c r h1 h2 h3 h4 h5 hb ih =>
    refine ⟨⟨fun h => (by cases h), fun h => ?_⟩, by simp, fun _ => ?_⟩
    · obtain ⟨c', t, e, hc, _⟩ := blockFmt_cons_pct.mp h
      simp only [List.cons.injEq] at e
      rw [← e.1] at hc
      simp only [List.mem_cons, List.not_mem_nil, or_false] at hc
      rcases hc with h | h | h | h | h
      · exact absurd h h1
      · exact absurd h h2
      · exact absurd h h3
      · exact absurd h h4
      · exact absurd h h5
    · have := ih.2.2 hb
      cases r with
      | nil => simp at this
      | cons a t => simpa using this
  | case11 c r hc ih =>
    obtain ⟨h1, h2, h3⟩ := ih
    rw [blockFmt_cons_text (fun e => hc e)]
    refine ⟨h1, h2, fun h => ?_⟩
    have := h3 h
    cases r with
    | nil => simp at this
    | cons a t => simpa using this

/-- **C43, the rest is false.** A format that ends in a single % is read past its end. -/
theorem C43_trailing_percent : checkBlockFmt b%"50%" = .ub := by decide

example : StrtonumForm b%"51" 51 := ((C46_strtonum b%"51" 0 100 51 (by omega) (by omega)).mp (by decide)).1
example : checkBlockFmt b%"see %p?%q" = .ok true ∧ checkBlockFmt b%"see %z" = .ok false := by decide

/-! ## C44 -/

/-- **C44.** A word is taken for a keyword exactly when it is in the table, and then its token is that of the table. -/
theorem C44_lookup (s t : Bytes) : lookupKw s = some t ↔ (s, t) ∈ keywords := by
  have hs : SortedExt (keywords.map fun k => { mime := k.2, ext := k.1 }) := by unfold SortedExt; decide +kernel
  have hu : ∀ k ∈ keywords, ∀ k' ∈ keywords, k.1 = k'.1 → k.2 = k'.2 := by decide +kernel
  obtain ⟨h1, h2⟩ := bsearchExt_spec s _ hs
  unfold lookupKw
  constructor
  · intro h
    cases hb : bsearchExt s (keywords.map fun k => { mime := k.2, ext := k.1 }) with
    | none => rw [hb] at h; cases h
    | some e =>
      rw [hb] at h
      obtain ⟨hm, he⟩ := h1 e hb
      obtain ⟨k, hk, hke⟩ := List.mem_map.mp hm
      subst hke
      simp only [Option.map_some, Option.some.injEq] at h he
      subst h he
      exact hk
  · intro h
    cases hb : bsearchExt s (keywords.map fun k => { mime := k.2, ext := k.1 }) with
    | none => exact absurd rfl (h2 hb _ (List.mem_map_of_mem h))
    | some e =>
      obtain ⟨hm, he⟩ := h1 e hb
      obtain ⟨k, hk, hke⟩ := List.mem_map.mp hm
      subst hke
      simp only at he
      simp only [Option.map_some, Option.some.injEq]
      exact hu k hk (s, t) h he

/-- **C44.** Each word token of the grammar has a keyword, of the same name but for dashes and underscores, and each keyword gives the token of
its name. -/
theorem C44_tokens : (∀ t ∈ wordTokens, ∃ s, lookupKw s = some t ∧ plainName s = plainName t) ∧
    (∀ s t, lookupKw s = some t → t ∈ wordTokens ∧ plainName s = plainName t) := by
  constructor
  · intro t ht
    have : ∀ t ∈ wordTokens, ∃ k ∈ keywords, k.2 = t ∧ plainName k.1 = plainName t := by decide +kernel
    obtain ⟨k, hk, rfl, h⟩ := this t ht
    exact ⟨k.1, (C44_lookup k.1 k.2).2 hk, h⟩
  · intro s t h
    have : ∀ k ∈ keywords, k.2 ∈ wordTokens ∧ plainName k.1 = plainName k.2 := by decide +kernel
    exact this (s, t) ((C44_lookup s t).1 h)

example : lookupKw b%"proxy-v1" = some b%"PROXYV1" ∧ lookupKw b%"proxy-v2" = none ∧ lookupKw b%"" = none := by decide +kernel

/-! ## C56 -/

/-- the addresses in a queue are distinct -/
def DistinctAddrs (q : List LAddr) : Prop := (q.map (·.ai)).Nodup

theorem addToAddrQueue_spec {q q' : List LAddr} {ai : AddrInfo} {p : Bool} {e : Nat} (hd : DistinctAddrs q)
    (h : addToAddrQueue q ai p = .ok (q', e)) :
    DistinctAddrs q' ∧ (∀ a, a ∈ q'.map (·.ai) ↔ a ∈ q.map (·.ai) ∨ a = ai) ∧ (∀ x ∈ q, x ∈ q') ∧
    (e = 0 ↔ ∀ x ∈ q, x.ai = ai → x.proxy = p) ∧ (e = 0 → ⟨ai, p⟩ ∈ q') ∧ (∀ x ∈ q', x ∈ q ∨ x = ⟨ai, p⟩) := by
  unfold addToAddrQueue at h
  by_cases hl : ai.addr.length > 128
  · rw [if_pos hl] at h; cases h
  rw [if_neg hl] at h
  cases hf : q.find? (fun a => decide (a.ai = ai)) with
  | none =>
    rw [hf] at h
    rw [List.find?_eq_none] at hf
    have hf' : ∀ x ∈ q, x.ai ≠ ai := by intro x hx; simpa using hf x hx
    simp only at h
    by_cases hfam : ai.family = 2 ∨ ai.family = 10
    · rw [if_pos hfam] at h
      simp only [Res.ok.injEq, Prod.mk.injEq] at h
      obtain ⟨e1, e2⟩ := h
      subst e1 e2
      refine ⟨?_, ?_, ?_, ?_, by simp, ?_⟩
      · unfold DistinctAddrs
        rw [List.map_cons, List.nodup_cons]
        refine ⟨?_, hd⟩
        intro hm
        obtain ⟨x, hx, hxe⟩ := List.mem_map.mp hm
        exact hf' x hx hxe
      · intro a; simp only [List.map_cons, List.mem_cons]; constructor <;> (rintro (h | h) <;> simp [h])
      · intro x hx; exact List.mem_cons_of_mem _ hx
      · simp only [true_iff]; intro x hx hxe; exact absurd hxe (hf' x hx)
      · intro x hx; simp only [List.mem_cons] at hx; rcases hx with h | h
        · exact .inr h
        · exact .inl h
    · rw [if_neg hfam] at h; cases h
  | some a =>
    rw [hf] at h
    simp only [Res.ok.injEq, Prod.mk.injEq] at h
    obtain ⟨e1, e2⟩ := h
    subst e1
    have ha : a ∈ q := List.mem_of_find?_eq_some hf
    have hai : a.ai = ai := by have := List.find?_some hf; simpa using this
    have huniq : ∀ x ∈ q, x.ai = ai → x = a := by
      intro x hx hxe
      unfold DistinctAddrs at hd
      obtain ⟨i, hi, ei⟩ := List.mem_iff_getElem.mp hx
      obtain ⟨j, hj, ej⟩ := List.mem_iff_getElem.mp ha
      have : i = j := (List.getElem?_inj (by simpa using hi) hd).mp (by
        rw [List.getElem?_map, List.getElem?_map, List.getElem?_eq_getElem hi, List.getElem?_eq_getElem hj, ei, ej]
        simp [hxe, hai])
      subst this
      exact ei.symm.trans ej
    refine ⟨hd, ?_, fun x hx => hx, ?_, ?_, fun x hx => .inl hx⟩
    · intro b
      constructor
      · exact .inl
      · rintro (h | h)
        · exact h
        · subst h; exact List.mem_map.mpr ⟨a, ha, hai⟩
    · rw [← e2]
      constructor
      · intro h0 x hx hxe
        rw [huniq x hx hxe]
        by_cases hp : a.proxy ≠ p
        · rw [if_pos hp] at h0; cases h0
        · simpa using hp
      · intro hall
        rw [if_neg (by simp [hall a ha hai])]
    · intro h0
      have : a.proxy = p := by
        by_cases hp : a.proxy ≠ p
        · rw [if_pos hp] at e2; omega
        · simpa using hp
      have : a = ⟨ai, p⟩ := by cases a; simp only at hai this; subst hai this; rfl
      exact this ▸ ha

/-- a sequence of addresses, each with its setting, added to one queue -/
def addAll : List LAddr → List (AddrInfo × Bool) → Res (List LAddr × Nat)
  | q, [] => .ok (q, 0)
  | q, x :: r =>
    match addToAddrQueue q x.1 x.2 with
    | .ok (q', e) =>
      match addAll q' r with
      | .ok (q'', e') => .ok (q'', e + e')
      | .err => .err
      | .ub => .ub
    | .err => .err
    | .ub => .ub

/-- no address is requested both with proxy-v1 and without -/
def Consistent (rs : List (AddrInfo × Bool)) : Prop := ∀ x ∈ rs, ∀ y ∈ rs, x.1 = y.1 → x.2 = y.2

theorem addAll_spec (rs : List (AddrInfo × Bool)) : ∀ q q' e, DistinctAddrs q → addAll q rs = .ok (q', e) →
    DistinctAddrs q' ∧ (∀ a, a ∈ q'.map (·.ai) ↔ a ∈ q.map (·.ai) ∨ a ∈ rs.map (·.1)) ∧ (∀ x ∈ q, x ∈ q') ∧
    (e = 0 → ∀ x ∈ rs, ⟨x.1, x.2⟩ ∈ q') ∧ (∀ x ∈ q', x ∈ q ∨ (x.ai, x.proxy) ∈ rs) ∧
    (Consistent (q.map (fun x => (x.ai, x.proxy)) ++ rs) → e = 0) := by
  induction rs with
  | nil =>
    intro q q' e hd h
    simp only [addAll, Res.ok.injEq, Prod.mk.injEq] at h
    obtain ⟨e1, e2⟩ := h
    subst e1 e2
    exact ⟨hd, by simp, fun x h => h, by simp, fun x h => .inl h, fun _ => rfl⟩
  | cons x r ih =>
    intro q q' e hd h
    rw [addAll] at h
    cases h1 : addToAddrQueue q x.1 x.2 with
    | err => rw [h1] at h; cases h
    | ub => rw [h1] at h; cases h
    | ok y =>
      obtain ⟨q1, e1⟩ := y
      rw [h1] at h
      simp only at h
      cases h2 : addAll q1 r with
      | err => rw [h2] at h; cases h
      | ub => rw [h2] at h; cases h
      | ok z =>
        obtain ⟨q2, e2⟩ := z
        rw [h2] at h
        simp only [Res.ok.injEq, Prod.mk.injEq] at h
        obtain ⟨f1, f2⟩ := h
        subst f1
        obtain ⟨a1, a2, a3, a4, a5, a6⟩ := addToAddrQueue_spec hd h1
        obtain ⟨b1, b2, b3, b4, b5, b6⟩ := ih q1 q2 e2 a1 h2
        refine ⟨b1, ?_, fun y hy => b3 y (a3 y hy), ?_, ?_, ?_⟩
        · intro a
          rw [b2 a, a2 a, List.map_cons, List.mem_cons, or_assoc]
        · intro he y hy
          rcases List.mem_cons.mp hy with h | h
          · subst h; exact b3 _ (a5 (by omega))
          · exact b4 (by omega) y h
        · intro y hy
          rcases b5 y hy with h | h
          · rcases a6 y h with h | h
            · exact .inl h
            · subst h; exact .inr (by simp)
          · exact .inr (List.mem_cons_of_mem _ h)
        · intro hc
          have e10 : e1 = 0 := a4.mpr (fun y hy hye =>
            hc (y.ai, y.proxy) (List.mem_append.mpr (.inl (List.mem_map.mpr ⟨y, hy, rfl⟩))) x (by simp) hye)
          have e20 : e2 = 0 := b6 (by
            have sub : ∀ y ∈ q1.map (fun x => (x.ai, x.proxy)) ++ r, y ∈ q.map (fun x => (x.ai, x.proxy)) ++ x :: r := by
              intro y hy
              rcases List.mem_append.mp hy with h | h
              · obtain ⟨z, hz, e⟩ := List.mem_map.mp h
                rcases a6 z hz with h | h
                · exact List.mem_append.mpr (.inl (List.mem_map.mpr ⟨z, h, e⟩))
                · subst h; subst e; simp
              · simp [h]
            exact fun y hy z hz => hc y (sub y hy) z (sub z hz))
          omega

theorem addAll_append (a b : List (AddrInfo × Bool)) : ∀ q, addAll q (a ++ b) =
    match addAll q a with
    | .ok (q', e) => (match addAll q' b with | .ok (q'', e') => .ok (q'', e + e') | .err => .err | .ub => .ub)
    | .err => .err
    | .ub => .ub := by
  induction a with
  | nil => intro q; simp only [List.nil_append, addAll]; cases addAll q b with
    | ok y => simp
    | err => rfl
    | ub => rfl
  | cons x r ih =>
    intro q
    rw [List.cons_append, addAll, addAll]
    cases addToAddrQueue q x.1 x.2 with
    | err => rfl
    | ub => rfl
    | ok y =>
      simp only
      rw [ih]
      cases addAll y.1 r with
      | err => rfl
      | ub => rfl
      | ok z =>
        simp only
        cases addAll z.1 b with
        | err => rfl
        | ub => rfl
        | ok w => simp only [Nat.add_assoc]

theorem listenOn_split (p : Bool) (ais : List AddrInfo) : ∀ hq cq hq' cq' e, listenOn hq cq p ais = .ok (hq', cq', e) →
    ∃ eh ec, addAll hq (ais.map fun a => (a, p)) = .ok (hq', eh) ∧ addAll cq (ais.map fun a => (a, p)) = .ok (cq', ec) ∧ e = eh + ec := by
  induction ais with
  | nil =>
    intro hq cq hq' cq' e h
    simp only [listenOn, Res.ok.injEq, Prod.mk.injEq] at h
    obtain ⟨e1, e2, e3⟩ := h
    subst e1 e2 e3
    exact ⟨0, 0, rfl, rfl, rfl⟩
  | cons a r ih =>
    intro hq cq hq' cq' e h
    rw [listenOn] at h
    cases h1 : addToAddrQueue hq a p with
    | err => rw [h1] at h; cases h
    | ub => rw [h1] at h; cases h
    | ok x =>
      obtain ⟨h1q, e1⟩ := x
      rw [h1] at h
      simp only at h
      cases h2 : addToAddrQueue cq a p with
      | err => rw [h2] at h; cases h
      | ub => rw [h2] at h; cases h
      | ok y =>
        obtain ⟨c1q, e2⟩ := y
        rw [h2] at h
        simp only at h
        cases h3 : listenOn h1q c1q p r with
        | err => rw [h3] at h; cases h
        | ub => rw [h3] at h; cases h
        | ok z =>
          obtain ⟨a3, b3, e3⟩ := z
          rw [h3] at h
          simp only [Res.ok.injEq, Prod.mk.injEq] at h
          obtain ⟨f1, f2, f3⟩ := h
          subst f1 f2
          obtain ⟨eh, ec, g1, g2, g3⟩ := ih _ _ _ _ _ h3
          refine ⟨e1 + eh, e2 + ec, ?_, ?_, by omega⟩
          · rw [List.map_cons, addAll, h1]; simp only [g1]
          · rw [List.map_cons, addAll, h2]; simp only [g2]

theorem listenHost_split (ds : List ListenDir) : ∀ hq cq hq' cq' e, listenHost hq cq ds = .ok (hq', cq', e) →
    ∃ eh ec, addAll hq (requested ds) = .ok (hq', eh) ∧ addAll cq (requested ds) = .ok (cq', ec) ∧ e = eh + ec := by
  induction ds with
  | nil =>
    intro hq cq hq' cq' e h
    simp only [listenHost, Res.ok.injEq, Prod.mk.injEq] at h
    obtain ⟨e1, e2, e3⟩ := h
    subst e1 e2 e3
    exact ⟨0, 0, rfl, rfl, rfl⟩
  | cons d r ih =>
    intro hq cq hq' cq' e h
    rw [listenHost] at h
    cases h1 : listenOn hq cq d.proxy d.ais with
    | err => rw [h1] at h; cases h
    | ub => rw [h1] at h; cases h
    | ok x =>
      obtain ⟨h1q, c1q, e1⟩ := x
      rw [h1] at h
      simp only at h
      cases h3 : listenHost h1q c1q r with
      | err => rw [h3] at h; cases h
      | ub => rw [h3] at h; cases h
      | ok z =>
        obtain ⟨a3, b3, e3⟩ := z
        rw [h3] at h
        simp only [Res.ok.injEq, Prod.mk.injEq] at h
        obtain ⟨f1, f2, f3⟩ := h
        subst f1 f2
        obtain ⟨eh, ec, g1, g2, g3⟩ := ih _ _ _ _ _ h3
        obtain ⟨eh', ec', k1, k2, k3⟩ := listenOn_split _ _ _ _ _ _ _ h1
        have hr : requested (d :: r) = (d.ais.map fun a => (a, d.proxy)) ++ requested r := rfl
        refine ⟨eh' + eh, ec' + ec, ?_, ?_, by omega⟩
        · rw [hr, addAll_append, k1]; simp only [g1]
        · rw [hr, addAll_append, k2]; simp only [g2]

theorem consistent_sub {a b : List (AddrInfo × Bool)} (h : Consistent b) (hs : ∀ x ∈ a, x ∈ b) : Consistent a :=
  fun x hx y hy => h x (hs x hx) y (hs y hy)

theorem listenAll_split (hs : List (List ListenDir)) : ∀ cq cq' e, listenAll cq hs = .ok (cq', e) →
    ∃ eh ec, addAll cq (hs.flatMap requested) = .ok (cq', ec) ∧ e = eh + ec ∧ (Consistent (hs.flatMap requested) → eh = 0) := by
  induction hs with
  | nil =>
    intro cq cq' e h
    simp only [listenAll, Res.ok.injEq, Prod.mk.injEq] at h
    obtain ⟨e1, e2⟩ := h
    subst e1 e2
    exact ⟨0, 0, rfl, rfl, fun _ => rfl⟩
  | cons d r ih =>
    intro cq cq' e h
    rw [listenAll] at h
    cases h1 : listenHost [] cq d with
    | err => rw [h1] at h; cases h
    | ub => rw [h1] at h; cases h
    | ok x =>
      obtain ⟨h1q, c1q, e1⟩ := x
      rw [h1] at h
      simp only at h
      cases h3 : listenAll c1q r with
      | err => rw [h3] at h; cases h
      | ub => rw [h3] at h; cases h
      | ok z =>
        obtain ⟨a3, e3⟩ := z
        rw [h3] at h
        simp only [Res.ok.injEq, Prod.mk.injEq] at h
        obtain ⟨f1, f3⟩ := h
        subst f1
        obtain ⟨eh, ec, g2, g3, g4⟩ := ih _ _ _ h3
        obtain ⟨eh', ec', k1, k2, k3⟩ := listenHost_split _ _ _ _ _ _ h1
        refine ⟨eh' + eh, ec' + ec, ?_, by omega, ?_⟩
        · rw [List.flatMap_cons, addAll_append, k2]; simp only [g2]
        · intro hc
          rw [List.flatMap_cons] at hc
          have := g4 (consistent_sub hc (fun x hx => List.mem_append.mpr (.inr hx)))
          have h0 : DistinctAddrs [] := List.nodup_nil
          have := (addAll_spec _ _ _ _ h0 k1).2.2.2.2.2 (by simpa using consistent_sub hc (fun x hx => List.mem_append.mpr (.inl hx)))
          omega

/-- **C56.** Whatever the listen directives of the servers, the addresses to listen on are distinct, they are exactly those requested by some server,
and there is an error exactly when one address is requested both with and without proxy-v1; without errors every address has the requested
setting. -/
theorem C56_listen (hs : List (List ListenDir)) (cq : List LAddr) (e : Nat) (h : listenAll [] hs = .ok (cq, e)) :
    (cq.map (·.ai)).Nodup ∧ (∀ a, a ∈ cq.map (·.ai) ↔ ∃ d ∈ hs.flatten, a ∈ d.ais) ∧
    (e = 0 ↔ ∀ d ∈ hs.flatten, ∀ d' ∈ hs.flatten, ∀ a, a ∈ d.ais → a ∈ d'.ais → d.proxy = d'.proxy) ∧
    (e = 0 → ∀ d ∈ hs.flatten, ∀ a ∈ d.ais, ⟨a, d.proxy⟩ ∈ cq) := by
  obtain ⟨eh, ec, h1, h2, h3⟩ := listenAll_split hs [] cq e h
  obtain ⟨a1, a2, a3, a4, a5, a6⟩ := addAll_spec _ [] cq ec (by unfold DistinctAddrs; simp) h1
  have mem : ∀ x : AddrInfo × Bool, x ∈ hs.flatMap requested ↔ ∃ d ∈ hs.flatten, x.1 ∈ d.ais ∧ x.2 = d.proxy := by
    intro x
    simp only [requested, List.mem_flatMap, List.mem_map, List.mem_flatten]
    constructor
    · rintro ⟨l, hl, d, hd, a, ha, rfl⟩; exact ⟨d, ⟨l, hl, hd⟩, ha, rfl⟩
    · rintro ⟨d, ⟨l, hl, hd⟩, ha, hp⟩; exact ⟨l, hl, d, hd, x.1, ha, by rw [← hp]⟩
  have cons : Consistent (hs.flatMap requested) ↔ ∀ d ∈ hs.flatten, ∀ d' ∈ hs.flatten, ∀ a, a ∈ d.ais → a ∈ d'.ais → d.proxy = d'.proxy := by
    constructor
    · intro hc d hd d' hd' a ha ha'
      exact hc (a, d.proxy) ((mem _).mpr ⟨d, hd, ha, rfl⟩) (a, d'.proxy) ((mem _).mpr ⟨d', hd', ha', rfl⟩) rfl
    · intro hc x hx y hy he
      obtain ⟨d, hd, hxa, hxp⟩ := (mem x).mp hx
      obtain ⟨d', hd', hya, hyp⟩ := (mem y).mp hy
      rw [hxp, hyp]
      exact hc d hd d' hd' x.1 hxa (he ▸ hya)
  have placed : e = 0 → ∀ d ∈ hs.flatten, ∀ a ∈ d.ais, ⟨a, d.proxy⟩ ∈ cq := by
    intro he d hd a ha
    exact a4 (by omega) (a, d.proxy) ((mem _).mpr ⟨d, hd, ha, rfl⟩)
  refine ⟨a1, ?_, ?_, placed⟩
  · intro a
    rw [a2 a]
    simp only [List.map_nil, List.not_mem_nil, false_or, List.mem_map]
    constructor
    · rintro ⟨x, hx, rfl⟩
      obtain ⟨d, hd, hxa, _⟩ := (mem x).mp hx
      exact ⟨d, hd, hxa⟩
    · rintro ⟨d, hd, ha⟩
      exact ⟨(a, d.proxy), (mem _).mpr ⟨d, hd, ha, rfl⟩, rfl⟩
  · rw [← cons]
    constructor
    · intro he x hx y hy hxy
      obtain ⟨d, hd, hxa, hxp⟩ := (mem x).mp hx
      obtain ⟨d', hd', hya, hyp⟩ := (mem y).mp hy
      have p1 := placed he d hd x.1 hxa
      have p2 := placed he d' hd' x.1 (hxy ▸ hya)
      obtain ⟨i, hi, ei⟩ := List.mem_iff_getElem.mp p1
      obtain ⟨j, hj, ej⟩ := List.mem_iff_getElem.mp p2
      have : i = j := (List.getElem?_inj (by simpa using hi) a1).mp (by
        rw [List.getElem?_map, List.getElem?_map, List.getElem?_eq_getElem hi, List.getElem?_eq_getElem hj, ei, ej]; rfl)
      subst this
      rw [ei] at ej
      simp only [LAddr.mk.injEq, true_and] at ej
      rw [hxp, hyp, ej]
    · intro hc
      have z1 := h3 hc
      have z2 := a6 (by simpa using hc)
      omega

/-- the address 127.0.0.1, port 1965, and ::1 -/
def exAi : AddrInfo := { flags := 1, family := 2, socktype := 1, protocol := 6, addr := [2, 0, 7, 173, 127, 0, 0, 1, 0, 0, 0, 0, 0, 0, 0, 0] }
def exAi6 : AddrInfo := { flags := 1, family := 10, socktype := 1, protocol := 6, addr := [10, 0, 7, 173] }

example : listenAll [] [[⟨[exAi, exAi6], false⟩], [⟨[exAi], false⟩, ⟨[exAi], false⟩]] = .ok ([⟨exAi6, false⟩, ⟨exAi, false⟩], 0) := by decide
example : listenAll [] [[⟨[exAi, exAi6], false⟩], [⟨[exAi], true⟩]] = .ok ([⟨exAi6, false⟩, ⟨exAi, false⟩], 1) := by decide

end Gmid.Props
