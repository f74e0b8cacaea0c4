import Verif.Spec.Deploy
import Verif.Props.Config
import Verif.Props.Actions
import Verif.Props.Mime

/-! # From the file to the hosts and the types a server process works with -/

set_option autoImplicit false

namespace Gmid.Props
open Gmid.Spec

section
variable {L E P AD F C K : Type}

/-- a process that took all the messages took each of them -/
theorem recvAll_each (files : Bytes → Option Bytes) (loadCa : Bytes → Option C) (hash : Bytes → Option Bytes) (loadKey : Bytes → Option K)
    (me : Proc) (ms : List (CMsg L E P AD F)) : ∀ (s s' : WState L E P AD F C K), recvAll files loadCa hash loadKey me s ms = .ok s' →
      ∀ m ∈ ms, ∃ a b, configRecv files loadCa hash loadKey me a m = .ok b := by
  induction ms with
  | nil => intro s s' _ m hm; simp at hm
  | cons x r ih =>
    intro s s' h m hm
    rw [recvAll] at h
    cases hx : configRecv files loadCa hash loadKey me s x with
    | err => rw [hx] at h; cases h
    | ub => rw [hx] at h; cases h
    | ok s1 =>
      rw [hx] at h
      rcases List.mem_cons.mp hm with e | e
      · exact ⟨s, s1, e ▸ hx⟩
      · exact ih s1 s' h m e

/-- what was received was good -/
theorem recv_checks (files : Bytes → Option Bytes) (loadCa : Bytes → Option C) (hash : Bytes → Option Bytes) (loadKey : Bytes → Option K)
    (sup : AD → Bool) (c : PConf L E P AD F) (ms : List (Proc × CMsg L E P AD F)) (hsent : mainConfigure files sup c = some ms)
    (s s' : WState L E P AD F C K) (h : recvAll files loadCa hash loadKey .server s (forProc .server ms) = .ok s') :
    MimesFit c ∧ CasLoad files loadCa c := by
  have hE := recvAll_each _ _ _ _ _ _ _ _ h
  rw [(mainConfigure_some hsent).1] at hE
  constructor
  · intro m hm
    obtain ⟨a, b, hr⟩ := hE (.mime m.1 m.2) (by
      simp only [List.mem_append, List.mem_flatMap, List.mem_singleton]
      exact .inr (.inr (.inl ⟨m, hm, rfl⟩)))
    simp only [configRecv] at hr
    rw [if_neg (by decide)] at hr
    by_cases hc : m.1.length ≥ 128 ∨ m.2.length ≥ 128
    · rw [if_pos hc] at hr; cases hr
    · omega
  · intro x hx path hp
    have hin : ∀ m, m ∈ hostMsgs (F := F) c.privsep x → ∃ a b, configRecv files loadCa hash loadKey .server a m = .ok b := by
      intro m hm
      refine hE m ?_
      simp only [List.mem_append, List.mem_flatMap, List.mem_singleton]
      exact .inr (.inr (.inr (.inr (.inr (.inr (.inl ⟨x, hx, hm⟩))))))
    rcases hp with hp | hp
    · obtain ⟨l, hl, hl2⟩ := List.mem_filterMap.mp hp
      obtain ⟨a, b, hr⟩ := hin (.loc l.loc l.reqca) (by
        simp only [hostMsgs, List.mem_append, List.mem_flatMap]
        exact .inl (.inl (.inr ⟨l, hl, by simp [locMsgs]⟩)))
      rw [hl2] at hr
      simp only [configRecv] at hr
      rw [if_neg (by decide)] at hr
      cases hf : (files path).bind loadCa with
      | none => rw [hf] at hr; simp at hr
      | some v => rfl
    · obtain ⟨l, hl, hl2⟩ := List.mem_filterMap.mp hp
      obtain ⟨a, b, hr⟩ := hin (.proxy l.proxy l.reqca) (by
        simp only [hostMsgs, List.mem_append, List.mem_flatMap]
        exact .inr ⟨l, hl, by simp [proxyMsgs]⟩)
      rw [hl2] at hr
      simp only [configRecv] at hr
      rw [if_neg (by decide)] at hr
      cases hf : (files path).bind loadCa with
      | none => rw [hf] at hr; simp at hr
      | some v => rfl

end

theorem loadAll_map {α β γ : Type} (f : α → Option β) (g : γ → β) (k : γ → α) (l : List γ) : (∀ a ∈ l, ∀ b, f (k a) = some b → b = g a) →
    ∀ r, loadAll f (l.map k) = some r → r = l.map g := by
  induction l with
  | nil => intro _ r h; simp [loadAll] at h; exact h
  | cons a l ih =>
    intro hf r h
    rw [List.map_cons, loadAll] at h
    cases ha : f (k a) with
    | none => rw [ha] at h; cases h
    | some b =>
      rw [ha] at h
      cases hl : loadAll f (l.map k) with
      | none => rw [hl] at h; cases h
      | some r' =>
        rw [hl] at h
        simp only [Option.map_some, Option.some.injEq] at h
        rw [← h, hf a (by simp) b ha, ih (fun x hx => hf x (by simp [hx])) r' hl]
        rfl

theorem loadLoc_eq (files : Bytes → Option Bytes) (loadCa : Bytes → Option Nat) (openDir : Bytes → Option Int) (l : CLoc)
    (hca : ∀ p, l.reqcaPath = some p → ((files p).bind loadCa).isSome) (r : Location)
    (h : loadLoc openDir (expLoc files loadCa { loc := l.wire, reqca := l.reqcaPath, params := l.params }) = some r) :
    r = l.toLocation (caIn files loadCa) (dirIn openDir) := by
  have hr : expCa files loadCa l.reqcaPath = l.reqcaPath.map (caIn files loadCa) := by
    cases hq : l.reqcaPath with
    | none => rfl
    | some p =>
      obtain ⟨v, hv⟩ := Option.isSome_iff_exists.mp (hca p hq)
      simp [expCa, caIn, hv]
  unfold loadLoc expLoc at h
  simp only [hr, CLoc.wire] at h
  by_cases hd : l.dir = []
  · rw [locFd, if_pos hd] at h
    simp only [Option.map_some, Option.some.injEq] at h
    rw [← h]
    simp [CLoc.toLocation, hd]
  · rw [locFd, if_neg hd] at h
    cases ho : openDir l.dir with
    | none => rw [ho] at h; cases h
    | some fd =>
      rw [ho] at h
      simp only [Option.map_some, Option.some.injEq] at h
      rw [← h]
      simp [CLoc.toLocation, hd, dirIn, ho]

theorem loadHost_eq (files : Bytes → Option Bytes) (loadCa : Bytes → Option Nat) (openDir : Bytes → Option Int) (privsep : Bool) (x : CHost)
    (hca : ∀ path, (path ∈ x.toP.locs.filterMap (·.reqca) ∨ path ∈ x.toP.proxies.filterMap (·.reqca)) → ((files path).bind loadCa).isSome)
    (r : Vhost) (h : loadHost openDir (expHost files loadCa privsep x.toP) = some r) :
    r = x.toVhost (caIn files loadCa) (dirIn openDir) := by
  unfold loadHost at h
  cases hl : loadAll (loadLoc openDir) (expHost files loadCa privsep x.toP).locs with
  | none => rw [hl] at h; cases h
  | some ls =>
    rw [hl] at h
    simp only [Option.map_some, Option.some.injEq] at h
    have hls : ls = x.locs.map (CLoc.toLocation (caIn files loadCa) (dirIn openDir)) := by
      refine loadAll_map (loadLoc openDir) _ (fun l : CLoc => expLoc files loadCa { loc := l.wire, reqca := l.reqcaPath, params := l.params }) x.locs ?_ ls ?_
      · intro l hlx b hb
        refine loadLoc_eq files loadCa openDir l (fun p hp => hca p (.inl ?_)) b hb
        refine List.mem_filterMap.mpr ⟨_, List.mem_map.mpr ⟨l, hlx, rfl⟩, hp⟩
      · rw [← hl]
        simp [expHost, CHost.toP, Function.comp_def]
    rw [← h, hls]
    unfold CHost.toVhost expHost CHost.toP
    simp only [Vhost.mk.injEq, true_and]
    refine ⟨?_, ?_, ?_⟩
    · cases x.locs with
      | nil => simp [CLoc.toLocation]
      | cons l _ => simp
    · simp [List.map_tail]
    · rw [List.map_map, List.map_map]
      refine List.map_congr_left fun p hp => ?_
      have hr : expCa files loadCa p.reqcaPath = p.reqcaPath.map (caIn files loadCa) := by
        cases hq : p.reqcaPath with
        | none => rfl
        | some path =>
          obtain ⟨v, hv⟩ := Option.isSome_iff_exists.mp (hca path (.inr
            (List.mem_filterMap.mpr ⟨_, List.mem_map.mpr ⟨p, hp, rfl⟩, hq⟩)))
          simp [expCa, caIn, hv]
      simp [expProxy, CProxy.toProxy, CProxy.wire, hr]

/-- the directives were parsed from a fresh start -/
theorem runs_parsed {penv : PEnv} {ds : List Directive} {c : CConf} (h : RunsWith penv ds c) :
    ∃ c0 c1, Fresh c0 ∧ parseConf penv c0 ds = .ok (c1, true) ∧ c.hosts = c1.hosts ∧ c.fcgi = c1.fcgi ∧ c.mime = c1.mime := by
  rcases h with ⟨home, h⟩ | ⟨old, h⟩
  · refine ⟨confNew, ?_⟩
    unfold mainStart at h
    split at h
    · rename_i c1 hp
      refine ⟨c1, ⟨rfl, rfl, rfl, rfl⟩, hp, ?_⟩
      split at h
      · cases h
      · split at h
        · simp only [Option.some.injEq] at h; subst h; exact ⟨rfl, rfl, rfl⟩
        · split at h
          · cases h
          · simp only [Option.some.injEq] at h
            subst h
            split <;> exact ⟨rfl, rfl, rfl⟩
    · cases h
  · refine ⟨confPurge old, ?_⟩
    unfold mainReload at h
    split at h
    · rename_i c1 hp
      simp only [Option.some.injEq] at h
      subst h
      exact ⟨c1, ⟨rfl, rfl, rfl, rfl⟩, hp, rfl, rfl, rfl⟩
    · cases h

theorem loadLoop_entries (l : List Etm) : ∀ (m0 : MimeTab), MimeWf m0 → (∀ e ∈ l, e.mime.length < 128 ∧ e.ext.length < 128) →
    ∃ m', loadLoop true l m0 = .ok (m', true) ∧ MimeWf m' ∧ m'.entries = m0.entries ++ l := by
  induction l with
  | nil => intro m0 h _; exact ⟨m0, rfl, h, by simp⟩
  | cons e r ih =>
    intro m0 h hl
    obtain ⟨m1, b, h1, h2, h3, h4⟩ := C27_add true m0 e h
    have hb : b = true := h3.2 ⟨(hl e (by simp)).1, (hl e (by simp)).2, .inr rfl⟩
    subst hb
    obtain ⟨m2, k1, k2, k3⟩ := ih m1 h2 (fun x hx => hl x (by simp [hx]))
    exact ⟨m2, by simp [loadLoop, h1, k1], k2, by rw [k3, h4]; simp⟩

section
variable {penv : PEnv} {files : Bytes → Option Bytes} {loadCa : Bytes → Option Nat} {openDir : Bytes → Option Int}
  {txt : Bytes} {ds : List Directive} {c : CConf} {env : Env}

/-- the hosts a server process has are those that were parsed -/
theorem serving_hosts (h : Serving penv files loadCa openDir txt ds c env) :
    env.hosts = c.hosts.map (CHost.toVhost (caIn files loadCa) (dirIn openDir)) := by
  obtain ⟨privsep, sup, ms, hash, loadKey, st0, st, h1, h2, h3⟩ := h.sent
  obtain ⟨hm, hca⟩ := recv_checks files loadCa hash loadKey sup _ ms h1 st0 st h2
  obtain ⟨st', k1, k2, _⟩ := C38_server files loadCa hash loadKey sup _ ms h1 hm hca st0
  rw [h2] at k1
  cases k1
  have hh : st.hosts = c.hosts.map (fun x => expHost files loadCa privsep x.toP) := by
    rw [k2.2.2.2.2.2]; simp [CConf.toP, Function.comp_def]
  have hv := h3.hosts
  rw [hh] at hv
  refine loadAll_map (loadHost openDir) _ _ c.hosts ?_ _ hv
  intro x hx b hb
  refine loadHost_eq files loadCa openDir privsep x (fun path hp => hca x.toP ?_ path hp) b hb
  exact List.mem_map.mpr ⟨x, hx, rfl⟩

/-- its types are those of the file -/
theorem serving_types (h : Serving penv files loadCa openDir txt ds c env) :
    List.Perm env.mimes (typesIn ds) ∧ SortedExt env.mimes ∧ ∀ e ∈ typesIn ds, e.mime.length < 128 ∧ e.ext.length < 128 := by
  obtain ⟨privsep, sup, ms, hash, loadKey, st0, st, h1, h2, h3⟩ := h.sent
  obtain ⟨hm, hca⟩ := recv_checks files loadCa hash loadKey sup _ ms h1 st0 st h2
  obtain ⟨st', k1, k2, _⟩ := C38_server files loadCa hash loadKey sup _ ms h1 hm hca st0
  rw [h2] at k1
  cases k1
  obtain ⟨c0, c1, hf, hp, _, _, hmm⟩ := runs_parsed h.runs
  have hent : c.mime.entries = ds.flatMap typesOf := by
    rw [hmm, (C72_global penv h.resolves c0 c1 hf ds hp).mime, hf.mime]
    simp [MimeTab.entries, initMime]
  have hst : st.mime.map (fun m => (⟨m.1, m.2⟩ : Etm)) = ds.flatMap typesOf := by
    rw [k2.2.1, ← hent]; simp [CConf.toP, Function.comp_def]
  have hfit : ∀ e ∈ ds.flatMap typesOf, e.mime.length < 128 ∧ e.ext.length < 128 := by
    intro e he
    rw [← hent] at he
    exact hm (e.mime, e.ext) (by simp only [CConf.toP]; exact List.mem_map.mpr ⟨e, he, rfl⟩)
  have hfit2 : ∀ e ∈ typesIn ds, e.mime.length < 128 ∧ e.ext.length < 128 := by
    unfold typesIn
    split
    · decide
    · exact hfit
  obtain ⟨t, t1, t2, t3⟩ := h3.types
  suffices t = typesIn ds by rw [← this]; exact ⟨t2, t3, this ▸ hfit2⟩
  unfold workerTypes at t1
  obtain ⟨m', l1, l2, l3⟩ := loadLoop_entries (ds.flatMap typesOf) initMime ⟨by simp [initMime], by simp [initMime], by simp [initMime]⟩ hfit
  rw [hst, l1] at t1
  simp only at t1
  have l4 : m'.entries = ds.flatMap typesOf := by rw [l3]; simp [MimeTab.entries, initMime]
  have hlen : m'.len = (ds.flatMap typesOf).length := by
    rw [← l4, MimeTab.entries, List.length_take, l2.1]; have := l2.2.1; omega
  obtain ⟨m2, b, d1, d2, d3⟩ := C27_defaults true m' l2
  rw [d1] at t1
  by_cases he : ds.flatMap typesOf = []
  · obtain ⟨e1, e2⟩ := d3 (by rw [hlen, he]; rfl) rfl
    subst e1
    simp only [Option.some.injEq] at t1
    rw [← t1, e2, typesIn, if_pos he]
  · obtain ⟨e1, e2⟩ := d2 (by rw [hlen]; intro e; exact he (List.length_eq_zero_iff.mp e))
    subst e2; subst e1
    simp only [Option.some.injEq] at t1
    rw [← t1, l4, typesIn, if_neg he]

/-- a name is served as the last server of the file with that name says -/
theorem serving_bound (h : Serving penv files loadCa openDir txt ds c env) (name : Bytes) (x : Bytes × List SrvOpt)
    (hx : LastServer env.fnm ds name x) (ho : OptsFirst x.2) :
    findHost env.fnm name env.hosts = some (hostIn penv files loadCa openDir c x) := by
  obtain ⟨c0, c1, hf, hp, hh, hg, _⟩ := runs_parsed h.runs
  obtain ⟨before, after, e1, e2, e3⟩ := hx
  obtain ⟨v, v1, _, _, v4⟩ := (C71_last_server penv h.resolves c0 c1 hf ds env.fnm (caIn files loadCa) (dirIn openDir) name hp).1 before x after e1 e2 e3
  rw [serving_hosts h, hh, v1, hostIn, hg, ← v4 ho]
  rfl

/-- nor is it served when there is none -/
theorem serving_unbound (h : Serving penv files loadCa openDir txt ds c env) (name : Bytes)
    (hx : ∀ x ∈ ds.filterMap serverOf, ¬ NamedBy env.fnm name x) : findHost env.fnm name env.hosts = none := by
  obtain ⟨c0, c1, hf, hp, hh, hg, _⟩ := runs_parsed h.runs
  rw [serving_hosts h, hh]
  exact (C71_last_server penv h.resolves c0 c1 hf ds env.fnm (caIn files loadCa) (dirIn openDir) name hp).2 hx

end

end Gmid.Props
