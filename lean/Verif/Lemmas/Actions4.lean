import Verif.Lemmas.Actions3

/-!
# The actions of the parser are defined
-/

set_option autoImplicit false

namespace Gmid

open Spec Props

/-- every endpoint comes from one of these directives -/
def FsFrom (all : List (Bytes × Option Bytes)) (fs : List FcgiEp) : Prop :=
  ∀ f ∈ fs, ∃ d ∈ all, f.path = d.1.take 4095 ∧ f.port = (d.2.getD []).take 31

theorem fastcgiConf_defined {all : List (Bytes × Option Bytes)} (hm : NoMix all) {fs : List FcgiEp} {p : Bytes} {q : Option Bytes} (hd : (p, q) ∈ all)
    (hf : FsFrom all fs) : ∃ fs' i e, fastcgiConf fs p q = .ok (fs', i, e) ∧ FsFrom all fs' := by
  obtain ⟨h1, h2, h3, h4⟩ := fcgiFind_spec p q fs 0
  unfold fastcgiConf
  cases hc : fcgiFind p q 0 fs with
  | err => exact absurd hc h3
  | ub =>
    obtain ⟨hn, f, hfm, hp, hpo⟩ := h4 hc
    obtain ⟨d', hd', e1, e2⟩ := hf f hfm
    have := hm (p, q) hd d' hd' hn (e1 ▸ hp)
    rw [this] at e2
    exact absurd e2 hpo
  | ok o =>
    cases o with
    | some k => exact ⟨_, _, _, rfl, hf⟩
    | none =>
      refine ⟨_, _, _, rfl, fun f hfm => ?_⟩
      simp only [List.mem_append, List.mem_singleton] at hfm
      rcases hfm with hfm | hfm
      · exact hf f hfm
      · exact ⟨(p, q), hd, by rw [hfm], by rw [hfm]⟩

theorem locAction_defined {all : List (Bytes × Option Bytes)} (hm : NoMix all) {fs : List FcgiEp} (l : CLoc) {o : LocOpt} (hp : NoTrailingPercent o)
    (hd : ∀ x, socketOf o = some x → x ∈ all) (hf : FsFrom all fs) : ∃ fs' l' e, locAction fs l o = .ok (fs', l', e) ∧ FsFrom all fs' := by
  cases o with
  | blockReturn n t =>
    cases t with
    | none => exact ⟨_, _, _, rfl, hf⟩
    | some s =>
      obtain ⟨c1, c2, c3⟩ := C43_format_partial s
      cases hc : checkBlockFmt s with
      | ub => exact absurd (c3 hc) hp
      | err => exact absurd hc c2
      | ok g => simp only [locAction, hc]; exact ⟨_, _, _, rfl, hf⟩
  | fcgiSocket p q =>
    obtain ⟨fs', i, e, h1, h2⟩ := fastcgiConf_defined hm (hd (p, q) rfl) hf
    simp only [locAction, h1]
    exact ⟨_, _, _, rfl, h2⟩
  | _ => exact ⟨_, _, _, rfl, hf⟩

theorem locActions_defined {all : List (Bytes × Option Bytes)} (hm : NoMix all) (os : List LocOpt) : ∀ {fs : List FcgiEp} (l : CLoc),
    (∀ o ∈ os, NoTrailingPercent o) → (∀ x ∈ os.filterMap socketOf, x ∈ all) → FsFrom all fs →
    ∃ fs' l' e, locActions fs l os = .ok (fs', l', e) ∧ FsFrom all fs' := by
  induction os with
  | nil => intro fs l _ _ hf; exact ⟨_, _, _, rfl, hf⟩
  | cons o r ih =>
    intro fs l hp hd hf
    obtain ⟨fs1, l1, e1, h1, h2⟩ := locAction_defined hm l (hp o (by simp)) (fun x hx => hd x (List.mem_filterMap.mpr ⟨o, by simp, hx⟩)) hf
    obtain ⟨fs2, l2, e2, h3, h4⟩ := ih l1 (fun o h => hp o (by simp [h]))
      (fun x hx => hd x (by obtain ⟨y, hy, hx⟩ := List.mem_filterMap.mp hx; exact List.mem_filterMap.mpr ⟨y, by simp [hy], hx⟩)) h2
    simp only [locActions, h1, h3]
    exact ⟨_, _, _, rfl, h4⟩

theorem addToAddrQueue_defined (q : List LAddr) {ai : AddrInfo} (p : Bool) (h : UsableAddr ai) : ∃ r, addToAddrQueue q ai p = .ok r := by
  unfold addToAddrQueue
  have hl := h.1
  rw [if_neg (by omega)]
  split
  · exact ⟨_, rfl⟩
  · rw [if_pos h.2]; exact ⟨_, rfl⟩

theorem listenOn_defined (p : Bool) (ais : List AddrInfo) : ∀ hq cq, (∀ a ∈ ais, UsableAddr a) → ∃ r, listenOn hq cq p ais = .ok r := by
  induction ais with
  | nil => intro hq cq _; exact ⟨_, rfl⟩
  | cons a r ih =>
    intro hq cq h
    obtain ⟨⟨q1, e1⟩, h1⟩ := addToAddrQueue_defined hq p (h a (by simp))
    obtain ⟨⟨q2, e2⟩, h2⟩ := addToAddrQueue_defined cq p (h a (by simp))
    obtain ⟨⟨a1, a2, a3⟩, h3⟩ := ih q1 q2 (fun a ha => h a (by simp [ha]))
    exact ⟨_, by simp only [listenOn, h1, h2, h3]; rfl⟩

theorem setLast_ne {α : Type} (a : α) {l : List α} (h : l ≠ []) : setLast a l ≠ [] := by
  match l, h with
  | [_], _ => simp [setLast]
  | _ :: _ :: _, _ => simp [setLast]

theorem srvAction_defined {env : PEnv} (hu : Usable env) {all : List (Bytes × Option Bytes)} (hm : NoMix all) {s : SrvSt} {o : SrvOpt}
    (hp : ∀ x ∈ srvLocOpts o, NoTrailingPercent x) (hd : ∀ x ∈ srvSockets o, x ∈ all) (hf : FsFrom all s.fcgi) (hl : s.host.locs ≠ []) :
    ∃ s', srvAction env s o = .ok s' ∧ FsFrom all s'.fcgi ∧ s'.host.locs ≠ [] := by
  cases o with
  | listen h p v =>
    cases hr : env.resolve h p with
    | none => simp only [srvAction, hr]; exact ⟨_, rfl, hf, hl⟩
    | some ais =>
      obtain ⟨⟨a, b, c⟩, h1⟩ := listenOn_defined v ais s.host.addrs s.confAddrs (hu h p ais hr)
      simp only [srvAction, hr, h1]
      exact ⟨_, rfl, hf, hl⟩
  | opt o =>
    cases hg : s.host.locs.getLast? with
    | none => exact absurd (List.getLast?_eq_none_iff.mp hg) hl
    | some l =>
      obtain ⟨fs', l', e, h1, h2⟩ := locAction_defined hm l (hp o (by simp [srvLocOpts])) (fun x hx => hd x (by simp [srvSockets, hx])) hf
      simp only [srvAction, hg, h1]
      exact ⟨_, rfl, h2, setLast_ne _ hl⟩
  | location p os =>
    obtain ⟨fs', l', e, h1, h2⟩ := locActions_defined hm os {} hp hd hf
    simp only [srvAction, h1]
    exact ⟨_, rfl, h2, by simp⟩
  | _ => exact ⟨_, rfl, hf, hl⟩

theorem srvActions_defined {env : PEnv} (hu : Usable env) {all : List (Bytes × Option Bytes)} (hm : NoMix all) (body : List SrvOpt) : ∀ {s : SrvSt},
    (∀ x ∈ body.flatMap srvLocOpts, NoTrailingPercent x) → (∀ x ∈ body.flatMap srvSockets, x ∈ all) → FsFrom all s.fcgi → s.host.locs ≠ [] →
    ∃ s', srvActions env s body = .ok s' ∧ FsFrom all s'.fcgi := by
  induction body with
  | nil => intro s _ _ hf _; exact ⟨_, rfl, hf⟩
  | cons o r ih =>
    intro s hp hd hf hl
    obtain ⟨s1, h1, h2, h3⟩ := srvAction_defined hu hm (fun x hx => hp x (by rw [List.flatMap_cons]; exact List.mem_append.mpr (.inl hx))) (fun x hx => hd x (by rw [List.flatMap_cons]; exact List.mem_append.mpr (.inl hx))) hf hl
    obtain ⟨s2, h4, h5⟩ := ih (fun x hx => hp x (by rw [List.flatMap_cons]; exact List.mem_append.mpr (.inr hx)))
      (fun x hx => hd x (by rw [List.flatMap_cons]; exact List.mem_append.mpr (.inr hx))) h2 h3
    exact ⟨s2, by rw [srvActions, h1]; exact h4, h5⟩

theorem closeHost_defined {env : PEnv} (hu : Usable env) (dh : Option Bytes) (dp : Int) (s : SrvSt) :
    ∃ s', closeHost env dh dp s = .ok s' ∧ s'.fcgi = s.fcgi := by
  have key : ∀ s1 : SrvSt, ∃ s', srvAction env s1 (.listen dh (intDec dp) false) = .ok s' ∧ s'.fcgi = s1.fcgi := by
    intro s1
    cases hr : env.resolve dh (intDec dp) with
    | none => simp only [srvAction, hr]; exact ⟨_, rfl, rfl⟩
    | some ais =>
      obtain ⟨⟨a, b, c⟩, h1⟩ := listenOn_defined false ais s1.host.addrs s1.confAddrs (hu _ _ ais hr)
      simp only [srvAction, hr, h1]
      exact ⟨_, rfl, rfl⟩
  unfold closeHost
  simp only
  by_cases hc : s.host.certPath = none ∨ s.host.keyPath = none
  · rw [if_pos hc]
    split
    · exact key _
    · exact ⟨_, rfl, rfl⟩
  · rw [if_neg hc]
    split
    · exact key _
    · exact ⟨_, rfl, rfl⟩

theorem addExts_defined (mt : Bytes) (hmt : mt.length < 128) (xs : List Bytes) : ∀ {m : MimeTab}, MimeWf m → (∀ x ∈ xs, x.length < 128) →
    ∃ m', addExts m mt xs = .ok m' ∧ MimeWf m' := by
  induction xs with
  | nil => intro m hw _; exact ⟨_, rfl, hw⟩
  | cons x r ih =>
    intro m hw h
    obtain ⟨m1, b, h1, h2, h3, _⟩ := C27_add true m ⟨mt, x⟩ hw
    have hb : b = true := h3.mpr ⟨hmt, h x (by simp), .inr rfl⟩
    subst hb
    obtain ⟨m2, h4, h5⟩ := ih h2 (fun x hx => h x (by simp [hx]))
    simp only at h1
    exact ⟨m2, by simp only [addExts, h1, h4], h5⟩

theorem addTypes_defined (ts : List (Bytes × List Bytes)) : ∀ {m : MimeTab}, MimeWf m → (∀ t ∈ ts, t.1.length < 128 ∧ ∀ x ∈ t.2, x.length < 128) →
    ∃ m', addTypes m ts = .ok m' ∧ MimeWf m' := by
  induction ts with
  | nil => intro m hw _; exact ⟨_, rfl, hw⟩
  | cons t r ih =>
    intro m hw h
    obtain ⟨m1, h1, h2⟩ := addExts_defined t.1 (h t (by simp)).1 t.2 hw (h t (by simp)).2
    obtain ⟨m2, h4, h5⟩ := ih h2 (fun x hx => h x (by simp [hx]))
    exact ⟨m2, by simp only [addTypes, h1, h4], h5⟩

theorem confAction_defined {env : PEnv} (hu : Usable env) {all : List (Bytes × Option Bytes)} (hm : NoMix all) {c : CConf} {d : Directive}
    (hp : ∀ x ∈ dirLocOpts d, NoTrailingPercent x) (hd : ∀ x ∈ dirSockets d, x ∈ all) (ht : TypesFit d) (hf : FsFrom all c.fcgi) (hw : MimeWf c.mime) :
    ∃ c', confAction env c d = .ok c' ∧ FsFrom all c'.fcgi ∧ MimeWf c'.mime := by
  cases d with
  | server name body =>
    obtain ⟨s1, h1, h2⟩ := srvActions_defined hu hm body (s := ⟨c.fcgi, c.addrs, newHost name, c.errors + tooLong 256 name⟩) hp hd hf (by simp [newHost])
    obtain ⟨s2, h3, h4⟩ := closeHost_defined hu c.defaultHost c.defaultPort s1
    simp only [confAction, h1, h3]
    exact ⟨_, rfl, by rw [h4]; exact h2, hw⟩
  | protocols s =>
    cases hs : env.protos s with
    | none => simp only [confAction, hs]; exact ⟨_, rfl, hf, hw⟩
    | some v => simp only [confAction, hs]; exact ⟨_, rfl, hf, hw⟩
  | logStyle s =>
    cases hs : styleOf s with
    | none => simp only [confAction, hs]; exact ⟨_, rfl, hf, hw⟩
    | some v => simp only [confAction, hs]; exact ⟨_, rfl, hf, hw⟩
  | types ts =>
    obtain ⟨m', h1, h2⟩ := addTypes_defined ts hw ht
    simp only [confAction, h1]
    exact ⟨_, rfl, hf, h2⟩
  | _ => exact ⟨_, rfl, hf, hw⟩

theorem confActions_defined {env : PEnv} (hu : Usable env) {all : List (Bytes × Option Bytes)} (hm : NoMix all) (ds : List Directive) : ∀ {c : CConf},
    (∀ x ∈ ds.flatMap dirLocOpts, NoTrailingPercent x) → (∀ x ∈ ds.flatMap dirSockets, x ∈ all) → (∀ d ∈ ds, TypesFit d) →
    FsFrom all c.fcgi → MimeWf c.mime → ∃ c', confActions env c ds = .ok c' := by
  induction ds with
  | nil => intro c _ _ _ _ _; exact ⟨_, rfl⟩
  | cons d r ih =>
    intro c hp hd ht hf hw
    obtain ⟨c1, h1, h2, h3⟩ := confAction_defined hu hm (fun x hx => hp x (by rw [List.flatMap_cons]; exact List.mem_append.mpr (.inl hx))) (fun x hx => hd x (by rw [List.flatMap_cons]; exact List.mem_append.mpr (.inl hx))) (ht d (by simp)) hf hw
    obtain ⟨c2, h4⟩ := ih (fun x hx => hp x (by rw [List.flatMap_cons]; exact List.mem_append.mpr (.inr hx)))
      (fun x hx => hd x (by rw [List.flatMap_cons]; exact List.mem_append.mpr (.inr hx))) (fun d h => ht d (by simp [h])) h2 h3
    exact ⟨c2, by rw [confActions, h1]; exact h4⟩

end Gmid
