import Verif.Spec.ProtectFile
import Verif.Props.Deploy
import Verif.Props.Protect

/-!
# C131: a directory that is protected in the configuration file
-/

set_option autoImplicit false

namespace Gmid.Props
open Gmid.Spec

section
variable {penv : PEnv} {files : Bytes → Option Bytes} {loadCa : Bytes → Option Nat} {openDir : Bytes → Option Int}
  {txt : Bytes} {ds : List Directive} {c : CConf} {env : Env}

theorem lastOf_none {α β : Type} {f : α → Option β} {l : List α} (h : ∀ a ∈ l, f a = none) : lastOf f l = none := by
  unfold lastOf
  rw [show l.filterMap f = [] by rw [List.filterMap_eq_nil_iff]; exact h]
  rfl

/-- the locations of the server -/
theorem hostIn_locs (x : Bytes × List SrvOpt) : (hostIn penv files loadCa openDir c x).locs =
    (x.2.filterMap locationOf).map fun y => (locValue c.fcgi (noSlash y.1) y.2).toLocation (caIn files loadCa) (dirIn openDir) := by
  simp [hostIn, CHost.toVhost, hostValue, serverLocs, Function.comp_def]

theorem hostIn_dflt (x : Bytes × List SrvOpt) : (hostIn penv files loadCa openDir c x).dflt =
    (locValue c.fcgi b%"*" (x.2.filterMap optOf)).toLocation (caIn files loadCa) (dirIn openDir) := rfl

/-- the options of an accepted file are valid -/
theorem serving_opts (h : Serving penv files loadCa openDir txt ds c env) (name : Bytes) (x : Bytes × List SrvOpt)
    (hx : LastServer env.fnm ds name x) : (∀ o ∈ x.2.filterMap optOf, LocOptOk o) ∧ ∀ y ∈ x.2.filterMap locationOf, ∀ o ∈ y.2, LocOptOk o := by
  obtain ⟨c0, c1, hf, hp, _⟩ := runs_parsed h.runs
  have hok := ((C69_accepted_partial penv h.resolves c0 hf ds c1 true hp).1 rfl).1
  obtain ⟨bf, af, e, _⟩ := hx
  obtain ⟨d, hd, hdx⟩ := List.mem_filterMap.mp (show x ∈ ds.filterMap serverOf by rw [e]; simp)
  have hd' : d = .server x.1 x.2 := by
    cases d <;> simp [serverOf] at hdx
    subst hdx; rfl
  have hbody : ∀ o ∈ x.2, SrvOptOk penv o := by
    have := hok d hd
    rw [hd'] at this
    exact this.2.1
  refine ⟨fun o ho => ?_, fun y hy => ?_⟩
  · obtain ⟨s, h1, h2⟩ := List.mem_filterMap.mp ho
    have := hbody s h1
    cases s <;> simp [optOf] at h2
    subst h2; exact this
  · obtain ⟨s, h1, h2⟩ := List.mem_filterMap.mp hy
    have := hbody s h1
    cases s <;> simp [locationOf] at h2
    subst h2; exact this.2

/-- the formats of an accepted file are fine -/
theorem serving_fmts (h : Serving penv files loadCa openDir txt ds c env) (name : Bytes) (x : Bytes × List SrvOpt)
    (hx : LastServer env.fnm ds name x) : FmtsOk (hostIn penv files loadCa openDir c x) := by
  have key : ∀ (pat : Bytes) (os : List LocOpt), (∀ o ∈ os, LocOptOk o) → checkBlockFmt (locValue c.fcgi pat os).blockFmt = .ok true := by
    intro pat os hos
    simp only [locValue]
    cases hq : lastOf blockOf os with
    | none => rfl
    | some s =>
      obtain ⟨o, h1, h2⟩ := lastOf_mem hq
      have := hos o h1
      have ht : checkBlockFmt b%"temporary failure" = .ok true := by decide +kernel
      cases o <;> simp [blockOf] at h2
      · rename_i n t
        subst h2
        cases t with
        | none => exact ht
        | some f => exact (C43_format_partial f).1.2 this.2.1
      · subst h2; exact ht
  obtain ⟨k1, k2⟩ := serving_opts h name x hx
  intro l hl
  rcases hl with rfl | hl
  · exact key b%"*" (x.2.filterMap optOf) k1
  · rw [hostIn_locs] at hl
    obtain ⟨y, hy, rfl⟩ := List.mem_map.1 hl
    exact key (noSlash y.1) y.2 (k2 y hy)

/-- names are left as they are -/
theorem plain_file (x : Bytes × List SrvOpt) (hp : PlainNamesFile x.2) : PlainNames (hostIn penv files loadCa openDir c x) := by
  have key : ∀ (pat : Bytes) (os : List LocOpt), (∀ o ∈ os, LeavesNames o) → (locValue c.fcgi pat os).strip = 0 ∧ c%'/' ∉ (locValue c.fcgi pat os).index := by
    intro pat os hos
    simp only [locValue]
    constructor
    · rw [lastOf_none]
      · rfl
      · intro o ho
        have := hos o ho
        cases o <;> first | rfl | exact absurd this (by simp [LeavesNames])
    · cases hq : lastOf indexOf os with
      | none => simp
      | some s =>
        obtain ⟨o, h1, h2⟩ := lastOf_mem hq
        have := hos o h1
        cases o <;> simp [indexOf] at h2
        subst h2; exact this
  have hd := key b%"*" _ hp.1
  refine ⟨hd.1, hd.2, ?_⟩
  intro l hl
  rw [hostIn_locs] at hl
  obtain ⟨y, hy, rfl⟩ := List.mem_map.1 hl
  exact key (noSlash y.1) y.2 (hp.2 y hy)

/-- the block is there -/
theorem dirBlock_file {β : Type} (f : LocOpt → Option β) (set : Location → Prop) (x : Bytes × List SrvOpt) (d : Bytes) (os : List LocOpt)
    (hl : DirBlockFile f x.2 d os)
    (hset : ∀ y ∈ x.2.filterMap locationOf, ∀ pat : Bytes, set ((locValue c.fcgi pat y.2).toLocation (caIn files loadCa) (dirIn openDir)) ↔ lastOf f y.2 ≠ none)
    (hos : lastOf f os ≠ none) :
    DirBlock set (hostIn penv files loadCa openDir c x) d ((locValue c.fcgi (d ++ b%"/*") os).toLocation (caIn files loadCa) (dirIn openDir)) := by
  obtain ⟨h1, bf, af, h2, h3⟩ := hl
  refine ⟨h1, rfl, (hset (b%"/" ++ d ++ b%"/*", os) (by rw [h2]; simp) _).2 hos, ?_⟩
  rw [hostIn_locs, h2]
  refine ⟨bf.map fun y => (locValue c.fcgi (noSlash y.1) y.2).toLocation (caIn files loadCa) (dirIn openDir),
    af.map fun y => (locValue c.fcgi (noSlash y.1) y.2).toLocation (caIn files loadCa) (dirIn openDir), by simp [noSlash], ?_⟩
  intro z hz
  obtain ⟨y, hy, rfl⟩ := List.mem_map.1 hz
  rw [hset y (by rw [h2]; simp [hy])]
  exact fun k => k (lastOf_none (h3 y hy))

/-- **C131.** From the configuration file: gmid runs with a file in which the server of that name has a block `location "/d/*" { require client ca "file" }`; no
location before it requires a certificate, and names are not changed. On a connection for that name, whatever is sent on it, no file of the directory is opened, and the
directory is not listed, unless the client has a certificate that passes the verification against the certificates of that file. -/
theorem C131_certificate_file (h : Serving penv files loadCa openDir txt ds c env) (sni : Option Bytes) (name : Bytes) (hneg : Negotiated env sni name)
    (x : Bytes × List SrvOpt) (hx : LastServer env.fnm ds name x) (ho : OptsFirst x.2) (hp : PlainNamesFile x.2)
    (d : Bytes) (os : List LocOpt) (hl : DirBlockFile requireCaOf x.2 d os) (file : Bytes) (hf : lastOf requireCaOf os = some file)
    (bufsiz : Nat) (evs : List (Env × Ev)) (c' : Client) (hg : ∀ p ∈ evs, GlobLaw p.1.fnm)
    (hr : runEvents bufsiz evs (handshakeDone env sni {}) = .ok c')
    (fd : Int) (nm : Bytes) (hop : Eff.openat fd nm ∈ c'.effs) (hd : InDir d nm) :
    ∃ p ∈ evs, p.1.certProvided = true ∧ p.1.verify (caIn files loadCa file) ≠ 0 := by
  rw [handshake_name env sni name _ hneg, serving_bound h name x hx ho] at hr
  refine C131_certificate _ (serving_fmts h name x hx) (plain_file x hp) d _ (caIn files loadCa file)
    (dirBlock_file requireCaOf (·.reqca ≠ none) x d os hl ?_ (by rw [hf]; simp)) ?_ name bufsiz evs c' hg hr fd nm hop hd
  · intro y _ pat
    simp [CLoc.toLocation, locValue]
  · simp [CLoc.toLocation, locValue, hf]

/-- **C131.** The same for `block return`: no file of the directory is opened, and the directory is not listed, for anyone. -/
theorem C131_blocked_file (h : Serving penv files loadCa openDir txt ds c env) (sni : Option Bytes) (name : Bytes) (hneg : Negotiated env sni name)
    (x : Bytes × List SrvOpt) (hx : LastServer env.fnm ds name x) (ho : OptsFirst x.2) (hp : PlainNamesFile x.2)
    (d : Bytes) (os : List LocOpt) (hl : DirBlockFile blockOf x.2 d os) (hb : lastOf blockOf os ≠ none)
    (bufsiz : Nat) (evs : List (Env × Ev)) (c' : Client) (hg : ∀ p ∈ evs, GlobLaw p.1.fnm)
    (hr : runEvents bufsiz evs (handshakeDone env sni {}) = .ok c') (fd : Int) (nm : Bytes) (hd : InDir d nm) : Eff.openat fd nm ∉ c'.effs := by
  rw [handshake_name env sni name _ hneg, serving_bound h name x hx ho] at hr
  refine C131_blocked _ (serving_fmts h name x hx) (plain_file x hp) d _ (dirBlock_file blockOf (·.blockCode ≠ 0) x d os hl ?_ hb) name bufsiz evs c' hg hr fd nm hd
  intro y hy pat
  simp only [CLoc.toLocation, locValue]
  cases hq : lastOf blockOf y.2 with
  | none => simp
  | some s =>
    simp only [Option.map_some, Option.getD_some, ne_eq, reduceCtorEq, not_false_eq_true, iff_true]
    obtain ⟨o, h1, h2⟩ := lastOf_mem hq
    have := (serving_opts h name x hx).2 y hy o h1
    cases o <;> simp [blockOf] at h2
    · rename_i n t
      subst h2
      cases t with
      | none => have := this.1; simp only; omega
      | some f => have := this.1; simp only; omega
    · subst h2; simp

end

/-! ## An example -/

def exPvTxt : Bytes := b%"types {\n text/x-a a\n}\nserver \"h\" {\n cert \"/c\"\n key \"/k\"\n root \"/d\"\n location \"*\" {\n lang \"it\"\n }\n location \"/priv/*\" {\n require client ca \"/ca\"\n }\n location \"/gone/*\" {\n block return 52\n }\n}\n"

def exPvSrv : Bytes × List SrvOpt :=
  (b%"h", [.cert b%"/c", .key b%"/k", .opt (.root b%"/d"), .location b%"*" [.lang b%"it"], .location b%"/priv/*" [.requireCa b%"/ca"],
    .location b%"/gone/*" [.blockReturn 52 none]])

def exPvDs : List Directive := [.types [(b%"text/x-a", [b%"a"])], .server exPvSrv.1 exPvSrv.2]
def exPvC : CConf := (mainStart cfEnv (fun _ => none) exPvDs).getD confNew
def exPvEnv : Env := { exDepEnv with fnm := exGlob, hosts := exPvC.hosts.map (CHost.toVhost (caIn exDepFiles exDepCa) (dirIn exDepDir)) }
def exPvMs : List (Proc × CMsg CLoc (Bytes × Bytes) CProxy LAddr FcgiEp) := (mainConfigure exDepFiles (fun _ => true) (exPvC.toP false)).getD []
def exPvSt : Worker := ((recvAll exDepFiles exDepCa (fun _ => none) (fun _ => none) .server {} (forProc .server exPvMs) : Res Worker).val?).getD {}

theorem exPv_serving : Serving cfEnv exDepFiles exDepCa exDepDir exPvTxt exPvDs exPvC exPvEnv where
  resolves := cfEnv_ok.1
  says := ⟨80, (lexAll 80 (lexStart exPvTxt [])).dropLast, [.types [.names b%"text/x-a" [b%"a"]], .vhost (.server exPvSrv.1 exPvSrv.2)],
    by decide +kernel, pGrammar_iff.1 (by decide +kernel), rfl⟩
  runs := .inl ⟨fun _ => none, by decide +kernel⟩
  sent := ⟨false, fun _ => true, exPvMs, fun _ => none, fun _ => none, {}, exPvSt, by decide +kernel, by decide +kernel,
    ⟨⟨[⟨b%"text/x-a", b%"a"⟩], by decide +kernel, List.Perm.refl _, by simp [exPvEnv, exDepEnv]⟩, by decide +kernel, by decide +kernel⟩⟩

example : Negotiated exPvEnv (some b%"h") b%"h" ∧ LastServer exPvEnv.fnm exPvDs b%"h" exPvSrv ∧ OptsFirst exPvSrv.2 ∧ PlainNamesFile exPvSrv.2 ∧
    DirBlockFile requireCaOf exPvSrv.2 b%"priv" [.requireCa b%"/ca"] ∧ DirBlockFile blockOf exPvSrv.2 b%"gone" [.blockReturn 52 none] ∧ GlobLaw exPvEnv.fnm := by
  refine ⟨.inl ⟨b%"h", b%"h", rfl, rfl, by decide, rfl⟩, ⟨[], [], rfl, ⟨b%"h", .inl rfl, by decide +kernel⟩, by simp⟩,
    ⟨exPvSrv.2.take 3, exPvSrv.2.drop 3, by decide, by decide, by decide⟩, ⟨?_, ?_⟩, ⟨?_, [(b%"*", [.lang b%"it"])], [(b%"/gone/*", [.blockReturn 52 none])], rfl, ?_⟩,
    ⟨?_, [(b%"*", [.lang b%"it"]), (b%"/priv/*", [.requireCa b%"/ca"])], [], rfl, ?_⟩, exGlob_law⟩
  · simp [exPvSrv, optOf, LeavesNames]
  · intro y hy o ho
    simp [exPvSrv, locationOf] at hy
    rcases hy with rfl | rfl | rfl <;> simp at ho <;> subst ho <;> trivial
  · unfold GlobPlain; decide +kernel
  · simp [requireCaOf]
  · unfold GlobPlain; decide +kernel
  · simp [blockOf]

example : ((step exPvEnv 4096 (.read b%"gemini://h/priv/x\r\n") (handshakeDone exPvEnv (some b%"h") {})).val?).map (·.out) = some b%"60 client certificate required\r\n" ∧
    ((step { exPvEnv with certProvided := true, verify := fun s => if s = 7 then 1 else 0 } 4096 (.read b%"gemini://h/priv/x\r\n") (handshakeDone exPvEnv (some b%"h") {})).val?).map
      (·.effs.head?) = some (some (.openat 5 b%"priv/x")) ∧
    ((step exPvEnv 4096 (.read b%"gemini://h/gone/x\r\n") (handshakeDone exPvEnv (some b%"h") {})).val?).map (·.out) = some b%"52 temporary failure\r\n" := by decide +kernel

end Gmid.Props
