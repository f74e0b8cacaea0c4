import Verif.Lemmas.Deploy
import Verif.Props.Body
import Verif.Props.Text
import Verif.Props.Conn

/-!
# C112: what is written in the file is what is served

From the text of the configuration file to the bytes a client gets.
-/

set_option autoImplicit false

namespace Gmid.Props
open Gmid.Spec

section
variable {penv : PEnv} {files : Bytes → Option Bytes} {loadCa : Bytes → Option Nat} {openDir : Bytes → Option Int}
  {txt : Bytes} {ds : List Directive} {c : CConf} {env : Env}

/-- all the elements were loaded -/
theorem loadAll_mem {α β : Type} (f : α → Option β) (l : List α) : ∀ r, loadAll f l = some r → ∀ b ∈ r, ∃ a ∈ l, f a = some b := by
  induction l with
  | nil => intro r h b hb; simp [loadAll] at h; subst h; simp at hb
  | cons a l ih =>
    intro r h b hb
    rw [loadAll] at h
    cases ha : f a with
    | none => rw [ha] at h; cases h
    | some x =>
      rw [ha] at h
      cases hl : loadAll f l with
      | none => rw [hl] at h; cases h
      | some r' =>
        rw [hl] at h
        simp only [Option.map_some, Option.some.injEq] at h
        subst h
        rcases List.mem_cons.mp hb with e | e
        · exact ⟨a, by simp, e ▸ ha⟩
        · obtain ⟨a', h1, h2⟩ := ih r' hl b e
          exact ⟨a', by simp [h1], h2⟩

theorem loadLoc_dir {openDir : Bytes → Option Int} {w : WLoc CLoc (Bytes × Bytes) Nat} {l : Location} (h : loadLoc openDir w = some l) :
    (l.dir = [] ∧ l.dirfd = -1) ∨ (l.dir ≠ [] ∧ openDir l.dir = some l.dirfd) := by
  unfold loadLoc at h
  obtain ⟨fd, h1, h2⟩ := Option.map_eq_some_iff.mp h
  subst h2
  unfold locFd at h1
  by_cases hd : w.loc.dir = []
  · rw [if_pos hd] at h1; cases h1; exact .inl ⟨hd, rfl⟩
  · rw [if_neg hd] at h1; exact .inr ⟨hd, h1⟩

/-- the directories of a host a server process has are open -/
theorem serving_dirs (h : Serving penv files loadCa openDir txt ds c env) (v : Vhost) (hv : v ∈ env.hosts) (l : Location)
    (hl : l = v.dflt ∨ l ∈ v.locs) : (l.dir = [] ∧ l.dirfd = -1) ∨ (l.dir ≠ [] ∧ openDir l.dir = some l.dirfd) := by
  obtain ⟨_, _, _, _, _, _, st, _, _, h3⟩ := h.sent
  obtain ⟨w, _, hw⟩ := loadAll_mem _ _ _ h3.hosts v hv
  unfold loadHost at hw
  obtain ⟨ls, h1, h2⟩ := Option.map_eq_some_iff.mp hw
  subst h2
  have hall : ∀ x ∈ ls, (x.dir = [] ∧ x.dirfd = -1) ∨ (x.dir ≠ [] ∧ openDir x.dir = some x.dirfd) := by
    intro x hx
    obtain ⟨a, _, ha⟩ := loadAll_mem _ _ _ h1 x hx
    exact loadLoc_dir ha
  rcases hl with rfl | hl
  · cases ls with
    | nil => exact .inl ⟨rfl, rfl⟩
    | cons x _ => exact hall x (by simp)
  · exact hall l (List.mem_of_mem_tail hl)

/-- the host a name is served by is one of those -/
theorem findHost_mem {fnm : Bytes → Bytes → Bool} {name : Bytes} {hs : List Vhost} {v : Vhost} (h : findHost fnm name hs = some v) : v ∈ hs := by
  obtain ⟨b, a, e, _⟩ := ((C16_first_matching_host fnm name hs).1 v).1 h
  rw [e]; simp

/-- the directory in force, open -/
theorem serving_root (h : Serving penv files loadCa openDir txt ds c env) (hfd : ∀ p fd, openDir p = some fd → fd ≠ -1)
    (v : Vhost) (hv : v ∈ env.hosts) (path dir : Bytes) (hd : dir ≠ []) (hdir : DirIs env.fnm v path dir) :
    RootIs env.fnm v path (dirIn openDir dir) := by
  have hiff : ∀ l, (l = v.dflt ∨ l ∈ v.locs) → (l.dir ≠ [] ↔ l.dirfd ≠ -1) ∧ (l.dir ≠ [] → l.dirfd = dirIn openDir l.dir) := by
    intro l hl
    rcases serving_dirs h v hv l hl with ⟨h1, h2⟩ | ⟨h1, h2⟩
    · exact ⟨by simp [h1, h2], fun h => absurd h1 h⟩
    · exact ⟨⟨fun _ => hfd _ _ h2, fun _ => h1⟩, fun _ => by simp [dirIn, h2]⟩
  rcases hdir with ⟨l, ⟨b, a, e, h1, h2, h3⟩, rfl⟩ | ⟨h1, rfl⟩
  · have hl : l ∈ v.locs := by rw [e]; simp
    refine .inl ⟨l, ⟨b, a, e, ((hiff l (.inr hl)).1).1 h1, h2, ?_⟩, (hiff l (.inr hl)).2 h1⟩
    rintro x hx ⟨k1, k2⟩
    exact h3 x hx ⟨((hiff x (.inr (by rw [e]; simp [hx]))).1).2 k1, k2⟩
  · refine .inr ⟨?_, (hiff _ (.inl rfl)).2 hd⟩
    rintro x hx ⟨k1, k2⟩
    exact h1 x hx ⟨((hiff x (.inr hx)).1).2 k1, k2⟩

/-- after the handshake, and the request -/
theorem serving_asked (h : Serving penv files loadCa openDir txt ds c env) {sni : Option Bytes} {name : Bytes} (hneg : Negotiated env sni name)
    {x : Bytes × List SrvOpt} (hx : LastServer env.fnm ds name x) (ho : OptsFirst x.2) {req rest : Bytes} {i : Iri} {decoded : Bytes}
    (ha : Asks env req rest i decoded) (bufsiz : Nat) :
    ∃ c0 : Client, c0.sent = [] ∧ WellFormed env c0 (hostIn penv files loadCa openDir c x) name req rest i decoded ∧
      step env bufsiz (.read (req ++ b%"\r\n" ++ rest)) (handshakeDone env sni {}) = clientRead env c0 := by
  have hh : handshakeDone env sni {} = { ({} : Client) with domain := name, host := some (hostIn penv files loadCa openDir c x) } := by
    rw [handshake_name env sni name _ hneg, serving_bound h name x hx ho]
  rw [hh]
  refine ⟨{ ({} : Client) with domain := name, host := some (hostIn penv files loadCa openDir c x), inp := req ++ b%"\r\n" ++ rest }, rfl, ?_, ?_⟩
  · exact ⟨⟨rfl, rfl, rfl, rfl, rfl, rfl, rfl, ha.line, ha.room⟩, ha.nonul, ha.parses, ha.decodes⟩
  · rfl

theorem lastOf_mem {α β : Type} {f : α → Option β} {l : List α} {b : β} (h : lastOf f l = some b) : ∃ a ∈ l, f a = some b := by
  have := List.mem_of_getLast? h
  exact List.mem_filterMap.mp this

/-- what the options of an accepted file hold fits -/
theorem serving_fits (h : Serving penv files loadCa openDir txt ds c env) (name : Bytes) (x : Bytes × List SrvOpt)
    (hx : LastServer env.fnm ds name x) (l : Location) (hl : l = (hostIn penv files loadCa openDir c x).dflt ∨ l ∈ (hostIn penv files loadCa openDir c x).locs) :
    l.lang.length ≤ 31 ∧ l.defaultMime.length ≤ 127 ∧ (l.blockCode = 0 ∨ (10 ≤ l.blockCode ∧ l.blockCode < 70 ∧ ¬ (20 ≤ l.blockCode ∧ l.blockCode ≤ 29))) := by
  obtain ⟨c0, c1, hf, hp, _⟩ := runs_parsed h.runs
  have hok := ((C69_accepted_partial penv h.resolves c0 hf ds c1 true hp).1 rfl).1
  obtain ⟨bf, af, e, _⟩ := hx
  obtain ⟨d, hd, hdx⟩ := List.mem_filterMap.mp (show x ∈ ds.filterMap serverOf by rw [e]; simp)
  have hd' : d = .server x.1 x.2 := by
    cases d <;> simp [serverOf] at hdx
    subst hdx; rfl
  have hbody : ∀ o ∈ x.2, SrvOptOk penv o := by
    have := hok d hd
    rw [hd'] at this
    exact this.2.1
  have key : ∀ (pat : Bytes) (os : List LocOpt), (∀ o ∈ os, LocOptOk o) →
      (locValue c.fcgi pat os).lang.length ≤ 31 ∧ (locValue c.fcgi pat os).defaultMime.length ≤ 127 ∧
      ((locValue c.fcgi pat os).blockCode = 0 ∨ (10 ≤ (locValue c.fcgi pat os).blockCode ∧ (locValue c.fcgi pat os).blockCode < 70 ∧
        ¬ (20 ≤ (locValue c.fcgi pat os).blockCode ∧ (locValue c.fcgi pat os).blockCode ≤ 29))) := by
    intro pat os hos
    simp only [locValue]
    refine ⟨?_, ?_, ?_⟩
    · cases hq : lastOf langOf os with
      | none => simp
      | some s =>
        obtain ⟨o, h1, h2⟩ := lastOf_mem hq
        have := hos o h1
        cases o <;> simp [langOf] at h2
        subst h2; exact this
    · cases hq : lastOf defaultTypeOf os with
      | none => simp
      | some s =>
        obtain ⟨o, h1, h2⟩ := lastOf_mem hq
        have := hos o h1
        cases o <;> simp [defaultTypeOf] at h2
        subst h2; exact this
    · cases hq : lastOf blockOf os with
      | none => left; simp
      | some s =>
        obtain ⟨o, h1, h2⟩ := lastOf_mem hq
        have := hos o h1
        right
        cases o <;> simp [blockOf] at h2
        · rename_i n t
          subst h2
          cases t with
          | none => exact this.1
          | some _ => exact this.1
        · subst h2; decide
  rcases hl with rfl | hl
  · refine key b%"*" (x.2.filterMap optOf) ?_
    intro o ho
    obtain ⟨s, h1, h2⟩ := List.mem_filterMap.mp ho
    have := hbody s h1
    cases s <;> simp [optOf] at h2
    subst h2; exact this
  · simp only [hostIn, CHost.toVhost, hostValue, serverLocs, List.tail_cons, List.mem_map] at hl
    obtain ⟨w, ⟨y, hy, rfl⟩, rfl⟩ := hl
    refine key (noSlash y.1) y.2 ?_
    obtain ⟨s, h1, h2⟩ := List.mem_filterMap.mp hy
    have := hbody s h1
    cases s <;> simp [locationOf] at h2
    subst h2; exact this.2

theorem stripIs_eq (fnm : Bytes → Bytes → Bool) (v : Vhost) (path : Bytes) (n : Int) (h : StripIs fnm v path n) :
    vhostStrip fnm (some v) (some path) = n := by
  rcases h with ⟨l, h1, rfl⟩ | ⟨h1, rfl⟩
  · exact (C15_strip fnm v path).1 l h1
  · exact (C15_strip fnm v path).2 h1

theorem firstSet_mem {fnm : Bytes → Bytes → Bool} {set : Location → Prop} {locs : List Location} {path : Bytes} {l : Location}
    (h : FirstSet fnm set locs path l) : l ∈ locs := by
  obtain ⟨b, a, e, _⟩ := h; rw [e]; simp

/-- the language that is added -/
theorem langSuffix_of (fnm : Bytes → Bytes → Bool) (v : Vhost) (path m : Bytes) :
    LangSuffix fnm v path m (langPart (if m = b%"text/gemini" then vhostLang fnm (some v) (some path) else none)) := by
  by_cases hm : m = b%"text/gemini"
  · rw [if_pos hm]
    rcases C15_exhaustive fnm (·.lang ≠ []) v.locs path with ⟨l, hl⟩ | hn
    · rw [(C15_lang fnm v path).1 l hl]
      exact .inl ⟨hm, l, hl, rfl⟩
    · rw [(C15_lang fnm v path).2 hn]
      by_cases hd : v.dflt.lang = []
      · rw [if_pos hd]; exact .inr (.inr ⟨.inr ⟨hn, hd⟩, rfl⟩)
      · rw [if_neg hd]; exact .inr (.inl ⟨hm, hn, hd, rfl⟩)
  · rw [if_neg hm]; exact .inr (.inr ⟨.inl hm, rfl⟩)

theorem defaultType_of (fnm : Bytes → Bytes → Bool) (v : Vhost) (path : Bytes) :
    DefaultTypeIs fnm v path (vhostDefaultMime fnm (some v) (some path)) := by
  rcases C15_exhaustive fnm (·.defaultMime ≠ []) v.locs path with ⟨l, hl⟩ | hn
  · exact .inl ⟨l, hl, (C15_default_type fnm v path).1 l hl⟩
  · exact .inr ⟨hn, (C15_default_type fnm v path).2 hn⟩

/-- the type that is sent -/
theorem type_of (h : Serving penv files loadCa openDir txt ds c env) (v : Vhost) (nm : Bytes) (hne : nm ≠ []) (m : Bytes)
    (hm : mimeType env.fnm env.mimes (some v) nm = .ok m) : TypeIs env.fnm ds v nm m := by
  obtain ⟨hp, hs, _⟩ := serving_types h
  obtain ⟨k1, k2, k3, k4⟩ := C26_mime_type env.fnm (typesIn ds) env.mimes hp hs (some v) nm hne
  have hx : ∀ ext, Extension nm ext ↔ ExtOf nm ext := by
    intro ext
    constructor
    · rintro ⟨p, h1, h2, h3, h4⟩; exact ⟨p, h2, h1, h3, h4⟩
    · rintro ⟨p, h1, h2, h3, h4⟩; exact ⟨p, h2, h1, h3, h4⟩
  by_cases he : ∃ ext, ExtOf nm ext
  · obtain ⟨ext, he⟩ := he
    by_cases ht : ∃ e ∈ typesIn ds, e.ext = ext
    · obtain ⟨e, e1, e2, e3⟩ := k1 ext he ht
      rw [hm] at e3; cases e3
      exact .inl ⟨ext, e, (hx ext).2 he, e1, e2, rfl⟩
    · have hno : ∀ e ∈ typesIn ds, e.ext ≠ ext := fun e h1 h2 => ht ⟨e, h1, h2⟩
      by_cases hg : ext = b%"gmi" ∨ ext = b%"gemini"
      · have := k2 ext he hno hg
        rw [hm] at this; cases this
        exact .inr (.inl ⟨ext, (hx ext).2 he, hno, hg, rfl⟩)
      · have hg1 : ext ≠ b%"gmi" := fun e => hg (.inl e)
        have hg2 : ext ≠ b%"gemini" := fun e => hg (.inr e)
        have := k3 ext he hno hg1 hg2
        rw [hm] at this; cases this
        refine .inr (.inr ⟨?_, defaultType_of _ _ _⟩)
        intro e' he'
        rw [ExtOf_unique nm e' ext ((hx e').1 he') he]
        exact ⟨hno, hg1, hg2⟩
  · have := k4 he
    rw [hm] at this; cases this
    exact .inr (.inr ⟨fun e' he' => absurd ⟨e', (hx e').1 he'⟩ he, defaultType_of _ _ _⟩)

/-- **C112, in part.** A server process with the configuration of a file: the client names a server of the file, the last one with that name
or alias, and asks it, with a well-formed request that no relay, certificate, block or FastCGI rule of that server applies to, for a file that
exists below the directory the server's block sets for it.  Then, whatever the pace, what is sent is the status 20, the type the file sets
for the name, the language it sets for text/gemini, and the bytes of the file, and after that the connection is closed.
(In part: the options of the server come before its locations, else C70; openat(2) and
fstat(2) say what there is below the directory.) -/
theorem C112_file_partial (h : Serving penv files loadCa openDir txt ds c env) (hfd : ∀ p fd, openDir p = some fd → fd ≠ -1)
    (sni : Option Bytes) (name : Bytes) (hneg : Negotiated env sni name)
    (x : Bytes × List SrvOpt) (hx : LastServer env.fnm ds name x) (ho : OptsFirst x.2)
    (v : Vhost) (hv : v = hostIn penv files loadCa openDir c x)
    (req rest : Bytes) (i : Iri) (decoded : Bytes) (ha : Asks env req rest i decoded) (hu : ForUs i name decoded)
    (hn : NoRelay env.fnm v i.schema name i.port) (hc : CertOk env v i.path) (hb : NoBlock env.fnm v i.path) (hf : NoFcgi env.fnm v i.path)
    (dir : Bytes) (hd : dir ≠ []) (hdir : DirIs env.fnm v i.path dir)
    (strip : Int) (hstrip : StripIs env.fnm v i.path strip) (nm : Bytes) (hnm : NameFor strip i.path nm)
    (fd : Int) (hopen : env.openat (dirIn openDir dir) nm = some fd) (k : FKind) (hk : env.fstat fd = some k) (hkd : k ≠ .dir)
    (bufsiz : Nat) (hbuf : 0 < bufsiz) :
    ∃ c1 m suffix, step env bufsiz (.read (req ++ b%"\r\n" ++ rest)) (handshakeDone env sni {}) = .ok c1 ∧ c1.pfd = fd ∧
      TypeIs env.fnm ds v nm m ∧ LangSuffix env.fnm v i.path m suffix ∧ (m ++ suffix).length ≤ 1024 ∧
      ∀ (file : Bytes) (evs : List (Env × SendEv)), ∃ c' unread, sendRun bufsiz evs (c1, file) = .ok (c', unread) ∧
        (∃ tail, c'.sent ++ tail = b%"20 " ++ m ++ suffix ++ b%"\r\n" ++ file) ∧
        (c'.closed = true → c'.sent = b%"20 " ++ m ++ suffix ++ b%"\r\n" ++ file) ∧
        (2 * (b%"20 " ++ m ++ suffix ++ b%"\r\n").length + 3 * file.length + 2 ≤ progress evs → c'.closed = true) := by
  obtain ⟨c0, h0, hw, hstep⟩ := serving_asked h hneg hx ho ha bufsiz
  rw [← hv] at hw
  have hvm : v ∈ env.hosts := by rw [hv]; exact findHost_mem (serving_bound h name x hx ho)
  have hroot := serving_root h hfd v hvm i.path dir hd hdir
  have hfit : ∀ l, (l = v.dflt ∨ l ∈ v.locs) → l.lang.length ≤ 31 ∧ l.defaultMime.length ≤ 127 := by
    intro l hl; rw [hv] at hl; have := serving_fits h name x hx l hl; exact ⟨this.1, this.2.1⟩
  rw [← stripIs_eq _ _ _ _ hstrip] at hnm
  have hne : nm ≠ [] := by
    have := (openName_spec (vhostStrip env.fnm (some v) (some i.path)) i.path
        (C01_path_confined _ _ _ ha.parses).1 (C01_path_confined _ _ _ ha.parses).2).2
    have e : openName (vhostStrip env.fnm (some v) (some i.path)) i.path = nm := by
      by_cases hp : vhostStrip env.fnm (some v) (some i.path) ≤ 0
      · rw [this.1 hp, hnm.1 hp]
      · rw [this.2 (by omega), hnm.2 (by omega)]
    rw [← e]; exact openName_ne _ _
  have hlang : ∀ l, vhostLang env.fnm (some v) (some i.path) = some l → l.length ≤ 31 := by
    intro l hl
    rcases C15_exhaustive env.fnm (·.lang ≠ []) v.locs i.path with ⟨w, hw⟩ | hno
    · rw [(C15_lang env.fnm v i.path).1 w hw] at hl
      cases hl; exact (hfit w (.inr (firstSet_mem hw))).1
    · rw [(C15_lang env.fnm v i.path).2 hno] at hl
      split at hl
      · cases hl
      · cases hl; exact (hfit _ (.inl rfl)).1
  have htype : ∀ m, mimeType env.fnm env.mimes (some v) nm = .ok m → m.length ≤ 900 := by
    intro m hm
    rcases type_of h v nm hne m hm with ⟨_, e, _, h1, _, rfl⟩ | ⟨_, _, _, _, rfl⟩ | ⟨_, h1⟩
    · have := ((serving_types h).2.2 e h1).1; omega
    · simp
    · rcases h1 with ⟨l, h2, rfl⟩ | ⟨_, rfl⟩
      · have := (hfit l (.inr (firstSet_mem h2))).2; omega
      · split
        · simp
        · have := (hfit _ (.inl rfl)).2; omega
  obtain ⟨c1, m, hdr, r1, r2, r3, r4, r5, r6, r7, r8, r9⟩ := C51_file_opened hw h0 hn hu hc hb hf (dirIn openDir dir) nm hroot hnm fd hopen k hk hkd
    (fun m l h1 h2 => ⟨htype m h1, hlang l h2⟩) htype
  refine ⟨c1, m, langPart (if m = b%"text/gemini" then vhostLang env.fnm (some v) (some i.path) else none), by rw [hstep, r1], r5,
    type_of h v nm hne m r2, langSuffix_of _ _ _ _, ?_, ?_⟩
  · have k1 := htype m r2
    rw [List.length_append]
    by_cases hm : m = b%"text/gemini"
    · rw [if_pos hm]
      cases hl : vhostLang env.fnm (some v) (some i.path) with
      | none => simp [langPart]; omega
      | some l => have := hlang l hl; simp [langPart]; omega
    · rw [if_neg hm]; simp [langPart]; omega
  intro file evs
  rw [r3] at r9
  obtain ⟨c', u, s1, s2, s3, s4⟩ := C51_file_delivered bufsiz hbuf _ file c1 r4 (by rw [r6]; decide) r7 r8 r9 evs
  exact ⟨c', u, s1, s2, s3, s4⟩

/-- **C112, in part.** A client that names a server the file does not have is told so, and nothing else, whatever it sends. -/
theorem C112_unknown (h : Serving penv files loadCa openDir txt ds c env) (sni : Option Bytes) (name : Bytes) (hneg : Negotiated env sni name)
    (hx : ∀ x ∈ ds.filterMap serverOf, ¬ NamedBy env.fnm name x) (bufsiz : Nat) (evs : List (Env × Ev)) :
    ∃ c', runEvents bufsiz evs (handshakeDone env sni {}) = .ok c' ∧ c'.sent ++ c'.out = b%"59 Wrong/malformed host\r\n" ∧
      headerCodes c'.effs = [59] := by
  have hno := serving_unbound h name hx
  obtain ⟨c', m, h1, h2, _, h4⟩ := C16_refused env sni bufsiz evs (.inl ⟨name, hneg, ((C16_first_matching_host env.fnm name env.hosts).2.1 hno)⟩)
  exact ⟨c', h1, h2, h4⟩

/-- **C112, in part.** For a resource of a server that requires a client certificate from a CA, in the block of the server or in that of the first
location matching the path that requires one, a client without a certificate is asked for one, and one with a certificate that does not verify
against that CA is refused; nothing is opened and nobody is contacted.  (In part: as C112_file_partial; C17 for a negative result of the verification.) -/
theorem C112_certificate_partial (h : Serving penv files loadCa openDir txt ds c env) (sni : Option Bytes) (name : Bytes) (hneg : Negotiated env sni name)
    (x : Bytes × List SrvOpt) (hx : LastServer env.fnm ds name x) (ho : OptsFirst x.2)
    (v : Vhost) (hv : v = hostIn penv files loadCa openDir c x)
    (req rest : Bytes) (i : Iri) (decoded : Bytes) (ha : Asks env req rest i decoded) (hu : ForUs i name decoded)
    (hn : NoRelay env.fnm v i.schema name i.port) (store : Nat) (hca : CaIs env.fnm v i.path store) (bufsiz : Nat) :
    (env.certProvided = false → ∃ c1, step env bufsiz (.read (req ++ b%"\r\n" ++ rest)) (handshakeDone env sni {}) = .ok c1 ∧
      OnlyReply 60 c1.effs ∧ ∀ evs, ∃ c', runEvents bufsiz evs c1 = .ok c' ∧ c'.sent ++ c'.out = b%"60 client certificate required\r\n") ∧
    (env.certProvided = true → env.verify store = 0 → ∃ c1, step env bufsiz (.read (req ++ b%"\r\n" ++ rest)) (handshakeDone env sni {}) = .ok c1 ∧
      OnlyReply 61 c1.effs ∧ ∀ evs, ∃ c', runEvents bufsiz evs c1 = .ok c' ∧ c'.sent ++ c'.out = b%"61 certificate not authorised\r\n") := by
  obtain ⟨c0, h0, hw, hstep⟩ := serving_asked h hneg hx ho ha bufsiz
  rw [← hv] at hw
  have hdom : eqNoCase (parsed c0 rest i).domain decoded = true := by
    rw [eqNoCase_iff]; simp only [parsed, hw.requested.domain]; exact hu.2
  have hs : vhostRequireCa env.fnm (parsed c0 rest i).host (some i.path) = some store := by
    simp only [parsed, hw.requested.host]; exact caIs_eq _ _ _ _ hca
  have key : ∀ (code : Int) (mt : Bytes), mt ≠ b%"text/gemini" → (intDec code).length + 1 + mt.length ≤ 1027 → code ≠ 20 → code ≠ 0 →
      clientRead env c0 = .ok (startReply env (parsed c0 rest i) code mt) →
      ∃ c1, step env bufsiz (.read (req ++ b%"\r\n" ++ rest)) (handshakeDone env sni {}) = .ok c1 ∧
        OnlyReply code c1.effs ∧ ∀ evs, ∃ c', runEvents bufsiz evs c1 = .ok c' ∧ c'.sent ++ c'.out = intDec code ++ b%" " ++ mt ++ b%"\r\n" := by
    intro code mt a1 a2 a3 a4 hr
    obtain ⟨b1, b2, b3⟩ := reply_fresh hw code mt a1 a2 a3
    refine ⟨_, by rw [hstep, hr], b2, fun evs => ?_⟩
    have hrep := queueHeader_replied env (parsed c0 rest i) code mt (intDec code ++ c%' ' :: mt)
    rw [← startReply_short env _ code mt a1 a2] at hrep
    obtain ⟨c', e, d1, _, _, d4, _⟩ := done_run bufsiz evs _ b3 (by rw [hrep.rcode]; exact a4)
    refine ⟨c', d1, ?_⟩
    rw [d4, b1, hrep.sent]
    simp [parsed, h0]
  constructor
  · intro hcp
    refine key 60 b%"client certificate required" (by decide) (by decide) (by decide) (by decide) ?_
    rw [clientRead_wellformed hw]
    simp only [dispatch, dispatch_noRelay hw hn, hdom, hu.1, applyRequireCa, hs, checkCert_none _ store hcp]
    rfl
  · intro hcp hvf
    refine key 61 b%"certificate not authorised" (by decide) (by decide) (by decide) (by decide) ?_
    rw [clientRead_wellformed hw]
    simp only [dispatch, dispatch_noRelay hw hn, hdom, hu.1, applyRequireCa, hs, checkCert_bad _ store hcp hvf]
    rfl

/-- **C112, in part.** A resource that the block of the server, or the first location matching the path with one, blocks with a code and a text is
answered with that code and that text, its specifiers replaced.
(In part: as C112_file_partial; without `strip`; ports above 32767: C23; a line that fits; and the text is not text/gemini, to which a language would be added.) -/
theorem C112_block_partial (h : Serving penv files loadCa openDir txt ds c env) (sni : Option Bytes) (name : Bytes) (hneg : Negotiated env sni name)
    (x : Bytes × List SrvOpt) (hx : LastServer env.fnm ds name x) (ho : OptsFirst x.2)
    (v : Vhost) (hv : v = hostIn penv files loadCa openDir c x)
    (req rest : Bytes) (i : Iri) (decoded : Bytes) (ha : Asks env req rest i decoded) (hu : ForUs i name decoded)
    (hn : NoRelay env.fnm v i.schema name i.port) (hc : CertOk env v i.path)
    (code : Int) (fmt : Bytes) (hb : BlockIs env.fnm v i.path code fmt) (hstrip : StripIs env.fnm v i.path 0)
    (port : Nat) (hp : port < 32768) (hport : env.port = port) (digits out : Bytes) (hnum : Numeral port digits)
    (hexp : Expands i.path i.query name digits fmt out) (hlen : out.length ≤ 1024) (hne : out ≠ b%"text/gemini") (bufsiz : Nat) :
    ∃ c1 cd, step env bufsiz (.read (req ++ b%"\r\n" ++ rest)) (handshakeDone env sni {}) = .ok c1 ∧ OnlyReply code c1.effs ∧ Numeral code.toNat cd ∧
      ∀ evs, ∃ c', runEvents bufsiz evs c1 = .ok c' ∧ c'.sent ++ c'.out = cd ++ b%" " ++ out ++ b%"\r\n" := by
  obtain ⟨c0, h0, hw, hstep⟩ := serving_asked h hneg hx ho ha bufsiz
  rw [← hv] at hw
  have hfit : ∀ l, (l = v.dflt ∨ l ∈ v.locs) → l.blockCode ≠ 0 → 10 ≤ l.blockCode ∧ l.blockCode < 70 ∧ ¬ (20 ≤ l.blockCode ∧ l.blockCode ≤ 29) := by
    intro l hl h0; rw [hv] at hl; have := (serving_fits h name x hx l hl).2.2; exact this.resolve_left h0
  have hcode : 10 ≤ code ∧ code < 70 ∧ code ≠ 20 := by
    rcases hb with ⟨l, h1, rfl, _⟩ | ⟨_, h1, rfl, _⟩
    · have := hfit l (.inr (firstSet_mem h1)) (by obtain ⟨_, _, _, h2, _⟩ := h1; exact h2)
      omega
    · have := hfit _ (.inl rfl) h1
      omega
  have hh : (parsed c0 rest i).host = some v := hw.requested.host
  have hbuf : fmtbuf 1027 fmt (stripPath i.path (vhostStrip env.fnm (some v) (some i.path))) i.query (parsed c0 rest i).domain env.port = .ok out := by
    rw [stripIs_eq _ _ _ _ hstrip, (C24_strip_partial i.path).1, hport]
    have := C23_expansion_partial 1027 fmt out i.path i.query name port hp ⟨digits, hnum, hexp⟩
    rw [show int16 port = (port : Int) by simp [int16, hp], List.take_of_length_le (by omega)] at this
    rw [show (parsed c0 rest i).domain = name from hw.requested.domain]
    exact this
  have hr : clientRead env c0 = .ok (startReply env (parsed c0 rest i) code out) := by
    rw [dispatch_checked hw hn hu hc]
    simp only [applyBlockReturn, hh, blockIs_eq _ _ _ _ _ hb, hbuf]
  have hdig : (intDec code).length = 2 := by
    have : ∀ n : Nat, n < 70 → 10 ≤ n → (intDec (n : Int)).length = 2 := by decide +kernel
    have e := this code.toNat (by omega) (by omega)
    rwa [show ((code.toNat : Nat) : Int) = code by omega] at e
  obtain ⟨b1, b2, b3⟩ := reply_fresh hw code out hne (by omega) hcode.2.2
  have hrep := queueHeader_replied env (parsed c0 rest i) code out (intDec code ++ c%' ' :: out)
  rw [← startReply_short env _ code out hne (by omega)] at hrep
  refine ⟨_, intDec code, by rw [hstep, hr], b2, ?_, fun evs => ?_⟩
  · have e := C21_code_text code.toNat
    rwa [show ((code.toNat : Nat) : Int) = code by omega] at e
  · obtain ⟨c', e, d1, _, _, d4, _⟩ := done_run bufsiz evs _ b3 (by rw [hrep.rcode]; omega)
    refine ⟨c', d1, ?_⟩
    rw [d4, b1, hrep.sent]
    simp [parsed, h0]

/-- **C112, in part.** A connection to a server of the file gets one header, and a body only after a success, whatever happens on it. -/
theorem C112_one_header_partial (h : Serving penv files loadCa openDir txt ds c env) (sni : Option Bytes) (name : Bytes) (hneg : Negotiated env sni name)
    (x : Bytes × List SrvOpt) (hx : LastServer env.fnm ds name x) (ho : OptsFirst x.2) (bufsiz : Nat) (evs : List (Env × Ev)) (c' : Client)
    (hr : runEvents bufsiz evs (handshakeDone env sni {}) = .ok c') (hn : ∀ e ∈ c'.effs, ¬ Contact e) :
    (headerCodes c'.effs = [] ∧ c'.sent ++ c'.out = []) ∨
    (∃ code text body, headerCodes c'.effs = [code] ∧ c'.sent ++ c'.out = text ++ b%"\r\n" ++ body ∧ (body ≠ [] → code = 20)) := by
  have hh : handshakeDone env sni {} = { ({} : Client) with domain := name, host := some (hostIn penv files loadCa openDir c x) } := by
    rw [handshake_name env sni name _ hneg, serving_bound h name x hx ho]
  rw [hh] at hr
  have hok : ConfOk (hostIn penv files loadCa openDir c x) := by
    intro l hl
    have := serving_fits h name x hx l hl
    exact ⟨this.1, by omega⟩
  rcases C22_one_header _ hok name bufsiz evs c' hr hn with h1 | ⟨code, t, body, h1, _, h3, h4⟩
  · exact .inl h1
  · exact .inr ⟨code, t, body, h1, h3, h4⟩

/-! ## A request in pieces -/

/-- what came before the end of the request is only kept -/
theorem read_kept (bufsiz : Nat) : ∀ (ps : List (Env × Bytes)) (c : Client), (c.inp ++ (ps.map (·.2)).flatten).length ≤ 1026 →
    readLine (c.inp ++ (ps.map (·.2)).flatten) = none →
    runEvents bufsiz (ps.map fun p => (p.1, Ev.read p.2)) c = .ok (if c.closed then c else { c with inp := c.inp ++ (ps.map (·.2)).flatten }) := by
  intro ps
  induction ps with
  | nil => intro c _ _; simp [runEvents]
  | cons p ps ih =>
    intro c hl hr
    simp only [List.map_cons, List.flatten_cons, ← List.append_assoc] at hl hr ⊢
    have hn : readLine (c.inp ++ p.2) = none := by
      rw [readLine_none] at hr ⊢
      intro a b e
      exact hr a (b ++ (ps.map (·.2)).flatten) (by rw [e]; simp)
    have hs : step p.1 bufsiz (.read p.2) c = .ok (if c.closed then c else { c with inp := c.inp ++ p.2 }) := by
      unfold step
      by_cases hc : c.closed = true
      · simp [hc]
      · simp only [hc, Bool.false_eq_true, if_false]
        unfold clientRead
        by_cases ht : c.type = .undecided
        · have : ¬ ((c.inp ++ p.2).length > 1024 + 2) := by simp at hl ⊢; omega
          simp only [ht, ne_eq, not_true_eq_false, if_false, this, hn]
        · simp [ht]
    simp only [runEvents, hs]
    by_cases hc : c.closed = true
    · simp only [hc, if_true]
      have : ∀ ps' : List (Env × Bytes), runEvents bufsiz (ps'.map fun p => (p.1, Ev.read p.2)) c = .ok c := by
        intro ps'
        induction ps' with
        | nil => rfl
        | cons q qs ihq => simp [runEvents, step, hc, ihq]
      exact this ps
    · simp only [hc, Bool.false_eq_true, if_false]
      rw [ih _ hl hr]
      simp [hc]

/-- **C112.** However the request arrives, in as many pieces as the network likes, the server does on the piece that completes its line
what it would have done with all of it at once; so the other theorems of C112 hold for requests in pieces too. -/
theorem C112_pieces {env : Env} {req rest : Bytes} {i : Iri} {decoded : Bytes} (ha : Asks env req rest i decoded) (sni : Option Bytes)
    (bufsiz : Nat) (ps : List (Env × Bytes)) (d : Bytes) (hcat : (ps.map (·.2)).flatten ++ d = req ++ b%"\r\n" ++ rest)
    (hearly : (ps.map (·.2)).flatten.length < (req ++ b%"\r\n").length) :
    runEvents bufsiz (ps.map (fun p => (p.1, Ev.read p.2)) ++ [(env, .read d)]) (handshakeDone env sni {}) =
      step env bufsiz (.read (req ++ b%"\r\n" ++ rest)) (handshakeDone env sni {}) := by
  have hi : (handshakeDone env sni {}).inp = [] := by
    have hsr : ∀ (c : Client), (startReply env c 59 b%"Wrong/malformed host").inp = c.inp := by
      intro c
      rw [startReply_short env c 59 _ (by decide) (by decide)]
      exact (queueHeader_replied env c 59 _ _).inp
    unfold handshakeDone
    split
    · exact hsr _
    · dsimp only
      split
      · rfl
      · exact hsr _
  generalize handshakeDone env sni {} = c at hi
  have hn : readLine (c.inp ++ (ps.map (·.2)).flatten) = none := by
    rw [hi, List.nil_append, readLine_none]
    intro a b e
    have hp : (ps.map (·.2)).flatten <+: req ++ b%"\r" := by
      have h1 : (ps.map (·.2)).flatten <+: req ++ b%"\r" ++ (b%"\n" ++ rest) := ⟨d, by rw [hcat]; simp⟩
      exact List.prefix_of_prefix_length_le h1 (List.prefix_append _ _) (by simp at hearly ⊢; omega)
    obtain ⟨t, ht⟩ := hp
    exact ha.line a (b ++ t) (by rw [← ht, e]; simp)
  have hrun : ∀ (l : List (Env × Ev)) (x : Env × Ev) (s s' : Client), runEvents bufsiz l s = .ok s' → runEvents bufsiz (l ++ [x]) s = step x.1 bufsiz x.2 s' := by
    intro l
    induction l with
    | nil =>
      intro x s s' h
      cases h
      simp only [List.nil_append, runEvents]
      cases step x.1 bufsiz x.2 s <;> rfl
    | cons y l ih =>
      intro x s s' h
      simp only [List.cons_append, runEvents] at h ⊢
      cases hy : step y.1 bufsiz y.2 s with
      | ok s1 => rw [hy] at h; exact ih x s1 s' h
      | err => rw [hy] at h; cases h
      | ub => rw [hy] at h; cases h
  rw [hrun _ _ _ _ (read_kept bufsiz ps c (by
    have := ha.room; simp only [hi, List.nil_append]; simp only [List.length_append] at this hearly ⊢; omega) hn)]
  by_cases hc : c.closed = true
  · simp [step, hc]
  · simp only [hc, Bool.false_eq_true, if_false, step, hi, List.nil_append, hcat]

end

/-! ## A concrete case -/

/-- a configuration with a type, a root, a language, and a location that is closed and one that wants a certificate -/
def exDepTxt : Bytes := b%"types {\n text/x-a a\n}\nserver \"h\" {\n cert \"/c\"\n key \"/k\"\n root \"/d\"\n lang \"it\"\n location \"/old\" {\n block return 31 \"/new%p\"\n }\n location \"/me\" {\n require client ca \"/ca\"\n }\n}\n"

def exDepDs : List Directive :=
  [.types [(b%"text/x-a", [b%"a"])],
   .server b%"h" [.cert b%"/c", .key b%"/k", .opt (.root b%"/d"), .opt (.lang b%"it"), .location b%"/old" [.blockReturn 31 (some b%"/new%p")],
     .location b%"/me" [.requireCa b%"/ca"]]]

def exDepC : CConf := (mainStart cfEnv (fun _ => none) exDepDs).getD confNew
/-- the files, a CA, and a directory -/
def exDepFiles (p : Bytes) : Option Bytes := if p ∈ [b%"/c", b%"/k", b%"/ca"] then some p else none
def exDepCa (d : Bytes) : Option Nat := if d = b%"/ca" then some 7 else none
def exDepDir (p : Bytes) : Option Int := if p = b%"/d" then some 5 else none
/-- the server process, with two files in the directory -/
def exDepEnv : Env where
  fnm := fun p s => p == b%"*" || p == s
  isAddr := fun _ => false
  puny := some
  certProvided := false
  verify := fun _ => 0
  relayConnect := fun _ => false
  relayInit := fun _ => false
  nFcgi := 0
  fcgiConnect := fun _ => false
  fcgiBev := false
  openat := fun d n => if d = 5 ∧ n = b%"x.gmi" then some 9 else if d = 5 ∧ n = b%"y.a" then some 10 else none
  fstat := fun d => if d = 9 ∨ d = 10 then some .reg else none
  scandir := fun _ _ => none
  mimes := [⟨b%"text/x-a", b%"a"⟩]
  port := 1965
  addrName := b%"127.0.0.1"
  hosts := exDepC.hosts.map (CHost.toVhost (caIn exDepFiles exDepCa) (dirIn exDepDir))

def exDepMs : List (Proc × CMsg CLoc (Bytes × Bytes) CProxy LAddr FcgiEp) := (mainConfigure exDepFiles (fun _ => true) (exDepC.toP false)).getD []
def exDepSt : Worker := ((recvAll exDepFiles exDepCa (fun _ => none) (fun _ => none) .server {} (forProc .server exDepMs) : Res Worker).val?).getD {}

theorem exDep_serving : Serving cfEnv exDepFiles exDepCa exDepDir exDepTxt exDepDs exDepC exDepEnv where
  resolves := cfEnv_ok.1
  says := ⟨80, (lexAll 80 (lexStart exDepTxt [])).dropLast,
    [.types [.names b%"text/x-a" [b%"a"]], .vhost (.server b%"h" [.cert b%"/c", .key b%"/k", .opt (.root b%"/d"), .opt (.lang b%"it"),
      .location b%"/old" [.blockReturn 31 (some b%"/new%p")], .location b%"/me" [.requireCa b%"/ca"]])],
    by decide +kernel, pGrammar_iff.1 (by decide +kernel), rfl⟩
  runs := .inl ⟨fun _ => none, by decide +kernel⟩
  sent := ⟨false, fun _ => true, exDepMs, fun _ => none, fun _ => none, {}, exDepSt, by decide +kernel, by decide +kernel,
    ⟨⟨[⟨b%"text/x-a", b%"a"⟩], by decide +kernel, List.Perm.refl _, by simp [exDepEnv]⟩, by decide +kernel, by decide +kernel⟩⟩

def exDepSrv : Bytes × List SrvOpt :=
  (b%"h", [.cert b%"/c", .key b%"/k", .opt (.root b%"/d"), .opt (.lang b%"it"), .location b%"/old" [.blockReturn 31 (some b%"/new%p")],
    .location b%"/me" [.requireCa b%"/ca"]])

theorem exDep_named : LastServer exDepEnv.fnm exDepDs b%"h" exDepSrv ∧ OptsFirst exDepSrv.2 ∧ Negotiated exDepEnv (some b%"h") b%"h" := by
  refine ⟨⟨[], [], rfl, ⟨b%"h", .inl rfl, by decide⟩, by simp⟩, ⟨exDepSrv.2.take 4, exDepSrv.2.drop 4, by decide, by decide, by decide⟩, ?_⟩
  exact .inl ⟨b%"h", b%"h", rfl, rfl, by decide, rfl⟩

theorem noCrlf_of (req : Bytes) (h : c%'\n' ∉ req) (a b : Bytes) (e : req ++ b%"\r" = a ++ b%"\r\n" ++ b) : False := by
  have : c%'\n' ∈ req ++ b%"\r" := by rw [e]; simp
  simp at this
  exact h this

theorem exDep_asks (req : Bytes) (i : Iri) (h : c%'\n' ∉ req ∧ (0 : UInt8) ∉ req ∧ req.length ≤ 1024) (hp : parseIri exDepEnv.isAddr req = .ok i) :
    Asks exDepEnv req [] i i.host :=
  ⟨noCrlf_of req h.1, by have := h.2.2; simp; omega, h.2.1, hp, rfl⟩

/-- C112_file_partial applies: gemini://h/x.gmi -/
example (file : Bytes) (evs : List (Env × SendEv)) : ∃ c1 m suffix,
    step exDepEnv 4096 (.read b%"gemini://h/x.gmi\r\n") (handshakeDone exDepEnv (some b%"h") {}) = .ok c1 ∧
      TypeIs exDepEnv.fnm exDepDs (hostIn cfEnv exDepFiles exDepCa exDepDir exDepC exDepSrv) b%"x.gmi" m ∧
      ∃ c' unread, sendRun 4096 evs (c1, file) = .ok (c', unread) ∧ (c'.closed = true → c'.sent = b%"20 " ++ m ++ suffix ++ b%"\r\n" ++ file) := by
  have hp : parseIri exDepEnv.isAddr b%"gemini://h/x.gmi" = .ok (exIriPath b%"x.gmi") := by decide +kernel
  have hv : (hostIn cfEnv exDepFiles exDepCa exDepDir exDepC exDepSrv).proxies = [] := by decide +kernel
  have hlocs : ∀ l ∈ (hostIn cfEnv exDepFiles exDepCa exDepDir exDepC exDepSrv).locs, ¬ LocMatches exDepEnv.fnm l b%"x.gmi" := by
    intro l hl
    rw [← locMatches_iff]
    revert l
    decide +kernel
  have hd : (hostIn cfEnv exDepFiles exDepCa exDepDir exDepC exDepSrv).dflt.blockCode = 0 ∧
      (hostIn cfEnv exDepFiles exDepCa exDepDir exDepC exDepSrv).dflt.fcgi = -1 ∧
      (hostIn cfEnv exDepFiles exDepCa exDepDir exDepC exDepSrv).dflt.reqca = none ∧
      (hostIn cfEnv exDepFiles exDepCa exDepDir exDepC exDepSrv).dflt.dir = b%"/d" ∧
      (hostIn cfEnv exDepFiles exDepCa exDepDir exDepC exDepSrv).dflt.strip = 0 := by decide +kernel
  have hns : ∀ set : Location → Prop, NoneSet exDepEnv.fnm set (hostIn cfEnv exDepFiles exDepCa exDepDir exDepC exDepSrv).locs b%"x.gmi" :=
    fun set l hl h => hlocs l hl h.2
  obtain ⟨c1, m, suffix, h1, _, h3, _, _, h5⟩ := C112_file_partial exDep_serving (by intro p fd h; simp only [exDepDir] at h; split at h <;> simp at h; omega)
    (some b%"h") b%"h" exDep_named.2.2 exDepSrv exDep_named.1 exDep_named.2.1 _ rfl b%"gemini://h/x.gmi" [] (exIriPath b%"x.gmi") b%"h"
    (exDep_asks _ _ (by decide) hp) ⟨rfl, rfl⟩ (by intro q hq; rw [hv] at hq; simp at hq) (.inl ⟨hns _, hd.2.2.1⟩) ⟨hns _, hd.1⟩ (.inr ⟨hns _, hd.2.1⟩)
    b%"/d" (by decide) (.inr ⟨hns _, hd.2.2.2.1⟩) 0 (.inr ⟨hns _, hd.2.2.2.2⟩) b%"x.gmi" ⟨fun _ => by decide, fun h => by omega⟩ 9 (by decide +kernel) .reg
    (by decide +kernel) (by decide) 4096 (by decide)
  obtain ⟨c', u, k1, _, k3, _⟩ := h5 file evs
  exact ⟨c1, m, suffix, h1, h3, c', u, k1, k3⟩

/-- what the client of that server gets, for the two files, the closed location and the one with a CA; and the client of a server that is not there -/
example : ((step exDepEnv 4096 (.read b%"gemini://h/x.gmi\r\n") (handshakeDone exDepEnv (some b%"h") {})).val?).map (·.out) = some b%"20 text/gemini;lang=it\r\n" ∧
    ((step exDepEnv 4096 (.read b%"gemini://h/y.a\r\n") (handshakeDone exDepEnv (some b%"h") {})).val?).map (·.out) = some b%"20 text/x-a\r\n" ∧
    ((step exDepEnv 4096 (.read b%"gemini://h/old\r\n") (handshakeDone exDepEnv (some b%"h") {})).val?).map (·.out) = some b%"31 /new/old\r\n" ∧
    ((step exDepEnv 4096 (.read b%"gemini://h/me\r\n") (handshakeDone exDepEnv (some b%"h") {})).val?).map (·.out) = some b%"60 client certificate required\r\n" ∧
    (handshakeDone exDepEnv (some b%"k") {}).out = b%"59 Wrong/malformed host\r\n" := by decide +kernel

/-- the hypotheses of C112_block_partial and C112_certificate_partial on the locations are met -/
example : BlockIs exDepEnv.fnm (hostIn cfEnv exDepFiles exDepCa exDepDir exDepC exDepSrv) b%"old" 31 b%"/new%p" ∧
    CaIs exDepEnv.fnm (hostIn cfEnv exDepFiles exDepCa exDepDir exDepC exDepSrv) b%"me" 7 ∧
    Expands b%"old" [] b%"h" b%"1965" b%"/new%p" b%"/new/old" := by
  obtain ⟨l1, l2, hl⟩ : ∃ l1 l2, (hostIn cfEnv exDepFiles exDepCa exDepDir exDepC exDepSrv).locs = [l1, l2] := ⟨_, _, rfl⟩
  have h1 : l1 = { pat := b%"old", blockCode := 31, blockFmt := b%"/new%p", fcgi := -1, dirfd := -1 : Location } ∧
      l2 = { pat := b%"me", reqca := some 7, fcgi := -1, dirfd := -1 : Location } := by
    have : (hostIn cfEnv exDepFiles exDepCa exDepDir exDepC exDepSrv).locs = [{ pat := b%"old", blockCode := 31, blockFmt := b%"/new%p", fcgi := -1, dirfd := -1 : Location }, { pat := b%"me", reqca := some 7, fcgi := -1, dirfd := -1 : Location }] := by decide +kernel
    rw [hl] at this
    simp only [List.cons.injEq, and_true] at this
    exact this
  refine ⟨.inl ⟨l1, ⟨[], [l2], hl, by rw [h1.1]; decide, ?_, by simp⟩, by rw [h1.1], by rw [h1.1]⟩,
    .inl ⟨l2, ⟨[l1], [], hl, by rw [h1.2]; simp, ?_, ?_⟩, by rw [h1.2]⟩, ?_⟩
  · rw [← locMatches_iff, h1.1]; decide
  · rw [← locMatches_iff, h1.2]; decide
  · intro x hx; simp at hx; subst hx; rw [h1.1]; simp
  · exact .lit _ _ _ (by decide) (.lit _ _ _ (by decide) (.lit _ _ _ (by decide) (.lit _ _ _ (by decide) (.path [] [] .nil))))

/-- C112_pieces applies: a request in three pieces -/
example (e1 e2 : Env) : runEvents 4096 [(e1, .read b%"gemini://"), (e2, .read b%"h/x.gmi\r"), (exDepEnv, .read b%"\n")] (handshakeDone exDepEnv (some b%"h") {}) =
    step exDepEnv 4096 (.read b%"gemini://h/x.gmi\r\n") (handshakeDone exDepEnv (some b%"h") {}) := by
  have hp : parseIri exDepEnv.isAddr b%"gemini://h/x.gmi" = .ok (exIriPath b%"x.gmi") := by decide +kernel
  exact C112_pieces (exDep_asks _ _ (by decide) hp) (some b%"h") 4096 [(e1, b%"gemini://"), (e2, b%"h/x.gmi\r")] b%"\n" (by simp) (by simp)

end Gmid.Props
