import Verif.Spec.FetchDir
import Verif.Props.Fetch
import Verif.Props.Listing
import Verif.Props.Proxy

/-!
# C136: a directory, or nothing, at the end of the URL
-/

set_option autoImplicit false

namespace Gmid.Props
open Gmid.Spec

section
variable {penv : PEnv} {files : Bytes → Option Bytes} {loadCa : Bytes → Option Nat} {openDir : Bytes → Option Int}
  {txt : Bytes} {ds : List Directive} {c : CConf} {env : Env}

/-- a request for files gets to the file handler -/
theorem forFiles_step (h : Serving penv files loadCa openDir txt ds c env) (hfd : ∀ p fd, openDir p = some fd → fd ≠ -1)
    (sni : Option Bytes) (name : Bytes) (hneg : Negotiated env sni name)
    (x : Bytes × List SrvOpt) (hx : LastServer env.fnm ds name x) (ho : OptsFirst x.2)
    (v : Vhost) (hv : v = hostIn penv files loadCa openDir c x)
    (req : Bytes) (i : Iri) (decoded : Bytes) (ha : Asks env req [] i decoded)
    (dir nm : Bytes) (hff : ForFiles env v name i decoded dir nm) (bufsiz : Nat) :
    ∃ cc : Client, cc.host = some v ∧ cc.iri = some i ∧ cc.out = [] ∧ cc.sent = [] ∧ cc.closed = false ∧ cc.type = .undecided ∧
      nm ≠ [] ∧ i.path.length ≤ 1024 ∧ i.path ≠ b%"/" ∧ (i.path ≠ [] → i.path.length + 5 ≤ 1024) ∧
      step env bufsiz (.read (req ++ b%"\r\n")) (handshakeDone env sni {}) =
        match env.openat (dirIn openDir dir) nm with
        | none => .ok (startReply env { cc with pfd := -1 } 51 b%"not found")
        | some fd =>
          match env.fstat fd with
          | none => .ok (startReply env { cc with pfd := fd } 40 b%"internal server error")
          | some .dir => Gmid.openDir env { cc with pfd := fd } i
          | some _ =>
            match mimeType env.fnm env.mimes (some v) nm with
            | .ok m => .ok (startReply env { cc with pfd := fd, type := .file } 20 m)
            | .err => .err
            | .ub => .ub := by
  obtain ⟨c0, h0, hw, hstep⟩ := serving_asked h hneg hx ho ha bufsiz
  rw [← hv] at hw
  have hvm : v ∈ env.hosts := by rw [hv]; exact findHost_mem (serving_bound h name x hx ho)
  have hroot := (rootIs_eq _ _ _ _).1 (serving_root h hfd v hvm i.path dir hff.some_dir hff.dir_is)
  obtain ⟨strip, hstrip, hnm⟩ := hff.name_is
  rw [← stripIs_eq _ _ _ _ hstrip] at hnm
  have hconf := C01_path_confined _ _ _ ha.parses
  have hnm' : openName (vhostStrip env.fnm (some v) (some i.path)) i.path = nm := by
    have := (openName_spec (vhostStrip env.fnm (some v) (some i.path)) i.path hconf.1 hconf.2).2
    by_cases hp : vhostStrip env.fnm (some v) (some i.path) ≤ 0
    · rw [this.1 hp, hnm.1 hp]
    · rw [this.2 (by omega), hnm.2 (by omega)]
  have hh : (parsed c0 [] i).host = some v := hw.requested.host
  have hlen : i.path = [] ∨ i.path.length + 5 ≤ 1024 := by
    have h1 := path_length _ _ _ ha.parses
    have h2 := ha.room
    simp at h2
    rcases h1 with h1 | h1
    · right; omega
    · exact .inl h1
  refine ⟨{ parsed c0 [] i with loc := (vhostDirfd env.fnm (some v) (some i.path)).2, effs := (parsed c0 [] i).effs ++ [Eff.openat (dirIn openDir dir) nm] },
    hh, rfl, hw.requested.out, h0, hw.requested.isOpen, hw.requested.type, by rw [← hnm']; exact openName_ne _ _, ?_, ?_, fun hne => hlen.resolve_left hne, ?_⟩
  · rcases hlen with h | h
    · rw [h]; simp
    · omega
  · intro hp
    exact hconf.1.1 (by rw [hp]; rfl)
  · rw [← List.append_nil (req ++ b%"\r\n"), hstep, dispatch_file hw hff.relay hff.us hff.cert hff.block hff.fcgi]
    unfold serveFile
    simp only [hh, hnm', hroot]
    rfl

/-- how gg asks, and its line in pieces -/
theorem gg_asks {url : Bytes} {i : Iri} {decoded : Bytes} (ha : Asks env url [] i decoded) (bufsiz : Nat) :
    ∃ port, ggRequest env.isAddr url = .ok (url ++ b%"\r\n", i.host, port) ∧
      ∀ (ps : List (Env × Bytes)) (d : Bytes), (ps.map (·.2)).flatten ++ d = url ++ b%"\r\n" → d ≠ [] →
        runEvents bufsiz (ps.map (fun p => (p.1, Ev.read p.2)) ++ [(env, .read d)]) (handshakeDone env (some i.host) {}) =
          step env bufsiz (.read (url ++ b%"\r\n")) (handshakeDone env (some i.host) {}) := by
  have hroom : url.length ≤ 1024 := by have := ha.room; simp at this; omega
  refine ⟨if i.port = [] then b%"1965" else i.port, ?_, ?_⟩
  · simp only [ggRequest]
    rw [if_neg (by omega), if_neg (by omega), ha.parses]
  intro ps d hcat hd0
  have hlt : (ps.map (·.2)).flatten.length < (url ++ b%"\r\n").length := by
    rw [← hcat, List.length_append]
    have : 0 < d.length := List.length_pos_iff.2 hd0
    omega
  rw [C112_pieces ha (some i.host) bufsiz ps d (by rw [hcat]; simp) hlt, List.append_nil]

/-- a reply without a body, from the server to gg -/
theorem told_all (cc : Client) (hout : cc.out = []) (hsent : cc.sent = []) (code : Nat) (h1 : 30 ≤ code) (h2 : code < 70) (text : Bytes) (hne : text ≠ b%"text/gemini")
    (hcr : (13 : UInt8) ∉ text) (h0 : (0 : UInt8) ∉ text) (hl : text.length ≤ 1024) (bufsiz : Nat) (evs : List (Env × Ev)) :
    ∃ c', runEvents bufsiz evs (startReply env cc code text) = .ok c' ∧ c'.sent ++ c'.out = natDec code ++ b%" " ++ text ++ b%"\r\n" ∧
      ∀ (script : List TRead) (quiet : Bool), c'.out = [] → stream script = (c'.sent, true) →
        ggReply .none quiet script = { out := [], status := code, says := if quiet = false then some text else none } := by
  have hdig : intDec (code : Int) = natDec code := by simp [intDec]
  have hd2 : (natDec code).length = 2 := by
    have : ∀ n : Nat, n < 70 → 10 ≤ n → (natDec n).length = 2 := by decide +kernel
    exact this code h2 (by omega)
  have hsr := startReply_short env cc (code : Int) text hne (by rw [hdig, hd2]; omega)
  have hrep := queueHeader_replied env cc (code : Int) text (intDec code ++ c%' ' :: text)
  obtain ⟨c', e, d1, _, _, d4, _⟩ := done_run bufsiz evs (startReply env cc code text) (by rw [hsr, hrep.type, if_pos (by omega)]) (by rw [hsr, hrep.rcode]; omega)
  have hall : c'.sent ++ c'.out = natDec code ++ b%" " ++ text ++ b%"\r\n" := by
    rw [d4, hsr, hrep.sent, hsent]
    simp [queueHeader, hout, hdig]
  refine ⟨c', d1, hall, fun script quiet ho hs => ?_⟩
  rw [ho, List.append_nil] at hall
  rw [gg_told code (by omega) (by omega) (by omega) (natDec code) text (natDec_numeral code) hcr hl script quiet (by rw [hs, hall])]
  rw [cstr_of_no_nul text h0]

/-- **C136.** gmid runs with a configuration file, and gg is given a URL for what is in a directory of one of its servers (`ForFiles`). When there is nothing of that name, the
line gg sends, however it is cut (`ps`, `d`), makes the server answer 51, at whatever pace (`evs`), and gg, however the reply is cut (`script`), exits with 51, and writes nothing. -/
theorem C136_missing (h : Serving penv files loadCa openDir txt ds c env) (hfd : ∀ p fd, openDir p = some fd → fd ≠ -1)
    (url : Bytes) (i : Iri) (decoded : Bytes) (ha : Asks env url [] i decoded)
    (name : Bytes) (hneg : Negotiated env (some i.host) name)
    (x : Bytes × List SrvOpt) (hx : LastServer env.fnm ds name x) (ho : OptsFirst x.2)
    (v : Vhost) (hv : v = hostIn penv files loadCa openDir c x)
    (dir nm : Bytes) (hff : ForFiles env v name i decoded dir nm)
    (hopen : env.openat (dirIn openDir dir) nm = none) (bufsiz : Nat) :
    ∃ line port, ggRequest env.isAddr url = .ok (line, i.host, port) ∧
      ∀ (ps : List (Env × Bytes)) (d : Bytes), (ps.map (·.2)).flatten ++ d = line → d ≠ [] →
        ∃ c1, runEvents bufsiz (ps.map (fun p => (p.1, Ev.read p.2)) ++ [(env, .read d)]) (handshakeDone env (some i.host) {}) = .ok c1 ∧
          ∀ evs, ∃ c', runEvents bufsiz evs c1 = .ok c' ∧ c'.sent ++ c'.out = b%"51 not found\r\n" ∧
            ∀ (script : List TRead) (quiet : Bool), c'.out = [] → stream script = (c'.sent, true) →
              ggReply .none quiet script = { out := [], status := 51, says := if quiet = false then some b%"not found" else none } := by
  obtain ⟨port, g1, g2⟩ := gg_asks ha bufsiz
  refine ⟨_, port, g1, fun ps d hcat hd0 => ?_⟩
  rw [g2 ps d hcat hd0]
  obtain ⟨cc, _, _, e3, e4, _, _, _, _, _, _, e⟩ := forFiles_step h hfd (some i.host) name hneg x hx ho v hv url i decoded ha dir nm hff bufsiz
  rw [hopen] at e
  refine ⟨_, e, fun evs => ?_⟩
  obtain ⟨c', k1, k2, k3⟩ := told_all { cc with pfd := -1 } e3 e4 51 (by decide) (by decide) b%"not found" (by decide) (by decide) (by decide) (by decide) bufsiz evs
  exact ⟨c', k1, by rw [k2]; decide +kernel, k3⟩

/-- **C136.** When it is a directory, and the URL does not end in a slash: the server answers with the URL that does, and gg exits with 30, and says it. (The path has no CR, see C59.) -/
theorem C136_redirect (h : Serving penv files loadCa openDir txt ds c env) (hfd : ∀ p fd, openDir p = some fd → fd ≠ -1)
    (url : Bytes) (i : Iri) (decoded : Bytes) (ha : Asks env url [] i decoded)
    (name : Bytes) (hneg : Negotiated env (some i.host) name)
    (x : Bytes × List SrvOpt) (hx : LastServer env.fnm ds name x) (ho : OptsFirst x.2)
    (v : Vhost) (hv : v = hostIn penv files loadCa openDir c x)
    (dir nm : Bytes) (hff : ForFiles env v name i decoded dir nm)
    (fd : Int) (hopen : env.openat (dirIn openDir dir) nm = some fd) (hk : env.fstat fd = some .dir)
    (hns : ¬ Slashed i.path) (hcr : (13 : UInt8) ∉ i.path) (bufsiz : Nat) :
    ∃ line port, ggRequest env.isAddr url = .ok (line, i.host, port) ∧
      ∀ (ps : List (Env × Bytes)) (d : Bytes), (ps.map (·.2)).flatten ++ d = line → d ≠ [] →
        ∃ c1, runEvents bufsiz (ps.map (fun p => (p.1, Ev.read p.2)) ++ [(env, .read d)]) (handshakeDone env (some i.host) {}) = .ok c1 ∧
          ∀ evs, ∃ c', runEvents bufsiz evs c1 = .ok c' ∧ c'.sent ++ c'.out = b%"30 /" ++ i.path ++ b%"/\r\n" ∧
            ∀ (script : List TRead) (quiet : Bool), c'.out = [] → stream script = (c'.sent, true) →
              ggReply .none quiet script = { out := [], status := 30, says := if quiet = false then some (b%"/" ++ i.path ++ b%"/") else none } := by
  obtain ⟨port, g1, g2⟩ := gg_asks ha bufsiz
  refine ⟨_, port, g1, fun ps d hcat hd0 => ?_⟩
  rw [g2 ps d hcat hd0]
  obtain ⟨cc, _, _, e3, e4, _, _, _, _, _, el, e⟩ := forFiles_step h hfd (some i.host) name hneg x hx ho v hv url i decoded ha dir nm hff bufsiz
  rw [hopen] at e
  simp only [hk] at e
  have hne : i.path ≠ [] := fun k => hns (.inl k)
  have hls : ¬ endsWith i.path b%"/" = true := fun k => hns (.inr ((endsWith_slash _).1 k))
  have hlen := el hne
  rw [Gmid.openDir, if_pos (by simp [hne, hls]), redirectDir, if_neg (by simp; omega)] at e
  refine ⟨_, e, fun evs => ?_⟩
  have h0 := (C01_path_confined _ _ _ ha.parses).2
  obtain ⟨c', k1, k2, k3⟩ := told_all (env := env) { cc with pfd := fd } e3 e4 30 (by decide) (by decide) (c%'/' :: (i.path ++ b%"/")) (by simp) (by simp [hcr]) (by simp [h0]) (by simp; omega) bufsiz evs
  refine ⟨c', k1, ?_, k3⟩
  rw [k2, show natDec 30 = b%"30" by decide +kernel]
  simp

/-- what becomes of a directory without an index -/
theorem noIndex_step (cc : Client) (v : Vhost) (i : Iri) (hv : cc.host = some v) (hs : Slashed i.path) (idx : Bytes) (hidx : IndexIs env.fnm v i.path idx) (hno : NoIndex env cc.pfd idx) :
    Gmid.openDir env cc i = .ok (dirListing env { cc with effs := cc.effs ++ [.openat cc.pfd idx] } i) := by
  have hi : vhostIndex env.fnm (some v) (some i.path) = idx := by
    rcases hidx with ⟨l, h1, rfl⟩ | ⟨h1, rfl⟩
    · exact (C15_index env.fnm v i.path).1 l h1
    · exact (C15_index env.fnm v i.path).2 h1
  rw [Gmid.openDir, if_neg (by
    rcases hs with k | k
    · simp [k]
    · simp [(endsWith_slash _).2 k])]
  simp only [hv, hi]
  rcases hno with hno | ⟨fd', k, h1, h2, h3⟩
  · rw [hno]
  · simp only [h1, h2]

/-- **C136.** When it is a directory without an index file, and `auto index` is not on: gg is told that there is nothing. -/
theorem C136_unlisted (h : Serving penv files loadCa openDir txt ds c env) (hfd : ∀ p fd, openDir p = some fd → fd ≠ -1)
    (url : Bytes) (i : Iri) (decoded : Bytes) (ha : Asks env url [] i decoded)
    (name : Bytes) (hneg : Negotiated env (some i.host) name)
    (x : Bytes × List SrvOpt) (hx : LastServer env.fnm ds name x) (ho : OptsFirst x.2)
    (v : Vhost) (hv : v = hostIn penv files loadCa openDir c x)
    (dir nm : Bytes) (hff : ForFiles env v name i decoded dir nm)
    (fd : Int) (hopen : env.openat (dirIn openDir dir) nm = some fd) (hk : env.fstat fd = some .dir)
    (hs : Slashed i.path) (idx : Bytes) (hidx : IndexIs env.fnm v i.path idx) (hno : NoIndex env fd idx)
    (hoff : ListingIs env.fnm v i.path false) (bufsiz : Nat) :
    ∃ line port, ggRequest env.isAddr url = .ok (line, i.host, port) ∧
      ∀ (ps : List (Env × Bytes)) (d : Bytes), (ps.map (·.2)).flatten ++ d = line → d ≠ [] →
        ∃ c1, runEvents bufsiz (ps.map (fun p => (p.1, Ev.read p.2)) ++ [(env, .read d)]) (handshakeDone env (some i.host) {}) = .ok c1 ∧
          ∀ evs, ∃ c', runEvents bufsiz evs c1 = .ok c' ∧ c'.sent ++ c'.out = b%"51 not found\r\n" ∧
            ∀ (script : List TRead) (quiet : Bool), c'.out = [] → stream script = (c'.sent, true) →
              ggReply .none quiet script = { out := [], status := 51, says := if quiet = false then some b%"not found" else none } := by
  obtain ⟨port, g1, g2⟩ := gg_asks ha bufsiz
  refine ⟨_, port, g1, fun ps d hcat hd0 => ?_⟩
  rw [g2 ps d hcat hd0]
  obtain ⟨cc, e1, _, e3, e4, _, _, _, _, _, _, e⟩ := forFiles_step h hfd (some i.host) name hneg x hx ho v hv url i decoded ha dir nm hff bufsiz
  rw [hopen] at e
  simp only [hk] at e
  rw [noIndex_step { cc with pfd := fd } v i e1 hs idx hidx hno] at e
  have hauto : vhostAutoIndex env.fnm (some v) (some i.path) = false := by
    cases hb : vhostAutoIndex env.fnm (some v) (some i.path) with
    | false => rfl
    | true =>
      rcases hoff with ⟨l, h1, h2⟩ | ⟨h1, h2⟩
      · have := ((C15_auto_index env.fnm v i.path).1 l h1).1 hb; simp [this] at h2
      · have := ((C15_auto_index env.fnm v i.path).2 h1).1 hb; simp [this] at h2
  have hl : dirListing env { cc with pfd := fd, effs := cc.effs ++ [.openat fd idx] } i =
      startReply env { cc with pfd := fd, effs := cc.effs ++ [.openat fd idx] } 51 b%"not found" := by simp [dirListing, e1, hauto]
  rw [hl] at e
  refine ⟨_, e, fun evs => ?_⟩
  obtain ⟨c', k1, k2, k3⟩ := told_all (env := env) { cc with pfd := fd, effs := cc.effs ++ [.openat fd idx] } e3 e4 51 (by decide) (by decide) b%"not found" (by decide) (by decide) (by decide) (by decide) bufsiz evs
  exact ⟨c', k1, by rw [k2]; decide +kernel, k3⟩

/-- the bounds the file keeps -/
theorem serving_bounds (h : Serving penv files loadCa openDir txt ds c env) (name : Bytes) (x : Bytes × List SrvOpt) (hx : LastServer env.fnm ds name x)
    (v : Vhost) (hv : v = hostIn penv files loadCa openDir c x) (path : Bytes) :
    (∀ l, vhostLang env.fnm (some v) (some path) = some l → l.length ≤ 31) ∧
    ∀ nm m, nm ≠ [] → mimeType env.fnm env.mimes (some v) nm = .ok m → m.length ≤ 900 := by
  have hfit : ∀ l, (l = v.dflt ∨ l ∈ v.locs) → l.lang.length ≤ 31 ∧ l.defaultMime.length ≤ 127 := by
    intro l hl; rw [hv] at hl; have := serving_fits h name x hx l hl; exact ⟨this.1, this.2.1⟩
  constructor
  · intro l hl
    rcases C15_exhaustive env.fnm (·.lang ≠ []) v.locs path with ⟨w, hw⟩ | hno
    · rw [(C15_lang env.fnm v path).1 w hw] at hl
      cases hl; exact (hfit w (.inr (firstSet_mem hw))).1
    · rw [(C15_lang env.fnm v path).2 hno] at hl
      split at hl
      · cases hl
      · cases hl; exact (hfit _ (.inl rfl)).1
  · intro nm m hne hm
    rcases type_of h v nm hne m hm with ⟨_, e, _, h1, _, rfl⟩ | ⟨_, _, _, _, rfl⟩ | ⟨_, h1⟩
    · have := ((serving_types h).2.2 e h1).1; omega
    · simp
    · rcases h1 with ⟨l, h2, rfl⟩ | ⟨_, rfl⟩
      · have := (hfit l (.inr (firstSet_mem h2))).2; omega
      · split
        · simp
        · have := (hfit _ (.inl rfl)).2; omega

/-- gg, on a reply with the code 20 -/
theorem gg_success (t body : Bytes) (hcr : (13 : UInt8) ∉ t) (hl : t.length ≤ 1024) (script : List TRead) (quiet : Bool)
    (hs : stream script = (b%"20 " ++ t ++ b%"\r\n" ++ body, true)) : ggReply .none quiet script = { out := body, status := 0 } := by
  let r : Reply := { d1 := c%'2', d2 := c%'0', text := t, body := body }
  have hr : r.WF := ⟨by show (48 : UInt8) ≤ 50 ∧ (50 : UInt8) ≤ 57; decide, by show (48 : UInt8) ≤ 48 ∧ (48 : UInt8) ≤ 57; decide, fun a b => noCr_crlf _ hcr a b⟩
  have hhl : r.header.length + 2 ≤ 2048 := by
    show ([c%'2', c%'0', 32] ++ t).length + 2 ≤ 2048
    simp; omega
  have hbytes : r.bytes = b%"20 " ++ t ++ b%"\r\n" ++ body := by simp [r, Reply.bytes, Reply.header]
  rw [← hbytes] at hs
  rw [(C58_gg_reply script r hr hhl quiet hs).1]
  simp [r, Reply.status, ggExit]

/-- what is sent of a directory with an index file -/
theorem index_core (h : Serving penv files loadCa openDir txt ds c env) (hfd : ∀ p fd, openDir p = some fd → fd ≠ -1)
    (url : Bytes) (i : Iri) (decoded : Bytes) (ha : Asks env url [] i decoded)
    (sni : Option Bytes) (name : Bytes) (hneg : Negotiated env sni name)
    (x : Bytes × List SrvOpt) (hx : LastServer env.fnm ds name x) (ho : OptsFirst x.2)
    (v : Vhost) (hv : v = hostIn penv files loadCa openDir c x)
    (dir nm : Bytes) (hff : ForFiles env v name i decoded dir nm)
    (fd : Int) (hopen : env.openat (dirIn openDir dir) nm = some fd) (hk : env.fstat fd = some .dir)
    (hs : Slashed i.path) (idx : Bytes) (hidx : IndexIs env.fnm v i.path idx) (hlen : i.path.length + idx.length ≤ 4095)
    (fd' : Int) (hopen' : env.openat fd idx = some fd') (hk' : env.fstat fd' = some .reg)
    (bufsiz : Nat) (hbuf : 0 < bufsiz) :
    ∃ c1 m s, step env bufsiz (.read (url ++ b%"\r\n")) (handshakeDone env sni {}) = .ok c1 ∧ c1.pfd = fd' ∧
      TypeIs env.fnm ds v (i.path ++ idx) m ∧ LangSuffix env.fnm v i.path m s ∧ (m ++ s).length ≤ 1024 ∧
      ∀ (file : Bytes) (evs : List (Env × SendEv)), ∃ c' unread, sendRun bufsiz evs (c1, file) = .ok (c', unread) ∧
        (∃ rest, c'.sent ++ rest = b%"20 " ++ m ++ s ++ b%"\r\n" ++ file) ∧
        (2 * (b%"20 " ++ m ++ s ++ b%"\r\n").length + 3 * file.length + 2 ≤ progress evs → c'.closed = true) ∧
        (c'.closed = true → c'.sent = b%"20 " ++ m ++ s ++ b%"\r\n" ++ file) := by
  obtain ⟨cc, e1, e2, e3, e4, e5, e6, _, _, _, _, e⟩ := forFiles_step h hfd sni name hneg x hx ho v hv url i decoded ha dir nm hff bufsiz
  have hi : vhostIndex env.fnm (some v) (some i.path) = idx := by
    rcases hidx with ⟨l, h1, rfl⟩ | ⟨h1, rfl⟩
    · exact (C15_index env.fnm v i.path).1 l h1
    · exact (C15_index env.fnm v i.path).2 h1
  have hine : idx ≠ [] := by
    rcases hidx with ⟨l, ⟨_, _, _, h1, _⟩, rfl⟩ | ⟨_, rfl⟩
    · exact h1
    · split
      · decide
      · assumption
  have hne : i.path ++ idx ≠ [] := by simp [hine]
  obtain ⟨m, hm⟩ := mimeType_ok env.fnm env.mimes (some v) (i.path ++ idx) hne
  obtain ⟨hb1, hb2⟩ := serving_bounds h name x hx v hv i.path
  rw [hopen] at e
  simp only [hk] at e
  rw [Gmid.openDir, if_neg (by
    rcases hs with k | k
    · simp [k]
    · simp [(endsWith_slash _).2 k])] at e
  have htake : (i.path ++ idx).take 4095 = i.path ++ idx := List.take_of_length_le (by simp; omega)
  generalize hccd : ({ cc with pfd := fd', effs := cc.effs ++ [.openat fd idx], type := .file } : Client) = cd at *
  have he : step env bufsiz (.read (url ++ b%"\r\n")) (handshakeDone env sni {}) = .ok (startReply env cd 20 m) := by
    rw [e, ← hccd]
    simp only [e1, hi, hopen', hk', htake, hm]
  have hsf := startReply_file env cd v i m (by rw [← hccd]) (by rw [← hccd]; exact e1) (by rw [← hccd]; exact e2) (hb2 _ m hne hm) hb1
  generalize hsuf : langPart (if m = b%"text/gemini" then vhostLang env.fnm (some v) (some i.path) else none) = s at hsf
  have hls : LangSuffix env.fnm v i.path m s := by rw [← hsuf]; exact langSuffix_of _ _ _ _
  have hsl : s.length ≤ 37 := by
    rw [← hsuf]
    split
    · cases hl : vhostLang env.fnm (some v) (some i.path) with
      | none => simp [langPart]
      | some l => have := hb1 l hl; simp [langPart]; omega
    · simp [langPart]
  have hty := type_of h v _ hne m hm
  have hrep := queueHeader_replied env cd 20 m (b%"20 " ++ m ++ s)
  rw [← hsf] at hrep
  refine ⟨_, m, s, he, by rw [hrep.pfd, ← hccd], hty, hls, by have := hb2 _ m hne hm; simp; omega, fun file evs => ?_⟩
  obtain ⟨c', u, s1, s2, s3, s4⟩ := C51_file_delivered bufsiz hbuf (b%"20 " ++ m ++ s ++ b%"\r\n") file (startReply env cd 20 m)
    (by rw [hrep.type, ← hccd]; rfl) (by rw [hrep.rcode]; decide) (by rw [hrep.closed, ← hccd]; exact e5) (by rw [hrep.sent, ← hccd]; exact e4)
    (by rw [hsf]; simp [queueHeader, ← hccd, e3]) evs
  exact ⟨c', u, s1, s2, s4, s3⟩

/-- **C136.** When it is a directory with an index file: gg writes exactly the bytes of that and exits with 0. (The type, that of the name
with the path before it, and the language have no CR, see C59.) -/
theorem C136_index (h : Serving penv files loadCa openDir txt ds c env) (hfd : ∀ p fd, openDir p = some fd → fd ≠ -1)
    (url : Bytes) (i : Iri) (decoded : Bytes) (ha : Asks env url [] i decoded)
    (name : Bytes) (hneg : Negotiated env (some i.host) name)
    (x : Bytes × List SrvOpt) (hx : LastServer env.fnm ds name x) (ho : OptsFirst x.2)
    (v : Vhost) (hv : v = hostIn penv files loadCa openDir c x)
    (dir nm : Bytes) (hff : ForFiles env v name i decoded dir nm)
    (fd : Int) (hopen : env.openat (dirIn openDir dir) nm = some fd) (hk : env.fstat fd = some .dir)
    (hs : Slashed i.path) (idx : Bytes) (hidx : IndexIs env.fnm v i.path idx) (hlen : i.path.length + idx.length ≤ 4095)
    (fd' : Int) (hopen' : env.openat fd idx = some fd') (hk' : env.fstat fd' = some .reg)
    (hcr : ∀ m s, TypeIs env.fnm ds v (i.path ++ idx) m → LangSuffix env.fnm v i.path m s → (13 : UInt8) ∉ m ++ s)
    (bufsiz : Nat) (hbuf : 0 < bufsiz) :
    ∃ line port, ggRequest env.isAddr url = .ok (line, i.host, port) ∧
      ∀ (ps : List (Env × Bytes)) (d : Bytes), (ps.map (·.2)).flatten ++ d = line → d ≠ [] →
        ∃ c1 m s, runEvents bufsiz (ps.map (fun p => (p.1, Ev.read p.2)) ++ [(env, .read d)]) (handshakeDone env (some i.host) {}) = .ok c1 ∧ c1.pfd = fd' ∧
          TypeIs env.fnm ds v (i.path ++ idx) m ∧ LangSuffix env.fnm v i.path m s ∧
          ∀ (file : Bytes) (evs : List (Env × SendEv)), ∃ c' unread, sendRun bufsiz evs (c1, file) = .ok (c', unread) ∧
            (∃ rest, c'.sent ++ rest = b%"20 " ++ m ++ s ++ b%"\r\n" ++ file) ∧
            (2 * (b%"20 " ++ m ++ s ++ b%"\r\n").length + 3 * file.length + 2 ≤ progress evs → c'.closed = true) ∧
            ∀ (script : List TRead) (quiet : Bool), c'.closed = true → stream script = (c'.sent, true) → ggReply .none quiet script = { out := file, status := 0 } := by
  obtain ⟨port, g1, g2⟩ := gg_asks ha bufsiz
  refine ⟨_, port, g1, fun ps d hcat hd0 => ?_⟩
  rw [g2 ps d hcat hd0]
  obtain ⟨c1, m, s, a1, a2, a3, a4, a5, a6⟩ := index_core h hfd url i decoded ha (some i.host) name hneg x hx ho v hv dir nm hff fd hopen hk hs idx hidx hlen fd' hopen' hk' bufsiz hbuf
  refine ⟨c1, m, s, a1, a2, a3, a4, fun file evs => ?_⟩
  obtain ⟨c', u, s1, s2, s4, s3⟩ := a6 file evs
  refine ⟨c', u, s1, s2, s4, fun script quiet hcl hst => ?_⟩
  exact gg_success (m ++ s) file (hcr m s a3 a4) (by simp only [List.length_append] at a5 ⊢; omega) script quiet (by rw [hst, s3 hcl]; simp)

/-- what is sent of a directory that is to be listed -/
theorem listing_core (h : Serving penv files loadCa openDir txt ds c env) (hfd : ∀ p fd, openDir p = some fd → fd ≠ -1)
    (url : Bytes) (i : Iri) (decoded : Bytes) (ha : Asks env url [] i decoded)
    (sni : Option Bytes) (name : Bytes) (hneg : Negotiated env sni name)
    (x : Bytes × List SrvOpt) (hx : LastServer env.fnm ds name x) (ho : OptsFirst x.2)
    (v : Vhost) (hv : v = hostIn penv files loadCa openDir c x)
    (dir nm : Bytes) (hff : ForFiles env v name i decoded dir nm)
    (fd : Int) (hopen : env.openat (dirIn openDir dir) nm = some fd) (hk : env.fstat fd = some .dir)
    (hs : Slashed i.path) (idx : Bytes) (hidx : IndexIs env.fnm v i.path idx) (hno : NoIndex env fd idx)
    (hon : ListingIs env.fnm v i.path true)
    (es : List Dirent) (hshort' : ∀ d ∈ es, d.name.length ≤ 255) (hscan : env.scandir fd (i.path = []) = some es) (bufsiz : Nat) :
    ∃ c1 s, step env bufsiz (.read (url ++ b%"\r\n")) (handshakeDone env sni {}) = .ok c1 ∧ LangSuffix env.fnm v i.path b%"text/gemini" s ∧ s.length ≤ 37 ∧
      ∀ (evs : List (Env × Ev)), (∀ e ∈ evs, Smooth e) → ∃ c', runEvents bufsiz evs c1 = .ok c' ∧
        (∃ rest, c'.sent ++ rest = b%"20 text/gemini" ++ s ++ b%"\r\n" ++ (b%"# Index of /" ++ i.path ++ b%"\n\n" ++ es.flatMap linkLine)) ∧
        ((b%"20 text/gemini" ++ s ++ b%"\r\n" ++ (b%"# Index of /" ++ i.path ++ b%"\n\n" ++ es.flatMap linkLine)).length + 2 ≤ accepts evs → c'.closed = true) ∧
        (c'.closed = true → c'.sent = b%"20 text/gemini" ++ s ++ b%"\r\n" ++ (b%"# Index of /" ++ i.path ++ b%"\n\n" ++ es.flatMap linkLine)) := by
  obtain ⟨cc, e1, e2, e3, e4, e5, e6, _, _, e9, _, e⟩ := forFiles_step h hfd sni name hneg x hx ho v hv url i decoded ha dir nm hff bufsiz
  obtain ⟨hb1, -⟩ := serving_bounds h name x hx v hv i.path
  rw [hopen] at e
  simp only [hk] at e
  rw [noIndex_step { cc with pfd := fd } v i e1 hs idx hidx hno] at e
  have hauto : vhostAutoIndex env.fnm (some v) (some i.path) = true := by
    rcases hon with ⟨l, h1, h2⟩ | ⟨h1, h2⟩
    · exact ((C15_auto_index env.fnm v i.path).1 l h1).2 (h2.1 rfl)
    · exact ((C15_auto_index env.fnm v i.path).2 h1).2 (h2.1 rfl)
  generalize hcd : ({ cc with pfd := fd, effs := cc.effs ++ [.openat fd idx], dir := es, type := .dir } : Client) = cd
  have hl : dirListing env { cc with pfd := fd, effs := cc.effs ++ [.openat fd idx] } i =
      { startReply env cd 20 b%"text/gemini" with out := (startReply env cd 20 b%"text/gemini").out ++ (b%"# Index of /" ++ i.path ++ b%"\n\n") } := by
    rw [← hcd]
    have hr : (decide (i.path = b%"/") || decide (i.path = [])) = decide (i.path = []) := by simp [e9]
    simp only [dirListing, e1, hauto, Bool.not_true, Bool.false_eq_true, if_false, hr, hscan]
  rw [hl] at e
  have hp : cd.path? = some i.path := by rw [← hcd]; simp [Client.path?, e2]
  have hh : cd.host = some v := by rw [← hcd]; exact e1
  have ht : cd.type = .dir := by rw [← hcd]
  generalize hsuf : langPart (vhostLang env.fnm (some v) (some i.path)) = s
  have hls : LangSuffix env.fnm v i.path b%"text/gemini" s := by
    rw [← hsuf]
    have := langSuffix_of env.fnm v i.path b%"text/gemini"
    rwa [if_pos rfl] at this
  have hsl : s.length ≤ 37 := by
    rw [← hsuf]
    cases hl : vhostLang env.fnm (some v) (some i.path) with
    | none => simp [langPart]
    | some l => have := hb1 l hl; simp [langPart]; omega
  have hsr : startReply env cd 20 b%"text/gemini" = queueHeader env cd 20 b%"text/gemini" (b%"20 text/gemini" ++ s) := by
    unfold startReply
    rw [← hsuf] at hsl ⊢
    simp only [hp, hh, ht]
    cases hl : vhostLang env.fnm (some v) (some i.path) with
    | none => simp [langPart, intDec_20]
    | some l =>
      have := hb1 l hl
      simp [langPart, intDec_20]
      omega
  have hrep := queueHeader_replied env cd 20 b%"text/gemini" (b%"20 text/gemini" ++ s)
  rw [← hsr] at hrep
  refine ⟨_, s, e, hls, hsl, fun evs hev => ?_⟩
  obtain ⟨c', k1, ⟨rest, k2⟩, k3, k4⟩ := C52_listing_delivered bufsiz es hshort'
    { startReply env cd 20 b%"text/gemini" with out := (startReply env cd 20 b%"text/gemini").out ++ (b%"# Index of /" ++ i.path ++ b%"\n\n") }
    (by show (startReply env cd 20 b%"text/gemini").type = _; rw [hrep.type, ht]; rfl)
    (by show (startReply env cd 20 b%"text/gemini").dir = _; rw [hsr, ← hcd]; rfl)
    (by show (startReply env cd 20 b%"text/gemini").code ≠ 0; rw [hrep.rcode]; decide)
    (by show (startReply env cd 20 b%"text/gemini").closed = _; rw [hrep.closed, ← hcd]; exact e5)
    (by show (startReply env cd 20 b%"text/gemini").sent = _; rw [hrep.sent, ← hcd]; exact e4) evs hev
  have hout : (startReply env cd 20 b%"text/gemini").out = b%"20 text/gemini" ++ s ++ b%"\r\n" := by
    rw [hsr]; simp [queueHeader, ← hcd, e3]
  dsimp only at k2 k3 k4
  rw [hout] at k2 k3 k4
  have hassoc : b%"20 text/gemini" ++ s ++ b%"\r\n" ++ (b%"# Index of /" ++ i.path ++ b%"\n\n") ++ es.flatMap linkLine =
      b%"20 text/gemini" ++ s ++ b%"\r\n" ++ (b%"# Index of /" ++ i.path ++ b%"\n\n" ++ es.flatMap linkLine) := by simp
  rw [hassoc] at k2 k3
  refine ⟨c', k1, ⟨rest, k2⟩, fun ha => k4 ?_, fun hcl => by rw [k3 hcl]⟩
  rw [← hassoc, List.length_append] at ha; exact ha

/-- **C136.** When it is a directory without an index file, and `auto index` is on: gg writes a title and a link to each of the entries, in the order
of their names (C52_link says that a link leads to its entry), and exits with 0. -/
theorem C136_listing (h : Serving penv files loadCa openDir txt ds c env) (hfd : ∀ p fd, openDir p = some fd → fd ≠ -1)
    (url : Bytes) (i : Iri) (decoded : Bytes) (ha : Asks env url [] i decoded)
    (name : Bytes) (hneg : Negotiated env (some i.host) name)
    (x : Bytes × List SrvOpt) (hx : LastServer env.fnm ds name x) (ho : OptsFirst x.2)
    (v : Vhost) (hv : v = hostIn penv files loadCa openDir c x)
    (dir nm : Bytes) (hff : ForFiles env v name i decoded dir nm)
    (fd : Int) (hopen : env.openat (dirIn openDir dir) nm = some fd) (hk : env.fstat fd = some .dir)
    (hs : Slashed i.path) (idx : Bytes) (hidx : IndexIs env.fnm v i.path idx) (hno : NoIndex env fd idx)
    (hon : ListingIs env.fnm v i.path true)
    (entries es : List Dirent) (hshort : ∀ d ∈ entries, d.name.length ≤ 255) (alloc : Nat → Bool) (sort : List Dirent → List Dirent) (size : Nat) (hsort : Sorts sort)
    (hscan : env.scandir fd (i.path = []) = some es)
    (hes : scandirFd alloc sort size entries (if i.path = [] then selectNonDotdot else selectNonDot) = .ok es)
    (hcr : ∀ s, LangSuffix env.fnm v i.path b%"text/gemini" s → (13 : UInt8) ∉ s) (bufsiz : Nat) :
    es.Perm (entries.filter (fun d => Shown (i.path = []) d)) ∧ es.Pairwise (fun a b => strcmp a.name b.name ≠ .gt) ∧
    ∃ line port, ggRequest env.isAddr url = .ok (line, i.host, port) ∧
      ∀ (ps : List (Env × Bytes)) (d : Bytes), (ps.map (·.2)).flatten ++ d = line → d ≠ [] →
        ∃ c1 s, runEvents bufsiz (ps.map (fun p => (p.1, Ev.read p.2)) ++ [(env, .read d)]) (handshakeDone env (some i.host) {}) = .ok c1 ∧ LangSuffix env.fnm v i.path b%"text/gemini" s ∧
          ∀ (evs : List (Env × Ev)), (∀ e ∈ evs, Smooth e) → ∃ c', runEvents bufsiz evs c1 = .ok c' ∧
            (∃ rest, c'.sent ++ rest = b%"20 text/gemini" ++ s ++ b%"\r\n" ++ (b%"# Index of /" ++ i.path ++ b%"\n\n" ++ es.flatMap linkLine)) ∧
            ((b%"20 text/gemini" ++ s ++ b%"\r\n" ++ (b%"# Index of /" ++ i.path ++ b%"\n\n" ++ es.flatMap linkLine)).length + 2 ≤ accepts evs → c'.closed = true) ∧
            ∀ (script : List TRead) (quiet : Bool), c'.closed = true → stream script = (c'.sent, true) →
              ggReply .none quiet script = { out := b%"# Index of /" ++ i.path ++ b%"\n\n" ++ es.flatMap linkLine, status := 0 } := by
  have hsel : (if i.path = [] then selectNonDotdot else selectNonDot) =
      (if decide (i.path = []) = true then selectNonDotdot else selectNonDot) := by
    by_cases hp : i.path = [] <;> simp [hp]
  have hsd := (C52_scandir alloc sort hsort size entries (decide (i.path = []))).2 es (by rw [← hsel]; exact hes)
  refine ⟨hsd.1, hsd.2, ?_⟩
  have hshort' : ∀ d ∈ es, d.name.length ≤ 255 := fun d hd => hshort d (List.mem_filter.1 (hsd.1.mem_iff.1 hd)).1
  obtain ⟨port, g1, g2⟩ := gg_asks ha bufsiz
  refine ⟨_, port, g1, fun ps d hcat hd0 => ?_⟩
  rw [g2 ps d hcat hd0]
  obtain ⟨c1, s, a1, a2, a3, a4⟩ := listing_core h hfd url i decoded ha (some i.host) name hneg x hx ho v hv dir nm hff fd hopen hk hs idx hidx hno hon es hshort' hscan bufsiz
  refine ⟨c1, s, a1, a2, fun evs hev => ?_⟩
  obtain ⟨c', k1, k2, k3, k4⟩ := a4 evs hev
  exact ⟨c', k1, k2, k3, fun script quiet hcl hst =>
    gg_success (b%"text/gemini" ++ s) _ (by rw [List.mem_append, not_or]; exact ⟨by decide, hcr s a2⟩) (by simp; omega) script quiet (by rw [hst, k4 hcl]; simp)⟩

end

/-! ## a concrete case -/

def exFdTxt : Bytes := b%"types {\n text/x-a a\n}\nserver \"h\" {\n cert \"/c\"\n key \"/k\"\n root \"/d\"\n lang \"it\"\n location \"/pub/\" {\n auto index on\n }\n}\n"

def exFdSrv : Bytes × List SrvOpt :=
  (b%"h", [.cert b%"/c", .key b%"/k", .opt (.root b%"/d"), .opt (.lang b%"it"), .location b%"/pub/" [.autoIndex true]])

def exFdDs : List Directive := [.types [(b%"text/x-a", [b%"a"])], .server exFdSrv.1 exFdSrv.2]

def exFdC : CConf := (mainStart cfEnv (fun _ => none) exFdDs).getD confNew

/-- in the directory /d there are the directories pub, with the entries `es`, and sec, and the file index.gmi -/
def exFdEnv (es : List Dirent) : Env :=
  { exDepEnv with
    openat := fun d n => if d = 5 ∧ (n = b%"pub/" ∨ n = b%"pub") then some 11 else if d = 5 ∧ n = b%"sec/" then some 12
      else if d = 5 ∧ n = b%"." then some 13 else if d = 13 ∧ n = b%"index.gmi" then some 14 else none
    fstat := fun d => if d = 14 then some .reg else some .dir
    scandir := fun d root => if d = 11 ∧ root = false then some es else none
    hosts := exFdC.hosts.map (CHost.toVhost (caIn exDepFiles exDepCa) (dirIn exDepDir)) }

def exFdMs : List (Proc × CMsg CLoc (Bytes × Bytes) CProxy LAddr FcgiEp) := (mainConfigure exDepFiles (fun _ => true) (exFdC.toP false)).getD []
def exFdSt : Worker := ((recvAll exDepFiles exDepCa (fun _ => none) (fun _ => none) .server {} (forProc .server exFdMs) : Res Worker).val?).getD {}

theorem exFd_serving (es : List Dirent) : Serving cfEnv exDepFiles exDepCa exDepDir exFdTxt exFdDs exFdC (exFdEnv es) where
  resolves := cfEnv_ok.1
  says := ⟨80, (lexAll 80 (lexStart exFdTxt [])).dropLast,
    [.types [.names b%"text/x-a" [b%"a"]], .vhost (.server exFdSrv.1 exFdSrv.2)],
    by decide +kernel, pGrammar_iff.1 (by decide +kernel), rfl⟩
  runs := .inl ⟨fun _ => none, by decide +kernel⟩
  sent := ⟨false, fun _ => true, exFdMs, fun _ => none, fun _ => none, {}, exFdSt, by decide +kernel, by decide +kernel,
    ⟨⟨[⟨b%"text/x-a", b%"a"⟩], by decide +kernel, List.Perm.refl _, by simp [exFdEnv, exDepEnv]⟩, by
      have : loadVhosts exDepDir exFdSt.hosts = some (exFdC.hosts.map (CHost.toVhost (caIn exDepFiles exDepCa) (dirIn exDepDir))) := by decide +kernel
      exact this, by
      have : exFdSt.fcgi.length = 0 := by decide +kernel
      exact this.symm⟩⟩

theorem exFd_named (es : List Dirent) : LastServer (exFdEnv es).fnm exFdDs b%"h" exFdSrv ∧ OptsFirst exFdSrv.2 ∧ Negotiated (exFdEnv es) (some b%"h") b%"h" := by
  refine ⟨⟨[], [], rfl, ⟨b%"h", .inl rfl, rfl⟩, by simp⟩, ⟨exFdSrv.2.take 4, exFdSrv.2.drop 4, by decide, by decide, by decide⟩, ?_⟩
  exact .inl ⟨b%"h", b%"h", rfl, rfl, by decide, rfl⟩

def exFdHost : Vhost := hostIn cfEnv exDepFiles exDepCa exDepDir exFdC exFdSrv

theorem exFd_asks (es : List Dirent) (url path : Bytes) (h : c%'\n' ∉ url ∧ (0 : UInt8) ∉ url ∧ url.length ≤ 1024) (hp : parseIri (fun _ => false) url = .ok (exIriPath path)) :
    Asks (exFdEnv es) url [] (exIriPath path) b%"h" :=
  ⟨noCrlf_of _ h.1, by have := h.2.2; simp; omega, h.2.1, hp, rfl⟩

theorem exFd_files (es : List Dirent) (path nm : Bytes) (hn : NameFor 0 path nm) : ForFiles (exFdEnv es) exFdHost b%"h" (exIriPath path) b%"h" b%"/d" nm := by
  have hp : exFdHost.proxies = [] := by decide +kernel
  have hl : ∀ l ∈ exFdHost.locs, l.reqca = none ∧ l.blockCode = 0 ∧ l.fcgi = -1 ∧ l.nofcgi = false ∧ l.dir = [] ∧ l.strip = 0 := by decide +kernel
  have hd : exFdHost.dflt.reqca = none ∧ exFdHost.dflt.blockCode = 0 ∧ exFdHost.dflt.fcgi = -1 ∧ exFdHost.dflt.dir = b%"/d" ∧ exFdHost.dflt.strip = 0 := by decide +kernel
  exact {
    us := ⟨rfl, rfl⟩
    relay := by intro q hq; rw [hp] at hq; simp at hq
    cert := .inl ⟨fun l h k => k.1 (hl l h).1, hd.1⟩
    block := ⟨fun l h k => k.1 (hl l h).2.1, hd.2.1⟩
    fcgi := .inr ⟨fun l h k => by rcases k.1 with k | k <;> simp [(hl l h).2.2.1, (hl l h).2.2.2.1] at k, hd.2.2.1⟩
    some_dir := by decide
    dir_is := .inr ⟨fun l h k => k.1 (hl l h).2.2.2.2.1, hd.2.2.2.1⟩
    name_is := ⟨0, .inr ⟨fun l h k => k.1 (hl l h).2.2.2.2.2, hd.2.2.2.2⟩, hn⟩ }

theorem exFd_fd (p : Bytes) (fd : Int) (h : exDepDir p = some fd) : fd ≠ -1 := by
  simp only [exDepDir] at h; split at h <;> simp at h; omega

theorem exFd_index (es : List Dirent) (path : Bytes) : IndexIs (exFdEnv es).fnm exFdHost path b%"index.gmi" := by
  have hl : ∀ l ∈ exFdHost.locs, l.index = [] := by decide +kernel
  have hd : exFdHost.dflt.index = [] := by decide +kernel
  exact .inr ⟨fun l h k => k.1 (hl l h), by rw [hd]; rfl⟩

/-- C136_missing applies to gemini://h/gone, in two pieces -/
example (es : List Dirent) (evs : List (Env × Ev)) : ∃ c1 c', runEvents 4096 [(exFdEnv es, .read b%"gemini://h/"), (exFdEnv es, .read b%"gone\r\n")] (handshakeDone (exFdEnv es) (some b%"h") {}) = .ok c1 ∧
    runEvents 4096 evs c1 = .ok c' ∧ c'.sent ++ c'.out = b%"51 not found\r\n" := by
  obtain ⟨line, port, h1, h2⟩ := C136_missing (exFd_serving es) exFd_fd b%"gemini://h/gone" _ _ (exFd_asks es _ b%"gone" (by decide) (by decide +kernel)) b%"h" (exFd_named es).2.2 exFdSrv
    (exFd_named es).1 (exFd_named es).2.1 exFdHost rfl _ _ (exFd_files es b%"gone" b%"gone" ⟨fun _ => by decide, fun h => by omega⟩) rfl 4096
  have hline : ggRequest (exFdEnv es).isAddr b%"gemini://h/gone" = .ok (b%"gemini://h/gone\r\n", b%"h", b%"1965") := by
    have : ggRequest (fun _ => false) b%"gemini://h/gone" = .ok (b%"gemini://h/gone\r\n", b%"h", b%"1965") := by decide +kernel
    exact this
  rw [hline] at h1
  cases h1
  obtain ⟨c1, a1, a2⟩ := h2 [(exFdEnv es, b%"gemini://h/")] b%"gone\r\n" rfl (by decide)
  obtain ⟨c', b1, b2, _⟩ := a2 evs
  exact ⟨c1, c', a1, b1, b2⟩

/-- C136_redirect applies to gemini://h/pub -/
example (es : List Dirent) : ∃ line port, ggRequest (exFdEnv es).isAddr b%"gemini://h/pub" = .ok (line, b%"h", port) ∧
      ∀ (ps : List (Env × Bytes)) (d : Bytes), (ps.map (·.2)).flatten ++ d = line → d ≠ [] →
        ∃ c1, runEvents 4096 (ps.map (fun p => (p.1, Ev.read p.2)) ++ [(exFdEnv es, .read d)]) (handshakeDone (exFdEnv es) (some b%"h") {}) = .ok c1 ∧
          ∀ evs, ∃ c', runEvents 4096 evs c1 = .ok c' ∧ c'.sent ++ c'.out = b%"30 /pub/\r\n" ∧
            ∀ (script : List TRead), c'.out = [] → stream script = (c'.sent, true) → ggReply .none false script = { out := [], status := 30, says := some b%"/pub/" } := by
  obtain ⟨line, port, h1, h2⟩ := C136_redirect (exFd_serving es) exFd_fd b%"gemini://h/pub" _ _ (exFd_asks es _ b%"pub" (by decide) (by decide +kernel)) b%"h" (exFd_named es).2.2 exFdSrv
    (exFd_named es).1 (exFd_named es).2.1 exFdHost rfl _ _ (exFd_files es b%"pub" b%"pub" ⟨fun _ => by decide, fun h => by omega⟩) 11 rfl rfl (by unfold Slashed; decide) (by decide) 4096
  refine ⟨line, port, h1, fun ps d hc hd => ?_⟩
  obtain ⟨c1, a1, a2⟩ := h2 ps d hc hd
  refine ⟨c1, a1, fun evs => ?_⟩
  obtain ⟨c', b1, b2, b3⟩ := a2 evs
  exact ⟨c', b1, b2, fun script q1 q2 => b3 script false q1 q2⟩

/-- C136_unlisted applies to gemini://h/sec/ -/
example (es : List Dirent) : ∃ line port, ggRequest (exFdEnv es).isAddr b%"gemini://h/sec/" = .ok (line, b%"h", port) ∧
      ∀ (ps : List (Env × Bytes)) (d : Bytes), (ps.map (·.2)).flatten ++ d = line → d ≠ [] →
        ∃ c1, runEvents 4096 (ps.map (fun p => (p.1, Ev.read p.2)) ++ [(exFdEnv es, .read d)]) (handshakeDone (exFdEnv es) (some b%"h") {}) = .ok c1 ∧
          ∀ evs, ∃ c', runEvents 4096 evs c1 = .ok c' ∧ c'.sent ++ c'.out = b%"51 not found\r\n" := by
  have hoff : ListingIs (exFdEnv es).fnm exFdHost b%"sec/" false := by
    have hl : ∀ l ∈ exFdHost.locs, l.pat = b%"pub/" := by decide +kernel
    have hd : exFdHost.dflt.autoIndex = 0 := by decide +kernel
    refine .inr ⟨fun l h k => ?_, by rw [hd]; decide⟩
    have := (locMatches_iff _ _ _).2 k.2
    rw [hl l h] at this
    have he : pmatch (exFdEnv es).fnm b%"pub/" b%"sec/" = false := rfl
    rw [he] at this
    cases this
  obtain ⟨line, port, h1, h2⟩ := C136_unlisted (exFd_serving es) exFd_fd b%"gemini://h/sec/" _ _ (exFd_asks es _ b%"sec/" (by decide) (by decide +kernel)) b%"h" (exFd_named es).2.2 exFdSrv
    (exFd_named es).1 (exFd_named es).2.1 exFdHost rfl _ _ (exFd_files es b%"sec/" b%"sec/" ⟨fun _ => by decide, fun h => by omega⟩) 12 rfl rfl (.inr (by decide))
    b%"index.gmi" (exFd_index es _) (.inl rfl) hoff 4096
  refine ⟨line, port, h1, fun ps d hc hd => ?_⟩
  obtain ⟨c1, a1, a2⟩ := h2 ps d hc hd
  refine ⟨c1, a1, fun evs => ?_⟩
  obtain ⟨c', b1, b2, b3⟩ := a2 evs
  exact ⟨c', b1, b2⟩

/-- C136_index applies to gemini://h/ -/
example (es : List Dirent) (file : Bytes) : ∃ line port, ggRequest (exFdEnv es).isAddr b%"gemini://h/" = .ok (line, b%"h", port) ∧
      ∀ (ps : List (Env × Bytes)) (d : Bytes), (ps.map (·.2)).flatten ++ d = line → d ≠ [] →
        ∃ c1, runEvents 4096 (ps.map (fun p => (p.1, Ev.read p.2)) ++ [(exFdEnv es, .read d)]) (handshakeDone (exFdEnv es) (some b%"h") {}) = .ok c1 ∧
          ∀ evs, ∃ c' unread, sendRun 4096 evs (c1, file) = .ok (c', unread) ∧
            ∀ (script : List TRead), c'.closed = true → stream script = (c'.sent, true) → ggReply .none false script = { out := file, status := 0 } := by
  have hl : ∀ l ∈ exFdHost.locs, l.lang = [] ∧ l.defaultMime = [] := by decide +kernel
  have hd2 : exFdHost.dflt.lang = b%"it" ∧ exFdHost.dflt.defaultMime = [] ∧ ∀ e ∈ typesIn exFdDs, (13 : UInt8) ∉ e.mime := by decide +kernel
  obtain ⟨line, port, h1, h2⟩ := C136_index (exFd_serving es) exFd_fd b%"gemini://h/" _ _ (exFd_asks es _ [] (by decide) (by decide +kernel)) b%"h" (exFd_named es).2.2 exFdSrv
    (exFd_named es).1 (exFd_named es).2.1 exFdHost rfl _ _ (exFd_files es [] b%"." ⟨fun _ => by decide, fun h => by omega⟩) 13 rfl rfl (.inl rfl)
    b%"index.gmi" (exFd_index es _) (by decide) 14 rfl rfl (by
      intro m s hm hs
      have hmok : (13 : UInt8) ∉ m := by
        rcases hm with ⟨_, e, _, h1, _, rfl⟩ | ⟨_, _, _, _, rfl⟩ | ⟨_, ⟨l, h1, _⟩ | ⟨_, rfl⟩⟩
        · exact hd2.2.2 e h1
        · decide
        · exact absurd (hl l (firstSet_mem h1)).2 (by obtain ⟨_, _, _, h2, _⟩ := h1; exact h2)
        · rw [hd2.2.1, if_pos rfl]; decide
      have hsok : (13 : UInt8) ∉ s := by
        rcases hs with ⟨_, l, h1, _⟩ | ⟨_, _, _, rfl⟩ | ⟨_, rfl⟩
        · exact absurd (hl l (firstSet_mem h1)).1 (by obtain ⟨_, _, _, h2, _⟩ := h1; exact h2)
        · rw [hd2.1]; decide
        · decide
      rw [List.mem_append, not_or]; exact ⟨hmok, hsok⟩) 4096 (by decide)
  refine ⟨line, port, h1, fun ps d hc hd => ?_⟩
  obtain ⟨c1, m, s, a1, -, -, -, a2⟩ := h2 ps d hc hd
  refine ⟨c1, a1, fun evs => ?_⟩
  obtain ⟨c', u, b1, -, -, b3⟩ := a2 file evs
  exact ⟨c', u, b1, fun script q1 q2 => b3 script false q1 q2⟩

/-- C136_listing applies to gemini://h/pub/, whatever there is in it -/
example (entries : List Dirent) (hshort : ∀ d ∈ entries, d.name.length ≤ 255) (hlen : entries.length < 2 ^ 59) (sort : List Dirent → List Dirent) (hsort : Sorts sort) :
    ∃ es, es.Perm (entries.filter fun d => d.name != b%".") ∧ ∃ line port, ggRequest (exFdEnv es).isAddr b%"gemini://h/pub/" = .ok (line, b%"h", port) ∧
      ∀ (ps : List (Env × Bytes)) (d : Bytes), (ps.map (·.2)).flatten ++ d = line → d ≠ [] →
        ∃ c1, runEvents 4096 (ps.map (fun p => (p.1, Ev.read p.2)) ++ [(exFdEnv es, .read d)]) (handshakeDone (exFdEnv es) (some b%"h") {}) = .ok c1 ∧
          ∀ evs, (∀ e ∈ evs, Smooth e) → ∃ c', runEvents 4096 evs c1 = .ok c' ∧
            ∀ (script : List TRead), c'.closed = true → stream script = (c'.sent, true) →
              ggReply .none false script = { out := b%"# Index of /pub/\n\n" ++ es.flatMap linkLine, status := 0 } := by
  obtain ⟨es, hes⟩ := C52_scandir_succeeds sort 0 entries selectNonDot (by decide) hlen
  have hl : ∀ l ∈ exFdHost.locs, l.lang = [] := by decide +kernel
  have hd2 : exFdHost.dflt.lang = b%"it" := by decide +kernel
  have hlocs : exFdHost.locs = [{ pat := b%"pub/", autoIndex := 1, fcgi := -1, dirfd := -1 : Location }] := by decide +kernel
  obtain ⟨p1, -, line, port, h1, h2⟩ := C136_listing (exFd_serving es) exFd_fd b%"gemini://h/pub/" _ _ (exFd_asks es _ b%"pub/" (by decide) (by decide +kernel)) b%"h" (exFd_named es).2.2 exFdSrv
    (exFd_named es).1 (exFd_named es).2.1 exFdHost rfl _ _ (exFd_files es b%"pub/" b%"pub/" ⟨fun _ => by decide, fun h => by omega⟩) 11 rfl rfl (.inr (by decide))
    b%"index.gmi" (exFd_index es _) (.inl rfl)
    (.inl ⟨_, ⟨[], [], hlocs, by decide, (locMatches_iff _ _ _).1 rfl, by simp⟩, by decide⟩)
    entries es hshort (fun _ => true) sort 0 hsort (by simp [exFdEnv, exIriPath]) hes (by
      intro s hs
      rcases hs with ⟨_, l, h1, _⟩ | ⟨_, _, _, rfl⟩ | ⟨_, rfl⟩
      · exact absurd (hl l (firstSet_mem h1)) (by obtain ⟨_, _, _, h2, _⟩ := h1; exact h2)
      · rw [hd2]; decide
      · decide) 4096
  refine ⟨es, ?_, line, port, h1, fun ps d hc hd => ?_⟩
  · have hf : (fun d => Shown (decide ((exIriPath b%"pub/").path = [])) d) = fun d : Dirent => d.name != b%"." := by
      funext d; simp [Shown, exIriPath]
    rw [hf] at p1; exact p1
  obtain ⟨c1, s, a1, -, a2⟩ := h2 ps d hc hd
  refine ⟨c1, a1, fun evs hev => ?_⟩
  obtain ⟨c', b1, -, -, b3⟩ := a2 evs hev
  exact ⟨c', b1, fun script q1 q2 => b3 script false q1 q2⟩

end Gmid.Props
