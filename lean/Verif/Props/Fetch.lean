import Verif.Props.Deploy
import Verif.Props.Clients

/-!
# C133: gg gets from gmid what is there
-/

set_option autoImplicit false

namespace Gmid.Props
open Gmid.Spec

section
variable {penv : PEnv} {files : Bytes → Option Bytes} {loadCa : Bytes → Option Nat} {openDir : Bytes → Option Int}
  {txt : Bytes} {ds : List Directive} {c : CConf} {env : Env}

/-- no CR, no CRLF -/
theorem noCr_crlf (t : Bytes) (h : (13 : UInt8) ∉ t) (a b : Bytes) : t ≠ a ++ [13, 10] ++ b := by
  intro e; apply h; rw [e]; simp

/-- gg, on a reply that broke off, whatever there was of it -/
theorem gg_broken (r : Reply) (hr : r.WF) (hl : r.header.length + 2 ≤ 2048) (quiet : Bool) (script : List TRead) (p : Bytes)
    (hs : stream script = (p, false)) (hp : p <+: r.bytes) :
    (ggReply .none quiet script).status = 1 ∧ (ggReply .none quiet script).out <+: r.body := by
  by_cases hlen : p.length < 2048
  · rw [ggReply_of, hs]
    unfold ggOf
    rw [if_pos ⟨hlen, rfl⟩]
    exact ⟨rfl, List.nil_prefix⟩
  · have hh : r.header ++ b%"\r\n" <+: p :=
      List.prefix_of_prefix_length_le (⟨r.body, rfl⟩ : r.header ++ b%"\r\n" <+: r.bytes) hp (by simp; omega)
    obtain ⟨part, rfl⟩ := hh
    obtain ⟨k1, k2, -⟩ := C58_gg_broken script r hr hl quiet part hs
    have : part <+: r.body := by
      obtain ⟨q, hq⟩ := hp
      refine ⟨q, ?_⟩
      rw [Reply.bytes, List.append_assoc] at hq
      exact List.append_cancel_left hq
    exact ⟨k1, k2.trans this⟩

/-- **C133.** gmid runs with a configuration file; gg is given the URL of a file of one of its servers that nothing in the configuration keeps from the client (as in C112). Then the
line gg sends, however it is cut on its way (`ps`, `d`), makes the server send the file, at whatever pace (`evs`); if gg gets what was sent, however it is cut (`script`), it
writes exactly the bytes of the file and exits with 0; and if the connection breaks before the end, it exits with 1, and what it has written is a
beginning of the file. The server does get to the end. (The type and the language of the file in the configuration have no CR, see C59.) -/
theorem C133_file (h : Serving penv files loadCa openDir txt ds c env) (hfd : ∀ p fd, openDir p = some fd → fd ≠ -1)
    (url : Bytes) (i : Iri) (decoded : Bytes) (ha : Asks env url [] i decoded)
    (name : Bytes) (hneg : Negotiated env (some i.host) name) (hu : ForUs i name decoded)
    (x : Bytes × List SrvOpt) (hx : LastServer env.fnm ds name x) (ho : OptsFirst x.2)
    (v : Vhost) (hv : v = hostIn penv files loadCa openDir c x)
    (hn : NoRelay env.fnm v i.schema name i.port) (hc : CertOk env v i.path) (hb : NoBlock env.fnm v i.path) (hf : NoFcgi env.fnm v i.path)
    (dir : Bytes) (hd : dir ≠ []) (hdir : DirIs env.fnm v i.path dir)
    (strip : Int) (hstrip : StripIs env.fnm v i.path strip) (nm : Bytes) (hnm : NameFor strip i.path nm)
    (fd : Int) (hopen : env.openat (dirIn openDir dir) nm = some fd) (k : FKind) (hk : env.fstat fd = some k) (hkd : k ≠ .dir)
    (hcr : ∀ m s, TypeIs env.fnm ds v nm m → LangSuffix env.fnm v i.path m s → (13 : UInt8) ∉ m ++ s)
    (bufsiz : Nat) (hbuf : 0 < bufsiz) :
    ∃ line port, ggRequest env.isAddr url = .ok (line, i.host, port) ∧
      ∀ (ps : List (Env × Bytes)) (d : Bytes), (ps.map (·.2)).flatten ++ d = line → d ≠ [] →
        ∃ c1 bound, runEvents bufsiz (ps.map (fun p => (p.1, Ev.read p.2)) ++ [(env, .read d)]) (handshakeDone env (some i.host) {}) = .ok c1 ∧ c1.pfd = fd ∧
          ∀ (file : Bytes) (evs : List (Env × SendEv)), ∃ c' unread, sendRun bufsiz evs (c1, file) = .ok (c', unread) ∧
            (bound + 3 * file.length ≤ progress evs → c'.closed = true) ∧
            ∀ (script : List TRead) (quiet : Bool),
              (c'.closed = true → stream script = (c'.sent, true) → ggReply .none quiet script = { out := file, status := 0 }) ∧
              (∀ p, p <+: c'.sent → stream script = (p, false) → (ggReply .none quiet script).status = 1 ∧ (ggReply .none quiet script).out <+: file) := by
  have hroom : url.length ≤ 1024 := by have := ha.room; simp at this; omega
  refine ⟨url ++ b%"\r\n", if i.port = [] then b%"1965" else i.port, ?_, ?_⟩
  · simp only [ggRequest]
    rw [if_neg (by omega), if_neg (by omega), ha.parses]
  intro ps d hcat hd0
  have hlt : (ps.map (·.2)).flatten.length < (url ++ b%"\r\n").length := by
    rw [← hcat, List.length_append]
    have : 0 < d.length := List.length_pos_iff.2 hd0
    omega
  obtain ⟨c1, m, s, h1, h2, h3, h4, h5, h6⟩ := C112_file_partial h hfd (some i.host) name hneg x hx ho v hv url [] i decoded ha hu hn hc hb hf dir hd hdir strip hstrip
    nm hnm fd hopen k hk hkd bufsiz hbuf
  refine ⟨c1, 2 * (b%"20 " ++ m ++ s ++ b%"\r\n").length + 2, ?_, h2, ?_⟩
  · rw [C112_pieces ha (some i.host) bufsiz ps d (by rw [hcat]; simp) hlt]; exact h1
  intro file evs
  obtain ⟨c', unread, k1, ⟨tl, k2⟩, k3, k4⟩ := h6 file evs
  refine ⟨c', unread, k1, fun hp => k4 (by omega), ?_⟩
  have hnocr := hcr m s h3 h4
  let r : Reply := { d1 := c%'2', d2 := c%'0', text := m ++ s, body := file }
  have hr : r.WF := ⟨by show (48 : UInt8) ≤ 50 ∧ (50 : UInt8) ≤ 57; decide, by show (48 : UInt8) ≤ 48 ∧ (48 : UInt8) ≤ 57; decide, fun a b => noCr_crlf _ hnocr a b⟩
  have hhl : r.header.length + 2 ≤ 2048 := by
    show ([c%'2', c%'0', 32] ++ (m ++ s)).length + 2 ≤ 2048
    simp only [List.length_append] at h5 ⊢
    simp; omega
  have hbytes : r.bytes = b%"20 " ++ m ++ s ++ b%"\r\n" ++ file := by simp [r, Reply.bytes, Reply.header]
  intro script quiet
  refine ⟨fun hcl hs => ?_, fun p hp hs => ?_⟩
  · rw [k3 hcl, ← hbytes] at hs
    rw [(C58_gg_reply script r hr hhl quiet hs).1]
    simp [r, Reply.status, ggExit]
  · exact gg_broken r hr hhl quiet script p hs (hp.trans ⟨tl, by rw [k2, hbytes]⟩)

/-- two digits -/
theorem two_digits (n : Nat) (h1 : 10 ≤ n) (h2 : n < 100) (cd : Bytes) (h : Numeral n cd) :
    ∃ d1 d2 : UInt8, cd = [d1, d2] ∧ (48 ≤ d1 ∧ d1 ≤ 57) ∧ (48 ≤ d2 ∧ d2 ≤ 57) ∧ (d1.toNat - 48) * 10 + (d2.toNat - 48) = n := by
  have key : ∀ n : Fin 100, 10 ≤ n.val → ∃ d1 d2 : UInt8, natDec n.val = [d1, d2] ∧ (48 ≤ d1 ∧ d1 ≤ 57) ∧ (48 ≤ d2 ∧ d2 ≤ 57) ∧
      (d1.toNat - 48) * 10 + (d2.toNat - 48) = n.val := by
    intro n hn
    refine ⟨UInt8.ofNat (48 + n.val / 10), UInt8.ofNat (48 + n.val % 10), ?_⟩
    revert n
    decide +kernel
  obtain ⟨d1, d2, e, k⟩ := key ⟨n, h2⟩ h1
  exact ⟨d1, d2, by rw [numeral_unique n cd h, e], k⟩

/-- gg, on a reply without a body -/
theorem gg_told (code : Nat) (h1 : 10 ≤ code) (h2 : code < 100) (h3 : ¬ (20 ≤ code ∧ code < 30)) (cd text : Bytes) (hn : Numeral code cd) (hcr : (13 : UInt8) ∉ text)
    (hl : text.length ≤ 1024) (script : List TRead) (quiet : Bool) (hs : stream script = (cd ++ b%" " ++ text ++ b%"\r\n", true)) :
    ggReply .none quiet script = { out := [], status := code, says := if quiet = false then some (cstr text) else none } := by
  obtain ⟨d1, d2, rfl, k1, k2, k3⟩ := two_digits code h1 h2 cd hn
  let r : Reply := { d1 := d1, d2 := d2, text := text, body := [] }
  have hr : r.WF := ⟨k1, k2, fun a b => noCr_crlf _ hcr a b⟩
  have hhl : r.header.length + 2 ≤ 2048 := by
    show ([d1, d2, 32] ++ text).length + 2 ≤ 2048
    simp; omega
  have hst : r.status = code := k3
  rw [(C58_gg_reply script r hr hhl quiet (by rw [hs]; simp [r, Reply.bytes, Reply.header])).1, hst]
  have : code < 20 ∨ 30 ≤ code := by omega
  simp only [ggExit, if_neg h3, this, true_and]
  rfl

/-- **C133.** A `block return` in force for the URL: gg exits with its code, writes nothing, and (without -q) says its text, the variables in it replaced. -/
theorem C133_block (h : Serving penv files loadCa openDir txt ds c env)
    (url : Bytes) (i : Iri) (decoded : Bytes) (ha : Asks env url [] i decoded)
    (name : Bytes) (hneg : Negotiated env (some i.host) name) (hu : ForUs i name decoded)
    (x : Bytes × List SrvOpt) (hx : LastServer env.fnm ds name x) (ho : OptsFirst x.2)
    (v : Vhost) (hv : v = hostIn penv files loadCa openDir c x)
    (hn : NoRelay env.fnm v i.schema name i.port) (hc : CertOk env v i.path)
    (code : Int) (fmt : Bytes) (hb : BlockIs env.fnm v i.path code fmt) (hstrip : StripIs env.fnm v i.path 0)
    (port : Nat) (hp : port < 32768) (hport : env.port = port) (digits out : Bytes) (hnum : Numeral port digits)
    (hexp : Expands i.path i.query name digits fmt out) (hlen : out.length ≤ 1024) (hne : out ≠ b%"text/gemini") (hcr : (13 : UInt8) ∉ out) (bufsiz : Nat) :
    ∃ line port, ggRequest env.isAddr url = .ok (line, i.host, port) ∧
      ∀ (ps : List (Env × Bytes)) (d : Bytes), (ps.map (·.2)).flatten ++ d = line → d ≠ [] →
        ∃ c1, runEvents bufsiz (ps.map (fun p => (p.1, Ev.read p.2)) ++ [(env, .read d)]) (handshakeDone env (some i.host) {}) = .ok c1 ∧
          ∀ evs, ∃ c', runEvents bufsiz evs c1 = .ok c' ∧ ∀ (script : List TRead) (quiet : Bool), c'.out = [] → stream script = (c'.sent, true) →
            ggReply .none quiet script = { out := [], status := code.toNat, says := if quiet = false then some (cstr out) else none } := by
  have hroom : url.length ≤ 1024 := by have := ha.room; simp at this; omega
  refine ⟨url ++ b%"\r\n", if i.port = [] then b%"1965" else i.port, ?_, ?_⟩
  · simp only [ggRequest]
    rw [if_neg (by omega), if_neg (by omega), ha.parses]
  intro ps d hcat hd0
  have hlt : (ps.map (·.2)).flatten.length < (url ++ b%"\r\n").length := by
    rw [← hcat, List.length_append]
    have : 0 < d.length := List.length_pos_iff.2 hd0
    omega
  have hcode : 10 ≤ code ∧ code < 70 ∧ ¬ (20 ≤ code ∧ code ≤ 29) := by
    have hfit : ∀ l, (l = v.dflt ∨ l ∈ v.locs) → l.blockCode ≠ 0 → 10 ≤ l.blockCode ∧ l.blockCode < 70 ∧ ¬ (20 ≤ l.blockCode ∧ l.blockCode ≤ 29) := by
      intro l hl h0; rw [hv] at hl; have := (serving_fits h name x hx l hl).2.2; exact this.resolve_left h0
    rcases hb with ⟨l, h1, rfl, _⟩ | ⟨_, h1, rfl, _⟩
    · exact hfit l (.inr (firstSet_mem h1)) (by obtain ⟨_, _, _, h2, _⟩ := h1; exact h2)
    · exact hfit _ (.inl rfl) h1
  obtain ⟨c1, cd, h1, -, h3, h4⟩ := C112_block_partial h (some i.host) name hneg x hx ho v hv url [] i decoded ha hu hn hc code fmt hb hstrip port hp hport digits out hnum hexp
    hlen hne bufsiz
  refine ⟨c1, ?_, fun evs => ?_⟩
  · rw [C112_pieces ha (some i.host) bufsiz ps d (by rw [hcat]; simp) hlt]; exact h1
  obtain ⟨c', k1, k2⟩ := h4 evs
  refine ⟨c', k1, fun script quiet hout hs => ?_⟩
  rw [hout, List.append_nil] at k2
  exact gg_told code.toNat (by omega) (by omega) (by omega) cd out h3 hcr hlen script quiet (by rw [hs, k2])

/-- **C133.** A certificate is required and gg has none: it exits with 60; one that does not pass: with 61. -/
theorem C133_certificate (h : Serving penv files loadCa openDir txt ds c env)
    (url : Bytes) (i : Iri) (decoded : Bytes) (ha : Asks env url [] i decoded)
    (name : Bytes) (hneg : Negotiated env (some i.host) name) (hu : ForUs i name decoded)
    (x : Bytes × List SrvOpt) (hx : LastServer env.fnm ds name x) (ho : OptsFirst x.2)
    (v : Vhost) (hv : v = hostIn penv files loadCa openDir c x)
    (hn : NoRelay env.fnm v i.schema name i.port) (store : Nat) (hca : CaIs env.fnm v i.path store) (hno : env.certProvided = false ∨ env.verify store = 0) (bufsiz : Nat) :
    ∃ line port, ggRequest env.isAddr url = .ok (line, i.host, port) ∧
      ∀ (ps : List (Env × Bytes)) (d : Bytes), (ps.map (·.2)).flatten ++ d = line → d ≠ [] →
        ∃ c1, runEvents bufsiz (ps.map (fun p => (p.1, Ev.read p.2)) ++ [(env, .read d)]) (handshakeDone env (some i.host) {}) = .ok c1 ∧
          ∀ evs, ∃ c', runEvents bufsiz evs c1 = .ok c' ∧ ∀ (script : List TRead) (quiet : Bool), c'.out = [] → stream script = (c'.sent, true) →
            (ggReply .none quiet script).status = (if env.certProvided then 61 else 60) ∧ (ggReply .none quiet script).out = [] := by
  have hroom : url.length ≤ 1024 := by have := ha.room; simp at this; omega
  refine ⟨url ++ b%"\r\n", if i.port = [] then b%"1965" else i.port, ?_, ?_⟩
  · simp only [ggRequest]
    rw [if_neg (by omega), if_neg (by omega), ha.parses]
  intro ps d hcat hd0
  have hlt : (ps.map (·.2)).flatten.length < (url ++ b%"\r\n").length := by
    rw [← hcat, List.length_append]
    have : 0 < d.length := List.length_pos_iff.2 hd0
    omega
  obtain ⟨q1, q2⟩ := C112_certificate_partial h (some i.host) name hneg x hx ho v hv url [] i decoded ha hu hn store hca bufsiz
  rw [C112_pieces ha (some i.host) bufsiz ps d (by rw [hcat]; simp) hlt]
  have n60 : Numeral 60 b%"60" := by have := natDec_numeral 60; rwa [show natDec 60 = b%"60" by decide +kernel] at this
  have n61 : Numeral 61 b%"61" := by have := natDec_numeral 61; rwa [show natDec 61 = b%"61" by decide +kernel] at this
  cases hcp : env.certProvided with
  | false =>
    obtain ⟨c1, h1, -, h4⟩ := q1 hcp
    refine ⟨c1, h1, fun evs => ?_⟩
    obtain ⟨c', k1, k2⟩ := h4 evs
    refine ⟨c', k1, fun script quiet hout hs => ?_⟩
    rw [hout, List.append_nil] at k2
    rw [gg_told 60 (by decide) (by decide) (by decide) b%"60" b%"client certificate required" n60 (by decide) (by decide) script quiet (by rw [hs, k2]; rfl)]
    simp
  | true =>
    obtain ⟨c1, h1, -, h4⟩ := q2 hcp (hno.resolve_left (by simp [hcp]))
    refine ⟨c1, h1, fun evs => ?_⟩
    obtain ⟨c', k1, k2⟩ := h4 evs
    refine ⟨c', k1, fun script quiet hout hs => ?_⟩
    rw [hout, List.append_nil] at k2
    rw [gg_told 61 (by decide) (by decide) (by decide) b%"61" b%"certificate not authorised" n61 (by decide) (by decide) script quiet (by rw [hs, k2]; rfl)]
    simp

end

/-! ## The example of C112 -/

/-- C133_file applies to gemini://h/x.gmi, cut after five bytes -/
example (file : Bytes) (evs : List (Env × SendEv)) : ∃ c1, runEvents 4096 [(exDepEnv, .read b%"gemin"), (exDepEnv, .read b%"i://h/x.gmi\r\n")] (handshakeDone exDepEnv (some b%"h") {}) = .ok c1 ∧
    ∃ c' unread, sendRun 4096 evs (c1, file) = .ok (c', unread) ∧ ∀ (script : List TRead) (quiet : Bool),
      c'.closed = true → stream script = (c'.sent, true) → ggReply .none quiet script = { out := file, status := 0 } := by
  have hp : parseIri exDepEnv.isAddr b%"gemini://h/x.gmi" = .ok (exIriPath b%"x.gmi") := by decide +kernel
  have hv : (hostIn cfEnv exDepFiles exDepCa exDepDir exDepC exDepSrv).proxies = [] := by decide +kernel
  have hlocs : ∀ l ∈ (hostIn cfEnv exDepFiles exDepCa exDepDir exDepC exDepSrv).locs, ¬ LocMatches exDepEnv.fnm l b%"x.gmi" := by
    intro l hl
    rw [← locMatches_iff]
    revert l
    decide +kernel
  have hd : (hostIn cfEnv exDepFiles exDepCa exDepDir exDepC exDepSrv).dflt.blockCode = 0 ∧
      (hostIn cfEnv exDepFiles exDepCa exDepDir exDepC exDepSrv).dflt.fcgi = -1 ∧
      (hostIn cfEnv exDepFiles exDepCa exDepDir exDepC exDepSrv).dflt.reqca = none ∧
      (hostIn cfEnv exDepFiles exDepCa exDepDir exDepC exDepSrv).dflt.dir = b%"/d" ∧
      (hostIn cfEnv exDepFiles exDepCa exDepDir exDepC exDepSrv).dflt.strip = 0 := by decide +kernel
  have hd2 : (hostIn cfEnv exDepFiles exDepCa exDepDir exDepC exDepSrv).dflt.lang = b%"it" ∧
      (hostIn cfEnv exDepFiles exDepCa exDepDir exDepC exDepSrv).dflt.defaultMime = [] ∧ ∀ e ∈ typesIn exDepDs, (13 : UInt8) ∉ e.mime := by decide +kernel
  have hns : ∀ set : Location → Prop, NoneSet exDepEnv.fnm set (hostIn cfEnv exDepFiles exDepCa exDepDir exDepC exDepSrv).locs b%"x.gmi" :=
    fun set l hl h => hlocs l hl h.2
  have hno : ∀ (set : Location → Prop) (l : Location), ¬ FirstSet exDepEnv.fnm set (hostIn cfEnv exDepFiles exDepCa exDepDir exDepC exDepSrv).locs b%"x.gmi" l := by
    intro set l hl
    have hm := firstSet_mem hl
    obtain ⟨_, _, _, h1, h2, _⟩ := hl
    exact hns set l hm ⟨h1, h2⟩
  obtain ⟨line, port, h1, h2⟩ := C133_file exDep_serving (by intro p fd h; simp only [exDepDir] at h; split at h <;> simp at h; omega)
    b%"gemini://h/x.gmi" (exIriPath b%"x.gmi") b%"h" (exDep_asks _ _ (by decide) hp) b%"h" exDep_named.2.2 ⟨rfl, rfl⟩ exDepSrv exDep_named.1 exDep_named.2.1 _ rfl
    (by intro q hq; rw [hv] at hq; simp at hq) (.inl ⟨hns _, hd.2.2.1⟩) ⟨hns _, hd.1⟩ (.inr ⟨hns _, hd.2.1⟩)
    b%"/d" (by decide) (.inr ⟨hns _, hd.2.2.2.1⟩) 0 (.inr ⟨hns _, hd.2.2.2.2⟩) b%"x.gmi" ⟨fun _ => by decide, fun h => by omega⟩ 9 (by decide +kernel) .reg
    (by decide +kernel) (by decide) (by
      intro m s hm hs hin
      rcases List.mem_append.1 hin with hin | hin
      · rcases hm with ⟨_, e, _, h1, _, rfl⟩ | ⟨_, _, _, _, rfl⟩ | ⟨_, ⟨l, h1, _⟩ | ⟨_, rfl⟩⟩
        · exact hd2.2.2 e h1 hin
        · revert hin; decide
        · exact hno _ _ h1
        · rw [hd2.2.1, if_pos rfl] at hin; revert hin; decide
      · rcases hs with ⟨_, l, h1, _⟩ | ⟨_, _, _, rfl⟩ | ⟨_, rfl⟩
        · exact hno _ _ h1
        · rw [hd2.1] at hin; revert hin; decide
        · simp at hin) 4096 (by decide)
  have hline : ggRequest exDepEnv.isAddr b%"gemini://h/x.gmi" = .ok (b%"gemini://h/x.gmi\r\n", b%"h", b%"1965") := by decide +kernel
  rw [hline] at h1
  cases h1
  obtain ⟨c1, bound, k1, -, k2⟩ := h2 [(exDepEnv, b%"gemin")] b%"i://h/x.gmi\r\n" rfl (by decide)
  obtain ⟨c', u, k3, -, k4⟩ := k2 file evs
  exact ⟨c1, k1, c', u, k3, fun script quiet => (k4 script quiet).1⟩

end Gmid.Props
