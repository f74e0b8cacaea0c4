import Verif.Props.FetchDir
import Verif.Props.DeployCgi

/-!
# C137: an application at the end of the URL
-/

set_option autoImplicit false

namespace Gmid.Props
open Gmid.Spec

section
variable {penv : PEnv} {files : Bytes → Option Bytes} {loadCa : Bytes → Option Nat} {openDir : Bytes → Option Int}
  {txt : Bytes} {ds : List Directive} {c : CConf} {env : Env}

/-- what follows a text of at most 1024 bytes leaves a line that gg accepts -/
theorem suffix_room {fnm : Bytes → Bytes → Bool} {v : Vhost} {path m suffix : Bytes} (hfit : ∀ l, (l = v.dflt ∨ l ∈ v.locs) → l.lang.length ≤ 31)
    (hs : LangSuffix fnm v path m suffix) (hm : m.length ≤ 1024) : (m ++ suffix).length ≤ 1024 := by
  rcases hs with ⟨rfl, l, h1, rfl⟩ | ⟨rfl, _, _, rfl⟩ | ⟨_, rfl⟩
  · have := hfit l (.inr (firstSet_mem h1))
    simp; omega
  · have := hfit v.dflt (.inl rfl)
    simp; omega
  · simpa using hm

theorem mem_cstr {s : Bytes} {x : UInt8} (h : x ∈ cstr s) : x ∈ s := by
  unfold cstr at h
  exact (List.takeWhile_sublist _).mem h

/-- **C137, in part.** gmid runs with a configuration file, and gg is given a URL for which a server of the file has a FastCGI application. The line gg sends, however it is cut (`qs`, `d`), makes gmid contact
that application, and it is told the resource, the client and the parameters of the file. And whatever the application answers, in whatever records and at whatever pace
(`evs`), gg, however the reply is cut (`script`): writes the body and exits with 0, when the application answers with a 20; writes nothing and exits with the code of the application, and says
its text, when it answers with another; and exits with 42, when there is no header in what it answers.
(In part: the options of the server come before its locations (C70); replies with codes 21 to 29: C29_code_2x; the text and the language have no CR, see C59.) -/
theorem C137_application_partial (h : Serving penv files loadCa openDir txt ds c env) (st : Worker) (hst : HasWorker files loadCa openDir c env st)
    (url : Bytes) (i : Iri) (decoded : Bytes) (ha : Asks env url [] i decoded)
    (name : Bytes) (hneg : Negotiated env (some i.host) name)
    (x : Bytes × List SrvOpt) (hx : LastServer env.fnm ds name x) (ho : OptsFirst x.2)
    (v : Vhost) (hv : v = hostIn penv files loadCa openDir c x) (hu : ForUs i name decoded)
    (hn : NoRelay env.fnm v i.schema name i.port) (hc : CertOk env v i.path) (hb : NoBlock env.fnm v i.path)
    (os : List LocOpt) (e : Bytes × Option Bytes) (hcgi : CgiBlock env.fnm x.2 i.path os e)
    (hup : ∀ k, env.fcgiConnect k = true) (hbev : env.fcgiBev = true)
    (rhost software : Bytes) (hrh : rhost.length ≤ 1025) (hsw : software.length ≤ 1024)
    (hlang : ∀ l, (l = v.dflt ∨ l ∈ v.locs) → (13 : UInt8) ∉ l.lang) (bufsiz : Nat) :
    ∃ line port, ggRequest env.isAddr url = .ok (line, i.host, port) ∧
      ∀ (qs : List (Env × Bytes)) (d : Bytes), (qs.map (·.2)).flatten ++ d = line → d ≠ [] →
        ∃ c1 toApp ps, runEvents bufsiz (qs.map (fun p => (p.1, Ev.read p.2)) ++ [(env, .read d)]) (handshakeDone env (some i.host) {}) = .ok c1 ∧
          workerAsks env.fnm st name i rhost software none = some (endpoint e, toApp) ∧
          receivesRequest toApp 1 ps ∧ AppGets os (x.2.filterMap optOf) i rhost software none ps ∧
          ∀ (rs : List FRec), (∀ r ∈ rs, OutputRec r) →
            (∀ code text body, HasHeader (stdoutOf rs) code text body → (code < 21 ∨ 29 < code) ∧ (13 : UInt8) ∉ text) →
            ∀ (evs : List FEv) (tail : Bytes) (fin : Bool), evs.foldl fedBy ([], false) = (rs.flatMap FRec.wire ++ tail, fin) →
              ((∃ e junk, EndRec e ∧ tail = e.wire ++ junk) ∨ (tail = [] ∧ fin = true)) →
              ∃ f, fcgiRun env evs { c := c1 } = .ok f ∧
                ∀ (script : List TRead) (quiet : Bool), f.c.out = [] → stream script = (f.c.sent, true) →
                  (∀ text body, HasHeader (stdoutOf rs) 20 text body → ggReply .none quiet script = { out := body, status := 0 }) ∧
                  (∀ code text body, HasHeader (stdoutOf rs) code text body → code ≠ 20 → ∃ suffix, LangSuffix env.fnm v i.path (cstr text) suffix ∧
                    ggReply .none quiet script = { out := [], status := code, says := if quiet = false then some (cstr (cstr text ++ suffix)) else none }) ∧
                  ((¬ ∃ code text body, HasHeader (stdoutOf rs) code text body) →
                    ggReply .none quiet script = { out := [], status := 42, says := if quiet = false then some b%"CGI error" else none }) := by
  obtain ⟨port, g1, g2⟩ := gg_asks ha bufsiz
  obtain ⟨c1, k, l, toApp, ps, h1, _, _, h4, h5, h6, h7⟩ := C117_application_partial h st hst (some i.host) name hneg x hx ho v hv url [] i decoded ha hu hn hc hb os e hcgi hup hbev
    rhost software none hrh hsw (by simp) bufsiz
  rw [List.append_nil] at h1
  refine ⟨_, port, g1, fun qs d hcat hd0 => ⟨c1, toApp, ps, by rw [g2 qs d hcat hd0, h1], h4, h5, h6, ?_⟩⟩
  intro rs hrs hcode evs tail fin hev htail
  obtain ⟨f, f1, f2, f3⟩ := h7 rs hrs (fun code text body hh => (hcode code text body hh).1) evs tail fin hev htail
  refine ⟨f, f1, fun script quiet hout hs => ?_⟩
  rw [hout, List.append_nil] at f2 f3
  have hfit : ∀ l, (l = v.dflt ∨ l ∈ v.locs) → l.lang.length ≤ 31 := by
    intro l hl; rw [hv] at hl; exact (serving_fits h name x hx l hl).1
  have hscr : ∀ m suffix, LangSuffix env.fnm v i.path m suffix → (13 : UInt8) ∉ suffix := by
    intro m suffix hs
    rcases hs with ⟨_, l, h1, rfl⟩ | ⟨_, _, _, rfl⟩ | ⟨_, rfl⟩
    · have := hlang l (.inr (firstSet_mem h1)); simp [this]
    · have := hlang v.dflt (.inl rfl); simp [this]
    · simp
  have hline : ∀ code text body suffix, HasHeader (stdoutOf rs) code text body → LangSuffix env.fnm v i.path (cstr text) suffix →
      (cstr text ++ suffix).length ≤ 1024 ∧ (13 : UInt8) ∉ cstr text ++ suffix := by
    intro code text body suffix hh hsu
    have ht := (hcode code text body hh).2
    obtain ⟨d1, d2, _, _, _, _, _, _, _, hl, _, _⟩ := hh
    refine ⟨suffix_room hfit hsu (Nat.le_trans (cstr_length_le text) hl), ?_⟩
    rw [List.mem_append, not_or]
    exact ⟨fun k => ht (mem_cstr k), hscr _ _ hsu⟩
  refine ⟨fun text body hh => ?_, fun code text body hh hne => ?_, fun hno => ?_⟩
  · obtain ⟨suffix, hsu, hb⟩ := f2 20 text body hh
    obtain ⟨k1, k2⟩ := hline 20 text body suffix hh hsu
    refine gg_success (cstr text ++ suffix) body k2 k1 script quiet ?_
    rw [hs, hb, show intDec ((20 : Nat) : Int) = b%"20" by decide +kernel]
    simp
  · obtain ⟨suffix, hsu, hb⟩ := f2 code text body hh
    obtain ⟨k1, k2⟩ := hline code text body suffix hh hsu
    have hcd := (hcode code text body hh).1
    have hr : 10 ≤ code ∧ code < 70 := by obtain ⟨d1, d2, _, _, _, _, _, a, b, _⟩ := hh; exact ⟨a, b⟩
    refine ⟨suffix, hsu, ?_⟩
    have hb' : intDec (code : Int) = natDec code := by simp [intDec]
    refine gg_told code hr.1 (by omega) (by omega) (natDec code) (cstr text ++ suffix) (natDec_numeral code) k2 k1 script quiet ?_
    rw [hs, hb, hb', if_neg hne]
    simp
  · have := f3 hno
    exact gg_told 42 (by decide) (by decide) (by decide) (natDec 42) b%"CGI error" (natDec_numeral 42) (by decide) (by decide) script quiet (by
      rw [hs, this, show natDec 42 = b%"42" by decide +kernel]; decide)

/-- **C137.** When the application cannot be reached, gg exits with 42, and writes nothing. -/
theorem C137_unreachable (h : Serving penv files loadCa openDir txt ds c env) (st : Worker) (hst : HasWorker files loadCa openDir c env st)
    (url : Bytes) (i : Iri) (decoded : Bytes) (ha : Asks env url [] i decoded)
    (name : Bytes) (hneg : Negotiated env (some i.host) name)
    (x : Bytes × List SrvOpt) (hx : LastServer env.fnm ds name x) (ho : OptsFirst x.2)
    (v : Vhost) (hv : v = hostIn penv files loadCa openDir c x) (hu : ForUs i name decoded)
    (hn : NoRelay env.fnm v i.schema name i.port) (hc : CertOk env v i.path) (hb : NoBlock env.fnm v i.path)
    (os : List LocOpt) (e : Bytes × Option Bytes) (hcgi : CgiBlock env.fnm x.2 i.path os e)
    (hup : ∀ k, env.fcgiConnect k = false) (bufsiz : Nat) :
    ∃ line port, ggRequest env.isAddr url = .ok (line, i.host, port) ∧
      ∀ (qs : List (Env × Bytes)) (d : Bytes), (qs.map (·.2)).flatten ++ d = line → d ≠ [] →
        ∃ c1, runEvents bufsiz (qs.map (fun p => (p.1, Ev.read p.2)) ++ [(env, .read d)]) (handshakeDone env (some i.host) {}) = .ok c1 ∧
          ∀ evs, ∃ c', runEvents bufsiz evs c1 = .ok c' ∧ c'.sent ++ c'.out = b%"42 CGI error\r\n" ∧
            ∀ (script : List TRead) (quiet : Bool), c'.out = [] → stream script = (c'.sent, true) →
              ggReply .none quiet script = { out := [], status := 42, says := if quiet = false then some b%"CGI error" else none } := by
  obtain ⟨port, g1, g2⟩ := gg_asks ha bufsiz
  obtain ⟨c1, h1, _, h3⟩ := C117_unreachable h st hst (some i.host) name hneg x hx ho v hv url [] i decoded ha hu hn hc hb os e hcgi hup bufsiz
  rw [List.append_nil] at h1
  refine ⟨_, port, g1, fun qs d hcat hd0 => ⟨c1, by rw [g2 qs d hcat hd0, h1], fun evs => ?_⟩⟩
  obtain ⟨c', k1, k2⟩ := h3 evs
  refine ⟨c', k1, k2, fun script quiet hout hs => ?_⟩
  rw [hout, List.append_nil] at k2
  exact gg_told 42 (by decide) (by decide) (by decide) (natDec 42) b%"CGI error" (natDec_numeral 42) (by decide) (by decide) script quiet (by
    rw [hs, k2, show natDec 42 = b%"42" by decide +kernel]; decide)

end

/-- there is one header at most -/
theorem header_unique {o text text' body body' : Bytes} {code code' : Nat} (h : HasHeader o code text body) (h' : HasHeader o code' text' body') :
    code = code' ∧ text = text' ∧ body = body' := by
  obtain ⟨d1, d2, _, _, _, _, a5, _, _, a8, a9, a10⟩ := h
  obtain ⟨e1, e2, _, _, _, _, b5, _, _, b8, b9, b10⟩ := h'
  have k1 := (hdrOf_iff o (d1 :: d2 :: 32 :: text) body).2 ⟨by simpa using a10, a9, by simp; omega⟩
  have k2 := (hdrOf_iff o (e1 :: e2 :: 32 :: text') body').2 ⟨by simpa using b10, b9, by simp; omega⟩
  rw [k1] at k2
  simp only [Option.some.injEq, Prod.mk.injEq, List.cons.injEq, true_and] at k2
  obtain ⟨⟨rfl, rfl, rfl⟩, rfl⟩ := k2
  exact ⟨by rw [a5, b5], rfl, rfl⟩

/-! ## the hypotheses are met -/

theorem exCg_lang : ∀ l, (l = exCgHost.dflt ∨ l ∈ exCgHost.locs) → (13 : UInt8) ∉ l.lang := by
  have hl : ∀ l ∈ exCgHost.locs, (13 : UInt8) ∉ l.lang := by decide +kernel
  have hd : (13 : UInt8) ∉ exCgHost.dflt.lang := by decide +kernel
  rintro l (rfl | h)
  · exact hd
  · exact hl l h

theorem exCg_line (up : Bool) : ggRequest (exCgEnv up).isAddr b%"gemini://h/app/x" = .ok (b%"gemini://h/app/x\r\n", b%"h", b%"1965") := by
  have : ggRequest (fun _ => false) b%"gemini://h/app/x" = .ok (b%"gemini://h/app/x\r\n", b%"h", b%"1965") := by decide +kernel
  cases up <;> exact this

/-- C137_application_partial applies: gg sends its line in two pieces, the application answers in two records, and gg writes what it answers -/
example : ∃ c1 toApp f, runEvents 4096 [(exCgEnv true, .read b%"gemini://h/"), (exCgEnv true, .read b%"app/x\r\n")] (handshakeDone (exCgEnv true) (some b%"h") {}) = .ok c1 ∧
    workerAsks (exCgEnv true).fnm exCgSt b%"h" (exIriPath b%"app/x") b%"::1" b%"gmid/2" none = some (endpoint (b%"/run/app", none), toApp) ∧
    fcgiRun (exCgEnv true) [.data ((exOut b%"20 text/gemini\r").wire ++ (exOut b%"\n# hi").wire ++ exEndR.wire), .flush 100] { c := c1 } = .ok f ∧
    ∀ script, f.c.out = [] → stream script = (f.c.sent, true) → ggReply .none false script = { out := b%"# hi", status := 0 } := by
  obtain ⟨line, port, h1, h2⟩ := C137_application_partial (exCg_serving true) exCgSt (exCg_worker true) b%"gemini://h/app/x" _ _ (exCg_asks true).1 b%"h" (exCg_named true).2.2 exCgSrv
    (exCg_named true).1 (exCg_named true).2.1 exCgHost rfl ⟨rfl, rfl⟩ (exCg_free true []).1 (exCg_free true _).2.1 (exCg_free true _).2.2
    _ _ (exCg_block true) (fun _ => rfl) rfl b%"::1" b%"gmid/2" (by decide) (by decide) exCg_lang 4096
  have h1' := h1
  rw [show (exIriPath b%"app/x").host = b%"h" from rfl, exCg_line true] at h1'
  cases h1'
  obtain ⟨c1, toApp, ps, a1, a2, _, _, a3⟩ := h2 [(exCgEnv true, b%"gemini://h/")] b%"app/x\r\n" rfl (by decide)
  have e3 : stdoutOf [exOut b%"20 text/gemini\r", exOut b%"\n# hi"] = c%'2' :: c%'0' :: b%" text/gemini\r\n# hi" := by decide
  have hh : HasHeader (stdoutOf [exOut b%"20 text/gemini\r", exOut b%"\n# hi"]) 20 b%"text/gemini" b%"# hi" := by
    refine ⟨c%'2', c%'0', by decide, by decide, by decide, by decide, by decide, by decide, by decide, by decide, ?_, by decide⟩
    exact noCrlf_of _ (by decide)
  obtain ⟨f, f1, f2⟩ := a3 [exOut b%"20 text/gemini\r", exOut b%"\n# hi"] (by unfold OutputRec; decide)
    (by
      rintro code text body hb
      obtain ⟨rfl, rfl, rfl⟩ := header_unique hb hh
      exact ⟨.inl (by decide), by decide⟩)
    [.data ((exOut b%"20 text/gemini\r").wire ++ (exOut b%"\n# hi").wire ++ exEndR.wire), .flush 100] exEndR.wire false (by decide +kernel)
    (.inl ⟨exEndR, [], by unfold EndRec; decide, by simp⟩)
  exact ⟨c1, toApp, f, a1, a2, f1, fun script q1 q2 => (f2 script false q1 q2).1 _ _ hh⟩

/-- C137_unreachable applies -/
example (evs : List (Env × Ev)) : ∃ c1 c', runEvents 4096 [(exCgEnv false, .read b%"gemini://h/"), (exCgEnv false, .read b%"app/x\r\n")] (handshakeDone (exCgEnv false) (some b%"h") {}) = .ok c1 ∧
    runEvents 4096 evs c1 = .ok c' ∧ c'.sent ++ c'.out = b%"42 CGI error\r\n" := by
  obtain ⟨line, port, h1, h2⟩ := C137_unreachable (exCg_serving false) exCgSt (exCg_worker false) b%"gemini://h/app/x" _ _ (exCg_asks false).1 b%"h" (exCg_named false).2.2 exCgSrv
    (exCg_named false).1 (exCg_named false).2.1 exCgHost rfl ⟨rfl, rfl⟩ (exCg_free false []).1 (exCg_free false _).2.1 (exCg_free false _).2.2
    _ _ (exCg_block false) (fun _ => rfl) 4096
  have h1' := h1
  rw [show (exIriPath b%"app/x").host = b%"h" from rfl, exCg_line false] at h1'
  cases h1'
  obtain ⟨c1, a1, a2⟩ := h2 [(exCgEnv false, b%"gemini://h/")] b%"app/x\r\n" rfl (by decide)
  obtain ⟨c', b1, b2, _⟩ := a2 evs
  exact ⟨c1, c', a1, b1, b2⟩

end Gmid.Props
