import Verif.Props.DeployUp
import Verif.Props.Fetch

/-!
# C135: from one gmid to another
-/

set_option autoImplicit false

namespace Gmid.Props
open Gmid.Spec

section
variable {penv1 : PEnv} {files1 : Bytes → Option Bytes} {loadCa1 : Bytes → Option Nat} {openDir1 : Bytes → Option Int}
  {txt1 : Bytes} {ds1 : List Directive} {c1 : CConf} {env1 : Env}
  {penv2 : PEnv} {files2 : Bytes → Option Bytes} {loadCa2 : Bytes → Option Nat} {openDir2 : Bytes → Option Int}
  {txt2 : Bytes} {ds2 : List Directive} {c2 : CConf} {env2 : Env}

/-- a reply of a server, as the relay reads it -/
theorem reply_plain (d1 d2 : UInt8) (code : Nat) (hd1 : 48 ≤ d1 ∧ d1 ≤ 57) (hd2 : 48 ≤ d2 ∧ d2 ≤ 57) (hcode : (d1.toNat - 48) * 10 + (d2.toNat - 48) = code)
    (hr : 10 ≤ code ∧ code < 70 ∧ (code < 21 ∨ 29 < code)) (t body : Bytes) (hcr : (13 : UInt8) ∉ t) (h0 : (0 : UInt8) ∉ t) (hl : t.length ≤ 1024) :
    Plain (d1 :: d2 :: 32 :: t ++ b%"\r\n" ++ body) ∧ HasHeader (d1 :: d2 :: 32 :: t ++ b%"\r\n" ++ body) code t body := by
  have hne : ∀ d : UInt8, 48 ≤ d ∧ d ≤ 57 → d ≠ 13 ∧ d ≠ 0 := by decide +kernel
  have hno : (13 : UInt8) ∉ d1 :: d2 :: 32 :: t := by
    simp only [List.mem_cons, not_or]
    exact ⟨Ne.symm (hne d1 hd1).1, Ne.symm (hne d2 hd2).1, by decide, hcr⟩
  have hno0 : (0 : UInt8) ∉ d1 :: d2 :: 32 :: t := by
    simp only [List.mem_cons, not_or]
    exact ⟨Ne.symm (hne d1 hd1).2, Ne.symm (hne d2 hd2).2, by decide, h0⟩
  have huniq : ∀ line rest, d1 :: d2 :: 32 :: t ++ b%"\r\n" ++ body = line ++ [13, 10] ++ rest → NoCrlf line → line = d1 :: d2 :: 32 :: t := by
    generalize d1 :: d2 :: 32 :: t = hdr at hno
    intro line rest e hn
    have e : hdr ++ ([13, 10] ++ body) = line ++ ([13, 10] ++ rest) := by
      rw [← List.append_assoc, ← List.append_assoc]; exact e
    rcases List.append_eq_append_iff.1 e with ⟨as, k1, k2⟩ | ⟨bs, k1, k2⟩
    · cases as with
      | nil => simpa using k1
      | cons a as =>
        exfalso
        cases as with
        | nil =>
          simp at k2
        | cons b as =>
          simp at k2
          refine hn hdr (as ++ [13]) ?_
          rw [k1, ← k2.1, ← k2.2.1]
          simp
    · cases bs with
      | nil => simpa using k1.symm
      | cons b bs =>
        exfalso
        apply hno
        simp at k2
        rw [k1, ← k2.1]; simp
  have hnc : NoCrlf (d1 :: d2 :: 32 :: t) := by
    generalize d1 :: d2 :: 32 :: t = hdr at hno
    intro a b e
    have hp : a ++ [13] <+: hdr := by
      refine List.prefix_of_prefix_length_le (⟨[10] ++ b, by rw [e]; simp⟩ : a ++ [13] <+: hdr ++ [13]) ⟨[13], rfl⟩ ?_
      have := congrArg List.length e
      simp at this ⊢
      omega
    exact hno (hp.subset (by simp))
  refine ⟨⟨?_, ?_⟩, d1, d2, hd1.1, hd1.2, hd2.1, hd2.2, hcode.symm, hr.1, hr.2.1, hl, hnc, rfl⟩
  · intro line rest e hn
    rw [huniq line rest e hn]; exact hno0
  · rintro code' text rest ⟨e1, e2, s, _, _, _, _, _, hcode', _, _, _, hn, e⟩
    have := huniq (e1 :: e2 :: s :: text) rest (by rw [e]) hn
    simp at this
    obtain ⟨rfl, rfl, _⟩ := this
    rw [hcode', hcode]; exact hr.2.2

/-- **C135.** One gmid relays to another, each with a configuration file of its own, and gg is given the URL of a file that is behind the first one
(as in C116; the URL has at most 1023 bytes) and that the second one serves (as in C112). Then the first one sends to the second one a line that makes that send
the file, whatever way the line is cut; and if what the second one sent arrives at the first, and what that sent at gg, however cut, gg writes exactly the
bytes of the file and exits with 0. -/
theorem C135_file (h1 : Serving penv1 files1 loadCa1 openDir1 txt1 ds1 c1 env1)
    (url : Bytes) (i : Iri) (dec1 : Bytes) (ha : Asks env1 url [] i dec1) (hlen : url.length ≤ 1023)
    (hbr : c%'[' ∉ url) (h37 : ∀ pre post, url = pre ++ c%'%' :: post → c%'?' ∈ pre)
    (name1 : Bytes) (hneg1 : Negotiated env1 (some i.host) name1)
    (x1 : Bytes × List SrvOpt) (hx1 : LastServer env1.fnm ds1 name1 x1) (ho1 : OptsFirst x1.2)
    (y : List ProxyMatch × List ProxyOpt) (hy : FirstBlock penv1 env1.fnm x1.2 i.schema name1 i.port y) (hs : Shown env1 files1 loadCa1 y)
    (hnopp : ProxyOpt.proxyV1 ∉ y.2)
    (hup : ∀ p, RelayOf penv1 files1 loadCa1 y p → env1.relayConnect p = true ∧ env1.relayInit p = true)
    (h2 : Serving penv2 files2 loadCa2 openDir2 txt2 ds2 c2 env2) (haddr : env2.isAddr = env1.isAddr) (hfd : ∀ p fd, openDir2 p = some fd → fd ≠ -1)
    (sni2 : Option Bytes) (name2 : Bytes) (hneg2 : Negotiated env2 sni2 name2) (dec2 : Bytes) (hdec2 : env2.puny i.host = some dec2) (hu : ForUs i name2 dec2)
    (x2 : Bytes × List SrvOpt) (hx2 : LastServer env2.fnm ds2 name2 x2) (ho2 : OptsFirst x2.2)
    (v : Vhost) (hv : v = hostIn penv2 files2 loadCa2 openDir2 c2 x2)
    (hn : NoRelay env2.fnm v i.schema name2 []) (hc : CertOk env2 v i.path) (hb : NoBlock env2.fnm v i.path) (hf : NoFcgi env2.fnm v i.path)
    (dir : Bytes) (hd : dir ≠ []) (hdir : DirIs env2.fnm v i.path dir)
    (strip : Int) (hstrip : StripIs env2.fnm v i.path strip) (nm : Bytes) (hnm : NameFor strip i.path nm)
    (fd : Int) (hopen : env2.openat (dirIn openDir2 dir) nm = some fd) (k : FKind) (hk : env2.fstat fd = some k) (hkd : k ≠ .dir)
    (hcr : ∀ m s, TypeIs env2.fnm ds2 v nm m → LangSuffix env2.fnm v i.path m s → (13 : UInt8) ∉ m ++ s ∧ (0 : UInt8) ∉ m ++ s)
    (bufsiz1 bufsiz2 : Nat) (hbuf : 0 < bufsiz2) :
    ∃ line1 port, ggRequest env1.isAddr url = .ok (line1, i.host, port) ∧
      ∀ (ps : List (Env × Bytes)) (d : Bytes), (ps.map (·.2)).flatten ++ d = line1 → d ≠ [] →
        ∃ k1 p, runEvents bufsiz1 (ps.map (fun p => (p.1, Ev.read p.2)) ++ [(env1, .read d)]) (handshakeDone env1 (some i.host) {}) = .ok k1 ∧
          RelayOf penv1 files1 loadCa1 y p ∧ p.proxy = false ∧ k1.effs = [.relay p] ∧
          ∀ iribuf : Bytes, iribuf.length = 1027 → ∃ u line2, upEnqueue [] iribuf i { c := k1 } = some u ∧
            (∀ evs, ∃ u', upRun env1 evs u = .ok u' ∧ u'.wire ++ u'.out = line2 ∧ (Relayed u' → line2.length ≤ roomFor evs → u'.wire = line2)) ∧
            ∀ (qs : List (Env × Bytes)) (e : Bytes), (qs.map (·.2)).flatten ++ e = line2 → e ≠ [] →
              ∃ k2 bound, runEvents bufsiz2 (qs.map (fun p => (p.1, Ev.read p.2)) ++ [(env2, .read e)]) (handshakeDone env2 sni2 {}) = .ok k2 ∧ k2.pfd = fd ∧
                ∀ (file : Bytes) (sevs : List (Env × SendEv)), ∃ k2' unread, sendRun bufsiz2 sevs (k2, file) = .ok (k2', unread) ∧
                  (bound + 3 * file.length ≤ progress sevs → k2'.closed = true) ∧
                  ∀ evs u', upRun env1 evs u = .ok u' → UpEv.writable .failed ∉ evs → k2'.closed = true →
                    (evs.filterMap UpMeans).foldl relayed ([], false) = (k2'.sent, true) →
                    u'.f.c.sent ++ u'.f.c.out = k2'.sent ∧
                    ∀ (script : List TRead) (quiet : Bool), u'.f.c.out = [] → stream script = (u'.f.c.sent, true) →
                      ggReply .none quiet script = { out := file, status := 0 } := by
  refine ⟨url ++ b%"\r\n", if i.port = [] then b%"1965" else i.port, ?_, ?_⟩
  · simp only [ggRequest]
    rw [if_neg (by omega), if_neg (by omega), ha.parses]
  intro ps d hcat hd0
  have hlt : (ps.map (·.2)).flatten.length < (url ++ b%"\r\n").length := by
    rw [← hcat, List.length_append]
    have : 0 < d.length := List.length_pos_iff.2 hd0
    omega
  obtain ⟨k1, p, a1, a2, a3, a4⟩ := C116_relayed_partial h1 (some i.host) name1 hneg1 x1 hx1 ho1 url [] i dec1 ha hbr h37 y hy hs hup bufsiz1
  refine ⟨k1, p, ?_, a2, ?_, a3, ?_⟩
  · rw [C112_pieces ha (some i.host) bufsiz1 ps d (by rw [hcat]; simp) hlt]; exact a1
  · cases hp : p.proxy with
    | false => rfl
    | true => exact absurd (a2.line.1 hp) hnopp
  intro iribuf hil
  obtain ⟨u, line, j, b1, b2, b3, b4, b5, b6, b7, b8, b9, b10, b11, b12⟩ := a4 [] iribuf hil
  refine ⟨u, line ++ b%"\r\n", b1, ?_, ?_⟩
  · intro evs
    obtain ⟨u', e1, e2, e3, _⟩ := b12 evs
    exact ⟨u', e1, by simpa using e2, fun q1 q2 => by simpa using e3 q1 (by simpa using q2)⟩
  intro qs e hcat2 he0
  have ha2 : Asks env2 line [] j dec2 := by
    refine ⟨?_, by simp; omega, b11, by rw [haddr]; exact b2, by rw [b4]; exact hdec2⟩
    intro a b e
    have : c%'\n' ∈ line ++ b%"\r" := by rw [e]; simp
    rw [List.mem_append] at this
    rcases this with h | h
    · exact b7 h
    · exact absurd h (by decide)
  have hlt2 : (qs.map (·.2)).flatten.length < (line ++ b%"\r\n").length := by
    rw [← hcat2, List.length_append]
    have : 0 < e.length := List.length_pos_iff.2 he0
    omega
  obtain ⟨k2, m, s, g1, g2, g3, g4, g5, g6⟩ := C112_file_partial h2 hfd sni2 name2 hneg2 x2 hx2 ho2 v hv line [] j dec2 ha2 (by rw [ForUs, b3]; exact hu)
    (by rw [b3, b9]; exact hn) (by rw [b5]; exact hc) (by rw [b5]; exact hb) (by rw [b5]; exact hf) dir hd (by rw [b5]; exact hdir) strip (by rw [b5]; exact hstrip)
    nm (by rw [b5]; exact hnm) fd hopen k hk hkd bufsiz2 hbuf
  refine ⟨k2, 2 * (b%"20 " ++ m ++ s ++ b%"\r\n").length + 2, ?_, g2, ?_⟩
  · rw [C112_pieces ha2 sni2 bufsiz2 qs e (by rw [hcat2]; simp) hlt2]; exact g1
  intro file sevs
  obtain ⟨k2', unread, s1, -, s3, s4⟩ := g6 file sevs
  refine ⟨k2', unread, s1, fun hp => s4 (by omega), ?_⟩
  intro evs u' hr hnf hcl hrel
  rw [b5] at g4
  obtain ⟨hnocr, hno0⟩ := hcr m s g3 g4
  have hsent := s3 hcl
  have hsent' : k2'.sent = b%"20 " ++ (m ++ s) ++ b%"\r\n" ++ file := by rw [hsent]; simp
  obtain ⟨p1, p2⟩ := reply_plain c%'2' c%'0' 20 (by decide) (by decide) (by decide) (by decide) (m ++ s) file hnocr hno0 g5
  have hshape : c%'2' :: c%'0' :: 32 :: (m ++ s) ++ b%"\r\n" ++ file = b%"20 " ++ (m ++ s) ++ b%"\r\n" ++ file := by simp
  rw [hshape] at p1 p2
  obtain ⟨u'', e1, _, _, e4⟩ := b12 evs
  rw [hr] at e1
  cases e1
  have hD := (e4 _ 20 (m ++ s) file hnf (by rw [hrel, hsent']) p1 p2).1 rfl
  refine ⟨by rw [hD, hsent'], ?_⟩
  intro script quiet hout hst
  rw [hout, List.append_nil] at hD
  rw [hD] at hst
  let r : Reply := { d1 := c%'2', d2 := c%'0', text := m ++ s, body := file }
  have hwf : r.WF := ⟨by show (48 : UInt8) ≤ 50 ∧ (50 : UInt8) ≤ 57; decide, by show (48 : UInt8) ≤ 48 ∧ (48 : UInt8) ≤ 57; decide, fun a b => noCr_crlf _ hnocr a b⟩
  have hhl : r.header.length + 2 ≤ 2048 := by
    show ([c%'2', c%'0', 32] ++ (m ++ s)).length + 2 ≤ 2048
    simp only [List.length_append] at g5 ⊢
    simp; omega
  have hbytes : r.bytes = b%"20 " ++ (m ++ s) ++ b%"\r\n" ++ file := by simp [r, Reply.bytes, Reply.header]
  rw [(C58_gg_reply script r hwf hhl quiet (by rw [hst, hbytes])).1]
  simp [r, Reply.status, ggExit]

/-- **C135.** The second one has a `block return` in force for the URL: gg exits with its code, writes nothing, and (without -q) says its text. -/
theorem C135_block (h1 : Serving penv1 files1 loadCa1 openDir1 txt1 ds1 c1 env1)
    (url : Bytes) (i : Iri) (dec1 : Bytes) (ha : Asks env1 url [] i dec1) (hlen : url.length ≤ 1023)
    (hbr : c%'[' ∉ url) (h37 : ∀ pre post, url = pre ++ c%'%' :: post → c%'?' ∈ pre)
    (name1 : Bytes) (hneg1 : Negotiated env1 (some i.host) name1)
    (x1 : Bytes × List SrvOpt) (hx1 : LastServer env1.fnm ds1 name1 x1) (ho1 : OptsFirst x1.2)
    (y : List ProxyMatch × List ProxyOpt) (hy : FirstBlock penv1 env1.fnm x1.2 i.schema name1 i.port y) (hs : Shown env1 files1 loadCa1 y)
    (hnopp : ProxyOpt.proxyV1 ∉ y.2)
    (hup : ∀ p, RelayOf penv1 files1 loadCa1 y p → env1.relayConnect p = true ∧ env1.relayInit p = true)
    (h2 : Serving penv2 files2 loadCa2 openDir2 txt2 ds2 c2 env2) (haddr : env2.isAddr = env1.isAddr)
    (sni2 : Option Bytes) (name2 : Bytes) (hneg2 : Negotiated env2 sni2 name2) (dec2 : Bytes) (hdec2 : env2.puny i.host = some dec2) (hu : ForUs i name2 dec2)
    (x2 : Bytes × List SrvOpt) (hx2 : LastServer env2.fnm ds2 name2 x2) (ho2 : OptsFirst x2.2)
    (v : Vhost) (hv : v = hostIn penv2 files2 loadCa2 openDir2 c2 x2)
    (hn : NoRelay env2.fnm v i.schema name2 []) (hc : CertOk env2 v i.path)
    (code : Int) (fmt : Bytes) (hb : BlockIs env2.fnm v i.path code fmt) (hstrip : StripIs env2.fnm v i.path 0)
    (port : Nat) (hp : port < 32768) (hport : env2.port = port) (digits out : Bytes) (hnum : Numeral port digits)
    (hexp : Expands i.path i.query name2 digits fmt out) (hol : out.length ≤ 1024) (hne : out ≠ b%"text/gemini") (hcr : (13 : UInt8) ∉ out) (hz : (0 : UInt8) ∉ out)
    (bufsiz1 bufsiz2 : Nat) :
    ∃ line1 port, ggRequest env1.isAddr url = .ok (line1, i.host, port) ∧
      ∀ (ps : List (Env × Bytes)) (d : Bytes), (ps.map (·.2)).flatten ++ d = line1 → d ≠ [] →
        ∃ k1 p, runEvents bufsiz1 (ps.map (fun p => (p.1, Ev.read p.2)) ++ [(env1, .read d)]) (handshakeDone env1 (some i.host) {}) = .ok k1 ∧
          RelayOf penv1 files1 loadCa1 y p ∧ p.proxy = false ∧ k1.effs = [.relay p] ∧
          ∀ iribuf : Bytes, iribuf.length = 1027 → ∃ u line2, upEnqueue [] iribuf i { c := k1 } = some u ∧
            (∀ evs, ∃ u', upRun env1 evs u = .ok u' ∧ u'.wire ++ u'.out = line2 ∧ (Relayed u' → line2.length ≤ roomFor evs → u'.wire = line2)) ∧
            ∀ (qs : List (Env × Bytes)) (e : Bytes), (qs.map (·.2)).flatten ++ e = line2 → e ≠ [] →
              ∃ k2, runEvents bufsiz2 (qs.map (fun p => (p.1, Ev.read p.2)) ++ [(env2, .read e)]) (handshakeDone env2 sni2 {}) = .ok k2 ∧
                ∀ bevs, ∃ k2', runEvents bufsiz2 bevs k2 = .ok k2' ∧
                  ∀ evs u', upRun env1 evs u = .ok u' → UpEv.writable .failed ∉ evs → k2'.out = [] →
                    (evs.filterMap UpMeans).foldl relayed ([], false) = (k2'.sent, true) →
                    u'.f.c.sent ++ u'.f.c.out = k2'.sent ∧
                    ∀ (script : List TRead) (quiet : Bool), u'.f.c.out = [] → stream script = (u'.f.c.sent, true) →
                      ggReply .none quiet script = { out := [], status := code.toNat, says := if quiet = false then some (cstr out) else none } := by
  refine ⟨url ++ b%"\r\n", if i.port = [] then b%"1965" else i.port, ?_, ?_⟩
  · simp only [ggRequest]
    rw [if_neg (by omega), if_neg (by omega), ha.parses]
  intro ps d hcat hd0
  have hlt : (ps.map (·.2)).flatten.length < (url ++ b%"\r\n").length := by
    rw [← hcat, List.length_append]
    have : 0 < d.length := List.length_pos_iff.2 hd0
    omega
  obtain ⟨k1, p, a1, a2, a3, a4⟩ := C116_relayed_partial h1 (some i.host) name1 hneg1 x1 hx1 ho1 url [] i dec1 ha hbr h37 y hy hs hup bufsiz1
  refine ⟨k1, p, ?_, a2, ?_, a3, ?_⟩
  · rw [C112_pieces ha (some i.host) bufsiz1 ps d (by rw [hcat]; simp) hlt]; exact a1
  · cases hp : p.proxy with
    | false => rfl
    | true => exact absurd (a2.line.1 hp) hnopp
  intro iribuf hil
  obtain ⟨u, line, j, b1, b2, b3, b4, b5, b6, b7, b8, b9, b10, b11, b12⟩ := a4 [] iribuf hil
  refine ⟨u, line ++ b%"\r\n", b1, ?_, ?_⟩
  · intro evs
    obtain ⟨u', e1, e2, e3, _⟩ := b12 evs
    exact ⟨u', e1, by simpa using e2, fun q1 q2 => by simpa using e3 q1 (by simpa using q2)⟩
  intro qs e hcat2 he0
  have ha2 : Asks env2 line [] j dec2 := by
    refine ⟨?_, by simp; omega, b11, by rw [haddr]; exact b2, by rw [b4]; exact hdec2⟩
    intro a b e
    have : c%'\n' ∈ line ++ b%"\r" := by rw [e]; simp
    rw [List.mem_append] at this
    rcases this with h | h
    · exact b7 h
    · exact absurd h (by decide)
  have hlt2 : (qs.map (·.2)).flatten.length < (line ++ b%"\r\n").length := by
    rw [← hcat2, List.length_append]
    have : 0 < e.length := List.length_pos_iff.2 he0
    omega
  have hcode : 10 ≤ code ∧ code < 70 ∧ ¬ (20 ≤ code ∧ code ≤ 29) := by
    have hfit : ∀ l, (l = v.dflt ∨ l ∈ v.locs) → l.blockCode ≠ 0 → 10 ≤ l.blockCode ∧ l.blockCode < 70 ∧ ¬ (20 ≤ l.blockCode ∧ l.blockCode ≤ 29) := by
      intro l hl h0; rw [hv] at hl; have := (serving_fits h2 name2 x2 hx2 l hl).2.2; exact this.resolve_left h0
    rcases hb with ⟨l, h1, rfl, _⟩ | ⟨_, h1, rfl, _⟩
    · exact hfit l (.inr (firstSet_mem h1)) (by obtain ⟨_, _, _, h2, _⟩ := h1; exact h2)
    · exact hfit _ (.inl rfl) h1
  obtain ⟨k2, cd, g1, -, g3, g4⟩ := C112_block_partial h2 sni2 name2 hneg2 x2 hx2 ho2 v hv line [] j dec2 ha2 (by rw [ForUs, b3]; exact hu)
    (by rw [b3, b9]; exact hn) (by rw [b5]; exact hc) code fmt (by rw [b5]; exact hb) (by rw [b5]; exact hstrip) port hp hport digits out hnum
    (by rw [b5, b6]; exact hexp) hol hne bufsiz2
  refine ⟨k2, ?_, ?_⟩
  · rw [C112_pieces ha2 sni2 bufsiz2 qs e (by rw [hcat2]; simp) hlt2]; exact g1
  intro bevs
  obtain ⟨k2', s1, s2⟩ := g4 bevs
  refine ⟨k2', s1, ?_⟩
  intro evs u' hr hnf hcl hrel
  rw [hcl, List.append_nil] at s2
  obtain ⟨d1, d2, rfl, w1, w2, w3⟩ := two_digits code.toNat (by omega) (by omega) cd g3
  obtain ⟨p1, p2⟩ := reply_plain d1 d2 code.toNat w1 w2 w3 (by omega) out [] hcr hz hol
  have hshape : k2'.sent = d1 :: d2 :: 32 :: out ++ b%"\r\n" ++ [] := by rw [s2]; simp
  obtain ⟨u'', e1, _, _, e4⟩ := b12 evs
  rw [hr] at e1
  cases e1
  have hD := (e4 _ code.toNat out [] hnf (by rw [hrel, hshape]) p1 p2).2 (by omega)
  rw [List.append_nil, ← hshape] at hD
  refine ⟨hD, ?_⟩
  intro script quiet hout hst
  rw [hout, List.append_nil] at hD
  exact gg_told code.toNat (by omega) (by omega) (by omega) [d1, d2] out g3 hcr hol script quiet (by rw [hst, hD, s2])

/-- **C135.** The second one cannot be reached: gg exits with 43 and writes nothing. -/
theorem C135_refused (h1 : Serving penv1 files1 loadCa1 openDir1 txt1 ds1 c1 env1)
    (url : Bytes) (i : Iri) (dec1 : Bytes) (ha : Asks env1 url [] i dec1)
    (name1 : Bytes) (hneg1 : Negotiated env1 (some i.host) name1)
    (x1 : Bytes × List SrvOpt) (hx1 : LastServer env1.fnm ds1 name1 x1) (ho1 : OptsFirst x1.2)
    (y : List ProxyMatch × List ProxyOpt) (hy : FirstBlock penv1 env1.fnm x1.2 i.schema name1 i.port y) (hs : Shown env1 files1 loadCa1 y)
    (hup : ∀ p, RelayOf penv1 files1 loadCa1 y p → ¬ (env1.relayConnect p = true ∧ env1.relayInit p = true)) (bufsiz : Nat) :
    ∃ line port, ggRequest env1.isAddr url = .ok (line, i.host, port) ∧
      ∀ (ps : List (Env × Bytes)) (d : Bytes), (ps.map (·.2)).flatten ++ d = line → d ≠ [] →
        ∃ k1, runEvents bufsiz (ps.map (fun p => (p.1, Ev.read p.2)) ++ [(env1, .read d)]) (handshakeDone env1 (some i.host) {}) = .ok k1 ∧
          ∀ evs, ∃ k', runEvents bufsiz evs k1 = .ok k' ∧ ∀ (script : List TRead) (quiet : Bool), k'.out = [] → stream script = (k'.sent, true) →
            ggReply .none quiet script = { out := [], status := 43, says := if quiet = false then some b%"proxy error" else none } := by
  have hroom : url.length ≤ 1024 := by have := ha.room; simp at this; omega
  refine ⟨url ++ b%"\r\n", if i.port = [] then b%"1965" else i.port, ?_, ?_⟩
  · simp only [ggRequest]
    rw [if_neg (by omega), if_neg (by omega), ha.parses]
  intro ps d hcat hd0
  have hlt : (ps.map (·.2)).flatten.length < (url ++ b%"\r\n").length := by
    rw [← hcat, List.length_append]
    have : 0 < d.length := List.length_pos_iff.2 hd0
    omega
  obtain ⟨k1, a1, -, a3⟩ := C116_refused h1 (some i.host) name1 hneg1 x1 hx1 ho1 url [] i dec1 ha y hy hs hup bufsiz
  refine ⟨k1, ?_, fun evs => ?_⟩
  · rw [C112_pieces ha (some i.host) bufsiz ps d (by rw [hcat]; simp) hlt]; exact a1
  obtain ⟨k', e1, e2⟩ := a3 evs
  refine ⟨k', e1, fun script quiet hout hst => ?_⟩
  rw [hout, List.append_nil] at e2
  have n43 : Numeral 43 b%"43" := by have := natDec_numeral 43; rwa [show natDec 43 = b%"43" by decide +kernel] at this
  rw [gg_told 43 (by decide) (by decide) (by decide) b%"43" b%"proxy error" n43 (by decide) (by decide) script quiet (by rw [hst, e2]; rfl)]
  rfl

end

/-! ## The gmid of the example of C116 relays to that of C112 -/

/-- C135_file applies to gemini://h/x.gmi, cut after five bytes on its way to the first one, and after ten on its way to the second -/
example (iribuf : Bytes) (hl : iribuf.length = 1027) (file : Bytes) (sevs : List (Env × SendEv)) :
    ∃ k1 u, runEvents 4096 [(exUpEnv true true, .read b%"gemin"), (exUpEnv true true, .read b%"i://h/x.gmi\r\n")] (handshakeDone (exUpEnv true true) (some b%"h") {}) = .ok k1 ∧
      upEnqueue [] iribuf (exIriPath b%"x.gmi") { c := k1 } = some u ∧ ∃ line2, (∃ u', upRun (exUpEnv true true) [] u = .ok u' ∧ u'.wire ++ u'.out = line2) ∧
      ∀ (qs : List (Env × Bytes)) (e : Bytes), (qs.map (·.2)).flatten ++ e = line2 → e ≠ [] →
      ∃ k2, runEvents 4096 (qs.map (fun p => (p.1, Ev.read p.2)) ++ [(exDepEnv, .read e)]) (handshakeDone exDepEnv (some b%"h") {}) = .ok k2 ∧
        ∃ k2' unread, sendRun 4096 sevs (k2, file) = .ok (k2', unread) ∧
          ∀ evs u', upRun (exUpEnv true true) evs u = .ok u' → UpEv.writable .failed ∉ evs → k2'.closed = true →
            (evs.filterMap UpMeans).foldl relayed ([], false) = (k2'.sent, true) →
            ∀ (script : List TRead) (quiet : Bool), u'.f.c.out = [] → stream script = (u'.f.c.sent, true) → ggReply .none quiet script = { out := file, status := 0 } := by
  have hv : (hostIn cfEnv exDepFiles exDepCa exDepDir exDepC exDepSrv).proxies = [] := by decide +kernel
  have hlocs : ∀ l ∈ (hostIn cfEnv exDepFiles exDepCa exDepDir exDepC exDepSrv).locs, ¬ LocMatches exDepEnv.fnm l b%"x.gmi" := by
    intro l hl
    rw [← locMatches_iff]
    revert l
    decide +kernel
  have hd : (hostIn cfEnv exDepFiles exDepCa exDepDir exDepC exDepSrv).dflt.blockCode = 0 ∧
      (hostIn cfEnv exDepFiles exDepCa exDepDir exDepC exDepSrv).dflt.fcgi = -1 ∧
      (hostIn cfEnv exDepFiles exDepCa exDepDir exDepC exDepSrv).dflt.reqca = none ∧
      (hostIn cfEnv exDepFiles exDepCa exDepDir exDepC exDepSrv).dflt.dir = b%"/d" ∧
      (hostIn cfEnv exDepFiles exDepCa exDepDir exDepC exDepSrv).dflt.strip = 0 := by decide +kernel
  have hd2 : (hostIn cfEnv exDepFiles exDepCa exDepDir exDepC exDepSrv).dflt.lang = b%"it" ∧
      (hostIn cfEnv exDepFiles exDepCa exDepDir exDepC exDepSrv).dflt.defaultMime = [] ∧ ∀ e ∈ typesIn exDepDs, (13 : UInt8) ∉ e.mime ∧ (0 : UInt8) ∉ e.mime := by decide +kernel
  have hns : ∀ set : Location → Prop, NoneSet exDepEnv.fnm set (hostIn cfEnv exDepFiles exDepCa exDepDir exDepC exDepSrv).locs b%"x.gmi" :=
    fun set l hl h => hlocs l hl h.2
  have hno : ∀ (set : Location → Prop) (l : Location), ¬ FirstSet exDepEnv.fnm set (hostIn cfEnv exDepFiles exDepCa exDepDir exDepC exDepSrv).locs b%"x.gmi" l := by
    intro set l hl
    have hm := firstSet_mem hl
    obtain ⟨_, _, _, h1, h2, _⟩ := hl
    exact hns set l hm ⟨h1, h2⟩
  have h37 : ∀ pre post, b%"gemini://h/x.gmi" = pre ++ c%'%' :: post → c%'?' ∈ pre := by
    intro pre post e
    have : c%'%' ∈ b%"gemini://h/x.gmi" := by rw [e]; simp
    exact absurd this (by decide)
  obtain ⟨line, port, h1, h2⟩ := C135_file (exUp_serving true true) b%"gemini://h/x.gmi" (exIriPath b%"x.gmi") b%"h" (exUp_asks true true) (by decide) (by decide) h37
    b%"h" (exUp_named true true).2.2 exUpSrv (exUp_named true true).1 (exUp_named true true).2.1 exUpBlock (exUp_block true true).1 (exUp_block true true).2 (by decide)
    (fun _ _ => ⟨rfl, rfl⟩)
    exDep_serving rfl (by intro p fd h; simp only [exDepDir] at h; split at h <;> simp at h; omega)
    (some b%"h") b%"h" exDep_named.2.2 b%"h" rfl ⟨rfl, rfl⟩ exDepSrv exDep_named.1 exDep_named.2.1 _ rfl
    (by intro q hq; rw [hv] at hq; simp at hq) (.inl ⟨hns _, hd.2.2.1⟩) ⟨hns _, hd.1⟩ (.inr ⟨hns _, hd.2.1⟩)
    b%"/d" (by decide) (.inr ⟨hns _, hd.2.2.2.1⟩) 0 (.inr ⟨hns _, hd.2.2.2.2⟩) b%"x.gmi" ⟨fun _ => by decide, fun h => by omega⟩ 9 (by decide +kernel) .reg
    (by decide +kernel) (by decide) (by
      intro m s hm hs
      have hmok : (13 : UInt8) ∉ m ∧ (0 : UInt8) ∉ m := by
        rcases hm with ⟨_, e, _, h1, _, rfl⟩ | ⟨_, _, _, _, rfl⟩ | ⟨_, ⟨l, h1, _⟩ | ⟨_, rfl⟩⟩
        · exact hd2.2.2 e h1
        · decide
        · exact absurd h1 (hno _ _)
        · rw [hd2.2.1, if_pos rfl]; decide
      have hsok : (13 : UInt8) ∉ s ∧ (0 : UInt8) ∉ s := by
        rcases hs with ⟨_, l, h1, _⟩ | ⟨_, _, _, rfl⟩ | ⟨_, rfl⟩
        · exact absurd h1 (hno _ _)
        · rw [hd2.1]; decide
        · decide
      exact ⟨by rw [List.mem_append, not_or]; exact ⟨hmok.1, hsok.1⟩, by rw [List.mem_append, not_or]; exact ⟨hmok.2, hsok.2⟩⟩) 4096 4096 (by decide)
  have hline : ggRequest (exUpEnv true true).isAddr b%"gemini://h/x.gmi" = .ok (b%"gemini://h/x.gmi\r\n", b%"h", b%"1965") := by decide +kernel
  rw [hline] at h1
  cases h1
  obtain ⟨k1, p, a1, -, -, -, a4⟩ := h2 [(exUpEnv true true, b%"gemin")] b%"i://h/x.gmi\r\n" rfl (by decide)
  obtain ⟨u, line2, c1, c2, c3⟩ := a4 iribuf hl
  obtain ⟨u0, d1, d2, -⟩ := c2 []
  refine ⟨k1, u, a1, c1, line2, ⟨u0, d1, d2⟩, fun qs e hq he => ?_⟩
  obtain ⟨k2, bound, f1, -, f3⟩ := c3 qs e hq he
  obtain ⟨k2', ur, g1, -, g3⟩ := f3 file sevs
  exact ⟨k2, f1, k2', ur, g1, fun evs u' q1 q2 q3 q4 => (g3 evs u' q1 q2 q3 q4).2⟩

/-- C135_block applies to gemini://h/old, which the second gmid sends elsewhere -/
example (iribuf : Bytes) (hl : iribuf.length = 1027) (bevs : List (Env × Ev)) :
    ∃ k1 u, runEvents 4096 [(exUpEnv true true, .read b%"gemini://h/old\r\n")] (handshakeDone (exUpEnv true true) (some b%"h") {}) = .ok k1 ∧
      upEnqueue [] iribuf (exIriPath b%"old") { c := k1 } = some u ∧ ∃ line2, (∃ u', upRun (exUpEnv true true) [] u = .ok u' ∧ u'.wire ++ u'.out = line2) ∧
      ∀ (qs : List (Env × Bytes)) (e : Bytes), (qs.map (·.2)).flatten ++ e = line2 → e ≠ [] →
      ∃ k2, runEvents 4096 (qs.map (fun p => (p.1, Ev.read p.2)) ++ [(exDepEnv, .read e)]) (handshakeDone exDepEnv (some b%"h") {}) = .ok k2 ∧
        ∃ k2', runEvents 4096 bevs k2 = .ok k2' ∧
          ∀ evs u', upRun (exUpEnv true true) evs u = .ok u' → UpEv.writable .failed ∉ evs → k2'.out = [] →
            (evs.filterMap UpMeans).foldl relayed ([], false) = (k2'.sent, true) →
            ∀ (script : List TRead), u'.f.c.out = [] → stream script = (u'.f.c.sent, true) → ggReply .none false script = { out := [], status := 31, says := some b%"/new/old" } := by
  have hv : (hostIn cfEnv exDepFiles exDepCa exDepDir exDepC exDepSrv).proxies = [] := by decide +kernel
  have hd : (hostIn cfEnv exDepFiles exDepCa exDepDir exDepC exDepSrv).dflt.reqca = none ∧
      (hostIn cfEnv exDepFiles exDepCa exDepDir exDepC exDepSrv).dflt.strip = 0 := by decide +kernel
  have hlocs : (hostIn cfEnv exDepFiles exDepCa exDepDir exDepC exDepSrv).locs =
      [{ pat := b%"old", blockCode := 31, blockFmt := b%"/new%p", fcgi := -1, dirfd := -1 : Location }, { pat := b%"me", reqca := some 7, fcgi := -1, dirfd := -1 : Location }] := by decide +kernel
  have hns1 : NoneSet exDepEnv.fnm (fun l => l.reqca ≠ none) (hostIn cfEnv exDepFiles exDepCa exDepDir exDepC exDepSrv).locs b%"old" := by
    intro l hl h
    rw [hlocs] at hl
    simp only [List.mem_cons, List.not_mem_nil, or_false] at hl
    rcases hl with rfl | rfl
    · exact h.1 rfl
    · have := (locMatches_iff _ _ _).2 h.2
      revert this; decide
  have hns2 : NoneSet exDepEnv.fnm (fun l => l.strip ≠ 0) (hostIn cfEnv exDepFiles exDepCa exDepDir exDepC exDepSrv).locs b%"old" := by
    intro l hl h
    rw [hlocs] at hl
    simp only [List.mem_cons, List.not_mem_nil, or_false] at hl
    rcases hl with rfl | rfl <;> exact h.1 rfl
  have h37 : ∀ pre post, b%"gemini://h/old" = pre ++ c%'%' :: post → c%'?' ∈ pre := by
    intro pre post e
    have : c%'%' ∈ b%"gemini://h/old" := by rw [e]; simp
    exact absurd this (by decide)
  have hp : parseIri (exUpEnv true true).isAddr b%"gemini://h/old" = .ok (exIriPath b%"old") := by
    have : parseIri (fun _ => false) b%"gemini://h/old" = .ok (exIriPath b%"old") := by decide +kernel
    exact this
  have hnum : Numeral 1965 b%"1965" := by have := natDec_numeral 1965; rwa [show natDec 1965 = b%"1965" by decide +kernel] at this
  obtain ⟨line, port, h1, h2⟩ := C135_block (exUp_serving true true) b%"gemini://h/old" (exIriPath b%"old") b%"h"
    ⟨noCrlf_of _ (by decide), by decide, by decide, hp, rfl⟩ (by decide) (by decide) h37
    b%"h" (exUp_named true true).2.2 exUpSrv (exUp_named true true).1 (exUp_named true true).2.1 exUpBlock (exUp_block true true).1 (exUp_block true true).2 (by decide)
    (fun _ _ => ⟨rfl, rfl⟩)
    exDep_serving rfl
    (some b%"h") b%"h" exDep_named.2.2 b%"h" rfl ⟨rfl, rfl⟩ exDepSrv exDep_named.1 exDep_named.2.1 _ rfl
    (by intro q hq; rw [hv] at hq; simp at hq) (.inl ⟨hns1, hd.1⟩) 31 b%"/new%p"
    (.inl ⟨_, ⟨[], _, hlocs, by decide, (locMatches_iff _ _ _).1 (by decide), by simp⟩, rfl, rfl⟩)
    (.inr ⟨hns2, hd.2⟩) 1965 (by decide) rfl b%"1965" b%"/new/old" hnum
    (.lit _ _ _ (by decide) (.lit _ _ _ (by decide) (.lit _ _ _ (by decide) (.lit _ _ _ (by decide) (.path [] [] .nil)))))
    (by decide) (by decide) (by decide) (by decide) 4096 4096
  have hline : ggRequest (exUpEnv true true).isAddr b%"gemini://h/old" = .ok (b%"gemini://h/old\r\n", b%"h", b%"1965") := by decide +kernel
  rw [hline] at h1
  cases h1
  obtain ⟨k1, p, a1, -, -, -, a4⟩ := h2 [] b%"gemini://h/old\r\n" rfl (by decide)
  obtain ⟨u, line2, c1, c2, c3⟩ := a4 iribuf hl
  obtain ⟨u0, d1, d2, -⟩ := c2 []
  refine ⟨k1, u, a1, c1, line2, ⟨u0, d1, d2⟩, fun qs e hq he => ?_⟩
  obtain ⟨k2, f1, f3⟩ := c3 qs e hq he
  obtain ⟨k2', g1, g3⟩ := f3 bevs
  exact ⟨k2, f1, k2', g1, fun evs u' q1 q2 q3 q4 script q5 q6 => (g3 evs u' q1 q2 q3 q4).2 script false q5 q6⟩

/-- C135_refused applies when the upstream server is not there -/
example (evs : List (Env × Ev)) : ∃ k1 k', runEvents 4096 [(exUpEnv true false, .read b%"gemini://h/x.gmi\r\n")] (handshakeDone (exUpEnv true false) (some b%"h") {}) = .ok k1 ∧
    runEvents 4096 evs k1 = .ok k' ∧ ∀ script, k'.out = [] → stream script = (k'.sent, true) → (ggReply .none true script).status = 43 := by
  obtain ⟨line, port, h1, h2⟩ := C135_refused (exUp_serving true false) b%"gemini://h/x.gmi" (exIriPath b%"x.gmi") b%"h" (exUp_asks true false)
    b%"h" (exUp_named true false).2.2 exUpSrv (exUp_named true false).1 (exUp_named true false).2.1 exUpBlock (exUp_block true false).1 (exUp_block true false).2
    (fun _ _ h => by have := h.1; simp [exUpEnv] at this) 4096
  have hline : ggRequest (exUpEnv true false).isAddr b%"gemini://h/x.gmi" = .ok (b%"gemini://h/x.gmi\r\n", b%"h", b%"1965") := by decide +kernel
  rw [hline] at h1
  cases h1
  obtain ⟨k1, a1, a2⟩ := h2 [] b%"gemini://h/x.gmi\r\n" rfl (by decide)
  obtain ⟨k', b1, b2⟩ := a2 evs
  exact ⟨k1, k', a1, b1, fun script q1 q2 => by rw [b2 script true q1 q2]⟩

end Gmid.Props
