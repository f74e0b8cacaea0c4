import Verif.Props.Chain
import Verif.Props.FetchDir

/-!
# C135: what another gmid says of a directory, or of nothing
-/

set_option autoImplicit false

namespace Gmid.Props
open Gmid.Spec

/-- gg is given `url`, and connects to a gmid (`env1`) that relays to another (`env2`) as the block `y` of its file says.  However what gg sends and what the first gmid sends
is cut on its way (`ps`, `d`, `qs`, `e`), and at whatever pace: the second one answers `code` with `text`; if that arrives at the first, in whatever pieces (`evs`),
it sends the same to gg; and if that arrives, however it is cut (`script`), gg writes nothing, exits with `code`, and, without -q, says the text. -/
def ToldThrough (penv1 : PEnv) (files1 : Bytes → Option Bytes) (loadCa1 : Bytes → Option Nat) (y : List ProxyMatch × List ProxyOpt) (env1 env2 : Env) (url : Bytes) (i : Iri)
    (sni2 : Option Bytes) (bufsiz1 bufsiz2 code : Nat) (text : Bytes) : Prop :=
  ∃ line1 port, ggRequest env1.isAddr url = .ok (line1, i.host, port) ∧
    ∀ (ps : List (Env × Bytes)) (d : Bytes), (ps.map (·.2)).flatten ++ d = line1 → d ≠ [] →
      ∃ k1 p, runEvents bufsiz1 (ps.map (fun p => (p.1, Ev.read p.2)) ++ [(env1, .read d)]) (handshakeDone env1 (some i.host) {}) = .ok k1 ∧
        RelayOf penv1 files1 loadCa1 y p ∧ p.proxy = false ∧ k1.effs = [.relay p] ∧
        ∀ iribuf : Bytes, iribuf.length = 1027 → ∃ u line2, upEnqueue [] iribuf i { c := k1 } = some u ∧
          (∀ evs, ∃ u', upRun env1 evs u = .ok u' ∧ u'.wire ++ u'.out = line2 ∧ (Relayed u' → line2.length ≤ roomFor evs → u'.wire = line2)) ∧
          ∀ (qs : List (Env × Bytes)) (e : Bytes), (qs.map (·.2)).flatten ++ e = line2 → e ≠ [] →
            ∃ k2, runEvents bufsiz2 (qs.map (fun p => (p.1, Ev.read p.2)) ++ [(env2, .read e)]) (handshakeDone env2 sni2 {}) = .ok k2 ∧
              ∀ bevs, ∃ k2', runEvents bufsiz2 bevs k2 = .ok k2' ∧ k2'.sent ++ k2'.out = natDec code ++ b%" " ++ text ++ b%"\r\n" ∧
                ∀ evs u', upRun env1 evs u = .ok u' → UpEv.writable .failed ∉ evs → k2'.out = [] →
                  (evs.filterMap UpMeans).foldl relayed ([], false) = (k2'.sent, true) →
                  u'.f.c.sent ++ u'.f.c.out = k2'.sent ∧
                  ∀ (script : List TRead) (quiet : Bool), u'.f.c.out = [] → stream script = (u'.f.c.sent, true) →
                    ggReply .none quiet script = { out := [], status := code, says := if quiet = false then some text else none }

/-- gg is given `url`, and connects to a gmid (`env1`) that relays to another (`env2`) as the block `y` of its file says.  However what gg sends and what the first gmid sends
is cut on its way, and at whatever pace: the second one gets on with `goes`; and when it has sent all (`ends`, with the contents `body`) and that arrives at the first, in whatever
pieces (`evs`), it sends the same to gg; and if that arrives, however it is cut (`script`), gg writes exactly `body` and exits with 0. -/
def GotThrough (penv1 : PEnv) (files1 : Bytes → Option Bytes) (loadCa1 : Bytes → Option Nat) (y : List ProxyMatch × List ProxyOpt) (env1 env2 : Env) (url : Bytes) (i : Iri)
    (sni2 : Option Bytes) (bufsiz1 bufsiz2 : Nat) (goes : Client → Prop) (ends : Client → Client → Bytes → Prop) : Prop :=
  ∃ line1 port, ggRequest env1.isAddr url = .ok (line1, i.host, port) ∧
    ∀ (ps : List (Env × Bytes)) (d : Bytes), (ps.map (·.2)).flatten ++ d = line1 → d ≠ [] →
      ∃ k1 p, runEvents bufsiz1 (ps.map (fun p => (p.1, Ev.read p.2)) ++ [(env1, .read d)]) (handshakeDone env1 (some i.host) {}) = .ok k1 ∧
        RelayOf penv1 files1 loadCa1 y p ∧ p.proxy = false ∧ k1.effs = [.relay p] ∧
        ∀ iribuf : Bytes, iribuf.length = 1027 → ∃ u line2, upEnqueue [] iribuf i { c := k1 } = some u ∧
          (∀ evs, ∃ u', upRun env1 evs u = .ok u' ∧ u'.wire ++ u'.out = line2 ∧ (Relayed u' → line2.length ≤ roomFor evs → u'.wire = line2)) ∧
          ∀ (qs : List (Env × Bytes)) (e : Bytes), (qs.map (·.2)).flatten ++ e = line2 → e ≠ [] →
            ∃ k2, runEvents bufsiz2 (qs.map (fun p => (p.1, Ev.read p.2)) ++ [(env2, .read e)]) (handshakeDone env2 sni2 {}) = .ok k2 ∧ goes k2 ∧
              ∀ k2' body, ends k2 k2' body →
                ∀ evs u', upRun env1 evs u = .ok u' → UpEv.writable .failed ∉ evs →
                  (evs.filterMap UpMeans).foldl relayed ([], false) = (k2'.sent, true) →
                  u'.f.c.sent ++ u'.f.c.out = k2'.sent ∧
                  ∀ (script : List TRead) (quiet : Bool), u'.f.c.out = [] → stream script = (u'.f.c.sent, true) → ggReply .none quiet script = { out := body, status := 0 }

section
variable {penv1 : PEnv} {files1 : Bytes → Option Bytes} {loadCa1 : Bytes → Option Nat} {openDir1 : Bytes → Option Int}
  {txt1 : Bytes} {ds1 : List Directive} {c1 : CConf} {env1 : Env}
  {penv2 : PEnv} {files2 : Bytes → Option Bytes} {loadCa2 : Bytes → Option Nat} {openDir2 : Bytes → Option Int}
  {txt2 : Bytes} {ds2 : List Directive} {c2 : CConf} {env2 : Env}

/-- when the second one answers what it is asked with `code` and `text`, gg is told so -/
theorem chain_told (h1 : Serving penv1 files1 loadCa1 openDir1 txt1 ds1 c1 env1)
    (url : Bytes) (i : Iri) (dec1 : Bytes) (ha : Asks env1 url [] i dec1) (hlen : url.length ≤ 1023)
    (hbr : c%'[' ∉ url) (h37 : ∀ pre post, url = pre ++ c%'%' :: post → c%'?' ∈ pre)
    (name1 : Bytes) (hneg1 : Negotiated env1 (some i.host) name1)
    (x1 : Bytes × List SrvOpt) (hx1 : LastServer env1.fnm ds1 name1 x1) (ho1 : OptsFirst x1.2)
    (y : List ProxyMatch × List ProxyOpt) (hy : FirstBlock penv1 env1.fnm x1.2 i.schema name1 i.port y) (hs : Spec.Shown env1 files1 loadCa1 y)
    (hnopp : ProxyOpt.proxyV1 ∉ y.2)
    (hup : ∀ p, RelayOf penv1 files1 loadCa1 y p → env1.relayConnect p = true ∧ env1.relayInit p = true)
    (haddr : env2.isAddr = env1.isAddr) (sni2 : Option Bytes) (dec2 : Bytes) (hdec2 : env2.puny i.host = some dec2)
    (bufsiz1 bufsiz2 code : Nat) (hc1 : 30 ≤ code) (hc2 : code < 70) (text : Bytes) (hne : text ≠ b%"text/gemini") (hcr : (13 : UInt8) ∉ text) (h0 : (0 : UInt8) ∉ text)
    (hl : text.length ≤ 1024)
    (hans : ∀ line j, Asks env2 line [] j dec2 → j.schema = i.schema → j.path = i.path → j.port = [] →
      ∃ cc : Client, cc.out = [] ∧ cc.sent = [] ∧ step env2 bufsiz2 (.read (line ++ b%"\r\n")) (handshakeDone env2 sni2 {}) = .ok (startReply env2 cc code text)) :
    ToldThrough penv1 files1 loadCa1 y env1 env2 url i sni2 bufsiz1 bufsiz2 code text := by
  refine ⟨url ++ b%"\r\n", if i.port = [] then b%"1965" else i.port, ?_, ?_⟩
  · simp only [ggRequest]
    rw [if_neg (by omega), if_neg (by omega), ha.parses]
  intro ps d hcat hd0
  have hlt : (ps.map (·.2)).flatten.length < (url ++ b%"\r\n").length := by
    rw [← hcat, List.length_append]
    have : 0 < d.length := List.length_pos_iff.2 hd0
    omega
  obtain ⟨k1, p, a1, a2, a3, a4⟩ := C116_relayed_partial h1 (some i.host) name1 hneg1 x1 hx1 ho1 url [] i dec1 ha hbr h37 y hy hs hup bufsiz1
  refine ⟨k1, p, ?_, a2, ?_, a3, ?_⟩
  · rw [C112_pieces ha (some i.host) bufsiz1 ps d (by rw [hcat]; simp) hlt]; exact a1
  · cases hp : p.proxy with
    | false => rfl
    | true => exact absurd (a2.line.1 hp) hnopp
  intro iribuf hil
  obtain ⟨u, line, j, b1, b2, b3, b4, b5, b6, b7, b8, b9, b10, b11, b12⟩ := a4 [] iribuf hil
  refine ⟨u, line ++ b%"\r\n", b1, ?_, ?_⟩
  · intro evs
    obtain ⟨u', e1, e2, e3, _⟩ := b12 evs
    exact ⟨u', e1, by simpa using e2, fun q1 q2 => by simpa using e3 q1 (by simpa using q2)⟩
  intro qs e hcat2 he0
  have ha2 : Asks env2 line [] j dec2 := by
    refine ⟨?_, by simp; omega, b11, by rw [haddr]; exact b2, by rw [b4]; exact hdec2⟩
    intro a b e
    have : c%'\n' ∈ line ++ b%"\r" := by rw [e]; simp
    rw [List.mem_append] at this
    rcases this with h | h
    · exact b7 h
    · exact absurd h (by decide)
  have hlt2 : (qs.map (·.2)).flatten.length < (line ++ b%"\r\n").length := by
    rw [← hcat2, List.length_append]
    have : 0 < e.length := List.length_pos_iff.2 he0
    omega
  obtain ⟨cc, g1, g2, g3⟩ := hans line j ha2 b3 b5 b9
  refine ⟨startReply env2 cc code text, ?_, ?_⟩
  · rw [C112_pieces ha2 sni2 bufsiz2 qs e (by rw [hcat2]; simp) hlt2, List.append_nil]; exact g3
  intro bevs
  obtain ⟨k2', s1, s2, s3⟩ := told_all (env := env2) cc g1 g2 code hc1 hc2 text hne hcr h0 hl bufsiz2 bevs
  refine ⟨k2', s1, s2, ?_⟩
  intro evs u' hr hnf hcl hrel
  rw [hcl, List.append_nil] at s2
  obtain ⟨d1, d2, hdd, w1, w2, w3⟩ := two_digits code (by omega) (by omega) (natDec code) (natDec_numeral code)
  obtain ⟨p1, p2⟩ := reply_plain d1 d2 code w1 w2 w3 (by omega) text [] hcr h0 hl
  have hshape : k2'.sent = d1 :: d2 :: 32 :: text ++ b%"\r\n" ++ [] := by rw [s2, hdd]; simp
  obtain ⟨u'', e1, _, _, e4⟩ := b12 evs
  rw [hr] at e1
  cases e1
  have hD := (e4 _ code text [] hnf (by rw [hrel, hshape]) p1 p2).2 (by omega)
  rw [List.append_nil, ← hshape] at hD
  refine ⟨hD, ?_⟩
  intro script quiet hout hst
  rw [hout, List.append_nil] at hD
  exact s3 script quiet hcl (by rw [hst, hD])

/-- when the second one answers 20 with a body, gg gets the body -/
theorem chain_got (h1 : Serving penv1 files1 loadCa1 openDir1 txt1 ds1 c1 env1)
    (url : Bytes) (i : Iri) (dec1 : Bytes) (ha : Asks env1 url [] i dec1) (hlen : url.length ≤ 1023)
    (hbr : c%'[' ∉ url) (h37 : ∀ pre post, url = pre ++ c%'%' :: post → c%'?' ∈ pre)
    (name1 : Bytes) (hneg1 : Negotiated env1 (some i.host) name1)
    (x1 : Bytes × List SrvOpt) (hx1 : LastServer env1.fnm ds1 name1 x1) (ho1 : OptsFirst x1.2)
    (y : List ProxyMatch × List ProxyOpt) (hy : FirstBlock penv1 env1.fnm x1.2 i.schema name1 i.port y) (hs : Spec.Shown env1 files1 loadCa1 y)
    (hnopp : ProxyOpt.proxyV1 ∉ y.2)
    (hup : ∀ p, RelayOf penv1 files1 loadCa1 y p → env1.relayConnect p = true ∧ env1.relayInit p = true)
    (haddr : env2.isAddr = env1.isAddr) (sni2 : Option Bytes) (dec2 : Bytes) (hdec2 : env2.puny i.host = some dec2)
    (bufsiz1 bufsiz2 : Nat) (goes : Client → Prop) (ends : Client → Client → Bytes → Prop)
    (hans : ∀ line j, Asks env2 line [] j dec2 → j.schema = i.schema → j.path = i.path → j.port = [] →
      ∃ k2, step env2 bufsiz2 (.read (line ++ b%"\r\n")) (handshakeDone env2 sni2 {}) = .ok k2 ∧ goes k2 ∧
        ∀ k2' body, ends k2 k2' body → ∃ t : Bytes, (13 : UInt8) ∉ t ∧ (0 : UInt8) ∉ t ∧ t.length ≤ 1024 ∧ k2'.sent = b%"20 " ++ t ++ b%"\r\n" ++ body) :
    GotThrough penv1 files1 loadCa1 y env1 env2 url i sni2 bufsiz1 bufsiz2 goes ends := by
  refine ⟨url ++ b%"\r\n", if i.port = [] then b%"1965" else i.port, ?_, ?_⟩
  · simp only [ggRequest]
    rw [if_neg (by omega), if_neg (by omega), ha.parses]
  intro ps d hcat hd0
  have hlt : (ps.map (·.2)).flatten.length < (url ++ b%"\r\n").length := by
    rw [← hcat, List.length_append]
    have : 0 < d.length := List.length_pos_iff.2 hd0
    omega
  obtain ⟨k1, p, a1, a2, a3, a4⟩ := C116_relayed_partial h1 (some i.host) name1 hneg1 x1 hx1 ho1 url [] i dec1 ha hbr h37 y hy hs hup bufsiz1
  refine ⟨k1, p, ?_, a2, ?_, a3, ?_⟩
  · rw [C112_pieces ha (some i.host) bufsiz1 ps d (by rw [hcat]; simp) hlt]; exact a1
  · cases hp : p.proxy with
    | false => rfl
    | true => exact absurd (a2.line.1 hp) hnopp
  intro iribuf hil
  obtain ⟨u, line, j, b1, b2, b3, b4, b5, b6, b7, b8, b9, b10, b11, b12⟩ := a4 [] iribuf hil
  refine ⟨u, line ++ b%"\r\n", b1, ?_, ?_⟩
  · intro evs
    obtain ⟨u', e1, e2, e3, _⟩ := b12 evs
    exact ⟨u', e1, by simpa using e2, fun q1 q2 => by simpa using e3 q1 (by simpa using q2)⟩
  intro qs e hcat2 he0
  have ha2 : Asks env2 line [] j dec2 := by
    refine ⟨?_, by simp; omega, b11, by rw [haddr]; exact b2, by rw [b4]; exact hdec2⟩
    intro a b e
    have : c%'\n' ∈ line ++ b%"\r" := by rw [e]; simp
    rw [List.mem_append] at this
    rcases this with h | h
    · exact b7 h
    · exact absurd h (by decide)
  have hlt2 : (qs.map (·.2)).flatten.length < (line ++ b%"\r\n").length := by
    rw [← hcat2, List.length_append]
    have : 0 < e.length := List.length_pos_iff.2 he0
    omega
  obtain ⟨k2, g1, g2, g3⟩ := hans line j ha2 b3 b5 b9
  refine ⟨k2, ?_, g2, ?_⟩
  · rw [C112_pieces ha2 sni2 bufsiz2 qs e (by rw [hcat2]; simp) hlt2, List.append_nil]; exact g1
  intro k2' body hends evs u' hr hnf hrel
  obtain ⟨t, hcr, h0, hl, hsent⟩ := g3 k2' body hends
  obtain ⟨p1, p2⟩ := reply_plain c%'2' c%'0' 20 (by decide) (by decide) (by decide) (by decide) t body hcr h0 hl
  have hshape : c%'2' :: c%'0' :: 32 :: t ++ b%"\r\n" ++ body = b%"20 " ++ t ++ b%"\r\n" ++ body := by simp
  rw [hshape] at p1 p2
  obtain ⟨u'', e1, _, _, e4⟩ := b12 evs
  rw [hr] at e1
  cases e1
  have hD := (e4 _ 20 t body hnf (by rw [hrel, hsent]) p1 p2).1 rfl
  refine ⟨by rw [hD, hsent], ?_⟩
  intro script quiet hout hst
  rw [hout, List.append_nil] at hD
  exact gg_success t body hcr (by omega) script quiet (by rw [hst, hD])

/-- the request as the second one gets it -/
theorem forFiles_port {env : Env} {v : Vhost} {name : Bytes} {i j : Iri} {dec dir nm : Bytes} (hff : ForFiles env v name { i with port := [] } dec dir nm)
    (h1 : j.schema = i.schema) (h2 : j.path = i.path) (h3 : j.port = []) : ForFiles env v name j dec dir nm := by
  obtain ⟨a1, a2, a3, a4, a5, a6, a7, a8⟩ := hff
  exact ⟨by rw [ForUs, h1]; exact a1, by rw [h1, h3]; exact a2, by rw [h2]; exact a3, by rw [h2]; exact a4, by rw [h2]; exact a5, a6, by rw [h2]; exact a7, by rw [h2]; exact a8⟩

/-- **C135.** There is nothing of that name at the second one: gg exits with 51 and writes nothing. -/
theorem C135_missing (h1 : Serving penv1 files1 loadCa1 openDir1 txt1 ds1 c1 env1)
    (url : Bytes) (i : Iri) (dec1 : Bytes) (ha : Asks env1 url [] i dec1) (hlen : url.length ≤ 1023)
    (hbr : c%'[' ∉ url) (h37 : ∀ pre post, url = pre ++ c%'%' :: post → c%'?' ∈ pre)
    (name1 : Bytes) (hneg1 : Negotiated env1 (some i.host) name1)
    (x1 : Bytes × List SrvOpt) (hx1 : LastServer env1.fnm ds1 name1 x1) (ho1 : OptsFirst x1.2)
    (y : List ProxyMatch × List ProxyOpt) (hy : FirstBlock penv1 env1.fnm x1.2 i.schema name1 i.port y) (hs : Spec.Shown env1 files1 loadCa1 y)
    (hnopp : ProxyOpt.proxyV1 ∉ y.2)
    (hup : ∀ p, RelayOf penv1 files1 loadCa1 y p → env1.relayConnect p = true ∧ env1.relayInit p = true)
    (h2 : Serving penv2 files2 loadCa2 openDir2 txt2 ds2 c2 env2) (haddr : env2.isAddr = env1.isAddr) (hfd : ∀ p fd, openDir2 p = some fd → fd ≠ -1)
    (sni2 : Option Bytes) (name2 : Bytes) (hneg2 : Negotiated env2 sni2 name2) (dec2 : Bytes) (hdec2 : env2.puny i.host = some dec2)
    (x2 : Bytes × List SrvOpt) (hx2 : LastServer env2.fnm ds2 name2 x2) (ho2 : OptsFirst x2.2)
    (v : Vhost) (hv : v = hostIn penv2 files2 loadCa2 openDir2 c2 x2)
    (dir nm : Bytes) (hff : ForFiles env2 v name2 { i with port := [] } dec2 dir nm)
    (hopen : env2.openat (dirIn openDir2 dir) nm = none) (bufsiz1 bufsiz2 : Nat) :
    ToldThrough penv1 files1 loadCa1 y env1 env2 url i sni2 bufsiz1 bufsiz2 51 b%"not found" := by
  refine chain_told h1 url i dec1 ha hlen hbr h37 name1 hneg1 x1 hx1 ho1 y hy hs hnopp hup haddr sni2 dec2 hdec2 bufsiz1 bufsiz2 51 (by decide) (by decide) _ (by decide) (by decide)
    (by decide) (by decide) ?_
  intro line j ha2 q1 q2 q3
  obtain ⟨cc, _, _, e3, e4, _, _, _, _, _, _, e⟩ := forFiles_step h2 hfd sni2 name2 hneg2 x2 hx2 ho2 v hv line j dec2 ha2 dir nm (forFiles_port hff q1 q2 q3) bufsiz2
  rw [hopen] at e
  exact ⟨{ cc with pfd := -1 }, e3, e4, e⟩

/-- **C135.** It is a directory of the second one, and the URL does not end in a slash: gg exits with 30 and says the one that does. (The path has no CR, see C59.) -/
theorem C135_redirect (h1 : Serving penv1 files1 loadCa1 openDir1 txt1 ds1 c1 env1)
    (url : Bytes) (i : Iri) (dec1 : Bytes) (ha : Asks env1 url [] i dec1) (hlen : url.length ≤ 1023)
    (hbr : c%'[' ∉ url) (h37 : ∀ pre post, url = pre ++ c%'%' :: post → c%'?' ∈ pre)
    (name1 : Bytes) (hneg1 : Negotiated env1 (some i.host) name1)
    (x1 : Bytes × List SrvOpt) (hx1 : LastServer env1.fnm ds1 name1 x1) (ho1 : OptsFirst x1.2)
    (y : List ProxyMatch × List ProxyOpt) (hy : FirstBlock penv1 env1.fnm x1.2 i.schema name1 i.port y) (hs : Spec.Shown env1 files1 loadCa1 y)
    (hnopp : ProxyOpt.proxyV1 ∉ y.2)
    (hup : ∀ p, RelayOf penv1 files1 loadCa1 y p → env1.relayConnect p = true ∧ env1.relayInit p = true)
    (h2 : Serving penv2 files2 loadCa2 openDir2 txt2 ds2 c2 env2) (haddr : env2.isAddr = env1.isAddr) (hfd : ∀ p fd, openDir2 p = some fd → fd ≠ -1)
    (sni2 : Option Bytes) (name2 : Bytes) (hneg2 : Negotiated env2 sni2 name2) (dec2 : Bytes) (hdec2 : env2.puny i.host = some dec2)
    (x2 : Bytes × List SrvOpt) (hx2 : LastServer env2.fnm ds2 name2 x2) (ho2 : OptsFirst x2.2)
    (v : Vhost) (hv : v = hostIn penv2 files2 loadCa2 openDir2 c2 x2)
    (dir nm : Bytes) (hff : ForFiles env2 v name2 { i with port := [] } dec2 dir nm)
    (fd : Int) (hopen : env2.openat (dirIn openDir2 dir) nm = some fd) (hk : env2.fstat fd = some .dir)
    (hns : ¬ Slashed i.path) (hcr : (13 : UInt8) ∉ i.path) (bufsiz1 bufsiz2 : Nat) :
    ToldThrough penv1 files1 loadCa1 y env1 env2 url i sni2 bufsiz1 bufsiz2 30 (b%"/" ++ i.path ++ b%"/") := by
  have hne : i.path ≠ [] := fun k => hns (.inl k)
  have hls : ¬ endsWith i.path b%"/" = true := fun k => hns (.inr ((endsWith_slash _).1 k))
  have hpl : i.path.length + 5 ≤ 1024 := by
    have h1 := path_length _ _ _ ha.parses
    rcases h1 with h1 | h1
    · omega
    · exact absurd h1 hne
  have h0 := (C01_path_confined _ _ _ ha.parses).2
  refine chain_told h1 url i dec1 ha hlen hbr h37 name1 hneg1 x1 hx1 ho1 y hy hs hnopp hup haddr sni2 dec2 hdec2 bufsiz1 bufsiz2 30 (by decide) (by decide) (c%'/' :: (i.path ++ b%"/"))
    (by simp) (by simp [hcr]) (by simp [h0]) (by simp; omega) ?_
  intro line j ha2 q1 q2 q3
  obtain ⟨cc, _, _, e3, e4, _, _, _, _, _, _, e⟩ := forFiles_step h2 hfd sni2 name2 hneg2 x2 hx2 ho2 v hv line j dec2 ha2 dir nm (forFiles_port hff q1 q2 q3) bufsiz2
  rw [hopen] at e
  simp only [hk] at e
  rw [Gmid.openDir, if_pos (by rw [q2]; simp [hne, hls]), redirectDir, if_neg (by rw [q2]; simp; omega), q2] at e
  exact ⟨{ cc with pfd := fd }, e3, e4, e⟩

/-- **C135.** It is a directory without an index file, and `auto index` is not on at the second one: gg exits with 51 and writes nothing. -/
theorem C135_unlisted (h1 : Serving penv1 files1 loadCa1 openDir1 txt1 ds1 c1 env1)
    (url : Bytes) (i : Iri) (dec1 : Bytes) (ha : Asks env1 url [] i dec1) (hlen : url.length ≤ 1023)
    (hbr : c%'[' ∉ url) (h37 : ∀ pre post, url = pre ++ c%'%' :: post → c%'?' ∈ pre)
    (name1 : Bytes) (hneg1 : Negotiated env1 (some i.host) name1)
    (x1 : Bytes × List SrvOpt) (hx1 : LastServer env1.fnm ds1 name1 x1) (ho1 : OptsFirst x1.2)
    (y : List ProxyMatch × List ProxyOpt) (hy : FirstBlock penv1 env1.fnm x1.2 i.schema name1 i.port y) (hs : Spec.Shown env1 files1 loadCa1 y)
    (hnopp : ProxyOpt.proxyV1 ∉ y.2)
    (hup : ∀ p, RelayOf penv1 files1 loadCa1 y p → env1.relayConnect p = true ∧ env1.relayInit p = true)
    (h2 : Serving penv2 files2 loadCa2 openDir2 txt2 ds2 c2 env2) (haddr : env2.isAddr = env1.isAddr) (hfd : ∀ p fd, openDir2 p = some fd → fd ≠ -1)
    (sni2 : Option Bytes) (name2 : Bytes) (hneg2 : Negotiated env2 sni2 name2) (dec2 : Bytes) (hdec2 : env2.puny i.host = some dec2)
    (x2 : Bytes × List SrvOpt) (hx2 : LastServer env2.fnm ds2 name2 x2) (ho2 : OptsFirst x2.2)
    (v : Vhost) (hv : v = hostIn penv2 files2 loadCa2 openDir2 c2 x2)
    (dir nm : Bytes) (hff : ForFiles env2 v name2 { i with port := [] } dec2 dir nm)
    (fd : Int) (hopen : env2.openat (dirIn openDir2 dir) nm = some fd) (hk : env2.fstat fd = some .dir)
    (hsl : Slashed i.path) (idx : Bytes) (hidx : IndexIs env2.fnm v i.path idx) (hno : NoIndex env2 fd idx)
    (hoff : ListingIs env2.fnm v i.path false) (bufsiz1 bufsiz2 : Nat) :
    ToldThrough penv1 files1 loadCa1 y env1 env2 url i sni2 bufsiz1 bufsiz2 51 b%"not found" := by
  refine chain_told h1 url i dec1 ha hlen hbr h37 name1 hneg1 x1 hx1 ho1 y hy hs hnopp hup haddr sni2 dec2 hdec2 bufsiz1 bufsiz2 51 (by decide) (by decide) _ (by decide) (by decide)
    (by decide) (by decide) ?_
  intro line j ha2 q1 q2 q3
  obtain ⟨cc, e1, _, e3, e4, _, _, _, _, _, _, e⟩ := forFiles_step h2 hfd sni2 name2 hneg2 x2 hx2 ho2 v hv line j dec2 ha2 dir nm (forFiles_port hff q1 q2 q3) bufsiz2
  rw [hopen] at e
  simp only [hk] at e
  rw [noIndex_step { cc with pfd := fd } v j e1 (by rw [q2]; exact hsl) idx (by rw [q2]; exact hidx) hno] at e
  have hauto : vhostAutoIndex env2.fnm (some v) (some j.path) = false := by
    rw [q2]
    cases hb : vhostAutoIndex env2.fnm (some v) (some i.path) with
    | false => rfl
    | true =>
      rcases hoff with ⟨l, h1, h2⟩ | ⟨h1, h2⟩
      · have := ((C15_auto_index env2.fnm v i.path).1 l h1).1 hb; simp [this] at h2
      · have := ((C15_auto_index env2.fnm v i.path).2 h1).1 hb; simp [this] at h2
  have hl : dirListing env2 { cc with pfd := fd, effs := cc.effs ++ [.openat fd idx] } j =
      startReply env2 { cc with pfd := fd, effs := cc.effs ++ [.openat fd idx] } 51 b%"not found" := by simp [dirListing, e1, hauto]
  rw [hl] at e
  exact ⟨{ cc with pfd := fd, effs := cc.effs ++ [.openat fd idx] }, e3, e4, e⟩

/-- **C135.** It is a directory of the second one with an index file: gg writes exactly the bytes of that and exits with 0.  (The type and the language have no CR or NUL, see C59.) -/
theorem C135_index (h1 : Serving penv1 files1 loadCa1 openDir1 txt1 ds1 c1 env1)
    (url : Bytes) (i : Iri) (dec1 : Bytes) (ha : Asks env1 url [] i dec1) (hlen : url.length ≤ 1023)
    (hbr : c%'[' ∉ url) (h37 : ∀ pre post, url = pre ++ c%'%' :: post → c%'?' ∈ pre)
    (name1 : Bytes) (hneg1 : Negotiated env1 (some i.host) name1)
    (x1 : Bytes × List SrvOpt) (hx1 : LastServer env1.fnm ds1 name1 x1) (ho1 : OptsFirst x1.2)
    (y : List ProxyMatch × List ProxyOpt) (hy : FirstBlock penv1 env1.fnm x1.2 i.schema name1 i.port y) (hs : Spec.Shown env1 files1 loadCa1 y)
    (hnopp : ProxyOpt.proxyV1 ∉ y.2)
    (hup : ∀ p, RelayOf penv1 files1 loadCa1 y p → env1.relayConnect p = true ∧ env1.relayInit p = true)
    (h2 : Serving penv2 files2 loadCa2 openDir2 txt2 ds2 c2 env2) (haddr : env2.isAddr = env1.isAddr) (hfd : ∀ p fd, openDir2 p = some fd → fd ≠ -1)
    (sni2 : Option Bytes) (name2 : Bytes) (hneg2 : Negotiated env2 sni2 name2) (dec2 : Bytes) (hdec2 : env2.puny i.host = some dec2)
    (x2 : Bytes × List SrvOpt) (hx2 : LastServer env2.fnm ds2 name2 x2) (ho2 : OptsFirst x2.2)
    (v : Vhost) (hv : v = hostIn penv2 files2 loadCa2 openDir2 c2 x2)
    (dir nm : Bytes) (hff : ForFiles env2 v name2 { i with port := [] } dec2 dir nm)
    (fd : Int) (hopen : env2.openat (dirIn openDir2 dir) nm = some fd) (hk : env2.fstat fd = some .dir)
    (hsl : Slashed i.path) (idx : Bytes) (hidx : IndexIs env2.fnm v i.path idx) (hil : i.path.length + idx.length ≤ 4095)
    (fd' : Int) (hopen' : env2.openat fd idx = some fd') (hk' : env2.fstat fd' = some .reg)
    (hcr : ∀ m s, TypeIs env2.fnm ds2 v (i.path ++ idx) m → LangSuffix env2.fnm v i.path m s → (13 : UInt8) ∉ m ++ s ∧ (0 : UInt8) ∉ m ++ s)
    (bufsiz1 bufsiz2 : Nat) (hbuf : 0 < bufsiz2) :
    GotThrough penv1 files1 loadCa1 y env1 env2 url i sni2 bufsiz1 bufsiz2
      (fun k2 => k2.pfd = fd' ∧ ∃ bound, ∀ (file : Bytes) (evs : List (Env × SendEv)), ∃ k2' unread, sendRun bufsiz2 evs (k2, file) = .ok (k2', unread) ∧
        (bound + 3 * file.length ≤ progress evs → k2'.closed = true))
      (fun k2 k2' file => ∃ (evs : List (Env × SendEv)) (unread : Bytes), sendRun bufsiz2 evs (k2, file) = .ok (k2', unread) ∧ k2'.closed = true) := by
  refine chain_got h1 url i dec1 ha hlen hbr h37 name1 hneg1 x1 hx1 ho1 y hy hs hnopp hup haddr sni2 dec2 hdec2 bufsiz1 bufsiz2 _ _ ?_
  intro line j ha2 q1 q2 q3
  obtain ⟨k2, m, s, a1, a2, a3, a4, a5, a6⟩ := index_core h2 hfd line j dec2 ha2 sni2 name2 hneg2 x2 hx2 ho2 v hv dir nm (forFiles_port hff q1 q2 q3) fd hopen hk
    (by rw [q2]; exact hsl) idx (by rw [q2]; exact hidx) (by rw [q2]; exact hil) fd' hopen' hk' bufsiz2 hbuf
  rw [q2] at a3 a4
  refine ⟨k2, a1, ⟨a2, 2 * (b%"20 " ++ m ++ s ++ b%"\r\n").length + 2, fun file evs => ?_⟩, ?_⟩
  · obtain ⟨k2', u, r1, _, r3, _⟩ := a6 file evs
    exact ⟨k2', u, r1, fun hp => r3 (by omega)⟩
  · rintro k2' file ⟨evs, u, r1, r2⟩
    obtain ⟨k3, u3, t1, _, _, t4⟩ := a6 file evs
    rw [r1] at t1
    cases t1
    exact ⟨m ++ s, (hcr m s a3 a4).1, (hcr m s a3 a4).2, a5, by rw [t4 r2]; simp⟩

/-- **C135.** It is a directory of the second one without an index file, and `auto index` is on there: gg writes a title and a link to each of the entries, in the order in which
scandir_fd gives them (C136_listing), and exits with 0.  (The language has no CR or NUL.) -/
theorem C135_listing (h1 : Serving penv1 files1 loadCa1 openDir1 txt1 ds1 c1 env1)
    (url : Bytes) (i : Iri) (dec1 : Bytes) (ha : Asks env1 url [] i dec1) (hlen : url.length ≤ 1023)
    (hbr : c%'[' ∉ url) (h37 : ∀ pre post, url = pre ++ c%'%' :: post → c%'?' ∈ pre)
    (name1 : Bytes) (hneg1 : Negotiated env1 (some i.host) name1)
    (x1 : Bytes × List SrvOpt) (hx1 : LastServer env1.fnm ds1 name1 x1) (ho1 : OptsFirst x1.2)
    (y : List ProxyMatch × List ProxyOpt) (hy : FirstBlock penv1 env1.fnm x1.2 i.schema name1 i.port y) (hs : Spec.Shown env1 files1 loadCa1 y)
    (hnopp : ProxyOpt.proxyV1 ∉ y.2)
    (hup : ∀ p, RelayOf penv1 files1 loadCa1 y p → env1.relayConnect p = true ∧ env1.relayInit p = true)
    (h2 : Serving penv2 files2 loadCa2 openDir2 txt2 ds2 c2 env2) (haddr : env2.isAddr = env1.isAddr) (hfd : ∀ p fd, openDir2 p = some fd → fd ≠ -1)
    (sni2 : Option Bytes) (name2 : Bytes) (hneg2 : Negotiated env2 sni2 name2) (dec2 : Bytes) (hdec2 : env2.puny i.host = some dec2)
    (x2 : Bytes × List SrvOpt) (hx2 : LastServer env2.fnm ds2 name2 x2) (ho2 : OptsFirst x2.2)
    (v : Vhost) (hv : v = hostIn penv2 files2 loadCa2 openDir2 c2 x2)
    (dir nm : Bytes) (hff : ForFiles env2 v name2 { i with port := [] } dec2 dir nm)
    (fd : Int) (hopen : env2.openat (dirIn openDir2 dir) nm = some fd) (hk : env2.fstat fd = some .dir)
    (hsl : Slashed i.path) (idx : Bytes) (hidx : IndexIs env2.fnm v i.path idx) (hno : NoIndex env2 fd idx)
    (hon : ListingIs env2.fnm v i.path true)
    (es : List Dirent) (hshort : ∀ d ∈ es, d.name.length ≤ 255) (hscan : env2.scandir fd (i.path = []) = some es)
    (hcr : ∀ s, LangSuffix env2.fnm v i.path b%"text/gemini" s → (13 : UInt8) ∉ s ∧ (0 : UInt8) ∉ s) (bufsiz1 bufsiz2 : Nat) :
    GotThrough penv1 files1 loadCa1 y env1 env2 url i sni2 bufsiz1 bufsiz2
      (fun k2 => ∃ bound, ∀ evs : List (Env × Ev), (∀ e ∈ evs, Smooth e) → ∃ k2', runEvents bufsiz2 evs k2 = .ok k2' ∧ (bound ≤ accepts evs → k2'.closed = true))
      (fun k2 k2' body => body = b%"# Index of /" ++ i.path ++ b%"\n\n" ++ es.flatMap linkLine ∧
        ∃ evs : List (Env × Ev), (∀ e ∈ evs, Smooth e) ∧ runEvents bufsiz2 evs k2 = .ok k2' ∧ k2'.closed = true) := by
  refine chain_got h1 url i dec1 ha hlen hbr h37 name1 hneg1 x1 hx1 ho1 y hy hs hnopp hup haddr sni2 dec2 hdec2 bufsiz1 bufsiz2 _ _ ?_
  intro line j ha2 q1 q2 q3
  obtain ⟨k2, s, a1, a2, a3, a4⟩ := listing_core h2 hfd line j dec2 ha2 sni2 name2 hneg2 x2 hx2 ho2 v hv dir nm (forFiles_port hff q1 q2 q3) fd hopen hk
    (by rw [q2]; exact hsl) idx (by rw [q2]; exact hidx) hno (by rw [q2]; exact hon) es hshort (by rw [q2]; exact hscan) bufsiz2
  rw [q2] at a2 a4
  refine ⟨k2, a1, ⟨(b%"20 text/gemini" ++ s ++ b%"\r\n" ++ (b%"# Index of /" ++ i.path ++ b%"\n\n" ++ es.flatMap linkLine)).length + 2, fun evs hev => ?_⟩, ?_⟩
  · obtain ⟨k2', r1, _, r3, _⟩ := a4 evs hev
    exact ⟨k2', r1, r3⟩
  · rintro k2' body ⟨rfl, evs, hev, r1, r2⟩
    obtain ⟨k3, t1, _, _, t4⟩ := a4 evs hev
    rw [r1] at t1
    cases t1
    exact ⟨b%"text/gemini" ++ s, by rw [List.mem_append, not_or]; exact ⟨by decide, (hcr s a2).1⟩, by rw [List.mem_append, not_or]; exact ⟨by decide, (hcr s a2).2⟩,
      by simp; omega, by rw [t4 r2]; simp⟩

end

theorem exUpUrl_asks (url path : Bytes) (h : c%'\n' ∉ url ∧ (0 : UInt8) ∉ url ∧ url.length ≤ 1024) (hp : parseIri (fun _ => false) url = .ok (exIriPath path)) :
    Asks (exUpEnv true true) url [] (exIriPath path) b%"h" :=
  ⟨noCrlf_of _ h.1, by have := h.2.2; simp; omega, h.2.1, hp, rfl⟩

theorem no37 (url : Bytes) (h : c%'%' ∉ url) : ∀ pre post, url = pre ++ c%'%' :: post → c%'?' ∈ pre := by
  intro pre post e
  exact absurd (by rw [e]; simp) h

/-- C135_missing applies to gemini://h/gone, of which there is nothing at the second gmid; its second line is what the first one is asked -/
example (es : List Dirent) : ToldThrough cfEnv exDepFiles exDepCa exUpBlock (exUpEnv true true) (exFdEnv es) b%"gemini://h/gone" (exIriPath b%"gone") (some b%"h") 4096 4096 51 b%"not found" :=
  C135_missing (exUp_serving true true) b%"gemini://h/gone" (exIriPath b%"gone") b%"h" (exUpUrl_asks _ b%"gone" (by decide) (by decide +kernel)) (by decide) (by decide) (no37 _ (by decide))
    b%"h" (exUp_named true true).2.2 exUpSrv (exUp_named true true).1 (exUp_named true true).2.1 exUpBlock (exUp_block true true).1 (exUp_block true true).2 (by decide)
    (fun _ _ => ⟨rfl, rfl⟩)
    (exFd_serving es) rfl exFd_fd (some b%"h") b%"h" (exFd_named es).2.2 b%"h" rfl exFdSrv (exFd_named es).1 (exFd_named es).2.1 exFdHost rfl b%"/d" b%"gone"
    (exFd_files es b%"gone" b%"gone" ⟨fun _ => by decide, fun h => by omega⟩) rfl 4096 4096

/-- C135_redirect applies to gemini://h/pub, a directory of the second gmid -/
example (es : List Dirent) : ToldThrough cfEnv exDepFiles exDepCa exUpBlock (exUpEnv true true) (exFdEnv es) b%"gemini://h/pub" (exIriPath b%"pub") (some b%"h") 4096 4096 30 b%"/pub/" :=
  C135_redirect (exUp_serving true true) b%"gemini://h/pub" (exIriPath b%"pub") b%"h" (exUpUrl_asks _ b%"pub" (by decide) (by decide +kernel)) (by decide) (by decide) (no37 _ (by decide))
    b%"h" (exUp_named true true).2.2 exUpSrv (exUp_named true true).1 (exUp_named true true).2.1 exUpBlock (exUp_block true true).1 (exUp_block true true).2 (by decide)
    (fun _ _ => ⟨rfl, rfl⟩)
    (exFd_serving es) rfl exFd_fd (some b%"h") b%"h" (exFd_named es).2.2 b%"h" rfl exFdSrv (exFd_named es).1 (exFd_named es).2.1 exFdHost rfl b%"/d" b%"pub"
    (exFd_files es b%"pub" b%"pub" ⟨fun _ => by decide, fun h => by omega⟩) 11 rfl rfl (by unfold Slashed; decide) (by decide) 4096 4096

/-- C135_unlisted applies to gemini://h/sec/, which has no index file and is not to be listed -/
example (es : List Dirent) : ToldThrough cfEnv exDepFiles exDepCa exUpBlock (exUpEnv true true) (exFdEnv es) b%"gemini://h/sec/" (exIriPath b%"sec/") (some b%"h") 4096 4096 51 b%"not found" := by
  have hoff : ListingIs (exFdEnv es).fnm exFdHost b%"sec/" false := by
    have hl : ∀ l ∈ exFdHost.locs, l.pat = b%"pub/" := by decide +kernel
    have hd : exFdHost.dflt.autoIndex = 0 := by decide +kernel
    refine .inr ⟨fun l h k => ?_, by rw [hd]; decide⟩
    have := (locMatches_iff _ _ _).2 k.2
    rw [hl l h] at this
    have he : pmatch (exFdEnv es).fnm b%"pub/" b%"sec/" = false := rfl
    rw [he] at this
    cases this
  exact C135_unlisted (exUp_serving true true) b%"gemini://h/sec/" (exIriPath b%"sec/") b%"h" (exUpUrl_asks _ b%"sec/" (by decide) (by decide +kernel)) (by decide) (by decide) (no37 _ (by decide))
    b%"h" (exUp_named true true).2.2 exUpSrv (exUp_named true true).1 (exUp_named true true).2.1 exUpBlock (exUp_block true true).1 (exUp_block true true).2 (by decide)
    (fun _ _ => ⟨rfl, rfl⟩)
    (exFd_serving es) rfl exFd_fd (some b%"h") b%"h" (exFd_named es).2.2 b%"h" rfl exFdSrv (exFd_named es).1 (exFd_named es).2.1 exFdHost rfl b%"/d" b%"sec/"
    (exFd_files es b%"sec/" b%"sec/" ⟨fun _ => by decide, fun h => by omega⟩) 12 rfl rfl (.inr (by decide)) b%"index.gmi" (exFd_index es _) (.inl rfl) hoff 4096 4096

/-- C135_index applies to gemini://h/, for which the second gmid has an index file -/
example (es : List Dirent) : GotThrough cfEnv exDepFiles exDepCa exUpBlock (exUpEnv true true) (exFdEnv es) b%"gemini://h/" (exIriPath []) (some b%"h") 4096 4096
    (fun k2 => k2.pfd = 14 ∧ ∃ bound, ∀ (file : Bytes) (evs : List (Env × SendEv)), ∃ k2' unread, sendRun 4096 evs (k2, file) = .ok (k2', unread) ∧
      (bound + 3 * file.length ≤ progress evs → k2'.closed = true))
    (fun k2 k2' file => ∃ (evs : List (Env × SendEv)) (unread : Bytes), sendRun 4096 evs (k2, file) = .ok (k2', unread) ∧ k2'.closed = true) := by
  have hl : ∀ l ∈ exFdHost.locs, l.lang = [] ∧ l.defaultMime = [] := by decide +kernel
  have hd2 : exFdHost.dflt.lang = b%"it" ∧ exFdHost.dflt.defaultMime = [] ∧ ∀ e ∈ typesIn exFdDs, (13 : UInt8) ∉ e.mime ∧ (0 : UInt8) ∉ e.mime := by decide +kernel
  exact C135_index (exUp_serving true true) b%"gemini://h/" (exIriPath []) b%"h" (exUpUrl_asks _ [] (by decide) (by decide +kernel)) (by decide) (by decide) (no37 _ (by decide))
    b%"h" (exUp_named true true).2.2 exUpSrv (exUp_named true true).1 (exUp_named true true).2.1 exUpBlock (exUp_block true true).1 (exUp_block true true).2 (by decide)
    (fun _ _ => ⟨rfl, rfl⟩)
    (exFd_serving es) rfl exFd_fd (some b%"h") b%"h" (exFd_named es).2.2 b%"h" rfl exFdSrv (exFd_named es).1 (exFd_named es).2.1 exFdHost rfl b%"/d" b%"."
    (exFd_files es [] b%"." ⟨fun _ => by decide, fun h => by omega⟩) 13 rfl rfl (.inl rfl) b%"index.gmi" (exFd_index es _) (by decide) 14 rfl rfl (by
      intro m s hm hs
      have hmok : (13 : UInt8) ∉ m ∧ (0 : UInt8) ∉ m := by
        rcases hm with ⟨_, e, _, h1, _, rfl⟩ | ⟨_, _, _, _, rfl⟩ | ⟨_, ⟨l, h1, _⟩ | ⟨_, rfl⟩⟩
        · exact hd2.2.2 e h1
        · decide
        · exact absurd (hl l (firstSet_mem h1)).2 (by obtain ⟨_, _, _, h2, _⟩ := h1; exact h2)
        · rw [hd2.2.1, if_pos rfl]; decide
      have hsok : (13 : UInt8) ∉ s ∧ (0 : UInt8) ∉ s := by
        rcases hs with ⟨_, l, h1, _⟩ | ⟨_, _, _, rfl⟩ | ⟨_, rfl⟩
        · exact absurd (hl l (firstSet_mem h1)).1 (by obtain ⟨_, _, _, h2, _⟩ := h1; exact h2)
        · rw [hd2.1]; decide
        · decide
      exact ⟨by rw [List.mem_append, not_or]; exact ⟨hmok.1, hsok.1⟩, by rw [List.mem_append, not_or]; exact ⟨hmok.2, hsok.2⟩⟩) 4096 4096 (by decide)

/-- C135_listing applies to gemini://h/pub/, which the second gmid lists, whatever there is in it -/
example (es : List Dirent) (hshort : ∀ d ∈ es, d.name.length ≤ 255) :
    GotThrough cfEnv exDepFiles exDepCa exUpBlock (exUpEnv true true) (exFdEnv es) b%"gemini://h/pub/" (exIriPath b%"pub/") (some b%"h") 4096 4096
      (fun k2 => ∃ bound, ∀ evs : List (Env × Ev), (∀ e ∈ evs, Smooth e) → ∃ k2', runEvents 4096 evs k2 = .ok k2' ∧ (bound ≤ accepts evs → k2'.closed = true))
      (fun k2 k2' body => body = b%"# Index of /" ++ b%"pub/" ++ b%"\n\n" ++ es.flatMap linkLine ∧
        ∃ evs : List (Env × Ev), (∀ e ∈ evs, Smooth e) ∧ runEvents 4096 evs k2 = .ok k2' ∧ k2'.closed = true) := by
  have hl : ∀ l ∈ exFdHost.locs, l.lang = [] := by decide +kernel
  have hd2 : exFdHost.dflt.lang = b%"it" := by decide +kernel
  have hlocs : exFdHost.locs = [{ pat := b%"pub/", autoIndex := 1, fcgi := -1, dirfd := -1 : Location }] := by decide +kernel
  exact C135_listing (exUp_serving true true) b%"gemini://h/pub/" (exIriPath b%"pub/") b%"h" (exUpUrl_asks _ b%"pub/" (by decide) (by decide +kernel)) (by decide) (by decide) (no37 _ (by decide))
    b%"h" (exUp_named true true).2.2 exUpSrv (exUp_named true true).1 (exUp_named true true).2.1 exUpBlock (exUp_block true true).1 (exUp_block true true).2 (by decide)
    (fun _ _ => ⟨rfl, rfl⟩)
    (exFd_serving es) rfl exFd_fd (some b%"h") b%"h" (exFd_named es).2.2 b%"h" rfl exFdSrv (exFd_named es).1 (exFd_named es).2.1 exFdHost rfl b%"/d" b%"pub/"
    (exFd_files es b%"pub/" b%"pub/" ⟨fun _ => by decide, fun h => by omega⟩) 11 rfl rfl (.inr (by decide)) b%"index.gmi" (exFd_index es _) (.inl rfl)
    (.inl ⟨_, ⟨[], [], hlocs, by decide, (locMatches_iff _ _ _).1 rfl, by simp⟩, by decide⟩) es hshort (by simp [exFdEnv, exIriPath]) (by
      intro s hs
      rcases hs with ⟨_, l, h1, _⟩ | ⟨_, _, _, rfl⟩ | ⟨_, rfl⟩
      · exact absurd (hl l (firstSet_mem h1)) (by obtain ⟨_, _, _, h2, _⟩ := h1; exact h2)
      · rw [hd2]; decide
      · decide) 4096 4096

end Gmid.Props
