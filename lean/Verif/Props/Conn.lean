import Verif.Props.Files

/-! # C19, C22: histories of a connection -/

set_option autoImplicit false

namespace Gmid.Props
open Spec

/-! ## C19 -/

/-- the text of a line is not acceptable as a request -/
def BadLine (env : Env) (req : Bytes) : Prop :=
  1024 < req.length ∨ (0 : UInt8) ∈ req ∨ parseIri env.isAddr req = .err ∨
  ∃ i, parseIri env.isAddr req = .ok i ∧ env.puny i.host = none

/-- what a client sends does not begin with an acceptable request line: the first line (up to the
first CRLF) is bad, or there is no CRLF although more bytes arrived than a request may have -/
def Malformed (env : Env) (stream : Bytes) : Prop :=
  (∃ req rest, stream = req ++ b%"\r\n" ++ rest ∧ (∀ a b, req ++ b%"\r" = a ++ b%"\r\n" ++ b → False) ∧ BadLine env req) ∨
  ((∀ a b, stream = a ++ b%"\r\n" ++ b → False) ∧ 1026 < stream.length)

/-- the bytes delivered by the read events of a history -/
def received : List (Env × Ev) → Bytes
  | [] => []
  | (_, .read data) :: r => data ++ received r
  | _ :: r => received r

/-- no timeout, EOF or error happens -/
def NoFailure (evs : List (Env × Ev)) : Prop := ∀ p ∈ evs, ∀ k, p.2 ≠ .failed k

/-- waiting for the request line -/
structure Waiting (c : Client) (got : Bytes) : Prop where
  type : c.type = .undecided
  inp : c.inp = got
  out : c.out = []
  sent : c.sent = []
  effs : c.effs = []
  isOpen : c.closed = false
  noLine : readLine got = none
  short : got.length ≤ 1026

/-- the reply to a malformed request, and possibly the end of the connection; nothing else -/
structure Rejected (c : Client) : Prop where
  bytes : c.sent ++ c.out = b%"59 bad request\r\n"
  codes : headerCodes c.effs = [59]
  effs : ∀ x ∈ c.effs, Quiet x ∨ x = .close
  type : c.type = .done
  code : c.code = 59

theorem headerCodes_append (a b : List Eff) : headerCodes (a ++ b) = headerCodes a ++ headerCodes b := by
  induction a with
  | nil => rfl
  | cons x r ih => cases x <;> simp [headerCodes, ih]

theorem headerCodes_close (e : List Eff) (h : ∀ x ∈ e, x = .close) : headerCodes e = [] := by
  induction e with
  | nil => rfl
  | cons x r ih =>
    rw [h x (by simp)]
    exact ih (fun y hy => h y (by simp [hy]))

theorem onlyReply_codes {code : Int} {e : List Eff} (h : OnlyReply code e) : headerCodes e = [code] := by
  obtain ⟨t, rfl | ⟨m, rfl⟩⟩ := h <;> rfl

theorem rejected_run (bufsiz : Nat) (evs : List (Env × Ev)) (c : Client) (h : Rejected c) :
    ∃ c', runEvents bufsiz evs c = .ok c' ∧ Rejected c' := by
  obtain ⟨c', e, h1, h2, h3, h4, h5, h6⟩ := done_run bufsiz evs c h.type (by rw [h.code]; decide)
  refine ⟨c', h1, by rw [h4, h.bytes], ?_, ?_, h2, by rw [h3, h.code]⟩
  · rw [h5, headerCodes_append, h.codes, headerCodes_close e h6]; rfl
  · intro x hx
    rw [h5] at hx
    rcases List.mem_append.1 hx with hx | hx
    · exact h.effs x hx
    · exact .inr (h6 x hx)

theorem reject_reply (env : Env) (c : Client) (h1 : c.out = []) (h2 : c.sent = []) (h3 : c.effs = []) :
    Rejected (startReply env c 59 b%"bad request") := by
  rw [startReply_short env _ 59 b%"bad request" (by decide) (by decide)]
  have hr := queueHeader_replied env c 59 b%"bad request" (intDec 59 ++ c%' ' :: b%"bad request")
  obtain ⟨e, k1, k2⟩ := hr.effs
  rw [h3, List.nil_append] at k1
  refine ⟨?_, ?_, ?_, ?_, hr.rcode⟩
  · rw [hr.sent, h2]; simp [queueHeader, h1]
  · rw [k1]; exact onlyReply_codes k2
  · rw [k1]; exact fun x hx => .inl (onlyReply_quiet k2 x hx)
  · rw [hr.type]; rfl

theorem waiting_read (env : Env) (c : Client) (got data more : Bytes) (h : Waiting c got)
    (hm : Malformed env (got ++ data ++ more)) :
    ∃ c', clientRead env { c with inp := c.inp ++ data } = .ok c' ∧ (Rejected c' ∨ Waiting c' (got ++ data)) := by
  have rej : ∀ rest, Rejected (startReply env { c with inp := rest } 59 b%"bad request") :=
    fun rest => reject_reply env _ h.out h.sent h.effs
  unfold clientRead
  rw [if_neg (by simp [h.type])]
  simp only [h.inp]
  split
  · exact ⟨_, rfl, .inl (rej _)⟩
  · rename_i hlen
    cases hl : readLine (got ++ data) with
    | none =>
      simp only
      exact ⟨_, rfl, .inr ⟨h.type, rfl, h.out, h.sent, h.effs, h.isOpen, hl, by omega⟩⟩
    | some p =>
      obtain ⟨req, rest⟩ := p
      obtain ⟨k1, k2⟩ := readLine_some _ _ _ hl
      have hbad : BadLine env req := by
        have hfirst : readLine (got ++ data ++ more) = some (req, rest ++ more) := by
          rw [k1, List.append_assoc]; exact readLine_append req (rest ++ more) k2
        rcases hm with ⟨req', rest', e1, e2, e3⟩ | ⟨e1, -⟩
        · rw [e1, readLine_append req' rest' e2] at hfirst
          cases hfirst; exact e3
        · rw [(readLine_none _).2 e1] at hfirst; cases hfirst
      simp only
      split
      · exact ⟨_, rfl, .inl (rej _)⟩
      · split
        · exact ⟨_, rfl, .inl (rej _)⟩
        · rename_i hn
          rcases hbad with hb | hb | hb | ⟨i, hb1, hb2⟩
          · exfalso
            rw [k1] at hlen; simp at hlen; omega
          · exact absurd hb hn
          · simp only [hb]; exact ⟨_, rfl, .inl (rej _)⟩
          · simp only [hb1, hb2]; exact ⟨_, rfl, .inl (rej _)⟩

/-- C19: however a malformed request is split into reads, interleaved with writability events and
followed by anything, the outcome is one reply, "59 bad request", and no other effect. -/
theorem C19_malformed_rejected (bufsiz : Nat) (v : Option Vhost) (name : Bytes) (evs later : List (Env × Ev))
    (hf : NoFailure evs) (hm : ∀ p ∈ evs, Malformed p.1 (received evs)) (hne : evs ≠ []) :
    ∃ c', runEvents bufsiz (evs ++ later) { host := v, domain := name } = .ok c' ∧
      c'.sent ++ c'.out = b%"59 bad request\r\n" ∧ headerCodes c'.effs = [59] ∧
      ∀ x ∈ c'.effs, Quiet x ∨ x = .close := by
  have key : ∀ (evs : List (Env × Ev)) (c : Client) (got : Bytes), Waiting c got → NoFailure evs →
      (∀ p ∈ evs, Malformed p.1 (got ++ received evs)) →
      (∃ e, Malformed e (got ++ received evs)) →
      ∃ c', runEvents bufsiz (evs ++ later) c = .ok c' ∧ Rejected c' := by
    intro evs
    induction evs with
    | nil =>
      intro c got hw _ _ ⟨e, he⟩
      exfalso
      simp only [received, List.append_nil] at he
      rcases he with ⟨req, rest, e1, e2, -⟩ | ⟨-, e2⟩
      · have := readLine_append req rest e2
        rw [← e1, hw.noLine] at this; cases this
      · have := hw.short; omega
    | cons p r ih =>
      intro c got hw hnf hall hex
      obtain ⟨env, ev⟩ := p
      have hstep : runEvents bufsiz ((env, ev) :: r ++ later) c =
          match step env bufsiz ev c with
          | .ok c => runEvents bufsiz (r ++ later) c
          | .err => .err
          | .ub => .ub := rfl
      have hnf' : NoFailure r := fun p hp => hnf p (by simp [hp])
      rw [hstep]
      unfold step
      rw [if_neg (by simp [hw.isOpen])]
      cases ev with
      | read data =>
        simp only
        have hrec : got ++ received ((env, Ev.read data) :: r) = got ++ data ++ received r := by
          simp [received]
        rw [hrec] at hex hall
        obtain ⟨c', h1, h2⟩ := waiting_read env c got data (received r) hw (hall (env, .read data) (by simp))
        rw [h1]
        simp only
        rcases h2 with h2 | h2
        · exact rejected_run bufsiz _ c' h2
        · exact ih c' (got ++ data) h2 hnf' (fun p hp => hall p (by simp [hp])) hex
      | writable n rd =>
        have hrec : got ++ received ((env, Ev.writable n rd) :: r) = got ++ received r := rfl
        rw [hrec] at hex hall
        simp only [hw.out, List.drop_nil, if_true, List.take_nil, List.append_nil]
        have : clientWrite env bufsiz rd { c with sent := c.sent, out := [] } = .ok { c with out := [] } := by
          unfold clientWrite; simp only [hw.type]
        rw [this]
        simp only
        exact ih _ got ⟨hw.type, hw.inp, rfl, hw.sent, hw.effs, hw.isOpen, hw.noLine, hw.short⟩ hnf'
          (fun p hp => hall p (by simp [hp])) hex
      | failed k => exact absurd rfl (hnf _ (List.mem_cons_self ..) k)
  obtain ⟨p, hp⟩ : ∃ p, p ∈ evs := by
    cases evs with
    | nil => exact absurd rfl hne
    | cons p r => exact ⟨p, by simp⟩
  obtain ⟨c', h1, h2⟩ := key evs { host := v, domain := name } [] ⟨rfl, rfl, rfl, rfl, rfl, rfl, rfl, by simp⟩ hf
    (by simpa using hm) ⟨p.1, by simpa using hm p hp⟩
  exact ⟨c', h1, h2.bytes, h2.codes, h2.effs⟩

example : Malformed exEnv (b%"gemini://h/%zz\r\nabc") ∧ Malformed exEnv (b%"\r\n") ∧
    Malformed exEnv (List.replicate 1027 c%'x') ∧
    received [(exEnv, .read b%"gemini://"), (exEnv, .writable 0 none), (exEnv, .read b%"h/%zz\r"), (exEnv, .read b%"\nabc")] =
      b%"gemini://h/%zz\r\nabc" := by
  refine ⟨.inl ⟨b%"gemini://h/%zz", b%"abc", rfl, ?_, .inr (.inr (.inl (by decide +kernel)))⟩,
    .inl ⟨[], [], rfl, ?_, .inr (.inr (.inl (by decide +kernel)))⟩, .inr ⟨?_, by rw [List.length_replicate]; omega⟩, rfl⟩
  · exact (readLine_some (b%"gemini://h/%zz\r\nabc") _ b%"abc" (by decide +kernel)).2
  · exact (readLine_some (b%"\r\n") _ [] (by decide +kernel)).2
  · refine (readLine_none _).1 (by decide +kernel)

/-! ## C22 -/

/-- Sizes and checks the configuration guarantees: lang[32] (gmid.h:169), and the code of a block
return is not a success (parse.y:1224-1232). -/
def ConfOk (v : Vhost) : Prop :=
  ∀ l, l = v.dflt ∨ l ∈ v.locs → l.lang.length ≤ 31 ∧ l.blockCode ≠ 20

/-- A native handler has answered: one header; a body only after 20. -/
structure Answered (c c' : Client) : Prop where
  host : c'.host = c.host
  sent : c'.sent = c.sent
  closed : c'.closed = c.closed
  effs : ∃ e, c'.effs = c.effs ++ e ∧ headerCodes e = [c'.code] ∧ ∀ x ∈ e, x ≠ .close
  code : c'.code ≠ 0
  out : ∃ text body, c'.out = text ++ b%"\r\n" ++ body ∧ Eff.header c'.code text ∈ c'.effs ∧ (body ≠ [] → c'.code = 20)
  type : c'.type = .done ∨ (c'.code = 20 ∧ (c'.type = .file ∨ c'.type = .dir))

theorem Answered.from {c c1 c' : Client} (h : Answered c1 c') (pre : List Eff) (h1 : c1.host = c.host)
    (h2 : c1.sent = c.sent) (h3 : c1.closed = c.closed) (h4 : c1.effs = c.effs ++ pre) (h5 : headerCodes pre = [])
    (h6 : ∀ x ∈ pre, x ≠ .close) : Answered c c' := by
  obtain ⟨e, e1, e2, e3⟩ := h.effs
  refine ⟨by rw [h.host, h1], by rw [h.sent, h2], by rw [h.closed, h3], ⟨pre ++ e, ?_, ?_, ?_⟩, h.code, h.out, h.type⟩
  · rw [e1, h4]; simp
  · rw [headerCodes_append, h5, e2]; rfl
  · intro x hx
    rcases List.mem_append.1 hx with hx | hx
    · exact h6 x hx
    · exact e3 x hx

theorem queueHeader_answered (env : Env) (c : Client) (code : Int) (mt hdr : Bytes) (ho : c.out = []) (hc : code ≠ 0)
    (ht : code = 20 → c.type = .file ∨ c.type = .dir) : Answered c (queueHeader env c code mt hdr) := by
  have hr := queueHeader_replied env c code mt hdr
  obtain ⟨e, k1, k2⟩ := hr.effs
  refine ⟨hr.host, hr.sent, hr.closed, ⟨e, k1, by rw [hr.rcode]; exact onlyReply_codes k2, ?_⟩, by rw [hr.rcode]; exact hc, ?_, ?_⟩
  · intro x hx e; subst e; exact onlyReply_quiet k2 _ hx
  · refine ⟨hdr, [], by simp [queueHeader, ho], ?_, by simp⟩
    simp [queueHeader]
  · rw [hr.type, hr.rcode]
    by_cases h : code = 20
    · right; rw [if_neg (by simp [h])]; exact ⟨h, ht h⟩
    · left; rw [if_pos h]

theorem startReply_answered (env : Env) (c : Client) (code : Int) (mt : Bytes) (ho : c.out = []) (hc : code ≠ 0)
    (ht : code = 20 → c.type = .file ∨ c.type = .dir) : Answered c (startReply env c code mt) := by
  rcases startReply_cases env c code mt with ⟨hdr, h, -⟩ | ⟨h, -⟩
  · rw [h]; exact queueHeader_answered env c code mt hdr ho hc ht
  · rw [h]
    have := queueHeader_answered env { c with out := [] } 40 b%"internal error" b%"40 internal error" rfl (by decide) (by simp)
    exact this.from [] rfl rfl rfl (by simp) rfl (by simp)

theorem lang_short (fnm : Bytes → Bytes → Bool) (v : Vhost) (hv : ConfOk v) (p : Option Bytes) (l : Bytes)
    (h : vhostLang fnm (some v) p = some l) : l.length ≤ 31 := by
  cases p with
  | none => simp [vhostLang] at h
  | some p =>
    rcases C15_exhaustive fnm (·.lang ≠ []) v.locs p with ⟨x, hx⟩ | hn
    · rw [(C15_lang fnm v p).1 x hx] at h
      cases h
      obtain ⟨b, a, e, -⟩ := hx
      exact (hv x (.inr (by rw [e]; simp))).1
    · rw [(C15_lang fnm v p).2 hn] at h
      split at h
      · cases h
      · cases h; exact (hv _ (.inl rfl)).1

theorem dirListing_answered (env : Env) (c : Client) (i : Iri) (v : Vhost) (hh : c.host = some v) (hv : ConfOk v)
    (ho : c.out = []) : Answered c (dirListing env c i) := by
  unfold dirListing
  split
  · exact startReply_answered env c 51 _ ho (by decide) (by simp)
  · split
    · exact startReply_answered env c 40 _ ho (by decide) (by simp)
    · rename_i d _
      rcases startReply_cases env { c with dir := d, type := .dir } 20 b%"text/gemini" with ⟨hdr, h, -⟩ | ⟨h, hl⟩
      · have ha := queueHeader_answered env { c with dir := d, type := .dir } 20 b%"text/gemini" hdr ho (by decide) (fun _ => .inr rfl)
        simp only [h]
        obtain ⟨e, k1, k2, k3⟩ := ha.effs
        refine ⟨ha.host, ha.sent, ha.closed, ⟨e, k1, k2, k3⟩, ha.code, ?_, ha.type⟩
        exact ⟨hdr, b%"# Index of /" ++ i.path ++ b%"\n\n", by simp [queueHeader, ho], by simp [queueHeader], fun _ => rfl⟩
      · exfalso
        rcases hl with hl | ⟨lang, -, h1, h2⟩
        · simp at hl
        · have := lang_short env.fnm v hv _ lang (by simpa [hh] using h1)
          simp at h2
          omega

theorem serveFile_answered (env : Env) (c : Client) (i : Iri) (v : Vhost) (hh : c.host = some v) (hv : ConfOk v)
    (ho : c.out = []) : ∃ c', serveFile env c i = .ok c' ∧ Answered c c' := by
  unfold serveFile
  simp only
  split
  · exact ⟨_, rfl, (startReply_answered env _ 51 _ (by exact ho) (by decide) (by simp)).from [Eff.openat _ _] (by rfl) (by rfl) (by rfl) (by rfl) (by rfl) (by simp)⟩
  · rename_i fd _
    split
    · exact ⟨_, rfl, (startReply_answered env _ 40 _ (by exact ho) (by decide) (by simp)).from [Eff.openat _ _] (by rfl) (by rfl) (by rfl) (by rfl) (by rfl) (by simp)⟩
    · unfold openDir
      split
      · unfold redirectDir
        simp only
        split
        · exact ⟨_, rfl, (startReply_answered env _ 40 _ (by exact ho) (by decide) (by simp)).from [Eff.openat _ _] (by rfl) (by rfl) (by rfl) (by rfl) (by rfl) (by simp)⟩
        · exact ⟨_, rfl, (startReply_answered env _ 30 _ (by exact ho) (by decide) (by simp)).from [Eff.openat _ _] (by rfl) (by rfl) (by rfl) (by rfl) (by rfl) (by simp)⟩
      · simp only
        split
        · exact ⟨_, rfl, (dirListing_answered env _ i v (by exact hh) hv (by exact ho)).from [Eff.openat _ _, Eff.openat _ _] (by rfl) (by rfl) (by rfl)
            (by exact List.append_assoc _ _ _) (by rfl) (by simp)⟩
        · split
          · exact ⟨_, rfl, (startReply_answered env _ 40 _ (by exact ho) (by decide) (by simp)).from [Eff.openat _ _, Eff.openat _ _] (by rfl) (by rfl) (by rfl)
              (by exact List.append_assoc _ _ _) (by rfl) (by simp)⟩
          · obtain ⟨m, hm⟩ := mimeType_ok env.fnm env.mimes c.host
              ((i.path ++ vhostIndex env.fnm c.host (some i.path)).take 4095) (by
                intro h
                have := vhostIndex_ne env.fnm c.host (some i.path)
                rw [List.take_eq_nil_iff] at h
                rcases h with h | h
                · omega
                · rw [List.append_eq_nil_iff] at h; exact this h.2)
            rw [hm]
            exact ⟨_, rfl, (startReply_answered env _ 20 _ (by exact ho) (by decide) (fun _ => .inl rfl)).from
              [Eff.openat _ _, Eff.openat _ _] (by rfl) (by rfl) (by rfl) (by exact List.append_assoc _ _ _) (by rfl) (by simp)⟩
          · exact ⟨_, rfl, (dirListing_answered env _ i v (by exact hh) hv (by exact ho)).from [Eff.openat _ _, Eff.openat _ _] (by rfl) (by rfl) (by rfl)
              (by exact List.append_assoc _ _ _) (by rfl) (by simp)⟩
    · obtain ⟨m, hm⟩ := mimeType_ok env.fnm env.mimes c.host _
        (openName_ne (vhostStrip env.fnm c.host (some i.path)) i.path)
      rw [hm]
      exact ⟨_, rfl, (startReply_answered env _ 20 _ (by exact ho) (by decide) (fun _ => .inl rfl)).from
        [Eff.openat _ _] (by rfl) (by rfl) (by rfl) (by rfl) (by rfl) (by simp)⟩

theorem block_code (fnm : Bytes → Bytes → Bool) (v : Vhost) (hv : ConfOk v) (p : Bytes) (code : Int) (fmt : Bytes)
    (h : vhostBlockReturn fnm (some v) (some p) = some (code, fmt)) : code ≠ 0 ∧ code ≠ 20 := by
  rcases C15_exhaustive fnm (·.blockCode ≠ 0) v.locs p with ⟨x, hx⟩ | hn
  · rw [(C15_block_return fnm v p).1 x hx] at h
    cases h
    have hx' := hx
    obtain ⟨b, a, e, h1, -⟩ := hx'
    exact ⟨h1, (hv x (.inr (by rw [e]; simp))).2⟩
  · rw [(C15_block_return fnm v p).2 hn] at h
    split at h
    · cases h
    · rename_i h0
      cases h
      exact ⟨h0, (hv _ (.inl rfl)).2⟩

/-- the state of a connection over its life: waiting, answered by a native handler, or handed over
to an upstream or a FastCGI application -/
inductive Life (v : Vhost) (c : Client) : Prop where
  | fresh : c.type = .undecided → c.code = 0 → c.host = some v → c.out = [] → c.sent = [] →
      c.effs = [] → Life v c
  | gone : c.closed = true → headerCodes c.effs = [] → c.sent ++ c.out = [] → Life v c
  | answered (text body : Bytes) : c.code ≠ 0 → headerCodes c.effs = [c.code] →
      c.sent ++ c.out = text ++ b%"\r\n" ++ body → Eff.header c.code text ∈ c.effs → (body ≠ [] → c.code = 20) →
      (c.type = .done ∨ (c.code = 20 ∧ (c.type = .file ∨ c.type = .dir))) → Life v c
  | handed : (∃ x ∈ c.effs, Contact x) → Life v c

theorem Answered.life {v : Vhost} {c c' : Client} (h : Answered c c') (hs : c.sent = []) (he : c.effs = []) :
    Life v c' := by
  obtain ⟨e, e1, e2, -⟩ := h.effs
  obtain ⟨text, body, o1, o2, o3⟩ := h.out
  refine .answered text body h.code ?_ ?_ o2 o3 h.type
  · rw [e1, he]; exact e2
  · rw [h.sent, hs, o1]; rfl

theorem runEvents_effs (env : Env) (bufsiz : Nat) (ev : Ev) (c c' : Client) (h : step env bufsiz ev c = .ok c') :
    ∃ e, c'.effs = c.effs ++ e := by
  have sr : ∀ (c : Client) code mt, ∃ e, (startReply env c code mt).effs = c.effs ++ e := by
    intro c code mt
    rcases startReply_replied env c code mt with hr | hr
    all_goals
      obtain ⟨e, k1, k2⟩ := hr.effs
      exact ⟨e, k1⟩
  have ce : ∀ (c : Client) k, ∃ e, (clientError env k c).effs = c.effs ++ e := by
    intro c k
    unfold clientError
    cases k
    · simp only; split
      · exact sr _ _ _
      · exact ⟨_, rfl⟩
    · exact ⟨_, rfl⟩
    · exact ⟨_, rfl⟩
  unfold step at h
  split at h
  · cases h; exact ⟨[], by simp⟩
  · cases ev with
    | read data =>
      simp only at h
      rcases clientRead_cases _ _ h with rfl | ⟨rest, rfl⟩ | ⟨req, rest, i, decoded, -, -, -, -, -, -, hd⟩
      · exact ⟨[], by simp⟩
      · exact sr _ _ _
      · rcases dispatch_cases _ _ _ _ hd with ⟨code, mt, rfl, -⟩ | ⟨e, h1, -⟩ | hs
        · exact sr _ _ _
        · exact ⟨e, h1⟩
        · obtain ⟨c2, code, e, h1, h2, h3⟩ := serveFile_effs env (parsed { c with inp := c.inp ++ data } rest i) i
          rw [hs] at h1
          cases h1
          rcases h3 with ⟨k1, -⟩ | ⟨_, _, _, (⟨k1, -⟩ | ⟨k1, -⟩)⟩ <;> exact ⟨_, k1⟩
    | writable n rd =>
      simp only at h
      split at h
      · unfold clientWrite at h
        split at h
        · cases h; exact ⟨[], by simp⟩
        · split at h
          · simp only [Res.ok.injEq] at h; rw [← h]
            exact ce { c with sent := c.sent ++ c.out.take n, out := c.out.drop n } .error
          · cases h; exact ⟨_, rfl⟩
          · cases h; exact ⟨[], by simp⟩
        · split at h
          · cases h; exact ⟨[], by simp⟩
          · cases h
          · cases h
        · cases h; exact ⟨[], by simp⟩
        · cases h; exact ⟨[], by simp⟩
        · split at h
          · cases h; exact ⟨_, rfl⟩
          · rename_i h1 _ _ h2
            exact absurd h1 h2
      · cases h; exact ⟨[], by simp⟩
    | failed k =>
      simp only [Res.ok.injEq] at h
      rw [← h]; exact ce c k

theorem life_step (v : Vhost) (hv : ConfOk v) (env : Env) (bufsiz : Nat) (ev : Ev) (c c' : Client) (hl : Life v c)
    (h : step env bufsiz ev c = .ok c') : Life v c' := by
  obtain ⟨e0, he0⟩ := runEvents_effs env bufsiz ev c c' h
  cases hl with
  | handed hx =>
    obtain ⟨x, hx, hc⟩ := hx
    exact .handed ⟨x, by rw [he0]; simp [hx], hc⟩
  | gone h1 h2 h3 =>
    unfold step at h
    rw [if_pos h1] at h
    cases h
    exact .gone h1 h2 h3
  | fresh h1 h2 h3 h4 h5 h6 =>
    unfold step at h
    split at h
    · cases h; exact .fresh h1 h2 h3 h4 h5 h6
    · cases ev with
      | read data =>
        simp only at h
        rcases clientRead_cases _ _ h with rfl | ⟨rest, rfl⟩ | ⟨req, rest, i, decoded, -, -, -, -, -, -, hd⟩
        · exact .fresh h1 h2 h3 h4 h5 h6
        · exact Answered.life (startReply_answered env _ 59 _ (by exact h4) (by decide) (by simp)) (by exact h5) (by exact h6)
        · have hc0 : (parsed { c with inp := c.inp ++ data } rest i).out = [] := h4
          rcases dispatch_cases _ _ _ _ hd with ⟨code, mt, rfl, hcode⟩ | ⟨e, k1, ⟨x, kx, kc⟩, -⟩ | hs
          · have : code ≠ 0 ∧ code ≠ 20 := by
              rcases hcode with rfl | rfl | rfl | ⟨fmt, hb⟩
              · decide
              · decide
              · decide
              · have hh : (parsed { c with inp := c.inp ++ data } rest i).host = some v := h3
                rw [hh] at hb
                exact block_code _ v hv _ _ _ hb
            exact (startReply_answered env _ code mt hc0 this.1 (fun e => absurd e this.2)).life h5 h6
          · exact .handed ⟨x, by rw [k1]; simp [kx], kc⟩
          · obtain ⟨c2, k1, k2⟩ := serveFile_answered env (parsed { c with inp := c.inp ++ data } rest i) i v h3 hv hc0
            rw [hs] at k1
            cases k1
            exact k2.life h5 h6
      | writable n rd =>
        simp only [h4, List.drop_nil, List.take_nil, List.append_nil, if_true] at h
        unfold clientWrite at h
        simp only [h1] at h
        cases h
        exact .fresh rfl h2 h3 rfl h5 h6
      | failed k =>
        simp only [Res.ok.injEq] at h
        rw [← h]
        cases k with
        | timeout =>
          simp only [clientError, h2, if_true]
          exact Answered.life (startReply_answered env _ 59 _ (by exact h4) (by decide) (by simp)) (by exact h5) (by exact h6)
        | eof => exact .gone rfl (by simp [clientError, clientClose, h6, headerCodes]) (by simp [clientError, clientClose, h4, h5])
        | error => exact .gone rfl (by simp [clientError, clientClose, h6, headerCodes]) (by simp [clientError, clientClose, h4, h5])
  | answered text body h1 h2 h3 h4 h5 h6 =>
    -- closing only adds the effect close
    have close : ∀ c1 : Client, c1.code = c.code → c1.effs = c.effs → c1.sent ++ c1.out = c.sent ++ c.out →
        (c1.type = .done ∨ (c1.code = 20 ∧ (c1.type = .file ∨ c1.type = .dir))) → Life v (clientClose c1) := by
      intro c1 k1 k2 k3 k4
      refine .answered text body (by simp [clientClose, k1, h1]) ?_ (by simp [clientClose, k3, h3]) ?_ (by simpa [clientClose, k1] using h5)
        (by simpa [clientClose] using k4)
      · simp [clientClose, k2, headerCodes_append, h2, k1, headerCodes]
      · simp [clientClose, k2, k1, h4]
    unfold step at h
    split at h
    · cases h; exact .answered text body h1 h2 h3 h4 h5 h6
    · cases ev with
      | read data =>
        simp only at h
        unfold clientRead at h
        rw [if_pos (by rcases h6 with h6 | ⟨-, h6 | h6⟩ <;> simp [h6])] at h
        cases h
        exact .answered text body h1 h2 h3 h4 h5 h6
      | writable n rd =>
        simp only at h
        split at h
        · rename_i hout
          have hsent : c.sent ++ c.out.take n ++ c.out.drop n = text ++ b%"\r\n" ++ body := by simp [h3]
          unfold clientWrite at h
          rcases h6 with h6 | ⟨h20, h6 | h6⟩
          · simp only [h6, hout, if_true, Res.ok.injEq] at h
            rw [← h]
            have hc : c.out.take n = c.out := by
              have := List.take_append_drop n c.out
              rw [hout] at this; simpa using this
            exact close _ rfl rfl (by simp [hc]) (.inl rfl)
          · simp only [h6] at h
            split at h
            · simp only [Res.ok.injEq, clientError] at h
              rw [← h]
              exact close _ rfl rfl (by simp) (.inl rfl)
            · simp only [Res.ok.injEq] at h
              rw [← h]
              exact close _ rfl rfl (by simp) (.inr ⟨h20, .inl rfl⟩)
            · rename_i data _
              simp only [Res.ok.injEq] at h
              rw [← h]
              refine .answered text (body ++ data) h1 h2 ?_ h4 (fun _ => h20) ?_
              · simp only
                rw [← List.append_assoc, hsent]; simp
              · simp only
                split
                · exact .inl rfl
                · exact .inr ⟨h20, .inl rfl⟩
          · simp only [h6] at h
            split at h
            · rename_i t _
              simp only [Res.ok.injEq] at h
              rw [← h]
              refine .answered text (body ++ t) h1 h2 ?_ h4 (fun _ => h20) (.inl rfl)
              simp only
              rw [← List.append_assoc, hsent]; simp
            · cases h
            · cases h
        · cases h
          exact .answered text body h1 h2 (by simp [h3]) h4 h5 h6
      | failed k =>
        simp only [Res.ok.injEq] at h
        rw [← h]
        cases k with
        | timeout =>
          simp only [clientError, h1, if_false]
          exact close _ rfl rfl rfl (.inl rfl)
        | eof => exact close _ rfl rfl rfl (.inl rfl)
        | error => exact close _ rfl rfl rfl (.inl rfl)

theorem life_run (v : Vhost) (hv : ConfOk v) (bufsiz : Nat) (evs : List (Env × Ev)) (c c' : Client) (hl : Life v c)
    (h : runEvents bufsiz evs c = .ok c') : Life v c' := by
  induction evs generalizing c with
  | nil => cases h; exact hl
  | cons p r ih =>
    obtain ⟨env, ev⟩ := p
    simp only [runEvents] at h
    split at h
    · rename_i c1 h1
      exact ih c1 (life_step v hv env bufsiz ev c c1 hl h1) h
    · cases h
    · cases h

/-- C22: over any history of events (with the rest of the world behaving differently at each), a
connection on which no upstream and no FastCGI application was contacted has at most one reply
header, and the bytes produced are that header's line followed by a body, which is empty unless
the code is 20. -/
theorem C22_one_header (v : Vhost) (hv : ConfOk v) (name : Bytes) (bufsiz : Nat) (evs : List (Env × Ev)) (c' : Client)
    (h : runEvents bufsiz evs { host := some v, domain := name } = .ok c') (hn : ∀ x ∈ c'.effs, ¬ Contact x) :
    (headerCodes c'.effs = [] ∧ c'.sent ++ c'.out = []) ∨
    (∃ code text body, headerCodes c'.effs = [code] ∧ Eff.header code text ∈ c'.effs ∧
      c'.sent ++ c'.out = text ++ b%"\r\n" ++ body ∧ (body ≠ [] → code = 20)) := by
  have := life_run v hv bufsiz evs _ c' (.fresh rfl rfl rfl rfl rfl rfl) h
  cases this with
  | fresh h1 h2 h3 h4 h5 h6 => left; simp [h4, h5, h6, headerCodes]
  | gone h1 h2 h3 => left; exact ⟨h2, h3⟩
  | answered text body h1 h2 h3 h4 h5 h6 => right; exact ⟨_, text, body, h2, h4, h3, h5⟩
  | handed hx =>
    obtain ⟨x, k1, k2⟩ := hx
    exact absurd k2 (hn x k1)

/-- the hypotheses of C22 are met by a connection that serves a file in two reads, then is closed -/
example :
    ConfOk exHost2 ∧
    (runEvents 4 [(exEnv2, .read b%"gemini://h/f"), (exEnv2, .read b%".gmi\r\n"), (exEnv2, .writable 5 none),
      (exEnv2, .writable 100 (some b%"abcd")), (exEnv2, .writable 100 (some b%"ef")), (exEnv2, .read b%"gemini://h/d\r\n"),
      (exEnv2, .writable 100 none)] { host := some exHost2, domain := b%"h" }).val?.map (fun c => (c.sent, c.closed)) =
      some (b%"20 text/gemini\r\nabcdef", true) := by
  refine ⟨?_, by decide +kernel⟩
  intro l hl
  rcases hl with rfl | hl
  · decide
  · simp [exHost2] at hl
    rcases hl with rfl | rfl | rfl <;> decide

end Gmid.Props
