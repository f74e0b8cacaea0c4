import Verif.Props.Conn
import Verif.Props.Encode

/-! # C51 (static files), C52 (directory listings), C61 (totality of request handling) -/

set_option autoImplicit false

namespace Gmid.Props
open Spec

/-! ## C61 -/

/-- the block return formats have passed the configuration check -/
def FmtsOk (v : Vhost) : Prop := ∀ l, l = v.dflt ∨ l ∈ v.locs → checkBlockFmt l.blockFmt = .ok true

theorem block_fmt (fnm : Bytes → Bytes → Bool) (v : Vhost) (hv : FmtsOk v) (p : Bytes) (code : Int) (fmt : Bytes)
    (h : vhostBlockReturn fnm (some v) (some p) = some (code, fmt)) : checkBlockFmt fmt = .ok true := by
  rcases C15_exhaustive fnm (·.blockCode ≠ 0) v.locs p with ⟨x, hx⟩ | hn
  · rw [(C15_block_return fnm v p).1 x hx] at h
    cases h
    obtain ⟨b, a, e, h1, -⟩ := hx
    exact hv x (.inr (by rw [e]; simp))
  · rw [(C15_block_return fnm v p).2 hn] at h
    split at h
    · cases h
    · cases h; exact hv _ (.inl rfl)

theorem fmtLoop_total (n : Nat) (fmt : Bytes) (hf : checkBlockFmt fmt = .ok true) (path query name : Bytes) (port : Int)
    (buf tmp : Bytes) : ∃ t, fmtLoop n path query name port buf tmp fmt = .ok t := by
  obtain ⟨out, ho⟩ := (C23_accepted_formats path query name b%"0" fmt).1 hf
  clear hf
  induction ho generalizing buf tmp with
  | nil => exact ⟨_, by rw [fmtLoop]⟩
  | lit x f o hx _ ih =>
    rw [fmtLoop_lit _ _ _ _ _ _ _ _ _ hx]
    split
    · exact ih _ _
    · exact ih _ _
  | pct f o _ ih => simp only [List.cons_append, List.nil_append]; rw [fmtLoop]; exact ih _ _
  | path f o _ ih => simp only [List.cons_append, List.nil_append]; rw [fmtLoop]; exact ih _ _
  | query f o _ ih => simp only [List.cons_append, List.nil_append]; rw [fmtLoop]; exact ih _ _
  | port f o _ ih => simp only [List.cons_append, List.nil_append]; rw [fmtLoop]; exact ih _ _
  | name f o _ ih => simp only [List.cons_append, List.nil_append]; rw [fmtLoop]; exact ih _ _

theorem dirLine_ok (d : Dirent) : ∃ pre rest, dirLine d = .ok (b%"=> ./" ++ pre ++ (if d.isDir then b%"/" else []) ++ b%"\n") ∧
    encName d.name = pre ++ rest ∧ ((encName d.name).length < 4096 → rest = []) := by
  obtain ⟨buf, ok, h1, h2, h3, ⟨rest, h4⟩, h5, h6⟩ := C08_encode_path 4096 (by decide) d.name
  refine ⟨cstr buf, rest, by simp only [dirLine, h1], h4, fun hl => ?_⟩
  have := h6 (h5.2 hl)
  rw [this] at h4
  simpa using h4

theorem dirLines_ok (l : List Dirent) : ∃ t, dirLines l = .ok t := by
  induction l with
  | nil => exact ⟨[], rfl⟩
  | cons d r ih =>
    obtain ⟨t, ht⟩ := ih
    obtain ⟨pre, rest, h, -⟩ := dirLine_ok d
    exact ⟨_, by simp only [dirLines, h, ht]; rfl⟩

theorem startReply_host (env : Env) (c : Client) (code : Int) (mt : Bytes) : (startReply env c code mt).host = c.host := by
  rcases startReply_replied env c code mt with hr | hr <;> exact hr.host

theorem checkCert_host (env : Env) (c : Client) (store : Nat) : (checkCert env c store).1.host = c.host := by
  unfold checkCert
  split
  · exact startReply_host _ _ _ _
  · split
    · exact startReply_host _ _ _ _
    · rfl

theorem relayTo_host (env : Env) (c : Client) (p : Proxy) : (relayTo env c p).host = c.host := by
  unfold relayTo
  simp only
  split
  · rw [startReply_host]
  · split
    · rw [startReply_host]
    · rfl

theorem reverse_host (env : Env) (c : Client) (i : Iri) : (applyReverseProxy env c i).1.host = c.host := by
  unfold applyReverseProxy
  split
  · rfl
  · split
    · rename_i store _
      have := checkCert_host env c store
      split
      · rename_i h; rw [h] at this; exact this
      · rename_i h; rw [h] at this; rw [relayTo_host]; exact this
    · exact relayTo_host _ _ _

theorem dirListing_host (env : Env) (c : Client) (i : Iri) : (dirListing env c i).host = c.host := by
  unfold dirListing
  split
  · rw [startReply_host]
  · split
    · rw [startReply_host]
    · simp only; rw [startReply_host]

theorem serveFile_total (env : Env) (c : Client) (i : Iri) : ∃ c', serveFile env c i = .ok c' ∧ c'.host = c.host := by
  unfold serveFile
  simp only
  split
  · exact ⟨_, rfl, startReply_host _ _ _ _⟩
  · split
    · exact ⟨_, rfl, startReply_host _ _ _ _⟩
    · unfold openDir
      split
      · unfold redirectDir
        simp only
        split
        · exact ⟨_, rfl, startReply_host _ _ _ _⟩
        · exact ⟨_, rfl, startReply_host _ _ _ _⟩
      · simp only
        split
        · exact ⟨_, rfl, dirListing_host _ _ _⟩
        · split
          · exact ⟨_, rfl, startReply_host _ _ _ _⟩
          · obtain ⟨m, hm⟩ := mimeType_ok env.fnm env.mimes c.host
              ((i.path ++ vhostIndex env.fnm c.host (some i.path)).take 4095) (by
                intro h
                have := vhostIndex_ne env.fnm c.host (some i.path)
                rw [List.take_eq_nil_iff] at h
                rcases h with h | h
                · omega
                · rw [List.append_eq_nil_iff] at h; exact this h.2)
            rw [hm]
            exact ⟨_, rfl, startReply_host _ _ _ _⟩
          · exact ⟨_, rfl, dirListing_host _ _ _⟩
    · obtain ⟨m, hm⟩ := mimeType_ok env.fnm env.mimes c.host _
        (openName_ne (vhostStrip env.fnm c.host (some i.path)) i.path)
      rw [hm]
      exact ⟨_, rfl, startReply_host _ _ _ _⟩

theorem applyFastcgi_host (env : Env) (c : Client) (i : Iri) : (applyFastcgi env c i).1.host = c.host := by
  unfold applyFastcgi
  split
  · rfl
  · split
    · rfl
    · simp only
      split
      · exact startReply_host _ _ _ _
      · split
        · exact startReply_host _ _ _ _
        · rfl

theorem dispatch_total (env : Env) (c : Client) (i : Iri) (decoded : Bytes) (hv : ∀ v, c.host = some v → FmtsOk v) :
    ∃ c', dispatch env c i decoded = .ok c' ∧ c'.host = c.host := by
  unfold dispatch
  have h1 := reverse_host env c i
  split
  · rename_i h; rw [h] at h1; exact ⟨_, rfl, h1⟩
  · rename_i c1 h; rw [h] at h1
    simp only at h1
    split
    · exact ⟨_, rfl, by rw [startReply_host, h1]⟩
    · have h2 : (applyRequireCa env c1 i).1.host = c1.host := by
        unfold applyRequireCa
        split
        · rfl
        · exact checkCert_host _ _ _
      split
      · rename_i h; rw [h] at h2; exact ⟨_, rfl, by simp only at h2; rw [h2, h1]⟩
      · rename_i c2 h; rw [h] at h2
        simp only at h2
        have hb : ∃ c3 b, applyBlockReturn env c2 i = .ok (c3, b) ∧ c3.host = c2.host := by
          unfold applyBlockReturn
          split
          · exact ⟨_, _, rfl, rfl⟩
          · rename_i code fmt hbr
            cases hh : c2.host with
            | none => rw [hh] at hbr; simp [vhostBlockReturn] at hbr
            | some v =>
              rw [hh] at hbr
              have hf := block_fmt env.fnm v (hv v (by rw [← h1, ← h2, hh])) i.path code fmt hbr
              obtain ⟨t, ht⟩ := fmtLoop_total 1027 fmt hf
                (stripPath i.path (vhostStrip env.fnm (some v) (some i.path))) i.query c2.domain env.port [] []
              simp only [fmtbuf, ht]
              exact ⟨_, _, rfl, by rw [startReply_host, hh]⟩
        obtain ⟨c3, b, hb, hb2⟩ := hb
        rw [hb]
        cases b with
        | true => exact ⟨_, rfl, by rw [hb2, h2, h1]⟩
        | false =>
          simp only
          have h3 := applyFastcgi_host env c3 i
          split
          · rename_i h; rw [h] at h3; exact ⟨_, rfl, by simp only at h3; rw [h3, hb2, h2, h1]⟩
          · rename_i c4 h; rw [h] at h3
            simp only at h3
            obtain ⟨c5, k1, k2⟩ := serveFile_total env c4 i
            exact ⟨c5, k1, by rw [k2, h3, hb2, h2, h1]⟩

theorem step_total (env : Env) (bufsiz : Nat) (ev : Ev) (c : Client)
    (hv : ∀ v, c.host = some v → FmtsOk v) : ∃ c', step env bufsiz ev c = .ok c' ∧ c'.host = c.host := by
  have sr : ∀ (c : Client) code mt, (startReply env c code mt).host = c.host := by
    intro c code mt
    rcases startReply_replied env c code mt with hr | hr <;> exact hr.host
  have ce : ∀ (c : Client) k, (clientError env k c).host = c.host := by
    intro c k
    unfold clientError
    cases k
    · simp only; split
      · rw [sr]
      · rfl
    · rfl
    · rfl
  unfold step
  split
  · exact ⟨c, rfl, rfl⟩
  · cases ev with
    | read data =>
      simp only
      unfold clientRead
      split
      · exact ⟨_, rfl, rfl⟩
      · split
        · exact ⟨_, rfl, sr _ _ _⟩
        · split
          · exact ⟨_, rfl, rfl⟩
          · rename_i req rest _
            simp only
            split
            · exact ⟨_, rfl, sr _ _ _⟩
            · split
              · exact ⟨_, rfl, sr _ _ _⟩
              · split
                · rename_i hp; exact absurd hp (parseIri_no_ub _ _)
                · exact ⟨_, rfl, sr _ _ _⟩
                · rename_i i _
                  split
                  · exact ⟨_, rfl, sr _ _ _⟩
                  · rename_i decoded _
                    exact dispatch_total env _ i decoded hv
    | writable n rd =>
      simp only
      split
      · unfold clientWrite
        split
        · exact ⟨_, rfl, rfl⟩
        · split
          · exact ⟨_, rfl, ce _ _⟩
          · exact ⟨_, rfl, rfl⟩
          · exact ⟨_, rfl, rfl⟩
        · obtain ⟨t, ht⟩ := dirLines_ok c.dir
          simp only [ht]
          exact ⟨_, rfl, rfl⟩
        · exact ⟨_, rfl, rfl⟩
        · exact ⟨_, rfl, rfl⟩
        · refine ⟨_, rfl, ?_⟩
          split <;> rfl
      · exact ⟨_, rfl, rfl⟩
    | failed k => exact ⟨_, rfl, ce _ _⟩

/-- C61: whatever happens on a connection, in whatever order and however the rest of the world
behaves, handling it is defined: no memory is accessed out of bounds by the modelled functions. -/
theorem C61_request_handling_defined (v : Option Vhost) (hv : ∀ w, v = some w → FmtsOk w) (name : Bytes)
    (bufsiz : Nat) (evs : List (Env × Ev)) :
    ∃ c', runEvents bufsiz evs { host := v, domain := name } = .ok c' := by
  have key : ∀ (evs : List (Env × Ev)) (c : Client), (∀ w, c.host = some w → FmtsOk w) →
      ∃ c', runEvents bufsiz evs c = .ok c' := by
    intro evs
    induction evs with
    | nil => intro c _; exact ⟨c, rfl⟩
    | cons p r ih =>
      intro c hc
      obtain ⟨env, ev⟩ := p
      obtain ⟨c1, h1, h2⟩ := step_total env bufsiz ev c hc
      simp only [runEvents, h1]
      exact ih c1 (by rw [h2]; exact hc)
  exact key evs _ hv

example : FmtsOk exHost2 := by
  intro l hl
  rcases hl with rfl | hl
  · decide
  · simp [exHost2] at hl
    rcases hl with rfl | rfl | rfl <;> decide

/-- C61: with a format the parser would have rejected (a lone % at the end) it is not: the
hypothesis matters. -/
theorem C61_needs_checked_formats :
    runEvents 4 [(exEnv, .read b%"gemini://h/\r\n")]
      { host := some { domain := b%"h", dflt := { blockCode := 31, blockFmt := b%"%" } }, domain := b%"h" } matches .ub := by
  decide +kernel

/-! ## C51 -/

/-- what can happen while a file is being sent: the client sends something, or the connection
accepts `n` bytes (reads from the file succeed, and so do writes) -/
inductive SendEv where
  | read (data : Bytes)
  | writable (n : Nat)

/-- One event, with a regular file open whose unread bytes are `rest`: a read(2) of at most `bufsiz`
bytes delivers the next bytes of the file, all it asked for unless the end is reached. -/
def sendStep (env : Env) (bufsiz : Nat) : SendEv → Client × Bytes → Res (Client × Bytes)
  | .read data, (c, rest) =>
    match step env bufsiz (.read data) c with
    | .ok c' => .ok (c', rest)
    | .err => .err
    | .ub => .ub
  | .writable n, (c, rest) =>
    match step env bufsiz (.writable n (some (rest.take bufsiz))) c with
    | .ok c' =>
      -- the file was read from iff everything queued had been sent and there was something to read
      .ok (c', if c.closed = false ∧ c.out.length ≤ n ∧ c.type = .file then rest.drop bufsiz else rest)
    | .err => .err
    | .ub => .ub

def sendRun (bufsiz : Nat) : List (Env × SendEv) → Client × Bytes → Res (Client × Bytes)
  | [], s => .ok s
  | (env, ev) :: r, s =>
    match sendStep env bufsiz ev s with
    | .ok s => sendRun bufsiz r s
    | .err => .err
    | .ub => .ub

/-- the number of events in which the connection accepts at least one byte -/
def progress : List (Env × SendEv) → Nat
  | [] => 0
  | (_, .writable (_ + 1)) :: r => progress r + 1
  | _ :: r => progress r

inductive Sending (all : Bytes) : Client × Bytes → Prop where
  | file (c : Client) (rest : Bytes) : c.closed = false → c.type = .file → c.code ≠ 0 →
      c.sent ++ c.out ++ rest = all → Sending all (c, rest)
  | done (c : Client) (rest : Bytes) : c.closed = false → c.type = .done → c.code ≠ 0 →
      c.sent ++ c.out = all → Sending all (c, rest)
  | closed (c : Client) (rest : Bytes) : c.closed = true → c.sent = all → c.out = [] → Sending all (c, rest)

def sendMeasure (s : Client × Bytes) : Nat :=
  if s.1.closed then 0 else 2 * s.1.out.length + 3 * s.2.length + (if s.1.type = .file then 2 else 1)

theorem send_step (env : Env) (bufsiz : Nat) (hb : 0 < bufsiz) (all : Bytes) (ev : SendEv) (s : Client × Bytes)
    (h : Sending all s) : ∃ s', sendStep env bufsiz ev s = .ok s' ∧ Sending all s' ∧ sendMeasure s' ≤ sendMeasure s ∧
      (∀ n, ev = .writable (n + 1) → 0 < sendMeasure s → sendMeasure s' < sendMeasure s) := by
  cases h with
  | closed c rest h1 h2 h3 =>
    cases ev with
    | read data =>
      refine ⟨(c, rest), by simp [sendStep, step, h1], .closed c rest h1 h2 h3, by simp, by simp⟩
    | writable n =>
      refine ⟨(c, rest), by simp [sendStep, step, h1], .closed c rest h1 h2 h3, by simp, ?_⟩
      simp [sendMeasure, h1]
  | done c rest h1 h2 h3 h4 =>
    cases ev with
    | read data =>
      refine ⟨({ c with inp := c.inp ++ data }, rest), by simp [sendStep, step, h1, clientRead, h2],
        .done _ _ h1 h2 h3 h4, by simp [sendMeasure], by simp⟩
    | writable n =>
      by_cases hn : c.out.length ≤ n
      · have hd : c.out.drop n = [] := by simpa using hn
        have ht : c.out.take n = c.out := List.take_of_length_le hn
        refine ⟨(clientClose { c with sent := c.sent ++ c.out, out := [] }, rest), ?_,
          .closed _ _ rfl h4 rfl, by simp [sendMeasure, clientClose], ?_⟩
        · simp [sendStep, step, h1, h2, hd, ht, clientWrite]
        · intro m _ hm; simpa [sendMeasure, clientClose] using hm
      · have hd : c.out.drop n ≠ [] := by simp; omega
        refine ⟨({ c with sent := c.sent ++ c.out.take n, out := c.out.drop n }, rest), ?_,
          .done _ _ h1 h2 h3 (by simp [h4]), ?_, ?_⟩
        · have : ¬ c.out.length ≤ n := hn
          simp [sendStep, step, h1, h2, this]
        · simp [sendMeasure, h1, h2]; omega
        · intro m hm _; cases hm; simp [sendMeasure, h1, h2]; omega
  | file c rest h1 h2 h3 h4 =>
    cases ev with
    | read data =>
      refine ⟨({ c with inp := c.inp ++ data }, rest), by simp [sendStep, step, h1, clientRead, h2],
        .file _ _ h1 h2 h3 h4, by simp [sendMeasure], by simp⟩
    | writable n =>
      by_cases hn : c.out.length ≤ n
      · have hd : c.out.drop n = [] := by simpa using hn
        have ht : c.out.take n = c.out := List.take_of_length_le hn
        cases hr : rest with
        | nil =>
          subst hr
          refine ⟨(clientClose { c with sent := c.sent ++ c.out, out := [] }, []), ?_,
            .closed _ _ rfl (by simp only [clientClose]; simpa using h4) rfl, by simp [sendMeasure, clientClose], ?_⟩
          · simp [sendStep, step, h1, h2, hd, ht, clientWrite]
          · intro m _ hm; simpa [sendMeasure, clientClose] using hm
        | cons x xs =>
          have hne : (rest.take bufsiz) ≠ [] := by
            rw [hr]; obtain ⟨k, rfl⟩ : ∃ k, bufsiz = k + 1 := ⟨bufsiz - 1, by omega⟩
            simp
          rw [← hr]
          have hstep : step env bufsiz (.writable n (some (rest.take bufsiz))) c =
              .ok { c with sent := c.sent ++ c.out, out := rest.take bufsiz,
                           type := if (rest.take bufsiz).length ≠ bufsiz then .done else .file } := by
            simp only [step, h1, hd, ht, clientWrite, h2]
            rw [hr] at hne ⊢
            generalize hg : List.take bufsiz (x :: xs) = g at hne ⊢
            cases g with
            | nil => exact absurd rfl hne
            | cons y ys => simp
          have hlen : (rest.take bufsiz).length + (rest.drop bufsiz).length = rest.length := by
            rw [← List.length_append, List.take_append_drop]
          have hpos : 0 < (rest.take bufsiz).length := List.length_pos_iff.2 hne
          refine ⟨(Client.mk (if (rest.take bufsiz).length ≠ bufsiz then .done else .file) c.code c.host c.domain c.iri c.inp
            (rest.take bufsiz) (c.sent ++ c.out) c.pfd c.loc c.dir c.effs c.closed, rest.drop bufsiz), by
            simp only [sendStep, hstep]
            rw [if_pos (show c.closed = false ∧ c.out.length ≤ n ∧ c.type = .file from ⟨h1, hn, h2⟩)], ?_, ?_, ?_⟩
          · by_cases hsz : (rest.take bufsiz).length ≠ bufsiz
            · rw [if_pos hsz]
              have : rest.drop bufsiz = [] := by
                rw [List.drop_eq_nil_iff]
                have := List.length_take (i := bufsiz) (l := rest)
                omega
              refine .done _ _ h1 rfl h3 ?_
              have e := List.take_append_drop bufsiz rest
              rw [this, List.append_nil] at e
              simp only [e, h4]
            · rw [if_neg hsz]
              refine .file _ _ h1 rfl h3 ?_
              simp only [List.append_assoc, List.take_append_drop]
              simpa using h4
          · simp only [sendMeasure, h1, h2]
            simp only [Bool.false_eq_true, if_false, if_true]
            split <;> simp <;> omega
          · intro m _ _
            simp only [sendMeasure, h1, h2]
            simp only [Bool.false_eq_true, if_false, if_true]
            split <;> simp <;> omega
      · have hd : c.out.drop n ≠ [] := by simp; omega
        refine ⟨({ c with sent := c.sent ++ c.out.take n, out := c.out.drop n }, rest), ?_,
          .file _ _ h1 h2 h3 ?_, ?_, ?_⟩
        · have : ¬ c.out.length ≤ n := hn
          simp [sendStep, step, h1, h2, this]
        · rw [List.append_assoc c.sent, List.take_append_drop]
          exact h4
        · simp [sendMeasure, h1, h2]; omega
        · intro m hm _; cases hm; simp [sendMeasure, h1, h2]; omega

theorem send_run (bufsiz : Nat) (hb : 0 < bufsiz) (all : Bytes) (evs : List (Env × SendEv)) (s : Client × Bytes)
    (h : Sending all s) : ∃ s', sendRun bufsiz evs s = .ok s' ∧ Sending all s' ∧
      sendMeasure s' ≤ sendMeasure s - progress evs := by
  induction evs generalizing s with
  | nil => exact ⟨s, rfl, h, by simp [progress]⟩
  | cons p r ih =>
    obtain ⟨env, ev⟩ := p
    obtain ⟨s1, k1, k2, k3, k4⟩ := send_step env bufsiz hb all ev s h
    obtain ⟨s2, j1, j2, j3⟩ := ih s1 k2
    refine ⟨s2, by simp only [sendRun, k1, j1], j2, ?_⟩
    cases ev with
    | read d => simp only [progress]; omega
    | writable n =>
      cases n with
      | zero => simp only [progress]; omega
      | succ n =>
        simp only [progress]
        have := k4 n rfl
        omega

/-- C51: while a file is being sent, whatever the client sends meanwhile, the bytes sent are a prefix
of the header and the file; when the connection is closed they are all of it; and it is closed after
finitely many events in which at least a byte is accepted. -/
theorem C51_file_delivered (bufsiz : Nat) (hb : 0 < bufsiz) (hdr file : Bytes) (c : Client)
    (h1 : c.type = .file) (h2 : c.code ≠ 0) (h3 : c.closed = false) (h4 : c.sent = []) (h5 : c.out = hdr)
    (evs : List (Env × SendEv)) :
    ∃ c' rest, sendRun bufsiz evs (c, file) = .ok (c', rest) ∧
      (∃ tail, c'.sent ++ tail = hdr ++ file) ∧
      (c'.closed = true → c'.sent = hdr ++ file) ∧
      (2 * hdr.length + 3 * file.length + 2 ≤ progress evs → c'.closed = true) := by
  obtain ⟨⟨c', rest⟩, k1, k2, k3⟩ := send_run bufsiz hb (hdr ++ file) evs (c, file)
    (.file c file h3 h1 h2 (by rw [h4, h5]; rfl))
  refine ⟨c', rest, k1, ?_, ?_, ?_⟩
  · cases k2 with
    | file _ _ _ _ _ h => exact ⟨c'.out ++ rest, by rw [← h]; simp⟩
    | done _ _ _ _ _ h => exact ⟨c'.out, h⟩
    | closed _ _ _ h _ => exact ⟨[], by simpa using h⟩
  · intro hc
    cases k2 with
    | file _ _ h _ _ _ => rw [hc] at h; cases h
    | done _ _ h _ _ _ => rw [hc] at h; cases h
    | closed _ _ _ h _ => exact h
  · intro hp
    have hm : sendMeasure (c, file) = 2 * hdr.length + 3 * file.length + 2 := by
      simp [sendMeasure, h3, h1, h5]
    rw [hm] at k3
    cases hc : c'.closed with
    | true => rfl
    | false =>
      simp only [sendMeasure, hc] at k3
      simp only [Bool.false_eq_true, if_false] at k3
      split at k3 <;> omega

example : ((sendRun 4 [(exEnv, .writable 3), (exEnv, .read b%"x"), (exEnv, .writable 2), (exEnv, .writable 9), (exEnv, .writable 2), (exEnv, .writable 9), (exEnv, .writable 9)]
    (({ type := .file, code := 20, out := b%"20 a\r\n" } : Client), b%"abcdef")).val?.map (fun s => (s.1.sent, s.1.closed))) =
    some (b%"20 a\r\nabcdef", true) := by decide +kernel

section
variable {env : Env} {c : Client} {v : Vhost} {name req rest : Bytes} {i : Iri} {decoded : Bytes}

/-- what a language adds to the type -/
def langPart : Option Bytes → Bytes
  | none => []
  | some l => b%";lang=" ++ l

theorem startReply_file (env : Env) (cc : Client) (v : Vhost) (i : Iri) (m : Bytes) (t1 : cc.type = .file) (t2 : cc.host = some v) (t3 : cc.iri = some i)
    (hm : m.length ≤ 900) (hl : ∀ l, vhostLang env.fnm (some v) (some i.path) = some l → l.length ≤ 31) :
    startReply env cc 20 m = queueHeader env cc 20 m
      (b%"20 " ++ m ++ langPart (if m = b%"text/gemini" then vhostLang env.fnm (some v) (some i.path) else none)) := by
  have hp : cc.path? = some i.path := by simp [Client.path?, t3]
  have hd : intDec 20 ++ c%' ' :: m = b%"20 " ++ m := by
    rw [show intDec 20 = b%"20" from by decide]; rfl
  have hlen : ¬ (intDec 20 ++ c%' ' :: m).length > 1027 := by rw [hd]; simp; omega
  unfold startReply
  simp only [if_neg hlen]
  rw [t2, hp]
  by_cases ht : m = b%"text/gemini"
  · rw [if_pos (by simp [t1, ht]), if_pos ht]
    cases hv : vhostLang env.fnm (some v) (some i.path) with
    | none => simp only [langPart, List.append_nil]; rw [hd]
    | some l =>
      have := hl l hv
      have h2 : ¬ (intDec 20 ++ c%' ' :: m ++ b%";lang=" ++ l).length > 1027 := by
        rw [hd]; simp; omega
      simp only [if_neg h2, langPart]
      rw [hd]; simp
  · rw [if_neg (by simp [ht]), if_neg ht]
    simp only [langPart, List.append_nil]; rw [hd]

/-- C51: a request the file handler gets, for something that is not a directory, leads to that state,
with the header of a success. -/
theorem C51_file_opened (h : WellFormed env c v name req rest i decoded) (hsent : c.sent = [])
    (hn : NoRelay env.fnm v i.schema name i.port) (hu : ForUs i name decoded) (hc : CertOk env v i.path)
    (hb : NoBlock env.fnm v i.path) (hf : NoFcgi env.fnm v i.path)
    (root : Int) (nm : Bytes) (hroot : RootIs env.fnm v i.path root)
    (hnm : NameFor (vhostStrip env.fnm (some v) (some i.path)) i.path nm)
    (fd : Int) (ho : env.openat root nm = some fd) (k : FKind) (hk : env.fstat fd = some k) (hdir : k ≠ .dir)
    (hfit : ∀ m l, mimeType env.fnm env.mimes (some v) nm = .ok m → vhostLang env.fnm (some v) (some i.path) = some l →
      m.length ≤ 900 ∧ l.length ≤ 31)
    (hfit' : ∀ m, mimeType env.fnm env.mimes (some v) nm = .ok m → m.length ≤ 900) :
    ∃ c' m hdr, clientRead env c = .ok c' ∧ mimeType env.fnm env.mimes (some v) nm = .ok m ∧
      hdr = b%"20 " ++ m ++ langPart (if m = b%"text/gemini" then vhostLang env.fnm (some v) (some i.path) else none) ∧
      c'.type = .file ∧ c'.pfd = fd ∧ c'.code = 20 ∧ c'.closed = false ∧ c'.sent = [] ∧ c'.out = hdr ++ b%"\r\n" := by
  have hh : (parsed c rest i).host = some v := h.requested.host
  have hnm' : openName (vhostStrip env.fnm (some v) (some i.path)) i.path = nm := by
    have := (openName_spec (vhostStrip env.fnm (some v) (some i.path)) i.path
        (C01_path_confined _ _ _ h.parses).1 (C01_path_confined _ _ _ h.parses).2).2
    by_cases hp : vhostStrip env.fnm (some v) (some i.path) ≤ 0
    · rw [this.1 hp, hnm.1 hp]
    · rw [this.2 (by omega), hnm.2 (by omega)]
  have hroot' : (vhostDirfd env.fnm (some v) (some i.path)).1 = root := (rootIs_eq _ _ _ _).1 hroot
  obtain ⟨m, hm⟩ := mimeType_ok env.fnm env.mimes (some v) nm
    (by rw [← hnm']; exact openName_ne _ _)
  rw [dispatch_file h hn hu hc hb hf]
  unfold serveFile
  simp only [hh, hnm', hroot', ho, hk]
  have key : ∀ cc : Client, cc.type = .file → cc.host = some v → cc.iri = some i → cc.out = [] → cc.sent = [] → cc.closed = false → cc.pfd = fd →
      ∃ c' m' hdr, (Res.ok (startReply env cc 20 m) : Res Client) = .ok c' ∧ (Res.ok m : Res Bytes) = .ok m' ∧
      hdr = b%"20 " ++ m' ++ langPart (if m' = b%"text/gemini" then vhostLang env.fnm (some v) (some i.path) else none) ∧
      c'.type = .file ∧ c'.pfd = fd ∧ c'.code = 20 ∧ c'.closed = false ∧ c'.sent = [] ∧ c'.out = hdr ++ b%"\r\n" := by
    intro cc t1 t2 t3 t4 t5 t6 t7
    have e := startReply_file env cc v i m t1 t2 t3 (hfit' m hm) (fun l hl => (hfit m l hm hl).2)
    have hr := queueHeader_replied env cc 20 m (b%"20 " ++ m ++ langPart (if m = b%"text/gemini" then vhostLang env.fnm (some v) (some i.path) else none))
    refine ⟨_, m, _, rfl, rfl, rfl, ?_, ?_, ?_, ?_, ?_, ?_⟩
    · rw [e, hr.type, t1]; rfl
    · rw [e, hr.pfd, t7]
    · rw [e, hr.rcode]
    · rw [e, hr.closed, t6]
    · rw [e, hr.sent, t5]
    · rw [e]; simp [queueHeader, t4]
  cases k with
  | dir => exact absurd rfl hdir
  | reg => simp only [hm]; exact key _ (by rfl) (by rfl) (by rfl) (by exact h.requested.out) (by exact hsent) (by exact h.requested.isOpen) (by rfl)
  | other => simp only [hm]; exact key _ (by rfl) (by rfl) (by rfl) (by exact h.requested.out) (by exact hsent) (by exact h.requested.isOpen) (by rfl)

end

end Gmid.Props
