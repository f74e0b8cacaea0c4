import Verif.Model.Proxy
import Verif.Spec.Proxy
import Verif.Props.FcgiReply

/-!
# C31: relayed replies
-/

set_option autoImplicit false

namespace Gmid.Props

open Spec

theorem cstr_of_no_nul (s : Bytes) (h : (0 : UInt8) ∉ s) : cstr s = s := by
  unfold cstr
  induction s with
  | nil => rfl
  | cons a r ih =>
    simp only [List.mem_cons, not_or] at h
    rw [List.takeWhile_cons_of_pos (by simpa using fun e => h.1 e.symm), ih h.2]

/-- a header line as proxy_read takes it -/
def relayHdr (line : Bytes) : Option (Nat × Bytes) :=
  match line with
  | a :: b :: s :: text =>
    if line.length > 1029 || !isDigit a || !isDigit b || !isSpace s then none
    else
      let code := (a.toNat - 48) * 10 + (b.toNat - 48)
      if code < 10 || code ≥ 70 then none else some (code, cstr text)
  | _ => none

theorem relayHdr_some (line : Bytes) (code : Nat) (mt : Bytes) : relayHdr line = some (code, mt) ↔
    ∃ (d1 d2 s : UInt8) (text : Bytes), line = d1 :: d2 :: s :: text ∧ line.length ≤ 1029 ∧ 48 ≤ d1 ∧ d1 ≤ 57 ∧ 48 ≤ d2 ∧ d2 ≤ 57 ∧
      (s = 32 ∨ 9 ≤ s ∧ s ≤ 13) ∧ code = (d1.toNat - 48) * 10 + (d2.toNat - 48) ∧ 10 ≤ code ∧ code < 70 ∧ mt = cstr text := by
  have hdig : ∀ d : UInt8, isDigit d = true ↔ 48 ≤ d ∧ d ≤ 57 := by
    intro d; simp [isDigit]
  have hsp : ∀ d : UInt8, isSpace d = true ↔ (d = 32 ∨ 9 ≤ d ∧ d ≤ 13) := by
    intro d; simp [isSpace]
  constructor
  · intro h
    unfold relayHdr at h
    split at h
    · rename_i a b s text
      split at h
      · cases h
      · rename_i hd
        simp only at h
        split at h
        · cases h
        · rename_i hc
          simp only [Option.some.injEq, Prod.mk.injEq] at h
          obtain ⟨rfl, rfl⟩ := h
          simp only [Bool.or_eq_true, Bool.not_eq_true', not_or, Bool.not_eq_false, decide_eq_true_eq, hdig, hsp] at hd
          simp at hc
          exact ⟨a, b, s, text, rfl, by omega, hd.1.1.2.1, hd.1.1.2.2, hd.1.2.1, hd.1.2.2, hd.2, rfl, by omega, by omega, rfl⟩
    · cases h
  · rintro ⟨a, b, s, t, rfl, hl, h1, h2, h3, h4, h8, h5, h6, h7, rfl⟩
    unfold relayHdr
    simp only
    have hd : ¬ (decide ((a :: b :: s :: t).length > 1029) || !isDigit a || !isDigit b || !isSpace s) = true := by
      simp only [Bool.or_eq_true, Bool.not_eq_true', not_or, Bool.not_eq_false, decide_eq_true_eq, hdig, hsp]
      exact ⟨⟨⟨by omega, h1, h2⟩, h3, h4⟩, h8⟩
    rw [if_neg hd, ← h5, if_neg (by simp; omega)]

/-- the line is a header that fits -/
def GoodLine (line : Bytes) (code : Nat) (mt : Bytes) : Prop := relayHdr line = some (code, mt) ∧ line.length ≤ 1027

/-- the header line sent for it -/
def relayText (code : Nat) (mt : Bytes) : Bytes := wantedHeader code mt none ++ b%"\r\n"

def IsError (d : Bytes) : Prop := d = b%"43 protocol error\r\n" ∨ d = b%"40 internal error\r\n"

/-- what has been delivered when the upstream connection is over, after the data `D` -/
def Final (D d : Bytes) : Prop :=
  (∃ line body code mt, readLine D = some (line, body) ∧ GoodLine line code mt ∧ code ≠ 20 ∧ d = relayText code mt) ∨
  ((¬ ∃ line body code mt, readLine D = some (line, body) ∧ GoodLine line code mt) ∧ IsError d)

/-- what the client was sent -/
def pdeliv (f : PClient) : Bytes := f.c.sent ++ f.c.out

structure POver (d : Bytes) (f : PClient) : Prop where
  phase : f.phase = .over
  type : f.c.type = .done
  code : f.c.code ≠ 0
  del : pdeliv f = d

def PMid (D : Bytes) (f : PClient) : Prop :=
  (readLine D = none ∧ D.length ≤ 1029 ∧ f.c.code = 0 ∧ f.src = D ∧ pdeliv f = []) ∨
  (∃ line body mt, readLine D = some (line, body) ∧ GoodLine line 20 mt ∧ f.c.code = 20 ∧ f.src = [] ∧
    pdeliv f = relayText 20 mt ++ body)

structure POpen (D : Bytes) (f : PClient) : Prop where
  phase : f.phase = .relaying
  type : f.c.type = .proxy
  closed : f.c.closed = false
  mid : PMid D f

/-- the codes for which the relaying does not depend on the fragmentation -/
def PGood (D : Bytes) : Prop := ∀ line body, readLine D = some (line, body) → (0 : UInt8) ∉ line ∧
  ∀ code mt, GoodLine line code mt → code < 21 ∨ 29 < code

theorem final_append (D y d : Bytes) (h : (readLine D = none ∧ 1029 < D.length ∧ IsError d) ∨ (∃ p, readLine D = some p) ∧ Final D d) :
    Final (D ++ y) d := by
  rcases h with ⟨h1, h2, h3⟩ | ⟨⟨⟨line, body⟩, h1⟩, h2⟩
  · right
    refine ⟨?_, h3⟩
    rintro ⟨line, body, code, mt, hr, -, hl⟩
    obtain ⟨e, hn⟩ := readLine_some _ _ _ hr
    have hlt : (line ++ b%"\r\n").length ≤ D.length := by
      simp only [List.length_append, List.length_cons, List.length_nil]
      omega
    refine (readLine_none D).1 h1 line (D.drop (line.length + 2)) ?_
    have : (D ++ y).take (line.length + 2) = line ++ b%"\r\n" := by
      rw [e, List.take_append_of_le_length (by simp), List.take_of_length_le (by simp)]
    rw [List.take_append_of_le_length (by simpa using hlt)] at this
    rw [← this, List.take_append_drop]
  · have hm := readLine_mono D line body y h1
    rcases h2 with ⟨l, b, code, mt, e, hg, hc, hd⟩ | ⟨hno, he⟩
    · rw [h1] at e
      simp only [Option.some.injEq, Prod.mk.injEq] at e
      exact Or.inl ⟨line, body ++ y, code, mt, hm, by rw [e.1]; exact hg, hc, hd⟩
    · refine Or.inr ⟨?_, he⟩
      rintro ⟨l, b, code, mt, e, hg⟩
      rw [hm] at e
      simp only [Option.some.injEq, Prod.mk.injEq] at e
      exact hno ⟨line, body, code, mt, h1, by rw [e.1]; exact hg⟩

section
variable (env : Env)

theorem pwrite_over (d : Bytes) (c : Client) (h1 : c.type = .done) (h2 : c.code ≠ 0) (h3 : c.sent ++ c.out = d) :
    ∃ g, clientWrite env 0 none c = .ok g ∧ g.type = .done ∧ g.code ≠ 0 ∧ g.sent ++ g.out = d := by
  unfold clientWrite
  rw [h1]
  simp only
  split
  · exact ⟨_, rfl, h1, h2, h3⟩
  · exact ⟨_, rfl, h1, h2, h3⟩

theorem proxyError_nohdr (f : PClient) (h1 : f.c.code = 0) (h2 : pdeliv f = []) :
    ∃ g, proxyError env f = .ok g ∧ POver b%"43 protocol error\r\n" g := by
  unfold proxyError
  simp only
  rw [if_pos h1]
  refine ⟨_, rfl, ?_⟩
  have hr := C21_reply_header env { f.c with pfd := -1 } 43 b%"protocol error"
  have hl : wantedLang env { f.c with pfd := -1 } b%"protocol error" = none := by simp [wantedLang]
  simp only [hl] at hr
  have hw : wantedHeader 43 b%"protocol error" none = b%"43 protocol error" := by decide
  rw [hw] at hr
  obtain ⟨e1, e2, e3⟩ := hr.1 (by decide)
  have es : (startReply env { f.c with pfd := -1 } 43 b%"protocol error").sent = f.c.sent := by
    rcases startReply_replied env { f.c with pfd := -1 } 43 b%"protocol error" with r | r <;> exact r.sent
  refine ⟨rfl, by simpa using e3, by show (startReply env _ 43 _).code ≠ 0; rw [e2]; decide, ?_⟩
  have h5' : f.c.sent ++ f.c.out = [] := h2
  show (startReply env _ 43 _).sent ++ (startReply env _ 43 _).out = _
  rw [es, e1]
  simp only [List.append_eq_nil_iff] at h5'
  simp [h5'.1, h5'.2]

theorem proxyError_hdr (f : PClient) (h1 : f.c.code ≠ 0) : ∃ g, proxyError env f = .ok g ∧ POver (pdeliv f) g := by
  unfold proxyError
  simp only
  rw [if_neg h1]
  obtain ⟨g, e, g1, g2, g3⟩ := pwrite_over env (pdeliv f) { { f.c with pfd := -1 } with type := .done } rfl h1 rfl
  simp only at e
  rw [e]
  exact ⟨_, rfl, rfl, g1, g2, g3⟩

/-- the header line in terms of `relayHdr` -/
theorem proxyRead_line (f : PClient) (data line rest : Bytes) (h0 : f.c.code = 0) (h : readLine (f.src ++ data) = some (line, rest)) :
    proxyRead env f data =
    match relayHdr line with
    | none => proxyError env { f with src := rest }
    | some (code, mt) =>
      let g : PClient := { f with c := startReply env f.c code mt, src := rest }
      if g.c.code < 20 || g.c.code > 29 then proxyError env g
      else .ok { g with c := { g.c with out := g.c.out ++ rest }, src := [] } := by
  unfold proxyRead
  simp only
  rw [if_pos h0, h]
  simp only
  by_cases hsh : ∃ a b s text, line = a :: b :: s :: text
  · obtain ⟨a, b, s, text, rfl⟩ := hsh
    simp only [relayHdr]
    by_cases hd : (decide ((a :: b :: s :: text).length > 1029) || !isDigit a || !isDigit b || !isSpace s) = true
    · rw [if_pos hd, if_pos hd]
    · rw [if_neg hd, if_neg hd]
      generalize (a.toNat - 48) * 10 + (b.toNat - 48) = k
      by_cases hc : (decide (k < 10) || decide (k ≥ 70)) = true
      · have hc' : (decide ((k : Int) < 10) || decide ((k : Int) ≥ 70)) = true := by
          simp only [Bool.or_eq_true, decide_eq_true_eq] at hc ⊢
          omega
        rw [if_pos hc, if_pos hc']
      · have hc' : ¬ (decide ((k : Int) < 10) || decide ((k : Int) ≥ 70)) = true := by
          simp only [Bool.or_eq_true, decide_eq_true_eq] at hc ⊢
          omega
        rw [if_neg hc, if_neg hc']
  · have h1 : relayHdr line = none := by
      unfold relayHdr
      split
      · exact absurd ⟨_, _, _, _, rfl⟩ hsh
      · rfl
    rw [h1]
    simp only
    split
    · exact absurd ⟨_, _, _, _, rfl⟩ hsh
    · rfl

/-- the state after the data `D` -/
def PNow (D : Bytes) (fin : Bool) (f : PClient) : Prop :=
  (fin = false ∧ POpen D f) ∨
  (∃ d, POver d f ∧ ((readLine D = none ∧ (1029 < D.length ∨ fin = true) ∧ IsError d) ∨
    (∃ p, readLine D = some p) ∧ (Final D d ∨ fin = true ∧ ∃ line body mt, readLine D = some (line, body) ∧ GoodLine line 20 mt ∧ d = relayText 20 mt ++ body)))

theorem relay_fits (code : Nat) (mt : Bytes) (h1 : 10 ≤ code) (h2 : code < 70) :
    (wantedHeader code mt none).length = mt.length + 3 := by
  have hd : (intDec (code : Int)).length = 2 := by
    have : ∀ k, k < 70 → 10 ≤ k → (intDec ((k : Nat) : Int)).length = 2 := by decide +kernel
    exact this code h2 h1
  unfold wantedHeader
  simp [hd]
  omega

theorem proxyRead_open (D b : Bytes) (f : PClient) (h : POpen D f) (hg : PGood (D ++ b)) :
    ∃ g, proxyRead env f b = .ok g ∧ PNow (D ++ b) false g := by
  rcases h.mid with ⟨m1, m2, m3, m4, m5⟩ | ⟨line, body, mt, m1, m2, m3, m4, m5⟩
  · have hno : f.c.sent = [] ∧ f.c.out = [] := by
      have : f.c.sent ++ f.c.out = [] := m5
      simpa [List.append_eq_nil_iff] using this
    cases hr : readLine (D ++ b) with
    | none =>
      unfold proxyRead
      simp only
      rw [if_pos m3, m4, hr]
      simp only
      by_cases hl : (D ++ b).length > 1029
      · rw [if_pos hl]
        obtain ⟨g, e, ho⟩ := proxyError_nohdr env { f with src := D ++ b } m3 m5
        exact ⟨g, e, Or.inr ⟨_, ho, Or.inl ⟨hr, Or.inl hl, Or.inl rfl⟩⟩⟩
      · rw [if_neg hl]
        exact ⟨_, rfl, Or.inl ⟨rfl, h.phase, h.type, h.closed, Or.inl ⟨hr, by omega, m3, rfl, m5⟩⟩⟩
    | some p =>
      obtain ⟨line, rest⟩ := p
      rw [proxyRead_line env f b line rest m3 (by rw [m4]; exact hr)]
      cases hp : relayHdr line with
      | none =>
        simp only
        obtain ⟨g, e, ho⟩ := proxyError_nohdr env { f with src := rest } m3 m5
        refine ⟨g, e, Or.inr ⟨_, ho, Or.inr ⟨⟨_, hr⟩, Or.inl (Or.inr ⟨?_, Or.inl rfl⟩)⟩⟩⟩
        rintro ⟨l, bd, code, mt, e', hgl, -⟩
        rw [hr] at e'
        simp only [Option.some.injEq, Prod.mk.injEq] at e'
        rw [← e'.1, hp] at hgl
        cases hgl
      | some q =>
        obtain ⟨code, mt⟩ := q
        simp only
        obtain ⟨d1, d2, s, text, hline, hll, -, -, -, -, -, -, k1, k2, rfl⟩ := (relayHdr_some _ _ _).1 hp
        have hlang : wantedLang env f.c (cstr text) = none := by
          unfold wantedLang
          rw [if_neg]
          simp [h.type]
        have hC := C21_reply_header env f.c code (cstr text)
        simp only [hlang] at hC
        have hlen := relay_fits code (cstr text) k1 k2
        have hcl := cstr_length_le text
        have hsent : (startReply env f.c code (cstr text)).sent = f.c.sent := by
          rcases startReply_replied env f.c code (cstr text) with r | r <;> exact r.sent
        by_cases hbig : 1027 < (wantedHeader code (cstr text) none).length
        · -- too long for start_reply
          obtain ⟨r1, r2, r3⟩ := hC.2 hbig
          have hcc : ((decide ((startReply env f.c ((code : Nat) : Int) (cstr text)).code < 20) || decide ((startReply env f.c ((code : Nat) : Int) (cstr text)).code > 29)) = true) := by
            rw [r2]; decide
          rw [if_pos hcc]
          obtain ⟨g, e, ho⟩ := proxyError_hdr env ({ f with c := startReply env f.c code (cstr text), src := rest } : PClient)
            (by show (startReply env _ _ _).code ≠ 0; rw [r2]; decide)
          refine ⟨g, e, Or.inr ⟨_, ho, Or.inr ⟨⟨_, hr⟩, Or.inl (Or.inr ⟨?_, Or.inr ?_⟩)⟩⟩⟩
          · rintro ⟨l, bd, code', mt, e', -, hl⟩
            rw [hr] at e'
            simp only [Option.some.injEq, Prod.mk.injEq] at e'
            rw [← e'.1, hline] at hl
            simp at hl
            omega
          · show (startReply env f.c code (cstr text)).sent ++ (startReply env f.c code (cstr text)).out = _
            rw [hsent, r1, hno.1]
            rfl
        · obtain ⟨r1, r2, r3⟩ := hC.1 (by omega)
          have rr : Replied f.c (startReply env f.c code (cstr text)) code := by
            rcases startReply_replied env f.c code (cstr text) with r | r
            · exact r
            · have := r.rcode
              rw [r2] at this
              have hc40 : code = 40 := by omega
              subst hc40
              exact r
          by_cases hln : line.length ≤ 1027
          · have hgl : GoodLine line code (cstr text) := ⟨hp, hln⟩
            have hgc := (hg _ _ hr).2 code _ hgl
            by_cases h20 : code = 20
            · subst h20
              have hcc : ¬ ((decide ((startReply env f.c ((20 : Nat) : Int) (cstr text)).code < 20) || decide ((startReply env f.c ((20 : Nat) : Int) (cstr text)).code > 29)) = true) := by
                rw [r2]; decide
              rw [if_neg hcc]
              refine ⟨_, rfl, Or.inl ⟨rfl, h.phase, ?_, ?_, Or.inr ⟨line, rest, cstr text, hr, hgl, r2, rfl, ?_⟩⟩⟩
              · show (startReply env f.c _ _).type = _
                rw [r3]; exact h.type
              · exact rr.closed.trans h.closed
              · show (startReply env f.c _ _).sent ++ ((startReply env f.c _ _).out ++ rest) = _
                rw [hsent, r1, hno.1, hno.2]
                simp [relayText]
            · have hcc : ((decide ((startReply env f.c ((code : Nat) : Int) (cstr text)).code < 20) || decide ((startReply env f.c ((code : Nat) : Int) (cstr text)).code > 29)) = true) := by
                rw [r2]; simp; omega
              rw [if_pos hcc]
              obtain ⟨g, e, ho⟩ := proxyError_hdr env ({ f with c := startReply env f.c code (cstr text), src := rest } : PClient)
                (by show (startReply env _ _ _).code ≠ 0; rw [r2]; omega)
              refine ⟨g, e, Or.inr ⟨_, ho, Or.inr ⟨⟨_, hr⟩, Or.inl (Or.inl ⟨line, rest, code, cstr text, hr, hgl, h20, ?_⟩)⟩⟩⟩
              show (startReply env f.c code (cstr text)).sent ++ (startReply env f.c code (cstr text)).out = _
              rw [hsent, r1, hno.1, hno.2]
              rfl
          · -- only with a NUL in the text would the line be longer than what is sent
            exfalso
            have hz := (hg _ _ hr).1
            rw [hline] at hz
            have : cstr text = text := cstr_of_no_nul text (fun hx => hz (by simp [hx]))
            rw [this] at hlen hbig
            rw [hline] at hln
            simp at hln
            omega
  · have hm := readLine_mono D line body b m1
    unfold proxyRead
    simp only
    rw [if_neg (by rw [m3]; decide)]
    refine ⟨_, rfl, Or.inl ⟨rfl, h.phase, h.type, h.closed, Or.inr ⟨line, body ++ b, mt, hm, m2, m3, rfl, ?_⟩⟩⟩
    have h5' : f.c.sent ++ f.c.out = _ := m5
    show f.c.sent ++ (f.c.out ++ (f.src ++ b)) = _
    rw [m4, ← List.append_assoc, h5']
    simp

/-- the data received before upstream ended and whether it did -/
def relayed : Bytes × Bool → PEv → Bytes × Bool
  | (D, e), .data b => if e then (D, e) else (D ++ b, e)
  | (D, _), .eof => (D, true)
  | p, _ => p

theorem pover_step (d : Bytes) (ev : PEv) (f : PClient) (h : POver d f) : ∃ g, proxyStep env ev f = .ok g ∧ POver d g := by
  have hph := h.phase
  obtain ⟨c, ph, src⟩ := f
  simp only at hph
  subst hph
  unfold proxyStep
  by_cases hc : c.closed = true
  · rw [if_pos hc]; exact ⟨_, rfl, h⟩
  · rw [if_neg hc]
    have flush : ∀ n, ∃ g, (match step env 0 (.writable n none) c with
        | .ok c' => Res.ok ({ c := c', phase := .over, src := src } : PClient)
        | .err => .err
        | .ub => .ub) = Res.ok g ∧ POver d g := by
      intro n
      unfold step
      rw [if_neg hc]
      simp only
      have hd : c.sent ++ c.out.take n ++ c.out.drop n = d := by
        rw [List.append_assoc, List.take_append_drop]; exact h.del
      by_cases hq : c.out.drop n = []
      · rw [if_pos hq]
        obtain ⟨g, e, g1, g2, g3⟩ := pwrite_over env d
          { c with sent := c.sent ++ c.out.take n, out := c.out.drop n } h.type h.code hd
        rw [e]
        exact ⟨_, rfl, h.phase, g1, g2, g3⟩
      · rw [if_neg hq]
        exact ⟨_, rfl, h.phase, h.type, h.code, hd⟩
    cases ev with
    | flush n => exact flush n
    | handshake ok => cases ok <;> exact ⟨_, rfl, h⟩
    | timeout => exact ⟨_, rfl, h⟩
    | data b => exact ⟨_, rfl, h⟩
    | eof => exact ⟨_, rfl, h⟩

theorem pstep_now (D : Bytes) (e : Bool) (ev : PEv) (f : PClient) (hg : PGood (relayed (D, e) ev).1) (h : PNow D e f) :
    ∃ g, proxyStep env ev f = .ok g ∧ PNow (relayed (D, e) ev).1 (relayed (D, e) ev).2 g := by
  rcases h with ⟨rfl, h⟩ | ⟨d, ho, h⟩
  · have hph := h.phase
    obtain ⟨c, ph, src⟩ := f
    simp only at hph
    subst hph
    unfold proxyStep
    rw [if_neg (by have := h.closed; simp only at this; rw [this]; decide)]
    cases ev with
    | handshake ok => cases ok <;> exact ⟨_, rfl, Or.inl ⟨rfl, h⟩⟩
    | timeout => exact ⟨_, rfl, Or.inl ⟨rfl, h⟩⟩
    | data b =>
      simp only [relayed, Bool.false_eq_true, if_false] at hg ⊢
      exact proxyRead_open env D b _ h hg
    | eof =>
      simp only [relayed]
      rcases h.mid with ⟨m1, m2, m3, m4, m5⟩ | ⟨line, body, mt, m1, m2, m3, m4, m5⟩
      · obtain ⟨g, e, ho⟩ := proxyError_nohdr env _ m3 m5
        exact ⟨g, e, Or.inr ⟨_, ho, Or.inl ⟨m1, Or.inr rfl, Or.inl rfl⟩⟩⟩
      · obtain ⟨g, e, ho⟩ := proxyError_hdr env _ (by rw [m3]; decide)
        rw [m5] at ho
        exact ⟨g, e, Or.inr ⟨_, ho, Or.inr ⟨⟨_, m1⟩, Or.inr ⟨rfl, line, body, mt, m1, m2, rfl⟩⟩⟩⟩
    | flush n =>
      simp only [relayed]
      unfold step
      rw [if_neg (by have := h.closed; simp only at this; rw [this]; decide)]
      simp only
      have hop : POpen D { c := { c with sent := c.sent ++ c.out.take n, out := c.out.drop n }, phase := .relaying, src := src } := by
        have hd : c.sent ++ c.out.take n ++ c.out.drop n = pdeliv { c := c, phase := .relaying, src := src } := by
          rw [List.append_assoc, List.take_append_drop]; rfl
        refine ⟨h.phase, h.type, h.closed, ?_⟩
        rcases h.mid with ⟨m1, m2, m3, m4, m5⟩ | ⟨line, body, mt, m1, m2, m3, m4, m5⟩
        · exact Or.inl ⟨m1, m2, m3, m4, hd.trans m5⟩
        · exact Or.inr ⟨line, body, mt, m1, m2, m3, m4, hd.trans m5⟩
      have hcw : ∀ x : Client, x.type = .proxy → clientWrite env 0 none x = .ok x := by
        intro x hx
        unfold clientWrite
        rw [hx]
      by_cases hq : c.out.drop n = []
      · rw [if_pos hq, hcw _ (by exact h.type)]
        exact ⟨_, rfl, Or.inl ⟨rfl, hop⟩⟩
      · rw [if_neg hq]
        exact ⟨_, rfl, Or.inl ⟨rfl, hop⟩⟩
  · obtain ⟨g, e1, ho'⟩ := pover_step env d ev f ho
    refine ⟨g, e1, Or.inr ⟨d, ho', ?_⟩⟩
    cases ev with
    | handshake ok => exact h
    | timeout => exact h
    | flush n => exact h
    | eof =>
      simp only [relayed]
      rcases h with ⟨a, -, b⟩ | ⟨a, b | ⟨-, b⟩⟩
      · exact Or.inl ⟨a, Or.inr trivial, b⟩
      · exact Or.inr ⟨a, Or.inl b⟩
      · exact Or.inr ⟨a, Or.inr ⟨trivial, b⟩⟩
    | data b =>
      simp only [relayed]
      cases e with
      | true => exact h
      | false =>
        simp only [Bool.false_eq_true, if_false]
        have keep : ∀ l t, readLine D = some (l, t) → ∃ p, readLine (D ++ b) = some p := fun l t hx => ⟨_, readLine_mono D l t b hx⟩
        rcases h with ⟨a, hlen, hi⟩ | ⟨⟨p, a⟩, hf | ⟨hx, -⟩⟩
        · have hlen : 1029 < D.length := by
            rcases hlen with h | h
            · exact h
            · cases h
          have hfin := final_append D b d (Or.inl ⟨a, hlen, hi⟩)
          cases hr : readLine (D ++ b) with
          | none => exact Or.inl ⟨rfl, Or.inl (by simp; omega), hi⟩
          | some p => exact Or.inr ⟨⟨p, rfl⟩, Or.inl hfin⟩
        · exact Or.inr ⟨keep p.1 p.2 a, Or.inl (final_append D b d (Or.inr ⟨⟨p, a⟩, hf⟩))⟩
        · cases hx

theorem pgood_prefix (D b : Bytes) (h : PGood (D ++ b)) : PGood D := by
  intro line body hr
  exact h line (body ++ b) (readLine_mono D line body b hr)

theorem relayed_good (evs : List PEv) : ∀ p : Bytes × Bool, PGood (evs.foldl relayed p).1 → PGood p.1 := by
  induction evs with
  | nil => intro p h; exact h
  | cons ev r ih =>
    intro p h
    have := ih (relayed p ev) h
    obtain ⟨D, e⟩ := p
    cases ev with
    | eof => exact this
    | flush n => exact this
    | handshake ok => exact this
    | timeout => exact this
    | data b =>
      simp only [relayed] at this
      cases e with
      | true => exact this
      | false => exact pgood_prefix D b this

theorem prun_now (evs : List PEv) : ∀ (p : Bytes × Bool) (f : PClient), PGood (evs.foldl relayed p).1 → PNow p.1 p.2 f →
    ∃ g, proxyRun env evs f = .ok g ∧ PNow (evs.foldl relayed p).1 (evs.foldl relayed p).2 g := by
  induction evs with
  | nil => intro p f _ h; exact ⟨f, rfl, h⟩
  | cons ev r ih =>
    intro p f hg h
    obtain ⟨g, e, ha⟩ := pstep_now env p.1 p.2 ev f (relayed_good r _ hg) h
    obtain ⟨g', e', ha'⟩ := ih (relayed p ev) g hg ha
    refine ⟨g', ?_, ha'⟩
    simp only [proxyRun, e]
    exact e'

end

theorem looseHeader_iff (D : Bytes) (code : Nat) (mt : Bytes) :
    (∃ text body, LooseHeader D code text body ∧ mt = cstr text) ↔ ∃ line body, readLine D = some (line, body) ∧ GoodLine line code mt := by
  constructor
  · rintro ⟨text, body, ⟨d1, d2, s, h1, h2, h3, h4, h5, h6, h7, h8, h9, h10, rfl⟩, rfl⟩
    refine ⟨d1 :: d2 :: s :: text, body, readLine_append _ _ h10, (relayHdr_some _ _ _).2
      ⟨d1, d2, s, text, rfl, by simp; omega, h1, h2, h3, h4, h5, h6, h7, h8, rfl⟩, by simp; omega⟩
  · rintro ⟨line, body, hr, hg, hl⟩
    obtain ⟨d1, d2, s, text, rfl, h0, h1, h2, h3, h4, h5, h6, h7, h8, rfl⟩ := (relayHdr_some _ _ _).1 hg
    obtain ⟨e, hn⟩ := readLine_some _ _ _ hr
    exact ⟨text, body, ⟨d1, d2, s, h1, h2, h3, h4, h5, h6, h7, h8, by simp at hl; omega, hn, e⟩, rfl⟩

/-- a client whose request is being relayed: nothing sent yet -/
structure Relaying (c : Client) : Prop where
  type : c.type = .proxy
  code : c.code = 0
  sent : c.sent = []
  out : c.out = []
  openc : c.closed = false

theorem relaying_now (c : Client) (h : Relaying c) : PNow [] false { c := c } :=
  Or.inl ⟨rfl, rfl, h.type, h.openc, Or.inl ⟨rfl, by decide, h.code, rfl, by show c.sent ++ c.out = []; rw [h.sent, h.out]; rfl⟩⟩

/-- the first line of a reply has no NUL, and its code is not 21 to 29 -/
def Plain (D : Bytes) : Prop := (∀ line body, D = line ++ [13, 10] ++ body → NoCrlf line → (0 : UInt8) ∉ line) ∧
  ∀ code text body, LooseHeader D code text body → code < 21 ∨ 29 < code

theorem plain_good (D : Bytes) (h : Plain D) : PGood D := by
  intro line body hr
  obtain ⟨e, hn⟩ := readLine_some _ _ _ hr
  refine ⟨h.1 line body e hn, ?_⟩
  intro code mt hg
  obtain ⟨text, body', hl, -⟩ := (looseHeader_iff D code mt).2 ⟨line, body, hr, hg⟩
  exact h.2 code text body' hl

theorem digits_intDec (d1 d2 : UInt8) (h1 : 48 ≤ d1) (h2 : d1 ≤ 57) (h3 : 48 ≤ d2) (h4 : d2 ≤ 57)
    (h5 : 10 ≤ (d1.toNat - 48) * 10 + (d2.toNat - 48)) :
    intDec (((d1.toNat - 48) * 10 + (d2.toNat - 48) : Nat) : Int) = [d1, d2] := by
  have key : ∀ a b : Fin 10, 10 ≤ a.val * 10 + b.val →
      intDec ((a.val * 10 + b.val : Nat) : Int) = [UInt8.ofNat (a.val + 48), UInt8.ofNat (b.val + 48)] := by decide +kernel
  have k1 : d1.toNat - 48 < 10 := by
    have : d1.toNat ≤ 57 := h2
    omega
  have k2 : d2.toNat - 48 < 10 := by
    have : d2.toNat ≤ 57 := h4
    omega
  have k3 : 48 ≤ d1.toNat := h1
  have k4 : 48 ≤ d2.toNat := h3
  have := key ⟨d1.toNat - 48, k1⟩ ⟨d2.toNat - 48, k2⟩ h5
  simp only at this
  rw [this, Nat.sub_add_cancel k3, Nat.sub_add_cancel k4]
  simp

/-- C31 (partial: no NUL in the first line, codes 21 to 29 excepted): upstream sends `D`, in any pieces, and closes; the client's connection accepts data
at any moments.  A valid reply with code 20 is delivered byte for byte, one with another code as its
first line, byte for byte. -/
theorem C31_relayed_partial (env : Env) (c : Client) (h : Relaying c) (evs : List PEv) (D : Bytes)
    (hev : evs.foldl relayed ([], false) = (D, true)) (hp : Plain D)
    (code : Nat) (text body : Bytes) (hh : HasHeader D code text body) :
    ∃ f, proxyRun env evs { c := c } = .ok f ∧
      (code = 20 → f.c.sent ++ f.c.out = D) ∧ (code ≠ 20 → f.c.sent ++ f.c.out ++ body = D) := by
  obtain ⟨f, hr, hn⟩ := prun_now env evs ([], false) _ (by rw [hev]; exact plain_good D hp) (relaying_now c h)
  refine ⟨f, hr, ?_⟩
  rw [hev] at hn
  obtain ⟨d1, d2, h1, h2, h3, h4, h6, h7, h8, h9, h10, rfl⟩ := hh
  have hz : (0 : UInt8) ∉ d1 :: d2 :: 32 :: text := hp.1 _ body (by simp) h10
  have hct : cstr text = text := cstr_of_no_nul text (fun hx => hz (by simp [hx]))
  have hrl : readLine (d1 :: d2 :: 32 :: text ++ [13, 10] ++ body) = some (d1 :: d2 :: 32 :: text, body) := readLine_append _ _ h10
  have hgl : GoodLine (d1 :: d2 :: 32 :: text) code text := ⟨(relayHdr_some _ _ _).2
      ⟨d1, d2, 32, text, rfl, by simp; omega, h1, h2, h3, h4, Or.inl rfl, h6, h7, h8, hct.symm⟩, by simp; omega⟩
  have htxt : relayText code text ++ body = d1 :: d2 :: 32 :: text ++ [13, 10] ++ body := by
    have := digits_intDec d1 d2 h1 h2 h3 h4 (by omega)
    rw [← h6] at this
    simp [relayText, wantedHeader, this]
  have uniq : ∀ l b code' mt', readLine (d1 :: d2 :: 32 :: text ++ [13, 10] ++ body) = some (l, b) → GoodLine l code' mt' →
      b = body ∧ code' = code ∧ mt' = text := by
    intro l b code' mt' hx hgx
    rw [hrl] at hx
    simp only [Option.some.injEq, Prod.mk.injEq] at hx
    rw [← hx.1] at hgx
    have := hgx.1
    rw [hgl.1] at this
    simp only [Option.some.injEq, Prod.mk.injEq] at this
    exact ⟨hx.2.symm, this.1.symm, this.2.symm⟩
  rcases hn with ⟨hx, -⟩ | ⟨d, ho, hd⟩
  · cases hx
  have hdel : f.c.sent ++ f.c.out = d := ho.del
  rw [hdel]
  rcases hd with ⟨hx, -⟩ | ⟨-, (⟨l, b, code', mt', e1, e2, e3, e4⟩ | ⟨hno, -⟩) | ⟨-, l, b, mt', e1, e2, e4⟩⟩
  · rw [hrl] at hx; cases hx
  · obtain ⟨rfl, rfl, rfl⟩ := uniq _ _ _ _ e1 e2
    exact ⟨fun hx => absurd hx e3, fun _ => by rw [e4]; exact htxt⟩
  · exact absurd ⟨_, _, _, _, hrl, hgl⟩ hno
  · obtain ⟨rfl, e, rfl⟩ := uniq _ _ _ _ e1 e2
    subst e
    exact ⟨fun _ => by rw [e4]; exact htxt, fun hx => absurd rfl hx⟩

/-- C31: if what upstream sends is not a reply (and has no NUL in its first line), the client gets an error line and
nothing of it. -/
theorem C31_invalid_partial (env : Env) (c : Client) (h : Relaying c) (evs : List PEv) (D : Bytes)
    (hev : evs.foldl relayed ([], false) = (D, true))
    (hz : ∀ line body, D = line ++ [13, 10] ++ body → NoCrlf line → (0 : UInt8) ∉ line)
    (hh : ¬ ∃ code text body, LooseHeader D code text body) :
    ∃ f, proxyRun env evs { c := c } = .ok f ∧
      (f.c.sent ++ f.c.out = b%"43 protocol error\r\n" ∨ f.c.sent ++ f.c.out = b%"40 internal error\r\n") := by
  have hp : Plain D := ⟨hz, fun code text body hx => absurd ⟨code, text, body, hx⟩ hh⟩
  obtain ⟨f, hr, hn⟩ := prun_now env evs ([], false) _ (by rw [hev]; exact plain_good D hp) (relaying_now c h)
  refine ⟨f, hr, ?_⟩
  rw [hev] at hn
  have hno : ∀ l b code mt, readLine D = some (l, b) → GoodLine l code mt → False := by
    intro l b code mt h1 h2
    obtain ⟨text, body, hl, -⟩ := (looseHeader_iff D code mt).2 ⟨l, b, h1, h2⟩
    exact hh ⟨code, text, body, hl⟩
  rcases hn with ⟨hx, -⟩ | ⟨d, ho, hd⟩
  · cases hx
  have hdel : f.c.sent ++ f.c.out = d := ho.del
  rw [hdel]
  rcases hd with ⟨-, -, hi⟩ | ⟨-, (⟨l, b, code', mt', e1, e2, e3, e4⟩ | ⟨-, hi⟩) | ⟨-, l, b, mt', e1, e2, e4⟩⟩
  · exact hi
  · exact absurd e2 (fun e2 => hno _ _ _ _ e1 e2)
  · exact hi
  · exact absurd e2 (fun e2 => hno _ _ _ _ e1 e2)

/-- C31, while upstream goes on: as soon as its header is complete (code 20), exactly what it has sent so far has
been passed on, and before that nothing has. -/
theorem C31_streaming (env : Env) (c : Client) (h : Relaying c) (evs : List PEv) (D : Bytes)
    (hev : evs.foldl relayed ([], false) = (D, false)) (hp : Plain D) :
    ∃ f, proxyRun env evs { c := c } = .ok f ∧
      (∀ text body, HasHeader D 20 text body → f.c.sent ++ f.c.out = D) ∧
      ((∀ a b, D = a ++ [13, 10] ++ b → False) → D.length ≤ 1029 → f.c.sent ++ f.c.out = []) := by
  obtain ⟨f, hr, hn⟩ := prun_now env evs ([], false) _ (by rw [hev]; exact plain_good D hp) (relaying_now c h)
  refine ⟨f, hr, ?_, ?_⟩
  · rintro text body ⟨d1, d2, h1, h2, h3, h4, h6, h7, h8, h9, h10, rfl⟩
    rw [hev] at hn
    have hz : (0 : UInt8) ∉ d1 :: d2 :: 32 :: text := hp.1 _ body (by simp) h10
    have hct : cstr text = text := cstr_of_no_nul text (fun hx => hz (by simp [hx]))
    have hrl : readLine (d1 :: d2 :: 32 :: text ++ [13, 10] ++ body) = some (d1 :: d2 :: 32 :: text, body) := readLine_append _ _ h10
    have hgl : GoodLine (d1 :: d2 :: 32 :: text) 20 text := ⟨(relayHdr_some _ _ _).2
        ⟨d1, d2, 32, text, rfl, by simp; omega, h1, h2, h3, h4, Or.inl rfl, h6, h7, h8, hct.symm⟩, by simp; omega⟩
    have htxt : relayText 20 text ++ body = d1 :: d2 :: 32 :: text ++ [13, 10] ++ body := by
      have := digits_intDec d1 d2 h1 h2 h3 h4 (by omega)
      rw [← h6] at this
      unfold relayText wantedHeader
      rw [this]
      simp
    have uniq : ∀ l b code' mt', readLine (d1 :: d2 :: 32 :: text ++ [13, 10] ++ body) = some (l, b) → GoodLine l code' mt' →
        b = body ∧ code' = 20 ∧ mt' = text := by
      intro l b code' mt' hx hgx
      rw [hrl] at hx
      simp only [Option.some.injEq, Prod.mk.injEq] at hx
      rw [← hx.1] at hgx
      have := hgx.1
      rw [hgl.1] at this
      simp only [Option.some.injEq, Prod.mk.injEq] at this
      exact ⟨hx.2.symm, this.1.symm, this.2.symm⟩
    rcases hn with ⟨-, ho⟩ | ⟨d, ho, hd⟩
    · rcases ho.mid with ⟨m1, -⟩ | ⟨l, b, mt, m1, m2, m3, m4, m5⟩
      · have m1' : readLine (d1 :: d2 :: 32 :: text ++ [13, 10] ++ body) = none := m1
        rw [hrl] at m1'; cases m1'
      · obtain ⟨rfl, -, rfl⟩ := uniq _ _ _ _ m1 m2
        rw [← htxt]; exact m5
    · rcases hd with ⟨hx, -⟩ | ⟨-, (⟨l, b, code', mt', e1, e2, e3, e4⟩ | ⟨hno, -⟩) | ⟨hx, -⟩⟩
      · have m1' : readLine (d1 :: d2 :: 32 :: text ++ [13, 10] ++ body) = none := hx
        rw [hrl] at m1'; cases m1'
      · exact absurd (uniq _ _ _ _ e1 e2).2.1 e3
      · exact absurd ⟨_, _, _, _, hrl, hgl⟩ hno
      · cases hx
  · intro hno hlen
    rw [hev] at hn
    have hrl : readLine D = none := (readLine_none D).2 hno
    rcases hn with ⟨-, ho⟩ | ⟨d, ho, hd⟩
    · rcases ho.mid with ⟨-, -, -, -, m5⟩ | ⟨l, b, mt, m1, -⟩
      · exact m5
      · have m1' : readLine D = _ := m1
        rw [hrl] at m1'; cases m1'
    · rcases hd with ⟨-, hx | hx, -⟩ | ⟨⟨p, hx⟩, -⟩
      · have : 1029 < D.length := hx
        omega
      · cases hx
      · have m1' : readLine D = _ := hx
        rw [hrl] at m1'; cases m1'

/-- C31: when the TLS handshake with upstream fails or times out the client gets a 43, whatever follows. -/
theorem C31_handshake (env : Env) (c : Client) (h : Relaying c) (ev : PEv) (hev : ev = .handshake false ∨ ev = .timeout)
    (evs : List PEv) :
    ∃ f, proxyRun env (ev :: evs) { c := c, phase := .connecting } = .ok f ∧
      (f.c.sent ++ f.c.out = b%"43 handshake failed\r\n" ∨ f.c.sent ++ f.c.out = b%"43 timeout\r\n") := by
  have one : ∀ mt : Bytes, mt.length ≤ 1000 → mt ≠ b%"text/gemini" →
      POver (b%"43 " ++ mt ++ b%"\r\n") { c := startReply env c 43 mt, phase := .over } := by
    intro mt hl hne
    have hC := C21_reply_header env c 43 mt
    have hlang : wantedLang env c mt = none := by
      unfold wantedLang
      rw [if_neg]
      exact fun hx => hne hx.2.2
    simp only [hlang] at hC
    have hw : wantedHeader 43 mt none = b%"43 " ++ mt := by
      have : intDec 43 = b%"43" := by decide
      simp [wantedHeader, this]
    rw [hw] at hC
    obtain ⟨r1, r2, r3⟩ := hC.1 (by simp; omega)
    have hsent : (startReply env c 43 mt).sent = c.sent := by
      rcases startReply_replied env c 43 mt with r | r <;> exact r.sent
    refine ⟨rfl, by simpa using r3, by show (startReply env c 43 mt).code ≠ 0; rw [r2]; decide, ?_⟩
    show (startReply env c 43 mt).sent ++ (startReply env c 43 mt).out = _
    rw [hsent, r1, h.sent, h.out]
    rfl
  have rest : ∀ (evs : List PEv) (d : Bytes) (f : PClient), POver d f → ∃ g, proxyRun env evs f = .ok g ∧ POver d g := by
    intro evs
    induction evs with
    | nil => intro d f h; exact ⟨f, rfl, h⟩
    | cons ev r ih =>
      intro d f h
      obtain ⟨g, e, ho⟩ := pover_step env d ev f h
      obtain ⟨g', e', ho'⟩ := ih d g ho
      exact ⟨g', by simp only [proxyRun, e]; exact e', ho'⟩
  rcases hev with rfl | rfl
  · obtain ⟨g, e, ho⟩ := rest evs _ _ (one b%"handshake failed" (by decide) (by decide))
    refine ⟨g, ?_, Or.inl ho.del⟩
    simp only [proxyRun, proxyStep, h.openc]
    exact e
  · obtain ⟨g, e, ho⟩ := rest evs _ _ (one b%"timeout" (by decide) (by decide))
    refine ⟨g, ?_, Or.inr ho.del⟩
    simp only [proxyRun, proxyStep, h.openc]
    exact e

/-! ### cases -/

def exRel : Client := { domain := b%"h", type := .proxy }

example : Relaying exRel := ⟨rfl, rfl, rfl, rfl, rfl⟩

theorem plain_ex (line body : Bytes) (hz : (0 : UInt8) ∉ line) (hn : NoCrlf line) (hc : ∀ code mt, relayHdr line = some (code, mt) → code < 21 ∨ 29 < code) :
    Plain (line ++ [13, 10] ++ body) := by
  have hrl : readLine (line ++ [13, 10] ++ body) = some (line, body) := readLine_append _ _ hn
  constructor
  · intro l b e hnl
    have : readLine (line ++ [13, 10] ++ body) = some (l, b) := by rw [e]; exact readLine_append _ _ hnl
    rw [hrl] at this
    simp only [Option.some.injEq, Prod.mk.injEq] at this
    rw [← this.1]; exact hz
  · intro code text b hx
    obtain ⟨l, b', h1, h2⟩ := (looseHeader_iff _ code (cstr text)).1 ⟨text, b, hx, rfl⟩
    rw [hrl] at h1
    simp only [Option.some.injEq, Prod.mk.injEq] at h1
    exact hc code (cstr text) (by rw [h1.1]; exact h2.1)

/-- the hypotheses of `C31_relayed_partial`: header and body in three pieces -/
example : [PEv.data b%"20 a", .flush 1, .data b%"/b\r", .data b%"\nhi\x00", .flush 9, .data b%"!", .eof].foldl relayed ([], false) =
      (b%"20 a/b\r\nhi\x00!", true) ∧ Plain b%"20 a/b\r\nhi\x00!" ∧ HasHeader b%"20 a/b\r\nhi\x00!" 20 b%"a/b" b%"hi\x00!" := by
  have hn : NoCrlf b%"20 a/b" := (readLine_none b%"20 a/b\r").1 (by decide)
  refine ⟨by decide, plain_ex b%"20 a/b" b%"hi\x00!" (by decide) hn ?_, c%'2', c%'0', by decide, by decide, by decide,
    by decide, by decide, by decide, by decide, by decide, hn, by decide⟩
  intro code mt h
  have : relayHdr b%"20 a/b" = some (20, b%"a/b") := by decide
  rw [this] at h
  simp only [Option.some.injEq, Prod.mk.injEq] at h
  omega

example : (match proxyRun exEnv [PEv.data b%"20 a", .flush 1, .data b%"/b\r", .data b%"\nhi\x00", .flush 9, .data b%"!", .eof] { c := exRel } with
    | .ok f => f.c.sent ++ f.c.out | _ => []) = b%"20 a/b\r\nhi\x00!" := by decide +kernel

/-- the hypotheses of `C31_invalid_partial`: a two digit code and no space -/
example : ¬ ∃ code text body, LooseHeader b%"20\r\nhello" code text body := by
  rintro ⟨code, text, body, h⟩
  obtain ⟨l, b, h1, h2, -⟩ := (looseHeader_iff _ code (cstr text)).1 ⟨text, body, h, rfl⟩
  have : readLine b%"20\r\nhello" = some (b%"20", b%"hello") := by decide
  rw [this] at h1
  simp only [Option.some.injEq, Prod.mk.injEq] at h1
  rw [← h1.1] at h2
  have : relayHdr b%"20" = none := by decide
  rw [this] at h2
  cases h2

/-- C31 fails for the codes 21 to 29: the same reply is relayed whole or loses its body depending on when the
pieces arrive. -/
theorem C31_code_2x :
    ∃ f g, proxyRun exEnv [.data b%"21 x\r\n", .data b%"hello", .flush 99, .eof] { c := exRel } = .ok f ∧
      proxyRun exEnv [.data b%"21 x\r\n", .flush 99, .data b%"hello", .flush 99, .eof] { c := exRel } = .ok g ∧
      f.c.sent ++ f.c.out = b%"21 x\r\nhello" ∧ g.c.sent ++ g.c.out = b%"21 x\r\n" := by
  have hok : ∀ (evs : List PEv) (o : Bytes), (match proxyRun exEnv evs { c := exRel } with | .ok f => some (f.c.sent ++ f.c.out) | _ => none) = some o →
      ∃ f, proxyRun exEnv evs { c := exRel } = .ok f ∧ f.c.sent ++ f.c.out = o := by
    intro evs o h
    split at h
    · rename_i f hf
      exact ⟨f, hf, by simpa using h⟩
    · cases h
  obtain ⟨f, f1, f2⟩ := hok [.data b%"21 x\r\n", .data b%"hello", .flush 99, .eof] b%"21 x\r\nhello" (by decide +kernel)
  obtain ⟨g, g1, g2⟩ := hok [.data b%"21 x\r\n", .flush 99, .data b%"hello", .flush 99, .eof] b%"21 x\r\n" (by decide +kernel)
  exact ⟨f, g, f1, g1, f2, g2⟩

/-- C31 fails for a NUL in the header: the text after it is dropped. -/
theorem C31_nul : ∃ f, proxyRun exEnv [.data b%"20 a\x00b\r\nhello", .eof] { c := exRel } = .ok f ∧
    f.c.sent ++ f.c.out = b%"20 a\r\nhello" := by
  have : (match proxyRun exEnv [.data b%"20 a\x00b\r\nhello", .eof] { c := exRel } with
    | .ok f => some (f.c.sent ++ f.c.out) | _ => none) = some b%"20 a\r\nhello" := by decide +kernel
  split at this
  · rename_i f hf
    exact ⟨f, hf, by simpa using this⟩
  · cases this

end Gmid.Props
