import Verif.Model.Fcgi
import Verif.Spec.Fcgi
import Verif.Props.Reply
import Verif.Props.Compat

/-!
# C29: replies of FastCGI applications
-/

set_option autoImplicit false

namespace Gmid.Props

open Spec

/-! ### finding the header -/

theorem memmem_crlf (s : Bytes) : (∃ t, memmem s b%"\r\n" = some (some t) ∧ readLine s = some (s.take t, s.drop (t + 2)) ∧ t + 2 ≤ s.length) ∨
    (memmem s b%"\r\n" = some none ∧ readLine s = none) := by
  obtain ⟨res, h, hs⟩ := C47_memmem s b%"\r\n"
  cases res with
  | none =>
    right
    refine ⟨h, (readLine_none s).2 ?_⟩
    intro a b e
    exact hs a.length (by rw [e]; simp)
  | some t =>
    left
    obtain ⟨hp, hf⟩ := hs
    obtain ⟨r, hr⟩ := hp
    have hlen : t + 2 ≤ s.length := by
      have := congrArg List.length hr
      simp at this; omega
    have hsplit : s = s.take t ++ b%"\r\n" ++ s.drop (t + 2) := by
      have e1 : s.drop (t + 2) = r := by
        rw [← List.drop_drop, ← hr]; rfl
      rw [e1, List.append_assoc, hr, List.take_append_drop]
    refine ⟨t, h, ?_, hlen⟩
    conv => lhs; rw [hsplit]
    refine readLine_append _ _ ?_
    intro a b e
    have hl := congrArg List.length e
    simp at hl
    have hal : a.length < t := by omega
    refine hf a.length hal ?_
    have : s = a ++ (b%"\r\n" ++ (b ++ (b%"\n" ++ s.drop (t + 2)))) := by
      have e' : s = (s.take t ++ b%"\r") ++ (b%"\n" ++ s.drop (t + 2)) := by
        conv => lhs; rw [hsplit]
        simp
      rw [e] at e'
      simpa only [List.append_assoc] using e'
    generalize b ++ (b%"\n" ++ s.drop (t + 2)) = u at this
    rw [this, List.drop_left]
    exact List.prefix_append _ _

theorem readLine_mono (s l t y : Bytes) (h : readLine s = some (l, t)) : readLine (s ++ y) = some (l, t ++ y) := by
  obtain ⟨h1, h2⟩ := readLine_some s l t h
  rw [h1, List.append_assoc]
  exact readLine_append l (t ++ y) h2

/-- the first line of an output, if it ends within the first 1029 bytes, and what follows -/
def hdrOf (o : Bytes) : Option (Bytes × Bytes) := (readLine (o.take 1029)).map fun p => (p.1, p.2 ++ o.drop 1029)

theorem hdrOf_append (o y l b : Bytes) (h : hdrOf o = some (l, b)) : hdrOf (o ++ y) = some (l, b ++ y) := by
  unfold hdrOf at *
  obtain ⟨p, hp, e⟩ := Option.map_eq_some_iff.1 h
  simp only [Prod.mk.injEq] at e
  obtain ⟨rfl, rfl⟩ := e
  rw [List.take_append, readLine_mono _ p.1 p.2 _ hp]
  simp only [Option.map_some, List.append_assoc, Option.some.injEq, Prod.mk.injEq, true_and]
  rw [List.drop_append]
  by_cases hl : o.length ≤ 1029
  · rw [List.drop_of_length_le hl]; simp
  · have : 1029 - o.length = 0 := by omega
    simp [this]

theorem hdrOf_full (o y : Bytes) (hl : 1029 ≤ o.length) (h : hdrOf o = none) : hdrOf (o ++ y) = none := by
  unfold hdrOf at *
  rw [List.take_append, Nat.sub_eq_zero_of_le hl]
  simpa using h

/-- a header line: code and text (up to a NUL) -/
def parseHdr (line : Bytes) : Option (Nat × Bytes) :=
  match line with
  | a :: b :: 32 :: mt =>
    if isDigit a && isDigit b then
      let code := (a.toNat - 48) * 10 + (b.toNat - 48)
      if code < 10 || code ≥ 70 then none else some (code, cstr mt)
    else none
  | _ => none

theorem cstr_length_le (s : Bytes) : (cstr s).length ≤ s.length := List.IsPrefix.length_le (List.takeWhile_prefix _)

theorem parseHdr_some (line : Bytes) (code : Nat) (mt : Bytes) (h : parseHdr line = some (code, mt)) :
    10 ≤ code ∧ code < 70 ∧ mt.length + 3 ≤ line.length := by
  unfold parseHdr at h
  split at h
  · rename_i a b mt'
    split at h
    · simp only at h
      split at h
      · cases h
      · rename_i hc
        simp only [Option.some.injEq, Prod.mk.injEq] at h
        obtain ⟨rfl, rfl⟩ := h
        have := cstr_length_le mt'
        simp at hc ⊢
        omega
    · cases h
  · cases h

section
variable (env : Env) (c0 : Client)

/-- the header line sent for a code and text -/
def hdrText (code : Nat) (mt : Bytes) : Bytes := wantedHeader code mt (wantedLang env c0 mt) ++ b%"\r\n"

/-- what the client must have been sent when the application's output so far is `o`; `fin`: it has ended -/
def appReply (o : Bytes) (fin : Bool) : Bytes :=
  match hdrOf o with
  | none => if fin || decide (1029 ≤ o.length) then b%"42 CGI error\r\n" else []
  | some (line, body) =>
    match parseHdr line with
    | none => b%"42 CGI error\r\n"
    | some (code, mt) => hdrText env c0 code mt ++ (if code = 20 then body else [])

/-- whether that is all the client will be sent -/
def settled (o : Bytes) (fin : Bool) : Bool :=
  match hdrOf o with
  | none => fin || decide (1029 ≤ o.length)
  | some (line, _) =>
    match parseHdr line with
    | none => true
    | some (code, _) => fin || decide (code ≠ 20)

/-- the codes for which the reply does not depend on the fragmentation -/
def GoodCode (o : Bytes) : Prop :=
  ∀ line body code mt, hdrOf o = some (line, body) → parseHdr line = some (code, mt) → code < 21 ∨ 29 < code

theorem goodCode_prefix (o y : Bytes) (h : GoodCode (o ++ y)) : GoodCode o := by
  intro line body code mt h1 h2
  exact h line (body ++ y) code mt (hdrOf_append o y line body h1) h2

theorem settled_stable (o y : Bytes) (fin : Bool) (h : settled o false = true) :
    settled (o ++ y) fin = true ∧ appReply env c0 (o ++ y) fin = appReply env c0 o false := by
  unfold settled appReply at *
  cases ho : hdrOf o with
  | none =>
    simp only [ho, Bool.false_or, decide_eq_true_eq] at h
    rw [hdrOf_full o y h ho]
    have : 1029 ≤ (o ++ y).length := by simp; omega
    simp only [decide_eq_true this, decide_eq_true h, Bool.or_true, if_true, and_self]
  | some p =>
    obtain ⟨line, body⟩ := p
    rw [hdrOf_append o y line body ho]
    simp only [ho] at h ⊢
    cases hp : parseHdr line with
    | none => simp
    | some q =>
      obtain ⟨code, mt⟩ := q
      simp only [hp, Bool.false_or, decide_eq_true_eq] at h ⊢
      simp [h]

/-- what the client has been sent -/
def deliv (f : FClient) : Bytes := f.c.sent ++ f.c.out

/-- the part of the state that does not change -/
structure Same (f : FClient) : Prop where
  host : f.c.host = c0.host
  iri : f.c.iri = c0.iri

/-- the state while the reply goes on, apart from the type -/
def Mid (o : Bytes) (f : FClient) : Prop :=
  (hdrOf o = none ∧ o.length < 1029 ∧ f.c.code = 0 ∧ f.sbuf = o ∧ deliv f = []) ∨
  (∃ line body mt, hdrOf o = some (line, body) ∧ parseHdr line = some (20, mt) ∧ f.c.code = 20 ∧
    deliv f = hdrText env c0 20 mt ++ body)

structure Open (o : Bytes) (f : FClient) : Prop where
  type : f.c.type = .undecided
  same : Same c0 f
  closed : f.c.closed = false
  mid : Mid env c0 o f

structure Over (d : Bytes) (f : FClient) : Prop where
  type : f.c.type = .done
  code : f.c.code ≠ 0
  del : deliv f = d

theorem mid_not_settled (o : Bytes) (f : FClient) (h : Mid env c0 o f) : settled o false = false := by
  unfold settled
  rcases h with ⟨h1, h2, -⟩ | ⟨line, body, mt, h1, h2, -⟩
  · rw [h1]; simp; omega
  · rw [h1]; simp [h2]

theorem mid_reply (o : Bytes) (f : FClient) (h : Mid env c0 o f) : deliv f = appReply env c0 o false := by
  unfold appReply
  rcases h with ⟨h1, h2, -, -, h3⟩ | ⟨line, body, mt, h1, h2, -, h3⟩
  · rw [h1, h3]; simp; omega
  · rw [h1, h3]; simp [h2]

/-- fcgi_error ends the reply -/
theorem fcgiError_mid (o : Bytes) (f : FClient) (h : Mid env c0 o f) :
    Over (appReply env c0 o true) (fcgiError env f) ∧ settled o true = true := by
  unfold fcgiError
  rcases h with ⟨h1, h2, h3, h4, h5⟩ | ⟨line, body, mt, h1, h2, h3, h5⟩
  · rw [if_pos h3]
    have hr := C21_reply_header env { f.c with pfd := -1 } 42 b%"CGI error"
    have hl : wantedLang env { f.c with pfd := -1 } b%"CGI error" = none := by simp [wantedLang]
    simp only [hl] at hr
    have hw : wantedHeader 42 b%"CGI error" none = b%"42 CGI error" := by decide
    rw [hw] at hr
    obtain ⟨e1, e2, e3⟩ := hr.1 (by decide)
    have es : (startReply env { f.c with pfd := -1 } 42 b%"CGI error").sent = f.c.sent := by
      rcases startReply_replied env { f.c with pfd := -1 } 42 b%"CGI error" with r | r <;> exact r.sent
    refine ⟨⟨by simpa using e3, by show (startReply env _ 42 _).code ≠ 0; rw [e2]; decide, ?_⟩, by simp [settled, h1]⟩
    have h5' : f.c.sent ++ f.c.out = [] := h5
    show (startReply env _ 42 _).sent ++ (startReply env _ 42 _).out = _
    rw [es, e1]
    simp only [List.append_eq_nil_iff] at h5'
    simp [h5'.1, h5'.2, appReply, h1]
  · rw [if_neg (by rw [h3]; decide)]
    refine ⟨⟨rfl, by show f.c.code ≠ 0; rw [h3]; decide, ?_⟩, by simp [settled, h1, h2]⟩
    show f.c.sent ++ f.c.out = _
    have h5' : f.c.sent ++ f.c.out = _ := h5
    rw [h5']
    simp [appReply, h1, h2]

theorem fcgiError_over (d : Bytes) (f : FClient) (h : Over d f) : Over d (fcgiError env f) := by
  unfold fcgiError
  rw [if_neg h.code]
  exact ⟨rfl, h.code, h.del⟩

theorem write_over (d : Bytes) (f : FClient) (h : Over d f) :
    ∃ g, clientWrite env 0 none f.c = .ok g ∧ Over d { f with c := g } := by
  unfold clientWrite
  rw [h.type]
  simp only
  split
  · exact ⟨_, rfl, ⟨h.type, h.code, h.del⟩⟩
  · exact ⟨_, rfl, ⟨h.type, h.code, h.del⟩⟩

theorem fcgiStop_mid (o : Bytes) (f : FClient) (h : Mid env c0 o f) :
    ∃ g, fcgiStop env f = .ok g ∧ Over (appReply env c0 o true) g := by
  obtain ⟨g, h1, h2⟩ := write_over env _ _ (fcgiError_mid env c0 o f h).1
  unfold fcgiStop
  simp only [h1]
  exact ⟨_, rfl, h2⟩

theorem fcgiStop_over (d : Bytes) (f : FClient) (h : Over d f) : ∃ g, fcgiStop env f = .ok g ∧ Over d g := by
  obtain ⟨g, h1, h2⟩ := write_over env _ _ (fcgiError_over env d f h)
  unfold fcgiStop
  simp only [h1]
  exact ⟨_, rfl, h2⟩

/-- the header line, in terms of `parseHdr` -/
theorem fcgiHeaderLine_eq (f : FClient) (t : Nat) : fcgiHeaderLine env f t =
    match parseHdr (f.sbuf.take t) with
    | none => (fcgiError env f, false)
    | some (code, mt) =>
      let g := { f with c := startReply env f.c code mt }
      if g.c.code < 20 || g.c.code > 29 then (fcgiError env g, false)
      else ({ g with c := { g.c with out := g.c.out ++ g.sbuf.drop (t + 2) } }, true) := by
  unfold fcgiHeaderLine
  simp only
  generalize f.sbuf.take t = line
  by_cases hsh : ∃ a b mt, line = a :: b :: 32 :: mt
  · obtain ⟨a, b, mt, rfl⟩ := hsh
    simp only [parseHdr]
    by_cases hd : (isDigit a && isDigit b) = true
    · simp only [hd, if_true]
      generalize (a.toNat - 48) * 10 + (b.toNat - 48) = k
      by_cases hc : (decide (k < 10) || decide (k ≥ 70)) = true
      · have hc' : (decide ((k : Int) < 10) || decide ((k : Int) ≥ 70)) = true := by
          simp only [Bool.or_eq_true, decide_eq_true_eq] at hc ⊢
          omega
        rw [if_pos hc, if_pos hc']
      · have hc' : ¬ (decide ((k : Int) < 10) || decide ((k : Int) ≥ 70)) = true := by
          simp only [Bool.or_eq_true, decide_eq_true_eq] at hc ⊢
          omega
        rw [if_neg hc, if_neg hc']
    · rw [if_neg hd, if_neg hd]
  · have h1 : parseHdr line = none := by
      unfold parseHdr
      split
      · exact absurd ⟨_, _, _, rfl⟩ hsh
      · rfl
    rw [h1]
    simp only
    split
    · exact absurd ⟨_, _, _, rfl⟩ hsh
    · rfl

theorem fcgiError_nohdr (f : FClient) (h3 : f.c.code = 0) (h5 : deliv f = []) :
    Over b%"42 CGI error\r\n" (fcgiError env f) := by
  have hm : Mid env f.c [] { f with sbuf := [] } := Or.inl ⟨by decide, by decide, h3, rfl, h5⟩
  have := (fcgiError_mid env f.c [] _ hm).1
  have e : appReply env f.c [] true = b%"42 CGI error\r\n" := by
    have : hdrOf [] = none := by decide
    unfold appReply
    rw [this]
    rfl
  rw [e] at this
  unfold fcgiError at this ⊢
  rw [if_pos h3] at this ⊢
  exact ⟨this.type, this.code, this.del⟩

/-- the language configured for the request fits its buffer (gmid.h: `lang[32]`) -/
def LangOk : Prop := ∀ mt l, wantedLang env c0 mt = some l → l.length ≤ 31

theorem hdr_fits (hl : LangOk env c0) (code : Nat) (mt : Bytes) (h1 : 10 ≤ code) (h2 : code < 70) (hm : mt.length ≤ 1024) :
    (wantedHeader code mt (wantedLang env c0 mt)).length ≤ 1027 := by
  have hd : (intDec (code : Int)).length = 2 := by
    have : ∀ k, k < 70 → 10 ≤ k → (intDec ((k : Nat) : Int)).length = 2 := by decide +kernel
    exact this code h2 h1
  unfold wantedHeader
  split
  · simp [hd]; omega
  · rename_i l hw
    have := hl mt l hw
    have hm' : mt = b%"text/gemini" := by
      unfold wantedLang at hw
      split at hw
      · rename_i h; exact h.2.2
      · cases hw
    simp only [List.length_append, hd, hm']
    simp
    omega

theorem fcgiStdout_spec (hl : LangOk env c0) (h0 : c0.type = .undecided) (o x rest : Bytes) (f : FClient)
    (h : Open env c0 o f) (hs : f.src = x ++ rest) (hg : GoodCode (o ++ x)) :
    (settled (o ++ x) false = false ∧ Open env c0 (o ++ x) (fcgiStdout env f x.length) ∧
      (fcgiStdout env f x.length).src = rest) ∨
    (settled (o ++ x) false = true ∧ Over (appReply env c0 (o ++ x) false) (fcgiStdout env f x.length)) := by
  rcases h.mid with ⟨h1, h2, h3, h4, h5⟩ | ⟨line, body, mt, h1, h2, h3, h5⟩
  · unfold fcgiStdout
    rw [if_pos h3]
    simp only [hs, h4]
    have hl0 : ∀ l, l = min x.length (1029 - o.length) → o ++ (x ++ rest).take l = (o ++ x).take 1029 ∧
        (x ++ rest).drop l = x.drop l ++ rest ∧ (o ++ x).drop 1029 = x.drop l ∧ (x.drop l).length = x.length - l := by
      intro l e
      have hle : l ≤ x.length := by omega
      refine ⟨?_, ?_, ?_, by simp⟩
      · rw [List.take_append_of_le_length hle, List.take_append, List.take_of_length_le (by omega : o.length ≤ 1029)]
        congr 1
        by_cases hc : x.length ≤ 1029 - o.length
        · rw [show l = x.length by omega, List.take_of_length_le (Nat.le_refl _), List.take_of_length_le hc]
        · rw [show l = 1029 - o.length by omega]
      · rw [List.drop_append_of_le_length hle]
      · rw [List.drop_append, List.drop_of_length_le (by omega : o.length ≤ 1029)]
        by_cases hc : x.length ≤ 1029 - o.length
        · rw [show l = x.length by omega, List.drop_of_length_le (Nat.le_refl _), List.drop_of_length_le hc]; rfl
        · rw [show l = 1029 - o.length by omega]; rfl
    generalize hle : min x.length (1029 - o.length) = l
    obtain ⟨e1, e2, e3, e4⟩ := hl0 l hle.symm
    rw [e1, e2, ← e4]
    generalize hxd : x.drop l = xd at *
    have hno : f.c.sent = [] ∧ f.c.out = [] := by
      have : f.c.sent ++ f.c.out = [] := h5
      simpa [List.append_eq_nil_iff] using this
    rcases memmem_crlf ((o ++ x).take 1029) with ⟨t, m1, m2, m3⟩ | ⟨m1, m2⟩
    · have hh : hdrOf (o ++ x) = some (((o ++ x).take 1029).take t, ((o ++ x).take 1029).drop (t + 2) ++ xd) := by
        unfold hdrOf
        rw [m2, e3]; rfl
      rw [m1]
      simp only
      rw [fcgiHeaderLine_eq]
      simp only
      generalize hsb : (o ++ x).take 1029 = sb at *
      cases hp : parseHdr (sb.take t) with
      | none =>
        right
        simp only
        refine ⟨by simp [settled, hh, hp], ?_⟩
        have e : appReply env c0 (o ++ x) false = b%"42 CGI error\r\n" := by simp only [appReply, hh, hp]
        rw [e, if_neg (by simp)]
        exact fcgiError_nohdr env _ h3 h5
      | some q =>
        obtain ⟨code, mt⟩ := q
        simp only
        obtain ⟨k1, k2, k3⟩ := parseHdr_some _ _ _ hp
        have hsl : sb.length ≤ 1029 := by rw [← hsb]; simp; omega
        have hmt : mt.length ≤ 1024 := by
          have : (sb.take t).length ≤ 1027 := by simp; omega
          omega
        have hwl : wantedLang env f.c mt = wantedLang env c0 mt := by
          unfold wantedLang
          rw [h.type, h0, h.same.host, h.same.iri]
        have hf := hdr_fits env c0 hl code mt k1 k2 hmt
        obtain ⟨r1, r2, r3⟩ := (C21_reply_header env f.c code mt).1 (by rw [hwl]; exact hf)
        rw [hwl] at r1
        have rr : Replied f.c (startReply env f.c code mt) code := by
          rcases startReply_replied env f.c code mt with r | r
          · exact r
          · have := r.rcode
            rw [r2] at this
            have hc40 : code = 40 := by omega
            subst hc40
            exact r
        have hgc := hg _ _ code mt hh hp
        by_cases h20 : code = 20
        · subst h20
          left
          have : ¬ ((decide ((startReply env f.c ((20 : Nat) : Int) mt).code < 20) || decide ((startReply env f.c ((20 : Nat) : Int) mt).code > 29)) = true) := by
            rw [r2]; decide
          rw [if_neg this]
          simp only [if_true]
          refine ⟨by simp [settled, hh, hp], ⟨?_, ⟨?_, ?_⟩, ?_, Or.inr ⟨_, _, mt, hh, hp, ?_, ?_⟩⟩, ?_⟩
          · show (startReply env f.c _ mt).type = _
            rw [r3]; exact h.type
          · exact rr.host.trans h.same.host
          · exact rr.iri.trans h.same.iri
          · exact rr.closed.trans h.closed
          · exact r2
          · show (startReply env f.c _ mt).sent ++ ((startReply env f.c _ mt).out ++ sb.drop (t + 2) ++ _) = _
            rw [rr.sent, r1, hno.1, hno.2, List.take_left]
            simp [hdrText]
          · simp only [List.drop_left]
        · right
          have : ((decide ((startReply env f.c ((code : Nat) : Int) mt).code < 20) || decide ((startReply env f.c ((code : Nat) : Int) mt).code > 29)) = true) := by
            rw [r2]; simp; omega
          rw [if_pos this]
          simp only
          have e : appReply env c0 (o ++ x) false = hdrText env c0 code mt := by simp [appReply, hh, hp, h20]
          refine ⟨by simp [settled, hh, hp, h20], ?_⟩
          rw [if_neg (by simp), e]
          apply fcgiError_over
          refine ⟨?_, ?_, ?_⟩
          · show (startReply env f.c _ mt).type = _
            rw [r3, if_neg (by omega)]
          · show (startReply env f.c _ mt).code ≠ _
            rw [r2]; omega
          · show (startReply env f.c _ mt).sent ++ (startReply env f.c _ mt).out = _
            rw [rr.sent, r1, hno.1, hno.2]
            simp [hdrText]
    · have hh : hdrOf (o ++ x) = none := by
        unfold hdrOf
        rw [m2]; rfl
      rw [m1]
      simp only
      have hlen : (List.take 1029 (o ++ x)).length = min 1029 (o ++ x).length := by simp
      by_cases hf : 1029 ≤ (o ++ x).length
      · right
        rw [if_pos (by omega)]
        have e : appReply env c0 (o ++ x) false = b%"42 CGI error\r\n" := by
          simp only [appReply, hh, Bool.false_or, decide_eq_true hf, if_true]
        refine ⟨by simp only [settled, hh, Bool.false_or, decide_eq_true hf], ?_⟩
        rw [e]
        exact fcgiError_nohdr env _ h3 h5
      · left
        rw [if_neg (by omega)]
        have hx : xd = [] := by rw [← e3]; exact List.drop_of_length_le (by omega)
        refine ⟨by simp only [settled, hh, Bool.false_or, decide_eq_false_iff_not]; omega,
          ⟨h.type, ⟨h.same.host, h.same.iri⟩, h.closed, Or.inl ⟨hh, by omega, h3, ?_, h5⟩⟩, ?_⟩
        · exact List.take_of_length_le (by omega)
        · simp [hx]
  · left
    unfold fcgiStdout
    rw [if_neg (by rw [h3]; decide)]
    simp only [hs, List.take_left, List.drop_left]
    have hh := hdrOf_append o x line body h1
    refine ⟨by simp [settled, hh, h2], ⟨h.type, ⟨h.same.host, h.same.iri⟩, h.closed, Or.inr ⟨line, body ++ x, mt, hh, h2, h3, ?_⟩⟩, trivial⟩
    have h5' : f.c.sent ++ f.c.out = _ := h5
    show f.c.sent ++ (f.c.out ++ x) = _
    rw [← List.append_assoc, h5', List.append_assoc]

/-! ### the stream of records -/

/-- the output in the complete records at the front of a stream, whether they end the reply, and what is left -/
def parseApp : Nat → Bytes → Bytes × Bool × Bytes
  | n, s =>
    match s with
    | _ :: ty :: i1 :: i0 :: l1 :: l0 :: pad :: _ :: rest =>
      if i0.toNat + i1.toNat * 256 ≠ 1 then ([], true, s)
      else if rest.length < l0.toNat + l1.toNat * 256 + pad.toNat then ([], false, s)
      else
        match n with
        | 0 => ([], false, s)
        | n + 1 =>
          if ty = 7 then parseApp n (rest.drop (l0.toNat + l1.toNat * 256 + pad.toNat))
          else if ty = 6 then
            let r := parseApp n (rest.drop (l0.toNat + l1.toNat * 256 + pad.toNat))
            (rest.take (l0.toNat + l1.toNat * 256) ++ r.1, r.2)
          else ([], true, s)
    | _ => ([], false, s)

theorem parseApp_fuel (n m : Nat) : ∀ s : Bytes, s.length ≤ n → s.length ≤ m → parseApp n s = parseApp m s := by
  induction n generalizing m with
  | zero =>
    intro s h1 h2
    have : s = [] := List.eq_nil_of_length_eq_zero (by omega)
    subst this
    unfold parseApp
    rfl
  | succ n ih =>
    intro s h1 h2
    unfold parseApp
    split
    · rename_i v ty i1 i0 l1 l0 pad rs rest
      split
      · rfl
      · split
        · rfl
        · cases m with
          | zero => simp at h2
          | succ m =>
            simp only at h1 h2 ⊢
            simp only [List.length_cons] at h1 h2
            have := ih m (rest.drop (l0.toNat + l1.toNat * 256 + pad.toNat)) (by simp; omega) (by simp; omega)
            rw [this]
    · rfl

/-- one more piece of the stream -/
theorem parseApp_append (n : Nat) : ∀ (s y : Bytes) (m k : Nat), s.length ≤ n → (s ++ y).length ≤ m →
    ((parseApp n s).2.2 ++ y).length ≤ k →
    ((parseApp n s).2.1 = true → (parseApp m (s ++ y)).1 = (parseApp n s).1 ∧ (parseApp m (s ++ y)).2.1 = true) ∧
    ((parseApp n s).2.1 = false →
      parseApp m (s ++ y) = ((parseApp n s).1 ++ (parseApp k ((parseApp n s).2.2 ++ y)).1, (parseApp k ((parseApp n s).2.2 ++ y)).2)) := by
  induction n with
  | zero =>
    intro s y m k h1 h2 h3
    have : s = [] := List.eq_nil_of_length_eq_zero (by omega)
    subst this
    have e : parseApp 0 [] = ([], false, []) := by unfold parseApp; rfl
    rw [e] at h3 ⊢
    simp at h2 h3 ⊢
    rw [parseApp_fuel m k y h2 h3]
  | succ n ih =>
    intro s y m k h1 h2 h3
    by_cases hs : ∃ v ty i1 i0 l1 l0 pad rs rest, s = v :: ty :: i1 :: i0 :: l1 :: l0 :: pad :: rs :: rest
    · obtain ⟨v, ty, i1, i0, l1, l0, pad, rs, rest, rfl⟩ := hs
      simp only [List.length_cons] at h1
      simp only [List.cons_append] at h2 ⊢
      simp only [List.length_cons] at h2
      cases m with
      | zero => simp at h2
      | succ m =>
      generalize hL : l0.toNat + l1.toNat * 256 = L at *
      by_cases hi : i0.toNat + i1.toNat * 256 ≠ 1
      · have e1 : ∀ rest n, parseApp n (v :: ty :: i1 :: i0 :: l1 :: l0 :: pad :: rs :: rest) =
            ([], true, v :: ty :: i1 :: i0 :: l1 :: l0 :: pad :: rs :: rest) := by
          intro rest n
          unfold parseApp
          simp only
          rw [if_pos hi]
        rw [e1, e1]
        simp
      · by_cases hr : rest.length < L + pad.toNat
        · have e1 : parseApp (n + 1) (v :: ty :: i1 :: i0 :: l1 :: l0 :: pad :: rs :: rest) =
            ([], false, v :: ty :: i1 :: i0 :: l1 :: l0 :: pad :: rs :: rest) := by
            conv => lhs; unfold parseApp
            simp only [hL]
            rw [if_neg hi, if_pos hr]
          rw [e1] at h3 ⊢
          simp only [List.cons_append, List.length_cons] at h3
          refine ⟨by simp, fun _ => ?_⟩
          simp only [List.cons_append, List.nil_append]
          refine (parseApp_fuel _ _ _ ?_ ?_).trans rfl
          · simp only [List.length_cons]; omega
          · simp only [List.length_cons]; omega
        · have hr' : ¬ (rest ++ y).length < L + pad.toNat := by simp; omega
          have hd : (rest ++ y).drop (L + pad.toNat) = rest.drop (L + pad.toNat) ++ y :=
            List.drop_append_of_le_length (by omega)
          have ht : (rest ++ y).take L = rest.take L := List.take_append_of_le_length (by omega)
          by_cases h7 : ty = 7
          · have e1 : ∀ rest n, ¬ rest.length < L + pad.toNat →
                parseApp (n + 1) (v :: ty :: i1 :: i0 :: l1 :: l0 :: pad :: rs :: rest) = parseApp n (rest.drop (L + pad.toNat)) := by
              intro rest n hr
              conv => lhs; unfold parseApp
              simp only [hL]
              rw [if_neg hi, if_neg hr, if_pos h7]
            rw [e1 rest n hr] at h3 ⊢
            rw [e1 _ _ hr', hd]
            refine ih _ y m k (by simp; omega) ?_ h3
            simp only [List.length_append, List.length_drop] at h2 ⊢
            omega
          · by_cases h6 : ty = 6
            · have e1 : ∀ rest n, ¬ rest.length < L + pad.toNat →
                  parseApp (n + 1) (v :: ty :: i1 :: i0 :: l1 :: l0 :: pad :: rs :: rest) =
                  (rest.take L ++ (parseApp n (rest.drop (L + pad.toNat))).1, (parseApp n (rest.drop (L + pad.toNat))).2) := by
                intro rest n hr
                conv => lhs; unfold parseApp
                simp only [hL]
                rw [if_neg hi, if_neg hr, if_neg h7, if_pos h6]
              rw [e1 rest n hr] at h3 ⊢
              rw [e1 _ _ hr', hd, ht]
              have := ih (rest.drop (L + pad.toNat)) y m k (by simp; omega) (by
                simp only [List.length_append, List.length_drop] at h2 ⊢
                omega) h3
              refine ⟨fun hx => ?_, fun hx => ?_⟩
              · obtain ⟨a, b⟩ := this.1 hx
                exact ⟨by simp only [a], b⟩
              · have a := this.2 hx
                simp only [a, List.append_assoc]
            · have e1 : ∀ rest n, ¬ rest.length < L + pad.toNat →
                  parseApp (n + 1) (v :: ty :: i1 :: i0 :: l1 :: l0 :: pad :: rs :: rest) =
                  ([], true, v :: ty :: i1 :: i0 :: l1 :: l0 :: pad :: rs :: rest) := by
                intro rest n hr
                conv => lhs; unfold parseApp
                simp only [hL]
                rw [if_neg hi, if_neg hr, if_neg h7, if_neg h6]
              rw [e1 rest n hr, e1 _ _ hr']
              simp
    · have e1 : parseApp (n + 1) s = ([], false, s) := by
        unfold parseApp
        split
        · exact absurd ⟨_, _, _, _, _, _, _, _, _, rfl⟩ hs
        · rfl
      rw [e1] at h3 ⊢
      refine ⟨by simp, fun _ => ?_⟩
      simp only [List.nil_append]
      exact parseApp_fuel _ _ _ h2 h3

/-- the state after the stream `o` and perhaps the end -/
def Now (o : Bytes) (fin : Bool) (f : FClient) : Prop :=
  (settled o fin = true ∧ Over (appReply env c0 o fin) f) ∨ (settled o fin = false ∧ fin = false ∧ Open env c0 o f)

theorem loop_over (n : Nat) (d : Bytes) (f : FClient) (h : Over d f) : ∃ g, fcgiLoop' env n f = .ok g ∧ Over d g := by
  unfold fcgiLoop'
  rw [if_pos h.type]
  exact fcgiStop_over env d f h

theorem loop_spec (hl : LangOk env c0) (h0 : c0.type = .undecided) (n : Nat) : ∀ (o : Bytes) (f : FClient),
    Open env c0 o f → f.src.length ≤ n → GoodCode (o ++ (parseApp n f.src).1) →
    ∃ g, fcgiLoop' env n f = .ok g ∧ Now env c0 (o ++ (parseApp n f.src).1) (parseApp n f.src).2.1 g ∧
      ((parseApp n f.src).2.1 = false → settled (o ++ (parseApp n f.src).1) false = false → g.src = (parseApp n f.src).2.2) := by
  induction n with
  | zero =>
    intro o f h hn hg
    have : f.src = [] := List.eq_nil_of_length_eq_zero (by omega)
    have e : parseApp 0 f.src = ([], false, []) := by rw [this]; unfold parseApp; rfl
    rw [e]
    unfold fcgiLoop'
    rw [if_neg (by rw [h.type]; decide), this]
    refine ⟨f, rfl, Or.inr ⟨?_, rfl, ?_⟩, fun _ _ => this⟩
    · simpa using mid_not_settled env c0 o f h.mid
    · simpa using h
  | succ n ih =>
    intro o f h hn hg
    unfold fcgiLoop'
    rw [if_neg (by rw [h.type]; decide)]
    have stop : ∀ f' : FClient, Mid env c0 o f' → ∀ r : Bytes × Bool × Bytes, r.1 = [] → r.2.1 = true →
        ∃ g, fcgiStop env f' = .ok g ∧ Now env c0 (o ++ r.1) r.2.1 g ∧
          (r.2.1 = false → settled (o ++ r.1) false = false → g.src = r.2.2) := by
      intro f' hm r h1 h2
      obtain ⟨g, e, ho⟩ := fcgiStop_mid env c0 o f' hm
      refine ⟨g, e, Or.inl ?_, by rw [h2]; simp⟩
      rw [h1, h2, List.append_nil]
      exact ⟨(fcgiError_mid env c0 o f' hm).2, ho⟩
    by_cases hs : ∃ v ty i1 i0 l1 l0 pad rs rest, f.src = v :: ty :: i1 :: i0 :: l1 :: l0 :: pad :: rs :: rest
    · obtain ⟨v, ty, i1, i0, l1, l0, pad, rs, rest, hs⟩ := hs
      rw [hs] at hn hg ⊢
      simp only
      simp only [List.length_cons] at hn
      conv => arg 1; intro g; arg 2; unfold parseApp
      unfold parseApp at hg
      simp only at hg ⊢
      generalize hL : l0.toNat + l1.toNat * 256 = L at *
      by_cases hi : i0.toNat + i1.toNat * 256 ≠ 1
      · simp only [if_pos hi] at hg ⊢
        exact stop f h.mid ([], true, _) rfl rfl
      · simp only [if_neg hi] at hg ⊢
        by_cases hr : rest.length < L + pad.toNat
        · simp only [if_pos hr] at hg ⊢
          refine ⟨f, rfl, Or.inr ⟨?_, rfl, ?_⟩, fun _ _ => hs⟩
          · simpa using mid_not_settled env c0 o f h.mid
          · simpa using h
        · simp only [if_neg hr] at hg ⊢
          by_cases h7 : ty = 7
          · have h3 : ty ≠ 3 := by rw [h7]; decide
            simp only [if_pos h7, if_neg h3] at hg ⊢
            have := ih o { f with src := rest.drop (L + pad.toNat) } ⟨h.type, ⟨h.same.host, h.same.iri⟩, h.closed, h.mid⟩
              (by simp; omega) hg
            exact this
          · simp only [if_neg h7] at hg ⊢
            by_cases h6 : ty = 6
            · have h3 : ty ≠ 3 := by rw [h6]; decide
              simp only [if_pos h6, if_neg h3] at hg ⊢
              have hsrc : rest = rest.take L ++ rest.drop L := (List.take_append_drop L rest).symm
              have htl : (rest.take L).length = L := by simp; omega
              have hg' : GoodCode (o ++ rest.take L) := by
                rw [← List.append_assoc] at hg
                exact goodCode_prefix _ _ hg
              have key := fcgiStdout_spec env c0 hl h0 o (rest.take L) (rest.drop L) { f with src := rest }
                ⟨h.type, ⟨h.same.host, h.same.iri⟩, h.closed, h.mid⟩ hsrc hg'
              rw [htl] at key
              rw [← List.append_assoc] at hg ⊢
              rcases key with ⟨k1, k2, k3⟩ | ⟨k1, k2⟩
              · have hd : (rest.drop L).drop pad.toNat = rest.drop (L + pad.toNat) := by rw [List.drop_drop]
                simp only [k3, hd]
                have := ih (o ++ rest.take L) { fcgiStdout env { f with src := rest } L with src := rest.drop (L + pad.toNat) }
                  ⟨k2.type, ⟨k2.same.host, k2.same.iri⟩, k2.closed, k2.mid⟩ (by simp; omega) hg
                exact this
              · obtain ⟨g, e, ho⟩ := loop_over env n _ { fcgiStdout env { f with src := rest } L with
                  src := (fcgiStdout env { f with src := rest } L).src.drop pad.toNat } ⟨k2.type, k2.code, k2.del⟩
                obtain ⟨s1, s2⟩ := settled_stable env c0 (o ++ rest.take L) (parseApp n (rest.drop (L + pad.toNat))).1
                  (parseApp n (rest.drop (L + pad.toNat))).2.1 k1
                refine ⟨g, e, Or.inl ⟨s1, ?_⟩, ?_⟩
                · rw [s2]; exact ho
                · intro e1 e2
                  rw [e1] at s1
                  rw [s1] at e2
                  cases e2
            · simp only [if_neg h6] at hg ⊢
              by_cases h3 : ty = 3
              · simp only [if_pos h3]
                by_cases h8 : L ≠ 8
                · simp only [if_pos h8]
                  exact stop { f with src := rest } h.mid ([], true, _) rfl rfl
                · simp only [if_neg h8]
                  have := stop { f with c := { f.c with type := .done }, src := rest.drop (8 + pad.toNat) } h.mid
                    ([], true, v :: ty :: i1 :: i0 :: l1 :: l0 :: pad :: rs :: rest) rfl rfl
                  unfold fcgiLoop'
                  rw [if_pos rfl]
                  exact this
              · simp only [if_neg h3]
                exact stop { f with src := rest } h.mid ([], true, _) rfl rfl
    · have e1 : parseApp (n + 1) f.src = ([], false, f.src) := by
        unfold parseApp
        split
        · rename_i heq; exact absurd ⟨_, _, _, _, _, _, _, _, _, heq⟩ hs
        · rfl
      rw [e1]
      refine ⟨f, ?_, Or.inr ⟨?_, rfl, ?_⟩, fun _ _ => rfl⟩
      · split
        · rename_i heq; exact absurd ⟨_, _, _, _, _, _, _, _, _, heq⟩ hs
        · rfl
      · simpa using mid_not_settled env c0 o f h.mid
      · simpa using h

/-! ### histories -/

def R (D : Bytes) : Bytes × Bool × Bytes := parseApp D.length D

theorem R_append (D b : Bytes) :
    ((R D).2.1 = true → (R (D ++ b)).1 = (R D).1 ∧ (R (D ++ b)).2.1 = true) ∧
    ((R D).2.1 = false → R (D ++ b) = ((R D).1 ++ (R ((R D).2.2 ++ b)).1, (R ((R D).2.2 ++ b)).2)) :=
  parseApp_append D.length D b _ _ (Nat.le_refl _) (Nat.le_refl _) (Nat.le_refl _)

theorem R_prefix (D b : Bytes) (h : GoodCode (R (D ++ b)).1) : GoodCode (R D).1 := by
  cases hb : (R D).2.1 with
  | true => rwa [((R_append D b).1 hb).1] at h
  | false => rw [(R_append D b).2 hb] at h; exact goodCode_prefix _ _ h

/-- the state after the data `D` and, if `e`, the end of the stream -/
def After (D : Bytes) (e : Bool) (f : FClient) : Prop :=
  Now env c0 (R D).1 ((R D).2.1 || e) f ∧ (settled (R D).1 ((R D).2.1 || e) = false → f.src = (R D).2.2)

theorem over_step (d : Bytes) (ev : FEv) (f : FClient) (h : Over d f) : ∃ g, fcgiStep env ev f = .ok g ∧ Over d g := by
  unfold fcgiStep
  split
  · exact ⟨f, rfl, h⟩
  · cases ev with
    | data b => exact loop_over env _ d _ ⟨h.type, h.code, h.del⟩
    | eof => exact ⟨_, rfl, fcgiError_over env d f h⟩
    | flush n =>
      simp only
      rename_i hc
      unfold step
      rw [if_neg hc]
      simp only
      have hd : f.c.sent ++ f.c.out.take n ++ f.c.out.drop n = d := by
        rw [List.append_assoc, List.take_append_drop]; exact h.del
      by_cases hq : f.c.out.drop n = []
      · rw [if_pos hq]
        obtain ⟨g, e, ho⟩ := write_over env d
          { f with c := { f.c with sent := f.c.sent ++ f.c.out.take n, out := f.c.out.drop n } } ⟨h.type, h.code, hd⟩
        simp only at e
        rw [e]
        exact ⟨_, rfl, ho⟩
      · rw [if_neg hq]
        exact ⟨_, rfl, ⟨h.type, h.code, hd⟩⟩

/-- the data received before the end of the stream and whether that came -/
def fedBy : Bytes × Bool → FEv → Bytes × Bool
  | (D, e), .data b => if e then (D, e) else (D ++ b, e)
  | (D, _), .eof => (D, true)
  | (D, e), .flush _ => (D, e)

theorem step_after (hl : LangOk env c0) (h0 : c0.type = .undecided) (D : Bytes) (e : Bool) (ev : FEv) (f : FClient)
    (hg : GoodCode (R (fedBy (D, e) ev).1).1) (h : After env c0 D e f) :
    ∃ g, fcgiStep env ev f = .ok g ∧ After env c0 (fedBy (D, e) ev).1 (fedBy (D, e) ev).2 g := by
  obtain ⟨hn, hs⟩ := h
  rcases hn with ⟨h1, h2⟩ | ⟨h1, h2, h3⟩
  · obtain ⟨g, e1, ho⟩ := over_step env _ ev f h2
    refine ⟨g, e1, ?_⟩
    cases ev with
    | flush n => exact ⟨Or.inl ⟨h1, ho⟩, fun hx => absurd hx (by simp only [fedBy]; rw [h1]; decide)⟩
    | eof =>
      simp only [fedBy]
      have : settled (R D).1 ((R D).2.1 || true) = true ∧
          appReply env c0 (R D).1 ((R D).2.1 || true) = appReply env c0 (R D).1 ((R D).2.1 || e) := by
        simp only [Bool.or_true]
        cases hb : ((R D).2.1 || e) with
        | true => rw [hb] at h1; exact ⟨h1, rfl⟩
        | false =>
          rw [hb] at h1
          have := settled_stable env c0 (R D).1 [] true h1
          simpa using this
      exact ⟨Or.inl ⟨this.1, by rw [this.2]; exact ho⟩, fun hx => absurd hx (by rw [this.1]; decide)⟩
    | data b =>
      simp only [fedBy]
      cases e with
      | true => exact ⟨Or.inl ⟨h1, ho⟩, fun hx => absurd hx (by simp only [if_true]; rw [h1]; decide)⟩
      | false =>
        simp only [Bool.or_false] at h1 ho
        simp only [Bool.false_eq_true, if_false, After, Bool.or_false]
        have : settled (R (D ++ b)).1 (R (D ++ b)).2.1 = true ∧
            appReply env c0 (R (D ++ b)).1 (R (D ++ b)).2.1 = appReply env c0 (R D).1 (R D).2.1 := by
          cases hb : (R D).2.1 with
          | true =>
            obtain ⟨a1, a2⟩ := (R_append D b).1 hb
            rw [a1, a2]
            rw [hb] at h1
            exact ⟨h1, rfl⟩
          | false =>
            rw [(R_append D b).2 hb]
            rw [hb] at h1
            exact settled_stable env c0 _ _ _ h1
        exact ⟨Or.inl ⟨this.1, by rw [this.2]; exact ho⟩, fun hx => absurd hx (by rw [this.1]; decide)⟩
  · obtain ⟨hb, rfl⟩ := Bool.or_eq_false_iff.1 h2
    have hsrc := hs h1
    simp only [hb, Bool.or_false] at h1
    unfold fcgiStep
    rw [if_neg (by rw [h3.closed]; decide)]
    cases ev with
    | eof =>
      refine ⟨_, rfl, ?_⟩
      obtain ⟨a, b⟩ := fcgiError_mid env c0 _ f h3.mid
      simp only [fedBy, After, Bool.or_true]
      exact ⟨Or.inl ⟨b, a⟩, fun hx => absurd hx (by rw [b]; decide)⟩
    | flush n =>
      simp only [fedBy]
      unfold step
      rw [if_neg (by rw [h3.closed]; decide)]
      simp only
      have hop : Open env c0 (R D).1 { f with c := { f.c with sent := f.c.sent ++ f.c.out.take n, out := f.c.out.drop n } } := by
        have hd : f.c.sent ++ f.c.out.take n ++ f.c.out.drop n = deliv f := by
          rw [List.append_assoc, List.take_append_drop]; rfl
        refine ⟨h3.type, ⟨h3.same.host, h3.same.iri⟩, h3.closed, ?_⟩
        rcases h3.mid with ⟨m1, m2, m3, m4, m5⟩ | ⟨line, body, mt, m1, m2, m3, m5⟩
        · exact Or.inl ⟨m1, m2, m3, m4, hd.trans m5⟩
        · exact Or.inr ⟨line, body, mt, m1, m2, m3, hd.trans m5⟩
      have hcw : ∀ x : Client, x.type = .undecided → clientWrite env 0 none x = .ok x := by
        intro x hx
        unfold clientWrite
        rw [hx]
      by_cases hq : f.c.out.drop n = []
      · rw [if_pos hq, hcw _ (by exact h3.type)]
        exact ⟨_, rfl, Or.inr ⟨by simpa [hb] using h1, by simp [hb], hop⟩, fun _ => hsrc⟩
      · rw [if_neg hq]
        exact ⟨_, rfl, Or.inr ⟨by simpa [hb] using h1, by simp [hb], hop⟩, fun _ => hsrc⟩
    | data b =>
      simp only [fedBy, Bool.false_eq_true, if_false] at hg ⊢
      rw [(R_append D b).2 hb] at hg
      unfold fcgiRead
      simp only
      have hop : Open env c0 (R D).1 { f with src := f.src ++ b } := ⟨h3.type, ⟨h3.same.host, h3.same.iri⟩, h3.closed, h3.mid⟩
      have := loop_spec env c0 hl h0 (f.src ++ b).length (R D).1 _ hop (Nat.le_refl _) (by
        simp only [hsrc]; exact hg)
      simp only [hsrc] at this ⊢
      obtain ⟨g, e1, e2, e3⟩ := this
      refine ⟨g, e1, ?_⟩
      simp only [After, (R_append D b).2 hb, Bool.or_false]
      refine ⟨e2, fun hx => ?_⟩
      rcases e2 with ⟨k1, -⟩ | ⟨k1, k2, -⟩
      · have k1' : settled ((R D).1 ++ (R ((R D).2.2 ++ b)).1) (R ((R D).2.2 ++ b)).2.1 = true := k1
        rw [k1'] at hx; cases hx
      · refine e3 k2 ?_
        have hx' : settled ((R D).1 ++ (parseApp ((R D).2.2 ++ b).length ((R D).2.2 ++ b)).1) (parseApp ((R D).2.2 ++ b).length ((R D).2.2 ++ b)).2.1 = false := hx
        rw [k2] at hx'
        exact hx'

theorem fedBy_good (evs : List FEv) : ∀ p : Bytes × Bool, GoodCode (R (evs.foldl fedBy p).1).1 → GoodCode (R p.1).1 := by
  induction evs with
  | nil => intro p h; exact h
  | cons ev r ih =>
    intro p h
    have := ih (fedBy p ev) h
    obtain ⟨D, e⟩ := p
    cases ev with
    | eof => exact this
    | flush n => exact this
    | data b =>
      simp only [fedBy] at this
      cases e with
      | true => exact this
      | false => exact R_prefix D b this

theorem run_after (hl : LangOk env c0) (h0 : c0.type = .undecided) (evs : List FEv) : ∀ (p : Bytes × Bool) (f : FClient),
    GoodCode (R (evs.foldl fedBy p).1).1 → After env c0 p.1 p.2 f →
    ∃ g, fcgiRun env evs f = .ok g ∧ After env c0 (evs.foldl fedBy p).1 (evs.foldl fedBy p).2 g := by
  induction evs with
  | nil => intro p f _ h; exact ⟨f, rfl, h⟩
  | cons ev r ih =>
    intro p f hg h
    obtain ⟨g, e, ha⟩ := step_after env c0 hl h0 p.1 p.2 ev f (fedBy_good r _ hg) h
    obtain ⟨g', e', ha'⟩ := ih (fedBy p ev) g hg ha
    refine ⟨g', ?_, ha'⟩
    simp only [fcgiRun, e]
    exact e'

/-- the whole history of a FastCGI request -/
theorem run_reply (hl : LangOk env c0) (h0 : c0.type = .undecided) (hcode : c0.code = 0) (hsent : c0.sent = []) (hout : c0.out = [])
    (hcl : c0.closed = false) (evs : List FEv) (hg : GoodCode (R (evs.foldl fedBy ([], false)).1).1) :
    ∃ g, fcgiRun env evs { c := c0 } = .ok g ∧
      g.c.sent ++ g.c.out = appReply env c0 (R (evs.foldl fedBy ([], false)).1).1
        ((R (evs.foldl fedBy ([], false)).1).2.1 || (evs.foldl fedBy ([], false)).2) := by
  have hi : After env c0 [] false { c := c0 } := by
    have e : R [] = ([], false, []) := by decide
    have eh : hdrOf [] = none := by decide
    refine ⟨Or.inr ⟨?_, ?_, ⟨h0, ⟨rfl, rfl⟩, hcl, Or.inl ⟨?_, ?_, hcode, ?_, ?_⟩⟩⟩, fun _ => ?_⟩
    · rw [e]; decide
    · rw [e]; rfl
    · rw [e]; exact eh
    · rw [e]; decide
    · rw [e]
    · show c0.sent ++ c0.out = []; rw [hsent, hout]; rfl
    · rw [e]
  obtain ⟨g, e, ha⟩ := run_after env c0 hl h0 evs ([], false) _ hg hi
  refine ⟨g, e, ?_⟩
  rcases ha.1 with ⟨-, h⟩ | ⟨-, h2, h⟩
  · exact h.del
  · rw [h2]; exact mid_reply env c0 _ g h.mid

end

/-! ### the specification's terms -/

theorem parseHdr_iff (line : Bytes) (code : Nat) (mt : Bytes) : parseHdr line = some (code, mt) ↔
    ∃ (d1 d2 : UInt8) (text : Bytes), line = d1 :: d2 :: 32 :: text ∧ 48 ≤ d1 ∧ d1 ≤ 57 ∧ 48 ≤ d2 ∧ d2 ≤ 57 ∧
      code = (d1.toNat - 48) * 10 + (d2.toNat - 48) ∧ 10 ≤ code ∧ code < 70 ∧ mt = cstr text := by
  have hdig : ∀ d : UInt8, isDigit d = true ↔ 48 ≤ d ∧ d ≤ 57 := by
    intro d; simp [isDigit]
  constructor
  · intro h
    unfold parseHdr at h
    split at h
    · rename_i a b mt'
      split at h
      · rename_i hd
        simp only at h
        split at h
        · cases h
        · rename_i hc
          simp only [Option.some.injEq, Prod.mk.injEq] at h
          obtain ⟨rfl, rfl⟩ := h
          simp only [Bool.and_eq_true, hdig] at hd
          simp at hc
          exact ⟨a, b, mt', rfl, hd.1.1, hd.1.2, hd.2.1, hd.2.2, rfl, by omega, by omega, rfl⟩
      · cases h
    · cases h
  · rintro ⟨a, b, t, rfl, h1, h2, h3, h4, h5, h6, h7, rfl⟩
    unfold parseHdr
    simp only
    have hd : (isDigit a && isDigit b) = true := by simp only [Bool.and_eq_true, hdig]; exact ⟨⟨h1, h2⟩, h3, h4⟩
    rw [if_pos hd, ← h5, if_neg (by simp; omega)]

theorem hdrOf_iff (o line body : Bytes) : hdrOf o = some (line, body) ↔
    o = line ++ [13, 10] ++ body ∧ NoCrlf line ∧ line.length ≤ 1027 := by
  constructor
  · intro h
    unfold hdrOf at h
    obtain ⟨p, hp, e⟩ := Option.map_eq_some_iff.1 h
    simp only [Prod.mk.injEq] at e
    obtain ⟨rfl, rfl⟩ := e
    obtain ⟨h1, h2⟩ := readLine_some _ p.1 p.2 hp
    refine ⟨?_, h2, ?_⟩
    · conv => lhs; rw [← List.take_append_drop 1029 o, h1]
      simp
    · have := congrArg List.length h1
      simp at this
      omega
  · rintro ⟨rfl, h2, h3⟩
    unfold hdrOf
    have e : (line ++ [13, 10] ++ body).take 1029 = line ++ b%"\r\n" ++ body.take (1029 - (line.length + 2)) := by
      rw [List.take_append, List.take_of_length_le (by simp; omega)]
      simp
    rw [e, readLine_append line _ h2]
    have e2 : (line ++ [13, 10] ++ body).drop 1029 = body.drop (1029 - (line.length + 2)) := by
      rw [List.drop_append, List.drop_of_length_le (by simp; omega)]
      simp
    rw [e2]
    simp

theorem hasHeader_iff (o : Bytes) (code : Nat) (mt : Bytes) :
    (∃ text body, HasHeader o code text body ∧ mt = cstr text) ↔
    ∃ line body, hdrOf o = some (line, body) ∧ parseHdr line = some (code, mt) := by
  constructor
  · rintro ⟨text, body, ⟨d1, d2, a1, a2, a3, a4, a5, a6, a7, a8, a9, a10⟩, rfl⟩
    refine ⟨d1 :: d2 :: 32 :: text, body, (hdrOf_iff _ _ _).2 ⟨by simpa using a10, a9, by simp; omega⟩,
      (parseHdr_iff _ _ _).2 ⟨d1, d2, text, rfl, a1, a2, a3, a4, a5, a6, a7, rfl⟩⟩
  · rintro ⟨line, body, h1, h2⟩
    obtain ⟨k1, k2, k3⟩ := (hdrOf_iff _ _ _).1 h1
    obtain ⟨d1, d2, text, rfl, a1, a2, a3, a4, a5, a6, a7, a8⟩ := (parseHdr_iff _ _ _).1 h2
    exact ⟨text, body, ⟨d1, d2, a1, a2, a3, a4, a5, a6, a7, by simp at k3; omega, k2, by simpa using k1⟩, a8⟩

theorem hasHeader_hdr (o : Bytes) (code : Nat) (text body : Bytes) (h : HasHeader o code text body) :
    ∃ line, hdrOf o = some (line, body) ∧ parseHdr line = some (code, cstr text) := by
  obtain ⟨d1, d2, a1, a2, a3, a4, a5, a6, a7, a8, a9, a10⟩ := h
  exact ⟨d1 :: d2 :: 32 :: text, (hdrOf_iff _ _ _).2 ⟨by simpa using a10, a9, by simp; omega⟩,
      (parseHdr_iff _ _ _).2 ⟨d1, d2, text, rfl, a1, a2, a3, a4, a5, a6, a7, rfl⟩⟩

/-- a record of output at the front of the stream -/
theorem R_record (r : FRec) (h : OutputRec r) (tail : Bytes) :
    R (r.wire ++ tail) = ((if r.type = 6 then r.content else []) ++ (R tail).1, (R tail).2) := by
  obtain ⟨ht, hid, hc, hp⟩ := h
  unfold R
  have e : r.wire ++ tail = r.version :: r.type :: UInt8.ofNat (r.id / 256) :: UInt8.ofNat (r.id % 256) ::
      UInt8.ofNat (r.content.length / 256) :: UInt8.ofNat (r.content.length % 256) :: UInt8.ofNat r.padding.length ::
      r.reserved :: (r.content ++ r.padding ++ tail) := by
    simp [FRec.wire]
  have hl : (r.wire ++ tail).length = (r.content ++ r.padding ++ tail).length + 7 + 1 := by rw [e]; simp
  rw [hl, e]
  have n1 : (UInt8.ofNat (r.content.length % 256)).toNat + (UInt8.ofNat (r.content.length / 256)).toNat * 256 = r.content.length := by
    simp only [UInt8.toNat_ofNat']
    omega
  have n2 : (UInt8.ofNat r.padding.length).toNat = r.padding.length := by
    simp only [UInt8.toNat_ofNat']
    omega
  have n3 : (UInt8.ofNat (r.id % 256)).toNat + (UInt8.ofNat (r.id / 256)).toNat * 256 = 1 := by rw [hid]; decide
  have hf : ∀ n, n ≥ tail.length → parseApp n ((r.content ++ r.padding ++ tail).drop (r.content.length + r.padding.length)) =
      parseApp tail.length tail := by
    intro n hn
    rw [show r.content.length + r.padding.length = (r.content ++ r.padding).length by simp, List.drop_left]
    exact parseApp_fuel _ _ _ hn (Nat.le_refl _)
  have htk : (r.content ++ r.padding ++ tail).take r.content.length = r.content := by
    rw [List.append_assoc, List.take_left]
  conv => lhs; unfold parseApp
  simp only [n1, n2, n3]
  rw [if_neg (by simp), if_neg (by simp)]
  have hff := hf ((r.content ++ r.padding ++ tail).length + 7) (by simp; omega)
  rcases ht with h6 | h7
  · rw [if_neg (by rw [h6]; decide), if_pos h6, if_pos h6, hff, htk]
  · rw [if_pos h7, if_neg (by rw [h7]; decide), hff]; rfl

theorem R_records (rs : List FRec) (h : ∀ r ∈ rs, OutputRec r) (tail : Bytes) :
    R (rs.flatMap FRec.wire ++ tail) = (stdoutOf rs ++ (R tail).1, (R tail).2) := by
  induction rs with
  | nil => rfl
  | cons r rs ih =>
    rw [List.flatMap_cons, List.append_assoc, R_record r (h r (by simp)), ih (fun x hx => h x (by simp [hx]))]
    simp [stdoutOf]

theorem R_end (r : FRec) (h : EndRec r) (tail : Bytes) : (R (r.wire ++ tail)).1 = [] ∧ (R (r.wire ++ tail)).2.1 = true := by
  obtain ⟨ht, hid, hc, hp⟩ := h
  unfold R
  have e : r.wire ++ tail = r.version :: r.type :: UInt8.ofNat (r.id / 256) :: UInt8.ofNat (r.id % 256) ::
      UInt8.ofNat (r.content.length / 256) :: UInt8.ofNat (r.content.length % 256) :: UInt8.ofNat r.padding.length ::
      r.reserved :: (r.content ++ r.padding ++ tail) := by
    simp [FRec.wire]
  have hl : (r.wire ++ tail).length = (r.content ++ r.padding ++ tail).length + 7 + 1 := by rw [e]; simp
  rw [hl, e]
  have n1 : (UInt8.ofNat (r.content.length % 256)).toNat + (UInt8.ofNat (r.content.length / 256)).toNat * 256 = r.content.length := by
    simp only [UInt8.toNat_ofNat']
    omega
  have n2 : (UInt8.ofNat r.padding.length).toNat = r.padding.length := by
    simp only [UInt8.toNat_ofNat']
    omega
  have n3 : (UInt8.ofNat (r.id % 256)).toNat + (UInt8.ofNat (r.id / 256)).toNat * 256 = 1 := by rw [hid]; decide
  unfold parseApp
  simp only [n1, n2, n3]
  rw [if_neg (by simp), if_neg (by simp), if_neg (by rw [ht]; decide), if_neg (by rw [ht]; decide)]
  exact ⟨rfl, rfl⟩

/-- A client whose request was handed to an application: nothing sent yet; the configured language, if any, fits
its 32 byte buffer. -/
structure Asked (env : Env) (c : Client) : Prop where
  type : c.type = .undecided
  code : c.code = 0
  sent : c.sent = []
  out : c.out = []
  openc : c.closed = false
  lang : ∀ mt l, wantedLang env c mt = some l → l.length ≤ 31

/-- What the client must receive for the output `o` of an application that has finished (or failed): the same
header and, for code 20, the body; without a valid header, an error. -/
def ReplyFor (env : Env) (c : Client) (o reply : Bytes) : Prop :=
  (∀ code text body, HasHeader o code text body →
    reply = wantedHeader code (cstr text) (wantedLang env c (cstr text)) ++ b%"\r\n" ++ (if code = 20 then body else [])) ∧
  ((¬ ∃ code text body, HasHeader o code text body) → reply = b%"42 CGI error\r\n")

theorem appReply_for (env : Env) (c : Client) (o : Bytes) : ReplyFor env c o (appReply env c o true) := by
  constructor
  · intro code text body h
    obtain ⟨line, h1, h2⟩ := hasHeader_hdr o code text body h
    simp [appReply, h1, h2, hdrText]
  · intro hno
    unfold appReply
    cases h : hdrOf o with
    | none => simp
    | some p =>
      obtain ⟨line, body⟩ := p
      cases hp : parseHdr line with
      | none => simp only [hp]
      | some q =>
        obtain ⟨code, mt⟩ := q
        obtain ⟨text, body, hh, -⟩ := (hasHeader_iff o code mt).2 ⟨line, body, h, hp⟩
        exact absurd ⟨code, text, body, hh⟩ hno

theorem goodCode_of (o : Bytes) (h : ∀ code text body, HasHeader o code text body → code < 21 ∨ 29 < code) : GoodCode o := by
  intro line body code mt h1 h2
  obtain ⟨text, body, hh, -⟩ := (hasHeader_iff o code mt).2 ⟨line, body, h1, h2⟩
  exact h code text body hh

/-- C29 (partial: status codes 21 to 29 excepted): the application sends any sequence of STDOUT and STDERR records, of any sizes and with
any padding, then END_REQUEST (and perhaps more), or closes the connection after any complete records; the
stream arrives in any pieces, interleaved in any way with data being accepted by the client.  The bytes
delivered to the client depend on the concatenated STDOUT contents only: header and body, unchanged (the configured language
is added to text/gemini), or "42 CGI error". -/
theorem C29_reassembly_partial (env : Env) (c : Client) (h : Asked env c) (rs : List FRec) (hrs : ∀ r ∈ rs, OutputRec r)
    (hcode : ∀ code text body, HasHeader (stdoutOf rs) code text body → code < 21 ∨ 29 < code)
    (evs : List FEv) (tail : Bytes) (fin : Bool)
    (hev : evs.foldl fedBy ([], false) = (rs.flatMap FRec.wire ++ tail, fin))
    (hend : (∃ e junk, EndRec e ∧ tail = e.wire ++ junk) ∨ (tail = [] ∧ fin = true)) :
    ∃ f, fcgiRun env evs { c := c } = .ok f ∧ ReplyFor env c (stdoutOf rs) (f.c.sent ++ f.c.out) := by
  have hR := R_records rs hrs tail
  have hout : (R (rs.flatMap FRec.wire ++ tail)).1 = stdoutOf rs ∧ ((R (rs.flatMap FRec.wire ++ tail)).2.1 || fin) = true := by
    rw [hR]
    rcases hend with ⟨e, junk, he, rfl⟩ | ⟨rfl, rfl⟩
    · obtain ⟨a, b⟩ := R_end e he junk
      simp [a, b]
    · have : R [] = ([], false, []) := by decide
      simp [this]
  obtain ⟨f, h1, h2⟩ := run_reply env c h.lang h.type h.code h.sent h.out h.openc evs (by
    rw [hev]
    show GoodCode (R (rs.flatMap FRec.wire ++ tail)).1
    rw [hout.1]
    exact goodCode_of _ hcode)
  refine ⟨f, h1, ?_⟩
  rw [hev] at h2
  simp only [hout.1, hout.2] at h2
  rw [h2]
  exact appReply_for env c _

/-- C29, while the application goes on: once the header is complete (code 20), everything output so far has
been passed on. -/
theorem C29_streaming (env : Env) (c : Client) (h : Asked env c) (rs : List FRec) (hrs : ∀ r ∈ rs, OutputRec r)
    (text body : Bytes) (hh : HasHeader (stdoutOf rs) 20 text body)
    (evs : List FEv) (hev : evs.foldl fedBy ([], false) = (rs.flatMap FRec.wire, false)) :
    ∃ f, fcgiRun env evs { c := c } = .ok f ∧
      f.c.sent ++ f.c.out = wantedHeader 20 (cstr text) (wantedLang env c (cstr text)) ++ b%"\r\n" ++ body := by
  have hR := R_records rs hrs []
  have e0 : R [] = ([], false, []) := by decide
  rw [e0] at hR
  simp only [List.append_nil] at hR
  obtain ⟨line, k1, k2⟩ := hasHeader_hdr _ _ _ _ hh
  obtain ⟨f, h1, h2⟩ := run_reply env c h.lang h.type h.code h.sent h.out h.openc evs (by
    rw [hev]
    simp only [hR]
    refine goodCode_of _ ?_
    intro code text' body' hx
    obtain ⟨line', j1, j2⟩ := hasHeader_hdr _ _ _ _ hx
    rw [k1] at j1
    simp only [Option.some.injEq, Prod.mk.injEq] at j1
    rw [← j1.1, k2] at j2
    simp only [Option.some.injEq, Prod.mk.injEq] at j2
    omega)
  refine ⟨f, h1, ?_⟩
  rw [hev] at h2
  simp only [hR] at h2
  rw [h2]
  simp [appReply, k1, k2, hdrText]

/-- every stream is a sequence of output records and something else, and the output is theirs -/
theorem parseApp_records (n : Nat) : ∀ s : Bytes, s.length ≤ n →
    ∃ rs tail, (∀ r ∈ rs, OutputRec r) ∧ s = rs.flatMap FRec.wire ++ tail ∧ (parseApp n s).1 = stdoutOf rs := by
  induction n with
  | zero =>
    intro s h
    refine ⟨[], s, by simp, rfl, ?_⟩
    have : s = [] := List.eq_nil_of_length_eq_zero (by omega)
    subst this
    unfold parseApp
    rfl
  | succ n ih =>
    intro s h
    have none' : (parseApp (n + 1) s).1 = [] → ∃ rs tail, (∀ r ∈ rs, OutputRec r) ∧ s = rs.flatMap FRec.wire ++ tail ∧
        (parseApp (n + 1) s).1 = stdoutOf rs := fun e => ⟨[], s, by simp, rfl, e⟩
    by_cases hs : ∃ v ty i1 i0 l1 l0 pad rs rest, s = v :: ty :: i1 :: i0 :: l1 :: l0 :: pad :: rs :: rest
    · obtain ⟨v, ty, i1, i0, l1, l0, pad, rv, rest, rfl⟩ := hs
      simp only [List.length_cons] at h
      by_cases hi : i0.toNat + i1.toNat * 256 ≠ 1
      · apply none'; unfold parseApp; simp only; rw [if_pos hi]
      · by_cases hr : rest.length < l0.toNat + l1.toNat * 256 + pad.toNat
        · apply none'; unfold parseApp; simp only; rw [if_neg hi, if_pos hr]
        · by_cases h76 : ty = 7 ∨ ty = 6
          · obtain ⟨rs, tail, h1, h2, h3⟩ := ih (rest.drop (l0.toNat + l1.toNat * 256 + pad.toNat)) (by simp; omega)
            have b0 := l0.toNat_lt
            have b1 := l1.toNat_lt
            have b2 := pad.toNat_lt
            have c1 : ((rest.take (l0.toNat + l1.toNat * 256))).length = l0.toNat + l1.toNat * 256 := by simp; omega
            have c2 : ((rest.drop (l0.toNat + l1.toNat * 256)).take pad.toNat).length = pad.toNat := by simp; omega
            have hi' : i0 = 1 ∧ i1 = 0 := by
              have := i0.toNat_lt
              constructor
              · exact UInt8.toNat_inj.1 (by show _ = 1; omega)
              · exact UInt8.toNat_inj.1 (by show _ = 0; omega)
            let r : FRec := { version := v, type := ty, id := 1, content := rest.take (l0.toNat + l1.toNat * 256), padding := (rest.drop (l0.toNat + l1.toNat * 256)).take pad.toNat, reserved := rv }
            have hw : r.wire ++ (rest.drop (l0.toNat + l1.toNat * 256 + pad.toNat)) =
                v :: ty :: i1 :: i0 :: l1 :: l0 :: pad :: rv :: rest := by
              have e1 : UInt8.ofNat ((l0.toNat + l1.toNat * 256) / 256) = l1 := by
                apply UInt8.toNat_inj.1
                simp only [UInt8.toNat_ofNat']; omega
              have e2 : UInt8.ofNat ((l0.toNat + l1.toNat * 256) % 256) = l0 := by
                apply UInt8.toNat_inj.1
                simp only [UInt8.toNat_ofNat']; omega
              have e3 : UInt8.ofNat pad.toNat = pad := by
                apply UInt8.toNat_inj.1
                simp only [UInt8.toNat_ofNat']; omega
              simp only [FRec.wire, r, c1, c2, e1, e2, e3, hi'.1, hi'.2]
              simp only [List.cons_append, List.nil_append, List.append_assoc]
              generalize l0.toNat + l1.toNat * 256 = L
              rw [← List.drop_drop, List.take_append_drop, List.take_append_drop]
              rfl
            refine ⟨r :: rs, tail, ?_, ?_, ?_⟩
            · intro x hx
              rcases List.mem_cons.1 hx with rfl | hx
              · exact ⟨h76.symm, rfl, by show (rest.take _).length < _; omega, by show ((rest.drop _).take _).length < _; omega⟩
              · exact h1 x hx
            · rw [List.flatMap_cons, List.append_assoc, ← h2, hw]
            · conv => lhs; unfold parseApp
              simp only
              rw [if_neg hi, if_neg hr]
              by_cases h7 : ty = 7
              · rw [if_pos h7, h3]
                simp [stdoutOf, r, h7]
              · have h6 : ty = 6 := by rcases h76 with h | h; exact absurd h h7; exact h
                rw [if_neg h7, if_pos h6, h3]
                simp [stdoutOf, r, h6]
          · have h7 : ty ≠ 7 := fun e => h76 (Or.inl e)
            have h6 : ty ≠ 6 := fun e => h76 (Or.inr e)
            apply none'; unfold parseApp; simp only; rw [if_neg hi, if_neg hr, if_neg h7, if_neg h6]
    · apply none'
      unfold parseApp
      split
      · exact absurd ⟨_, _, _, _, _, _, _, _, _, rfl⟩ hs
      · rfl

/-- C29: for any stream at all (records of other types, other ids, truncated or garbage), the way it is cut
into pieces, and when the client accepts data, do not change what the client is sent (partial: except if the
output starts with a header whose code is 21 to 29). -/
theorem C29_fragmentation_partial (env : Env) (c : Client) (h : Asked env c) (evs evs' : List FEv) (data : Bytes) (fin : Bool)
    (h1 : evs.foldl fedBy ([], false) = (data, fin)) (h2 : evs'.foldl fedBy ([], false) = (data, fin))
    (hcode : ∀ rs tail, (∀ r ∈ rs, OutputRec r) → data = rs.flatMap FRec.wire ++ tail →
      ∀ code text body, HasHeader (stdoutOf rs) code text body → code < 21 ∨ 29 < code) :
    ∃ f g, fcgiRun env evs { c := c } = .ok f ∧ fcgiRun env evs' { c := c } = .ok g ∧
      f.c.sent ++ f.c.out = g.c.sent ++ g.c.out := by
  have hgc : GoodCode (R data).1 := by
    obtain ⟨rs, tail, k1, k2, k3⟩ := parseApp_records data.length data (Nat.le_refl _)
    unfold R
    rw [k3]
    exact goodCode_of _ (hcode rs tail k1 k2)
  obtain ⟨f, f1, f2⟩ := run_reply env c h.lang h.type h.code h.sent h.out h.openc evs (by rw [h1]; exact hgc)
  obtain ⟨g, g1, g2⟩ := run_reply env c h.lang h.type h.code h.sent h.out h.openc evs' (by rw [h2]; exact hgc)
  exact ⟨f, g, f1, g1, by rw [f2, g2, h1, h2]⟩

/-! ### cases -/

/-- a client that asked, without a configured language -/
def exAsked : Client := { domain := b%"h" }

theorem exAsked_ok : Asked exEnv exAsked := by
  refine ⟨rfl, rfl, rfl, rfl, rfl, ?_⟩
  intro mt l h
  simp [wantedLang, exAsked, vhostLang] at h

def exOut (s : Bytes) : FRec := { type := 6, content := s, padding := [0, 0, 0] }
def exErr (s : Bytes) : FRec := { type := 7, content := s }
def exEndR : FRec := { type := 3, content := [0, 0, 0, 0, 0, 0, 0, 0] }

/-- header split over two records, with an STDERR record between; the hypotheses of `C29_reassembly_partial` hold
and the reply is "20 a/b\r\nhello" -/
example : (∀ r ∈ [exOut b%"20 a", exErr b%"oops", exOut b%"/b\r\nhel", exOut b%"lo"], OutputRec r) ∧ EndRec exEndR ∧
    HasHeader (stdoutOf [exOut b%"20 a", exErr b%"oops", exOut b%"/b\r\nhel", exOut b%"lo"]) 20 b%"a/b" b%"hello" := by
  refine ⟨by unfold OutputRec; decide, by unfold EndRec; decide, c%'2', c%'0', by decide, by decide, by decide, by decide, by decide, by decide, by decide, by decide, ?_, by decide⟩
  intro a b e
  have := (readLine_none b%"20 a/b\r").1 (by decide) a b e
  exact this

example : (match fcgiRun exEnv [.data ((exOut b%"20 a").wire ++ (exErr b%"oops").wire ++ (exOut b%"/b\r\nhel").wire.take 5), .flush 3,
      .data ((exOut b%"/b\r\nhel").wire.drop 5 ++ (exOut b%"lo").wire.take 9), .flush 3, .data ((exOut b%"lo").wire.drop 9 ++ exEndR.wire), .flush 100]
    { c := exAsked } with | .ok f => (f.c.sent ++ f.c.out, f.c.closed) | _ => ([], false)) = (b%"20 a/b\r\nhello", true) := by decide +kernel

/-- C29 fails for the codes 21 to 29: the same output is delivered whole when it comes in one record, but loses
what comes in later records (start_reply marks every reply but 20 as done). -/
theorem C29_code_2x :
    ∃ (a b : List FRec), (∀ r ∈ a ++ b, OutputRec r) ∧ stdoutOf a = stdoutOf b ∧ HasHeader (stdoutOf a) 21 b%"x" b%"hello" ∧
      ∃ f g, fcgiRun exEnv [.data (a.flatMap FRec.wire ++ exEndR.wire)] { c := exAsked } = .ok f ∧
        fcgiRun exEnv [.data (b.flatMap FRec.wire ++ exEndR.wire)] { c := exAsked } = .ok g ∧
        f.c.sent ++ f.c.out = b%"21 x\r\nhello" ∧ g.c.sent ++ g.c.out = b%"21 x\r\nhel" := by
  have hok : ∀ (evs : List FEv) (o : Bytes), (match fcgiRun exEnv evs { c := exAsked } with | .ok f => some (f.c.sent ++ f.c.out) | _ => none) = some o →
      ∃ f, fcgiRun exEnv evs { c := exAsked } = .ok f ∧ f.c.sent ++ f.c.out = o := by
    intro evs o h
    split at h
    · rename_i f hf
      exact ⟨f, hf, by simpa using h⟩
    · cases h
  refine ⟨[exOut b%"21 x\r\nhello"], [exOut b%"21 x\r\nhel", exOut b%"lo"], by unfold OutputRec; decide, by decide, ?_, ?_⟩
  · refine ⟨c%'2', c%'1', by decide, by decide, by decide, by decide, by decide, by decide, by decide, by decide, ?_, by decide⟩
    intro a b e
    exact (readLine_none b%"21 x\r").1 (by decide) a b e
  · obtain ⟨f, f1, f2⟩ := hok [.data ([exOut b%"21 x\r\nhello"].flatMap FRec.wire ++ exEndR.wire)] b%"21 x\r\nhello" (by decide +kernel)
    obtain ⟨g, g1, g2⟩ := hok [.data ([exOut b%"21 x\r\nhel", exOut b%"lo"].flatMap FRec.wire ++ exEndR.wire)] b%"21 x\r\nhel" (by decide +kernel)
    exact ⟨f, g, f1, g1, f2, g2⟩

end Gmid.Props
