import Verif.Lemmas.Server
import Verif.Lemmas.CStr

/-! # C21 (reply headers), C23 (block return text) -/

set_option autoImplicit false

namespace Gmid.Props
open Spec

/-! ## C21 -/

/-- the header the caller asked for: code, space, meta, and the language when there is one to add -/
def wantedHeader (code : Int) (mt : Bytes) (lang : Option Bytes) : Bytes :=
  match lang with
  | none => intDec code ++ b%" " ++ mt
  | some l => intDec code ++ b%" " ++ mt ++ b%";lang=" ++ l

/-- the language to add: only to text/gemini, and not to relayed or FastCGI replies -/
def wantedLang (env : Env) (c : Client) (mt : Bytes) : Option Bytes :=
  if c.type ≠ .fcgi ∧ c.type ≠ .proxy ∧ mt = b%"text/gemini" then
    vhostLang env.fnm c.host (c.iri.map (·.path)) else none

/-- C21: start_reply queues exactly one header line, which is the wanted one if that has at most
1027 bytes (1029 with CRLF); otherwise everything queued before is dropped and the only bytes left
are the line "40 internal error".  Nothing is ever truncated. -/
theorem C21_reply_header (env : Env) (c : Client) (code : Int) (mt : Bytes) :
    let w := wantedHeader code mt (wantedLang env c mt)
    let c' := startReply env c code mt
    (w.length ≤ 1027 → c'.out = c.out ++ w ++ b%"\r\n" ∧ c'.code = code ∧
      c'.type = (if code = 20 then c.type else .done)) ∧
    (1027 < w.length → c'.out = b%"40 internal error\r\n" ∧ c'.code = 40 ∧ c'.type = .done) := by
  have hlang : (if c.type ≠ .fcgi && c.type ≠ .proxy && mt = b%"text/gemini" then
        vhostLang env.fnm c.host c.path? else none) = wantedLang env c mt := by
    unfold wantedLang Client.path?
    by_cases h : c.type ≠ .fcgi ∧ c.type ≠ .proxy ∧ mt = b%"text/gemini"
    · rw [if_pos h, if_pos]; simp [h]
    · rw [if_neg h, if_neg]; simpa [and_assoc] using h
  have hov : (replyOverflow env c).out = b%"40 internal error\r\n" ∧ (replyOverflow env c).code = 40 ∧
      (replyOverflow env c).type = .done := by
    simp [replyOverflow, queueHeader]
  have hq : ∀ h, (queueHeader env c code mt h).out = c.out ++ h ++ b%"\r\n" ∧
      (queueHeader env c code mt h).code = code ∧
      (queueHeader env c code mt h).type = (if code = 20 then c.type else .done) := by
    intro h
    refine ⟨rfl, rfl, ?_⟩
    by_cases h20 : code = 20 <;> simp [queueHeader, h20]
  simp only
  unfold startReply
  simp only
  rw [hlang]
  cases hl : wantedLang env c mt with
  | none =>
    simp only [wantedHeader]
    have e : intDec code ++ b%" " ++ mt = intDec code ++ c%' ' :: mt := by simp
    rw [e]
    constructor
    · intro h; rw [if_neg (by omega)]; exact hq _
    · intro h; rw [if_pos h]; exact hov
  | some l =>
    simp only [wantedHeader]
    have e : intDec code ++ b%" " ++ mt ++ b%";lang=" ++ l = intDec code ++ c%' ' :: mt ++ b%";lang=" ++ l := by simp
    rw [e]
    constructor
    · intro h
      rw [if_neg (by simp at h ⊢; omega), if_neg (by omega)]; exact hq _
    · intro h
      split
      · exact hov
      · exact hov

/-- C21: so a complete header line with its CRLF never exceeds 1029 bytes. -/
theorem C21_bounded (env : Env) (c : Client) (code : Int) (mt : Bytes) (h : c.out = []) :
    (startReply env c code mt).out.length ≤ 1029 := by
  have := C21_reply_header env c code mt
  simp only at this
  by_cases hw : (wantedHeader code mt (wantedLang env c mt)).length ≤ 1027
  · rw [(this.1 hw).1, h]; simp; omega
  · rw [(this.2 (by omega)).1]; simp

/-- the decimal text of a status code is its numeral -/
theorem C21_code_text (n : Nat) : Numeral n (intDec n) := by
  rw [intDec_pos]; exact natDec_numeral n

/-! ### examples -/

/-- an environment in which every external call fails -/
def exEnv : Env where
  fnm := fun p s => p == b%"*" || p == s
  isAddr := fun _ => false
  puny := some
  certProvided := false
  verify := fun _ => 0
  relayConnect := fun _ => false
  relayInit := fun _ => false
  nFcgi := 0
  fcgiConnect := fun _ => false
  fcgiBev := false
  openat := fun _ _ => none
  fstat := fun _ => none
  scandir := fun _ _ => none
  mimes := []
  port := 1965
  addrName := b%"127.0.0.1"
  hosts := []

def exVhost : Vhost := { domain := b%"h", dflt := { lang := b%"it", dirfd := 3 } }
def exIriPath (p : Bytes) : Iri :=
  { schema := b%"gemini", host := b%"h", port := [], portNo := 1965, path := p, query := [], fragment := [] }

example : (startReply exEnv { host := some exVhost, iri := some (exIriPath b%"x") } 20 b%"text/gemini").out =
    b%"20 text/gemini;lang=it\r\n" := by decide +kernel
example : (startReply exEnv {} 31 (List.replicate 1024 c%'x')).out.length = 1029 := by decide +kernel
example : (startReply exEnv {} 31 (List.replicate 1025 c%'x')).out = b%"40 internal error\r\n" := by
  decide +kernel

/-! ## C23 -/

theorem catS_take (n : Nat) (x s : Bytes) : catS n (x.take (n - 1)) s = (x ++ s).take (n - 1) := by
  unfold catS
  split
  · rename_i h
    have hx : x.length < n - 1 := by simp at h; omega
    rw [List.take_of_length_le (Nat.le_of_lt hx)]
  · rename_i h
    have hx : n - 1 ≤ x.length := by simp at h; omega
    rw [List.take_append_of_le_length hx]

/-- the string-level `strlcat` used in fmtbuf is what the memory-level one does -/
theorem C23_strlcat_model (m t src : Bytes) (n : Nat) (hn : 0 < n) (hm : n ≤ m.length)
    (h0 : (0 : UInt8) ∉ t) (hs0 : (0 : UInt8) ∉ src) (ht : t.length < n) (m1 : Bytes)
    (hb : boxed m n t m1) :
    ∃ m', strlcat m1 src n = some (m', t.length + src.length) ∧ boxed m n (t ++ src) m' ∧
      cstr m' = catS n t src := by
  obtain ⟨m', h1, h2⟩ := boxed_strlcat m t src n hn hm m1 hb h0 ht
  refine ⟨m', h1, h2, ?_⟩
  rw [boxed_cstr m _ m' n h2 (by simp [h0, hs0])]
  have := catS_take n t src
  rw [List.take_of_length_le (by omega)] at this
  exact this.symm

theorem fmtLoop_lit (n : Nat) (path query name : Bytes) (port : Int) (buf tmp : Bytes) (c : UInt8) (r : Bytes)
    (h : c ≠ 37) : fmtLoop n path query name port buf tmp (c :: r) =
      if tmp.length = 31 then fmtLoop n path query name port (catS n buf tmp) [c] r
      else fmtLoop n path query name port buf (tmp ++ [c]) r := by
  rw [fmtLoop]
  exact h

theorem fmtLoop_spec (n : Nat) (path query name : Bytes) (port : Nat) (hp : port < 32768)
    (fmt out : Bytes) (h : Expands path query name (natDec port) fmt out) (x tmp : Bytes) :
    fmtLoop n path query name port (x.take (n - 1)) tmp fmt = .ok ((x ++ tmp ++ out).take (n - 1)) := by
  have hport : (intDec (port : Int)).take 31 = natDec port := by
    rw [intDec_pos]
    refine List.take_of_length_le ?_
    have key : ∀ m k : Nat, k < 10 ^ (m + 1) → (natDec k).length ≤ m + 1 := by
      intro m
      induction m with
      | zero => intro k hk; rw [natDec_small k (by simpa using hk)]; simp
      | succ m ih =>
        intro k hk
        by_cases hs : k < 10
        · rw [natDec_small k hs]; simp
        · rw [natDec_step k (by omega)]
          have : k / 10 < 10 ^ (m + 1) := by rw [Nat.pow_succ] at hk; omega
          have := ih _ this
          simp; omega
    have := key 4 port (by omega)
    omega
  induction h generalizing x tmp with
  | nil =>
    rw [fmtLoop]
    split
    · rw [catS_take]; simp
    · rename_i h0
      have : tmp = [] := by simpa using h0
      simp [this]
  | lit c f o hc _ ih =>
    rw [fmtLoop_lit _ _ _ _ _ _ _ _ _ hc]
    split
    · rw [catS_take, ih]; simp
    · rw [ih]; simp
  | pct f o _ ih => simp only [List.cons_append, List.nil_append]; rw [fmtLoop]; simp only [catS_take]; rw [ih]; simp
  | path f o _ ih =>
    simp only [List.cons_append, List.nil_append]; rw [fmtLoop]
    by_cases hh : hd path = 47
    · have : path.head? = some 47 := by
        cases path with
        | nil => simp at hh
        | cons y ys => simpa using hh
      simp only [catS_take, hh, this, if_true, ne_eq, not_true_eq_false, if_false]; rw [ih]; simp
    · have : ¬ path.head? = some 47 := by
        cases path with
        | nil => simp
        | cons y ys => simpa using hh
      simp only [catS_take, hh, this, ne_eq, not_false_eq_true, if_true, if_false]; rw [ih]; simp
  | query f o _ ih => simp only [List.cons_append, List.nil_append]; rw [fmtLoop]; simp only [catS_take]; rw [ih]; simp
  | port f o _ ih => simp only [List.cons_append, List.nil_append]; rw [fmtLoop]; simp only [hport, catS_take]; rw [ih]; simp
  | name f o _ ih => simp only [List.cons_append, List.nil_append]; rw [fmtLoop]; simp only [catS_take]; rw [ih]; simp

/-- C23: a block return format is expanded as specified and truncated to the buffer (`n` bytes with
the terminator), independently of the 32-byte scratch buffer; for local ports up to 32767. -/
theorem C23_expansion_partial (n : Nat) (fmt out path query name : Bytes) (port : Nat) (hp : port < 32768)
    (h : ∃ ds, Numeral port ds ∧ Expands path query name ds fmt out) :
    fmtbuf n fmt path query name (int16 port) = .ok (out.take (n - 1)) := by
  rw [show int16 port = (port : Int) by simp [int16, hp]]
  obtain ⟨ds, hds, he⟩ := h
  have hu : ds = natDec port := by
    exact numeral_unique port ds hds
  subst hu
  have := fmtLoop_spec n path query name port hp fmt out he [] []
  simpa [fmtbuf] using this

/-- C23, what is missing: a listening port above 32767 is printed as a negative number, because it
is stored in a signed 16 bit member. -/
theorem C23_high_port_wrong :
    (fmtbuf 1027 b%"gemini://%N:%P%p?%q" b%"a" b%"q" b%"h" (int16 40000)).val? =
      some b%"gemini://h:-25536/a?q" := by decide +kernel

/-- the same expansion with a small port is as specified -/
example : Expands b%"a/b" b%"q" b%"h" b%"1965" b%"gemini://%N:%P%p?%q 100%%" b%"gemini://h:1965/a/b?q 100%" ∧
    (fmtbuf 1027 b%"gemini://%N:%P%p?%q 100%%" b%"a/b" b%"q" b%"h" (int16 1965)).val? =
      some b%"gemini://h:1965/a/b?q 100%" := by
  refine ⟨?_, by decide +kernel⟩
  repeat first
    | exact .nil
    | exact .pct [] [] .nil
    | refine .lit _ _ _ (by decide) ?_
    | refine .name b%":%P%p?%q 100%%" _ ?_
    | refine .port b%"%p?%q 100%%" _ ?_
    | refine .path b%"?%q 100%%" b%"?q 100%" ?_
    | refine .query b%" 100%%" _ ?_
example : Numeral 1965 b%"1965" := ⟨by simp, by simp, by simp [decimal], by simp⟩

theorem checkBlockFmt_lit (c : UInt8) (r : Bytes) (h : c ≠ 37) : checkBlockFmt (c :: r) = checkBlockFmt r := by
  rw [checkBlockFmt]; exact h

/-- C23: the formats the configuration parser accepts are exactly those that have an expansion, so
expanding an accepted format is always defined. -/
theorem C23_accepted_formats (path query name ds fmt : Bytes) :
    checkBlockFmt fmt = .ok true ↔ ∃ out, Expands path query name ds fmt out := by
  constructor
  · intro h
    induction hn : fmt.length using Nat.strongRecOn generalizing fmt with
    | ind n ih =>
      cases fmt with
      | nil => exact ⟨[], .nil⟩
      | cons c r =>
        by_cases hc : c = 37
        · subst hc
          cases r with
          | nil => simp [checkBlockFmt] at h
          | cons d r =>
            have rec' : checkBlockFmt r = .ok true → ∃ out, Expands path query name ds r out :=
              fun h => ih r.length (by rw [← hn]; simp only [List.length_cons]; omega) r h rfl
            unfold checkBlockFmt at h
            simp only at h
            split at h
            · rename_i heq; cases heq
            · rename_i heq; cases heq; obtain ⟨o, ho⟩ := rec' h; exact ⟨_, .pct _ _ ho⟩
            · rename_i heq; cases heq; obtain ⟨o, ho⟩ := rec' h; exact ⟨_, .path _ _ ho⟩
            · rename_i heq; cases heq; obtain ⟨o, ho⟩ := rec' h; exact ⟨_, .query _ _ ho⟩
            · rename_i heq; cases heq; obtain ⟨o, ho⟩ := rec' h; exact ⟨_, .port _ _ ho⟩
            · rename_i heq; cases heq; obtain ⟨o, ho⟩ := rec' h; exact ⟨_, .name _ _ ho⟩
            · split at h <;> simp at h
        · rw [checkBlockFmt_lit c r hc] at h
          obtain ⟨o, ho⟩ := ih r.length (by rw [← hn]; simp) r h rfl
          exact ⟨_, .lit c _ _ hc ho⟩
  · rintro ⟨out, h⟩
    induction h with
    | nil => rfl
    | lit c f o hc _ ih => rw [checkBlockFmt_lit c f hc]; exact ih
    | pct f o _ ih => simpa [checkBlockFmt] using ih
    | path f o _ ih => simpa [checkBlockFmt] using ih
    | query f o _ ih => simpa [checkBlockFmt] using ih
    | port f o _ ih => simpa [checkBlockFmt] using ih
    | name f o _ ih => simpa [checkBlockFmt] using ih

example : checkBlockFmt b%"gone: %p" = .ok true ∧ checkBlockFmt b%"%x" = .ok false := by decide

end Gmid.Props
