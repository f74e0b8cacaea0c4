import Verif.Model.Vis
import Verif.Model.Iri
import Verif.Spec.Vis
import Verif.Spec.Server
import Verif.Lemmas.CStr
import Verif.Lemmas.Server

/-!
# C49 C50 C63: the request log
-/

set_option autoImplicit false

namespace Gmid.Props

open Spec

/-- the encoding of one byte -/
def visEnc (c : UInt8) : Bytes := visChar c visLog 0

theorem visChar_next (c n : UInt8) : visChar c visLog n = visEnc c := by
  simp [visEnc, visChar, visLog]

theorem visEnc_facts : ∀ c : UInt8, (visEnc c).length ≤ 4 ∧ 1 ≤ (visEnc c).length ∧ (∀ x ∈ visEnc c, Graphic x) ∧
    (isVisible c visLog = true → visEnc c = if c = 34 ∨ c = 92 then [92, c] else [c]) := by decide +kernel

theorem visEnc_shape : ∀ c : UInt8,
    (visEnc c = [c] ∧ c ≠ 92 ∧ c ≠ 34) ∨ (visEnc c = [92, 92] ∧ c = 92) ∨ (visEnc c = [92, 34] ∧ c = 34) ∨
    (visEnc c = [92, octDigit (c.toNat / 64), octDigit (c.toNat / 8), octDigit c.toNat] ∧
      octDigit (c.toNat / 64) ∈ b%"0123" ∧ octDigit (c.toNat / 8) ∈ b%"01234567" ∧ octDigit c.toNat ∈ b%"01234567" ∧
      (octDigit (c.toNat / 64) - 48) * 64 + (octDigit (c.toNat / 8) - 48) * 8 + (octDigit c.toNat - 48) = c) ∨
    (visEnc c = [92, 94, if c = 127 then 63 else c + 64] ∧ ctrlOf (if c = 127 then 63 else c + 64) = c) ∨
    (visEnc c = [92, 77, 45, c - 128]) ∨
    (visEnc c = [92, 77, 94, if c = 255 then 63 else c - 64] ∧ ctrlOf (if c = 255 then 63 else c - 64) + 128 = c) := by
  decide +kernel

theorem unvis_enc (c : UInt8) (t : Bytes) : unvis (visEnc c ++ t) = (unvis t).map (c :: ·) := by
  rcases visEnc_shape c with ⟨h, h1, _⟩ | ⟨h, h1⟩ | ⟨h, h1⟩ | ⟨h, h1, h2, h3, h4⟩ | ⟨h, h1⟩ | h | ⟨h, h1⟩
  · rw [h]
    simp only [List.cons_append, List.nil_append]
    conv => lhs; unfold unvis
    split <;> simp_all
  · subst h1; rw [h]; simp [unvis]
  · subst h1; rw [h]; simp [unvis]
  · rw [h]
    generalize octDigit (c.toNat / 64) = x at *
    generalize octDigit (c.toNat / 8) = y at *
    generalize octDigit c.toNat = z at *
    simp only [List.cons_append, List.nil_append]
    have hx : x ≠ 92 ∧ x ≠ 34 ∧ x ≠ 94 ∧ x ≠ 77 := by
      have : ∀ x : UInt8, x ∈ b%"0123" → x ≠ 92 ∧ x ≠ 34 ∧ x ≠ 94 ∧ x ≠ 77 := by decide +kernel
      exact this x h1
    obtain ⟨a1, a2, a3, a4⟩ := hx
    rw [unvis, if_pos ⟨h1, h2, h3⟩, h4] <;> simp_all
  · rw [h]
    simp only [List.cons_append, List.nil_append, unvis, h1]
  · rw [h]
    simp only [List.cons_append, List.nil_append, unvis]
    simp
  · rw [h]
    simp only [List.cons_append, List.nil_append, unvis, h1]

/-- the loop of strnvis stores the encodings of a prefix of the source -/
theorem strnvisLoop_eq (s : Bytes) : ∀ room : Nat, ∃ p q : Bytes, s = p ++ q ∧
    (strnvisLoop visLog room s).1 = p.flatMap visEnc ∧ (p.flatMap visEnc).length ≤ room ∧
    (∀ x, q.head? = some x → room < (p.flatMap visEnc).length + (visEnc x).length) := by
  induction s with
  | nil => intro room; refine ⟨[], [], rfl, ?_, by simp, by simp⟩; unfold strnvisLoop; rfl
  | cons c s ih =>
    intro room
    obtain ⟨h4, h1, _, hv⟩ := visEnc_facts c
    cases room with
    | zero =>
      refine ⟨[], c :: s, rfl, by unfold strnvisLoop; rfl, by simp, ?_⟩
      intro x hx; simp at hx; subst hx; simp; omega
    | succ room =>
      -- one step: either the encoding fits or the loop stops
      have step : (strnvisLoop visLog (room + 1) (c :: s)).1 =
          if (visEnc c).length ≤ room + 1 then visEnc c ++ (strnvisLoop visLog (room + 1 - (visEnc c).length) s).1 else [] := by
        conv => lhs; unfold strnvisLoop
        by_cases hvis : isVisible c visLog = true
        · have he := hv hvis
          rw [if_pos hvis]
          by_cases hq : c = 34 ∨ c = 92
          · rw [if_pos hq] at he
            have hq' : (((c = c%'"') : Bool) && visLog.dq || ((c = c%'\\') : Bool) && !visLog.noslash) = true := by
              rcases hq with rfl | rfl <;> decide
            rw [if_pos hq', he]
            by_cases hr : room = 0
            · subst hr; simp
            · rw [if_neg hr, if_pos (by simp; omega)]
              simp
          · rw [if_neg hq] at he
            have hq' : ¬ (((c = c%'"') : Bool) && visLog.dq || ((c = c%'\\') : Bool) && !visLog.noslash) = true := by
              simp only [not_or] at hq
              simp [visLog, hq.1, hq.2]
            rw [if_neg hq', he]
            simp
        · rw [if_neg hvis]
          simp only [visChar_next]
          split <;> simp
      by_cases hf : (visEnc c).length ≤ room + 1
      · obtain ⟨p, q, e1, e2, e3, e4⟩ := ih (room + 1 - (visEnc c).length)
        refine ⟨c :: p, q, by rw [e1]; rfl, by rw [step, if_pos hf, e2]; rfl, ?_, ?_⟩
        · simp only [List.flatMap_cons, List.length_append]; omega
        · intro x hx
          have := e4 x hx
          simp only [List.flatMap_cons, List.length_append]; omega
      · refine ⟨[], c :: s, rfl, by rw [step, if_neg hf]; rfl, by simp, ?_⟩
        intro x hx; simp at hx; subst hx; simp; omega

theorem unvis_flatMap (p : Bytes) : unvis (p.flatMap visEnc) = some p := by
  induction p with
  | nil => simp [unvis]
  | cons c p ih => rw [List.flatMap_cons, unvis_enc, ih]; rfl

theorem graphic_flatMap (p : Bytes) : ∀ x ∈ p.flatMap visEnc, Graphic x := by
  intro x hx
  obtain ⟨c, _, h⟩ := List.mem_flatMap.1 hx
  exact (visEnc_facts c).2.2.1 x h

theorem quotes_flatMap (p : Bytes) (hp : ∀ x ∈ p, 32 ≤ x ∧ x < 128) : QuotesEscaped (p.flatMap visEnc) := by
  have plain : ∀ (x : UInt8) (t : Bytes), x ≠ 92 → x ≠ 34 → QuotesEscaped t → QuotesEscaped (x :: t) := by
    intro x t h1 h2 ht
    cases t with
    | nil => exact ⟨h2, h1⟩
    | cons y t => simp only [QuotesEscaped, if_neg h1]; exact ⟨h2, ht⟩
  have esc : ∀ (x : UInt8) (t : Bytes), QuotesEscaped t → QuotesEscaped (92 :: x :: t) := by
    intro x t ht
    simp only [QuotesEscaped, if_true]; exact ht
  induction p with
  | nil => trivial
  | cons c p ih =>
    replace ih := ih (fun x hx => hp x (List.mem_cons_of_mem _ hx))
    rw [List.flatMap_cons]
    have hgl : ∀ c : UInt8, 32 ≤ c ∧ c < 128 → (visEnc c = [c] ∧ c ≠ 92 ∧ c ≠ 34) ∨
        (∃ x ∈ visEnc c, ∃ t ∈ [((visEnc c).drop 2)], visEnc c = 92 :: x :: t ∧ ∀ y ∈ t, y ≠ 92 ∧ y ≠ 34) := by decide +kernel
    rcases hgl c (hp c (List.mem_cons_self ..)) with ⟨h, h1, h2⟩ | ⟨x, _, t, ht', h, ht⟩
    · rw [h]; exact plain c _ h1 h2 ih
    · rw [h]
      refine esc x _ ?_
      change QuotesEscaped (t ++ p.flatMap visEnc)
      clear h ht'
      induction t with
      | nil => exact ih
      | cons y t iht =>
        exact plain y _ (ht y (List.mem_cons_self ..)).1 (ht y (List.mem_cons_self ..)).2
          (iht (fun z hz => ht z (List.mem_cons_of_mem _ hz)))

/-- **C50** For every destination of at least one byte and every source string, strnvis with the
flags used by gmid stays inside the destination, leaves its size unchanged, and stores a terminated
string of graphic ASCII characters which decodes to a prefix `p` of the source and in which every
double quote is escaped (provided the source is printable ASCII: see `C50_quote_unescaped`); if `p` is not all of it, the next byte of the source did not fit. -/
theorem C50_strnvis (m src : Bytes) (hm : 0 < m.length) :
    ∃ m' p q, strnvis m src visLog = some m' ∧ m'.length = m.length ∧ (0 : UInt8) ∈ m' ∧ src = p ++ q ∧
      unvis (cstr m') = some p ∧ (∀ x ∈ cstr m', Graphic x) ∧
      ((∀ x ∈ src, 32 ≤ x ∧ x < 128) → QuotesEscaped (cstr m')) ∧
      (q ≠ [] → m.length ≤ (cstr m').length + 4) ∧
      m'.drop ((cstr m').length + 1) = m.drop ((cstr m').length + 1) := by
  obtain ⟨p, q, e1, e2, e3, e4⟩ := strnvisLoop_eq src (m.length - 1)
  have h0 : (0 : UInt8) ∉ p.flatMap visEnc := by
    intro h
    have := (graphic_flatMap p 0 h).1
    revert this; decide
  have hc : cstr (p.flatMap visEnc ++ 0 :: m.drop ((p.flatMap visEnc).length + 1)) = p.flatMap visEnc :=
    cstr_append _ _ h0
  refine ⟨p.flatMap visEnc ++ 0 :: m.drop ((p.flatMap visEnc).length + 1), p, q, ?_, ?_, ?_, e1, ?_, ?_, ?_, ?_, ?_⟩
  · unfold strnvis
    rw [if_neg (by omega)]
    simp only [e2]
    rw [if_pos (by omega)]
  · simp only [List.length_append, List.length_cons, List.length_drop]; omega
  · simp
  · rw [hc]; exact unvis_flatMap p
  · rw [hc]; exact graphic_flatMap p
  · intro ha; rw [hc]; exact quotes_flatMap p (fun x hx => ha x (by rw [e1]; simp [hx]))
  · intro hq
    rw [hc]
    cases q with
    | nil => exact absurd rfl hq
    | cons x q =>
      have := e4 x rfl
      have := (visEnc_facts x).1
      omega
  · rw [hc]
    rw [List.drop_append]
    simp

/-- **C50** The byte 0xA2 is stored as `\M-"`: its double quote ends a quoted string. -/
theorem C50_quote_unescaped : strnvis (List.replicate 8 0) [0xa2] visLog = some (b%"\\M-\"" ++ List.replicate 4 0) ∧
    ¬ QuotesEscaped b%"\\M-\"" := by
  constructor
  · decide +kernel
  · simp [QuotesEscaped]

/-- **C50** A destination four times the size of the source (and one more byte) takes all of it. -/
theorem C50_strnvis_complete (m src : Bytes) (hm : 4 * src.length < m.length) :
    ∃ m', strnvis m src visLog = some m' ∧ unvis (cstr m') = some src := by
  obtain ⟨m', p, q, h1, h2, _, h3, h4, _, _, h5, _⟩ := C50_strnvis m src (by omega)
  refine ⟨m', h1, ?_⟩
  cases q with
  | nil => simpa [h3] using h4
  | cons x q =>
    exfalso
    -- the encoding of `p` has at most 4 * p.length bytes
    obtain ⟨p', q', e1, e2, e3, e4⟩ := strnvisLoop_eq src (m.length - 1)
    have hlen : ∀ l : Bytes, (l.flatMap visEnc).length ≤ 4 * l.length := by
      intro l
      induction l with
      | nil => simp
      | cons c l ih =>
        have := (visEnc_facts c).1
        simp only [List.flatMap_cons, List.length_append, List.length_cons]; omega
    have hm' : cstr m' = p'.flatMap visEnc := by
      unfold strnvis at h1
      rw [if_neg (by omega)] at h1
      simp only [e2] at h1
      rw [if_pos (by omega)] at h1
      injection h1 with h1
      rw [← h1]
      refine cstr_append _ _ ?_
      intro h
      have := (graphic_flatMap p' 0 h).1
      revert this; decide
    rw [hm', unvis_flatMap] at h4
    injection h4 with h4
    subst h4
    have hq : q' = x :: q := List.append_cancel_left (e1.symm.trans h3)
    subst hq
    have := e4 x rfl
    have a := (visEnc_facts x).1
    have b := hlen p'
    have : src.length = p'.length + (q.length + 1) := by rw [e1]; simp
    omega

/-- the hypotheses are met: an embedded quote and a line break -/
example : strnvis (List.replicate 12 0) [65, 34, 10, 66, 67] visLog =
    some (b%"A\\\"\\^JBC" ++ List.replicate 4 0) := by decide +kernel
/-- truncation -/
example : strnvis (List.replicate 4 0) [65, 66, 34] visLog = some [65, 66, 0, 0] := by decide +kernel

/-! ### the log line -/

theorem strstr_prefix (n s t : Bytes) (h : strstr n s = some t) : ∃ a, s = a ++ t ∧ n <+: t := by
  induction s with
  | nil =>
    simp only [strstr] at h
    split at h
    · injection h with h; subst h
      rename_i hn
      exact ⟨[], rfl, by simp_all⟩
    · cases h
  | cons c s ih =>
    simp only [strstr] at h
    split at h
    · rename_i hp
      injection h with h; subst h
      exact ⟨[], rfl, List.isPrefixOf_iff_prefix.1 hp⟩
    · obtain ⟨a, e, hp⟩ := ih h
      exact ⟨c :: a, by rw [e]; rfl, hp⟩

/-- Everything in the log line other than the certificate is free of control characters. -/
structure LogClean (l : LogIn) : Prop where
  rhost : ∀ x ∈ l.rhost, ¬ Control x
  rserv : ∀ x ∈ l.rserv, ¬ Control x
  schema : ∀ s, l.schema = some s → ∀ x ∈ s, ¬ Control x
  domain : ∀ x ∈ l.domain, ¬ Control x
  host : ∀ x ∈ l.host, ¬ Control x
  path : ∀ x ∈ l.path, ¬ Control x
  query : ∀ x ∈ l.query, ¬ Control x
  req : ∀ s, l.schema = none → l.req = some s → ∀ x ∈ s, ¬ Control x
  mt : ∀ x ∈ l.mt, ¬ Control x
  tstamp : ∀ x ∈ l.tstamp, ¬ Control x
  rfc3339 : ∀ x ∈ l.rfc3339, ¬ Control x

theorem logCn_ok (l : LogIn) : ∃ cn, logCn l = some cn ∧ ∀ x ∈ cn, Graphic x := by
  unfold logCn
  have hd : ∀ x ∈ b%"-", Graphic x := by decide +kernel
  split
  · exact ⟨_, rfl, hd⟩
  · split
    · exact ⟨_, rfl, hd⟩
    · rename_i subj _ _ _ _
      obtain ⟨m', p, q, h1, _, _, _, _, h2, _⟩ := C50_strnvis (c%'-' :: List.replicate 63 0)
        ((cpyN 64 (subj.drop 4)).takeWhile (· ≠ c%'/')) (by simp)
      refine ⟨cstr m', ?_, h2⟩
      simp only [h1, Option.map_some]

theorem intDec_clean (n : Int) : ∀ x ∈ intDec n, ¬ Control x := by
  have hd : ∀ x : UInt8, x ∈ b%"-0123456789" → ¬ Control x := by decide +kernel
  intro x hx
  apply hd
  have hn := (natDec_numeral n.natAbs).2.1
  unfold intDec at hx
  split at hx
  · rcases List.mem_cons.1 hx with rfl | h
    · decide +kernel
    · exact List.mem_cons_of_mem _ (hn x h)
  · exact List.mem_cons_of_mem _ (hn x hx)

theorem mem_cat {n : Nat} {a b : Bytes} {P : UInt8 → Prop} (ha : ∀ x ∈ a, P x) (hb : ∀ x ∈ b, P x) :
    ∀ x ∈ catN n a b, P x := by
  intro x hx
  rcases List.mem_append.1 (List.mem_of_mem_take hx) with h | h
  · exact ha x h
  · exact hb x h

theorem logIri_clean (l : LogIn) (h : LogClean l) : ∀ x ∈ logIri l, ¬ Control x := by
  have k1 : ∀ x ∈ b%"://", ¬ Control x := by decide +kernel
  have k2 : ∀ x ∈ b%"/", ¬ Control x := by decide +kernel
  have k3 : ∀ x ∈ b%"?", ¬ Control x := by decide +kernel
  unfold logIri
  split
  · rename_i sch hs
    have a1 : ∀ x ∈ catN 1027 (cpyN 1027 sch) b%"://", ¬ Control x :=
      mem_cat (fun x hx => h.schema sch hs x (List.mem_of_mem_take hx)) k1
    have a2 : ∀ x ∈ catN 1027 (catN 1027 (cpyN 1027 sch) b%"://") (if l.domain ≠ [] then l.domain else l.host),
        ¬ Control x := by
      refine mem_cat a1 ?_
      split
      · exact h.domain
      · exact h.host
    dsimp only
    generalize catN 1027 (catN 1027 (cpyN 1027 sch) b%"://") (if l.domain ≠ [] then l.domain else l.host) = b at a2
    have a3 : ∀ x ∈ (if hd l.path ≠ c%'/' then catN 1027 b b%"/" else b), ¬ Control x := by
      split
      · exact mem_cat a2 k2
      · exact a2
    generalize (if hd l.path ≠ c%'/' then catN 1027 b b%"/" else b) = b' at a3
    split
    · exact mem_cat (mem_cat (mem_cat a3 h.path) k3) h.query
    · exact mem_cat a3 h.path
  · rename_i hs
    intro x hx
    have hx := List.mem_of_mem_take hx
    cases hr : l.req with
    | none => rw [hr] at hx; cases hx
    | some s => rw [hr] at hx; exact h.req s hs hr x hx

/-- **C49 (partial)** Whatever the client certificate says, in every log format: if the names and the
decoded parts of the request have no control characters, neither has the log line, so it is one line.
The full claim has no such hypothesis and is false: `C49_log_forged`. -/
theorem C49_single_line_partial (l : LogIn) (h : LogClean l) :
    ∃ t, logRequest l = some t ∧ ∀ x ∈ t, ¬ Control x := by
  obtain ⟨cn, h1, h2⟩ := logCn_ok l
  have hcn : ∀ x ∈ cn, ¬ Control x := by
    intro x hx
    have : ∀ x : UInt8, Graphic x → ¬ Control x := by decide +kernel
    exact this x (h2 x hx)
  have hh : ∀ x ∈ (if l.domain = [] then l.host else l.domain), ¬ Control x := by
    split
    · exact h.host
    · exact h.domain
  have hb := logIri_clean l h
  have hi := intDec_clean l.code
  unfold logRequest
  rw [h1]
  refine ⟨_, rfl, ?_⟩
  have app : ∀ (a b : Bytes), (∀ x ∈ a, ¬ Control x) → (∀ x ∈ b, ¬ Control x) → ∀ x ∈ a ++ b, ¬ Control x := by
    intro a b ha hb x hx
    rcases List.mem_append.1 hx with h | h
    · exact ha x h
    · exact hb x h
  have := h.rhost
  have := h.rserv
  have := h.mt
  have := h.tstamp
  have := h.rfc3339
  dsimp only
  split <;> repeat' (first | assumption | (refine app _ _ ?_ ?_) | decide +kernel)

/-- a request with a name, a path and a query, and a certificate full of control characters -/
def exLog : LogIn :=
  { rhost := b%"::1", rserv := b%"4242", schema := some b%"gemini", domain := b%"h", host := b%"h", path := b%"a b", query := b%"q",
    req := none, subject := some (b%"/CN=x\ny" ++ [0x1b, 0xff]), format := .combined, code := 20, mt := b%"text/gemini",
    tstamp := b%"17/Nov/2026:22:00:00 +0000", rfc3339 := b%"2026-11-17T22:00:00+0000" }

example : LogClean exLog := by
  constructor
  case schema => intro s hs; injection hs with hs; subst hs; decide +kernel
  case req => intro s hs; cases hs
  all_goals (intro x hx; revert x; decide +kernel)
example : logRequest exLog =
    some b%"::1 - x\\^Jy\\^[\\M^? [17/Nov/2026:22:00:00 +0000] \"gemini://h/a b?q\" 20 0 \"-\" \"\"" := by decide +kernel

/-- **C49 fails.** The request `gemini://h/x" 20%0A::1 - admin [...]` is accepted, and its decoded
path brings its own line into the log. -/
theorem C49_log_forged :
    ((parseIri (fun _ => false) b%"gemini://h/x%22%0Aforged").val?.map fun i => (i.schema, i.host, i.path, i.query)) =
      some (b%"gemini", b%"h", b%"x\"\nforged", []) ∧
    logRequest { exLog with path := b%"x\"\nforged", query := [], subject := none } =
      some b%"::1 - - [17/Nov/2026:22:00:00 +0000] \"gemini://h/x\"\nforged\" 20 0 \"-\" \"\"" := by
  decide +kernel

/-- **C63 (partial)** If the subject of the certificate starts with its common name and that fits,
the log shows it, encoded.  The full claim is about every subject with a common name. -/
theorem C63_common_name_partial (l : LogIn) (name rest : Bytes) (h : l.subject = some (b%"/CN=" ++ name ++ rest))
    (hn : c%'/' ∉ name) (hr : rest = [] ∨ rest.head? = some c%'/') (hl : 4 * name.length < 64) :
    ∃ cn, logCn l = some cn ∧ unvis cn = some name := by
  have hs : strstr b%"/CN=" (b%"/CN=" ++ name ++ rest) = some (b%"/CN=" ++ name ++ rest) := by
    simp [strstr]
  have ht : (cpyN 64 ((b%"/CN=" ++ name ++ rest).drop 4)).takeWhile (· ≠ c%'/') = name := by
    have e : (b%"/CN=" ++ name ++ rest).drop 4 = name ++ rest := by simp
    rw [e, cpyN, List.take_append, List.takeWhile_append_of_pos, List.take_of_length_le (by omega)]
    · rcases hr with rfl | hr
      · simp
      · cases rest with
        | nil => cases hr
        | cons c r =>
          injection hr with hr; subst hr
          cases hk : (64 - 1 - name.length) with
          | zero => omega
          | succ k => simp
    · intro x hx
      have hx := List.mem_of_mem_take hx
      simp; rintro rfl; exact hn hx
  obtain ⟨m', h1, h2⟩ := C50_strnvis_complete (c%'-' :: List.replicate 63 0) name (by simpa using hl)
  refine ⟨cstr m', ?_, h2⟩
  unfold logCn
  rw [h]
  simp only [hs, ht, h1, Option.map_some]

example : logCn { exLog with subject := some b%"/CN=alice/O=acme" } = some b%"alice" := by decide +kernel

/-- **C63 fails.** The common name `alice` of this certificate is not what is logged. -/
theorem C63_wrong_name : logCn { exLog with subject := some b%"/O=bob/CN=alice" } = some b%"ob" := by decide +kernel

end Gmid.Props
