import Verif.Lemmas.Iri2

/-!
# Properties C01-C07, C09: the request parser

Specifications: `Spec/Path.lean` (dot-segment removal), `Spec/Iri.lean` (grammar and decoding),
`Spec/Utf8.lean` (RFC 3629).
-/

set_option autoImplicit false

namespace Gmid.Props
open Spec

/-- a request used in the examples below -/
def exReq : Bytes := b%"GEMINI://EX.org:01965//a/%2e%2E/./b%2525/c//?q%3d#f"

/-- what the parser makes of it -/
def exIri : Iri :=
  { schema := b%"gemini", host := b%"ex.org", port := b%"01965", portNo := 1965,
    path := b%"b%25/c/", query := b%"q%3d", fragment := b%"f" }

theorem exReq_ok : parseIri (fun _ => false) exReq = .ok exIri := by decide +kernel

/-! ## C01 -/

/-- C01: no accepted request has a path that leaves the document root: the path is relative, has no
`.`/`..` component, no empty component except the one after a trailing slash, and no NUL. -/
theorem C01_path_confined (isAddr : Bytes → Bool) (s : Bytes) (i : Iri)
    (h : parseIri isAddr s = .ok i) : StaysBelow i.path ∧ (0 : UInt8) ∉ i.path := by
  obtain ⟨sch, auth, pp, tail, -, -, -, -, -, ht⟩ := (parseIri_iff _ _ _).1 h
  rcases ht with ⟨-, hp, -⟩ | ⟨rp, d, qf, -, h1, h2, -⟩
  · rw [hp]; exact ⟨by simp [StaysBelow, splitSlash], by simp⟩
  · rw [h2]
    refine ⟨normalize_staysBelow d, fun hm => ?_⟩
    rcases mem_normalize d 0 hm with h0 | h0
    · exact absurd h0 (by decide)
    · exact pt_nonul okPath ((pt_decodes pathChar_iff _ _).2 h1) h0

/-- C01, memory safety: parsing any string stays inside the string's memory. -/
theorem C01_no_undefined_behaviour (isAddr : Bytes → Bool) (s : Bytes) : parseIri isAddr s ≠ .ub :=
  parseIri_no_ub isAddr s

/-- the depth below the root that a relative walk along the components reaches, or `none` when
some step goes above the root -/
def walk : Nat → List Bytes → Option Nat
  | n, [] => some n
  | n, c :: cs =>
    if c = [] ∨ c = b%"." then walk n cs
    else if c = b%".." then (match n with | 0 => none | m + 1 => walk m cs)
    else walk (n + 1) cs

/-- C01, restated as what the kernel does when it resolves the path from the root directory: no
step of the walk goes up at all, so it never leaves the root. -/
theorem C01_walk_stays_below (isAddr : Bytes → Bool) (s : Bytes) (i : Iri)
    (h : parseIri isAddr s = .ok i) (n : Nat) : ∃ m, walk n (splitSlash i.path) = some m ∧ n ≤ m := by
  have hs := (C01_path_confined isAddr s i h).1
  have key : ∀ (l : List Bytes) (n : Nat), ([46, 46] : Bytes) ∉ l → ∃ m, walk n l = some m ∧ n ≤ m := by
    intro l
    induction l with
    | nil => intro n _; exact ⟨n, rfl, Nat.le_refl _⟩
    | cons c cs ih =>
      intro n hn
      simp only [List.mem_cons, not_or] at hn
      simp only [walk]
      split
      · exact ih n hn.2
      · rw [if_neg (fun e => hn.1 e.symm)]
        obtain ⟨m, h1, h2⟩ := ih (n + 1) hn.2
        exact ⟨m, h1, by omega⟩
  exact key _ n hs.2.2.1

example : (parseIri (fun _ => false) b%"gemini://h/x/%2E%2e/../%2F../etc/passwd").val?.map (·.path) =
    some b%"etc/passwd" := by decide +kernel
example : walk 0 (splitSlash b%"a/../..") = none := by decide

/-! ## C02, C03 -/

/-- C02: the path handed out is the decoded path with its dot segments removed. -/
theorem C02_path_is_normalised (isAddr : Bytes → Bool) (s : Bytes) (i : Iri)
    (h : parseIri isAddr s = .ok i) :
    (i.path = [] ∧ ∃ sch auth pp, s = sch ++ b%"://" ++ auth ++ pp ∧ SchemeName sch ∧
        Authority isAddr auth i.host ∧ PortPart pp i.port i.portNo) ∨
    ∃ sch auth pp raw decoded qf, s = sch ++ b%"://" ++ auth ++ pp ++ b%"/" ++ raw ++ qf ∧
      SchemeName sch ∧ Authority isAddr auth i.host ∧ PortPart pp i.port i.portNo ∧
      QueryFragment qf i.query i.fragment ∧
      Decodes PathChar raw decoded ∧ i.path = normalize decoded := by
  obtain ⟨sch, auth, pp, tail, hs, h1, h2, h3, h4, ht⟩ := (parseIri_iff _ _ _).1 h
  rcases ht with ⟨rfl, hp, -⟩ | ⟨rp, d, qf, rfl, k1, k2, k3⟩
  · left; exact ⟨hp, sch, auth, pp, by simpa using hs, h1, h3, h4⟩
  · right
    exact ⟨sch, auth, pp, rp, d, qf, by simpa [List.append_assoc] using hs, h1, h3, h4, k3, k1, k2⟩

/-- C02 for the in-place normaliser itself, run on the memory holding the string `p`, its
terminator and anything after it: it stays inside that memory and computes dot-segment removal. -/
theorem C02_path_clean (p tail : Bytes) (h0 : (0 : UInt8) ∉ p) :
    cleanStr p tail = .ok (normalize p) := cleanStr_eq p tail h0

/-- C02: what `normalize` means, component by component. -/
theorem C02_normalize_components (p : Bytes) :
    normalize p = joinSlash ((splitSlash p).foldl pushComp []) ++
      (if (splitSlash p).foldl pushComp [] ≠ [] ∧ p.getLast? = some c%'/' then b%"/" else []) := rfl

example : cleanStr b%"/../a/./b/../../c//d/" b%"?q" = .ok b%"c/d/" := by decide +kernel
example : cleanStr b%"a/..." [] = .ok b%"a/..." := by decide +kernel

/-- C03: a second pass of the normaliser changes nothing, and no pass lengthens a path. -/
theorem C03_idempotent (p tail : Bytes) (h0 : (0 : UInt8) ∉ p) (q : Bytes)
    (h : cleanStr p tail = .ok q) (tail' : Bytes) :
    cleanStr q tail' = .ok q ∧ q.length ≤ p.length := by
  rw [cleanStr_eq p tail h0] at h
  simp at h; subst h
  have hq : (0 : UInt8) ∉ normalize p := by
    intro hm
    rcases mem_normalize p 0 hm with h | h
    · exact absurd h (by decide)
    · exact h0 h
  exact ⟨by rw [cleanStr_eq _ _ hq, normalize_idem], normalize_length p⟩

example : cleanStr b%"x/../y/" [] = .ok b%"y/" ∧ (0 : UInt8) ∉ b%"x/../y/" := by decide +kernel

/-! ## C04 -/

/-- every `%` of `raw` starts an escape that lies within `raw` and is not `%00` -/
theorem decodes_pct {P : UInt8 → Prop} (hP : ¬ P 37) {raw d : Bytes} (h : Decodes P raw d) :
    ∀ pre post, raw = pre ++ 37 :: post →
      ∃ a b v post', post = a :: b :: post' ∧ Escape a b v ∧ v ≠ 0 := by
  induction h with
  | nil => intro pre post e; simp at e
  | lit c raw dec hc _ ih =>
    intro pre post e
    cases pre with
    | nil => simp at e; exact absurd (e.1 ▸ hc) hP
    | cons x pre => simp at e; exact ih pre post e.2
  | pct a b v raw dec hab hv _ ih =>
    intro pre post e
    have hx := (escape_iff a b v).1 hab
    cases pre with
    | nil => simp at e; exact ⟨a, b, v, raw, e.symm, hab, hv⟩
    | cons x pre =>
      simp at e
      cases pre with
      | nil => simp at e; rw [e.2.1] at hx; exact absurd hx.1 (by decide)
      | cons x pre =>
        simp at e
        cases pre with
        | nil => simp at e; rw [e.2.2.1] at hx; exact absurd hx.2.1 (by decide)
        | cons x pre => simp at e; exact ih pre post e.2.2.2
  | multi u raw dec hu _ ih =>
    intro pre post e
    rcases List.append_eq_append_iff.1 e with ⟨as, h1, h2⟩ | ⟨bs, h1, h2⟩
    · exact ih as post h2
    · cases bs with
      | nil => simp at h2; exact ih [] post (by simpa using h2.symm)
      | cons x bs =>
        simp at h2
        have := (multi_bytes hu).2 x (by rw [h1]; simp)
        rw [← h2.1] at this; exact absurd this (by decide)

/-- C04, exactness: host, path and query of an accepted request are related to the raw text by
`Decodes`, which replaces each escape once and keeps every other byte; the query stays raw. -/
theorem C04_decoding_exact (isAddr : Bytes → Bool) (s : Bytes) (i : Iri)
    (h : parseIri isAddr s = .ok i) :
    ∃ sch auth pp tail, s = sch ++ b%"://" ++ auth ++ pp ++ tail ∧
      ((∃ a, auth = b%"[" ++ a ++ b%"]" ∧ i.host = a) ∨
       ∃ d, Decodes HostChar auth d ∧ i.host = d.map lower) ∧
      ((tail = [] ∧ i.path = []) ∨
       ∃ raw d qf, tail = b%"/" ++ raw ++ qf ∧ Decodes PathChar raw d ∧ i.path = normalize d ∧
         QueryFragment qf i.query i.fragment) := by
  obtain ⟨sch, auth, pp, tail, hs, h1, h2, h3, h4, ht⟩ := (parseIri_iff _ _ _).1 h
  refine ⟨sch, auth, pp, tail, hs, ?_, ?_⟩
  · rcases h3 with ⟨k, -⟩ | h3
    · left; exact ⟨i.host, by simp [k], rfl⟩
    · right; exact h3
  · rcases ht with ⟨rfl, hp, -⟩ | ⟨rp, d, qf, rfl, k1, k2, k3⟩
    · left; exact ⟨rfl, hp⟩
    · right; exact ⟨rp, d, qf, by simp, k1, k2, k3⟩

/-- C04, `Decodes` is a function: a raw text has at most one decoding (so "single-pass" is not a
matter of choice). -/
theorem C04_decoding_unique (P : UInt8 → Prop) (h37 : ¬ P c%'%') (hhi : ∀ c, P c → c.toNat < 128)
    (raw d1 d2 : Bytes) (h1 : Decodes P raw d1) (h2 : Decodes P raw d2) : d1 = d2 := by
  induction h1 generalizing d2 with
  | nil => exact (decodes_nil h2).symm
  | lit c raw dec hc _ ih =>
    generalize hs : c :: raw = s at h2
    cases h2 with
    | nil => simp at hs
    | lit c' raw' dec' hc' hd => simp at hs; obtain ⟨rfl, rfl⟩ := hs; rw [ih _ hd]
    | pct a b v raw' dec' _ _ _ => simp at hs; exact absurd (hs.1 ▸ hc) h37
    | multi u raw' dec' hu _ =>
      have h := multi_hd hu raw'
      have := hhi c hc
      rw [← hs] at h; simp at h; omega
  | pct a b v raw dec hab hv _ ih =>
    generalize hs : c%'%' :: a :: b :: raw = s at h2
    cases h2 with
    | nil => simp at hs
    | lit c' raw' dec' hc' hd => simp at hs; exact absurd (hs.1 ▸ hc') h37
    | pct a' b' v' raw' dec' hab' _ hd =>
      simp at hs; obtain ⟨rfl, rfl, rfl⟩ := hs
      rw [ih _ hd, ((escape_iff _ _ _).1 hab).2.2, ((escape_iff _ _ _).1 hab').2.2]
    | multi u raw' dec' hu _ =>
      have h := multi_hd hu raw'
      rw [← hs] at h; simp at h
  | multi u raw dec hu _ ih =>
    generalize hs : u ++ raw = s at h2
    cases h2 with
    | nil => exact absurd (List.append_eq_nil_iff.1 hs).1 (multi_bytes hu).1
    | lit c' raw' dec' hc' hd =>
      have h := multi_hd hu raw
      have := hhi c' hc'
      rw [hs] at h; simp at h; omega
    | pct a' b' v' raw' dec' hab' _ hd =>
      have h := multi_hd hu raw
      rw [hs] at h; simp at h
    | multi u' raw' dec' hu' hd =>
      obtain ⟨rfl, rfl⟩ := multi_unique hu hu' hs
      rw [ih _ hd]

/-- the property of "all escapes up to the first `#` or `[` are well formed" -/
def EscapesOK (s : Bytes) : Prop :=
  ∀ pre post, s = pre ++ c%'%' :: post → c%'#' ∉ pre → c%'[' ∉ pre →
    ∃ a b v post', post = a :: b :: post' ∧ Escape a b v ∧ v ≠ 0

theorem escapesOK_append {a b : Bytes}
    (ha : ∀ pre post, a = pre ++ 37 :: post → ∃ x y v post', post = x :: y :: post' ∧ Escape x y v ∧ v ≠ 0)
    (hb : EscapesOK b) : EscapesOK (a ++ b) := by
  intro pre post e h1 h2
  rcases List.append_eq_append_iff.1 e with ⟨as, k1, k2⟩ | ⟨bs, k1, k2⟩
  · subst k1; simp at h1 h2
    exact hb as post k2 h1.2 h2.2
  · cases bs with
    | nil => simp at k2 k1; subst k1; exact hb [] post (by simpa using k2.symm) (by simp) (by simp)
    | cons x bs =>
      simp at k2
      obtain ⟨rfl, rfl⟩ := k2
      obtain ⟨x, y, v, p, rfl, h3, h4⟩ := ha pre bs k1
      exact ⟨x, y, v, p ++ b, by simp, h3, h4⟩

theorem no_pct {a : Bytes} (h : (37 : UInt8) ∉ a) :
    ∀ pre post, a = pre ++ 37 :: post → ∃ x y v post', post = x :: y :: post' ∧ Escape x y v ∧ v ≠ 0 := by
  intro pre post e; exact absurd (by rw [e]; simp) h

theorem escapesOK_qf {qf q f : Bytes} (h : QueryFragment qf q f) : EscapesOK qf := by
  have nilOK : EscapesOK [] := by intro pre post e; simp at e
  rcases h with ⟨rfl, -⟩ | ⟨rfl, -⟩ | ⟨rfl, -, d, hd⟩ | ⟨rfl, d, hd⟩
  · exact nilOK
  · intro pre post e h1; cases pre with
    | nil => simp at e
    | cons x pre => simp at e; simp [← e.1] at h1
  · have := escapesOK_append (a := 63 :: q) (b := []) (by
      intro pre post e
      cases pre with
      | nil => simp at e
      | cons x pre => simp at e; exact decodes_pct (by decide) hd pre post e.2) nilOK
    simpa using this
  · have := escapesOK_append (a := 63 :: q) (b := 35 :: f) (by
      intro pre post e
      cases pre with
      | nil => simp at e
      | cons x pre => simp at e; exact decodes_pct (by decide) hd pre post e.2) (by
      intro pre post e h1; cases pre with
      | nil => simp at e
      | cons x pre => simp at e; simp [← e.1] at h1)
    simpa using this

/-- C04, rejection: in an accepted request every `%` before the fragment (and outside a bracketed
address) starts a two-digit escape other than `%00`.  So malformed escapes and `%00` make the
request be rejected. -/
theorem C04_malformed_escape_rejected (isAddr : Bytes → Bool) (s : Bytes) (i : Iri)
    (h : parseIri isAddr s = .ok i) (pre post : Bytes) (hs : s = pre ++ c%'%' :: post)
    (hf : c%'#' ∉ pre) (hb : c%'[' ∉ pre) :
    ∃ a b v post', post = a :: b :: post' ∧ Escape a b v ∧ v ≠ 0 := by
  suffices hk : EscapesOK s from hk pre post hs hf hb
  obtain ⟨sch, auth, pp, tail, rfl, h1, h2, h3, h4, ht⟩ := (parseIri_iff _ _ _).1 h
  have htail : EscapesOK tail := by
    rcases ht with ⟨rfl, -⟩ | ⟨rp, d, qf, rfl, k1, k2, k3⟩
    · intro pre post e; simp at e
    · have := escapesOK_append (a := 47 :: rp) (b := qf) (by
        intro pre post e
        cases pre with
        | nil => simp at e
        | cons x pre => simp at e; exact decodes_pct (by decide) k1 pre post e.2) (escapesOK_qf k3)
      simpa using this
  have hpp : EscapesOK (pp ++ tail) := by
    refine escapesOK_append (no_pct ?_) htail
    rcases h4 with ⟨rfl, -⟩ | ⟨rfl, k, -⟩
    · simp
    · intro hm
      rcases List.mem_cons.1 hm with e | hm
      · exact absurd e (by decide)
      · exact absurd (k _ hm) (by decide)
  have hauth : EscapesOK (auth ++ (pp ++ tail)) := by
    rcases h3 with ⟨rfl, -⟩ | ⟨d, hd, -⟩
    · intro pre post e h1 h2
      cases pre with
      | nil => simp at e
      | cons x pre => simp at e; simp [← e.1] at h2
    · exact escapesOK_append (decodes_pct (by decide) hd) hpp
  have hsch : EscapesOK (sch ++ ([58, 47, 47] ++ (auth ++ (pp ++ tail)))) := by
    refine escapesOK_append (no_pct ?_) (escapesOK_append (no_pct (by decide)) hauth)
    obtain ⟨c, r, rfl, k1, k2⟩ := h1
    intro hm
    rcases List.mem_cons.1 hm with e | hm
    · rw [← e] at k1; exact absurd k1 (by decide)
    · exact absurd (k2 _ hm) (by decide)
  simpa [List.append_assoc] using hsch

/-- C04: the decoded host and path never contain a NUL. -/
theorem C04_no_nul (isAddr : Bytes → Bool) (s : Bytes) (i : Iri) (hnul : (0 : UInt8) ∉ s)
    (h : parseIri isAddr s = .ok i) : (0 : UInt8) ∉ i.host ∧ (0 : UInt8) ∉ i.path := by
  refine ⟨?_, (C01_path_confined isAddr s i h).2⟩
  obtain ⟨sch, auth, pp, tail, rfl, h1, h2, h3, h4, ht⟩ := (parseIri_iff _ _ _).1 h
  rcases h3 with ⟨rfl, -⟩ | ⟨d, hd, he⟩
  · intro hm; exact hnul (by simp [hm])
  · rw [he]
    intro hm
    obtain ⟨x, hx, hl⟩ := List.mem_map.1 hm
    have hz : ∀ c, lower c = 0 → c = 0 := by decide +kernel
    rw [hz x hl] at hx
    exact pt_nonul okHost ((pt_decodes hostChar_iff _ _).2 hd) hx

-- the hypotheses are met, and a decoded '%' is not decoded again
example : parseIri (fun _ => false) b%"gemini://h/%2541%41" = .ok
    { schema := b%"gemini", host := b%"h", port := [], portNo := 1965, path := b%"%41A",
      query := [], fragment := [] } := by decide +kernel
example : parseIri (fun _ => false) b%"gemini://h/%4" = .err := by decide +kernel
example : parseIri (fun _ => false) b%"gemini://h/%00" = .err := by decide +kernel
example : parseIri (fun _ => false) b%"gemini://h/%zz" = .err := by decide +kernel

/-! ## C05 -/

theorem lower_not_upper : ∀ c, ¬ (65 ≤ (lower c).toNat ∧ (lower c).toNat ≤ 90) := by decide +kernel

/-- C05: the scheme is the text before "://", ASCII lower-cased; so is the decoded host unless it
is a bracketed address; neither contains an upper-case letter. -/
theorem C05_case_normalised (isAddr : Bytes → Bool) (s : Bytes) (i : Iri)
    (h : parseIri isAddr s = .ok i) :
    ∃ sch auth rest, s = sch ++ b%"://" ++ auth ++ rest ∧ c%':' ∉ sch ∧ i.schema = sch.map lower ∧
      (∀ c ∈ i.schema, ¬ (c%'A' ≤ c ∧ c ≤ c%'Z')) ∧
      (auth = b%"[" ++ i.host ++ b%"]" ∨
       (∃ d, Decodes HostChar auth d ∧ i.host = d.map lower) ∧
         ∀ c ∈ i.host, ¬ (c%'A' ≤ c ∧ c ≤ c%'Z')) := by
  obtain ⟨sch, auth, pp, tail, rfl, h1, h2, h3, h4, ht⟩ := (parseIri_iff _ _ _).1 h
  have hl : ∀ (l : Bytes), ∀ c ∈ l.map lower, ¬ (c%'A' ≤ c ∧ c ≤ c%'Z') := by
    intro l c hc
    obtain ⟨x, -, rfl⟩ := List.mem_map.1 hc
    exact lower_not_upper x
  refine ⟨sch, auth, pp ++ tail, by simp [List.append_assoc], ?_, h2, ?_, ?_⟩
  · obtain ⟨c, r, rfl, k1, k2⟩ := h1
    intro hm
    rcases List.mem_cons.1 hm with e | hm
    · rw [← e] at k1; exact absurd k1 (by decide)
    · exact absurd (k2 _ hm) (by decide)
  · rw [h2]; exact hl sch
  · rcases h3 with ⟨k, -⟩ | ⟨d, hd, he⟩
    · left; simp [k]
    · right; exact ⟨⟨d, hd, he⟩, by rw [he]; exact hl d⟩

example : exIri.schema = b%"gemini" ∧ exIri.host = b%"ex.org" ∧
    parseIri (fun _ => false) exReq = .ok exIri := ⟨rfl, rfl, exReq_ok⟩

/-! ## C06 -/

/-- C06: the port is 1965 when the authority is not followed by a colon, else the value of the
digits after the colon, and never above 65535. -/
theorem C06_port_exact (isAddr : Bytes → Bool) (s : Bytes) (i : Iri)
    (h : parseIri isAddr s = .ok i) :
    i.portNo ≤ 65535 ∧ ∃ sch auth tail, Authority isAddr auth i.host ∧
      (tail = [] ∨ ∃ t, tail = c%'/' :: t) ∧
      ((s = sch ++ b%"://" ++ auth ++ tail ∧ i.port = [] ∧ i.portNo = 1965) ∨
       (s = sch ++ b%"://" ++ auth ++ b%":" ++ i.port ++ tail ∧
        (∀ d ∈ i.port, d ∈ b%"0123456789") ∧ i.portNo = decimal i.port)) := by
  obtain ⟨sch, auth, pp, tail, rfl, h1, h2, h3, h4, ht⟩ := (parseIri_iff _ _ _).1 h
  have htl : tail = [] ∨ ∃ t, tail = c%'/' :: t := by
    rcases ht with ⟨rfl, -⟩ | ⟨rp, d, qf, rfl, -⟩
    · exact .inl rfl
    · exact .inr ⟨_, rfl⟩
  rcases h4 with ⟨rfl, k1, k2⟩ | ⟨rfl, k1, k2, k3⟩
  · exact ⟨by rw [k2]; omega, sch, auth, tail, h3, htl, .inl ⟨by simp, k1, k2⟩⟩
  · exact ⟨k3, sch, auth, tail, h3, htl, .inr ⟨by simp, k1, k2⟩⟩

theorem portLoop_too_big (ds rest : Bytes) (hd' : ∀ d ∈ ds, isDigit d = true)
    (hr : rest = [] ∨ isDigit (hd rest) = false) (hb : 65535 < decFrom 0 ds) :
    portLoop 0 (ds ++ rest) = none := by
  cases hp : portLoop 0 (ds ++ rest) with
  | none => rfl
  | some x =>
    obtain ⟨j, r⟩ := x
    obtain ⟨ds', k1, k2, k3, k4, k5⟩ := portLoop_sound _ 0 j r (by omega) hp
    have e1 := (takeWhile_append_stop (p := isDigit) ds rest hd' hr).1
    have e2 := (takeWhile_append_stop (p := isDigit) ds' r k2 k3).1
    rw [k1, e2] at e1
    subst e1; omega

/-- C06, rejection: a port above 65535 makes the whole request be rejected, however many digits it
has (no wrap-around). -/
theorem C06_port_overflow_rejected (isAddr : Bytes → Bool) (sch auth d digits tail : Bytes)
    (h1 : SchemeName sch) (h2 : Decodes HostChar auth d) (h3 : ∀ x ∈ digits, x ∈ b%"0123456789")
    (h4 : 65535 < decimal digits) (h5 : tail = [] ∨ ∃ t, tail = c%'/' :: t) :
    parseIri isAddr (sch ++ b%"://" ++ auth ++ b%":" ++ digits ++ tail) = .err := by
  have es : sch ++ b%"://" ++ auth ++ b%":" ++ digits ++ tail =
      sch ++ 58 :: 47 :: 47 :: (auth ++ 58 :: (digits ++ tail)) := by simp [List.append_assoc]
  have e1 := (parseScheme_iff (sch ++ 58 :: 47 :: 47 :: (auth ++ 58 :: (digits ++ tail))) _ _).2 ⟨sch, rfl, h1, rfl⟩
  have hb : hd (auth ++ 58 :: (digits ++ tail)) ≠ 91 := by
    rcases hd_decodes h2 (58 :: (digits ++ tail)) with rfl | h | h | h
    · simp
    · intro e; rw [e] at h; exact absurd h (by decide)
    · rw [h]; decide
    · intro e; rw [e] at h; exact absurd h (by decide)
  have hsc := scan_complete okHost false hostPost ((pt_decodes hostChar_iff _ _).2 h2)
    (58 :: (digits ++ tail)) (.inr (by simp; decide)) (auth ++ 58 :: (digits ++ tail)).length (by simp)
  rw [pctOf_false] at hsc
  have hp := portLoop_too_big digits tail (fun x hx => (isDigit_iff x).2 (h3 x hx)) (by
    rcases h5 with rfl | ⟨t, rfl⟩
    · exact .inl rfl
    · exact .inr rfl) h4
  have e2 : parseAuthority isAddr (auth ++ 58 :: (digits ++ tail)) = none := by
    unfold parseAuthority
    rw [if_neg hb, hsc]
    simp [parseAuthorityEnd, parsePort, hp]
  rw [es]
  unfold parseIri
  simp only [e1, e2]

example : SchemeName b%"gemini" ∧ Decodes HostChar b%"h" b%"h" ∧
    65535 < decimal b%"4294969261" ∧
    parseIri (fun _ => false) b%"gemini://h:4294969261/" = .err := by
  refine ⟨⟨103, b%"emini", rfl, by decide +kernel, by decide +kernel⟩, .lit _ _ _ (by decide) .nil, by decide +kernel, by decide +kernel⟩
example : (exIri.port, exIri.portNo) = (b%"01965", 1965) := rfl
example : (parseIri (fun _ => false) b%"gemini://h:/").val?.map (·.portNo) = some 0 := by decide +kernel

/-! ## C07 -/

/-- C07: parse_iri accepts a string iff it matches the grammar, and returns the components the
grammar gives it. -/
theorem C07_accepts_grammar (isAddr : Bytes → Bool) (s : Bytes) (i : Iri) :
    parseIri isAddr s = .ok i ↔
      IriGrammar isAddr s i.schema i.host i.port i.portNo i.path i.query i.fragment :=
  parseIri_iff isAddr s i

/-- C07: everything else is rejected. -/
theorem C07_rejects_the_rest (isAddr : Bytes → Bool) (s : Bytes)
    (h : ¬ ∃ schema host port portNo path query fragment,
      IriGrammar isAddr s schema host port portNo path query fragment) :
    parseIri isAddr s = .err := by
  cases hp : parseIri isAddr s with
  | ok i => exact absurd ⟨_, _, _, _, _, _, _, (parseIri_iff _ _ _).1 hp⟩ h
  | err => rfl
  | ub => exact absurd hp (parseIri_no_ub _ _)

/-- C07: the grammar is unambiguous as far as the returned components go. -/
theorem C07_unambiguous (isAddr : Bytes → Bool) (s : Bytes) (i j : Iri)
    (hi : IriGrammar isAddr s i.schema i.host i.port i.portNo i.path i.query i.fragment)
    (hj : IriGrammar isAddr s j.schema j.host j.port j.portNo j.path j.query j.fragment) : i = j := by
  have h1 := (parseIri_iff isAddr s i).2 hi
  have h2 := (parseIri_iff isAddr s j).2 hj
  rw [h1] at h2; simpa using h2

example : IriGrammar (fun _ => false) exReq exIri.schema exIri.host exIri.port exIri.portNo
    exIri.path exIri.query exIri.fragment := (C07_accepts_grammar _ _ _).1 exReq_ok
example : (parseIri (fun a => a == b%"::1") b%"gemini://[::1]:70/x").val?.map
    (fun i => (i.host, i.portNo)) = some (b%"::1", 70) := by decide +kernel
example : parseIri (fun _ => false) b%"gemini://h?q" = .err := by decide +kernel
example : parseIri (fun _ => false) b%"gemini:/h/" = .err := by decide +kernel

/-! ## C09 -/

/-- C09: the multibyte recogniser succeeds, consuming `u`, iff the text starts with `u` and `u` is
the RFC 3629 encoding of a non-ASCII scalar value. -/
theorem C09_utf8_exact (s u rest : Bytes) :
    validMultibyte s = .seq u rest ↔ s = u ++ rest ∧ Utf8Multi u := validMultibyte_seq s u rest

/-- C09: a lead byte >= 0x80 that does not start a well-formed sequence is an error, not skipped;
an ASCII byte is left alone. -/
theorem C09_utf8_reject (s : Bytes) :
    (validMultibyte s = .no ↔ s = [] ∨ (hd s).toNat < 0x80) ∧
    (validMultibyte s = .bad ↔ 0x80 ≤ (hd s).toNat ∧ ∀ u rest, s = u ++ rest → ¬ Utf8Multi u) := by
  have hmul : ∀ u t, s = u ++ t → Utf8Multi u → 0x80 ≤ (hd s).toNat := by
    intro u t e hu; rw [e]; exact multi_hd hu t
  rcases validMultibyte_cases s with ⟨h1, h2⟩ | ⟨h1, h2, h3⟩ | ⟨u, t, h1, h2, h3⟩
  · rw [h1]; simp [h2]
    intro h; rcases h2 with rfl | h2
    · simp at h
    · omega
  · rw [h1]; refine ⟨?_, by simp; exact ⟨h2, h3⟩⟩
    simp; exact ⟨by rintro rfl; simp at h2, h2⟩
  · rw [h1]; have := hmul u t h2 h3
    refine ⟨?_, ?_⟩
    · simp; exact ⟨by rintro rfl; simp at this, this⟩
    · simp; exact fun _ => ⟨u, ⟨t, h2⟩, h3⟩

/-- C09, memory safety: the automaton's table look-ups stay inside the table, from the initial
state on, for all bytes. -/
theorem C09_table_in_bounds : ∀ b : UInt8, ∀ st ∈ List.range 9,
    b.toNat < utf8d.length ∧ 256 + st * 16 + utf8Type b < utf8d.length ∧ utf8Next st b < 9 := by
  decide +kernel

example : Utf8Multi [0xF0, 0x9F, 0x98, 0x80] := ⟨0x1F600, by decide, by decide, by decide⟩
example : validMultibyte [0xF0, 0x9F, 0x98, 0x80, 65] = .seq [0xF0, 0x9F, 0x98, 0x80] [65] := by decide +kernel
example : validMultibyte [0xC0, 0xAF] = .bad := by decide +kernel       -- overlong '/'
example : validMultibyte [0xED, 0xA0, 0x80] = .bad := by decide +kernel  -- surrogate

end Gmid.Props
