import Verif.Lemmas.Encode

/-!
# C45 (strlcpy/strlcat), C08 (encode_path), C10 and C11 (serialize_iri and the relayed request)
-/

set_option autoImplicit false

namespace Gmid.Props
open Spec

/-! ## C45 -/

/-- C45: `strlcpy` into a block of at least `dsize` bytes never leaves the first `dsize` bytes,
returns the length of the source, and when `dsize > 0` leaves the longest prefix that fits,
terminated. -/
theorem C45_strlcpy (m src : Bytes) (dsize : Nat) (hm : dsize ≤ m.length) (h0 : (0 : UInt8) ∉ src) :
    ∃ m', strlcpy m src dsize = some (m', src.length) ∧ m'.length = m.length ∧
      m'.drop dsize = m.drop dsize ∧ (dsize = 0 → m' = m) ∧
      (0 < dsize → cstr m' = src.take (dsize - 1) ∧ (cstr m').length < dsize) := by
  by_cases hd : dsize = 0
  · subst hd; exact ⟨m, by simp [strlcpy], rfl, rfl, fun _ => rfl, fun h => absurd h (by omega)⟩
  · obtain ⟨m', h1, hb⟩ := boxed_strlcpy m src dsize (by omega) hm
    have hc := boxed_cstr _ _ _ _ hb h0
    obtain ⟨junk, h2, h3⟩ := hb
    refine ⟨m', h1, h3, ?_, fun h => absurd h hd, fun _ => ⟨hc, by rw [hc]; simp; omega⟩⟩
    have hl := congrArg List.length h2
    rw [h3] at hl; simp at hl
    rw [h2, List.drop_append, List.drop_of_length_le (by simp; omega), List.nil_append]
    obtain ⟨k, hk⟩ : ∃ k, dsize - (src.take (dsize - 1)).length = k + 1 :=
      ⟨dsize - (src.take (dsize - 1)).length - 1, by simp; omega⟩
    rw [hk, List.drop_succ_cons, List.drop_append, List.drop_of_length_le (by simp at hk; omega), List.nil_append]
    rw [show k - junk.length = 0 by simp at hk; omega]; rfl

/-- C45: `strlcat`.  The destination string is the one found in the first `dsize` bytes. -/
theorem C45_strlcat (m src : Bytes) (dsize : Nat) (hm : dsize ≤ m.length) (h0 : (0 : UInt8) ∉ src) :
    ∃ m', strlcat m src dsize = some (m', (cstr (m.take dsize)).length + src.length) ∧
      m'.length = m.length ∧ m'.drop dsize = m.drop dsize ∧
      ((0 : UInt8) ∈ m.take dsize → cstr m' = (cstr (m.take dsize) ++ src).take (dsize - 1) ∧
        (cstr m').length < dsize) ∧
      ((0 : UInt8) ∉ m.take dsize → m' = m) := by
  by_cases hz : (0 : UInt8) ∈ m.take dsize
  · -- the block starts with a terminated string
    have hsplit : ∃ t, m = cstr (m.take dsize) ++ 0 :: t := by
      have key : ∀ (l : Bytes), (0 : UInt8) ∈ l → ∃ t, l = cstr l ++ 0 :: t := by
        intro l hl
        induction l with
        | nil => simp at hl
        | cons c r ih =>
          by_cases hc : c = 0
          · subst hc; exact ⟨r, by simp [cstr]⟩
          · have : (0 : UInt8) ∈ r := by simpa [Ne.symm hc] using hl
            obtain ⟨t, ht⟩ := ih this
            have e : cstr (c :: r) = c :: cstr r := by
              simp only [cstr, List.takeWhile_cons]; rw [if_pos (by simpa using hc)]
            exact ⟨t, by rw [e, List.cons_append, ← ht]⟩
      obtain ⟨t, ht⟩ := key _ hz
      exact ⟨t ++ m.drop dsize, by rw [← List.cons_append, ← List.append_assoc, ← ht, List.take_append_drop]⟩
    obtain ⟨t, ht⟩ := hsplit
    have ha0 : (0 : UInt8) ∉ cstr (m.take dsize) := cstr_nonul _
    have hlt : (cstr (m.take dsize)).length < dsize := by
      apply Classical.byContradiction
      intro hn
      have e : m.take dsize = (cstr (m.take dsize)).take dsize := by
        conv => lhs; rw [ht]
        rw [List.take_append_of_le_length (by omega)]
      rw [e] at hz; exact ha0 (List.mem_of_mem_take hz)
    generalize cstr (m.take dsize) = a at *
    have hlen : a.length + (src.take (dsize - a.length - 1) ++ [0]).length ≤ dsize := by
      rw [List.length_append, List.length_take, List.length_singleton]; omega
    refine ⟨_, strlcat_eq m src a t dsize ht ha0 hlt hm, ?_, ?_, ?_, fun h => absurd hz h⟩
    · rw [put_length _ _ _ (by omega)]
    · apply List.ext_getElem?
      intro i
      rw [List.getElem?_drop, List.getElem?_drop]
      exact put_get_gt _ _ _ _ (by omega) (by omega)
    · intro _
      have e : cstr (put m a.length (src.take (dsize - a.length - 1) ++ [0])) = (a ++ src).take (dsize - 1) := by
        have hta : m.take a.length = a := by
          rw [ht, List.take_append_of_le_length (Nat.le_refl _), List.take_of_length_le (Nat.le_refl _)]
        have hpe : ∀ X Y : Bytes, a ++ (X ++ [0]) ++ Y = (a ++ X) ++ 0 :: Y := by intro X Y; simp
        simp only [put, hta]
        rw [hpe, cstr_append]
        · rw [List.take_append, List.take_of_length_le (show a.length ≤ dsize - 1 by omega)]
          congr 2; omega
        · intro hm'
          rcases List.mem_append.1 hm' with h | h
          · exact ha0 h
          · exact h0 (List.mem_of_mem_take h)
      exact ⟨e, by rw [e]; simp; omega⟩
  · have hc : cstr (m.take dsize) = m.take dsize := by
      have : ∀ l : Bytes, (0 : UInt8) ∉ l → cstr l = l := by
        intro l hl
        induction l with
        | nil => rfl
        | cons c r ih =>
          simp at hl
          have e : cstr (c :: r) = c :: cstr r := by
            simp only [cstr, List.takeWhile_cons]; rw [if_pos (by simpa using fun e => hl.1 e.symm)]
          rw [e, ih hl.2]
      exact this _ hz
    refine ⟨m, ?_, rfl, rfl, fun h => absurd h hz, fun _ => rfl⟩
    rw [strlcat_full m src dsize hm hz, hc]
    simp; omega

example : strlcpy b%"######" b%"abcdef" 4 = some (b%"abc" ++ 0 :: b%"##", 6) := by decide
example : strlcat (b%"ab" ++ 0 :: b%"###") b%"cdef" 5 = some (b%"abcd" ++ 0 :: b%"#", 6) := by decide

/-! ## C08 -/

/-- C08: encode_path stays inside its buffer of `len` bytes and leaves it terminated; it reports
success iff the whole encoding fits.  On success the buffer holds the encoding, on failure a prefix
of it. -/
theorem C08_encode_path (len : Nat) (hlen : 0 < len) (path : Bytes) :
    ∃ buf ok, encodePath len path = some (buf, ok) ∧ buf.length = len ∧
      (0 : UInt8) ∈ buf ∧ (∃ rest, encName path = cstr buf ++ rest) ∧
      (ok = true ↔ (encName path).length < len) ∧ (ok = true → cstr buf = encName path) := by
  obtain ⟨k, ok, h1, h2, h3, h4, h5⟩ := encodePath_eq len hlen path
  obtain ⟨j, hj⟩ : ∃ j, len - (encName (path.take k)).length = j + 1 :=
    ⟨len - (encName (path.take k)).length - 1, by omega⟩
  have hc : cstr (encName (path.take k) ++ List.replicate (len - (encName (path.take k)).length) 0) =
      encName (path.take k) := by
    rw [hj, List.replicate_succ, cstr_append _ _ (encName_nonul _)]
  refine ⟨_, ok, h2, by simp; omega, ?_, ⟨encName (path.drop k), ?_⟩, h4, ?_⟩
  · rw [hj]; simp
  · rw [hc]
    have := congrArg encName (List.take_append_drop k path)
    rw [← this]; simp only [encName, List.flatMap_append]
  · intro h; rw [hc, h5 h, List.take_length]

/-- C08: the encoding uses only path characters and escapes, and decoding it gives the name back. -/
theorem C08_invertible (path : Bytes) (h0 : (0 : UInt8) ∉ path) :
    (∀ c ∈ encName path, PathChar c ∨ c = c%'%') ∧ Decodes PathChar (encName path) path ∧
      ∀ d, Decodes PathChar (encName path) d → d = path := by
  have hd := encName_decodes path h0
  refine ⟨encName_chars path, hd, fun d h => ?_⟩
  have key : ∀ c, PathChar c → c.toNat < 128 := by decide +kernel
  induction path generalizing d with
  | nil => exact decodes_nil h
  | cons c r ih =>
    simp at h0
    rw [encName_cons] at h
    by_cases hc : PathChar c
    · simp only [encByte, if_pos hc, List.singleton_append] at h
      generalize hs : c :: encName r = s at h
      cases h with
      | nil => simp at hs
      | lit c' raw' dec' hc' hd' =>
        simp at hs; obtain ⟨rfl, rfl⟩ := hs
        rw [ih h0.2 (encName_decodes r h0.2) _ hd']
      | pct a b v raw' dec' _ _ _ => simp at hs; rw [hs.1] at hc; exact absurd hc (by decide)
      | multi u raw' dec' hu _ =>
        have h := multi_hd hu raw'
        rw [← hs] at h; simp at h; have := key c hc; omega
    · have he := encByte_escape c hc
      simp only [encByte, if_neg hc, List.cons_append, List.nil_append] at h
      generalize hs : (37 :: hexUpper (c.toNat / 16) :: hexUpper (c.toNat % 16) :: encName r : Bytes) = s at h
      cases h with
      | nil => simp at hs
      | lit c' raw' dec' hc' hd' => simp at hs; rw [← hs.1] at hc'; exact absurd hc' (by decide)
      | pct a b v raw' dec' hab _ hd' =>
        simp at hs; obtain ⟨rfl, rfl, rfl⟩ := hs
        rw [ih h0.2 (encName_decodes r h0.2) _ hd', ((escape_iff _ _ _).1 hab).2.2, ← he.2.2]
      | multi u raw' dec' hu _ =>
        have h := multi_hd hu raw'
        rw [← hs] at h; simp at h

example : encodePath 10 b%"a b/é?" = some (b%"a%20b/%E9" ++ List.replicate 1 0, false) := by decide +kernel
example : encodePath 9 b%"a b" = some (b%"a%20b" ++ List.replicate 4 0, true) := by decide +kernel

/-! ## C10 -/

theorem take_self_iff (l : Bytes) (n : Nat) : l.take n = l ↔ l.length ≤ n := by
  constructor
  · intro h
    have := congrArg List.length h
    simp at this; omega
  · exact List.take_of_length_le

/-- the text of an IRI as the server writes it -/
def iriText (i : Iri) : Bytes :=
  i.schema ++ b%"://" ++ i.host ++ b%"/" ++ i.path ++ (if i.query = [] then [] else b%"?" ++ i.query)

/-- one more strlcat on a buffer that already holds `t`, possibly truncated -/
theorem box_cat (m t src : Bytes) (n : Nat) (hn : 0 < n) (hm : n ≤ m.length) (m1 : Bytes)
    (hb : boxed m n t m1) (h0 : (0 : UInt8) ∉ t) :
    ∃ m' l, strlcat m1 src n = some (m', l) ∧ boxed m n (t ++ src) m' ∧
      l = min t.length (n - 1) + src.length := by
  by_cases h : t.length < n
  · obtain ⟨m', h1, h2⟩ := boxed_strlcat m t src n hn hm m1 hb h0 h
    exact ⟨m', _, h1, h2, by omega⟩
  · obtain ⟨m', h1, h2⟩ := boxed_strlcat_full m t src n hn hm m1 hb h0 (by omega)
    exact ⟨m', _, h1, h2, by omega⟩

theorem serialize_box (i : Iri) (buf : Bytes) (len : Nat) (hlen : 0 < len) (hb : len ≤ buf.length)
    (h1 : (0 : UInt8) ∉ i.schema) (h2 : (0 : UInt8) ∉ i.host) (h3 : (0 : UInt8) ∉ i.path) :
    ∃ m' ok, serializeIri i buf len = some (m', ok) ∧ boxed buf len (iriText i) m' ∧
      (ok = true ↔ (iriText i).length < len ∨ (i.path = [] ∧ i.query = [])) := by
  obtain ⟨m1, e1, b1⟩ := boxed_strlcpy buf i.schema len hlen hb
  obtain ⟨m2, l2, e2, b2, -⟩ := box_cat _ _ b%"://" _ hlen hb _ b1 h1
  obtain ⟨m3, l3, e3, b3, -⟩ := box_cat _ _ i.host _ hlen hb _ b2 (by simp [h1])
  obtain ⟨m4, l4, e4, b4, -⟩ := box_cat _ _ b%"/" _ hlen hb _ b3 (by simp [h1, h2])
  obtain ⟨m5, l5, e5, b5, hl5⟩ := box_cat _ _ i.path _ hlen hb _ b4 (by simp [h1, h2])
  unfold serializeIri
  simp only [e1, e2, e3, e4, e5, catM, Option.bind_some]
  by_cases hq : i.query = []
  · rw [if_neg (by simp [hq])]
    refine ⟨m5, _, rfl, by simpa [iriText, hq] using b5, ?_⟩
    have hpl : i.path = [] ↔ i.path.length = 0 := by simp
    simp only [decide_eq_true_eq, hl5, iriText, hq, if_true, List.append_nil, and_true, hpl]
    rw [List.length_append (as := i.schema ++ b%"://" ++ i.host ++ b%"/")]
    omega
  · obtain ⟨m6, l6, e6, b6, -⟩ := box_cat _ _ b%"?" _ hlen hb _ b5 (by simp [h1, h2, h3])
    obtain ⟨m7, l7, e7, b7, hl7⟩ := box_cat _ _ i.query _ hlen hb _ b6 (by simp [h1, h2, h3])
    rw [if_pos (by simpa using hq)]
    simp only [e6, Option.bind_some, e7]
    refine ⟨m7, _, rfl, by simpa [iriText, hq, List.append_assoc] using b7, ?_⟩
    have hql : 0 < i.query.length := List.length_pos_iff.2 hq
    simp only [decide_eq_true_eq, hl7, hq, and_false, or_false]
    have : (iriText i).length = (i.schema ++ b%"://" ++ i.host ++ b%"/" ++ i.path ++ b%"?").length + i.query.length := by
      simp [iriText, hq]; omega
    omega

/-- C10: serialize_iri stays within `len` bytes, always terminates the result, and leaves the
longest prefix of `scheme://host/path[?query]` that fits. -/
theorem C10_serialize_bounded (i : Iri) (buf : Bytes) (len : Nat) (hlen : 0 < len) (hb : len ≤ buf.length)
    (h1 : (0 : UInt8) ∉ i.schema) (h2 : (0 : UInt8) ∉ i.host) (h3 : (0 : UInt8) ∉ i.path)
    (h4 : (0 : UInt8) ∉ i.query) :
    ∃ m' ok, serializeIri i buf len = some (m', ok) ∧ m'.length = buf.length ∧
      m'.drop len = buf.drop len ∧ cstr m' = (iriText i).take (len - 1) := by
  obtain ⟨m', ok, e, hbx, -⟩ := serialize_box i buf len hlen hb h1 h2 h3
  have hn : (0 : UInt8) ∉ iriText i := by
    unfold iriText; split <;> simp [h1, h2, h3, h4]
  have hc := boxed_cstr _ _ _ _ hbx hn
  obtain ⟨junk, k1, k2⟩ := hbx
  refine ⟨m', ok, e, k2, ?_, hc⟩
  have hl := congrArg List.length k1
  rw [k2] at hl; simp at hl
  generalize iriText i = t at *
  rw [k1, List.drop_append, List.drop_of_length_le (by simp; omega), List.nil_append]
  obtain ⟨k, hk⟩ : ∃ k, len - (t.take (len - 1)).length = k + 1 :=
    ⟨len - (t.take (len - 1)).length - 1, by simp; omega⟩
  rw [hk, List.drop_succ_cons, List.drop_append, List.drop_of_length_le (by simp at hk; omega), List.nil_append]
  rw [show k - junk.length = 0 by simp at hk; omega]; rfl

/-- C10, partial: success means "not truncated" provided the path or the query is not empty.
Missing: the case where both are empty, for which the code is wrong, see the next theorem. -/
theorem C10_reports_truncation_partial (i : Iri) (buf : Bytes) (len : Nat) (hlen : 0 < len)
    (hb : len ≤ buf.length)
    (h1 : (0 : UInt8) ∉ i.schema) (h2 : (0 : UInt8) ∉ i.host) (h3 : (0 : UInt8) ∉ i.path)
    (h4 : (0 : UInt8) ∉ i.query) (hne : i.path ≠ [] ∨ i.query ≠ []) :
    ∃ m' ok, serializeIri i buf len = some (m', ok) ∧ (ok = true ↔ cstr m' = iriText i) := by
  obtain ⟨m', ok, e, hbx, hok⟩ := serialize_box i buf len hlen hb h1 h2 h3
  have hn : (0 : UInt8) ∉ iriText i := by
    unfold iriText; split <;> simp [h1, h2, h3, h4]
  refine ⟨m', ok, e, ?_⟩
  rw [hok, boxed_cstr _ _ _ _ hbx hn, take_self_iff]
  constructor
  · rintro (h | ⟨ha, hb⟩)
    · omega
    · rcases hne with h | h
      · exact absurd ha h
      · exact absurd hb h
  · intro h
    have : 0 < (iriText i).length := by simp [iriText]; omega
    left; omega

/-- C10 is false of the code as stated: for an IRI without path and query, serialize_iri reports
success although it truncated the host (the last strlcat, of the empty path, returns `len - 1`). -/
theorem C10_truncation_unreported :
    ∃ (i : Iri) (buf : Bytes) (m' : Bytes), buf.length = 12 ∧
      parseIri (fun _ => false) b%"gemini://example.org/" = .ok i ∧
      serializeIri i buf 12 = some (m', true) ∧ cstr m' = b%"gemini://ex" ∧ cstr m' ≠ iriText i := by
  refine ⟨⟨b%"gemini", b%"example.org", [], 1965, [], [], []⟩, List.replicate 12 0,
    b%"gemini://ex" ++ [0], ?_⟩
  decide +kernel

example : serializeIri ⟨b%"gemini", b%"h", [], 1965, b%"a/b", b%"q", []⟩ (List.replicate 20 7) 17 =
    some (b%"gemini://h/a/b?q" ++ [0, 7, 7, 7], true) := by decide +kernel

/-! ## C11: the relayed request -/

theorem decodes_append {P : UInt8 → Prop} {a b da db : Bytes} (ha : Decodes P a da) (hb : Decodes P b db) :
    Decodes P (a ++ b) (da ++ db) := by
  induction ha with
  | nil => simpa
  | lit c raw dec hc _ ih => exact .lit c _ _ hc ih
  | pct a b v raw dec h1 h2 _ ih => exact .pct a b v _ _ h1 h2 ih
  | multi u raw dec hu _ ih => rw [List.append_assoc, List.append_assoc]; exact .multi u _ _ hu ih

/-- without escapes, decoding changes nothing -/
theorem decodes_plain {P : UInt8 → Prop} {a d : Bytes} (h : Decodes P a d) (h37 : c%'%' ∉ a) : d = a := by
  induction h with
  | nil => rfl
  | lit c raw dec hc _ ih => simp at h37; rw [ih h37.2]
  | pct a b v raw dec _ _ _ ih => simp at h37
  | multi u raw dec hu _ ih => simp at h37; rw [ih h37.2]

theorem decodes_le {P : UInt8 → Prop} {a d : Bytes} (h : Decodes P a d) : d.length ≤ a.length := by
  induction h with
  | nil => simp
  | lit c raw dec hc _ ih => simp; omega
  | pct a b v raw dec _ _ _ ih => simp; omega
  | multi u raw dec hu _ ih => simp; omega

/-- lower-casing keeps a plain host a plain host -/
theorem decodes_lower {a d : Bytes} (h : Decodes HostChar a d) (h37 : c%'%' ∉ a) :
    Decodes HostChar (a.map lower) (a.map lower) := by
  have hcls : ∀ c, hostChar c = true → hostChar (lower c) = true := by decide +kernel
  induction h with
  | nil => exact .nil
  | lit c raw dec hc _ ih =>
    simp at h37
    exact .lit _ _ _ ((hostChar_iff _).1 (hcls c ((hostChar_iff c).2 hc))) (ih h37.2)
  | pct a b v raw dec _ _ _ ih => simp at h37
  | multi u raw dec hu _ ih =>
    simp at h37
    have : u.map lower = u := by
      have hb := (multi_bytes hu).2
      have key : ∀ c : UInt8, 128 ≤ c.toNat → lower c = c := by decide +kernel
      clear h37 ih hu
      induction u with
      | nil => rfl
      | cons x r ihr => simp at hb; simp [key x hb.1, ihr hb.2]
    rw [List.map_append, this]
    exact .multi u _ _ hu (ih h37.2)

/-- the components of a plain path are plain paths -/
theorem decodes_split {a d : Bytes} (h : Decodes PathChar a d) (h37 : c%'%' ∉ a) :
    ∀ c ∈ splitSlash a, Decodes PathChar c c := by
  suffices H : ∃ x xs, splitSlash a = x :: xs ∧ ∀ c ∈ x :: xs, Decodes PathChar c c by
    obtain ⟨x, xs, e, hh⟩ := H; rw [e]; exact hh
  induction h with
  | nil => exact ⟨[], [], rfl, by simp; exact .nil⟩
  | lit c raw dec hc _ ih =>
    simp at h37
    obtain ⟨x, xs, e, hh⟩ := ih h37.2
    by_cases h47 : c = 47
    · subst h47
      exact ⟨[], x :: xs, by simp [splitSlash, e], by
        intro c hc; rcases List.mem_cons.1 hc with rfl | hc
        · exact .nil
        · exact hh c hc⟩
    · refine ⟨c :: x, xs, by simp [splitSlash, e, h47], ?_⟩
      intro y hy
      rcases List.mem_cons.1 hy with rfl | hy
      · exact .lit c _ _ hc (hh x (by simp))
      · exact hh y (by simp [hy])
  | pct a b v raw dec _ _ _ ih => simp at h37
  | multi u raw dec hu _ ih =>
    simp at h37
    obtain ⟨x, xs, e, hh⟩ := ih h37.2
    refine ⟨u ++ x, xs, ?_, ?_⟩
    · have hb : ∀ y ∈ u, y ≠ 47 := by
        intro y hy e'; have := (multi_bytes hu).2 y hy; rw [e'] at this; exact absurd this (by decide)
      clear h37 ih hh hu
      induction u with
      | nil => simpa
      | cons y r ihr =>
        simp at hb
        simp only [List.cons_append, splitSlash, if_neg hb.1]
        rw [ihr hb.2]
    · intro y hy
      rcases List.mem_cons.1 hy with rfl | hy
      · exact .multi u _ _ hu (hh x (by simp))
      · exact hh y (by simp [hy])

theorem foldl_push_mem (l stk : List Bytes) : ∀ c ∈ l.foldl pushComp stk, c ∈ l ∨ c ∈ stk := by
  induction l generalizing stk with
  | nil => intro c hc; exact .inr hc
  | cons x r ih =>
    intro c hc
    rcases ih (pushComp stk x) c hc with h | h
    · exact .inl (by simp [h])
    · unfold pushComp at h
      split at h
      · exact .inr h
      · split at h
        · exact .inr (List.dropLast_subset _ h)
        · simp at h; rcases h with h | rfl
          · exact .inr h
          · exact .inl (by simp)

theorem decodes_join (l : List Bytes) (h : ∀ c ∈ l, Decodes PathChar c c) :
    Decodes PathChar (joinSlash l) (joinSlash l) := by
  induction l with
  | nil => exact .nil
  | cons a r ih =>
    cases r with
    | nil => exact h a (by simp)
    | cons b t =>
      simp only [joinSlash]
      exact decodes_append (h a (by simp)) (.lit 47 _ _ (by decide) (ih (fun c hc => h c (by simp [hc]))))

theorem decodes_normalize {a d : Bytes} (h : Decodes PathChar a d) (h37 : c%'%' ∉ a) :
    Decodes PathChar (normalize a) (normalize a) := by
  rw [normalize_def]
  apply decodes_append
  · apply decodes_join
    intro c hc
    rcases foldl_push_mem _ _ c hc with h' | h'
    · exact decodes_split h h37 c h'
    · simp at h'
  · split
    · exact .lit 47 _ _ (by decide) .nil
    · exact .nil

/-- C11, partial: an accepted request of at most 1024 bytes, for a host name and without any escape
before its query, is relayed as one line, at most one byte longer, which parses back to the same scheme, host, path and query.
Missing: requests with percent escapes, for which the property is false (see the theorems below),
bracketed addresses (whose brackets are dropped) and explicit ports (which are not relayed). -/
theorem C11_relayed_request_partial (isAddr : Bytes → Bool) (s : Bytes) (i : Iri)
    (h : parseIri isAddr s = .ok i) (hlen : s.length ≤ 1024)
    (hb : c%'[' ∉ s) (h37 : ∀ pre post, s = pre ++ c%'%' :: post → c%'?' ∈ pre)
    (buf : Bytes) (hbuf : buf.length = 1027) :
    ∃ m' j, serializeIri i buf 1027 = some (m', true) ∧ parseIri isAddr (cstr m') = .ok j ∧
      j.schema = i.schema ∧ j.host = i.host ∧ j.path = i.path ∧ j.query = i.query ∧
      c%'\n' ∉ cstr m' ∧ c%'\r' ∉ cstr m' ∧ j.port = [] ∧ (cstr m').length ≤ s.length + 1 ∧ (0 : UInt8) ∉ cstr m' := by
  have hg := (parseIri_iff _ _ _).1 h
  obtain ⟨sch, auth, pp, tail, rfl, h1, h2, h3, h4, ht⟩ := hg
  have hschq : ∀ x, x ∈ sch → x ∈ b%"ABCDEFGHIJKLMNOPQRSTUVWXYZabcdefghijklmnopqrstuvwxyz0123456789+-." := by
    obtain ⟨c, r, rfl, k1, k2⟩ := h1
    intro x hx
    rcases List.mem_cons.1 hx with rfl | hx
    · have key : ∀ x : UInt8, isAlpha x = true → schemeChar x = true := by decide +kernel
      exact (schemeChar_iff x).1 (key x ((isAlpha_iff x).2 k1))
    · exact k2 x hx
  have hschB : ∀ x, x ∈ sch → x ≠ 63 ∧ x ≠ 37 := by
    intro x hx
    have key : ∀ x : UInt8, schemeChar x = true → x ≠ 63 ∧ x ≠ 37 := by decide +kernel
    exact key x ((schemeChar_iff x).2 (hschq x hx))
  -- the host
  obtain ⟨dh, hdh, hhost⟩ : ∃ d, Decodes HostChar auth d ∧ i.host = d.map lower := by
    rcases h3 with ⟨rfl, -⟩ | h3
    · exact absurd (by simp) hb
    · exact h3
  have hnoq : ∀ {P : UInt8 → Prop} {a d : Bytes}, ¬ P 63 → Decodes P a d → c%'%' ∉ a → c%'?' ∉ a := by
    intro P a d hP hd
    induction hd with
    | nil => simp
    | lit c raw dec hc _ ih =>
      intro h; simp at h ⊢
      exact ⟨fun e => hP (e ▸ hc), ih h.2⟩
    | pct a b v raw dec _ _ _ ih => intro h; simp at h
    | multi u raw dec hu _ ih =>
      intro h; simp at h ⊢
      refine ⟨fun hm => ?_, ih h.2⟩
      have := (multi_bytes hu).2 _ hm; exact absurd this (by decide)
  -- no '%' in the host: the first one would come before any '?'
  have first37 : ∀ l : Bytes, c%'%' ∈ l → ∃ p q, l = p ++ c%'%' :: q ∧ c%'%' ∉ p := by
    intro l
    induction l with
    | nil => simp
    | cons c r ih =>
      intro hm
      by_cases hc : c = 37
      · exact ⟨[], r, by simp [hc], by simp⟩
      · have : (37 : UInt8) ∈ r := by simpa [Ne.symm hc] using hm
        obtain ⟨p, q, e, hp⟩ := ih this
        exact ⟨c :: p, q, by simp [e], by simp [hp, Ne.symm hc]⟩
  have noq2 : ∀ {P : UInt8 → Prop} {a d : Bytes}, ¬ P 63 → ¬ P 37 → Decodes P a d → ∀ p q, a = p ++ 37 :: q → c%'?' ∉ p := by
    intro P a d hP hP37 hd
    induction hd with
    | nil => intro p q e; simp at e
    | lit c raw dec hc _ ih =>
      intro p q e
      cases p with
      | nil => simp
      | cons x p =>
        simp at e
        have := ih p q e.2
        simp only [List.mem_cons, not_or]
        exact ⟨fun e' => hP (by rw [e', ← e.1]; exact hc), this⟩
    | pct a b v raw dec hab _ _ ih =>
      intro p q e
      have hx := (escape_iff a b v).1 hab
      cases p with
      | nil => simp
      | cons x p =>
        simp at e
        cases p with
        | nil => simp; intro e'; rw [← e.1] at e'; exact absurd e' (by decide)
        | cons y p =>
          simp at e
          cases p with
          | nil =>
            simp only [List.mem_cons, List.not_mem_nil, or_false, not_or]
            refine ⟨fun e' => ?_, fun e' => ?_⟩
            · rw [← e.1] at e'; exact absurd e' (by decide)
            · rw [e.2.1, ← e'] at hx; exact absurd hx.1 (by decide)
          | cons z p =>
            simp at e
            have := ih p q e.2.2.2
            simp only [List.mem_cons, not_or]
            refine ⟨fun e' => ?_, fun e' => ?_, fun e' => ?_, this⟩
            · rw [← e.1] at e'; exact absurd e' (by decide)
            · rw [e.2.1, ← e'] at hx; exact absurd hx.1 (by decide)
            · rw [e.2.2.1, ← e'] at hx; exact absurd hx.2.1 (by decide)
    | multi u raw dec hu _ ih =>
      intro p q e
      rcases List.append_eq_append_iff.1 e with ⟨as, k1, k2⟩ | ⟨bs, k1, k2⟩
      · subst k1
        simp only [List.mem_append, not_or]
        refine ⟨fun hm => ?_, ih as q k2⟩
        have := (multi_bytes hu).2 _ hm; exact absurd this (by decide)
      · intro hm
        have := (multi_bytes hu).2 63 (by rw [k1]; simp [hm]); exact absurd this (by decide)
  have hh37 : c%'%' ∉ auth := by
    intro hm
    obtain ⟨p, q, e, hp⟩ := first37 auth hm
    have := h37 (sch ++ b%"://" ++ p) (q ++ pp ++ tail) (by rw [e]; simp [List.append_assoc])
    simp at this
    rcases this with h' | h'
    · exact (hschB 63 h').1 rfl
    · exact noq2 (by decide) (by decide) hdh p q e h'
  have hhd : Decodes HostChar i.host i.host := by
    rw [hhost, decodes_plain hdh hh37]; exact decodes_lower hdh hh37
  -- the scheme
  have hsch' : SchemeName i.schema := by
    obtain ⟨c, r, rfl, k1, k2⟩ := h1
    have a1 : ∀ c : UInt8, isAlpha c = true → isAlpha (lower c) = true := by decide +kernel
    have a2 : ∀ c : UInt8, schemeChar c = true → schemeChar (lower c) = true := by decide +kernel
    refine ⟨lower c, r.map lower, by rw [h2]; rfl, (isAlpha_iff _).1 (a1 c ((isAlpha_iff c).2 k1)), ?_⟩
    intro x hx
    obtain ⟨y, hy, rfl⟩ := List.mem_map.1 hx
    exact (schemeChar_iff _).1 (a2 y ((schemeChar_iff y).2 (k2 y hy)))
  have hschl : i.schema.map lower = i.schema := by
    have : ∀ c, lower (lower c) = lower c := by decide +kernel
    rw [h2, List.map_map]; congr 1; funext c; exact this c
  have hhostl : i.host.map lower = i.host := by
    have : ∀ c, lower (lower c) = lower c := by decide +kernel
    rw [hhost, List.map_map]; congr 1; funext c; exact this c
  -- the port contains neither '?' nor '%'
  have hppq : c%'?' ∉ pp := by
    rcases h4 with ⟨rfl, -⟩ | ⟨rfl, k, -⟩
    · simp
    · simp; intro hm; exact absurd (k _ hm) (by decide)
  -- the path
  have hpath : Decodes PathChar i.path i.path ∧ normalize i.path = i.path ∧
      i.path.length + (if i.query = [] then 0 else 1 + i.query.length) ≤ tail.length ∧
      (i.query = [] ∨ ∃ d, Decodes QueryChar i.query d) := by
    rcases ht with ⟨rfl, e1, e2, e3⟩ | ⟨rp, d, qf, rfl, k1, k2, k3⟩
    · rw [e1, e2]; exact ⟨.nil, rfl, by simp, .inl rfl⟩
    · have hp37 : c%'%' ∉ rp := by
        intro hm
        obtain ⟨p, q, e, hp⟩ := first37 rp hm
        have := h37 (sch ++ b%"://" ++ auth ++ pp ++ c%'/' :: p) (q ++ qf) (by rw [e]; simp [List.append_assoc])
        simp at this
        rcases this with h' | h' | h' | h'
        · exact (hschB 63 h').1 rfl
        · exact hnoq (by decide) hdh hh37 h'
        · exact hppq h'
        · exact noq2 (by decide) (by decide) k1 p q e h'
      have e1 := decodes_plain k1 hp37
      subst e1
      refine ⟨by rw [k2]; exact decodes_normalize k1 hp37, by rw [k2]; exact normalize_idem _, ?_, ?_⟩
      · have hnl := normalize_length d
        rw [← k2] at hnl
        rcases k3 with ⟨rfl, e2, e3⟩ | ⟨rfl, e2⟩ | ⟨rfl, e2, -⟩ | ⟨rfl, e2⟩
        · rw [e2]; simp; omega
        · rw [e2]; simp; omega
        · split <;> simp <;> omega
        · split <;> simp <;> omega
      · rcases k3 with ⟨-, e2, e3⟩ | ⟨-, e2⟩ | ⟨-, -, e2⟩ | ⟨-, e2⟩
        · exact .inl e2
        · exact .inl e2
        · exact .inr e2
        · exact .inr e2
  obtain ⟨p1, p2, p3, p4⟩ := hpath
  -- NUL freedom
  have z1 : (0 : UInt8) ∉ i.schema := by
    obtain ⟨c, r, e, k1, k2⟩ := hsch'
    rw [e]; intro hm
    rcases List.mem_cons.1 hm with e' | hm
    · rw [← e'] at k1; exact absurd k1 (by decide)
    · exact absurd (k2 _ hm) (by decide)
  have z2 : (0 : UInt8) ∉ i.host := pt_nonul okHost ((pt_decodes hostChar_iff _ _).2 hhd)
  have z3 : (0 : UInt8) ∉ i.path := pt_nonul okPath ((pt_decodes pathChar_iff _ _).2 p1)
  have noctl : ∀ {P : UInt8 → Prop} {a d : Bytes}, (∀ c, P c → 32 ≤ c.toNat) → Decodes P a d → ∀ x ∈ a, 32 ≤ x.toNat := by
    intro P a d hP hd
    induction hd with
    | nil => simp
    | lit c raw dec hc _ ih =>
      intro x hx; rcases List.mem_cons.1 hx with rfl | hx
      · exact hP _ hc
      · exact ih x hx
    | pct a b v raw dec hab _ _ ih =>
      have hx := (escape_iff a b v).1 hab
      have key : ∀ c, isXdigit c = true → 32 ≤ c.toNat := by decide +kernel
      intro x hx'
      simp only [List.mem_cons] at hx'
      rcases hx' with rfl | rfl | rfl | hx'
      · decide
      · exact key _ hx.1
      · exact key _ hx.2.1
      · exact ih x hx'
    | multi u raw dec hu _ ih =>
      intro x hx
      rcases List.mem_append.1 hx with hx | hx
      · have := (multi_bytes hu).2 x hx; omega
      · exact ih x hx
  have c1 : ∀ x ∈ i.schema, 32 ≤ x.toNat := by
    intro x hx
    rw [h2] at hx
    obtain ⟨y, hy, rfl⟩ := List.mem_map.1 hx
    have key : ∀ y, schemeChar y = true → 32 ≤ (lower y).toNat := by decide +kernel
    exact key y ((schemeChar_iff y).2 (hschq y hy))
  have c2 := noctl (by decide +kernel : ∀ c, HostChar c → 32 ≤ c.toNat) hhd
  have c3 := noctl (by decide +kernel : ∀ c, PathChar c → 32 ≤ c.toNat) p1
  have c4 : ∀ x ∈ i.query, 32 ≤ x.toNat := by
    rcases p4 with e | ⟨d, hd⟩
    · rw [e]; simp
    · exact noctl (by decide +kernel : ∀ c, QueryChar c → 32 ≤ c.toNat) hd
  have ctext : ∀ x ∈ iriText i, 32 ≤ x.toNat := by
    intro x hx
    unfold iriText at hx
    have hq : x ∈ (if i.query = [] then [] else b%"?" ++ i.query) → 32 ≤ x.toNat := by
      split
      · simp
      · intro hx; simp at hx; rcases hx with rfl | hx
        · decide
        · exact c4 x hx
    simp only [List.mem_append] at hx
    rcases hx with ((((hx | hx) | hx) | hx) | hx) | hx
    · exact c1 x hx
    · exact (by decide +kernel : ∀ x ∈ b%"://", 32 ≤ x.toNat) x hx
    · exact c2 x hx
    · exact (by decide +kernel : ∀ x ∈ b%"/", 32 ≤ x.toNat) x hx
    · exact c3 x hx
    · exact hq hx
  have ztext : (0 : UInt8) ∉ iriText i := fun hm => absurd (ctext 0 hm) (by decide)
  obtain ⟨m', ok, e, hbx, hok⟩ := serialize_box i buf 1027 (by decide) (by omega) z1 z2 z3
  have hlt0 : (iriText i).length ≤ (sch ++ b%"://" ++ auth ++ pp ++ tail).length + 1 := by
    have l1 : i.schema.length = sch.length := by rw [h2]; simp
    have l2 : i.host.length ≤ auth.length := by rw [hhost]; simpa using decodes_le hdh
    have l3 : (iriText i).length = i.schema.length + 3 + i.host.length + 1 + i.path.length +
        (if i.query = [] then 0 else 1 + i.query.length) := by
      unfold iriText; split <;> simp <;> omega
    simp only [List.length_append]
    have : (b%"://" : Bytes).length = 3 := rfl
    omega
  have hlt : (iriText i).length ≤ 1025 := by omega
  have hokt : ok = true := hok.2 (.inl (by omega))
  have hc : cstr m' = iriText i := by
    rw [boxed_cstr _ _ _ _ hbx ztext]; exact List.take_of_length_le (by omega)
  refine ⟨m', ⟨i.schema, i.host, [], 1965, i.path, i.query, []⟩, by rw [e, hokt], ?_, rfl, rfl, rfl, rfl, ?_, ?_, rfl, by rw [hc]; exact hlt0, by rw [hc]; exact ztext⟩
  · rw [hc, parseIri_iff]
    refine ⟨i.schema, i.host, [], b%"/" ++ i.path ++ (if i.query = [] then [] else b%"?" ++ i.query), ?_, hsch', hschl.symm,
      .inr ⟨i.host, hhd, hhostl.symm⟩, .inl ⟨rfl, rfl, rfl⟩, .inr ⟨i.path, i.path, _, rfl, p1, p2.symm, ?_⟩⟩
    · simp [iriText, List.append_assoc]
    · by_cases hq : i.query = []
      · left; simp [hq]
      · right; right; left
        rcases p4 with e | e
        · exact absurd e hq
        · simp [hq]; exact e
  · rw [hc]; intro hm; exact absurd (ctext _ hm) (by decide)
  · rw [hc]; intro hm; exact absurd (ctext _ hm) (by decide)

example : parseIri (fun _ => false) b%"gemini://ex.org:70/a/../b?q%20x#f" = .ok
    ⟨b%"gemini", b%"ex.org", b%"70", 70, b%"b", b%"q%20x", b%"f"⟩ := by decide +kernel

/-- C11 is false of the code: the path is relayed decoded, so an escaped question mark becomes a
query separator ... -/
theorem C11_relayed_resource_differs :
    ∃ (i j : Iri) (m' : Bytes),
      parseIri (fun _ => false) b%"gemini://h/a%3Fb" = .ok i ∧
      serializeIri i (List.replicate 1025 0) 1025 = some (m', true) ∧
      parseIri (fun _ => false) (cstr m') = .ok j ∧ i.path = b%"a?b" ∧ j.path = b%"a" ∧
      i.query = [] ∧ j.query = b%"b" := by
  refine ⟨⟨b%"gemini", b%"h", [], 1965, b%"a?b", [], []⟩,
    ⟨b%"gemini", b%"h", [], 1965, b%"a", b%"b", []⟩,
    b%"gemini://h/a?b" ++ List.replicate 1011 0, ?_⟩
  decide +kernel

/-- ... and an escaped CRLF ends the request line early, so the client chooses the line the
upstream server sees. -/
theorem C11_relayed_line_injection :
    ∃ (i : Iri) (m' : Bytes),
      parseIri (fun _ => false) b%"gemini://h/a%0D%0Ab" = .ok i ∧
      serializeIri i (List.replicate 1025 0) 1025 = some (m', true) ∧
      cstr m' = b%"gemini://h/a\r\nb" := by
  refine ⟨⟨b%"gemini", b%"h", [], 1965, b%"a\r\nb", [], []⟩,
    b%"gemini://h/a\r\nb" ++ List.replicate 1010 0, ?_⟩
  decide +kernel

end Gmid.Props
