import Verif.Model.Mime

/-! # C26 (MIME type lookup) and C27 (growth of the table) -/

set_option autoImplicit false

namespace Gmid.Spec

/-- `ext` is the text after the last dot of the last component of `path` (a dot that is the very
first byte of the path does not start an extension) -/
def ExtOf (path ext : List UInt8) : Prop :=
  ∃ pre, pre ≠ [] ∧ path = pre ++ c%'.' :: ext ∧ c%'.' ∉ ext ∧ c%'/' ∉ ext

/-- sorted by extension, as qsort(3) leaves the table -/
def SortedExt (t : List Etm) : Prop := t.Pairwise (fun a b => strcmp a.ext b.ext ≠ .gt)

end Gmid.Spec

namespace Gmid.Props
open Spec

theorem strcmp_eq_iff (a b : Bytes) : strcmp a b = .eq ↔ a = b := by
  induction a generalizing b with
  | nil => cases b <;> simp [strcmp]
  | cons x a ih =>
    cases b with
    | nil => simp [strcmp]
    | cons y b =>
      simp only [strcmp]
      by_cases h : x = y
      · simp [h, ih]
      · rw [if_neg h]; by_cases h' : x < y <;> simp [h, h']

theorem strcmp_swap (a b : Bytes) : strcmp a b = .lt ↔ strcmp b a = .gt := by
  induction a generalizing b with
  | nil => cases b <;> simp [strcmp]
  | cons x a ih =>
    cases b with
    | nil => simp [strcmp]
    | cons y b =>
      simp only [strcmp]
      by_cases h : x = y
      · simp [h, ih]
      · have h1 : ¬ y = x := fun e => h e.symm
        rw [if_neg h, if_neg h1]
        by_cases h' : x < y
        · have : ¬ y < x := by rw [UInt8.lt_iff_toNat_lt] at *; omega
          simp [h', this]
        · have : y < x := by
            have : x.toNat ≠ y.toNat := fun e => h (UInt8.toNat_inj.1 e)
            rw [UInt8.lt_iff_toNat_lt] at *; omega
          simp [h', this]

theorem bsearchLoop_spec (key : Bytes) (t : List Etm) (hs : SortedExt t) (n l u : Nat)
    (hn : u - l < n) (hu : u ≤ t.length)
    (hout : ∀ i (h : i < t.length), t[i].ext = key → l ≤ i ∧ i < u) :
    (∀ e, bsearchLoop key t n l u = some e → e ∈ t ∧ e.ext = key) ∧
    (bsearchLoop key t n l u = none → ∀ e ∈ t, e.ext ≠ key) := by
  induction n generalizing l u with
  | zero => omega
  | succ n ih =>
    by_cases hlu : l < u
    · have hi : (l + u) / 2 < t.length := by omega
      have hp := List.pairwise_iff_getElem.1 hs
      simp only [bsearchLoop, hlu, if_true, List.getElem?_eq_getElem hi]
      cases hc : strcmp key (t[(l + u) / 2]).ext with
      | eq =>
        simp only [Option.some.injEq]
        refine ⟨?_, by simp⟩
        rintro e rfl
        exact ⟨List.getElem_mem _, ((strcmp_eq_iff _ _).1 hc).symm⟩
      | lt =>
        refine ih l ((l + u) / 2) (by omega) (by omega) ?_
        intro j hj e
        obtain ⟨h1, h2⟩ := hout j hj e
        refine ⟨h1, ?_⟩
        by_cases hlt : j < (l + u) / 2
        · exact hlt
        · exfalso
          rcases Nat.eq_or_lt_of_le (Nat.le_of_not_lt hlt) with he | he
          · subst he
            rw [e, (strcmp_eq_iff key key).2 rfl] at hc; cases hc
          · have := hp _ _ hi hj he
            rw [e] at this
            exact this ((strcmp_swap _ _).1 hc)
      | gt =>
        refine ih ((l + u) / 2 + 1) u (by omega) (by omega) ?_
        intro j hj e
        obtain ⟨h1, h2⟩ := hout j hj e
        refine ⟨?_, h2⟩
        by_cases hlt : (l + u) / 2 < j
        · exact hlt
        · exfalso
          rcases Nat.eq_or_lt_of_le (Nat.le_of_not_lt hlt) with he | he
          · subst he
            rw [e, (strcmp_eq_iff key key).2 rfl] at hc; cases hc
          · have := hp _ _ hj hi he
            rw [e] at this
            exact this hc
    · simp only [bsearchLoop, hlu, if_false]
      refine ⟨by simp, fun _ e he hk => ?_⟩
      obtain ⟨i, hi, rfl⟩ := List.mem_iff_getElem.1 he
      have := hout i hi hk
      omega

theorem bsearchExt_spec (key : Bytes) (t : List Etm) (hs : SortedExt t) :
    (∀ e, bsearchExt key t = some e → e ∈ t ∧ e.ext = key) ∧
    (bsearchExt key t = none → ∀ e ∈ t, e.ext ≠ key) :=
  bsearchLoop_spec key t hs _ _ _ (by omega) (Nat.le_refl _) (fun i h _ => ⟨by omega, h⟩)

theorem pathExtLoop_spec (r acc : Bytes) (hne : r ≠ []) (h1 : c%'.' ∉ acc) (h2 : c%'/' ∉ acc) :
    (∀ ext, pathExtLoop r acc = some ext → ExtOf (r.reverse ++ acc) ext) ∧
    (pathExtLoop r acc = none → ∀ ext, ¬ ExtOf (r.reverse ++ acc) ext) := by
  induction r generalizing acc with
  | nil => exact absurd rfl hne
  | cons c r ih =>
    cases r with
    | nil =>
      simp only [pathExtLoop]
      refine ⟨by simp, fun _ ext ⟨pre, hp, he, _⟩ => ?_⟩
      cases pre with
      | nil => exact hp rfl
      | cons x pre => simp at he; rw [he.2] at h1; simp at h1
    | cons d r =>
      simp only [pathExtLoop]
      split
      · rename_i hc
        subst hc
        simp only [Option.some.injEq]
        refine ⟨?_, by simp⟩
        rintro ext rfl
        exact ⟨(d :: r).reverse, by simp, by simp, h1, h2⟩
      · rename_i hc
        split
        · rename_i hc'
          subst hc'
          refine ⟨by simp, fun _ ext ⟨pre, hp, he, g1, g2⟩ => ?_⟩
          simp only [List.reverse_cons, List.append_assoc] at he
          have : r.reverse ++ ([d] ++ ([47] ++ acc)) = (r.reverse ++ [d]) ++ 47 :: acc := by simp
          rw [this] at he
          rcases List.append_eq_append_iff.1 he with ⟨as, k1, k2⟩ | ⟨bs, k1, k2⟩
          · cases as with
            | nil => simp at k2
            | cons x as => simp at k2; exact h1 (by rw [k2.2]; simp)
          · cases bs with
            | nil => simp at k2
            | cons x bs => simp at k2; exact g2 (by rw [k2.2]; simp)
        · rename_i hc'
          have := ih (c :: acc) (by simp) (by simp [Ne.symm hc, h1]) (by simp [Ne.symm hc', h2])
          simpa using this

/-- The extension found is the one described by `ExtOf` -/
theorem pathExt_spec (path : Bytes) (hne : path ≠ []) :
    ∃ o, pathExt path = .ok o ∧ (∀ ext, o = some ext → ExtOf path ext) ∧
      (o = none → ∀ ext, ¬ ExtOf path ext) := by
  have := pathExtLoop_spec path.reverse [] (by simpa using hne) (by simp) (by simp)
  simp only [List.reverse_reverse, List.append_nil] at this
  exact ⟨_, if_neg hne, this.1, this.2⟩

theorem ExtOf_unique (path e1 e2 : Bytes) (h1 : ExtOf path e1) (h2 : ExtOf path e2) : e1 = e2 := by
  obtain ⟨p1, -, k1, d1, -⟩ := h1
  obtain ⟨p2, -, k2, d2, -⟩ := h2
  rw [k1] at k2
  rcases List.append_eq_append_iff.1 k2 with ⟨as, k3, k4⟩ | ⟨bs, k3, k4⟩
  · cases as with
    | nil => simp at k4; exact k4
    | cons x as => simp at k4; exact absurd (by rw [k4.2]; simp) d1
  · cases bs with
    | nil => simp at k4; exact k4.symm
    | cons x bs => simp at k4; exact absurd (by rw [k4.2]; simp) d2

/-- C26.  `t` is the table as configured, `t'` any sorted rearrangement of it (what qsort(3) may
produce).  The type of a nonempty path is: that of an entry for its extension, if there is one;
else text/gemini for gmi and gemini; else the default for that location. -/
theorem C26_mime_type (fnm : Bytes → Bytes → Bool) (t t' : List Etm) (hp : List.Perm t' t)
    (hs : SortedExt t') (v : Option Vhost) (path : Bytes) (hne : path ≠ []) :
    (∀ ext, ExtOf path ext → (∃ e ∈ t, e.ext = ext) →
      ∃ e ∈ t, e.ext = ext ∧ mimeType fnm t' v path = .ok e.mime) ∧
    (∀ ext, ExtOf path ext → (∀ e ∈ t, e.ext ≠ ext) → (ext = b%"gmi" ∨ ext = b%"gemini") →
      mimeType fnm t' v path = .ok b%"text/gemini") ∧
    (∀ ext, ExtOf path ext → (∀ e ∈ t, e.ext ≠ ext) → ext ≠ b%"gmi" → ext ≠ b%"gemini" →
      mimeType fnm t' v path = .ok (vhostDefaultMime fnm v (some path))) ∧
    ((¬ ∃ ext, ExtOf path ext) → mimeType fnm t' v path = .ok (vhostDefaultMime fnm v (some path))) := by
  obtain ⟨o, ho, h1, h2⟩ := pathExt_spec path hne
  have hb := fun k => bsearchExt_spec k t' hs
  have key : ∀ ext, ExtOf path ext → o = some ext := by
    intro ext h
    cases ho' : o with
    | none => exact absurd h (h2 ho' ext)
    | some e => rw [ExtOf_unique path _ _ h (h1 e ho')]
  have nofind : ∀ ext, (∀ e ∈ t, e.ext ≠ ext) → bsearchExt ext t' = none := by
    intro ext h
    cases hf : bsearchExt ext t' with
    | none => rfl
    | some e => exact absurd ((hb ext).1 e hf).2 (h e (hp.mem_iff.1 ((hb ext).1 e hf).1))
  refine ⟨?_, ?_, ?_, ?_⟩
  · rintro ext he ⟨e, hm, hx⟩
    cases hf : bsearchExt ext t' with
    | none => exact absurd hx ((hb ext).2 hf e (hp.mem_iff.2 hm))
    | some e' =>
      refine ⟨e', hp.mem_iff.1 ((hb ext).1 e' hf).1, ((hb ext).1 e' hf).2, ?_⟩
      simp [mimeType, ho, key ext he, hf]
  · intro ext he hn hg
    rcases hg with rfl | rfl
    · simp [mimeType, ho, key _ he, nofind _ hn]
    · simp [mimeType, ho, key _ he, nofind _ hn]
  · intro ext he hn g1 g2
    simp [mimeType, ho, key _ he, nofind _ hn, g1, g2]
  · intro h
    cases ho' : o with
    | none => simp [mimeType, ho, ho']
    | some e => exact absurd ⟨e, h1 e ho'⟩ h

/-- the four cases of C26 are met: a mapped type, a fallback, the default twice -/
example : let t : List Etm := [⟨b%"x/a", b%"a"⟩, ⟨b%"x/b", b%"b"⟩, ⟨b%"x/c", b%"c"⟩]
    SortedExt t ∧ mimeType (fun _ _ => false) t none b%"d.x/f.tar.b" = .ok b%"x/b" ∧
    mimeType (fun _ _ => false) t none b%"f.gmi" = .ok b%"text/gemini" ∧
    mimeType (fun _ _ => false) t none b%"d.a/f" = .ok b%"application/octet-stream" ∧
    mimeType (fun _ _ => false) t none b%"f.zip" = .ok b%"application/octet-stream" := by
  refine ⟨by simp [SortedExt]; decide, by decide, by decide, by decide, by decide⟩
example : ExtOf b%"d.x/f.tar.b" b%"b" := ⟨b%"d.x/f.tar", by simp, by simp, by simp, by simp⟩

/-! ## C27 -/

/-- A sequence of add_mime calls, each with the outcome the allocator will have if it is asked;
the result is the table and the calls that returned success. -/
def runAdds : List (Bool × Etm) → MimeTab → Res (MimeTab × List Etm)
  | [], m => .ok (m, [])
  | (al, e) :: r, m =>
    match addMime al m e.mime e.ext with
    | .ok (m', b) =>
      match runAdds r m' with
      | .ok (m'', l) => .ok (m'', if b then e :: l else l)
      | .err => .err
      | .ub => .ub
    | .err => .err
    | .ub => .ub

/-- the array has as many slots as the capacity says, which is at least 2 so that growing by half
makes room -/
def MimeWf (m : MimeTab) : Prop := m.t.length = m.cap ∧ m.len ≤ m.cap ∧ 2 ≤ m.cap

/-- C27, one call: no write outside the array; success iff both strings fit (127 bytes) and memory
was available when needed; on success the pair is added at the end, on failure nothing changes. -/
theorem C27_add (al : Bool) (m : MimeTab) (e : Etm) (hw : MimeWf m) :
    ∃ m' b, addMime al m e.mime e.ext = .ok (m', b) ∧ MimeWf m' ∧
      (b = true ↔ e.mime.length < 128 ∧ e.ext.length < 128 ∧ (m.len < m.cap ∨ al = true)) ∧
      m'.entries = if b then m.entries ++ [e] else m.entries := by
  obtain ⟨w1, w2, w3⟩ := hw
  have grow : (mimeGrow al m = none ∧ ¬ (m.len < m.cap ∨ al = true)) ∨
      ∃ m1, mimeGrow al m = some m1 ∧ m1.t.length = m1.cap ∧ m1.len < m1.cap ∧ 2 ≤ m1.cap ∧
        m1.len = m.len ∧ m1.entries = m.entries ∧ (m.len < m.cap ∨ al = true) := by
    unfold mimeGrow
    by_cases hf : m.len = m.cap
    · rw [if_pos hf]
      cases al with
      | false => left; simp; omega
      | true =>
        right
        refine ⟨_, rfl, ?_, ?_, ?_, rfl, ?_, Or.inr rfl⟩
        · simp [List.length_take, w1]; omega
        · simp; omega
        · simp; omega
        · have h1 : m.t.take (m.cap * 3 / 2) = m.t := List.take_of_length_le (by omega)
          simp only [MimeTab.entries, h1]
          rw [List.take_append_of_le_length (by omega)]
    · rw [if_neg hf]
      right
      exact ⟨m, rfl, w1, by omega, w3, rfl, rfl, Or.inl (by omega)⟩
  rcases grow with ⟨g1, g2⟩ | ⟨m1, g1, g2, g3, g4, g5, g6, g7⟩
  · refine ⟨m, false, by simp [addMime, g1], ⟨w1, w2, w3⟩, by simp [g2], by simp⟩
  · have hi : m1.len < m1.t.length := by omega
    have hent : ∀ x, (m1.t.set m1.len x).take m1.len = m1.entries := by
      intro x
      simp only [MimeTab.entries]
      rw [List.take_set_of_le (Nat.le_refl _)]
    simp only [addMime, g1, List.getElem?_eq_getElem hi, field128]
    by_cases hm : 128 ≤ e.mime.length
    · refine ⟨{ m1 with t := m1.t.set m1.len { m1.t[m1.len] with mime := e.mime.take 127 } }, false,
        by simp [hm], ⟨by simpa using g2, by simp; omega, g4⟩, by simp; omega, ?_⟩
      simp only [MimeTab.entries] at hent ⊢
      rw [hent]; simpa [MimeTab.entries] using g6
    · by_cases hx : 128 ≤ e.ext.length
      · refine ⟨{ m1 with t := m1.t.set m1.len { mime := e.mime.take 127, ext := e.ext.take 127 } }, false,
          by simp [hm, hx], ⟨by simpa using g2, by simp; omega, g4⟩, by simp; omega, ?_⟩
        simp only [MimeTab.entries] at hent ⊢
        rw [hent]; simpa [MimeTab.entries] using g6
      · refine ⟨{ m1 with t := m1.t.set m1.len { mime := e.mime.take 127, ext := e.ext.take 127 }, len := m1.len + 1 },
          true, by simp [hm, hx], ⟨by simpa using g2, by simp; omega, g4⟩, by simp [g7]; omega, ?_⟩
        have t1 : e.mime.take 127 = e.mime := List.take_of_length_le (by omega)
        have t2 : e.ext.take 127 = e.ext := List.take_of_length_le (by omega)
        simp only [MimeTab.entries, t1, t2, if_true] at g6 ⊢
        rw [List.take_add_one, List.take_set_of_le (Nat.le_refl _), g6]
        simp [hi]

/-- C27, any sequence of additions starting from an empty table: no write is ever outside the
array, and the table holds exactly the pairs whose addition succeeded, in order. -/
theorem C27_adds (ops : List (Bool × Etm)) :
    ∃ m added, runAdds ops initMime = .ok (m, added) ∧ m.entries = added ∧ m.len = added.length ∧
      ((∀ o ∈ ops, o.1 = true) →
        added = (ops.map Prod.snd).filter (fun e => e.mime.length < 128 && e.ext.length < 128)) := by
  have : ∀ (ops : List (Bool × Etm)) (m0 : MimeTab), MimeWf m0 →
      ∃ m added, runAdds ops m0 = .ok (m, added) ∧ MimeWf m ∧ m.entries = m0.entries ++ added ∧
      ((∀ o ∈ ops, o.1 = true) →
        added = (ops.map Prod.snd).filter (fun e => e.mime.length < 128 && e.ext.length < 128)) := by
    intro ops
    induction ops with
    | nil => intro m0 h; exact ⟨m0, [], rfl, h, by simp, by simp⟩
    | cons o r ih =>
      intro m0 h
      obtain ⟨al, e⟩ := o
      obtain ⟨m1, b, h1, h2, h3, h4⟩ := C27_add al m0 e h
      obtain ⟨m2, l, k1, k2, k3, k4⟩ := ih m1 h2
      refine ⟨m2, if b then e :: l else l, by simp [runAdds, h1, k1], k2, ?_, ?_⟩
      · rw [k3, h4]; cases b <;> simp
      · intro ha
        have ha' : al = true := ha (al, e) (by simp)
        have := k4 (fun o ho => ha o (by simp [ho]))
        subst ha'
        by_cases hb : e.mime.length < 128 ∧ e.ext.length < 128
        · have hb' : b = true := h3.2 ⟨hb.1, hb.2, Or.inr rfl⟩
          rw [hb', this]; simp [hb]
        · have hb' : b = false := by
            cases b with
            | false => rfl
            | true => exact absurd ⟨(h3.1 rfl).1, (h3.1 rfl).2.1⟩ hb
          rw [hb', this]
          have : ¬ (e.mime.length < 128 && e.ext.length < 128) = true := by simpa using hb
          rw [List.map_cons, List.filter_cons, if_neg this]; simp
  obtain ⟨m, l, h1, h2, h3, h4⟩ := this ops initMime ⟨by simp [initMime], by simp [initMime], by simp [initMime]⟩
  have he : m.entries = l := by rw [h3]; simp [MimeTab.entries, initMime]
  refine ⟨m, l, h1, he, ?_, h4⟩
  rw [← he, MimeTab.entries, List.length_take, h2.1]
  have := h2.2.1
  omega

/-- 40 additions, so that the table grows twice, one of them too long -/
example : ((runAdds ((List.range 40).map fun i => (true, ⟨b%"t", List.replicate (i * 4) c%'x'⟩)) initMime).val?.map
    fun r => (r.1.len, r.1.cap)) = some (32, 36) := by decide +kernel

/-- C27: the default table is used exactly when no type was configured. -/
theorem C27_defaults (al : Bool) (m : MimeTab) (hw : MimeWf m) :
    ∃ m' b, loadDefaultMime al m = .ok (m', b) ∧
      (m.len ≠ 0 → m' = m ∧ b = true) ∧
      (m.len = 0 → al = true → b = true ∧ m'.entries = defaultMimes) := by
  by_cases hl : m.len = 0
  · have : ∀ (l : List Etm) (m0 : MimeTab), MimeWf m0 → ∃ m' b, loadLoop al l m0 = .ok (m', b) ∧
        (al = true → (∀ e ∈ l, e.mime.length < 128 ∧ e.ext.length < 128) →
          b = true ∧ m'.entries = m0.entries ++ l) := by
      intro l
      induction l with
      | nil => intro m0 h; exact ⟨m0, true, rfl, by simp⟩
      | cons e r ih =>
        intro m0 h
        obtain ⟨m1, b, h1, h2, h3, h4⟩ := C27_add al m0 e h
        cases b with
        | false =>
          refine ⟨m1, false, by simp [loadLoop, h1], fun ha hb => ?_⟩
          exact absurd (h3.2 ⟨(hb e (by simp)).1, (hb e (by simp)).2, Or.inr ha⟩) (by simp)
        | true =>
          obtain ⟨m2, b2, k1, k2⟩ := ih m1 h2
          refine ⟨m2, b2, by simp [loadLoop, h1, k1], fun ha hb => ?_⟩
          obtain ⟨q1, q2⟩ := k2 ha (fun e he => hb e (by simp [he]))
          exact ⟨q1, by rw [q2, h4]; simp⟩
    obtain ⟨m', b, h1, h2⟩ := this defaultMimes m hw
    refine ⟨m', b, by simp [loadDefaultMime, hl, h1], fun h => absurd hl h, fun _ ha => ?_⟩
    obtain ⟨q1, q2⟩ := h2 ha (by decide)
    exact ⟨q1, by rw [q2]; simp [MimeTab.entries, hl]⟩
  · exact ⟨m, true, by simp [loadDefaultMime, hl], fun _ => ⟨rfl, rfl⟩, fun h => absurd h hl⟩

example : MimeWf initMime := ⟨by simp [initMime], by simp [initMime], by simp [initMime]⟩

end Gmid.Props
