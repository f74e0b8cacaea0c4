import Verif.Model.Lex

/-!
# Lemmas about the lexer

What the lexer does depends only on the characters it is going to read; for each of them, only for `$` and `@` matters whether it
comes from a macro.
-/

set_option autoImplicit false

namespace Gmid

/-- the characters igetc returns, each with the value of `expanding` after it -/
def chars : Bool → Bytes → List (UInt8 × Bool)
  | _, [] => []
  | e, c :: r =>
    if c = startExpand then chars true r
    else if c = doneExpand then chars false r
    else (c, e) :: chars e r

/-- `expanding` after all of them -/
def endF : Bool → Bytes → Bool
  | e, [] => e
  | e, c :: r =>
    if c = startExpand then endF true r
    else if c = doneExpand then endF false r
    else endF e r

theorem chars_append (e : Bool) (a b : Bytes) : chars e (a ++ b) = chars e a ++ chars (endF e a) b := by
  induction a generalizing e with
  | nil => rfl
  | cons c r ih =>
    simp only [List.cons_append, chars, endF]
    split
    · exact ih _
    · split
      · exact ih _
      · rw [ih]; rfl

theorem endF_append (e : Bool) (a b : Bytes) : endF e (a ++ b) = endF (endF e a) b := by
  induction a generalizing e with
  | nil => rfl
  | cons c r ih =>
    simp only [List.cons_append, endF]
    split
    · exact ih _
    · split
      · exact ih _
      · exact ih _

/-- a byte that igetc drops -/
def Marker (c : UInt8) : Prop := c = startExpand ∨ c = doneExpand

instance (c : UInt8) : Decidable (Marker c) := by unfold Marker; infer_instance

theorem chars_clean (e : Bool) (a : Bytes) (h : ∀ c ∈ a, ¬ Marker c) : chars e a = a.map (fun c => (c, e)) := by
  induction a with
  | nil => rfl
  | cons c r ih =>
    have hc := h c (by simp)
    simp only [Marker, not_or] at hc
    simp only [chars, if_neg hc.1, if_neg hc.2, List.map_cons]
    rw [ih (fun c hc => h c (by simp [hc]))]

theorem endF_clean (e : Bool) (a : Bytes) (h : ∀ c ∈ a, ¬ Marker c) : endF e a = e := by
  induction a with
  | nil => rfl
  | cons c r ih =>
    have hc := h c (by simp)
    simp only [Marker, not_or] at hc
    simp only [endF, if_neg hc.1, if_neg hc.2]
    exact ih (fun c hc => h c (by simp [hc]))

theorem igetcFrom_spec (e : Bool) (s : Bytes) :
    ∃ mk r, (∀ x ∈ mk, Marker x) ∧ endF (endF e mk) r = endF e s ∧
      ((∃ c, igetcFrom e s = (some c, r, endF e mk) ∧ ¬ Marker c ∧ s = mk ++ c :: r) ∨
       (igetcFrom e s = (none, r, endF e mk) ∧ r = [] ∧ s = mk)) := by
  induction s generalizing e with
  | nil => exact ⟨[], [], by simp, rfl, .inr ⟨rfl, rfl, rfl⟩⟩
  | cons c r ih =>
    by_cases h1 : c = startExpand
    · obtain ⟨mk, r', k1, k2, k3⟩ := ih true
      refine ⟨c :: mk, r', ?_, ?_, ?_⟩
      · intro x hx; rcases List.mem_cons.1 hx with rfl | hx
        · exact .inl h1
        · exact k1 x hx
      · simp only [endF, if_pos h1]; exact k2
      · simp only [igetcFrom, endF, if_pos h1]
        rcases k3 with ⟨d, j1, j2, j3⟩ | ⟨j1, j2, j3⟩
        · exact .inl ⟨d, j1, j2, by rw [j3]; rfl⟩
        · exact .inr ⟨j1, j2, by rw [j3]⟩
    · by_cases h2 : c = doneExpand
      · obtain ⟨mk, r', k1, k2, k3⟩ := ih false
        refine ⟨c :: mk, r', ?_, ?_, ?_⟩
        · intro x hx; rcases List.mem_cons.1 hx with rfl | hx
          · exact .inr h2
          · exact k1 x hx
        · simp only [endF, if_neg h1, if_pos h2]; exact k2
        · simp only [igetcFrom, endF, if_neg h1, if_pos h2]
          rcases k3 with ⟨d, j1, j2, j3⟩ | ⟨j1, j2, j3⟩
          · exact .inl ⟨d, j1, j2, by rw [j3]; rfl⟩
          · exact .inr ⟨j1, j2, by rw [j3]⟩
      · refine ⟨[], r, by simp, ?_, .inl ⟨c, ?_, ?_, rfl⟩⟩
        · simp only [endF, if_neg h1, if_neg h2]
        · simp only [igetcFrom, if_neg h1, if_neg h2, endF]
        · simp only [Marker, not_or]; exact ⟨h1, h2⟩

theorem chars_markers (e : Bool) (mk : Bytes) (h : ∀ x ∈ mk, Marker x) : chars e mk = [] := by
  induction mk generalizing e with
  | nil => rfl
  | cons c r ih =>
    simp only [chars]
    rcases h c (by simp) with hc | hc
    · rw [if_pos hc]; exact ih _ (fun x hx => h x (by simp [hx]))
    · rw [hc, if_neg (by decide), if_pos rfl]; exact ih _ (fun x hx => h x (by simp [hx]))

/-- igetc takes some markers and a character off the file, or it takes the markers and finds it at its end -/
theorem igetc_spec (l : Lex) :
    ∃ mk c l1, igetc l = (c, l1) ∧ (∀ x ∈ mk, Marker x) ∧ l1.outer = l.outer ∧ l1.syms = l.syms ∧ l1.file.errors = l.file.errors ∧
      l1.file.eofReached = l.file.eofReached ∧ l1.file.cap = l.file.cap ∧ l1.expanding = endF l.expanding mk ∧
      l1.file.unget.length ≤ l.file.unget.length ∧
      ((∃ d, c = some d ∧ ¬ Marker d ∧ l.file.flat = mk ++ d :: l1.file.flat) ∨
       (c = none ∧ l1.file.flat = [] ∧ l.file.flat = mk)) := by
  obtain ⟨mk, r, k1, k2, k3⟩ := igetcFrom_spec l.expanding l.file.unget
  rcases k3 with ⟨d, j1, j2, j3⟩ | ⟨j1, j2, j3⟩
  · have e : igetc l = (some d, { l with file := { l.file with unget := r }, expanding := endF l.expanding mk }) := by
      unfold igetc; rw [j1]
    refine ⟨mk, some d, _, e, k1, rfl, rfl, rfl, rfl, rfl, rfl, ?_, .inl ⟨d, rfl, j2, ?_⟩⟩
    · simp [j3]; omega
    · simp [LFile.flat, j3]
  · obtain ⟨mk', r', k1', k2', k3'⟩ := igetcFrom_spec (endF l.expanding mk) l.file.stream
    have hm : ∀ x ∈ mk ++ mk', Marker x := by
      intro x hx
      rcases List.mem_append.1 hx with hx | hx
      · exact k1 x hx
      · exact k1' x hx
    rcases k3' with ⟨d, i1, i2, i3⟩ | ⟨i1, i2, i3⟩
    · have e : igetc l = (some d, { l with file := { l.file with unget := [], stream := r' }, expanding := endF (endF l.expanding mk) mk' }) := by
        unfold igetc; rw [j1]; simp only; rw [i1]
      refine ⟨mk ++ mk', some d, _, e, hm, rfl, rfl, rfl, rfl, rfl, ?_, ?_, .inl ⟨d, rfl, i2, ?_⟩⟩
      all_goals simp [LFile.flat, j3, i3, endF_append]
    · have e : igetc l = (none, { l with file := { l.file with unget := [], stream := r' }, expanding := endF (endF l.expanding mk) mk' }) := by
        unfold igetc; rw [j1]; simp only; rw [i1]
      refine ⟨mk ++ mk', none, _, e, hm, rfl, rfl, rfl, rfl, rfl, ?_, ?_, .inr ⟨rfl, ?_, ?_⟩⟩
      all_goals simp [LFile.flat, j3, i3, i2, endF_append]

/-! ## What is preserved -/

def Clean (s : Bytes) : Prop := ∀ c ∈ s, ¬ Marker c

/-- there are markers only at the end of the macro being expanded -/
def WF (e : Bool) (s : Bytes) : Prop :=
  (e = false ∧ Clean s) ∨ (e = true ∧ ∃ v t, s = v ++ doneExpand :: t ∧ Clean v ∧ Clean t)

/-- how many macros can be expanded in what is left -/
def Lex.macros (l : Lex) : Nat := (chars l.expanding l.whole).countP (fun p => decide (p = (c%'@', false)))

/-- `l1` is what `l` becomes when the character `c` is read -/
structure Adv (l : Lex) (c : Option UInt8) (l1 : Lex) : Prop where
  wf : WF l.expanding l.whole → WF l1.expanding l1.whole
  clean : l.expanding = false ∧ Clean l.whole → l1.expanding = false ∧ Clean l1.whole
  syms : l1.syms = l.syms
  weight : l1.weight + (if c.isSome then 1 else 0) ≤ l.weight
  macros : l1.macros + (if c = some c%'@' ∧ l1.expanding = false then 1 else 0) ≤ l.macros
  char : ∀ d, c = some d → ¬ Marker d

theorem wf_marker (e : Bool) (mk s : Bytes) (h : WF e (mk ++ s)) (hm : ∀ x ∈ mk, Marker x) : WF (endF e mk) s := by
  rcases h with ⟨h1, h2⟩ | ⟨h1, v, t, h2, h3, h4⟩
  · cases mk with
    | nil => exact .inl ⟨h1, h2⟩
    | cons x mk => exact absurd (hm x (by simp)) (h2 x (by simp))
  · cases mk with
    | nil => exact .inr ⟨h1, v, t, h2, h3, h4⟩
    | cons x mk =>
      cases v with
      | nil =>
        simp only [List.cons_append, List.nil_append, List.cons.injEq] at h2
        cases mk with
        | nil => rw [h2.1]; exact .inl ⟨rfl, by have := h2.2; simp only [List.nil_append] at this; rw [this]; exact h4⟩
        | cons y mk => exact absurd (hm y (by simp)) (h4 y (by rw [← h2.2]; simp))
      | cons y v =>
        simp only [List.cons_append, List.cons.injEq] at h2
        exact absurd (hm x (by simp)) (by rw [h2.1]; exact h3 y (by simp))

theorem wf_tail (e : Bool) (c : UInt8) (s : Bytes) (h : WF e (c :: s)) (hm : ¬ Marker c) : WF e s := by
  rcases h with ⟨h1, h2⟩ | ⟨h1, v, t, h2, h3, h4⟩
  · exact .inl ⟨h1, fun x hx => h2 x (by simp [hx])⟩
  · cases v with
    | nil =>
      simp only [List.nil_append, List.cons.injEq] at h2
      exact absurd (.inr h2.1) hm
    | cons y v =>
      simp only [List.cons_append, List.cons.injEq] at h2
      exact .inr ⟨h1, v, t, h2.2, fun x hx => h3 x (by simp [hx]), h4⟩

theorem wf_cons (e : Bool) (c : UInt8) (s : Bytes) (h : WF e s) (hm : ¬ Marker c) : WF e (c :: s) := by
  rcases h with ⟨h1, h2⟩ | ⟨h1, v, t, h2, h3, h4⟩
  · refine .inl ⟨h1, ?_⟩
    intro x hx
    rcases List.mem_cons.1 hx with rfl | hx
    · exact hm
    · exact h2 x hx
  · refine .inr ⟨h1, c :: v, t, by rw [h2]; rfl, ?_, h4⟩
    intro x hx
    rcases List.mem_cons.1 hx with rfl | hx
    · exact hm
    · exact h3 x hx

theorem flat_length (f : LFile) : f.flat.length = f.left := by simp [LFile.flat, LFile.left]

theorem adv_igetc (l : Lex) : Adv l (igetc l).1 (igetc l).2 ∧ (igetc l).2.outer = l.outer ∧
    (igetc l).2.file.eofReached = l.file.eofReached ∧
    (igetc l).2.file.left + (if (igetc l).1.isSome then 1 else 0) ≤ l.file.left ∧
    ((igetc l).1 = none → (igetc l).2.file.flat = []) := by
  obtain ⟨mk, c, l1, k0, k1, k2, k3, k4, k5, k6, k7, k8, k9⟩ := igetc_spec l
  rw [k0]
  rcases k9 with ⟨d, rfl, j2, j3⟩ | ⟨rfl, j2, j3⟩
  · have hl : l1.file.left + 1 ≤ l.file.left := by rw [← flat_length, ← flat_length, j3]; simp
    have hw : l.whole = mk ++ d :: l1.whole := by simp only [Lex.whole, j3, k2]; simp
    refine ⟨⟨?_, ?_, k3, ?_, ?_, ?_⟩, k2, k5, by simpa using hl, by simp⟩
    · intro h
      rw [hw] at h
      rw [k7]; exact wf_tail _ _ _ (wf_marker _ _ _ h k1) j2
    · rintro ⟨h1, h2⟩
      rw [hw] at h2
      exact ⟨by rw [k7, h1]; exact endF_clean _ _ (fun x hx => h2 x (by simp [hx])), fun x hx => h2 x (by simp [hx])⟩
    · simp only [Lex.weight, LFile.weight, k2, k5, Option.isSome_some, if_true]; omega
    · simp only [Marker, not_or] at j2
      have : chars l.expanding l.whole = (d, l1.expanding) :: chars l1.expanding l1.whole := by
        rw [hw, chars_append, chars_markers _ _ k1, ← k7]
        simp [chars, j2]
      simp only [Lex.macros, this, List.countP_cons]
      by_cases h : some d = some c%'@' ∧ l1.expanding = false
      · simp [h.2, Option.some.inj h.1]
      · rw [if_neg h]; omega
    · rintro _ ⟨⟩; exact j2
  · have hl : l1.file.left ≤ l.file.left := by rw [← flat_length, ← flat_length, j2]; simp
    have hw : l.whole = mk ++ l1.whole := by simp only [Lex.whole, j3, j2, k2]; simp
    refine ⟨⟨?_, ?_, k3, ?_, ?_, by simp⟩, k2, k5, by simpa using hl, fun _ => j2⟩
    · intro h
      rw [hw] at h
      rw [k7]; exact wf_marker _ _ _ h k1
    · rintro ⟨h1, h2⟩
      rw [hw] at h2
      exact ⟨by rw [k7, h1]; exact endF_clean _ _ (fun x hx => h2 x (by simp [hx])), fun x hx => h2 x (by simp [hx])⟩
    · simp only [Lex.weight, LFile.weight, k2, k5]; simp; omega
    · simp only [Lex.macros, hw, chars_append, chars_markers _ _ k1, ← k7]; simp

theorem Adv.trans {l l1 l2 : Lex} {c d : Option UInt8} (h : Adv l c l1) (k : Adv l1 d l2) : Adv l d l2 := by
  have h1 := h.weight; have h2 := h.macros; have k1 := k.weight; have k2 := k.macros
  refine ⟨fun x => k.wf (h.wf x), fun x => k.clean (h.clean x), by rw [k.syms, h.syms], ?_, ?_, k.char⟩ <;> omega

/-! ## Lexers that will read the same -/

def Sim : List (UInt8 × Bool) → List (UInt8 × Bool) → Prop
  | [], [] => True
  | a :: r, b :: s => a.1 = b.1 ∧ (a.1 = c%'$' ∨ a.1 = c%'@' → a.2 = b.2) ∧ Sim r s
  | [], _ :: _ => False
  | _ :: _, [] => False

theorem sim_refl (a : List (UInt8 × Bool)) : Sim a a := by
  induction a with
  | nil => trivial
  | cons x r ih => exact ⟨rfl, fun _ => rfl, ih⟩

def ChainRel : Bool → Bool → List LFile → List LFile → Prop
  | _, _, [], [] => True
  | e, e', f :: r, g :: s => f.eofReached = g.eofReached ∧ f.errors = g.errors ∧ Sim (chars e f.flat) (chars e' g.flat) ∧
      ChainRel (endF e f.flat) (endF e' g.flat) r s
  | _, _, [], _ :: _ => False
  | _, _, _ :: _, [] => False

structure SameLex (l l' : Lex) : Prop where
  chain : ChainRel l.expanding l'.expanding (l.file :: l.outer) (l'.file :: l'.outer)
  syms : l.syms = l'.syms
  wf : WF l.expanding l.whole
  wf' : WF l'.expanding l'.whole
  vals : ∀ s ∈ l.syms, Clean s.val

/-- the same character is read from both -/
structure SameChar (l l' : Lex) (x y : Option UInt8 × Lex) : Prop where
  char : x.1 = y.1
  same : SameLex x.2 y.2
  flag : x.1 = some c%'$' ∨ x.1 = some c%'@' → x.2.expanding = y.2.expanding
  adv : Adv l x.1 x.2
  adv' : Adv l' y.1 y.2

theorem SameChar.trans {l l' : Lex} {x y z w : Option UInt8 × Lex} (h : SameChar l l' x y) (k : SameChar x.2 y.2 z w) :
    SameChar l l' z w := ⟨k.char, k.same, k.flag, h.adv.trans k.adv, h.adv'.trans k.adv'⟩

theorem igetc_chars (l : Lex) : endF (igetc l).2.expanding (igetc l).2.file.flat = endF l.expanding l.file.flat ∧
    (match (igetc l).1 with
     | some d => chars l.expanding l.file.flat = (d, (igetc l).2.expanding) :: chars (igetc l).2.expanding (igetc l).2.file.flat
     | none => chars l.expanding l.file.flat = [] ∧ chars (igetc l).2.expanding (igetc l).2.file.flat = []) ∧
    (igetc l).2.file.errors = l.file.errors := by
  obtain ⟨mk, c, l1, k0, k1, k2, k3, k4, k5, k6, k7, k8, k9⟩ := igetc_spec l
  rw [k0]
  rcases k9 with ⟨d, rfl, j2, j3⟩ | ⟨rfl, j2, j3⟩
  · simp only [Marker, not_or] at j2
    refine ⟨?_, ?_, k4⟩
    · simp only [j3, endF_append, ← k7]; simp [endF, j2]
    · simp only [j3, chars_append, chars_markers _ _ k1, ← k7]; simp [chars, j2]
  · refine ⟨?_, ?_, k4⟩
    · simp only [j2, j3, ← k7]; rfl
    · simp only [j2, j3, chars_markers _ _ k1]; exact ⟨trivial, rfl⟩

theorem same_igetc {l l' : Lex} (h : SameLex l l') : SameChar l l' (igetc l) (igetc l') := by
  obtain ⟨a1, a2, a3, a4, a5⟩ := adv_igetc l
  obtain ⟨b1, b2, b3, b4, b5⟩ := adv_igetc l'
  obtain ⟨c1, c2, c3⟩ := igetc_chars l
  obtain ⟨d1, d2, d3⟩ := igetc_chars l'
  obtain ⟨h1, he0, h2, h3⟩ := h.chain
  generalize hx : igetc l = x at *
  generalize hy : igetc l' = y at *
  obtain ⟨cx, lx⟩ := x
  obtain ⟨cy, ly⟩ := y
  have fin : cx = cy → Sim (chars lx.expanding lx.file.flat) (chars ly.expanding ly.file.flat) →
      (cx = some c%'$' ∨ cx = some c%'@' → lx.expanding = ly.expanding) → SameChar l l' (cx, lx) (cy, ly) := by
    intro e1 e2 e3
    refine ⟨e1, ⟨⟨by simp only [] at a3 b3; rw [a3, b3]; exact h1, by simp only [] at c3 d3; rw [c3, d3]; exact he0, e2, ?_⟩, ?_, a1.wf h.wf, b1.wf h.wf', ?_⟩, e3, a1, b1⟩
    · simp only [] at c1 d1 a2 b2
      rw [c1, d1, a2, b2]; exact h3
    · rw [a1.syms, b1.syms]; exact h.syms
    · rw [a1.syms]; exact h.vals
  cases cx with
  | none =>
    cases cy with
    | none => exact fin rfl (by simp only [] at c2 d2; rw [c2.2, d2.2]; trivial) (by simp)
    | some d =>
      simp only [] at c2 d2
      rw [c2.1, d2] at h2; exact h2.elim
  | some c =>
    cases cy with
    | none =>
      simp only [] at c2 d2
      rw [c2, d2.1] at h2; exact h2.elim
    | some d =>
      simp only [] at c2 d2
      rw [c2, d2] at h2
      obtain ⟨g1, g2, g3⟩ := h2
      refine fin (congrArg some g1) g3 ?_
      intro hc
      refine g2 ?_
      rcases hc with hc | hc
      · exact .inl (Option.some.inj hc)
      · exact .inr (Option.some.inj hc)

/-! ## lgetc -/

theorem contLoop_succ (n : Nat) (l : Lex) : contLoop (n + 1) l =
    if (igetc l).1 = some c%'\\' then
      (if (igetc (igetc l).2).1 = some c%'\n' then contLoop n (igetc (igetc l).2).2 else igetc (igetc l).2)
    else igetc l := by
  rw [contLoop]
  generalize igetc l = x
  obtain ⟨c, l1⟩ := x
  cases c with
  | none => rfl
  | some c =>
    by_cases h : c = c%'\\'
    · simp only [h, if_true]
      generalize igetc l1 = y
      obtain ⟨d, l2⟩ := y
      cases d with
      | none => rfl
      | some d =>
        by_cases h' : d = c%'\n'
        · simp [h']
        · simp [h']
    · simp [h]

/-- nothing but the current file and `expanding` changed -/
structure Kept (l : Lex) (x : Option UInt8 × Lex) : Prop where
  outer : x.2.outer = l.outer
  eof : x.2.file.eofReached = l.file.eofReached
  errors : x.2.file.errors = l.file.errors
  flat : x.1 = none → x.2.file.flat = []

theorem kept_igetc (l : Lex) : Kept l (igetc l) := by
  obtain ⟨a1, a2, a3, a4, a5⟩ := adv_igetc l
  exact ⟨a2, a3, (igetc_chars l).2.2, a5⟩

theorem Kept.trans {l : Lex} {x y : Option UInt8 × Lex} (h : Kept l x) (k : Kept x.2 y) : Kept l y :=
  ⟨k.outer.trans h.outer, k.eof.trans h.eof, k.errors.trans h.errors, k.flat⟩

theorem igetc_left (l : Lex) : (igetc l).2.file.left + (if (igetc l).1.isSome then 1 else 0) ≤ l.file.left := (adv_igetc l).2.2.2.1

theorem kept_contLoop (n : Nat) (l : Lex) (hn : l.file.left < n) : Kept l (contLoop n l) := by
  induction n generalizing l with
  | zero => omega
  | succ n ih =>
    rw [contLoop_succ]
    have h1 := igetc_left l
    have h2 := igetc_left (igetc l).2
    split
    · rename_i h
      rw [h] at h1; simp at h1
      split
      · exact ((kept_igetc l).trans (kept_igetc _)).trans (ih _ (by omega))
      · exact (kept_igetc l).trans (kept_igetc _)
    · exact kept_igetc l

theorem same_contLoop (n n' : Nat) (l l' : Lex) (h : SameLex l l') (hn : l.file.left < n) (hn' : l'.file.left < n') :
    SameChar l l' (contLoop n l) (contLoop n' l') := by
  induction n generalizing l l' n' with
  | zero => omega
  | succ n ih =>
    cases n' with
    | zero => omega
    | succ n' =>
      rw [contLoop_succ, contLoop_succ]
      have s1 := same_igetc h
      have s2 := same_igetc s1.same
      have h1 := igetc_left l
      have h2 := igetc_left (igetc l).2
      have h1' := igetc_left l'
      have h2' := igetc_left (igetc l').2
      rw [← s1.char]
      split
      · rename_i hc
        have hc' := hc
        rw [s1.char] at hc'
        rw [hc] at h1; rw [hc'] at h1'
        simp at h1 h1'
        rw [← s2.char]
        split
        · exact (s1.trans s2).trans (ih _ _ _ s2.same (by omega) (by omega))
        · exact s1.trans s2
      · exact s1

theorem popFiles_cons (f : LFile) (fs : List LFile) (l : Lex) : popFiles (f :: fs) l =
    if (igetc (l.popTo f fs)).1 = none then popFiles fs (igetc (l.popTo f fs)).2
    else igetc (l.popTo f fs) := by
  rw [popFiles]
  generalize igetc (l.popTo f fs) = x
  obtain ⟨c, l1⟩ := x
  cases c with
  | none => rfl
  | some c => rfl

/-- the current file is at its end and is popped -/
theorem same_pop {l l' : Lex} {f g : LFile} {fs gs : List LFile} (h : SameLex l l') (ho : l.outer = f :: fs) (ho' : l'.outer = g :: gs)
    (hf : l.file.flat = []) (hf' : l'.file.flat = []) :
    SameLex (l.popTo f fs) (l'.popTo g gs) := by
  obtain ⟨h1, he0, h2, h3⟩ := h.chain
  refine ⟨?_, h.syms, ?_, ?_, h.vals⟩
  · rw [hf, hf', ho, ho'] at h3
    exact ⟨h3.1, by simp only [Lex.popTo]; rw [h3.2.1, he0], h3.2.2⟩
  · have := h.wf; simp only [Lex.whole, hf, ho] at this; simpa [Lex.whole, Lex.popTo, LFile.flat] using this
  · have := h.wf'; simp only [Lex.whole, hf', ho'] at this; simpa [Lex.whole, Lex.popTo, LFile.flat] using this

theorem adv_pop {l : Lex} {f : LFile} {fs : List LFile} (ho : l.outer = f :: fs) (hf : l.file.flat = []) (q : UInt8) (hq : ¬ Marker q)
    (hq' : q ≠ c%'@') : Adv l (some q) (l.popTo f fs) := by
  have hw : (l.popTo f fs).whole = l.whole := by simp only [Lex.whole, hf, ho]; simp [Lex.popTo, LFile.flat]
  have hx : (l.popTo f fs).expanding = l.expanding := rfl
  refine ⟨by rw [hw, hx]; exact id, by rw [hw, hx]; exact id, rfl, ?_, ?_, ?_⟩
  · have h1 : (l.popTo f fs).weight = f.weight + (fs.map LFile.weight).sum := rfl
    have h2 : l.weight = l.file.left + (if l.file.eofReached = true then 1 else 2) + (f.weight + (fs.map LFile.weight).sum) := by
      simp [Lex.weight, ho, LFile.weight]
    have : 1 ≤ (if l.file.eofReached = true then 1 else 2) := by split <;> omega
    rw [h1, h2]; simp; omega
  · simp [Lex.macros, hw, hx, hq']
  · rintro _ ⟨⟩; exact hq

theorem same_popFiles (fs gs : List LFile) (l l' : Lex) (h : SameLex l l') (ho : l.outer = fs) (ho' : l'.outer = gs)
    (hf : l.file.flat = []) (hf' : l'.file.flat = []) : SameChar l l' (popFiles fs l) (popFiles gs l') := by
  induction fs generalizing gs l l' with
  | nil =>
    obtain ⟨h1, he0, h2, h3⟩ := h.chain
    rw [ho, ho'] at h3
    cases gs with
    | cons g gs => exact h3.elim
    | nil => exact ⟨rfl, h, by simp [popFiles], ⟨id, id, rfl, by simp [popFiles], by simp [popFiles], by simp [popFiles]⟩, ⟨id, id, rfl, by simp [popFiles], by simp [popFiles], by simp [popFiles]⟩⟩
  | cons f fs ih =>
    obtain ⟨h1, he0, h2, h3⟩ := h.chain
    rw [ho, ho'] at h3
    cases gs with
    | nil => exact h3.elim
    | cons g gs =>
      rw [popFiles_cons, popFiles_cons]
      have s0 := same_pop h ho ho' hf hf'
      have a0 := adv_pop ho hf 0 (by decide) (by decide)
      have a0' := adv_pop ho' hf' 0 (by decide) (by decide)
      have s1 := same_igetc s0
      have k1 := kept_igetc (l.popTo f fs)
      have k1' := kept_igetc (l'.popTo g gs)
      have s2 : SameChar l l' _ _ := ⟨s1.char, s1.same, s1.flag, a0.trans s1.adv, a0'.trans s1.adv'⟩
      rw [← s1.char]
      split
      · rename_i hc
        exact s2.trans (ih _ _ _ s1.same k1.outer k1'.outer (k1.flat hc) (k1'.flat (by rw [← s1.char]; exact hc)))
      · exact s2

theorem lgetc_eq (l : Lex) : lgetc l =
    if (contLoop (l.file.left + 1) l).1 = none then
      (if (contLoop (l.file.left + 1) l).2.file.eofReached then
        popFiles (contLoop (l.file.left + 1) l).2.outer (contLoop (l.file.left + 1) l).2
       else (some c%'\n', { (contLoop (l.file.left + 1) l).2 with
          file := { (contLoop (l.file.left + 1) l).2.file with eofReached := true } }))
    else contLoop (l.file.left + 1) l := by
  rw [lgetc]
  generalize contLoop (l.file.left + 1) l = x
  obtain ⟨c, l1⟩ := x
  cases c with
  | none => rfl
  | some c => rfl

/-- lgetc, with any number of turns for the loop over continuation lines -/
def lgetcN (n : Nat) (l : Lex) : Option UInt8 × Lex :=
  if (contLoop n l).1 = none then
    (if (contLoop n l).2.file.eofReached then popFiles (contLoop n l).2.outer (contLoop n l).2
     else (some c%'\n', { (contLoop n l).2 with file := { (contLoop n l).2.file with eofReached := true } }))
  else contLoop n l

theorem same_lgetcN (n n' : Nat) {l l' : Lex} (h : SameLex l l') (hn : l.file.left < n) (hn' : l'.file.left < n') :
    SameChar l l' (lgetcN n l) (lgetcN n' l') := by
  unfold lgetcN
  have s1 := same_contLoop n n' l l' h hn hn'
  have k1 := kept_contLoop n l hn
  have k1' := kept_contLoop n' l' hn'
  generalize contLoop n l = x at *
  generalize contLoop n' l' = y at *
  rw [← s1.char]
  split
  · rename_i hc
    have e : x.2.file.eofReached = y.2.file.eofReached := s1.same.chain.1
    rw [← e]
    split
    · exact s1.trans (same_popFiles _ _ _ _ s1.same rfl rfl (k1.flat hc) (k1'.flat (by rw [← s1.char]; exact hc)))
    · rename_i he
      have aux : ∀ z : Lex, z.file.eofReached = false → Adv z (some c%'\n') { z with file := { z.file with eofReached := true } } := by
        intro z hz
        refine ⟨fun w => by simpa [Lex.whole, LFile.flat] using w, fun w => by simpa [Lex.whole, LFile.flat] using w, rfl, ?_, ?_, ?_⟩
        · simp only [Lex.weight, LFile.weight, hz, LFile.left]; simp; omega
        · simp [Lex.macros, Lex.whole, LFile.flat]
        · rintro _ ⟨⟩; decide
      have he' : x.2.file.eofReached = false := by simpa using he
      refine s1.trans ⟨rfl, ⟨?_, s1.same.syms, (aux _ he').wf s1.same.wf, (aux _ (e ▸ he')).wf s1.same.wf', s1.same.vals⟩,
        by simp, aux _ he', aux _ (e ▸ he')⟩
      obtain ⟨h1, he0, h2, h3⟩ := s1.same.chain
      exact ⟨rfl, he0, h2, h3⟩
  · exact s1

theorem same_lgetc {l l' : Lex} (h : SameLex l l') : SameChar l l' (lgetc l) (lgetc l') := by
  rw [lgetc_eq l, lgetc_eq l']
  exact same_lgetcN _ _ h (Nat.lt_succ_self _) (Nat.lt_succ_self _)

theorem lgetcQ_eq (q : UInt8) (l : Lex) : lgetcQ q l =
    if (igetc l).1 = none then
      (match (igetc l).2.outer with
       | [] => (none, (igetc l).2.yyerror)
       | f :: fs => (some q, (igetc l).2.yyerror.popTo f fs))
    else igetc l := by
  rw [lgetcQ]
  generalize igetc l = x
  obtain ⟨c, l1⟩ := x
  cases c with
  | none => rfl
  | some c => rfl

theorem same_yyerror {l l' : Lex} (h : SameLex l l') : SameLex l.yyerror l'.yyerror :=
  ⟨⟨h.chain.1, congrArg (· + 1) h.chain.2.1, h.chain.2.2⟩, h.syms, h.wf, h.wf', h.vals⟩

theorem adv_yyerror (l : Lex) : Adv l none l.yyerror := ⟨id, id, rfl, Nat.le_refl _, Nat.le_refl _, by simp⟩

theorem same_lgetcQ (q : UInt8) (hq : ¬ Marker q) (hq' : q ≠ c%'@') (hq'' : q ≠ c%'$') {l l' : Lex} (h : SameLex l l') :
    SameChar l l' (lgetcQ q l) (lgetcQ q l') := by
  rw [lgetcQ_eq, lgetcQ_eq]
  have s1 := same_igetc h
  have k1 := kept_igetc l
  have k1' := kept_igetc l'
  generalize igetc l = x at *
  generalize igetc l' = y at *
  rw [← s1.char]
  by_cases hc : x.1 = none
  · rw [if_pos hc, if_pos hc]
    have hc' : y.1 = none := by rw [← s1.char]; exact hc
    obtain ⟨h1, he0, h2, h3⟩ := s1.same.chain
    cases ho : x.2.outer with
    | nil =>
      cases ho' : y.2.outer with
      | cons g gs => rw [ho, ho'] at h3; exact h3.elim
      | nil => exact s1.trans ⟨rfl, same_yyerror s1.same, by simp, adv_yyerror _, adv_yyerror _⟩
    | cons f fs =>
      cases ho' : y.2.outer with
      | nil => rw [ho, ho'] at h3; exact h3.elim
      | cons g gs =>
        refine s1.trans ⟨rfl, same_pop (same_yyerror s1.same) ho ho' (k1.flat hc) (k1'.flat hc'), by simp [hq', hq''],
          (adv_yyerror _).trans (@adv_pop x.2.yyerror f fs ho (k1.flat hc) q hq hq'), (adv_yyerror _).trans (@adv_pop y.2.yyerror g gs ho' (k1'.flat hc') q hq hq')⟩
  · rw [if_neg hc, if_neg hc]; exact s1

/-! ## lungetc -/

theorem lungetc_whole (c : UInt8) (l : Lex) : (lungetc (some c) l).whole = c :: l.whole := rfl

theorem same_lungetc (c : UInt8) (hc : ¬ Marker c) {l l' : Lex} (h : SameLex l l') (hf : c = c%'$' ∨ c = c%'@' → l.expanding = l'.expanding) :
    SameLex (lungetc (some c) l) (lungetc (some c) l') := by
  obtain ⟨h1, he0, h2, h3⟩ := h.chain
  have hc' := hc
  simp only [Marker, not_or] at hc'
  refine ⟨⟨h1, he0, ?_, ?_⟩, h.syms, wf_cons _ _ _ h.wf hc, wf_cons _ _ _ h.wf' hc, h.vals⟩
  · simp only [lungetc, LFile.flat, List.cons_append, chars, if_neg hc'.1, if_neg hc'.2]
    exact ⟨rfl, hf, h2⟩
  · simp only [lungetc, LFile.flat, List.cons_append, endF, if_neg hc'.1, if_neg hc'.2]
    exact h3

theorem lungetc_weight (c : UInt8) (l : Lex) : (lungetc (some c) l).weight = l.weight + 1 := by
  simp [lungetc, Lex.weight, LFile.weight, LFile.left]; omega

theorem lungetc_macros (c : UInt8) (hc : ¬ Marker c) (l : Lex) : (lungetc (some c) l).macros =
    l.macros + (if some c = some c%'@' ∧ l.expanding = false then 1 else 0) := by
  simp only [Marker, not_or] at hc
  have : (lungetc (some c) l).expanding = l.expanding := rfl
  simp only [Lex.macros, lungetc_whole, chars, if_neg hc.1, if_neg hc.2, this, List.countP_cons]
  simp

/-- a character that was just read is put back -/
theorem Adv.unget {l l1 : Lex} {c : UInt8} (h : Adv l (some c) l1) : Adv l none (lungetc (some c) l1) := by
  have h1 := h.weight; have h2 := h.macros
  refine ⟨fun x => wf_cons _ _ _ (h.wf x) (h.char c rfl), ?_, h.syms, ?_, ?_, by simp⟩
  · intro x
    refine ⟨(h.clean x).1, ?_⟩
    intro y hy
    rw [lungetc_whole] at hy
    rcases List.mem_cons.1 hy with rfl | hy
    · exact h.char _ rfl
    · exact (h.clean x).2 y hy
  · rw [lungetc_weight]; simp at h1 ⊢; omega
  · rw [lungetc_macros c (h.char c rfl)]; simpa using h2

/-! ## The loops of yylex -/

/-- the same outcome, which is neither undefined nor that a loop does not end -/
inductive SameRes {α : Type} (P : α → Lex → Lex → Prop) : LexRes α → LexRes α → Prop where
  | go (a : α) (l l' : Lex) (h : P a l l') : SameRes P (.go a l) (.go a l')
  | tok (t : Tok) (l l' : Lex) (h : SameLex l l') : SameRes P (.tok t l) (.tok t l')

theorem findeolN_succ (n : Nat) (l : Lex) : findeolN (n + 1) l =
    if (lgetc l).1 = none ∨ (lgetc l).1 = some c%'\n' then .tok .error (lgetc l).2 else findeolN n (lgetc l).2 := by
  rw [findeolN]
  generalize lgetc l = x
  obtain ⟨c, l1⟩ := x
  cases c with
  | none => rfl
  | some c => by_cases h : c = c%'\n' <;> simp [h]

theorem same_findeolN (n n' : Nat) (l l' : Lex) (h : SameLex l l') (hn : l.weight < n) (hn' : l'.weight < n') :
    SameRes (fun _ _ _ => True) (findeolN n l) (findeolN n' l') := by
  induction n generalizing l l' n' with
  | zero => omega
  | succ n ih =>
    cases n' with
    | zero => omega
    | succ n' =>
      rw [findeolN_succ, findeolN_succ]
      have s1 := same_lgetc h
      have w := s1.adv.weight
      have w' := s1.adv'.weight
      generalize lgetc l = x at *
      generalize lgetc l' = y at *
      rw [← s1.char] at w' ⊢
      split
      · exact .tok _ _ _ s1.same
      · rename_i hc
        rw [not_or] at hc
        have : x.1.isSome = true := by
          rcases h : x.1 with _ | _
          · exact absurd h hc.1
          · rfl
        simp only [this, if_true] at w w'
        exact ih _ _ _ s1.same (by omega) (by omega)

theorem same_findeol {α : Type} (P : α → Lex → Lex → Prop) {l l' : Lex} (h : SameLex l l') :
    SameRes P (findeol l) (findeol l') := by
  unfold findeol
  have := same_findeolN (l.weight + 1) (l'.weight + 1) l l' h (by omega) (by omega)
  generalize findeolN (l.weight + 1) l = x at *
  generalize findeolN (l'.weight + 1) l' = y at *
  cases this with
  | go a => exact a.elim
  | tok t l l' h => exact .tok t l l' h

theorem isSome_of {α : Type} {x : Option α} (h : x ≠ none) : x.isSome = true := by
  cases x with
  | none => exact absurd rfl h
  | some a => rfl

theorem skipBlanks_succ (n : Nat) (l : Lex) : skipBlanks (n + 1) l =
    if (lgetc l).1 = some c%' ' ∨ (lgetc l).1 = some c%'\t' then skipBlanks n (lgetc l).2 else .go (lgetc l).1 (lgetc l).2 := by
  rw [skipBlanks]
  generalize lgetc l = x
  obtain ⟨c, l1⟩ := x
  cases c with
  | none => rfl
  | some c => simp

theorem same_skipBlanks (n n' : Nat) (l l' : Lex) (h : SameLex l l') (hn : l.weight < n) (hn' : l'.weight < n') :
    SameRes (fun c l1 l1' => SameChar l l' (c, l1) (c, l1')) (skipBlanks n l) (skipBlanks n' l') := by
  induction n generalizing l l' n' with
  | zero => omega
  | succ n ih =>
    cases n' with
    | zero => omega
    | succ n' =>
      rw [skipBlanks_succ, skipBlanks_succ]
      have s1 := same_lgetc h
      have w := s1.adv.weight
      have w' := s1.adv'.weight
      generalize lgetc l = x at *
      generalize lgetc l' = y at *
      obtain ⟨c, l1⟩ := x
      obtain ⟨c', l1'⟩ := y
      have hcc : c = c' := s1.char
      subst hcc
      simp only at w w' ⊢
      split
      · rename_i hc
        have : c.isSome = true := isSome_of (by rintro rfl; simp at hc)
        simp only [this, if_true] at w w'
        have := ih n' l1 l1' s1.same (by omega) (by omega)
        generalize skipBlanks n l1 = u at *
        generalize skipBlanks n' l1' = v at *
        cases this with
        | go a k k' hk => exact .go a k k' (s1.trans hk)
        | tok t k k' hk => exact .tok t k k' hk
      · exact .go _ _ _ s1

theorem skipComment_succ (n : Nat) (l : Lex) : skipComment (n + 1) l =
    if (lgetc l).1 = some c%'\n' ∨ (lgetc l).1 = none then .go (lgetc l).1 (lgetc l).2 else skipComment n (lgetc l).2 := by
  rw [skipComment]
  generalize lgetc l = x
  obtain ⟨c, l1⟩ := x
  cases c with
  | none => rfl
  | some c => simp

theorem same_skipComment (n n' : Nat) (l l' : Lex) (h : SameLex l l') (hn : l.weight < n) (hn' : l'.weight < n') :
    SameRes (fun c l1 l1' => SameChar l l' (c, l1) (c, l1')) (skipComment n l) (skipComment n' l') := by
  induction n generalizing l l' n' with
  | zero => omega
  | succ n ih =>
    cases n' with
    | zero => omega
    | succ n' =>
      rw [skipComment_succ, skipComment_succ]
      have s1 := same_lgetc h
      have w := s1.adv.weight
      have w' := s1.adv'.weight
      generalize lgetc l = x at *
      generalize lgetc l' = y at *
      obtain ⟨c, l1⟩ := x
      obtain ⟨c', l1'⟩ := y
      have hcc : c = c' := s1.char
      subst hcc
      simp only at w w' ⊢
      split
      · exact .go _ _ _ s1
      · rename_i hc
        rw [not_or] at hc
        have : c.isSome = true := isSome_of hc.2
        simp only [this, if_true] at w w'
        have := ih n' l1 l1' s1.same (by omega) (by omega)
        generalize skipComment n l1 = u at *
        generalize skipComment n' l1' = v at *
        cases this with
        | go a k k' hk => exact .go a k k' (s1.trans hk)
        | tok t k k' hk => exact .tok t k k' hk

theorem same_readName (n n' : Nat) (buf : Bytes) (l l' : Lex) (h : SameLex l l') (hn : l.weight < n) (hn' : l'.weight < n') :
    SameRes (fun _ l1 l1' => SameLex l1 l1' ∧ Adv l none l1 ∧ Adv l' none l1') (readName n buf l) (readName n' buf l') := by
  induction n generalizing l l' n' buf with
  | zero => omega
  | succ n ih =>
    cases n' with
    | zero => omega
    | succ n' =>
      rw [readName, readName]
      have s1 := same_lgetc h
      have w := s1.adv.weight
      have w' := s1.adv'.weight
      generalize lgetc l = x at *
      generalize lgetc l' = y at *
      obtain ⟨c, l1⟩ := x
      obtain ⟨c', l1'⟩ := y
      have hcc : c = c' := s1.char
      subst hcc
      cases c with
      | none => exact .tok _ _ _ s1.same
      | some c =>
        simp only [Option.isSome_some, if_true] at w w' ⊢
        split
        · exact same_findeol _ (same_yyerror s1.same)
        · rename_i hb
          have hb' : buf.length < bufSize := by simp only [bufSize] at hb ⊢; omega
          simp only [if_pos hb']
          split
          · have := ih n' (buf ++ [c]) l1 l1' s1.same (by omega) (by omega)
            generalize readName n (buf ++ [c]) l1 = u at *
            generalize readName n' (buf ++ [c]) l1' = v at *
            cases this with
            | go a k k' hk => exact .go a k k' ⟨hk.1, s1.adv.trans hk.2.1, s1.adv'.trans hk.2.2⟩
            | tok t k k' hk => exact .tok t k k' hk
          · refine .go _ _ _ ⟨same_lungetc c (s1.adv.char c rfl) s1.same ?_, s1.adv.unget, s1.adv'.unget⟩
            intro hc
            exact s1.flag (by rcases hc with rfl | rfl <;> simp)

theorem same_readWhile (p : UInt8 → Bool) (n n' : Nat) (buf : Bytes) (c : UInt8) (l l' : Lex) (h : SameLex l l') (hn : l.weight + 1 < n)
    (hn' : l'.weight + 1 < n') (hb : buf.length < bufSize) :
    SameRes (fun a l1 l1' => SameLex l1 l1' ∧ a.1.length < bufSize ∧
      ∃ t, a.1 = buf ++ c :: t ∧ ∀ x ∈ t, p x = true) (readWhile p n buf c l) (readWhile p n' buf c l') := by
  induction n generalizing l l' n' buf c with
  | zero => omega
  | succ n ih =>
    cases n' with
    | zero => omega
    | succ n' =>
      rw [readWhile, readWhile]
      have s1 := same_lgetc h
      have w := s1.adv.weight
      have w' := s1.adv'.weight
      generalize lgetc l = x at *
      generalize lgetc l' = y at *
      obtain ⟨d, l1⟩ := x
      obtain ⟨d', l1'⟩ := y
      have hcc : d = d' := s1.char
      subst hcc
      rw [if_pos hb, if_pos hb]
      split
      · exact same_findeol _ (same_yyerror h)
      · rename_i hb2
        have hb2 : (buf ++ [c]).length < bufSize := by omega
        cases d with
        | none => exact .go _ _ _ ⟨s1.same, hb2, [], rfl, by simp⟩
        | some d =>
          simp only [Option.isSome_some, if_true] at w w' ⊢
          split
          · rename_i hp
            have := ih n' (buf ++ [c]) d l1 l1' s1.same (by omega) (by omega) hb2
            generalize readWhile p n (buf ++ [c]) d l1 = u at *
            generalize readWhile p n' (buf ++ [c]) d l1' = v at *
            cases this with
            | go a k k' hk =>
              obtain ⟨i1, i2, t, i3, i4⟩ := hk
              refine .go a k k' ⟨i1, i2, d :: t, by rw [i3]; simp, ?_⟩
              intro x hx
              rcases List.mem_cons.1 hx with rfl | hx
              · exact hp
              · exact i4 x hx
            | tok t k k' hk => exact .tok t k k' hk
          · refine .go _ _ _ ⟨same_lungetc d (s1.adv.char d rfl) s1.same ?_, hb2, [], rfl, by simp⟩
            intro hc
            exact s1.flag (by rcases hc with rfl | rfl <;> simp)

theorem same_readQuoted (q : UInt8) (hq : q = c%'\'' ∨ q = c%'"') (n n' : Nat) (buf : Bytes) (l l' : Lex) (h : SameLex l l')
    (hn : l.weight < n) (hn' : l'.weight < n') (hb : buf.length < bufSize - 1) :
    SameRes (fun _ l1 l1' => SameLex l1 l1') (readQuoted q n buf l) (readQuoted q n' buf l') := by
  have q1 : ¬ Marker q := by rcases hq with rfl | rfl <;> decide
  have q2 : q ≠ c%'@' := by rcases hq with rfl | rfl <;> decide
  have q3 : q ≠ c%'$' := by rcases hq with rfl | rfl <;> decide
  induction n generalizing l l' n' buf with
  | zero => omega
  | succ n ih =>
    cases n' with
    | zero => omega
    | succ n' =>
      rw [readQuoted, readQuoted]
      have s1 := same_lgetcQ q q1 q2 q3 h
      have w := s1.adv.weight
      have w' := s1.adv'.weight
      generalize lgetcQ q l = x at *
      generalize lgetcQ q l' = y at *
      obtain ⟨c, l1⟩ := x
      obtain ⟨c', l1'⟩ := y
      have hcc : c = c' := s1.char
      subst hcc
      have hb' : buf.length < bufSize := by simp only [bufSize] at hb ⊢; omega
      have put : ∀ (c : UInt8) (k k' : Lex), SameLex k k' → k.weight < n → k'.weight < n' →
          SameRes (fun _ l1 l1' => SameLex l1 l1')
            (if buf.length + 1 ≥ bufSize - 1 then findeol k.yyerror
              else if buf.length < bufSize then readQuoted q n (buf ++ [c]) k else .ub)
            (if buf.length + 1 ≥ bufSize - 1 then findeol k'.yyerror
              else if buf.length < bufSize then readQuoted q n' (buf ++ [c]) k' else .ub) := by
        intro c k k' hk h1 h2
        by_cases hb2 : buf.length + 1 ≥ bufSize - 1
        · rw [if_pos hb2, if_pos hb2]
          exact same_findeol _ (same_yyerror hk)
        · rw [if_neg hb2, if_neg hb2, if_pos hb', if_pos hb']
          exact ih _ _ _ _ hk h1 h2 (by simp only [List.length_append, List.length_cons, List.length_nil]; omega)
      cases c with
      | none => exact .tok _ _ _ s1.same
      | some c =>
        simp only [Option.isSome_some, if_true] at w w' ⊢
        by_cases h1 : c = c%'\n'
        · rw [if_pos h1, if_pos h1]
          exact ih _ _ _ _ s1.same (by omega) (by omega) hb
        · rw [if_neg h1, if_neg h1]
          by_cases h2 : c = c%'\\'
          · rw [if_pos h2, if_pos h2]
            have s2 := same_lgetcQ q q1 q2 q3 s1.same
            have u := s2.adv.weight
            have u' := s2.adv'.weight
            simp only at s2 u u'
            generalize lgetcQ q l1 = x at *
            generalize lgetcQ q l1' = y at *
            obtain ⟨d, l2⟩ := x
            obtain ⟨d', l2'⟩ := y
            have hcc : d = d' := s2.char
            subst hcc
            cases d with
            | none => exact .tok _ _ _ s2.same
            | some d =>
              simp only [Option.isSome_some, if_true] at u u' ⊢
              by_cases h3 : d = q ∨ d = c%' ' ∨ d = c%'\t'
              · rw [if_pos h3, if_pos h3]; exact put _ _ _ s2.same (by omega) (by omega)
              · rw [if_neg h3, if_neg h3]
                by_cases h4 : d = c%'\n'
                · rw [if_pos h4, if_pos h4]
                  exact ih _ _ _ _ s2.same (by omega) (by omega) hb
                · rw [if_neg h4, if_neg h4]
                  refine put _ _ _ (same_lungetc d (s2.adv.char d rfl) s2.same ?_) ?_ ?_
                  · intro hc
                    exact s2.flag (by rcases hc with rfl | rfl <;> simp)
                  · rw [lungetc_weight]; omega
                  · rw [lungetc_weight]; omega
          · rw [if_neg h2, if_neg h2]
            by_cases h3 : c = q
            · rw [if_pos h3, if_pos h3, if_pos hb', if_pos hb']
              exact .go _ _ _ s1.same
            · rw [if_neg h3, if_neg h3]
              by_cases h4 : c = 0
              · rw [if_pos h4, if_pos h4]; exact same_findeol _ (same_yyerror s1.same)
              · rw [if_neg h4, if_neg h4]; exact put _ _ _ s1.same (by omega) (by omega)

theorem same_lungetAll (s : Bytes) (hs : ∀ c ∈ s, ¬ Marker c ∧ c ≠ c%'$' ∧ c ≠ c%'@') {l l' : Lex} (h : SameLex l l') :
    SameLex (lungetAll s l) (lungetAll s l') := by
  unfold lungetAll
  have hs' : ∀ c ∈ s.reverse, ¬ Marker c ∧ c ≠ c%'$' ∧ c ≠ c%'@' := fun c hc => hs c (List.mem_reverse.1 hc)
  generalize s.reverse = r at hs'
  induction r generalizing l l' with
  | nil => exact h
  | cons c r ih =>
    obtain ⟨h1, h2, h3⟩ := hs' c (by simp)
    exact ih (same_lungetc c h1 h (fun h => by
      rcases h with h | h
      · exact absurd h h2
      · exact absurd h h3)) (fun c hc => hs' c (by simp [hc]))

theorem same_lexRest (c : Option UInt8) {l l' : Lex} (h : SameLex l l') :
    SameRes (fun _ _ _ => True) (lexRest c l) (lexRest c l') := by
  cases c with
  | none => exact .tok _ _ _ h
  | some c =>
    unfold lexRest
    by_cases h1 : (isAlnum c || c = c%':' || c = c%'_') = true
    · simp only [if_pos h1]
      unfold readWord
      have := same_readWhile inString (l.weight + 2) (l'.weight + 2) [] c l l' h (by omega) (by omega) (by simp [bufSize])
      generalize readWhile inString (l.weight + 2) [] c l = x at *
      generalize readWhile inString (l'.weight + 2) [] c l' = y at *
      cases this with
      | go a k k' hk =>
        obtain ⟨w, d⟩ := a
        simp only at hk ⊢
        rw [if_pos hk.2.1, if_pos hk.2.1]
        cases lookupKw w with
        | none => exact .tok _ _ _ hk.1
        | some t => exact .tok _ _ _ hk.1
      | tok t k k' hk => exact .tok _ _ _ hk
    · simp only [if_neg h1]
      split
      · exact .tok _ _ _ h
      · exact .tok _ _ _ h

theorem digit_plain (c : UInt8) (h : isDigit c = true) : ¬ Marker c ∧ c ≠ c%'$' ∧ c ≠ c%'@' := by
  refine ⟨?_, ?_, ?_⟩
  · rintro (rfl | rfl) <;> revert h <;> decide
  · rintro rfl; revert h; decide
  · rintro rfl; revert h; decide

theorem same_readNumber (c : UInt8) {l l' : Lex} (h : SameLex l l') :
    SameRes (fun _ _ _ => True) (readNumber c l) (readNumber c l') := by
  unfold readNumber
  have := same_readWhile isDigit (l.weight + 2) (l'.weight + 2) [] c l l' h (by omega) (by omega) (by simp [bufSize])
  generalize readWhile isDigit (l.weight + 2) [] c l = x at *
  generalize readWhile isDigit (l'.weight + 2) [] c l' = y at *
  cases this with
  | go a k k' hk =>
    obtain ⟨s, d⟩ := a
    obtain ⟨h1, h2, t, h3, h4⟩ := hk
    simp only [List.nil_append] at h2 h3 ⊢
    subst h3
    by_cases hd : c :: t ≠ [c%'-'] ∧ (d.map endsNumber).getD true = true
    · rw [if_pos hd, if_pos hd, if_pos h2, if_pos h2]
      cases numToken (c :: t) with
      | none => exact same_findeol _ (same_yyerror h1)
      | some n => exact .tok _ _ _ h1
    · rw [if_neg hd, if_neg hd]
      have := same_lungetAll t (fun x hx => digit_plain x (h4 x hx)) h1
      by_cases hm : c = c%'-'
      · simp only [if_pos hm]; exact .tok _ _ _ this
      · simp only [if_neg hm]; exact same_lexRest _ this
  | tok t k k' hk => exact .tok _ _ _ hk

theorem same_lexSwitch (c : Option UInt8) {l l' : Lex} (h : SameLex l l') :
    SameRes (fun _ _ _ => True) (lexSwitch c l) (lexSwitch c l') := by
  cases c with
  | none => exact .tok _ _ _ h
  | some c =>
    unfold lexSwitch
    by_cases h1 : c = c%'\'' ∨ c = c%'"'
    · simp only [if_pos h1]
      have := same_readQuoted c h1 (l.weight + 1) (l'.weight + 1) [] l l' h (by omega) (by omega) (by simp [bufSize])
      generalize readQuoted c (l.weight + 1) [] l = x at *
      generalize readQuoted c (l'.weight + 1) [] l' = y at *
      cases this with
      | go a k k' hk => exact .tok _ _ _ hk
      | tok t k k' hk => exact .tok _ _ _ hk
    · simp only [if_neg h1]
      split
      · exact same_readNumber c h
      · exact same_lexRest _ h

/-! ## Expanding a macro -/

theorem lungetAll_file (s : Bytes) (l : Lex) : ∃ cap, lungetAll s l =
    { l with file := { l.file with unget := s ++ l.file.unget, cap := cap } } := by
  unfold lungetAll
  suffices ∀ (r : Bytes) (l : Lex), ∃ cap, r.foldl (fun l c => lungetc (some c) l) l =
      { l with file := { l.file with unget := r.reverse ++ l.file.unget, cap := cap } } by
    simpa using this s.reverse l
  intro r
  induction r with
  | nil => intro l; exact ⟨l.file.cap, rfl⟩
  | cons c r ih =>
    intro l
    obtain ⟨cap, h⟩ := ih (lungetc (some c) l)
    refine ⟨cap, ?_⟩
    rw [List.foldl_cons, h]
    simp [lungetc]

/-- a lexer in the middle of the text of a macro -/
def inMacro (v : Bytes) (cap : Nat) (l : Lex) : Lex :=
  { l with file := { l.file with unget := v ++ doneExpand :: l.file.unget, cap := cap }, expanding := true }

/-- `a` is `l` but for the markers that are read first -/
structure Alias (l a : Lex) : Prop where
  get : igetc l = igetc a
  left : a.file.left ≤ l.file.left
  weight : a.weight ≤ l.weight

theorem Alias.refl (l : Lex) : Alias l l := ⟨rfl, Nat.le_refl _, Nat.le_refl _⟩

theorem pushMacro_alias (v : Bytes) (l : Lex) : ∃ cap, Alias (pushMacro v l) (inMacro v cap l) := by
  unfold pushMacro
  obtain ⟨cap, h⟩ := lungetAll_file v (lungetc (some doneExpand) l)
  rw [h]
  refine ⟨if (v ++ doneExpand :: l.file.unget).length ≥ cap then cap * 2 else cap, ?_, ?_, ?_⟩
  · simp [igetc, igetcFrom, inMacro, lungetc]
  · simp [inMacro, lungetc, LFile.left]
  · simp [inMacro, lungetc, LFile.left, Lex.weight, LFile.weight]

theorem lgetc_alias {l a : Lex} (h : Alias l a) : lgetc l = lgetcN (l.file.left + 1) a := by
  rw [lgetc_eq, ← lgetcN]
  simp only [lgetcN, contLoop_succ, h.get]

theorem same_skipBlanks' {l a l' a' : Lex} (hl : Alias l a) (hl' : Alias l' a') (h : SameLex a a') :
    SameRes (fun c l1 l1' => SameChar a a' (c, l1) (c, l1')) (skipBlanks (l.weight + 1) l) (skipBlanks (l'.weight + 1) l') := by
  rw [skipBlanks_succ, skipBlanks_succ]
  have k1 := hl.left; have k2 := hl'.left; have k3 := hl.weight; have k4 := hl'.weight
  have s1 := same_lgetcN (l.file.left + 1) (l'.file.left + 1) h (by omega) (by omega)
  rw [← lgetc_alias hl, ← lgetc_alias hl'] at s1
  have w := s1.adv.weight
  have w' := s1.adv'.weight
  generalize lgetc l = x at *
  generalize lgetc l' = y at *
  obtain ⟨c, l1⟩ := x
  obtain ⟨c', l1'⟩ := y
  have hcc : c = c' := s1.char
  subst hcc
  simp only at w w' ⊢
  split
  · rename_i hc
    have : c.isSome = true := isSome_of (by rintro rfl; simp at hc)
    simp only [this, if_true] at w w'
    have := same_skipBlanks l.weight l'.weight l1 l1' s1.same (by omega) (by omega)
    generalize skipBlanks l.weight l1 = u at *
    generalize skipBlanks l'.weight l1' = v at *
    cases this with
    | go a k k' hk => exact .go a k k' (s1.trans hk)
    | tok t k k' hk => exact .tok t k k' hk
  · exact .go _ _ _ s1

theorem same_inMacro (v : Bytes) (cap cap' : Nat) (hv : Clean v) {l l' : Lex} (h : SameLex l l') (he : l.expanding = false) (he' : l'.expanding = false) :
    SameLex (inMacro v cap l) (inMacro v cap' l') := by
  obtain ⟨h1, he0, h2, h3⟩ := h.chain
  have wfc : ∀ z : Lex, z.expanding = false → WF z.expanding z.whole → Clean z.whole := by
    intro z hz hw
    rcases hw with ⟨_, k⟩ | ⟨k, _⟩
    · exact k
    · rw [hz] at k; cases k
  have ch : ∀ r, chars true (v ++ doneExpand :: r) = v.map (fun c => (c, true)) ++ chars false r := by
    intro r; rw [chars_append, chars_clean _ _ hv, endF_clean _ _ hv]; rfl
  have en : ∀ r, endF true (v ++ doneExpand :: r) = endF false r := by
    intro r; rw [endF_append, endF_clean _ _ hv]; rfl
  have sm : ∀ (p : List (UInt8 × Bool)) a b, Sim a b → Sim (p ++ a) (p ++ b) := by
    intro p a b hab
    induction p with
    | nil => exact hab
    | cons x p ih => exact ⟨rfl, fun _ => rfl, ih⟩
  refine ⟨⟨h1, he0, ?_, ?_⟩, h.syms, .inr ⟨rfl, v, l.whole, by simp [inMacro, Lex.whole, LFile.flat], hv, wfc l he h.wf⟩,
    .inr ⟨rfl, v, l'.whole, by simp [inMacro, Lex.whole, LFile.flat], hv, wfc l' he' h.wf'⟩, h.vals⟩
  · simp only [inMacro, LFile.flat, List.append_assoc, List.cons_append, ch]
    refine sm _ _ _ ?_
    have := h2
    rw [he, he'] at this; exact this
  · simp only [inMacro, LFile.flat, List.append_assoc, List.cons_append, en]
    rw [he, he'] at h3; exact h3

theorem inMacro_macros (v : Bytes) (cap : Nat) (hv : Clean v) (l : Lex) (he : l.expanding = false) : (inMacro v cap l).macros = l.macros := by
  have : (inMacro v cap l).whole = v ++ doneExpand :: l.whole := by simp [inMacro, Lex.whole, LFile.flat]
  have e : (inMacro v cap l).expanding = true := rfl
  simp only [Lex.macros, this, e, chars_append, chars_clean _ _ hv, endF_clean _ _ hv, List.countP_append, he]
  have z : (v.map (fun c => (c, true))).countP (fun p => decide (p = (c%'@', false))) = 0 := by
    rw [List.countP_eq_zero]
    intro p hp
    obtain ⟨c, _, rfl⟩ := List.mem_map.1 hp
    simp
  have y : chars true (doneExpand :: l.whole) = chars false l.whole := rfl
  rw [z, y, Nat.zero_add]

theorem symget_mem (syms : List Sym) (nm v : Bytes) (h : symget syms nm = some v) : ∃ s ∈ syms, s.val = v := by
  unfold symget at h
  cases hf : syms.find? (fun s => decide (s.name = nm)) with
  | none => rw [hf] at h; cases h
  | some s =>
    rw [hf] at h
    exact ⟨s, List.mem_of_find?_eq_some hf, by simpa using h⟩

theorem same_yylexN (n n' : Nat) {l a l' a' : Lex} (hl : Alias l a) (hl' : Alias l' a') (h : SameLex a a')
    (hn : a.macros < n) (hn' : a'.macros < n') : SameRes (fun _ _ _ => True) (yylexN n l) (yylexN n' l') := by
  induction n generalizing l a l' a' n' with
  | zero => omega
  | succ n ih =>
    cases n' with
    | zero => omega
    | succ n' =>
      rw [yylexN, yylexN]
      have sb := same_skipBlanks' hl hl' h
      generalize skipBlanks (l.weight + 1) l = x at *
      generalize skipBlanks (l'.weight + 1) l' = y at *
      cases sb with
      | tok t k k' hk => exact .tok t k k' hk
      | go c k k' s1 =>
        simp only
        -- the comment
        have sc : SameRes (fun c l1 l1' => SameChar a a' (c, l1) (c, l1'))
            (if c = some c%'#' then skipComment (k.weight + 1) k else .go c k)
            (if c = some c%'#' then skipComment (k'.weight + 1) k' else .go c k') := by
          by_cases hc : c = some c%'#'
          · rw [if_pos hc, if_pos hc]
            have := same_skipComment (k.weight + 1) (k'.weight + 1) k k' s1.same (by omega) (by omega)
            generalize skipComment (k.weight + 1) k = u at *
            generalize skipComment (k'.weight + 1) k' = v at *
            cases this with
            | go b j j' hj => exact .go b j j' (s1.trans hj)
            | tok t j j' hj => exact .tok t j j' hj
          · rw [if_neg hc, if_neg hc]
            exact .go _ _ _ s1
        generalize (if c = some c%'#' then skipComment (k.weight + 1) k else .go c k) = x at *
        generalize (if c = some c%'#' then skipComment (k'.weight + 1) k' else .go c k') = y at *
        cases sc with
        | tok t k k' hk => exact .tok t k k' hk
        | go c k k' s1 =>
          simp only
          by_cases hd : c = some c%'$' ∧ k.expanding = false
          · have hd' : c = some c%'$' ∧ k'.expanding = false := ⟨hd.1, by rw [← s1.flag (.inl hd.1)]; exact hd.2⟩
            rw [if_pos hd, if_pos hd']
            have sn := same_readName (k.weight + 1) (k'.weight + 1) [] k k' s1.same (by omega) (by omega)
            generalize readName (k.weight + 1) [] k = u at *
            generalize readName (k'.weight + 1) [] k' = w at *
            cases sn with
            | tok t j j' hj => exact .tok t j j' hj
            | go nm j j' hj =>
              simp only [← hj.1.syms]
              cases symget j.syms nm with
              | none => exact same_findeol _ (same_yyerror hj.1)
              | some v => exact .tok _ _ _ hj.1
          · have hd' : ¬ (c = some c%'$' ∧ k'.expanding = false) := by
              rintro ⟨g1, g2⟩
              exact hd ⟨g1, by rw [show k.expanding = k'.expanding from s1.flag (.inl g1)]; exact g2⟩
            rw [if_neg hd, if_neg hd']
            by_cases ha : c = some c%'@' ∧ k.expanding = false
            · have ha' : c = some c%'@' ∧ k'.expanding = false := ⟨ha.1, by rw [← s1.flag (.inr ha.1)]; exact ha.2⟩
              rw [if_pos ha, if_pos ha']
              have sn := same_readName (k.weight + 1) (k'.weight + 1) [] k k' s1.same (by omega) (by omega)
              generalize readName (k.weight + 1) [] k = u at *
              generalize readName (k'.weight + 1) [] k' = w at *
              cases sn with
              | tok t j j' hj => exact .tok t j j' hj
              | go nm j j' hj =>
                obtain ⟨j1, j2, j3⟩ := hj
                simp only [← j1.syms]
                cases hs : symget j.syms nm with
                | none => exact same_findeol _ (same_yyerror j1)
                | some v =>
                  obtain ⟨s, hs1, rfl⟩ := symget_mem _ _ _ hs
                  have hv := j1.vals s hs1
                  have wfc : ∀ z : Lex, z.expanding = false → WF z.expanding z.whole → Clean z.whole := by
                    intro z hz hw
                    rcases hw with ⟨_, k⟩ | ⟨k, _⟩
                    · exact k
                    · rw [hz] at k; cases k
                  have e1 := (j2.clean ⟨ha.2, wfc _ ha.2 s1.same.wf⟩).1
                  have e2 := (j3.clean ⟨ha'.2, wfc _ ha'.2 s1.same.wf'⟩).1
                  obtain ⟨cap, c1⟩ := pushMacro_alias s.val j
                  obtain ⟨cap', c2⟩ := pushMacro_alias s.val j'
                  have m1 := s1.adv.macros
                  have m2 := s1.adv'.macros
                  simp only [ha, ha', and_self, if_true] at m1 m2
                  have m3 := j2.macros
                  have m4 := j3.macros
                  simp at m3 m4
                  refine ih n' c1 c2 (same_inMacro s.val cap cap' hv j1 e1 e2) ?_ ?_
                  · rw [inMacro_macros _ _ hv _ e1]; omega
                  · rw [inMacro_macros _ _ hv _ e2]; omega
            · have ha' : ¬ (c = some c%'@' ∧ k'.expanding = false) := by
                rintro ⟨g1, g2⟩
                exact ha ⟨g1, by rw [show k.expanding = k'.expanding from s1.flag (.inr g1)]; exact g2⟩
              rw [if_neg ha, if_neg ha']
              exact same_lexSwitch c s1.same

theorem chars_length (e : Bool) (s : Bytes) : (chars e s).length ≤ s.length := by
  induction s generalizing e with
  | nil => simp [chars]
  | cons c r ih =>
    simp only [chars]
    split
    · have := ih true; simp; omega
    · split
      · have := ih false; simp; omega
      · have := ih e; simp; omega

theorem macros_le (l : Lex) : l.macros ≤ l.whole.length :=
  Nat.le_trans List.countP_le_length (chars_length _ _)

/-- lexers that will read the same return the same token -/
theorem same_yylex {l l' : Lex} (h : SameLex l l') : SameRes (fun _ _ _ => True) (yylex l) (yylex l') := by
  have := macros_le l; have := macros_le l'
  exact same_yylexN _ _ (Alias.refl l) (Alias.refl l') h (by omega) (by omega)

theorem sameLex_refl (l : Lex) (hw : WF l.expanding l.whole) (hv : ∀ s ∈ l.syms, Clean s.val) : SameLex l l := by
  refine ⟨?_, rfl, hw, hw, hv⟩
  suffices ∀ (e : Bool) (fs : List LFile), ChainRel e e fs fs from this _ _
  intro e fs
  induction fs generalizing e with
  | nil => trivial
  | cons f r ih => exact ⟨rfl, rfl, sim_refl _, ih _⟩

theorem lexAll_same (n : Nat) {l l' : Lex} (h : SameLex l l') : lexAll n l = lexAll n l' := by
  induction n generalizing l l' with
  | zero => rfl
  | succ n ih =>
    have := same_yylex h
    simp only [lexAll]
    generalize yylex l = x at *
    generalize yylex l' = y at *
    cases this with
    | go a => exact a.elim
    | tok t k k' hk =>
      cases t <;> simp [ih hk]

end Gmid
