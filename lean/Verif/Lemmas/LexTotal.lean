import Verif.Lemmas.Lex

/-!
# The lexer always returns a token

Here nothing is assumed of the bytes of the files, that may contain those of START_EXPAND and DONE_EXPAND; only the values of the macros
do not.
-/

set_option autoImplicit false

namespace Gmid

/-- how many `@` there are -/
def ats (s : Bytes) : Nat := s.countP (fun c => decide (c = c%'@'))

theorem ats_append (a b : Bytes) : ats (a ++ b) = ats a + ats b := by simp [ats]

theorem ats_cons (c : UInt8) (s : Bytes) : ats (c :: s) = ats s + (if c = c%'@' then 1 else 0) := by
  simp [ats, List.countP_cons]

theorem ats_le (s : Bytes) : ats s ≤ s.length := List.countP_le_length

/-- the lexer is reading the value of a macro, with at most `k` `@` after it -/
def InMac (k : Nat) (l : Lex) : Prop :=
  l.expanding = true ∧ ∃ v rest, l.whole = v ++ doneExpand :: rest ∧ Clean v ∧ ats rest ≤ k

/-- the value of a macro was pushed -/
def Pushed (k : Nat) (l : Lex) : Prop :=
  l.file.flat ≠ [] ∧ ∃ v rest, l.whole = startExpand :: (v ++ doneExpand :: rest) ∧ Clean v ∧ ats rest ≤ k

structure Step (l : Lex) (c : Option UInt8) (l1 : Lex) : Prop where
  syms : l1.syms = l.syms
  weight : l1.weight + (if c.isSome then 1 else 0) ≤ l.weight
  char : ∀ d, c = some d → ¬ Marker d
  cnt : ats l1.whole + (if c = some c%'@' then 1 else 0) ≤ ats l.whole
  mac : ∀ k, InMac k l ∨ Pushed k l → InMac k l1 ∨ ats l1.whole + (if c = some c%'@' then 1 else 0) ≤ k

theorem mac_markers (k : Nat) (mk w v rest : Bytes) (h : v ++ doneExpand :: rest = mk ++ w) (hm : ∀ x ∈ mk, Marker x) (hv : Clean v)
    (hr : ats rest ≤ k) : (endF true mk = true ∧ ∃ v', w = v' ++ doneExpand :: rest ∧ Clean v') ∨ ats w ≤ k := by
  cases mk with
  | nil => exact .inl ⟨rfl, v, h.symm, hv⟩
  | cons m mk =>
    cases v with
    | nil =>
      simp only [List.nil_append, List.cons_append, List.cons.injEq] at h
      right
      rw [h.2, ats_append] at hr; omega
    | cons x v =>
      simp only [List.cons_append, List.cons.injEq] at h
      exact absurd (hm m (by simp)) (by rw [← h.1]; exact hv x (by simp))

theorem mac_push (k : Nat) (e : Bool) (mk w v rest : Bytes) (h : startExpand :: (v ++ doneExpand :: rest) = mk ++ w) (hm : ∀ x ∈ mk, Marker x)
    (hv : Clean v) (hr : ats rest ≤ k) (hw : mk ≠ []) :
    (endF e mk = true ∧ ∃ v', w = v' ++ doneExpand :: rest ∧ Clean v') ∨ ats w ≤ k := by
  cases mk with
  | nil => exact absurd rfl hw
  | cons m mk =>
    simp only [List.cons_append, List.cons.injEq] at h
    have := mac_markers k mk w v rest h.2 (fun x hx => hm x (by simp [hx])) hv hr
    rw [← h.1]
    simpa [endF] using this

theorem step_igetc (l : Lex) : Step l (igetc l).1 (igetc l).2 := by
  have a := (adv_igetc l).1
  obtain ⟨mk, c, l1, k0, k1, k2, k3, k4, k5, k6, k7, k8, k9⟩ := igetc_spec l
  rw [k0] at a ⊢
  refine ⟨a.syms, a.weight, a.char, ?_, ?_⟩
  · rcases k9 with ⟨d, rfl, j2, j3⟩ | ⟨rfl, j2, j3⟩
    · have hw : l.whole = mk ++ d :: l1.whole := by simp only [Lex.whole, j3, k2]; simp
      rw [hw, ats_append, ats_cons]; simp
    · have hw : l.whole = mk ++ l1.whole := by simp only [Lex.whole, j3, j2, k2]; simp
      rw [hw, ats_append]; simp
  · intro k hk
    rcases k9 with ⟨d, rfl, j2, j3⟩ | ⟨rfl, j2, j3⟩
    · have hw : l.whole = mk ++ d :: l1.whole := by simp only [Lex.whole, j3, k2]; simp
      have fin : ∀ rest, ats rest ≤ k → (l1.expanding = true ∧ ∃ v', d :: l1.whole = v' ++ doneExpand :: rest ∧ Clean v') ∨ ats (d :: l1.whole) ≤ k →
          InMac k l1 ∨ ats l1.whole + (if some d = some c%'@' then 1 else 0) ≤ k := by
        rintro rest hr (⟨h1, v', h2, h3⟩ | h)
        · cases v' with
          | nil =>
            simp only [List.nil_append, List.cons.injEq] at h2
            exact absurd (.inr h2.1) j2
          | cons x v' =>
            simp only [List.cons_append, List.cons.injEq] at h2
            exact .inl ⟨h1, v', rest, h2.2, fun y hy => h3 y (by simp [hy]), hr⟩
        · rw [ats_cons] at h; right; simpa using h
      rcases hk with ⟨h1, v, rest, h2, h3, h4⟩ | ⟨h1, v, rest, h2, h3, h4⟩
      · refine fin rest h4 ?_
        rw [k7, h1]; exact mac_markers k mk _ v rest (by rw [← h2, hw]) k1 h3 h4
      · refine fin rest h4 ?_
        rw [k7]
        refine mac_push k _ mk _ v rest (by rw [← h2, hw]) k1 h3 h4 ?_
        rintro rfl
        rw [h2] at hw
        simp only [List.nil_append, List.cons.injEq] at hw
        exact j2 (.inl hw.1.symm)
    · have hw : l.whole = mk ++ l1.whole := by simp only [Lex.whole, j3, j2, k2]; simp
      rcases hk with ⟨h1, v, rest, h2, h3, h4⟩ | ⟨h1, v, rest, h2, h3, h4⟩
      · rcases mac_markers k mk l1.whole v rest (by rw [← h2, hw]) k1 h3 h4 with ⟨i1, v', i2, i3⟩ | i
        · exact .inl ⟨by rw [k7, h1]; exact i1, v', rest, i2, i3, h4⟩
        · right; simpa using i
      · rcases mac_push k l.expanding mk l1.whole v rest (by rw [← h2, hw]) k1 h3 h4 (by rw [← j3]; exact h1) with ⟨i1, v', i2, i3⟩ | i
        · exact .inl ⟨by rw [k7]; exact i1, v', rest, i2, i3, h4⟩
        · right; simpa using i

theorem Step.trans {l l1 l2 : Lex} {c d : Option UInt8} (h : Step l c l1) (k : Step l1 d l2) : Step l d l2 := by
  have h1 := h.weight; have h2 := h.cnt; have k1 := k.weight; have k2 := k.cnt
  refine ⟨by rw [k.syms, h.syms], by omega, k.char, by omega, ?_⟩
  intro n hn
  rcases h.mac n hn with g | g
  · exact k.mac n (.inl g)
  · right; omega

/-- the lexer goes on with something that has the same bytes to read -/
theorem Step.post {l l1 l2 : Lex} {c : Option UInt8} {d : Option UInt8} (h : Step l c l1) (hw : l2.whole = l1.whole) (he : l2.expanding = l1.expanding)
    (hs : l2.syms = l1.syms) (hwt : l2.weight + (if d.isSome then 1 else 0) ≤ l1.weight) (hd : ∀ x, d = some x → ¬ Marker x ∧ x ≠ c%'@') : Step l d l2 := by
  have h1 := h.weight; have h2 := h.cnt
  have hd' : d ≠ some c%'@' := fun k => (hd _ k).2 rfl
  refine ⟨by rw [hs, h.syms], by omega, fun x hx => (hd x hx).1, by rw [hw, if_neg hd']; omega, ?_⟩
  intro n hn
  rcases h.mac n hn with ⟨g1, g2⟩ | g
  · exact .inl ⟨by rw [he]; exact g1, by rw [hw]; exact g2⟩
  · right; rw [hw, if_neg hd']; omega

theorem step_contLoop (n : Nat) (l : Lex) (hn : l.file.left < n) : Step l (contLoop n l).1 (contLoop n l).2 := by
  induction n generalizing l with
  | zero => omega
  | succ n ih =>
    rw [contLoop_succ]
    have h1 := igetc_left l
    have h2 := igetc_left (igetc l).2
    split
    · rename_i h
      rw [h] at h1; simp at h1
      split
      · exact ((step_igetc l).trans (step_igetc _)).trans (ih _ (by omega))
      · exact (step_igetc l).trans (step_igetc _)
    · exact step_igetc l

theorem pop_weight {l : Lex} {f : LFile} {fs : List LFile} (ho : l.outer = f :: fs) : (l.popTo f fs).weight + 1 ≤ l.weight := by
  have h1 : (l.popTo f fs).weight = f.weight + (fs.map LFile.weight).sum := rfl
  have h2 : l.weight = l.file.left + (if l.file.eofReached = true then 1 else 2) + (f.weight + (fs.map LFile.weight).sum) := by
    simp [Lex.weight, ho, LFile.weight]
  have : 1 ≤ (if l.file.eofReached = true then 1 else 2) := by split <;> omega
  rw [h1, h2]; omega

theorem pop_whole {l : Lex} {f : LFile} {fs : List LFile} (ho : l.outer = f :: fs) (hf : l.file.flat = []) : (l.popTo f fs).whole = l.whole := by
  simp only [Lex.whole, hf, ho]; simp [Lex.popTo, LFile.flat]

theorem step_popFiles (fs : List LFile) {l l1 : Lex} {c : Option UInt8} (h : Step l c l1) (ho : l1.outer = fs) (hf : l1.file.flat = []) :
    Step l (popFiles fs l1).1 (popFiles fs l1).2 := by
  induction fs generalizing l1 c with
  | nil => exact h.post rfl rfl rfl (by simp [popFiles]) (by simp [popFiles])
  | cons f fs ih =>
    rw [popFiles_cons]
    have s1 : Step l none (l1.popTo f fs) := h.post (pop_whole ho hf) rfl rfl (by have := pop_weight ho; simp; omega) (by simp)
    have s2 := s1.trans (step_igetc (l1.popTo f fs))
    have k1 := kept_igetc (l1.popTo f fs)
    split
    · rename_i hc; exact ih s2 k1.outer (k1.flat hc)
    · exact s2

theorem step_lgetc (l : Lex) : Step l (lgetc l).1 (lgetc l).2 := by
  rw [lgetc_eq]
  have s1 := step_contLoop (l.file.left + 1) l (by omega)
  have k1 := kept_contLoop (l.file.left + 1) l (by omega)
  generalize contLoop (l.file.left + 1) l = x at *
  split
  · rename_i hc
    split
    · exact step_popFiles _ s1 rfl (k1.flat hc)
    · rename_i he
      have he' : x.2.file.eofReached = false := by simpa using he
      refine s1.post rfl rfl rfl ?_ ?_
      · simp only [Lex.weight, LFile.weight, he', LFile.left]; simp; omega
      · rintro _ ⟨⟩; decide
  · exact s1

theorem step_lgetcQ (q : UInt8) (hq : ¬ Marker q) (hq' : q ≠ c%'@') (l : Lex) : Step l (lgetcQ q l).1 (lgetcQ q l).2 := by
  rw [lgetcQ_eq]
  have s1 := step_igetc l
  have k1 := kept_igetc l
  generalize igetc l = x at *
  split
  · rename_i hc
    cases ho : x.2.outer with
    | nil => exact s1.post rfl rfl rfl (Nat.le_refl _) (by simp)
    | cons f fs =>
      refine s1.post (@pop_whole x.2.yyerror f fs ho (k1.flat hc)) rfl rfl (@pop_weight x.2.yyerror f fs ho) ?_
      rintro _ ⟨⟩; exact ⟨hq, hq'⟩
  · exact s1

theorem Step.unget {l l1 : Lex} {c : UInt8} (h : Step l (some c) l1) : Step l none (lungetc (some c) l1) := by
  have h1 := h.weight; have h2 := h.cnt
  refine ⟨h.syms, by rw [lungetc_weight]; simp at h1 ⊢; omega, by simp, ?_, ?_⟩
  · rw [lungetc_whole, ats_cons]; simpa using h2
  · intro k hk
    rcases h.mac k hk with ⟨g1, v, r, g2, g3, g4⟩ | g
    · refine .inl ⟨g1, c :: v, r, by rw [lungetc_whole, g2]; rfl, ?_, g4⟩
      intro x hx
      rcases List.mem_cons.1 hx with rfl | hx
      · exact h.char _ rfl
      · exact g3 x hx
    · right; rw [lungetc_whole, ats_cons]; simpa using g

/-! ## The loops of yylex -/

/-- a token whose text has no markers -/
def Tok.Clean : Tok → Prop
  | .str s => Gmid.Clean s
  | _ => True

/-- the loop ends, and does not write out of the buffer -/
inductive Ends {α : Type} (l : Lex) (P : α → Lex → Prop) : LexRes α → Prop where
  | go (a : α) (l1 : Lex) (h : l1.syms = l.syms) (p : P a l1) : Ends l P (.go a l1)
  | tok (t : Tok) (l1 : Lex) (h : l1.syms = l.syms) (p : t.Clean) : Ends l P (.tok t l1)

theorem Ends.of {α : Type} {l l1 : Lex} {P Q : α → Lex → Prop} {r : LexRes α} (h : Ends l1 P r) (hs : l1.syms = l.syms) (hp : ∀ a l, P a l → Q a l) :
    Ends l Q r := by
  cases h with
  | go a k h p => exact .go a k (h.trans hs) (hp _ _ p)
  | tok t k h p => exact .tok t k (h.trans hs) p

theorem ends_findeol {α : Type} (P : α → Lex → Prop) (l : Lex) : Ends l P (findeol l) := by
  unfold findeol
  suffices ∀ n (l : Lex), l.weight < n → Ends l (fun _ _ => True) (findeolN n l) by
    have := this (l.weight + 1) l (by omega)
    generalize findeolN (l.weight + 1) l = x at *
    cases this with
    | go a => exact a.elim
    | tok t k h p => exact .tok t k h p
  intro n
  induction n with
  | zero => intro l h; omega
  | succ n ih =>
    intro l h
    rw [findeolN_succ]
    have s1 := step_lgetc l
    have w := s1.weight
    split
    · exact .tok _ _ s1.syms trivial
    · rename_i hc
      rw [not_or] at hc
      rw [isSome_of hc.1] at w
      exact (ih _ (by simp at w; omega)).of s1.syms (fun _ _ => id)

theorem ends_error {α : Type} (P : α → Lex → Prop) (l : Lex) : Ends l P (findeol l.yyerror) :=
  (ends_findeol P l.yyerror).of rfl (fun _ _ => id)

theorem ends_skipBlanks (n : Nat) (l : Lex) (hn : l.weight < n) : Ends l (fun c l1 => Step l c l1) (skipBlanks n l) := by
  induction n generalizing l with
  | zero => omega
  | succ n ih =>
    rw [skipBlanks_succ]
    have s1 := step_lgetc l
    have w := s1.weight
    split
    · rename_i hc
      rw [isSome_of (by rcases hc with hc | hc <;> simp [hc])] at w
      exact (ih _ (by simp at w; omega)).of s1.syms (fun _ _ k => s1.trans k)
    · exact .go _ _ s1.syms s1

theorem ends_skipComment (n : Nat) (l : Lex) (hn : l.weight < n) : Ends l (fun c l1 => Step l c l1) (skipComment n l) := by
  induction n generalizing l with
  | zero => omega
  | succ n ih =>
    rw [skipComment_succ]
    have s1 := step_lgetc l
    have w := s1.weight
    split
    · exact .go _ _ s1.syms s1
    · rename_i hc
      rw [not_or] at hc
      rw [isSome_of hc.2] at w
      exact (ih _ (by simp at w; omega)).of s1.syms (fun _ _ k => s1.trans k)

theorem ends_readName (n : Nat) (buf : Bytes) (l : Lex) (hn : l.weight < n) : Ends l (fun _ l1 => Step l none l1) (readName n buf l) := by
  induction n generalizing l buf with
  | zero => omega
  | succ n ih =>
    rw [readName]
    have s1 := step_lgetc l
    have w := s1.weight
    generalize lgetc l = x at *
    obtain ⟨c, l1⟩ := x
    cases c with
    | none => exact .tok _ _ s1.syms trivial
    | some c =>
      simp only [Option.isSome_some, if_true] at w ⊢
      split
      · exact (ends_error _ l1).of s1.syms (fun _ _ => id)
      · rename_i hb
        have hb' : buf.length < bufSize := by simp only [bufSize] at hb ⊢; omega
        simp only [if_pos hb']
        split
        · exact (ih _ l1 (by omega)).of s1.syms (fun _ _ k => s1.trans k)
        · exact .go _ _ s1.syms s1.unget

theorem ends_readWhile (p : UInt8 → Bool) (n : Nat) (buf : Bytes) (c : UInt8) (l : Lex) (hn : l.weight + 1 < n) (hb : buf.length < bufSize)
    (hcl : Clean (buf ++ [c])) :
    Ends l (fun a _ => a.1.length < bufSize ∧ Clean a.1 ∧ (∃ t, a.1 = buf ++ c :: t)) (readWhile p n buf c l) := by
  induction n generalizing l buf c with
  | zero => omega
  | succ n ih =>
    rw [readWhile]
    have s1 := step_lgetc l
    have w := s1.weight
    generalize lgetc l = x at *
    obtain ⟨d, l1⟩ := x
    rw [if_pos hb]
    split
    · exact ends_error _ l
    · rename_i hb2
      have hb2 : (buf ++ [c]).length < bufSize := by omega
      cases d with
      | none => exact .go _ _ s1.syms ⟨hb2, hcl, [], rfl⟩
      | some d =>
        simp only [Option.isSome_some, if_true] at w ⊢
        split
        · refine (ih (buf ++ [c]) d l1 (by omega) hb2 ?_).of s1.syms ?_
          · intro x hx
            rcases List.mem_append.1 hx with hx | hx
            · exact hcl x hx
            · rw [List.mem_singleton.1 hx]; exact s1.char d rfl
          · rintro a k ⟨i1, i2, t, i3⟩
            exact ⟨i1, i2, d :: t, by rw [i3]; simp⟩
        · exact .go _ _ s1.syms ⟨hb2, hcl, [], rfl⟩

theorem ends_readQuoted (q : UInt8) (hq : q = c%'\'' ∨ q = c%'"') (n : Nat) (buf : Bytes) (l : Lex) (hn : l.weight < n) (hb : buf.length < bufSize - 1)
    (hcl : Clean buf) : Ends l (fun s _ => Clean s) (readQuoted q n buf l) := by
  have q1 : ¬ Marker q := by rcases hq with rfl | rfl <;> decide
  have q2 : q ≠ c%'@' := by rcases hq with rfl | rfl <;> decide
  induction n generalizing l buf with
  | zero => omega
  | succ n ih =>
    rw [readQuoted]
    have s1 := step_lgetcQ q q1 q2 l
    have w := s1.weight
    generalize lgetcQ q l = x at *
    obtain ⟨c, l1⟩ := x
    have hb' : buf.length < bufSize := by simp only [bufSize] at hb ⊢; omega
    have put : ∀ (c : UInt8) (k : Lex), ¬ Marker c → k.weight < n → k.syms = l.syms →
        Ends l (fun s _ => Clean s)
          (if buf.length + 1 ≥ bufSize - 1 then findeol k.yyerror
            else readQuoted q n (buf ++ [c]) k) := by
      intro c k hc h1 h2
      by_cases hb2 : buf.length + 1 ≥ bufSize - 1
      · rw [if_pos hb2]
        exact (ends_error _ k).of h2 (fun _ _ => id)
      · rw [if_neg hb2]
        refine (ih _ _ h1 (by simp only [List.length_append, List.length_cons, List.length_nil]; omega) ?_).of h2 (fun _ _ => id)
        intro x hx
        rcases List.mem_append.1 hx with hx | hx
        · exact hcl x hx
        · rw [List.mem_singleton.1 hx]; exact hc
    cases c with
    | none => exact .tok _ _ s1.syms trivial
    | some c =>
      simp only [Option.isSome_some, if_true, if_pos hb'] at w ⊢
      split
      · exact (ih _ _ (by omega) hb hcl).of s1.syms (fun _ _ => id)
      · split
        · have s2 := step_lgetcQ q q1 q2 l1
          have u := s2.weight
          generalize lgetcQ q l1 = x at *
          obtain ⟨d, l2⟩ := x
          have hs2 : l2.syms = l.syms := s2.syms.trans s1.syms
          cases d with
          | none => exact .tok _ _ hs2 trivial
          | some d =>
            simp only [Option.isSome_some, if_true] at u ⊢
            split
            · exact put _ _ (s2.char d rfl) (by omega) hs2
            · split
              · exact (ih _ _ (by omega) hb hcl).of hs2 (fun _ _ => id)
              · exact put _ _ (s1.char c rfl) (by rw [lungetc_weight]; omega) hs2
        · split
          · exact .go _ _ s1.syms hcl
          · split
            · exact (ends_error _ l1).of s1.syms (fun _ _ => id)
            · exact put _ _ (s1.char c rfl) (by omega) s1.syms

theorem lungetAll_syms (s : Bytes) (l : Lex) : (lungetAll s l).syms = l.syms := by
  obtain ⟨cap, h⟩ := lungetAll_file s l
  rw [h]

theorem ends_lexRest (c : Option UInt8) (hc : ∀ d, c = some d → ¬ Marker d) (l : Lex) : Ends l (fun _ _ => True) (lexRest c l) := by
  cases c with
  | none => exact .tok _ _ rfl trivial
  | some c =>
    unfold lexRest
    simp only
    split
    · unfold readWord
      have := ends_readWhile inString (l.weight + 2) [] c l (by omega) (by simp [bufSize]) (by intro x hx; rw [List.mem_singleton.1 hx]; exact hc c rfl)
      generalize readWhile inString (l.weight + 2) [] c l = x at *
      cases this with
      | go a k h p =>
        obtain ⟨w, d⟩ := a
        simp only at p ⊢
        rw [if_pos p.1]
        cases lookupKw w with
        | none => exact .tok _ _ h p.2.1
        | some t => exact .tok _ _ h trivial
      | tok t k h p => exact .tok _ _ h p
    · split
      · exact .tok _ _ rfl trivial
      · exact .tok _ _ rfl trivial

theorem ends_readNumber (c : UInt8) (hc : ¬ Marker c) (l : Lex) : Ends l (fun _ _ => True) (readNumber c l) := by
  unfold readNumber
  have := ends_readWhile isDigit (l.weight + 2) [] c l (by omega) (by simp [bufSize]) (by intro x hx; rw [List.mem_singleton.1 hx]; exact hc)
  generalize readWhile isDigit (l.weight + 2) [] c l = x at *
  cases this with
  | go a k h p =>
    obtain ⟨s, d⟩ := a
    obtain ⟨h2, h4, t, h3⟩ := p
    simp only [List.nil_append] at h2 h3 ⊢
    subst h3
    by_cases hd : c :: t ≠ [c%'-'] ∧ (d.map endsNumber).getD true = true
    · rw [if_pos hd, if_pos h2]
      cases numToken (c :: t) with
      | none => exact (ends_error _ k).of h (fun _ _ => id)
      | some n => exact .tok _ _ h trivial
    · rw [if_neg hd]
      simp only
      have hs : (lungetAll t k).syms = l.syms := by rw [lungetAll_syms, h]
      split
      · exact .tok _ _ hs trivial
      · exact (ends_lexRest (some c) (by rintro _ ⟨⟩; exact hc) _).of hs (fun _ _ => id)
  | tok t k h p => exact .tok _ _ h p

theorem ends_lexSwitch (c : Option UInt8) (hc : ∀ d, c = some d → ¬ Marker d) (l : Lex) : Ends l (fun _ _ => True) (lexSwitch c l) := by
  cases c with
  | none => exact .tok _ _ rfl trivial
  | some c =>
    unfold lexSwitch
    by_cases h1 : c = c%'\'' ∨ c = c%'"'
    · simp only [if_pos h1]
      have := ends_readQuoted c h1 (l.weight + 1) [] l (by omega) (by simp [bufSize]) (by simp [Clean])
      generalize readQuoted c (l.weight + 1) [] l = x at *
      cases this with
      | go a k h p => exact .tok _ _ h p
      | tok t k h p => exact .tok _ _ h p
    · simp only [if_neg h1]
      split
      · exact ends_readNumber c (hc c rfl) l
      · exact ends_lexRest _ hc l

theorem pushMacro_whole (v : Bytes) (l : Lex) : (pushMacro v l).whole = startExpand :: (v ++ doneExpand :: l.whole) ∧ (pushMacro v l).syms = l.syms ∧
    (pushMacro v l).file.flat ≠ [] := by
  unfold pushMacro
  obtain ⟨cap, h⟩ := lungetAll_file v (lungetc (some doneExpand) l)
  rw [h]
  refine ⟨?_, rfl, ?_⟩
  · simp [lungetc, Lex.whole, LFile.flat]
  · simp [lungetc, LFile.flat]

theorem ends_yylexN (n : Nat) (l : Lex) (hv : ∀ s ∈ l.syms, Clean s.val) (hn : ats l.whole < n ∨ ∃ k, Pushed k l ∧ k < n) :
    Ends l (fun _ _ => True) (yylexN n l) := by
  induction n generalizing l with
  | zero =>
    rcases hn with h | ⟨k, _, h⟩ <;> omega
  | succ n ih =>
    rw [yylexN]
    have sb := ends_skipBlanks (l.weight + 1) l (by omega)
    generalize skipBlanks (l.weight + 1) l = x at *
    cases sb with
    | tok t k h p => exact .tok t k h p
    | go c k h s1 =>
      simp only
      have sc : Ends l (fun c l1 => Step l c l1) (if c = some c%'#' then skipComment (k.weight + 1) k else .go c k) := by
        split
        · exact (ends_skipComment (k.weight + 1) k (by omega)).of h (fun _ _ j => s1.trans j)
        · exact .go _ _ h s1
      generalize (if c = some c%'#' then skipComment (k.weight + 1) k else .go c k) = x at *
      cases sc with
      | tok t k h p => exact .tok t k h p
      | go c k h s1 =>
        simp only
        by_cases hd : c = some c%'$' ∧ k.expanding = false
        · rw [if_pos hd]
          have sn := ends_readName (k.weight + 1) [] k (by omega)
          generalize readName (k.weight + 1) [] k = u at *
          cases sn with
          | tok t j h' p => exact .tok t j (h'.trans h) p
          | go nm j h' s2 =>
            simp only
            cases hs : symget j.syms nm with
            | none => exact (ends_error _ j).of (h'.trans h) (fun _ _ => id)
            | some v =>
              obtain ⟨s, hs1, rfl⟩ := symget_mem _ _ _ hs
              exact .tok _ _ (h'.trans h) (hv s (by rw [← h, ← h']; exact hs1))
        · rw [if_neg hd]
          by_cases ha : c = some c%'@' ∧ k.expanding = false
          · rw [if_pos ha]
            have hk : ats k.whole < n := by
              rcases hn with hn | ⟨m, hn, hm⟩
              · have := s1.cnt; rw [if_pos ha.1] at this; omega
              · rcases s1.mac m (.inr hn) with ⟨g, _⟩ | g
                · rw [ha.2] at g; cases g
                · rw [if_pos ha.1] at g; omega
            have sn := ends_readName (k.weight + 1) [] k (by omega)
            generalize readName (k.weight + 1) [] k = u at *
            cases sn with
            | tok t j h' p => exact .tok t j (h'.trans h) p
            | go nm j h' s2 =>
              simp only
              cases hs : symget j.syms nm with
              | none => exact (ends_error _ j).of (h'.trans h) (fun _ _ => id)
              | some v =>
                obtain ⟨s, hs1, rfl⟩ := symget_mem _ _ _ hs
                obtain ⟨p1, p2, p3⟩ := pushMacro_whole s.val j
                have hc := s2.cnt
                simp at hc
                refine (ih (pushMacro s.val j) (by rw [p2, h', h]; exact hv) (.inr ⟨ats j.whole, ⟨p3, s.val, j.whole, p1, ?_, Nat.le_refl _⟩, by omega⟩)).of
                  (p2.trans (h'.trans h)) (fun _ _ => id)
                exact hv s (by rw [← h, ← h']; exact hs1)
          · rw [if_neg ha]
            exact (ends_lexSwitch c s1.char k).of h (fun _ _ => id)

/-- whatever there is to read, a token is returned -/
theorem yylex_ends (l : Lex) (hv : ∀ s ∈ l.syms, Clean s.val) : ∃ t l', yylex l = .tok t l' ∧ l'.syms = l.syms ∧ t.Clean := by
  have := ends_yylexN (l.whole.length + 1) l hv (.inl (by have := ats_le l.whole; omega))
  unfold yylex
  generalize yylexN (l.whole.length + 1) l = x at *
  cases this with
  | go a => exact a.elim
  | tok t k h p => exact ⟨t, k, rfl, h, p⟩

end Gmid
