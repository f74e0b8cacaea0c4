import Verif.Lemmas.Lex
import Verif.Lemmas.LexTotal
import Verif.Spec.Lex

/-!
# C57 C64 C65 C66 C67: the text of a configuration file
-/

set_option autoImplicit false

namespace Gmid.Props
open Spec

instance (c : UInt8) : Decidable (Quotable c) := by unfold Quotable; infer_instance

/-! ## C57 -/

/-- what yylex does with the input: read a character, or push one back -/
inductive LexOp where
  | get
  | getQuoted (q : UInt8)
  | unget (c : UInt8)

def lexOp : LexOp → Lex → Lex
  | .get, l => (lgetc l).2
  | .getQuoted q, l => (lgetcQ q l).2
  | .unget c, l => lungetc (some c) l

/-- the pushed back bytes fit the buffer, in every file -/
def Room (l : Lex) : Prop := ∀ f ∈ l.file :: l.outer, f.unget.length ≤ f.cap ∧ 0 < f.cap

theorem room_igetc (l : Lex) (h : Room l) : Room (igetc l).2 := by
  obtain ⟨mk, c, l1, k0, k1, k2, k3, k4, k5, k6, k7, k8, k9⟩ := igetc_spec l
  rw [k0]
  intro f hf
  rcases List.mem_cons.1 hf with rfl | hf
  · have := h l.file (by simp)
    simp only; rw [k6]; omega
  · exact h f (by rw [← k2]; simp [hf])

theorem room_contLoop (n : Nat) (l : Lex) (h : Room l) : Room (contLoop n l).2 := by
  induction n generalizing l with
  | zero => exact h
  | succ n ih =>
    rw [contLoop_succ]
    split
    · split
      · exact ih _ (room_igetc _ (room_igetc _ h))
      · exact room_igetc _ (room_igetc _ h)
    · exact room_igetc _ h

theorem room_pop (l : Lex) (f : LFile) (fs : List LFile) (h : Room l) (ho : l.outer = f :: fs) : Room (l.popTo f fs) := by
  intro g hg
  rcases List.mem_cons.1 hg with rfl | hg
  · exact h f (by rw [ho]; simp)
  · exact h g (by rw [ho]; simp [show g ∈ fs from hg])

theorem room_popFiles (fs : List LFile) (l : Lex) (h : Room l) (ho : l.outer = fs) : Room (popFiles fs l).2 := by
  induction fs generalizing l with
  | nil => exact h
  | cons f fs ih =>
    rw [popFiles_cons]
    have hr := room_igetc _ (room_pop l f fs h ho)
    split
    · exact ih _ hr (kept_igetc _).outer
    · exact hr

theorem room_op (op : LexOp) (l : Lex) (h : Room l) : Room (lexOp op l) := by
  cases op with
  | get =>
    show Room (lgetc l).2
    rw [lgetc_eq]
    have hr := room_contLoop (l.file.left + 1) l h
    split
    · split
      · exact room_popFiles _ _ hr rfl
      · intro f hf
        rcases List.mem_cons.1 hf with rfl | hf
        · exact hr (contLoop (l.file.left + 1) l).2.file (by simp)
        · exact hr f (List.mem_cons_of_mem _ hf)
    · exact hr
  | getQuoted q =>
    show Room (lgetcQ q l).2
    rw [lgetcQ_eq]
    have hr := room_igetc l h
    have hy : Room (igetc l).2.yyerror := by
      intro f hf
      rcases List.mem_cons.1 hf with rfl | hf
      · exact hr (igetc l).2.file (by simp)
      · exact hr f (List.mem_cons_of_mem _ hf)
    split
    · cases ho : (igetc l).2.outer with
      | nil => exact hy
      | cons f fs => exact room_pop _ f fs hy ho
    · exact hr
  | unget c =>
    intro f hf
    have := h l.file (by simp)
    rcases List.mem_cons.1 hf with rfl | hf
    · simp only [lexOp, lungetc, List.length_cons]
      split <;> constructor <;> omega
    · exact h f (List.mem_cons_of_mem _ hf)

/-- C57: whatever is read and pushed back, and in whatever order, the buffer is never written past its end. -/
theorem C57_room (contents : Bytes) (syms : List Sym) (ops : List LexOp) :
    ∀ f ∈ (ops.foldl (fun l op => lexOp op l) (lexStart contents syms)).file :: (ops.foldl (fun l op => lexOp op l) (lexStart contents syms)).outer,
      f.unget.length ≤ f.cap := by
  suffices ∀ l, Room l → Room (ops.foldl (fun l op => lexOp op l) l) from
    fun f hf => (this _ (by intro f hf; simp [lexStart] at hf; subst hf; simp) f hf).1
  intro l
  induction ops generalizing l with
  | nil => exact id
  | cons op r ih => exact fun h => ih _ (room_op op l h)

/-- read `k` characters, as they are -/
def getN : Nat → Lex → List (Option UInt8) × Lex
  | 0, l => ([], l)
  | n + 1, l =>
    let x := igetc l
    let y := getN n x.2
    (x.1 :: y.1, y.2)

theorem igetc_plain {l : Lex} {c : UInt8} {r : Bytes} (h : l.file.flat = c :: r) (hc : c ≠ 1 ∧ c ≠ 2) :
    ∃ l1, igetc l = (some c, l1) ∧ l1.file.flat = r ∧ l1.outer = l.outer ∧ l1.syms = l.syms ∧ l1.file.errors = l.file.errors ∧
      l1.file.eofReached = l.file.eofReached ∧ l1.expanding = l.expanding := by
  obtain ⟨mk, d, l1, k0, k1, k2, k3, k4, k5, k6, k7, k8, k9⟩ := igetc_spec l
  have hm : ¬ Marker c := by simp only [Marker, not_or]; exact hc
  have hmk : mk = [] := by
    cases mk with
    | nil => rfl
    | cons x mk =>
      rcases k9 with ⟨d, rfl, j2, j3⟩ | ⟨rfl, j2, j3⟩
      · rw [h, List.cons_append, List.cons.injEq] at j3
        exact absurd (k1 x (by simp)) (by rw [← j3.1]; exact hm)
      · rw [h, List.cons.injEq] at j3
        exact absurd (k1 x (by simp)) (by rw [← j3.1]; exact hm)
  subst hmk
  rcases k9 with ⟨d, rfl, j2, j3⟩ | ⟨rfl, j2, j3⟩
  · rw [h, List.nil_append, List.cons.injEq] at j3
    exact ⟨l1, by rw [k0, j3.1], j3.2.symm, k2, k3, k4, k5, k7⟩
  · rw [h] at j3; cases j3

/-- C57: characters that are pushed back, one after the other, are read again from the last one to the first, and then comes what
would have been read without them. -/
theorem C57_pushback (s : Bytes) (hs : Plain s) (l : Lex) :
    ∃ l', getN s.length (s.foldl (fun l c => lungetc (some c) l) l) = (s.reverse.map some, l') ∧ igetc l' = (match igetc l with
      | (c, l1) => (c, { l1 with file := { l1.file with cap := l'.file.cap } })) ∧ l'.file.flat = l.file.flat ∧ l'.outer = l.outer := by
  -- the pushed back bytes, last one first
  suffices ∀ (t : Bytes) (cap : Nat), Plain t → getN t.length { l with file := { l.file with unget := t ++ l.file.unget, cap := cap } } =
      (t.map some, { l with file := { l.file with cap := cap } }) by
    have hl : ∃ cap, s.foldl (fun l c => lungetc (some c) l) l =
        { l with file := { l.file with unget := s.reverse ++ l.file.unget, cap := cap } } := by
      have := lungetAll_file s.reverse l
      unfold lungetAll at this
      rwa [List.reverse_reverse] at this
    obtain ⟨cap, hl⟩ := hl
    have h1 := this s.reverse cap (fun c hc => hs c (List.mem_reverse.1 hc))
    rw [List.length_reverse] at h1
    refine ⟨{ l with file := { l.file with cap := cap } }, by rw [hl]; exact h1, ?_, rfl, rfl⟩
    simp only [igetc]
    generalize igetcFrom l.expanding l.file.unget = x
    obtain ⟨c, r, e⟩ := x
    cases c <;> rfl
  intro t cap
  induction t with
  | nil => intro _; rfl
  | cons c r ih =>
    intro ht
    have hc := ht c (by simp)
    have hg : igetc { l with file := { l.file with unget := c :: r ++ l.file.unget, cap := cap } } =
        (some c, { l with file := { l.file with unget := r ++ l.file.unget, cap := cap } }) := by
      simp [igetc, igetcFrom, hc]
    simp only [List.length_cons, getN, hg, ih (fun d hd => ht d (by simp [hd])), List.map_cons]

example : (getN 3 (lungetc (some c%'b') (lungetc (some c%'a') (lexStart b%"xyz" [])))).1 = [some c%'b', some c%'a', some c%'x'] := by decide

/-! ## C64 -/

/-- the same place in the same file, but for what was read -/
structure ReadTo (l l' : Lex) (rest : Bytes) : Prop where
  flat : l'.file.flat = rest
  outer : l'.outer = l.outer
  syms : l'.syms = l.syms
  errors : l'.file.errors = l.file.errors
  eof : l'.file.eofReached = l.file.eofReached
  expanding : l'.expanding = l.expanding

theorem ReadTo.trans {l l1 l2 : Lex} {r s : Bytes} (h : ReadTo l l1 r) (k : ReadTo l1 l2 s) : ReadTo l l2 s :=
  ⟨k.flat, k.outer.trans h.outer, k.syms.trans h.syms, k.errors.trans h.errors, k.eof.trans h.eof, k.expanding.trans h.expanding⟩

theorem read_igetc {l : Lex} {c : UInt8} {r : Bytes} (h : l.file.flat = c :: r) (hc : c ≠ 1 ∧ c ≠ 2) :
    ∃ l1, igetc l = (some c, l1) ∧ ReadTo l l1 r := by
  obtain ⟨l1, k0, k1, k2, k3, k4, k5, k6⟩ := igetc_plain h hc
  exact ⟨l1, k0, k1, k2, k3, k4, k5, k6⟩

theorem read_lgetc {l : Lex} {c : UInt8} {r : Bytes} (h : l.file.flat = c :: r) (hc : c ≠ 1 ∧ c ≠ 2) (hb : c ≠ c%'\\') :
    ∃ l1, lgetc l = (some c, l1) ∧ ReadTo l l1 r := by
  obtain ⟨l1, k0, k1⟩ := read_igetc h hc
  refine ⟨l1, ?_, k1⟩
  have : contLoop (l.file.left + 1) l = (some c, l1) := by rw [contLoop_succ, k0]; simp [hb]
  rw [lgetc_eq, this]; rfl

theorem read_lgetcQ {q : UInt8} {l : Lex} {c : UInt8} {r : Bytes} (h : l.file.flat = c :: r) (hc : c ≠ 1 ∧ c ≠ 2) :
    ∃ l1, lgetcQ q l = (some c, l1) ∧ ReadTo l l1 r := by
  obtain ⟨l1, k0, k1⟩ := read_igetc h hc
  exact ⟨l1, by rw [lgetcQ_eq, k0]; rfl, k1⟩

theorem inQuotes_bytes {q : UInt8} (hq : q = c%'\'' ∨ q = c%'"') {t s : Bytes} (h : InQuotes q t s) : ∀ c ∈ t, c ≠ 1 ∧ c ≠ 2 := by
  induction h with
  | nil => simp
  | char c t s hc _ _ _ ih => intro d hd; rcases List.mem_cons.1 hd with rfl | hd; exact ⟨hc.2.1, hc.2.2.1⟩; exact ih d hd
  | escaped c t s hc _ ih =>
    intro d hd
    rcases List.mem_cons.1 hd with rfl | hd
    · decide
    rcases List.mem_cons.1 hd with rfl | hd
    · rcases hc with rfl | rfl | rfl
      · rcases hq with rfl | rfl <;> decide
      · decide
      · decide
    · exact ih d hd
  | backslash d t s hd _ ih => intro e he; rcases List.mem_cons.1 he with rfl | he; decide; exact ih e he
  | newline t s _ ih => intro e he; rcases List.mem_cons.1 he with rfl | he; decide; exact ih e he
  | joined t s _ ih =>
    intro e he
    rcases List.mem_cons.1 he with rfl | he
    · decide
    rcases List.mem_cons.1 he with rfl | he
    · decide
    exact ih e he

theorem readInQuotes_spec (q : UInt8) (hq : q = c%'\'' ∨ q = c%'"') (t s : Bytes) (hts : InQuotes q t s) (rest : Bytes) (n : Nat) (buf : Bytes) (l : Lex)
    (hl : l.file.flat = t ++ q :: rest) (hn : t.length + 1 ≤ n) (hb : buf.length + s.length ≤ 8094) :
    ∃ l', readQuoted q n buf l = .go (buf ++ s) l' ∧ ReadTo l l' rest := by
  have q1 : q ≠ 1 ∧ q ≠ 2 := by rcases hq with rfl | rfl <;> decide
  have q2 : q ≠ c%'\n' ∧ q ≠ c%'\\' := by rcases hq with rfl | rfl <;> decide
  induction hts generalizing n buf l with
  | nil =>
    cases n with
    | zero => omega
    | succ n =>
      obtain ⟨l1, k0, k1⟩ := read_lgetcQ (q := q) (by simpa using hl) q1
      refine ⟨l1, ?_, k1⟩
      rw [readQuoted, k0]
      simp only [if_neg q2.1, if_neg q2.2, if_true]
      rw [if_pos (by simp only [bufSize]; simp at hb; omega), List.append_nil]
  | char c t s hc hcq hcb h ih =>
    obtain ⟨n, rfl⟩ : ∃ m, n = m + 1 := ⟨n - 1, by omega⟩
    simp only [List.length_cons] at hn hb
    obtain ⟨l1, k0, k1⟩ := read_lgetcQ (q := q) (c := c) (by simpa using hl) ⟨hc.2.1, hc.2.2.1⟩
    obtain ⟨l3, i0, i1⟩ := ih n (buf ++ [c]) l1 (by simpa using k1.flat) (by omega) (by simp; omega)
    refine ⟨l3, ?_, k1.trans i1⟩
    rw [readQuoted, k0]
    simp only [if_neg hc.2.2.2, if_neg hcb, if_neg hcq, if_neg hc.1]
    rw [if_neg (by simp only [bufSize]; omega), if_pos (by simp only [bufSize]; omega), i0]; simp
  | escaped c t s hc h ih =>
    obtain ⟨n, rfl⟩ : ∃ m, n = m + 1 := ⟨n - 1, by omega⟩
    simp only [List.length_cons] at hn hb
    have hc12 := inQuotes_bytes hq (InQuotes.escaped (q := q) c t s hc h) c (by simp)
    obtain ⟨l1, k0, k1⟩ := read_lgetcQ (q := q) (c := c%'\\') (by simpa using hl) (by decide)
    obtain ⟨l2, j0, j1⟩ := read_lgetcQ (q := q) (c := c) (by simpa using k1.flat) hc12
    obtain ⟨l3, i0, i1⟩ := ih n (buf ++ [c]) l2 j1.flat (by omega) (by simp; omega)
    refine ⟨l3, ?_, (k1.trans j1).trans i1⟩
    rw [readQuoted, k0]
    simp only [show ¬ (c%'\\' = c%'\n') by decide, if_false, if_true]
    rw [j0]
    simp only [if_pos hc]
    rw [if_neg (by simp only [bufSize]; omega), if_pos (by simp only [bufSize]; omega), i0]; simp
  | backslash d t s hd h ih =>
    obtain ⟨n, rfl⟩ : ∃ m, n = m + 1 := ⟨n - 1, by omega⟩
    simp only [List.length_cons] at hn hb ih
    simp only [List.mem_cons, List.not_mem_nil, or_false, not_or] at hd
    have hd12 := inQuotes_bytes hq h d (by simp)
    obtain ⟨l1, k0, k1⟩ := read_lgetcQ (q := q) (c := c%'\\') (by simpa using hl) (by decide)
    obtain ⟨l2, j0, j1⟩ := read_lgetcQ (q := q) (c := d) (by simpa using k1.flat) hd12
    -- the character after the backslash is pushed back
    have hu : (lungetc (some d) l2).file.flat = d :: t ++ q :: rest := by
      show d :: l2.file.flat = _; rw [j1.flat]; simp
    obtain ⟨l3, i0, i1⟩ := ih n (buf ++ [c%'\\']) (lungetc (some d) l2) hu (by omega) (by simp; omega)
    have hr : ReadTo l2 (lungetc (some d) l2) (d :: t ++ q :: rest) := ⟨hu, rfl, rfl, rfl, rfl, rfl⟩
    refine ⟨l3, ?_, ((k1.trans j1).trans hr).trans i1⟩
    rw [readQuoted, k0]
    simp only [show ¬ (c%'\\' = c%'\n') by decide, if_false, if_true]
    rw [j0]
    simp only [hd.1, hd.2.1, hd.2.2.1, hd.2.2.2, or_self, if_false]
    rw [if_neg (by simp only [bufSize]; omega), if_pos (by simp only [bufSize]; omega), i0]; simp
  | newline t s h ih =>
    obtain ⟨n, rfl⟩ : ∃ m, n = m + 1 := ⟨n - 1, by omega⟩
    simp only [List.length_cons] at hn
    obtain ⟨l1, k0, k1⟩ := read_lgetcQ (q := q) (c := c%'\n') (by simpa using hl) (by decide)
    obtain ⟨l3, i0, i1⟩ := ih n buf l1 (by simpa using k1.flat) (by omega) hb
    refine ⟨l3, ?_, k1.trans i1⟩
    rw [readQuoted, k0]
    simp only [if_true]
    exact i0
  | joined t s h ih =>
    obtain ⟨n, rfl⟩ : ∃ m, n = m + 1 := ⟨n - 1, by omega⟩
    simp only [List.length_cons] at hn
    obtain ⟨l1, k0, k1⟩ := read_lgetcQ (q := q) (c := c%'\\') (by simpa using hl) (by decide)
    obtain ⟨l2, j0, j1⟩ := read_lgetcQ (q := q) (c := c%'\n') (by simpa using k1.flat) (by decide)
    obtain ⟨l3, i0, i1⟩ := ih n buf l2 (by simpa using j1.flat) (by omega) hb
    refine ⟨l3, ?_, (k1.trans j1).trans i1⟩
    rw [readQuoted, k0]
    simp only [show ¬ (c%'\\' = c%'\n') by decide, if_false, if_true]
    rw [j0]
    have : ¬ (c%'\n' = q ∨ c%'\n' = c%' ' ∨ c%'\n' = c%'\t') := by rcases hq with rfl | rfl <;> decide
    simp only [if_neg this, if_true]
    exact i0

/-- a string with a backslash before every quote, space and tab -/
theorem inQuotes_escaped (q : UInt8) (s : Bytes) (hs : ∀ c ∈ s, Quotable c) (hend : s.getLast? ≠ some c%'\\') (q2 : q ≠ c%'\\') : InQuotes q (escapeIn q s) s := by
  induction s with
  | nil => exact .nil
  | cons c r ih =>
    have hc := hs c (by simp)
    have hend2 : r.getLast? ≠ some c%'\\' := by
      cases r with
      | nil => simp
      | cons d r => simpa [List.getLast?_cons] using hend
    have ih := ih (fun d hd => hs d (by simp [hd])) hend2
    simp only [escapeIn]
    by_cases he : c = q ∨ c = c%' ' ∨ c = c%'\t'
    · rw [if_pos he]; exact .escaped c _ _ he ih
    · rw [if_neg he]
      rw [not_or] at he
      by_cases hb : c = c%'\\'
      · subst hb
        cases r with
        | nil => simp at hend
        | cons d r =>
          have hd := hs d (by simp)
          simp only [escapeIn] at ih ⊢
          by_cases hde : d = q ∨ d = c%' ' ∨ d = c%'\t'
          · rw [if_pos hde] at ih ⊢
            refine .backslash _ _ _ ?_ ih
            simp only [List.mem_cons, List.not_mem_nil, or_false, not_or]
            exact ⟨Ne.symm q2, by decide, by decide, by decide⟩
          · rw [if_neg hde] at ih ⊢
            simp only [not_or] at hde
            refine .backslash _ _ _ ?_ ih
            simp only [List.mem_cons, List.not_mem_nil, or_false, not_or]
            exact ⟨hde.1, hde.2.1, hde.2.2, hd.2.2.2⟩
      · exact .char c _ _ hc he.1 hb ih

theorem escapeIn_length (q : UInt8) (s : Bytes) : s.length ≤ (escapeIn q s).length := by
  induction s with
  | nil => simp [escapeIn]
  | cons c r ih => simp only [escapeIn, List.length_append, List.length_cons]; split <;> simp <;> omega

theorem skipBlanks_first {l l1 : Lex} {c : UInt8} (n : Nat) (h : lgetc l = (some c, l1)) (hc : c ≠ c%' ' ∧ c ≠ c%'\t') :
    skipBlanks (n + 1) l = .go (some c) l1 := by
  rw [skipBlanks_succ, h]; simp [hc]

theorem flat_weight (l : Lex) : l.file.flat.length + 1 ≤ l.weight := by
  have : 1 ≤ (if l.file.eofReached = true then 1 else 2) := by split <;> omega
  rw [flat_length]; simp only [Lex.weight, LFile.weight]; omega

/-- C64: what stands between two quotes is read as the string it stands for, and the lexer goes on after it. -/
theorem C64_between (q : UInt8) (hq : q = c%'\'' ∨ q = c%'"') (t s : Bytes) (hts : InQuotes q t s) (hlen : s.length ≤ 8094) (rest : Bytes) (l : Lex)
    (hl : l.file.flat = q :: t ++ q :: rest) :
    ∃ l', yylex l = .tok (.str s) l' ∧ ReadTo l l' rest := by
  have q1 : q ≠ 1 ∧ q ≠ 2 := by rcases hq with rfl | rfl <;> decide
  obtain ⟨l1, k0, k1⟩ := read_lgetc (c := q) (r := t ++ q :: rest) (by rw [hl]; simp) q1
    (by rcases hq with rfl | rfl <;> decide)
  have hw := flat_weight l1
  obtain ⟨l2, j0, j1⟩ := readInQuotes_spec q hq t s hts rest (l1.weight + 1) [] l1 k1.flat
    (by rw [k1.flat, List.length_append] at hw; omega) (by simpa using hlen)
  refine ⟨l2, ?_, k1.trans j1⟩
  rw [yylex, yylexN, skipBlanks_first _ k0 (by rcases hq with rfl | rfl <;> decide)]
  have e1 : ¬ (some q = some c%'#') := by rcases hq with rfl | rfl <;> decide
  have e2 : ¬ (some q = some c%'$' ∧ l1.expanding = false) := by rintro ⟨h, _⟩; rcases hq with rfl | rfl <;> revert h <;> decide
  have e3 : ¬ (some q = some c%'@' ∧ l1.expanding = false) := by rintro ⟨h, _⟩; rcases hq with rfl | rfl <;> revert h <;> decide
  simp only [if_neg e1, if_neg e2, if_neg e3, lexSwitch, if_pos hq, j0, List.nil_append]

example : InQuotes c%'"' b%"a b\\\"c\\d\n" b%"a b\"c\\d" :=
  .char _ _ _ (by simp [Quotable]) (by decide) (by decide) <| .char _ _ _ (by simp [Quotable]) (by decide) (by decide) <|
  .char _ _ _ (by simp [Quotable]) (by decide) (by decide) <| .escaped _ _ _ (.inl rfl) <| .char _ _ _ (by simp [Quotable]) (by decide) (by decide) <|
  .backslash _ _ _ (by decide) <| .char _ _ _ (by simp [Quotable]) (by decide) (by decide) <| .newline _ _ .nil

/-- C64: a quoted string, of at most 8094 bytes and not ending in a backslash, is read back as it is, and the lexer goes on after it. -/
theorem C64_quoted (q : UInt8) (hq : q = c%'\'' ∨ q = c%'"') (s : Bytes) (hs : ∀ c ∈ s, Quotable c) (hend : s.getLast? ≠ some c%'\\')
    (hlen : s.length ≤ 8094) (rest : Bytes) (l : Lex) (hl : l.file.flat = quoted q s ++ rest) :
    ∃ l', yylex l = .tok (.str s) l' ∧ ReadTo l l' rest :=
  C64_between q hq _ s (inQuotes_escaped q s hs hend (by rcases hq with rfl | rfl <;> decide)) hlen rest l (by rw [hl]; simp [quoted])

example : quoted c%'"' b%"a \"b\\c" = b%"\"a\\ \\\"b\\c\"" := by decide

example : ∃ l', yylex (lexStart (quoted c%'\'' b%"it's\t\\ ok" ++ b%" x") []) = .tok (.str b%"it's\t\\ ok") l' :=
  ⟨_, (C64_quoted c%'\'' (.inl rfl) _ (by decide +kernel) (by decide +kernel) (by decide +kernel) b%" x" _ rfl).choose_spec.1⟩

/-- C64, what it leaves out: no text gives a string that ends in a backslash, since there it stands for the quote after it. -/
example : lexAll 3 (lexStart b%"\"dir\\\"\n" []) = [.eof] ∧ lexAll 3 (lexStart b%"\"dir\\\\\"\n" []) = [.eof] := by decide

/-! ## C65 -/

theorem plain_of_clean {s : Bytes} (h : Clean s) : Plain s := fun c hc => by have := h c hc; simp only [Marker, not_or] at this; exact this
theorem clean_of_plain {s : Bytes} (h : Plain s) : Clean s := fun c hc => by have := h c hc; simp only [Marker, not_or]; exact this

/-- C65: whatever bytes there are to read, in the file and in those that include it, the lexer returns a token: all its loops end and none
writes outside of its buffer.  The values of the macros must be without the two bytes the lexer keeps for itself; the text of the
tokens always is. -/
theorem C65_total (l : Lex) (hv : ∀ s ∈ l.syms, Plain s.val) :
    ∃ t l', yylex l = .tok t l' ∧ l'.syms = l.syms ∧ ∀ s, t = .str s → Plain s := by
  obtain ⟨t, l', h1, h2, h3⟩ := yylex_ends l (fun s hs => clean_of_plain (hv s hs))
  refine ⟨t, l', h1, h2, ?_⟩
  rintro s rfl
  exact plain_of_clean h3

/-- what parse_conf does with the lexer: `ts` are the strings it got so far.  It may ask for a token, report an error, include a file and set a
macro to some of the strings, one after the other. -/
inductive Parsing (conf : Bytes) (syms : List Sym) : List Bytes → Lex → Prop where
  | start : Parsing conf syms [] (lexStart conf syms)
  | token {ts : List Bytes} {l : Lex} (h : Parsing conf syms ts l) (t : Tok) (l' : Lex) (hl : yylex l = .tok t l') :
      Parsing conf syms (ts ++ (match t with | .str s => [s] | _ => [])) l'
  | error {ts : List Bytes} {l : Lex} (h : Parsing conf syms ts l) : Parsing conf syms ts l.yyerror
  | incl {ts : List Bytes} {l : Lex} (h : Parsing conf syms ts l) (contents : Bytes) :
      Parsing conf syms ts (lungetc (some c%'\n') (pushFile contents l))
  | varset {ts : List Bytes} {l : Lex} (h : Parsing conf syms ts l) (name : Bytes) (vs : List Bytes) (hvs : ∀ v ∈ vs, v ∈ ts) :
      Parsing conf syms ts { l with syms := symset l.syms name vs.flatten false }

theorem mem_symset {syms : List Sym} {n v : Bytes} {p : Bool} {s : Sym} (h : s ∈ symset syms n v p) : s ∈ syms ∨ s.val = v := by
  unfold symset at h
  split at h
  · split at h
    · exact .inl h
    · rcases List.mem_append.1 h with h | h
      · exact .inl (List.mem_of_mem_erase h)
      · rw [List.mem_singleton.1 h]; exact .inr rfl
  · rcases List.mem_append.1 h with h | h
    · exact .inl h
    · rw [List.mem_singleton.1 h]; exact .inr rfl

/-- C65: while a configuration is read, whatever bytes it and the files it includes have and whatever macros they set, the next token is returned;
the only hypothesis is on the macros of the command line. -/
theorem C65_parsing (conf : Bytes) (syms : List Sym) (hv : ∀ s ∈ syms, Plain s.val) (ts : List Bytes) (l : Lex) (h : Parsing conf syms ts l) :
    ∃ t l', yylex l = .tok t l' := by
  suffices (∀ s ∈ l.syms, Plain s.val) ∧ ∀ s ∈ ts, Plain s by
    obtain ⟨t, l', k, _⟩ := C65_total l this.1
    exact ⟨t, l', k⟩
  induction h with
  | start => exact ⟨hv, by simp⟩
  | token h t l' hl ih =>
    obtain ⟨t2, l2, k1, k2, k3⟩ := C65_total _ ih.1
    rw [hl] at k1
    obtain ⟨rfl, rfl⟩ : t = t2 ∧ l' = l2 := by injection k1; exact ⟨by assumption, by assumption⟩
    refine ⟨by rw [k2]; exact ih.1, ?_⟩
    intro s hs
    rcases List.mem_append.1 hs with hs | hs
    · exact ih.2 s hs
    · cases t with
      | str x => exact k3 s (by rw [List.mem_singleton.1 hs])
      | _ => simp at hs
  | error h ih => exact ih
  | incl h c ih => exact ih
  | varset h name vs hvs ih =>
    refine ⟨?_, ih.2⟩
    intro s hs
    rcases mem_symset hs with hs | hs
    · exact ih.1 s hs
    · intro c hc
      rw [hs] at hc
      obtain ⟨v, h1, h2⟩ := List.mem_flatten.1 hc
      exact ih.2 v (hvs v h1) c h2

/-- a file with both bytes, between and inside of the uses of a macro -/
example : ∃ t l', yylex (lexStart (b%"@x \"a" ++ [2, 1] ++ b%"\" @x" ++ [1] ++ b%" @x {\n") [{ name := b%"x", val := b%"@x", persist := true }]) = .tok t l' := by
  obtain ⟨t, l', h, _⟩ := C65_total (lexStart (b%"@x \"a" ++ [2, 1] ++ b%"\" @x" ++ [1] ++ b%" @x {\n") [{ name := b%"x", val := b%"@x", persist := true }])
    (by intro s hs; rw [List.mem_singleton.1 hs]; unfold Plain; decide +kernel)
  exact ⟨t, l', h⟩

/-- `x = "a" "b"`, then it is used -/
example : ∃ ts l, Parsing b%"x = \"a\" \"b\"\n@x\n" [] ts l ∧ ts = [b%"x", b%"a", b%"b"] ∧ symget l.syms b%"x" = some b%"ab" := by
  have h0 := Parsing.start (conf := b%"x = \"a\" \"b\"\n@x\n") (syms := [])
  have h1 := h0.token (.str b%"x") _ rfl
  have h2 := h1.token (.chr c%'=') _ rfl
  have h3 := h2.token (.str b%"a") _ rfl
  have h4 := h3.token (.str b%"b") _ rfl
  have h5 := h4.token (.chr c%'\n') _ rfl
  exact ⟨_, _, h5.varset b%"x" [b%"a", b%"b"] (by decide), by decide, by decide⟩

/-- C65, the hypothesis on macros: with -D it can be broken, and then the lexer never returns, however long it is left running. -/
theorem C65_macro_loop (n : Nat) : yylexN n (lexStart b%"@x\n" [{ name := b%"x", val := 2 :: b%"@x", persist := true }]) = .fuel := by
  suffices ∀ n, yylexN n { file := { unget := [1, 2, 64, 120, 2, 10], cap := 16, stream := [], eofReached := false, errors := 0 }, outer := [], expanding := false, syms := [{ name := b%"x", val := 2 :: b%"@x", persist := true }] } = .fuel by
    cases n with
    | zero => rfl
    | succ n => exact this n
  intro n
  induction n with
  | zero => rfl
  | succ n ih => exact ih

/-! ## C66 -/

theorem read_blanks (bs : Bytes) (hb : ∀ c ∈ bs, c = c%' ' ∨ c = c%'\t') (c : UInt8) (r : Bytes) (hc : c ≠ 1 ∧ c ≠ 2)
    (hc' : c ≠ c%' ' ∧ c ≠ c%'\t' ∧ c ≠ c%'\\') (n : Nat) (l : Lex) (hl : l.file.flat = bs ++ c :: r) (hn : bs.length < n) :
    ∃ l1, skipBlanks n l = .go (some c) l1 ∧ ReadTo l l1 r := by
  induction bs generalizing n l with
  | nil =>
    obtain ⟨l1, k0, k1⟩ := read_lgetc (c := c) (r := r) (by simpa using hl) hc hc'.2.2
    cases n with
    | zero => omega
    | succ n => exact ⟨l1, skipBlanks_first n k0 ⟨hc'.1, hc'.2.1⟩, k1⟩
  | cons b bs ih =>
    have hb1 := hb b (by simp)
    obtain ⟨l1, k0, k1⟩ := read_lgetc (c := b) (r := bs ++ c :: r) (by simpa using hl)
      (by rcases hb1 with rfl | rfl <;> decide) (by rcases hb1 with rfl | rfl <;> decide)
    cases n with
    | zero => omega
    | succ n =>
      obtain ⟨l2, j0, j1⟩ := ih (fun d hd => hb d (by simp [hd])) n l1 k1.flat (by simp at hn; omega)
      refine ⟨l2, ?_, k1.trans j1⟩
      rw [skipBlanks_succ, k0]
      simp only
      rw [if_pos (by rcases hb1 with rfl | rfl <;> decide)]
      exact j0

theorem read_comment (t : Bytes) (ht : ∀ c ∈ t, c ≠ 1 ∧ c ≠ 2 ∧ c ≠ c%'\n' ∧ c ≠ c%'\\') (r : Bytes) (n : Nat) (l : Lex)
    (hl : l.file.flat = t ++ c%'\n' :: r) (hn : t.length < n) :
    ∃ l1, skipComment n l = .go (some c%'\n') l1 ∧ ReadTo l l1 r := by
  induction t generalizing n l with
  | nil =>
    obtain ⟨l1, k0, k1⟩ := read_lgetc (c := c%'\n') (r := r) (by simpa using hl) (by decide) (by decide)
    cases n with
    | zero => omega
    | succ n => exact ⟨l1, by rw [skipComment_succ, k0]; simp, k1⟩
  | cons b t ih =>
    have hb := ht b (by simp)
    obtain ⟨l1, k0, k1⟩ := read_lgetc (c := b) (r := t ++ c%'\n' :: r) (by simpa using hl) ⟨hb.1, hb.2.1⟩ hb.2.2.2
    cases n with
    | zero => omega
    | succ n =>
      obtain ⟨l2, j0, j1⟩ := ih (fun d hd => ht d (by simp [hd])) n l1 k1.flat (by simp at hn; omega)
      refine ⟨l2, ?_, k1.trans j1⟩
      rw [skipComment_succ, k0]
      simp only
      rw [if_neg (by simp [hb.2.2.1])]
      exact j0

/-- C66: a comment, up to the end of its line, and the blanks before it are read as that end of line alone. -/
theorem C66_comment (bs t rest : Bytes) (hb : ∀ c ∈ bs, c = c%' ' ∨ c = c%'\t')
    (ht : ∀ c ∈ t, c ≠ 1 ∧ c ≠ 2 ∧ c ≠ c%'\n' ∧ c ≠ c%'\\') (l : Lex) (hl : l.file.flat = bs ++ c%'#' :: t ++ c%'\n' :: rest) :
    (∃ l', yylex l = .tok (.chr c%'\n') l' ∧ ReadTo l l' rest) := by
  have hw := flat_weight l
  rw [hl] at hw
  obtain ⟨l1, k0, k1⟩ := read_blanks bs hb c%'#' (t ++ c%'\n' :: rest) (by decide) (by decide) (l.weight + 1) l (by rw [hl]; simp)
    (by simp at hw; omega)
  have hw1 := flat_weight l1
  rw [k1.flat] at hw1
  obtain ⟨l2, j0, j1⟩ := read_comment t ht rest (l1.weight + 1) l1 k1.flat (by simp at hw1; omega)
  refine ⟨l2, ?_, k1.trans j1⟩
  rw [yylex, yylexN, k0]
  simp [j0, lexSwitch, lexRest, isDigit, isAlnum, isAlpha, isUpper, isLower]

theorem C66_newline (bs rest : Bytes) (hb : ∀ c ∈ bs, c = c%' ' ∨ c = c%'\t') (l : Lex) (hl : l.file.flat = bs ++ c%'\n' :: rest) :
    (∃ l', yylex l = .tok (.chr c%'\n') l' ∧ ReadTo l l' rest) := by
  have hw := flat_weight l
  rw [hl] at hw
  obtain ⟨l1, k0, k1⟩ := read_blanks bs hb c%'\n' rest (by decide) (by decide) (l.weight + 1) l hl (by simp at hw; omega)
  refine ⟨l1, ?_, k1⟩
  rw [yylex, yylexN, k0]
  simp [lexSwitch, lexRest, isDigit, isAlnum, isAlpha, isUpper, isLower]

example : lexAll 4 (lexStart b%"on  # comment\noff" []) = lexAll 4 (lexStart b%"on\noff" []) := by decide

/-- C66, what it leaves out: a comment whose line ends in a backslash goes on with the next line -/
example : lexAll 4 (lexStart b%"on # C:\\\noff\n" []) = [.kw b%"ON", .chr c%'\n', .chr c%'\n', .eof] := by decide

/-! ## C67 -/

instance (c : UInt8) : Decidable (MacroChar c) := by unfold MacroChar; infer_instance

theorem nameChar_iff (c : UInt8) : nameChar c = true ↔ MacroChar c :=
  of_decide_eq_true (forall_byte_of_all (p := fun c => decide (nameChar c = true ↔ MacroChar c)) (by decide +kernel) c)

theorem nameChar_plain (c : UInt8) (h : nameChar c = true) : (c ≠ 1 ∧ c ≠ 2) ∧ c ≠ c%'\\' := by
  refine ⟨⟨?_, ?_⟩, ?_⟩ <;> (rintro rfl; revert h; decide)

theorem readName_spec (nm : Bytes) (hn : ∀ c ∈ nm, nameChar c = true) (c : UInt8) (hc : nameChar c = false) (hp : c ≠ 1 ∧ c ≠ 2) (hb : c ≠ c%'\\')
    (r : Bytes) (n : Nat) (buf : Bytes) (l : Lex) (hl : l.file.flat = nm ++ c :: r) (hlen : nm.length < n) (hbuf : buf.length + nm.length ≤ 8093) :
    ∃ l1, readName n buf l = .go (buf ++ nm) l1 ∧ ReadTo l l1 (c :: r) := by
  induction nm generalizing n buf l with
  | nil =>
    obtain ⟨l1, k0, k1⟩ := read_lgetc (c := c) (r := r) (by simpa using hl) hp hb
    cases n with
    | zero => omega
    | succ n =>
      refine ⟨lungetc (some c) l1, ?_, ?_⟩
      · simp at hbuf
        rw [readName, k0]
        simp only
        rw [if_neg (by simp only [bufSize]; omega), if_neg (by simp [hc]), if_pos (by simp only [bufSize]; omega), List.append_nil]
      · exact k1.trans ⟨by show c :: l1.file.flat = _; rw [k1.flat], rfl, rfl, rfl, rfl, rfl⟩
  | cons b nm ih =>
    have hb1 := hn b (by simp)
    have hb2 := nameChar_plain b hb1
    obtain ⟨l1, k0, k1⟩ := read_lgetc (c := b) (r := nm ++ c :: r) (by simpa using hl) hb2.1 hb2.2
    cases n with
    | zero => omega
    | succ n =>
      simp at hbuf hlen
      obtain ⟨l2, j0, j1⟩ := ih (fun d hd => hn d (by simp [hd])) n (buf ++ [b]) l1 k1.flat (by omega) (by simp; omega)
      refine ⟨l2, ?_, k1.trans j1⟩
      rw [readName, k0]
      simp only
      rw [if_neg (by simp only [bufSize]; omega), if_pos hb1, if_pos (by simp only [bufSize]; omega), j0]
      simp

/-- C67: `$name` is the string that is the value of the macro, whatever bytes it has, and the lexer goes on after the name. -/
theorem C67_dollar (nm : Bytes) (hnm : ∀ c ∈ nm, MacroChar c) (hlen : nm.length ≤ 8093) (c : UInt8) (hc : ¬ MacroChar c)
    (hp : c ≠ 1 ∧ c ≠ 2 ∧ c ≠ c%'\\') (rest v : Bytes) (l : Lex) (he : l.expanding = false)
    (hl : l.file.flat = c%'$' :: nm ++ c :: rest) (hv : symget l.syms nm = some v) :
    ∃ l', yylex l = .tok (.str v) l' ∧ ReadTo l l' (c :: rest) := by
  obtain ⟨l1, k0, k1⟩ := read_lgetc (c := c%'$') (r := nm ++ c :: rest) (by rw [hl]; simp) (by decide) (by decide)
  have hw := flat_weight l1
  rw [k1.flat] at hw
  obtain ⟨l2, j0, j1⟩ := readName_spec nm (fun d hd => (nameChar_iff d).2 (hnm d hd)) c
    (by rw [← Bool.not_eq_true, nameChar_iff]; exact hc) ⟨hp.1, hp.2.1⟩ hp.2.2 rest (l1.weight + 1) [] l1 k1.flat (by simp at hw; omega) (by simpa using hlen)
  refine ⟨l2, ?_, k1.trans j1⟩
  rw [yylex, yylexN, skipBlanks_first _ k0 (by decide)]
  have e : l1.expanding = false := by rw [k1.expanding]; exact he
  have e2 : symget l2.syms nm = some v := by rw [j1.syms, k1.syms]; exact hv
  simp [e, j0, e2]

theorem sim_flags (e e' : Bool) (v : Bytes) (h : ∀ c ∈ v, c ≠ c%'$' ∧ c ≠ c%'@') (a b : List (UInt8 × Bool)) (hab : Sim a b) :
    Sim (v.map (fun c => (c, e)) ++ a) (v.map (fun c => (c, e')) ++ b) := by
  induction v with
  | nil => exact hab
  | cons c r ih =>
    refine ⟨rfl, ?_, ih (fun d hd => h d (by simp [hd]))⟩
    have := h c (by simp)
    rintro (k | k)
    · exact absurd k this.1
    · exact absurd k this.2

/-- C67: `@name` is the text of the value of the macro: from there on the lexer returns the tokens it would return if that text were in the
file.  (The `$` and `@` of the value are not special, so that text has none.) -/
theorem C67_at (nm : Bytes) (hnm : ∀ c ∈ nm, MacroChar c) (hlen : nm.length ≤ 8093) (c : UInt8) (hc : ¬ MacroChar c)
    (hp : c ≠ 1 ∧ c ≠ 2 ∧ c ≠ c%'\\') (rest v : Bytes) (l : Lex) (he : l.expanding = false)
    (hl : l.file.flat = c%'@' :: nm ++ c :: rest) (hv : symget l.syms nm = some v)
    (hv' : ∀ c ∈ v, c ≠ c%'$' ∧ c ≠ c%'@') (hw : Plain l.whole) (hvals : ∀ s ∈ l.syms, Plain s.val) (k : Nat) :
    lexAll k l = lexAll k { l with file := { l.file with unget := [], stream := v ++ c :: rest } } := by
  have cl : ∀ s, Plain s → Clean s := fun s h c hc => by have := h c hc; simp only [Marker, not_or]; exact this
  obtain ⟨l1, k0, k1⟩ := read_lgetc (c := c%'@') (r := nm ++ c :: rest) (by rw [hl]; simp) (by decide) (by decide)
  have hwt := flat_weight l1
  rw [k1.flat] at hwt
  obtain ⟨l2, j0, j1⟩ := readName_spec nm (fun d hd => (nameChar_iff d).2 (hnm d hd)) c
    (by rw [← Bool.not_eq_true, nameChar_iff]; exact hc) ⟨hp.1, hp.2.1⟩ hp.2.2 rest (l1.weight + 1) [] l1 k1.flat (by simp at hwt; omega) (by simpa using hlen)
  have e : l1.expanding = false := by rw [k1.expanding]; exact he
  have r := k1.trans j1
  have e3 : l2.expanding = false := by rw [r.expanding]; exact he
  have e2 : symget l2.syms nm = some v := by rw [r.syms]; exact hv
  obtain ⟨s, hs, hsv⟩ := symget_mem _ _ _ hv
  have hvp : Clean v := by rw [← hsv]; exact cl _ (hvals s hs)
  -- one turn of yylex
  have hy : yylex l = yylexN l.whole.length (pushMacro v l2) := by
    rw [yylex, yylexN, skipBlanks_first _ k0 (by decide)]
    simp [e, j0, e2]
  have hw2 : l2.whole = c :: rest ++ (l.outer.map LFile.flat).flatten := by
    simp only [Lex.whole, r.flat, r.outer]
  have hwl : l.whole = c%'@' :: nm ++ l2.whole := by
    rw [hw2]; simp [Lex.whole, hl]
  have hc2 : Clean l2.whole := by
    have := cl _ hw
    rw [hwl] at this
    exact fun x hx => this x (by simp [hx])
  obtain ⟨cap, ha⟩ := pushMacro_alias v l2
  -- the lexer in the macro and the one on the text
  let l' : Lex := { l with file := { l.file with unget := [], stream := v ++ c :: rest } }
  have hwm : (inMacro v cap l2).whole = v ++ doneExpand :: l2.whole := by simp [inMacro, Lex.whole, LFile.flat]
  have hwl' : l'.whole = v ++ l2.whole := by rw [hw2]; simp [l', Lex.whole, LFile.flat]
  have same : SameLex (inMacro v cap l2) l' := by
    refine ⟨⟨?_, ?_, ?_, ?_⟩, ?_, ?_, ?_, ?_⟩
    · show l2.file.eofReached = l.file.eofReached; exact r.eof
    · show l2.file.errors = l.file.errors; exact r.errors
    · have h1 : (inMacro v cap l2).file.flat = v ++ doneExpand :: l2.file.flat := by simp [inMacro, LFile.flat]
      have h2 : l'.file.flat = v ++ l2.file.flat := by rw [r.flat]; simp [l', LFile.flat]
      rw [h1, h2, chars_append, chars_append, chars_clean _ _ hvp, chars_clean _ _ hvp, endF_clean _ _ hvp, endF_clean _ _ hvp]
      refine sim_flags _ _ v hv' _ _ ?_
      show Sim (chars true (doneExpand :: l2.file.flat)) (chars l.expanding l2.file.flat)
      rw [he]
      exact sim_refl _
    · have h1 : (inMacro v cap l2).file.flat = v ++ doneExpand :: l2.file.flat := by simp [inMacro, LFile.flat]
      have h2 : l'.file.flat = v ++ l2.file.flat := by rw [r.flat]; simp [l', LFile.flat]
      have ho : (inMacro v cap l2).outer = l.outer := r.outer
      have ho' : l'.outer = l.outer := rfl
      rw [h1, h2, ho, ho', endF_append, endF_append, endF_clean _ _ hvp, endF_clean _ _ hvp]
      have : endF true (doneExpand :: l2.file.flat) = endF l'.expanding l2.file.flat := by
        show endF true (doneExpand :: l2.file.flat) = endF l.expanding l2.file.flat
        rw [he]; rfl
      have h3 : endF (inMacro v cap l2).expanding (doneExpand :: l2.file.flat) = endF l'.expanding l2.file.flat := this
      rw [h3]
      generalize endF l'.expanding l2.file.flat = b
      generalize l.outer = fs
      induction fs generalizing b with
      | nil => trivial
      | cons f fs ih => exact ⟨rfl, rfl, sim_refl _, ih _⟩
    · exact r.syms
    · rw [hwm]; exact .inr ⟨rfl, v, l2.whole, rfl, hvp, hc2⟩
    · rw [hwl']
      refine .inl ⟨he, ?_⟩
      intro x hx
      rcases List.mem_append.1 hx with hx | hx
      · exact hvp x hx
      · exact hc2 x hx
    · intro s hs
      rw [show (inMacro v cap l2).syms = l.syms from r.syms] at hs
      exact cl _ (hvals s hs)
  have m1 : (inMacro v cap l2).macros < l.whole.length := by
    rw [inMacro_macros _ _ hvp _ e3]
    have := macros_le l2
    rw [hwl]; simp; omega
  have m2 : l'.macros < l'.whole.length + 1 := by have := macros_le l'; omega
  have sy := same_yylexN l.whole.length (l'.whole.length + 1) ha (Alias.refl l') same m1 m2
  rw [← hy, show yylexN (l'.whole.length + 1) l' = yylex l' from rfl] at sy
  cases k with
  | zero => rfl
  | succ k =>
    show lexAll (k + 1) l = lexAll (k + 1) l'
    simp only [lexAll]
    generalize yylex l = x at *
    generalize yylex l' = y at *
    cases sy with
    | go a => exact a.elim
    | tok t a b hab => cases t <;> simp [lexAll_same k hab]

example : lexAll 9 (lexStart b%"@opts on\n" [{ name := b%"opts", val := b%"listen on", persist := false }]) =
    [.kw b%"LISTEN", .kw b%"ON", .kw b%"ON", .chr c%'\n', .chr c%'\n', .eof] := by decide

/-- C67, a consequence: the text after `@name` may become part of the last word of the value -/
example : lexAll 9 (lexStart b%"@x.b\n" [{ name := b%"x", val := b%"a", persist := false }]) = [.str b%"a.b", .chr c%'\n', .chr c%'\n', .eof] := by decide

/-- C67: a macro that is not defined is an error, and the rest of the line is skipped -/
theorem C67_undefined (nm : Bytes) (hnm : ∀ c ∈ nm, MacroChar c) (hlen : nm.length ≤ 8093) (c : UInt8) (hc : ¬ MacroChar c)
    (hp : c ≠ 1 ∧ c ≠ 2 ∧ c ≠ c%'\\') (rest : Bytes) (l : Lex) (he : l.expanding = false) (s : UInt8) (hs : s = c%'$' ∨ s = c%'@')
    (hl : l.file.flat = s :: nm ++ c :: rest) (hv : symget l.syms nm = none) (hw : Plain l.whole) (hvals : ∀ s ∈ l.syms, Plain s.val) :
    ∃ l', yylex l = .tok .error l' := by
  have cl : ∀ s, Plain s → Clean s := fun s h c hc => by have := h c hc; simp only [Marker, not_or]; exact this
  obtain ⟨l1, k0, k1⟩ := read_lgetc (c := s) (r := nm ++ c :: rest) (by rw [hl]; simp) (by rcases hs with rfl | rfl <;> decide)
    (by rcases hs with rfl | rfl <;> decide)
  have hwt := flat_weight l1
  rw [k1.flat] at hwt
  obtain ⟨l2, j0, j1⟩ := readName_spec nm (fun d hd => (nameChar_iff d).2 (hnm d hd)) c
    (by rw [← Bool.not_eq_true, nameChar_iff]; exact hc) ⟨hp.1, hp.2.1⟩ hp.2.2 rest (l1.weight + 1) [] l1 k1.flat (by simp at hwt; omega) (by simpa using hlen)
  have e : l1.expanding = false := by rw [k1.expanding]; exact he
  have r := k1.trans j1
  have e2 : symget l2.syms nm = none := by rw [r.syms]; exact hv
  have hy : yylex l = findeol l2.yyerror := by
    rw [yylex, yylexN, skipBlanks_first _ k0 (by rcases hs with rfl | rfl <;> decide)]
    rcases hs with rfl | rfl <;> simp [e, j0, e2]
  rw [hy, findeol]
  have hw2 : l.whole = s :: nm ++ l2.whole := by simp [Lex.whole, hl, r.flat, r.outer]
  have hsame : SameLex l2.yyerror l2.yyerror := by
    refine same_yyerror (sameLex_refl l2 ?_ ?_)
    · refine .inl ⟨by rw [r.expanding]; exact he, ?_⟩
      have := cl _ hw
      rw [hw2] at this
      exact fun x hx => this x (by simp [hx])
    · rw [r.syms]; exact fun s hs => cl _ (hvals s hs)
  suffices ∀ n l, SameLex l l → l.weight < n → ∃ l', findeolN n l = .tok .error l' by
    obtain ⟨l3, h3⟩ := this (l2.yyerror.weight + 1) l2.yyerror hsame (by omega)
    exact ⟨l3, by rw [h3]⟩
  intro n
  induction n with
  | zero => omega
  | succ n ih =>
    intro l hsl hn
    rw [findeolN_succ]
    have s1 := same_lgetc hsl
    split
    · exact ⟨_, rfl⟩
    · rename_i hx
      rw [not_or] at hx
      have := s1.adv.weight
      simp only [isSome_of hx.1, if_true] at this
      refine ih _ s1.same (by omega)

example : lexAll 4 (lexStart b%"root $x foo\non" []) = [.kw b%"ROOT", .error, .kw b%"ON", .chr c%'\n'] := by decide

example (k : Nat) : lexAll k (lexStart b%"@opts on\n" [{ name := b%"opts", val := b%"listen on", persist := false }]) =
    lexAll k (lexStart b%"listen on on\n" [{ name := b%"opts", val := b%"listen on", persist := false }]) :=
  C67_at b%"opts" (by decide +kernel) (by decide +kernel) c%' ' (by decide +kernel) (by decide +kernel) b%"on\n" b%"listen on" _ rfl rfl
    (by decide +kernel) (by decide +kernel) (by unfold Plain; decide +kernel) (by unfold Plain; decide +kernel) k

example : ∃ l', yylex (lexStart b%"$r\n" [{ name := b%"r", val := b%"/var/a \"b\"", persist := false }]) = .tok (.str b%"/var/a \"b\"") l' :=
  ⟨_, (C67_dollar b%"r" (by decide +kernel) (by decide +kernel) c%'\n' (by decide +kernel) (by decide +kernel) [] _ _ rfl rfl (by decide +kernel)).choose_spec.1⟩

/-! ## C68 -/

/-- how many errors have been reported -/
def totalErrors (l : Lex) : Nat := l.file.errors + (l.outer.map (·.errors)).sum

/-- no NUL is going to be read, and `E` errors have been reported -/
structure NoNul (E : Nat) (l : Lex) : Prop where
  whole : (0 : UInt8) ∉ l.whole
  vals : ∀ s ∈ l.syms, (0 : UInt8) ∉ s.val
  errors : E ≤ totalErrors l

theorem nn_igetc {E : Nat} {l : Lex} (h : NoNul E l) : NoNul E (igetc l).2 ∧ (igetc l).1 ≠ some 0 := by
  obtain ⟨mk, c, l1, k0, k1, k2, k3, k4, k5, k6, k7, k8, k9⟩ := igetc_spec l
  rw [k0]
  have he : totalErrors l1 = totalErrors l := by simp [totalErrors, k2, k4]
  rcases k9 with ⟨d, rfl, j2, j3⟩ | ⟨rfl, j2, j3⟩
  · have hw : l.whole = mk ++ d :: l1.whole := by simp only [Lex.whole, j3, k2]; simp
    have h1 := h.whole
    rw [hw] at h1
    simp only [List.mem_append, List.mem_cons, not_or] at h1
    exact ⟨⟨h1.2.2, by rw [k3]; exact h.vals, by rw [he]; exact h.errors⟩, by simpa using Ne.symm h1.2.1⟩
  · have hw : l.whole = mk ++ l1.whole := by simp only [Lex.whole, j3, j2, k2]; simp
    have h1 := h.whole
    rw [hw] at h1
    simp only [List.mem_append, not_or] at h1
    exact ⟨⟨h1.2, by rw [k3]; exact h.vals, by rw [he]; exact h.errors⟩, by simp⟩

theorem nn_contLoop {E : Nat} (n : Nat) {l : Lex} (h : NoNul E l) : NoNul E (contLoop n l).2 ∧ (contLoop n l).1 ≠ some 0 := by
  induction n generalizing l with
  | zero => exact ⟨h, by simp [contLoop]⟩
  | succ n ih =>
    rw [contLoop_succ]
    have h1 := nn_igetc h
    have h2 := nn_igetc h1.1
    split
    · split
      · exact ih h2.1
      · exact h2
    · exact h1

theorem nn_pop {E : Nat} {l : Lex} {f : LFile} {fs : List LFile} (h : NoNul E l) (ho : l.outer = f :: fs) : NoNul E (l.popTo f fs) := by
  refine ⟨?_, h.vals, ?_⟩
  · intro hm
    refine h.whole ?_
    simp only [Lex.whole, ho, List.map_cons, List.flatten_cons, List.mem_append]
    simp only [Lex.whole, Lex.popTo, LFile.flat, List.mem_append] at hm
    rcases hm with hm | hm
    · exact .inr (.inl (by simpa [LFile.flat] using hm))
    · exact .inr (.inr hm)
  · have := h.errors
    have e : totalErrors l = l.file.errors + (f.errors + (fs.map (·.errors)).sum) := by simp [totalErrors, ho]
    have e' : totalErrors (l.popTo f fs) = f.errors + l.file.errors + (fs.map (·.errors)).sum := rfl
    omega

theorem nn_popFiles {E : Nat} (fs : List LFile) {l : Lex} (h : NoNul E l) (ho : l.outer = fs) :
    NoNul E (popFiles fs l).2 ∧ (popFiles fs l).1 ≠ some 0 ∧ ((popFiles fs l).1 = none → (popFiles fs l).2.outer = []) := by
  induction fs generalizing l with
  | nil => exact ⟨h, by simp [popFiles], fun _ => ho⟩
  | cons f fs ih =>
    rw [popFiles_cons]
    have h1 := nn_igetc (nn_pop h ho)
    split
    · exact ih h1.1 (kept_igetc _).outer
    · rename_i hx; exact ⟨h1.1, h1.2, fun k => absurd k hx⟩

theorem nn_yyerror {E : Nat} {l : Lex} (h : NoNul E l) : NoNul E l.yyerror := by
  refine ⟨h.whole, h.vals, Nat.le_trans h.errors ?_⟩
  simp only [totalErrors, Lex.yyerror]; omega

theorem nn_lgetc {E : Nat} {l : Lex} (h : NoNul E l) :
    NoNul E (lgetc l).2 ∧ (lgetc l).1 ≠ some 0 ∧ ((lgetc l).1 = none → (lgetc l).2.outer = []) := by
  rw [lgetc_eq]
  have h1 := nn_contLoop (l.file.left + 1) h
  generalize contLoop (l.file.left + 1) l = x at *
  split
  · split
    · exact nn_popFiles _ h1.1 rfl
    · exact ⟨⟨h1.1.whole, h1.1.vals, h1.1.errors⟩, by simp, by simp⟩
  · rename_i hx; exact ⟨h1.1, h1.2, fun k => absurd k hx⟩

theorem nn_lgetcQ {E : Nat} {q : UInt8} (hq : q ≠ 0) {l : Lex} (h : NoNul E l) :
    NoNul E (lgetcQ q l).2 ∧ (lgetcQ q l).1 ≠ some 0 ∧ ((lgetcQ q l).1 = none → (lgetcQ q l).2.outer = []) := by
  rw [lgetcQ_eq]
  have h1 := nn_igetc h
  generalize igetc l = x at *
  split
  · cases ho : x.2.outer with
    | nil => exact ⟨nn_yyerror h1.1, by simp, fun _ => ho⟩
    | cons f fs => exact ⟨nn_pop (nn_yyerror h1.1) ho, by simpa using hq, by simp⟩
  · rename_i hx; exact ⟨h1.1, h1.2, fun k => absurd k hx⟩

theorem nn_lungetc {E : Nat} {c : UInt8} (hc : c ≠ 0) {l : Lex} (h : NoNul E l) : NoNul E (lungetc (some c) l) :=
  ⟨by rw [lungetc_whole]; simp [Ne.symm hc, h.whole], h.vals, h.errors⟩

theorem nn_lungetAll {E : Nat} (s : Bytes) (hs : (0 : UInt8) ∉ s) {l : Lex} (h : NoNul E l) : NoNul E (lungetAll s l) := by
  unfold lungetAll
  have hs' : (0 : UInt8) ∉ s.reverse := by simpa using hs
  generalize s.reverse = r at hs'
  induction r generalizing l with
  | nil => exact h
  | cons c r ih =>
    simp only [List.mem_cons, not_or] at hs'
    exact ih (nn_lungetc (Ne.symm hs'.1) h) hs'.2

/-- an outcome after which the end of the file was reached only if all the included files were done with -/
inductive Ended {α : Type} (E : Nat) (P : α → Lex → Prop) : LexRes α → Prop where
  | go (a : α) (l : Lex) (h : NoNul E l) (p : P a l) : Ended E P (.go a l)
  | tok (t : Tok) (l : Lex) (h : NoNul E l) (p : t = .eof → l.outer = []) : Ended E P (.tok t l)
  | ub : Ended E P .ub
  | fuel : Ended E P .fuel

theorem end_findeol {α : Type} {E : Nat} (P : α → Lex → Prop) {l : Lex} (h : NoNul E l) : Ended E P (findeol l) := by
  unfold findeol
  suffices ∀ n l, NoNul E l → Ended E (fun _ _ => True) (findeolN n l) by
    have := this (l.weight + 1) l h
    generalize findeolN (l.weight + 1) l = x at *
    cases this with
    | go a => exact a.elim
    | tok t l h p => exact .tok t l h p
    | ub => exact .ub
    | fuel => exact .fuel
  intro n
  induction n with
  | zero => intro l _; exact .fuel
  | succ n ih =>
    intro l h
    rw [findeolN_succ]
    have h1 := nn_lgetc h
    split
    · exact .tok _ _ h1.1 (by simp)
    · exact ih _ h1.1

theorem end_skipBlanks {E : Nat} (n : Nat) {l : Lex} (h : NoNul E l) :
    Ended E (fun c l => c ≠ some 0 ∧ (c = none → l.outer = [])) (skipBlanks n l) := by
  induction n generalizing l with
  | zero => exact .fuel
  | succ n ih =>
    rw [skipBlanks_succ]
    have h1 := nn_lgetc h
    split
    · exact ih h1.1
    · exact .go _ _ h1.1 h1.2

theorem end_skipComment {E : Nat} (n : Nat) {l : Lex} (h : NoNul E l) :
    Ended E (fun c l => c ≠ some 0 ∧ (c = none → l.outer = [])) (skipComment n l) := by
  induction n generalizing l with
  | zero => exact .fuel
  | succ n ih =>
    rw [skipComment_succ]
    have h1 := nn_lgetc h
    split
    · exact .go _ _ h1.1 h1.2
    · exact ih h1.1

theorem end_readName {E : Nat} (n : Nat) (buf : Bytes) {l : Lex} (h : NoNul E l) : Ended E (fun _ _ => True) (readName n buf l) := by
  induction n generalizing l buf with
  | zero => exact .fuel
  | succ n ih =>
    rw [readName]
    have h1 := nn_lgetc h
    generalize lgetc l = x at *
    obtain ⟨c, l1⟩ := x
    cases c with
    | none => exact .tok _ _ h1.1 (fun _ => h1.2.2 rfl)
    | some c =>
      simp only
      split
      · exact end_findeol _ (nn_yyerror h1.1)
      · split
        · split
          · exact ih _ h1.1
          · exact .ub
        · split
          · exact .go _ _ (nn_lungetc (fun k => h1.2.1 (by rw [k])) h1.1) trivial
          · exact .ub

theorem end_readWhile {E : Nat} (p : UInt8 → Bool) (n : Nat) (buf : Bytes) (c : UInt8) (hc : c ≠ 0) (hb : (0 : UInt8) ∉ buf) {l : Lex}
    (h : NoNul E l) : Ended E (fun a _ => (0 : UInt8) ∉ a.1) (readWhile p n buf c l) := by
  induction n generalizing l buf c with
  | zero => exact .fuel
  | succ n ih =>
    rw [readWhile]
    have h1 := nn_lgetc h
    have hb' : (0 : UInt8) ∉ buf ++ [c] := by simp [hb, Ne.symm hc]
    generalize lgetc l = x at *
    obtain ⟨d, l1⟩ := x
    split
    · split
      · exact end_findeol _ (nn_yyerror h)
      · cases d with
        | none => exact .go _ _ h1.1 hb'
        | some d =>
          have hd : d ≠ 0 := fun k => h1.2.1 (by rw [k])
          simp only
          split
          · exact ih _ _ hd hb' h1.1
          · exact .go _ _ (nn_lungetc hd h1.1) hb'
    · exact .ub

theorem end_readQuoted {E : Nat} (q : UInt8) (hq : q ≠ 0) (n : Nat) (buf : Bytes) {l : Lex} (h : NoNul E l) :
    Ended E (fun _ _ => True) (readQuoted q n buf l) := by
  induction n generalizing l buf with
  | zero => exact .fuel
  | succ n ih =>
    rw [readQuoted]
    have h1 := nn_lgetcQ hq h
    generalize lgetcQ q l = x at *
    obtain ⟨c, l1⟩ := x
    have put : ∀ (c : UInt8) (k : Lex), NoNul E k → Ended E (fun _ _ => True)
        (if buf.length + 1 ≥ bufSize - 1 then findeol k.yyerror
          else if buf.length < bufSize then readQuoted q n (buf ++ [c]) k else .ub) := by
      intro c k hk
      split
      · exact end_findeol _ (nn_yyerror hk)
      · split
        · exact ih _ hk
        · exact .ub
    cases c with
    | none => exact .tok _ _ h1.1 (fun _ => h1.2.2 rfl)
    | some c =>
      simp only
      split
      · exact ih _ h1.1
      · split
        · have h2 := nn_lgetcQ hq h1.1
          simp only at h2
          generalize lgetcQ q l1 = y at *
          obtain ⟨d, l2⟩ := y
          cases d with
          | none => exact .tok _ _ h2.1 (fun _ => h2.2.2 rfl)
          | some d =>
            simp only
            split
            · exact put _ _ h2.1
            · split
              · exact ih _ h2.1
              · exact put _ _ (nn_lungetc (fun k => h2.2.1 (by rw [k])) h2.1)
        · split
          · split
            · exact .go _ _ h1.1 trivial
            · exact .ub
          · split
            · exact end_findeol _ (nn_yyerror h1.1)
            · exact put _ _ h1.1

theorem end_lexRest {E : Nat} (c : Option UInt8) {l : Lex} (h : NoNul E l) (hc : c ≠ some 0) (ho : c = none → l.outer = []) :
    Ended E (fun _ _ => True) (lexRest c l) := by
  cases c with
  | none => exact .tok _ _ h (fun _ => ho rfl)
  | some c =>
    have hc0 : c ≠ 0 := fun k => hc (by rw [k])
    unfold lexRest
    simp only
    split
    · unfold readWord
      have := end_readWhile inString (l.weight + 2) [] c hc0 (by simp) h
      generalize readWhile inString (l.weight + 2) [] c l = x at *
      cases this with
      | go a l h p =>
        simp only
        split
        · cases lookupKw a.1 with
          | none => exact .tok _ _ h (by simp)
          | some t => exact .tok _ _ h (by simp)
        · exact .ub
      | tok t l h p => exact .tok _ _ h p
      | ub => exact .ub
      | fuel => exact .fuel
    · exact .tok _ _ h (by simp)

theorem end_readNumber {E : Nat} (c : UInt8) (hc : c ≠ 0) {l : Lex} (h : NoNul E l) : Ended E (fun _ _ => True) (readNumber c l) := by
  unfold readNumber
  have := end_readWhile isDigit (l.weight + 2) [] c hc (by simp) h
  generalize readWhile isDigit (l.weight + 2) [] c l = x at *
  cases this with
  | go a l h p =>
    obtain ⟨s, d⟩ := a
    simp only at p ⊢
    by_cases hd : s ≠ [c%'-'] ∧ (d.map endsNumber).getD true = true
    · rw [if_pos hd]
      split
      · cases numToken s with
        | none => exact end_findeol _ (nn_yyerror h)
        | some n => exact .tok _ _ h (by simp)
      · exact .ub
    · rw [if_neg hd]
      cases s with
      | nil => exact .ub
      | cons b t =>
        simp only [List.mem_cons, not_or] at p
        have ha := nn_lungetAll t p.2 h
        simp only
        split
        · exact .tok _ _ ha (by simp)
        · exact end_lexRest _ ha (by simpa using Ne.symm p.1) (by simp)
  | tok t l h p => exact .tok _ _ h p
  | ub => exact .ub
  | fuel => exact .fuel

theorem end_lexSwitch {E : Nat} (c : Option UInt8) {l : Lex} (h : NoNul E l) (hc : c ≠ some 0) (ho : c = none → l.outer = []) :
    Ended E (fun _ _ => True) (lexSwitch c l) := by
  cases c with
  | none => exact .tok _ _ h (fun _ => ho rfl)
  | some c =>
    have hc0 : c ≠ 0 := fun k => hc (by rw [k])
    unfold lexSwitch
    simp only
    split
    · have := end_readQuoted c hc0 (l.weight + 1) [] h
      generalize readQuoted c (l.weight + 1) [] l = x at *
      cases this with
      | go a l h p => exact .tok _ _ h (by simp)
      | tok t l h p => exact .tok _ _ h p
      | ub => exact .ub
      | fuel => exact .fuel
    · split
      · exact end_readNumber c hc0 h
      · exact end_lexRest _ h hc ho

theorem end_yylexN {E : Nat} (n : Nat) {l : Lex} (h : NoNul E l) : Ended E (fun _ _ => True) (yylexN n l) := by
  induction n generalizing l with
  | zero => exact .fuel
  | succ n ih =>
    rw [yylexN]
    have sb := end_skipBlanks (l.weight + 1) h
    generalize skipBlanks (l.weight + 1) l = x at *
    cases sb with
    | tok t l h p => exact .tok _ _ h p
    | ub => exact .ub
    | fuel => exact .fuel
    | go c k hk p =>
      simp only
      have sc : Ended E (fun c l => c ≠ some 0 ∧ (c = none → l.outer = []))
          (if c = some c%'#' then skipComment (k.weight + 1) k else .go c k) := by
        split
        · exact end_skipComment _ hk
        · exact .go _ _ hk p
      generalize (if c = some c%'#' then skipComment (k.weight + 1) k else .go c k) = x at *
      cases sc with
      | tok t l h p => exact .tok _ _ h p
      | ub => exact .ub
      | fuel => exact .fuel
      | go c k hk p =>
        simp only
        have sn := end_readName (k.weight + 1) [] hk
        by_cases hd : c = some c%'$' ∧ k.expanding = false
        · rw [if_pos hd]
          generalize readName (k.weight + 1) [] k = u at *
          cases sn with
          | tok t l h p => exact .tok _ _ h p
          | ub => exact .ub
          | fuel => exact .fuel
          | go nm j hj _ =>
            simp only
            cases symget j.syms nm with
            | none => exact end_findeol _ (nn_yyerror hj)
            | some v => exact .tok _ _ hj (by simp)
        · rw [if_neg hd]
          by_cases ha : c = some c%'@' ∧ k.expanding = false
          · rw [if_pos ha]
            generalize readName (k.weight + 1) [] k = u at *
            cases sn with
            | tok t l h p => exact .tok _ _ h p
            | ub => exact .ub
            | fuel => exact .fuel
            | go nm j hj _ =>
              simp only
              cases hs : symget j.syms nm with
              | none => exact end_findeol _ (nn_yyerror hj)
              | some v =>
                obtain ⟨s, hs1, rfl⟩ := symget_mem _ _ _ hs
                exact ih (nn_lungetc (by decide) (nn_lungetAll _ (hj.vals s hs1) (nn_lungetc (by decide) hj)))
          · rw [if_neg ha]
            exact end_lexSwitch c hk p.1 p.2

/-- the tokens the parser gets; between them it may report errors (`err` times), set macros, and include a file, after which comes a newline -/
structure Between where
  err : Nat
  syms : List Sym
  incl : Option Bytes

def between (b : Between) (l : Lex) : Lex :=
  let l := { l with file := { l.file with errors := l.file.errors + b.err }, syms := b.syms }
  match b.incl with
  | none => l
  | some s => lungetc (some c%'\n') (pushFile s l)

/-- yyparse and yylex in turn, until the end of file token: the final state and the number of errors the parser reported meanwhile; `none` when
it is not reached -/
def parseTo : List Between → Lex → Option (Lex × Nat)
  | [], _ => none
  | b :: r, l =>
    match yylex l with
    | .tok .eof l => some ({ l with file := { l.file with errors := l.file.errors + b.err } }, b.err)
    | .tok _ l => (parseTo r (between b l)).map (fun p => (p.1, b.err + p.2))
    | _ => none

theorem nn_between {E : Nat} {b : Between} (h1 : ∀ s ∈ b.syms, (0 : UInt8) ∉ s.val) (h2 : ∀ s, b.incl = some s → (0 : UInt8) ∉ s) {l : Lex}
    (h : NoNul E l) : NoNul (E + b.err) (between b l) := by
  have base : NoNul (E + b.err) { l with file := { l.file with errors := l.file.errors + b.err }, syms := b.syms } := by
    refine ⟨h.whole, h1, ?_⟩
    have := h.errors
    simp only [totalErrors] at this ⊢
    omega
  unfold between
  cases hi : b.incl with
  | none => exact base
  | some s =>
    refine nn_lungetc (by decide) ⟨?_, h1, ?_⟩
    · have := base.whole
      simp only [Lex.whole, LFile.flat, pushFile, List.map_cons, List.flatten_cons, List.mem_append, not_or] at this ⊢
      exact ⟨⟨by simp, h2 s hi⟩, this.1, this.2⟩
    · have := base.errors
      simp only [totalErrors, pushFile, List.map_cons, List.sum_cons] at this ⊢
      omega

/-- C68: a configuration in which an error is reported is refused, whatever files it includes and macros it sets, provided that none of its
files or macros has a NUL byte: when the end is reached, all the errors reported before (`totalErrors l`) and since (`k`) are counted. -/
theorem C68_errors_refuse_partial (bs : List Between) (hb : ∀ b ∈ bs, (∀ s ∈ b.syms, (0 : UInt8) ∉ s.val) ∧ ∀ s, b.incl = some s → (0 : UInt8) ∉ s)
    (l l' : Lex) (k : Nat) (hw : (0 : UInt8) ∉ l.whole) (hv : ∀ s ∈ l.syms, (0 : UInt8) ∉ s.val) (h : parseTo bs l = some (l', k))
    (herr : 0 < totalErrors l + k) : parseFailed l' = true := by
  suffices ∀ (E : Nat) (bs : List Between) (l l' : Lex) (k : Nat),
      (∀ b ∈ bs, (∀ s ∈ b.syms, (0 : UInt8) ∉ s.val) ∧ ∀ s, b.incl = some s → (0 : UInt8) ∉ s) →
      NoNul E l → parseTo bs l = some (l', k) → l'.outer = [] ∧ E + k ≤ totalErrors l' by
    obtain ⟨h1, h2⟩ := this (totalErrors l) bs l l' k hb ⟨hw, hv, Nat.le_refl _⟩ h
    simp only [totalErrors, h1, List.map_nil, List.sum_nil, Nat.add_zero] at h2 herr
    simp only [parseFailed, decide_eq_true_eq]
    omega
  intro E bs
  induction bs generalizing E with
  | nil => intro l l' k _ _ h; simp [parseTo] at h
  | cons b r ih =>
    intro l l' k hb hn h
    rw [parseTo] at h
    have he : Ended E (fun _ _ => True) (yylex l) := end_yylexN _ hn
    generalize yylex l = x at *
    cases he with
    | go a => exact a.elim
    | ub => simp at h
    | fuel => simp at h
    | tok t l1 h1 p =>
      have hbb := hb b (by simp)
      by_cases ht : t = .eof
      · subst ht
        simp only [Option.some.injEq, Prod.mk.injEq] at h
        obtain ⟨rfl, rfl⟩ := h
        refine ⟨p rfl, ?_⟩
        have := h1.errors
        simp only [totalErrors] at this ⊢
        omega
      · have h' : (parseTo r (between b l1)).map (fun p => (p.1, b.err + p.2)) = some (l', k) := by
          cases t with
          | eof => exact absurd rfl ht
          | str s => exact h
          | num n => exact h
          | kw t => exact h
          | chr c => exact h
          | error => exact h
        cases hp : parseTo r (between b l1) with
        | none => rw [hp] at h'; cases h'
        | some q =>
          rw [hp] at h'
          obtain ⟨l2, k2⟩ := q
          simp only [Option.map_some, Option.some.injEq, Prod.mk.injEq] at h'
          obtain ⟨rfl, rfl⟩ := h'
          have := ih (E + b.err) (between b l1) l2 k2 (fun c hc => hb c (by simp [hc])) (nn_between hbb.1 hbb.2 h1) hp
          exact ⟨this.1, by omega⟩

/-- C68, without the hypothesis on NUL bytes it is false: a NUL in an included file ends the parsing there, and only the errors of that file
are looked at. -/
theorem C68_nul_hides_errors (l : Lex) (rest : Bytes) (b : Between) (hb : b.err = 0) :
    ∃ l', parseTo [b] (pushFile (0 :: rest) l) = some (l', 0) ∧ parseFailed l' = false := by
  obtain ⟨l1, k0, k1⟩ := read_lgetc (l := pushFile (0 :: rest) l) (c := 0) (r := rest) rfl (by decide) (by decide)
  have hy : yylex (pushFile (0 :: rest) l) = .tok .eof l1 := by
    rw [yylex, yylexN, skipBlanks_first _ k0 (by decide)]
    simp [lexSwitch, lexRest, isDigit, isAlnum, isAlpha, isUpper, isLower]
  refine ⟨_, by simp only [parseTo, hy, hb]; rfl, ?_⟩
  have : l1.file.errors = 0 := k1.errors
  simp [parseFailed, this]

/-- the hypotheses of C68 are met by a file that includes another one with an error in it -/
example : ((parseTo [⟨0, [], none⟩, ⟨0, [], some b%"'x\n"⟩, ⟨0, [], none⟩, ⟨0, [], none⟩, ⟨0, [], none⟩, ⟨1, [], none⟩, ⟨0, [], none⟩, ⟨0, [], none⟩, ⟨0, [], none⟩] (lexStart b%"include 'a'\non\n" [])).map
    (fun p => (parseFailed p.1, p.2))) = some (true, 1) := by decide +kernel

/-- and by an outer file that has one, which the included one hides -/
example : ∃ l', parseTo [⟨0, [], none⟩] (pushFile [0] (lexStart [] []).yyerror) = some (l', 0) ∧ 0 < totalErrors (lexStart [] []).yyerror ∧ parseFailed l' = false :=
  ⟨_, (C68_nul_hides_errors (lexStart [] []).yyerror [] ⟨0, [], none⟩ rfl).choose_spec.1, by decide,
    (C68_nul_hides_errors (lexStart [] []).yyerror [] ⟨0, [], none⟩ rfl).choose_spec.2⟩

theorem read_eof {q : UInt8} {l : Lex} (h : l.file.flat = []) (ho : l.outer = []) :
    ∃ l1, lgetcQ q l = (none, l1) ∧ l1.outer = [] ∧ l1.file.errors = l.file.errors + 1 := by
  obtain ⟨⟨u, cap, st, eo, er⟩, out, e, sy⟩ := l
  simp only [LFile.flat, List.append_eq_nil_iff] at h
  obtain ⟨rfl, rfl⟩ := h
  subst ho
  exact ⟨_, rfl, rfl, rfl⟩

/-- a quoted string that the file ends in -/
theorem readOpen_spec (q : UInt8) (hq : q = c%'\'' ∨ q = c%'"') (t s : Bytes) (hts : InQuotes q t s) (n : Nat) (buf : Bytes) (l : Lex)
    (hl : l.file.flat = t) (ho : l.outer = []) (hn : t.length + 1 ≤ n) (hb : buf.length + s.length ≤ 8094) :
    ∃ l', readQuoted q n buf l = .tok .eof l' ∧ l'.outer = [] ∧ l'.file.errors = l.file.errors + 1 := by
  induction hts generalizing n buf l with
  | nil =>
    obtain ⟨n, rfl⟩ : ∃ m, n = m + 1 := ⟨n - 1, by omega⟩
    obtain ⟨l1, k0, k1⟩ := read_eof (q := q) hl ho
    exact ⟨l1, by rw [readQuoted, k0], k1⟩
  | char c t s hc hcq hcb h ih =>
    obtain ⟨n, rfl⟩ : ∃ m, n = m + 1 := ⟨n - 1, by omega⟩
    simp only [List.length_cons] at hn hb
    obtain ⟨l1, k0, k1⟩ := read_lgetcQ (q := q) (c := c) (by simpa using hl) ⟨hc.2.1, hc.2.2.1⟩
    obtain ⟨l3, i0, i1⟩ := ih n (buf ++ [c]) l1 (by simpa using k1.flat) (k1.outer.trans ho) (by omega) (by simp; omega)
    refine ⟨l3, ?_, i1.1, by rw [i1.2, k1.errors]⟩
    rw [readQuoted, k0]
    simp only [if_neg hc.2.2.2, if_neg hcb, if_neg hcq, if_neg hc.1]
    rw [if_neg (by simp only [bufSize]; omega), if_pos (by simp only [bufSize]; omega), i0]
  | escaped c t s hc h ih =>
    obtain ⟨n, rfl⟩ : ∃ m, n = m + 1 := ⟨n - 1, by omega⟩
    simp only [List.length_cons] at hn hb
    have hc12 := inQuotes_bytes hq (InQuotes.escaped (q := q) c t s hc h) c (by simp)
    obtain ⟨l1, k0, k1⟩ := read_lgetcQ (q := q) (c := c%'\\') (by simpa using hl) (by decide)
    obtain ⟨l2, j0, j1⟩ := read_lgetcQ (q := q) (c := c) (by simpa using k1.flat) hc12
    obtain ⟨l3, i0, i1⟩ := ih n (buf ++ [c]) l2 j1.flat ((k1.trans j1).outer.trans ho) (by omega) (by simp; omega)
    refine ⟨l3, ?_, i1.1, by rw [i1.2, (k1.trans j1).errors]⟩
    rw [readQuoted, k0]
    simp only [show ¬ (c%'\\' = c%'\n') by decide, if_false, if_true]
    rw [j0]
    simp only [if_pos hc]
    rw [if_neg (by simp only [bufSize]; omega), if_pos (by simp only [bufSize]; omega), i0]
  | backslash d t s hd h ih =>
    obtain ⟨n, rfl⟩ : ∃ m, n = m + 1 := ⟨n - 1, by omega⟩
    simp only [List.length_cons] at hn hb ih
    simp only [List.mem_cons, List.not_mem_nil, or_false, not_or] at hd
    have hd12 := inQuotes_bytes hq h d (by simp)
    obtain ⟨l1, k0, k1⟩ := read_lgetcQ (q := q) (c := c%'\\') (by simpa using hl) (by decide)
    obtain ⟨l2, j0, j1⟩ := read_lgetcQ (q := q) (c := d) (by simpa using k1.flat) hd12
    -- the character after the backslash is pushed back
    have hu : (lungetc (some d) l2).file.flat = d :: t := by
      show d :: l2.file.flat = _; rw [j1.flat]
    obtain ⟨l3, i0, i1⟩ := ih n (buf ++ [c%'\\']) (lungetc (some d) l2) hu ((k1.trans j1).outer.trans ho) (by omega) (by simp; omega)
    refine ⟨l3, ?_, i1.1, by rw [i1.2]; exact congrArg (· + 1) (k1.trans j1).errors⟩
    rw [readQuoted, k0]
    simp only [show ¬ (c%'\\' = c%'\n') by decide, if_false, if_true]
    rw [j0]
    simp only [hd.1, hd.2.1, hd.2.2.1, hd.2.2.2, or_self, if_false]
    rw [if_neg (by simp only [bufSize]; omega), if_pos (by simp only [bufSize]; omega), i0]
  | newline t s h ih =>
    obtain ⟨n, rfl⟩ : ∃ m, n = m + 1 := ⟨n - 1, by omega⟩
    simp only [List.length_cons] at hn
    obtain ⟨l1, k0, k1⟩ := read_lgetcQ (q := q) (c := c%'\n') (by simpa using hl) (by decide)
    obtain ⟨l3, i0, i1⟩ := ih n buf l1 (by simpa using k1.flat) (k1.outer.trans ho) (by omega) hb
    refine ⟨l3, ?_, i1.1, by rw [i1.2, k1.errors]⟩
    rw [readQuoted, k0]
    simp only [if_true]
    exact i0
  | joined t s h ih =>
    obtain ⟨n, rfl⟩ : ∃ m, n = m + 1 := ⟨n - 1, by omega⟩
    simp only [List.length_cons] at hn
    obtain ⟨l1, k0, k1⟩ := read_lgetcQ (q := q) (c := c%'\\') (by simpa using hl) (by decide)
    obtain ⟨l2, j0, j1⟩ := read_lgetcQ (q := q) (c := c%'\n') (by simpa using k1.flat) (by decide)
    obtain ⟨l3, i0, i1⟩ := ih n buf l2 (by simpa using j1.flat) ((k1.trans j1).outer.trans ho) (by omega) hb
    refine ⟨l3, ?_, i1.1, by rw [i1.2, (k1.trans j1).errors]⟩
    rw [readQuoted, k0]
    simp only [show ¬ (c%'\\' = c%'\n') by decide, if_false, if_true]
    rw [j0]
    have : ¬ (c%'\n' = q ∨ c%'\n' = c%' ' ∨ c%'\n' = c%'\t') := by rcases hq with rfl | rfl <;> decide
    simp only [if_neg this, if_true]
    exact i0

/-- C68: a configuration that ends within a quoted string is refused: the lexer reports it and returns the end of the file. -/
theorem C68_unterminated (q : UInt8) (hq : q = c%'\'' ∨ q = c%'"') (t s : Bytes) (hts : InQuotes q t s) (hlen : s.length ≤ 8094)
    (l : Lex) (hl : l.file.flat = q :: t) (ho : l.outer = []) :
    ∃ l', yylex l = .tok .eof l' ∧ l'.file.errors = l.file.errors + 1 ∧ parseFailed l' = true := by
  have q1 : q ≠ 1 ∧ q ≠ 2 := by rcases hq with rfl | rfl <;> decide
  obtain ⟨l1, k0, k1⟩ := read_lgetc (c := q) (r := t) hl q1 (by rcases hq with rfl | rfl <;> decide)
  have hw := flat_weight l1
  obtain ⟨l2, j0, j1, j2⟩ := readOpen_spec q hq t s hts (l1.weight + 1) [] l1 k1.flat (k1.outer.trans ho)
    (by rw [k1.flat] at hw; omega) (by simpa using hlen)
  have he : l2.file.errors = l.file.errors + 1 := by rw [j2, k1.errors]
  refine ⟨l2, ?_, he, by simp [parseFailed, he]⟩
  rw [yylex, yylexN, skipBlanks_first _ k0 (by rcases hq with rfl | rfl <;> decide)]
  have e1 : ¬ (some q = some c%'#') := by rcases hq with rfl | rfl <;> decide
  have e2 : ¬ (some q = some c%'$' ∧ l1.expanding = false) := by rintro ⟨h, _⟩; rcases hq with rfl | rfl <;> revert h <;> decide
  have e3 : ¬ (some q = some c%'@' ∧ l1.expanding = false) := by rintro ⟨h, _⟩; rcases hq with rfl | rfl <;> revert h <;> decide
  simp only [if_neg e1, if_neg e2, if_neg e3, lexSwitch, if_pos hq, j0]

example : ∃ l', yylex (lexStart b%"\"ab" []) = .tok .eof l' ∧ parseFailed l' = true :=
  let h := C68_unterminated c%'"' (.inr rfl) b%"ab" b%"ab" (.char _ _ _ (by simp [Quotable]) (by decide) (by decide) <|
    .char _ _ _ (by simp [Quotable]) (by decide) (by decide) .nil) (by decide) (lexStart b%"\"ab" []) rfl rfl
  ⟨_, h.choose_spec.1, h.choose_spec.2.2⟩

end Gmid.Props
