import Verif.Props.Lex
import Verif.Props.Parse
import Verif.Spec.Text

/-!
# The tokens of a text
-/

set_option autoImplicit false

namespace Gmid.Props
open Gmid.Spec

/-- what lgetc has still to return when no other file includes this one -/
def eff (l : Lex) : Bytes := l.file.flat ++ (if l.file.eofReached then [] else [10])

/-- the same state but for what was read: `r` is left -/
structure EffTo (l l' : Lex) (r : Bytes) : Prop where
  eff : eff l' = r
  outer : l'.outer = l.outer
  syms : l'.syms = l.syms
  errors : l'.file.errors = l.file.errors
  expanding : l'.expanding = l.expanding

theorem EffTo.trans {l l1 l2 : Lex} {r s : Bytes} (h : EffTo l l1 r) (k : EffTo l1 l2 s) : EffTo l l2 s :=
  ⟨k.eff, k.outer.trans h.outer, k.syms.trans h.syms, k.errors.trans h.errors, k.expanding.trans h.expanding⟩

theorem eff_of_read {l l' : Lex} {r : Bytes} (h : ReadTo l l' r) : EffTo l l' (r ++ (if l.file.eofReached then [] else [10])) :=
  ⟨by rw [Props.eff, h.flat, h.eof], h.outer, h.syms, h.errors, h.expanding⟩

theorem eff_length (l : Lex) (ho : l.outer = []) : l.weight = (eff l).length + 1 := by
  simp only [Lex.weight, LFile.weight, eff, ho, List.map_nil, List.sum_nil, List.length_append, flat_length]
  cases l.file.eofReached <;> simp

theorem eff_lgetc {l : Lex} {c : UInt8} {r : Bytes} (h : eff l = c :: r) (hc : c ≠ 1 ∧ c ≠ 2) (hb : c ≠ c%'\\') :
    ∃ l1, lgetc l = (some c, l1) ∧ EffTo l l1 r := by
  cases hf : l.file.flat with
  | cons d r' =>
    have h' := h
    simp only [eff, hf, List.cons_append, List.cons.injEq] at h'
    obtain ⟨rfl, e⟩ := h'
    obtain ⟨l1, k0, k1⟩ := read_lgetc hf hc hb
    exact ⟨l1, k0, by have := eff_of_read k1; rw [e] at this; exact this⟩
  | nil =>
    simp only [eff, hf, List.nil_append] at h
    cases he : l.file.eofReached with
    | true => rw [he] at h; simp at h
    | false =>
      rw [he] at h
      simp only [Bool.false_eq_true, if_false, List.cons.injEq] at h
      obtain ⟨rfl, rfl⟩ := h
      have hu : l.file.unget = [] ∧ l.file.stream = [] := by simpa [LFile.flat] using hf
      have hg : igetc l = (none, l) := by
        have : l = { l with file := { l.file with unget := [], stream := [] } } := by
          rcases l with ⟨⟨u, cp, s, e, er⟩, o, x, y⟩
          simp only at hu
          rw [hu.1, hu.2]
        rw [igetc, hu.1, hu.2]
        simp only [igetcFrom]
        rw [← this]
      have hcl : contLoop (l.file.left + 1) l = (none, l) := by rw [contLoop, hg]
      refine ⟨{ l with file := { l.file with eofReached := true } }, ?_, ?_, rfl, rfl, rfl, rfl⟩
      · rw [lgetc, hcl]; simp [he]
      · simp [eff, LFile.flat, hu.1, hu.2]

theorem eff_eof {l : Lex} (h : eff l = []) (ho : l.outer = []) : lgetc l = (none, l) := by
  simp only [eff, List.append_eq_nil_iff] at h
  have hu : l.file.unget = [] ∧ l.file.stream = [] := by simpa [LFile.flat] using h.1
  have he : l.file.eofReached = true := by
    have := h.2
    cases hx : l.file.eofReached with
    | true => rfl
    | false => rw [hx] at this; simp at this
  have hg : igetc l = (none, l) := by
    have : l = { l with file := { l.file with unget := [], stream := [] } } := by
      rcases l with ⟨⟨u, cp, s, e, er⟩, o, x, y⟩
      simp only at hu
      rw [hu.1, hu.2]
    rw [igetc, hu.1, hu.2]
    simp only [igetcFrom]
    rw [← this]
  have hcl : contLoop (l.file.left + 1) l = (none, l) := by rw [contLoop, hg]
  rw [lgetc, hcl]
  simp only [he, if_true, ho, popFiles]

theorem eff_lungetc (c : UInt8) (l : Lex) : EffTo l (lungetc (some c) l) (c :: eff l) :=
  ⟨by simp [lungetc, eff, LFile.flat], rfl, rfl, rfl, rfl⟩

theorem eff_lungetAll (s : Bytes) (l : Lex) : EffTo l (lungetAll s l) (s ++ eff l) := by
  obtain ⟨cap, h⟩ := lungetAll_file s l
  rw [h]
  exact ⟨by simp [eff, LFile.flat], rfl, rfl, rfl, rfl⟩

theorem eff_blanks (bs : Bytes) (hb : Blank bs) (c : UInt8) (r : Bytes) (hc : c ≠ 1 ∧ c ≠ 2)
    (hc' : c ≠ c%' ' ∧ c ≠ c%'\t' ∧ c ≠ c%'\\') (n : Nat) (l : Lex) (hl : eff l = bs ++ c :: r) (hn : bs.length < n) :
    ∃ l1, skipBlanks n l = .go (some c) l1 ∧ EffTo l l1 r := by
  induction bs generalizing n l with
  | nil =>
    obtain ⟨l1, k0, k1⟩ := eff_lgetc (c := c) (r := r) (by simpa using hl) hc hc'.2.2
    cases n with
    | zero => omega
    | succ n => exact ⟨l1, skipBlanks_first n k0 ⟨hc'.1, hc'.2.1⟩, k1⟩
  | cons b bs ih =>
    have hb1 := hb b (by simp)
    obtain ⟨l1, k0, k1⟩ := eff_lgetc (c := b) (r := bs ++ c :: r) (by simpa using hl)
      (by rcases hb1 with rfl | rfl <;> decide) (by rcases hb1 with rfl | rfl <;> decide)
    cases n with
    | zero => omega
    | succ n =>
      obtain ⟨l2, j0, j1⟩ := ih (fun d hd => hb d (by simp [hd])) n l1 k1.eff (by simp at hn; omega)
      refine ⟨l2, ?_, k1.trans j1⟩
      rw [skipBlanks_succ, k0]
      simp only
      rw [if_pos (by rcases hb1 with rfl | rfl <;> decide)]
      exact j0

theorem eff_comment (t : Bytes) (ht : ∀ c ∈ t, c ≠ 1 ∧ c ≠ 2 ∧ c ≠ c%'\n' ∧ c ≠ c%'\\') (r : Bytes) (n : Nat) (l : Lex)
    (hl : eff l = t ++ c%'\n' :: r) (hn : t.length < n) :
    ∃ l1, skipComment n l = .go (some c%'\n') l1 ∧ EffTo l l1 r := by
  induction t generalizing n l with
  | nil =>
    obtain ⟨l1, k0, k1⟩ := eff_lgetc (c := c%'\n') (r := r) (by simpa using hl) (by decide) (by decide)
    cases n with
    | zero => omega
    | succ n => exact ⟨l1, by rw [skipComment_succ, k0]; simp, k1⟩
  | cons b t ih =>
    have hb := ht b (by simp)
    obtain ⟨l1, k0, k1⟩ := eff_lgetc (c := b) (r := t ++ c%'\n' :: r) (by simpa using hl) ⟨hb.1, hb.2.1⟩ hb.2.2.2
    cases n with
    | zero => omega
    | succ n =>
      obtain ⟨l2, j0, j1⟩ := ih (fun d hd => ht d (by simp [hd])) n l1 k1.eff (by simp at hn; omega)
      refine ⟨l2, ?_, k1.trans j1⟩
      rw [skipComment_succ, k0]
      simp only
      rw [if_neg (by simp [hb.2.2.1])]
      exact j0

/-- the loop of numbers and words -/
theorem eff_readWhile (p : UInt8 → Bool) (s : Bytes) (hs : ∀ c ∈ s, p c = true ∧ c ≠ 1 ∧ c ≠ 2 ∧ c ≠ c%'\\') (d : UInt8)
    (hd : p d = false ∧ d ≠ 1 ∧ d ≠ 2 ∧ d ≠ c%'\\') (r : Bytes) (n : Nat) (buf : Bytes) (c : UInt8) (l : Lex)
    (hl : eff l = s ++ d :: r) (hn : s.length < n) (hb : buf.length + s.length + 1 ≤ 8095) :
    ∃ l1, readWhile p n buf c l = .go (buf ++ c :: s, some d) l1 ∧ EffTo l l1 (d :: r) := by
  induction s generalizing n buf c l with
  | nil =>
    cases n with
    | zero => omega
    | succ n =>
      obtain ⟨l1, k0, k1⟩ := eff_lgetc (c := d) (r := r) (by simpa using hl) ⟨hd.2.1, hd.2.2.1⟩ hd.2.2.2
      refine ⟨lungetc (some d) l1, ?_, ?_⟩
      · rw [readWhile, if_pos (by simp only [bufSize]; simp at hb; omega), if_neg (by simp only [bufSize]; simp at hb ⊢; omega), k0]
        simp [hd.1]
      · have := k1.trans (eff_lungetc d l1)
        rw [k1.eff] at this
        exact this
  | cons e s ih =>
    have he := hs e (by simp)
    cases n with
    | zero => omega
    | succ n =>
      obtain ⟨l1, k0, k1⟩ := eff_lgetc (c := e) (r := s ++ d :: r) (by simpa using hl) ⟨he.2.1, he.2.2.1⟩ he.2.2.2
      obtain ⟨l2, j0, j1⟩ := ih (fun x hx => hs x (by simp [hx])) n (buf ++ [c]) e l1 k1.eff (by simp at hn; omega) (by simp at hb ⊢; omega)
      refine ⟨l2, ?_, k1.trans j1⟩
      rw [readWhile, if_pos (by simp only [bufSize]; simp at hb; omega), if_neg (by simp only [bufSize]; simp at hb ⊢; omega), k0]
      simp only [he.1, if_true]
      rw [j0]; simp

instance (c : UInt8) : Decidable (Digit c) := by unfold Digit; infer_instance
instance (c : UInt8) : Decidable (WordChar c) := by unfold WordChar; infer_instance
instance (c : UInt8) : Decidable (WordStart c) := by unfold WordStart; infer_instance
instance (c : UInt8) : Decidable (EndsWord c) := by unfold EndsWord; infer_instance
instance (c : UInt8) : Decidable (EndsNumber c) := by unfold EndsNumber; infer_instance

theorem wordChar_inString (c : UInt8) (h : WordChar c) : inString c = true ∧ c ≠ 1 ∧ c ≠ 2 ∧ c ≠ c%'\\' := by
  have := forall_byte_of_all (p := fun c => decide (WordChar c → inString c = true ∧ c ≠ 1 ∧ c ≠ 2 ∧ c ≠ c%'\\')) (by decide +kernel) c
  exact (of_decide_eq_true this) h

theorem endsWord_out (c : UInt8) (h : EndsWord c) : inString c = false ∧ c ≠ 1 ∧ c ≠ 2 ∧ c ≠ c%'\\' := by
  have := forall_byte_of_all (p := fun c => decide (EndsWord c → inString c = false ∧ c ≠ 1 ∧ c ≠ 2 ∧ c ≠ c%'\\')) (by decide +kernel) c
  exact (of_decide_eq_true this) h

theorem endsNumber_out (c : UInt8) (h : EndsNumber c) : isDigit c = false ∧ endsNumber c = true ∧ c ≠ 1 ∧ c ≠ 2 ∧ c ≠ c%'\\' := by
  have := forall_byte_of_all (p := fun c => decide (EndsNumber c → isDigit c = false ∧ endsNumber c = true ∧ c ≠ 1 ∧ c ≠ 2 ∧ c ≠ c%'\\')) (by decide +kernel) c
  exact (of_decide_eq_true this) h

/-- in a word or after it, only what EndsNumber has ends a number -/
theorem endsNumber_iff (c : UInt8) (h : WordChar c ∨ EndsWord c) : endsNumber c = true ↔ EndsNumber c := by
  have := forall_byte_of_all (p := fun c => decide (WordChar c ∨ EndsWord c → (endsNumber c = true ↔ EndsNumber c))) (by decide +kernel) c
  exact (of_decide_eq_true this) h

theorem isDigit_Digit (c : UInt8) : isDigit c = true ↔ Digit c := by
  have := forall_byte_of_all (p := fun c => decide (isDigit c = true ↔ Digit c)) (by decide +kernel) c
  exact of_decide_eq_true this

theorem digit_plain (c : UInt8) (h : Digit c) : isDigit c = true ∧ c ≠ 1 ∧ c ≠ 2 ∧ c ≠ c%'\\' := by
  have := forall_byte_of_all (p := fun c => decide (Digit c → isDigit c = true ∧ c ≠ 1 ∧ c ≠ 2 ∧ c ≠ c%'\\')) (by decide +kernel) c
  exact (of_decide_eq_true this) h

/-- the first character of a word, for yylex -/
def FirstOk (c : UInt8) : Prop :=
  (c ≠ 1 ∧ c ≠ 2) ∧ (c ≠ c%' ' ∧ c ≠ c%'\t' ∧ c ≠ c%'\\') ∧ c ≠ c%'#' ∧ c ≠ c%'$' ∧ c ≠ c%'@'

instance (c : UInt8) : Decidable (FirstOk c) := by unfold FirstOk; infer_instance

theorem wordStart_ok (c : UInt8) (h : WordStart c) :
    FirstOk c ∧ ¬ (c = c%'\'' ∨ c = c%'"') ∧ c ≠ c%'-' ∧ (isAlnum c || c = c%':' || c = c%'_') = true ∧ c ≠ 0 := by
  have := forall_byte_of_all (p := fun c => decide (WordStart c →
    FirstOk c ∧ ¬ (c = c%'\'' ∨ c = c%'"') ∧ c ≠ c%'-' ∧ (isAlnum c || c = c%':' || c = c%'_') = true ∧ c ≠ 0)) (by decide +kernel) c
  exact (of_decide_eq_true this) h

theorem digit_ok (c : UInt8) (h : Digit c) : FirstOk c ∧ ¬ (c = c%'\'' ∨ c = c%'"') ∧ c ≠ c%'-' ∧ WordStart c := by
  have := forall_byte_of_all (p := fun c => decide (Digit c → FirstOk c ∧ ¬ (c = c%'\'' ∨ c = c%'"') ∧ c ≠ c%'-' ∧ WordStart c)) (by decide +kernel) c
  exact (of_decide_eq_true this) h

/-- what yylex does after the blanks, when there are no comments or macros -/
theorem yylex_first (bs : Bytes) (hb : Blank bs) (c : UInt8) (r : Bytes) (hc : FirstOk c) (l : Lex) (ho : l.outer = []) (hl : eff l = bs ++ c :: r) :
    ∃ l1, EffTo l l1 r ∧ yylex l = lexSwitch (some c) l1 := by
  have hw := eff_length l ho
  rw [hl] at hw
  obtain ⟨l1, k0, k1⟩ := eff_blanks bs hb c r hc.1 hc.2.1 (l.weight + 1) l hl (by simp at hw; omega)
  refine ⟨l1, k1, ?_⟩
  have e1 : ¬ (some c = some c%'#') := by simpa using hc.2.2.1
  have e2 : ¬ (some c = some c%'$' ∧ l1.expanding = false) := by rintro ⟨h, _⟩; exact hc.2.2.2.1 (by simpa using h)
  have e3 : ¬ (some c = some c%'@' ∧ l1.expanding = false) := by rintro ⟨h, _⟩; exact hc.2.2.2.2 (by simpa using h)
  rw [yylex, yylexN, k0]
  simp only [if_neg e1, if_neg e2, if_neg e3]

theorem readWord_eff (c : UInt8) (w : Bytes) (next : UInt8) (r : Bytes) (hw : ∀ d ∈ w, WordChar d) (hn : EndsWord next) (hlen : w.length ≤ 8094)
    (l : Lex) (ho : l.outer = []) (hl : eff l = w ++ next :: r) :
    ∃ l1, readWord c l = .tok (match lookupKw (c :: w) with | some t => .kw t | none => .str (c :: w)) l1 ∧ EffTo l l1 (next :: r) := by
  have he := eff_length l ho
  rw [hl] at he
  obtain ⟨l1, k0, k1⟩ := eff_readWhile inString w (fun d hd => wordChar_inString d (hw d hd)) next (endsWord_out next hn) r (l.weight + 2) [] c l hl
    (by simp at he; omega) (by simp; omega)
  refine ⟨l1, ?_, k1⟩
  rw [readWord, k0]
  simp only [List.nil_append]
  rw [if_pos (by simp only [bufSize, List.length_cons]; omega)]
  cases lookupKw (c :: w) <;> rfl

theorem span_digits (s : Bytes) : ∃ ds r, s = ds ++ r ∧ (∀ x ∈ ds, Digit x) ∧ ∀ d r', r = d :: r' → ¬ Digit d := by
  induction s with
  | nil => exact ⟨[], [], rfl, by simp, by simp⟩
  | cons c s ih =>
    by_cases h : Digit c
    · obtain ⟨ds, r, e, h1, h2⟩ := ih
      exact ⟨c :: ds, r, by rw [e]; rfl, by simpa using ⟨h, h1⟩, h2⟩
    · exact ⟨[], c :: s, rfl, by simp, by rintro d r' e; cases e; exact h⟩

/-- a word, or a keyword -/
theorem word_eff (c : UInt8) (w : Bytes) (next : UInt8) (r : Bytes) (hc : WordStart c) (hw : ∀ d ∈ w, WordChar d) (hn : EndsWord next)
    (hlen : w.length ≤ 8094)
    (hd : ∀ ds d r, c :: w ++ [next] = ds ++ d :: r → ds ≠ [] → (∀ x ∈ ds, Digit x) → ¬ Digit d → ¬ EndsNumber d)
    (l : Lex) (ho : l.outer = []) (hl : eff l = w ++ next :: r) :
    ∃ l1, lexSwitch (some c) l = .tok (match lookupKw (c :: w) with | some t => .kw t | none => .str (c :: w)) l1 ∧ EffTo l l1 (next :: r) := by
  have hcs := wordStart_ok c hc
  have hrest : ∀ l', lexRest (some c) l' = readWord c l' := by
    intro l'; simp only [lexRest]; rw [if_pos hcs.2.2.2.1]
  have hnext : ¬ Digit next := by
    intro h
    have := forall_byte_of_all (p := fun c => decide (EndsWord c → ¬ Digit c)) (by decide +kernel) next
    exact (of_decide_eq_true this) hn h
  by_cases hdig : Digit c
  · -- what looks like a number is read, and put back
    obtain ⟨ds, q, e, h1, h2⟩ := span_digits w
    obtain ⟨d, q', e', h3⟩ : ∃ d q', q ++ next :: r = d :: q' ∧ ¬ Digit d ∧ ∃ q'', q ++ [next] = d :: q'' := by
      cases q with
      | nil => exact ⟨next, r, rfl, hnext, [], rfl⟩
      | cons d q => exact ⟨d, q ++ next :: r, rfl, h2 d q rfl, q ++ [next], rfl⟩
    obtain ⟨h3, q'', e''⟩ := h3
    have hdE := hd (c :: ds) d q'' (by rw [e]; simp [e'']) (by simp) (by simpa using ⟨hdig, h1⟩) h3
    have hdW : WordChar d ∨ EndsWord d := by
      cases q with
      | nil => simp at e''; right; rw [← e''.1]; exact hn
      | cons x q => simp at e''; left; rw [← e''.1]; exact hw x (by rw [e]; simp)
    have hdp : isDigit d = false ∧ d ≠ 1 ∧ d ≠ 2 ∧ d ≠ c%'\\' := by
      refine ⟨by rw [Bool.eq_false_iff]; intro hh; exact h3 ((isDigit_Digit d).1 hh), ?_⟩
      rcases hdW with h | h
      · exact (wordChar_inString d h).2
      · exact (endsWord_out d h).2
    have he := eff_length l ho
    have hl2 : eff l = ds ++ d :: q' := by rw [hl, e, List.append_assoc, e']
    rw [hl2] at he
    have hlen2 : ds.length ≤ w.length := by rw [e]; simp
    obtain ⟨l1, k0, k1⟩ := eff_readWhile isDigit ds (fun x hx => digit_plain x (h1 x hx)) d hdp q' (l.weight + 2) [] c l hl2
      (by simp at he; omega) (by simp; omega)
    have k2 := k1.trans (eff_lungetAll ds l1)
    rw [k1.eff] at k2
    have hl3 : eff (lungetAll ds l1) = w ++ next :: r := by rw [k2.eff, ← hl2, hl]
    obtain ⟨l4, j0, j1⟩ := readWord_eff c w next r hw hn hlen (lungetAll ds l1) (k2.outer.trans ho) hl3
    refine ⟨l4, ?_, k2.trans j1⟩
    have hsw : lexSwitch (some c) l = readNumber c l := by
      simp only [lexSwitch, if_neg hcs.2.1]
      rw [if_pos (Or.inr ((isDigit_Digit c).2 hdig))]
    have hne : ¬ (c :: ds ≠ [c%'-'] ∧ (Option.map endsNumber (some d)).getD true = true) := by
      rintro ⟨_, h⟩
      simp only [Option.map_some, Option.getD_some] at h
      exact hdE ((endsNumber_iff d hdW).1 h)
    rw [hsw, readNumber, k0]
    simp only [List.nil_append]
    rw [if_neg hne, if_neg hcs.2.2.1, hrest, j0]
  · have hsw : lexSwitch (some c) l = readWord c l := by
      simp only [lexSwitch, if_neg hcs.2.1]
      rw [if_neg (by rintro (h | h); exact hcs.2.2.1 h; exact hdig ((isDigit_Digit c).1 h)), hrest]
    rw [hsw]
    exact readWord_eff c w next r hw hn hlen l ho hl

/-- a number -/
theorem number_eff (c : UInt8) (ds : Bytes) (next : UInt8) (r : Bytes) (v : Int) (hc : c = c%'-' ∧ ds ≠ [] ∨ Digit c) (hd : ∀ d ∈ ds, Digit d)
    (hn : EndsNumber next) (hlen : ds.length ≤ 8093) (hv : numToken (c :: ds) = some v)
    (l : Lex) (ho : l.outer = []) (hl : eff l = ds ++ next :: r) :
    ∃ l1, lexSwitch (some c) l = .tok (.num v) l1 ∧ EffTo l l1 (next :: r) := by
  have he := eff_length l ho
  rw [hl] at he
  obtain ⟨n1, n2, n3, n4, n5⟩ := endsNumber_out next hn
  obtain ⟨l1, k0, k1⟩ := eff_readWhile isDigit ds (fun x hx => digit_plain x (hd x hx)) next ⟨n1, n3, n4, n5⟩ r (l.weight + 2) [] c l hl
    (by simp at he; omega) (by simp; omega)
  refine ⟨l1, ?_, k1⟩
  have hq : ¬ (c = c%'\'' ∨ c = c%'"') := by
    rcases hc with ⟨rfl, _⟩ | h
    · decide
    · exact (digit_ok c h).2.1
  have hsw : lexSwitch (some c) l = readNumber c l := by
    simp only [lexSwitch, if_neg hq]
    rw [if_pos]
    rcases hc with ⟨rfl, _⟩ | h
    · exact Or.inl rfl
    · exact Or.inr ((isDigit_Digit c).2 h)
  have hne : c :: ds ≠ [c%'-'] ∧ (Option.map endsNumber (some next)).getD true = true := by
    refine ⟨?_, by simpa using n2⟩
    rcases hc with ⟨rfl, h⟩ | h
    · simpa using h
    · intro e; cases e; exact (digit_ok _ h).2.2.1 rfl
  rw [hsw, readNumber, k0]
  simp only [List.nil_append]
  rw [if_pos hne, if_pos (by simp only [bufSize, List.length_cons]; omega), hv]

theorem keyword_shape : ∀ k ∈ keywords, ∃ c w, k.1 = c :: w ∧ WordStart c ∧ ¬ Digit c ∧ (∀ d ∈ w, WordChar d) ∧ w.length ≤ 8094 := by
  have : keywords.all (fun k => match k.1 with
    | c :: w => decide (WordStart c ∧ ¬ Digit c ∧ (∀ d ∈ w, WordChar d) ∧ w.length ≤ 8094)
    | [] => false) = true := by decide +kernel
  intro k hk
  have := List.all_eq_true.1 this k hk
  cases hk1 : k.1 with
  | nil => rw [hk1] at this; simp at this
  | cons c w => rw [hk1] at this; exact ⟨c, w, rfl, of_decide_eq_true this⟩

/-- **one token.** -/
theorem written_eff {w : Bytes} {t : Tok} {next : UInt8} (h : Written w t next) (bs : Bytes) (hb : Blank bs) (r : Bytes) (l : Lex) (ho : l.outer = [])
    (hl : eff l = bs ++ w ++ next :: r) : ∃ l1, yylex l = .tok t l1 ∧ EffTo l l1 (next :: r) := by
  cases h with
  | quoted q t s _ hq hs hlen =>
    obtain ⟨l1, k1, k2⟩ := yylex_first bs hb q (t ++ q :: (next :: r)) (by rcases hq with rfl | rfl <;> decide) l ho
      (by rw [hl]; simp)
    -- the closing quote comes before the end of the file
    obtain ⟨rest', e1, e2⟩ : ∃ rest', l1.file.flat = t ++ q :: rest' ∧ rest' ++ (if l1.file.eofReached then [] else [10]) = next :: r := by
      have := k1.eff
      rw [eff] at this
      cases hx : l1.file.eofReached with
      | true => rw [hx] at this; exact ⟨next :: r, by simpa using this, by simp⟩
      | false =>
        rw [hx] at this
        simp only [Bool.false_eq_true, if_false] at this
        obtain ⟨x, y, e⟩ : ∃ x y, next :: r = x ++ [y] := ⟨(next :: r).dropLast, (next :: r).getLast (by simp), (List.dropLast_concat_getLast (by simp)).symm⟩
        rw [e] at this
        have h2 : l1.file.flat ++ [10] = (t ++ q :: x) ++ [y] := by rw [this]; simp
        have h3 := List.append_inj' h2 rfl
        refine ⟨x, h3.1, ?_⟩
        simp only [Bool.false_eq_true, if_false]
        rw [e, h3.2]
    have hw := flat_weight l1
    obtain ⟨l2, j0, j1⟩ := readInQuotes_spec q hq t s hs rest' (l1.weight + 1) [] l1 e1
      (by rw [e1, List.length_append] at hw; omega) (by simpa using hlen)
    refine ⟨l2, ?_, ?_⟩
    · rw [k2]; simp only [lexSwitch, if_pos hq, j0, List.nil_append]
    · have := k1.trans (eff_of_read j1)
      rw [e2] at this
      exact this
  | word c w _ hc hw hlen hn hk hd =>
    obtain ⟨l1, k1, k2⟩ := yylex_first bs hb c (w ++ next :: r) (wordStart_ok c hc).1 l ho (by rw [hl]; simp)
    obtain ⟨l2, j1, j2⟩ := word_eff c w next r hc hw hn hlen hd l1 (k1.outer.trans ho) k1.eff
    refine ⟨l2, ?_, k1.trans j2⟩
    have : lookupKw (c :: w) = none := by
      cases e : lookupKw (c :: w) with
      | none => rfl
      | some t => exact absurd ((C44_lookup _ t).1 e) (hk t)
    rw [k2, j1, this]
  | keyword w t _ hk hn =>
    obtain ⟨c, w', e, h1, h2, h3, h4⟩ := keyword_shape (w, t) hk
    dsimp only at e
    subst e
    obtain ⟨l1, k1, k2⟩ := yylex_first bs hb c (w' ++ next :: r) (wordStart_ok c h1).1 l ho (by rw [hl]; simp)
    have hd : ∀ ds d r, c :: w' ++ [next] = ds ++ d :: r → ds ≠ [] → (∀ x ∈ ds, Digit x) → ¬ Digit d → ¬ EndsNumber d := by
      intro ds d r e h0 hds
      cases ds with
      | nil => exact absurd rfl h0
      | cons x ds => simp at e; exact absurd (hds x (by simp)) (by rw [← e.1]; exact h2)
    obtain ⟨l2, j1, j2⟩ := word_eff c w' next r h1 h3 hn h4 hd l1 (k1.outer.trans ho) k1.eff
    refine ⟨l2, ?_, k1.trans j2⟩
    rw [k2, j1, (C44_lookup _ t).2 hk]
  | number _ _ h0 hd hlen hv hn =>
    cases w with
    | nil => exact absurd rfl h0
    | cons c ds =>
      obtain ⟨l1, k1, k2⟩ := yylex_first bs hb c (ds ++ next :: r) (digit_ok c (hd c (by simp))).1 l ho (by rw [hl]; simp)
      obtain ⟨l2, j1, j2⟩ := number_eff c ds next r (decValue (c :: ds)) (Or.inr (hd c (by simp))) (fun d h => hd d (by simp [h])) hn
        (by simp at hlen; omega)
        (numToken_int (v := decValue (c :: ds)) ⟨[], [], c :: ds, rfl, by simp, by simp, fun d h => hd d h, Or.inl ⟨Or.inl rfl, rfl⟩⟩ (by omega) (by omega))
        l1 (k1.outer.trans ho) k1.eff
      exact ⟨l2, by rw [k2, j1], k1.trans j2⟩
  | negative ds _ h0 hd hlen hv hn =>
    obtain ⟨l1, k1, k2⟩ := yylex_first bs hb c%'-' (ds ++ next :: r) (by decide) l ho (by rw [hl]; simp)
    obtain ⟨l2, j1, j2⟩ := number_eff c%'-' ds next r (- (decValue ds : Int)) (Or.inl ⟨rfl, h0⟩) hd hn hlen
      (numToken_int (v := - (decValue ds : Int)) ⟨[], [45], ds, rfl, by simp, h0, fun d h => hd d h, Or.inr ⟨rfl, rfl⟩⟩ (by omega) (by omega))
      l1 (k1.outer.trans ho) k1.eff
    exact ⟨l2, by rw [k2, j1], k1.trans j2⟩
  | symbol c _ h =>
    have hc : FirstOk c ∧ ¬ (c = c%'\'' ∨ c = c%'"') ∧ ¬ (c = c%'-' ∨ isDigit c = true) ∧ ¬ ((isAlnum c || c = c%':' || c = c%'_') = true) ∧ c ≠ 0 := by
      have := forall_byte_of_all (p := fun c => decide (c ∈ b%"{}=*;\n,()!" → FirstOk c ∧ ¬ (c = c%'\'' ∨ c = c%'"') ∧ ¬ (c = c%'-' ∨ isDigit c = true) ∧
        ¬ ((isAlnum c || c = c%':' || c = c%'_') = true) ∧ c ≠ 0)) (by decide +kernel) c
      exact (of_decide_eq_true this) h
    obtain ⟨l1, k1, k2⟩ := yylex_first bs hb c (next :: r) hc.1 l ho (by rw [hl]; simp)
    refine ⟨l1, ?_, k1⟩
    rw [k2]
    simp only [lexSwitch, if_neg hc.2.1, if_neg hc.2.2.1, lexRest, if_neg hc.2.2.2.1, if_neg hc.2.2.2.2]

/-- **a whole text.** -/
theorem text_eff {txt : Bytes} {ts : List Tok} (h : Text txt ts) (l : Lex) (ho : l.outer = []) (hl : eff l = txt ++ [10]) (n : Nat)
    (hn : ts.length + 2 ≤ n) : lexAll n l = ts ++ [.chr c%'\n', .eof] := by
  induction h generalizing l n with
  | done bs hb =>
    obtain ⟨n, rfl⟩ : ∃ m, n = m + 2 := ⟨n - 2, by simp at hn; omega⟩
    obtain ⟨l1, k1, k2⟩ := yylex_first bs hb 10 [] (by decide) l ho hl
    have e1 : yylex l = .tok (.chr c%'\n') l1 := by rw [k2]; rfl
    have e2 : yylex l1 = .tok .eof l1 := by
      have := eff_eof k1.eff (k1.outer.trans ho)
      rw [yylex, yylexN, skipBlanks_succ, this]
      simp [lexSwitch, lexRest]
    simp [lexAll, e1, e2]
  | tok bs w rest t ts hb hw h ih =>
    obtain ⟨n, rfl⟩ : ∃ m, n = m + 1 := ⟨n - 1, by simp at hn; omega⟩
    obtain ⟨r, hr⟩ : ∃ r, rest ++ [10] = rest.headD c%'\n' :: r := by
      cases rest with
      | nil => exact ⟨[], rfl⟩
      | cons x r => exact ⟨r ++ [10], rfl⟩
    obtain ⟨l1, k0, k1⟩ := written_eff hw bs hb r l ho (by rw [hl, List.append_assoc, hr])
    have ht : t ≠ .eof := by rintro rfl; cases hw
    have := ih l1 (k1.outer.trans ho) (by rw [k1.eff, hr]) n (by simp at hn; omega)
    rw [lexAll, k0]
    cases t with
    | eof => exact absurd rfl ht
    | _ => simp [this]
  | comment bs c rest ts hb hc h ih =>
    obtain ⟨n, rfl⟩ : ∃ m, n = m + 1 := ⟨n - 1, by simp at hn; omega⟩
    have hw := eff_length l ho
    rw [hl] at hw
    obtain ⟨l1, k0, k1⟩ := eff_blanks bs hb c%'#' (c ++ c%'\n' :: (rest ++ [10])) (by decide) (by decide) (l.weight + 1) l (by rw [hl]; simp)
      (by simp at hw; omega)
    have hw1 := eff_length l1 (k1.outer.trans ho)
    rw [k1.eff] at hw1
    obtain ⟨l2, j0, j1⟩ := eff_comment c hc (rest ++ [10]) (l1.weight + 1) l1 k1.eff (by simp at hw1; omega)
    have e1 : yylex l = .tok (.chr c%'\n') l2 := by
      rw [yylex, yylexN, k0]
      simp [j0, lexSwitch, lexRest, isDigit, isAlnum, isAlpha, isUpper, isLower]
    have := ih l2 (j1.outer.trans (k1.outer.trans ho)) j1.eff n (by simp at hn; omega)
    rw [lexAll, e1]
    simp [this]

end Gmid.Props
