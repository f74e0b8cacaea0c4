import Verif.Model.Iri
import Verif.Spec.Path

set_option autoImplicit false

namespace Gmid
open Spec

/-! ### memory to zipper -/

def isDotDot (r : Bytes) : Bool :=
  hd r == 46 && (hd r.tail == 46 && (hd r.tail.tail == 47 || hd r.tail.tail == 0))
def isDot (r : Bytes) : Bool := hd r == 46 && (hd r.tail == 47 || hd r.tail == 0)
def skipZ (r : Bytes) : Bytes := if hd r = 47 then r.tail else r

/-- zipper version of `popLoop`, on the reversed output -/
def popRev : Bytes → Bytes
  | [] => []
  | c :: r => if c = 47 then r else popRev r

def zstep (out rest : Bytes) : Bytes × Bytes :=
  if out = [] ∧ hd rest = 47 then ([], rest.tail)
  else if out = [] ∧ isDotDot rest then ([], skipZ (rest.drop 2))
  else if out = [] ∧ isDot rest then ([], skipZ (rest.drop 1))
  else if hd rest = 47 ∧ hd rest.tail = 47 then (out, rest.tail)
  else if hd rest = 47 ∧ isDotDot rest.tail then
    let out' := (popRev out.reverse).reverse
    (out', if out' = [] then skipZ (rest.drop 3) else rest.drop 3)
  else if hd rest = 47 ∧ isDot rest.tail then (out, rest.drop 2)
  else (out ++ [hd rest], rest.tail)

def zloop : Nat → Bytes → Bytes → Bytes
  | 0, out, _ => out
  | n + 1, out, rest =>
    match rest with
    | [] => out
    | _ => zloop n (zstep out rest).1 (zstep out rest).2

/-- at offset `p` of `m` lies the C string `rest` -/
def View (m : Bytes) (p : Nat) (rest : Bytes) : Prop :=
  (∃ tail, m.drop p = rest ++ 0 :: tail) ∧ (0 : UInt8) ∉ rest

theorem View.get {m : Bytes} {p : Nat} {rest : Bytes} (h : View m p rest) : m[p]? = some (hd rest) := by
  obtain ⟨⟨t, ht⟩, -⟩ := h
  have : m[p]? = (m.drop p)[0]? := by simp
  rw [this, ht]
  cases rest <;> simp

theorem View.eqAt {m : Bytes} {p : Nat} {rest : Bytes} (h : View m p rest) (c : UInt8) : eqAt m p c = some (hd rest == c) := by
  simp [Gmid.eqAt, h.get]

theorem View.next {m : Bytes} {p : Nat} {rest : Bytes} (h : View m p rest) (hne : rest ≠ []) : View m (p + 1) rest.tail := by
  obtain ⟨⟨t, ht⟩, h0⟩ := h
  cases rest with
  | nil => exact absurd rfl hne
  | cons c r =>
    refine ⟨⟨t, ?_⟩, fun hh => h0 (List.mem_cons_of_mem _ hh)⟩
    rw [← List.drop_drop, ht]; simp

theorem View.hd_ne {m : Bytes} {p : Nat} {rest : Bytes} (h : View m p rest) (hne : rest ≠ []) : hd rest ≠ 0 := by
  cases rest with
  | nil => exact absurd rfl hne
  | cons c r => intro hc; apply h.2; simp at hc; simp [hc]

theorem ne_nil_of_hd {rest : Bytes} {c : UInt8} (h : hd rest = c) (hc : c ≠ 0) : rest ≠ [] := by
  rintro rfl; exact hc h.symm

theorem View.dotdot {m : Bytes} {p : Nat} {rest : Bytes} (h : View m p rest) :
    andC (Gmid.eqAt m p 46) (andC (Gmid.eqAt m (p + 1) 46)
      (orC (Gmid.eqAt m (p + 2) 47) (Gmid.eqAt m (p + 2) 0))) = some (isDotDot rest) := by
  unfold isDotDot
  rw [h.eqAt]
  by_cases h1 : hd rest = 46
  · have v1 := h.next (ne_nil_of_hd h1 (by decide))
    rw [v1.eqAt]
    by_cases h2 : hd rest.tail = 46
    · have v2 := v1.next (ne_nil_of_hd h2 (by decide))
      rw [v2.eqAt, v2.eqAt]
      simp only [h1, h2]
      cases (hd rest.tail.tail == 47) <;> simp [andC, orC]
    · have : (hd rest.tail == 46) = false := by simpa using h2
      simp [h1, this, andC]
  · have : (hd rest == 46) = false := by simpa using h1
    simp [this, andC]

theorem View.dot {m : Bytes} {p : Nat} {rest : Bytes} (h : View m p rest) :
    andC (Gmid.eqAt m p 46)
      (orC (Gmid.eqAt m (p + 1) 47) (Gmid.eqAt m (p + 1) 0)) = some (isDot rest) := by
  unfold isDot
  rw [h.eqAt]
  by_cases h1 : hd rest = 46
  · have v1 := h.next (ne_nil_of_hd h1 (by decide))
    rw [v1.eqAt, v1.eqAt]
    simp only [h1]
    cases (hd rest.tail == 47) <;> simp [andC, orC]
  · have : (hd rest == 46) = false := by simpa using h1
    simp [this, andC]

theorem View.skip {m : Bytes} {p : Nat} {rest : Bytes} (h : View m p rest) :
    ∃ p', skipSlash m p = some p' ∧ p ≤ p' ∧ View m p' (skipZ rest) := by
  unfold skipSlash skipZ
  rw [h.eqAt]
  by_cases h1 : hd rest = 47
  · exact ⟨p + 1, by simp [h1], by omega, by rw [if_pos h1]; exact h.next (ne_nil_of_hd h1 (by decide))⟩
  · exact ⟨p, by simp [h1], by omega, by rw [if_neg h1]; exact h⟩

theorem isDot_ne {r : Bytes} (h : isDot r = true) : r ≠ [] := by
  rintro rfl; simp [isDot] at h

theorem isDotDot_ne {r : Bytes} (h : isDotDot r = true) : r ≠ [] ∧ r.tail ≠ [] := by
  constructor
  · rintro rfl; simp [isDotDot] at h
  · intro h2; rw [isDotDot, h2] at h; simp at h

theorem popLoop_eq (m out : Bytes) (q : Nat) (hq : q ≤ m.length) (ho : m.take q = out) :
    ∃ q', popLoop m q = some q' ∧ q' ≤ q ∧ m.take q' = (popRev out.reverse).reverse := by
  induction q generalizing out with
  | zero => refine ⟨0, rfl, Nat.le_refl _, ?_⟩; simp at ho; subst ho; simp [popRev]
  | succ q ih =>
    have hlt : q < m.length := by omega
    have hg : m[q]? = some m[q] := List.getElem?_eq_getElem hlt
    have : out = m.take q ++ [m[q]] := by
      rw [← ho, List.take_succ_eq_append_getElem hlt]
    subst this
    simp only [popLoop, hg, List.reverse_append, List.reverse_cons, List.reverse_nil, List.nil_append,
      List.cons_append, popRev]
    by_cases hc : m[q] = 47
    · rw [if_pos hc, if_pos hc]
      exact ⟨q, rfl, by omega, by simp⟩
    · rw [if_neg hc, if_neg hc]
      obtain ⟨q', e1, e2, e3⟩ := ih (m.take q) (by omega) rfl
      exact ⟨q', e1, by omega, e3⟩

theorem length_pos_of_ne {α} {l : List α} (h : l ≠ []) : 0 < l.length := List.length_pos_iff.2 h

theorem drop2 (r : Bytes) : r.drop 2 = r.tail.tail := by
  rcases r with _ | ⟨_, _ | ⟨_, r⟩⟩ <;> rfl
theorem drop3 (r : Bytes) : r.drop 3 = r.tail.tail.tail := by
  rcases r with _ | ⟨_, _ | ⟨_, _ | ⟨_, r⟩⟩⟩ <;> rfl

/-- relation between memory state and zipper -/
structure Rel (m : Bytes) (p q : Nat) (out rest : Bytes) : Prop where
  view : View m p rest
  hout : m.take q = out
  qp : q ≤ p
  len : out.length = q
  nz : (0 : UInt8) ∉ out

theorem Rel.p_lt {m : Bytes} {p q : Nat} {out rest : Bytes} (h : Rel m p q out rest) : p < m.length := by
  obtain ⟨⟨t, ht⟩, -⟩ := h.view
  have : (m.drop p).length = (rest ++ 0 :: t).length := by rw [ht]
  simp at this; omega

theorem popRev_sub (l : Bytes) : ∀ x ∈ popRev l, x ∈ l := by
  induction l with
  | nil => simp [popRev]
  | cons c r ih =>
    intro x hx
    unfold popRev at hx
    split at hx
    · exact List.mem_cons_of_mem _ hx
    · exact List.mem_cons_of_mem _ (ih x hx)

theorem step_refines {m : Bytes} {p q : Nat} {out rest : Bytes} (h : Rel m p q out rest) (hne : rest ≠ []) :
    ∃ m' p' q', pathCleanStep m p q = some (m', p', q') ∧ m'.length = m.length ∧
      Rel m' p' q' (zstep out rest).1 (zstep out rest).2 := by
  have hv := h.view
  have hq0 : (q == 0) = decide (out = []) := by
    rw [← h.len]; cases out <;> simp
  have vt := hv.next hne
  have ddtail : andC (eqAt m p 47) (andC (eqAt m (p + 1) 46) (andC (eqAt m (p + 2) 46)
      (orC (eqAt m (p + 3) 47) (eqAt m (p + 3) 0)))) = some (hd rest == 47 && isDotDot rest.tail) := by
    rw [hv.eqAt, show andC (eqAt m (p + 1) 46) (andC (eqAt m (p + 2) 46)
      (orC (eqAt m (p + 3) 47) (eqAt m (p + 3) 0))) = some (isDotDot rest.tail) from vt.dotdot]
    cases hd rest == 47 <;> simp [andC]
  have dtail : andC (eqAt m p 47) (andC (eqAt m (p + 1) 46) (orC (eqAt m (p + 2) 47) (eqAt m (p + 2) 0)))
      = some (hd rest == 47 && isDot rest.tail) := by
    rw [hv.eqAt, show andC (eqAt m (p + 1) 46) (orC (eqAt m (p + 2) 47) (eqAt m (p + 2) 0)) =
      some (isDot rest.tail) from vt.dot]
    cases hd rest == 47 <;> simp [andC]
  have c1 : andC (some (q == 0)) (eqAt m p 47) = some (decide (out = [] ∧ hd rest = 47)) := by
    rw [hv.eqAt, hq0]; by_cases ho : out = [] <;> simp [andC, ho, BEq.beq]
  have c2 : andC (some (q == 0)) (andC (eqAt m p 46) (andC (eqAt m (p + 1) 46)
      (orC (eqAt m (p + 2) 47) (eqAt m (p + 2) 0)))) = some (decide (out = [] ∧ isDotDot rest)) := by
    rw [hv.dotdot, hq0]; by_cases ho : out = [] <;> simp [andC, ho]
  have c3 : andC (some (q == 0)) (andC (eqAt m p 46) (orC (eqAt m (p + 1) 47) (eqAt m (p + 1) 0)))
      = some (decide (out = [] ∧ isDot rest)) := by
    rw [hv.dot, hq0]; by_cases ho : out = [] <;> simp [andC, ho]
  have c4 : andC (eqAt m p 47) (eqAt m (p + 1) 47) = some (decide (hd rest = 47 ∧ hd rest.tail = 47)) := by
    rw [hv.eqAt, vt.eqAt]; by_cases ho : hd rest = 47 <;> simp [andC, ho, BEq.beq]
  unfold pathCleanStep
  simp only [c1, c2, c3, c4, ddtail, dtail]
  unfold zstep
  by_cases k1 : out = [] ∧ hd rest = 47
  · simp only [k1, and_self, if_true, decide_true]
    obtain ⟨rfl, k1⟩ := k1
    exact ⟨m, p + 1, q, rfl, rfl, ⟨vt, h.hout, by have := h.qp; omega, h.len, h.nz⟩⟩
  simp only [if_neg k1, decide_eq_false k1]
  by_cases k2 : out = [] ∧ isDotDot rest
  · obtain ⟨rfl, k2⟩ := k2
    simp only [k2, and_self, if_true, decide_true]
    have v2 := vt.next (isDotDot_ne k2).2
    obtain ⟨p', e1, e2, e3⟩ := v2.skip
    refine ⟨m, p', q, by simp [e1], rfl, ⟨?_, h.hout, by have := h.qp; omega, h.len, h.nz⟩⟩
    rw [drop2]; exact e3
  simp only [if_neg k2, decide_eq_false k2]
  by_cases k3 : out = [] ∧ isDot rest
  · obtain ⟨rfl, k3⟩ := k3
    simp only [k3, and_self, if_true, decide_true]
    obtain ⟨p', e1, e2, e3⟩ := vt.skip
    refine ⟨m, p', q, by simp [e1], rfl, ⟨?_, h.hout, by have := h.qp; omega, h.len, h.nz⟩⟩
    simpa using e3
  simp only [if_neg k3, decide_eq_false k3]
  by_cases k4 : hd rest = 47 ∧ hd rest.tail = 47
  · simp only [if_pos k4, decide_eq_true k4]
    exact ⟨m, p + 1, q, rfl, rfl, ⟨vt, h.hout, by have := h.qp; omega, h.len, h.nz⟩⟩
  simp only [if_neg k4, decide_eq_false k4]
  by_cases k5 : hd rest = 47 ∧ isDotDot rest.tail
  · have k5' : (hd rest == 47 && isDotDot rest.tail) = true := by simp [k5.1, k5.2]
    simp only [if_pos k5, k5']
    have v2 := vt.next (isDotDot_ne k5.2).1
    have v3 := v2.next (isDotDot_ne k5.2).2
    obtain ⟨q', e1, e2, e3⟩ := popLoop_eq m out q (by have := h.p_lt; have := h.qp; omega) h.hout
    simp only [e1]
    have lenq : ((popRev out.reverse).reverse).length = q' := by
      rw [← e3, List.length_take]; have := h.p_lt; have := h.qp; omega
    have nz' : (0 : UInt8) ∉ (popRev out.reverse).reverse := by
      intro hh; apply h.nz
      rw [List.mem_reverse] at hh
      have := popRev_sub _ _ hh
      simpa using this
    have hq0' : (q' == 0) = decide ((popRev out.reverse).reverse = []) := by
      rw [← lenq]; cases (popRev out.reverse).reverse <;> simp
    by_cases k6 : (popRev out.reverse).reverse = []
    · rw [hq0']
      simp only [k6, decide_true, if_true]
      rw [show eqAt m (p + 3) 47 = some (hd rest.tail.tail.tail == 47) from v3.eqAt 47]
      by_cases k7 : hd rest.tail.tail.tail = 47
      · refine ⟨m, p + 4, q', by simp [andC, k7], rfl, ⟨?_, by rw [e3, k6], by have := h.qp; omega,
          by rw [← lenq, k6], by simp⟩⟩
        have v4 := v3.next (ne_nil_of_hd k7 (by decide))
        rw [drop3, skipZ, if_pos k7]
        exact v4
      · have k7b : (hd rest.tail.tail.tail == 47) = false := by simpa using k7
        refine ⟨m, p + 3, q', by simp [andC, k7b], rfl, ⟨?_, by rw [e3, k6], by have := h.qp; omega,
          by rw [← lenq, k6], by simp⟩⟩
        rw [drop3, skipZ, if_neg k7]
        exact v3
    · rw [hq0']
      simp only [k6, decide_false, if_false, andC]
      refine ⟨m, p + 3, q', rfl, rfl, ⟨?_, e3, by have := h.qp; omega, lenq, nz'⟩⟩
      rw [drop3]
      exact v3
  have k5' : (hd rest == 47 && isDotDot rest.tail) = false := by
    cases hh : (hd rest == 47 && isDotDot rest.tail)
    · rfl
    · simp at hh; exact absurd hh k5
  simp only [if_neg k5, k5']
  by_cases k6 : hd rest = 47 ∧ isDot rest.tail
  · have k6' : (hd rest == 47 && isDot rest.tail) = true := by simp [k6.1, k6.2]
    simp only [if_pos k6, k6']
    have v2 := vt.next (isDot_ne k6.2)
    refine ⟨m, p + 2, q, rfl, rfl, ⟨?_, h.hout, by have := h.qp; omega, h.len, h.nz⟩⟩
    rw [drop2]
    exact v2
  have k6' : (hd rest == 47 && isDot rest.tail) = false := by
    cases hh : (hd rest == 47 && isDot rest.tail)
    · rfl
    · simp at hh; exact absurd hh k6
  simp only [if_neg k6, k6', hv.get]
  have hlt : q < m.length := by have := h.p_lt; have := h.qp; omega
  refine ⟨m.set q (hd rest), p + 1, q + 1, by simp [wr, hlt], by simp, ⟨?_, ?_, by have := h.qp; omega, ?_, ?_⟩⟩
  · obtain ⟨⟨t, ht⟩, h0⟩ := vt
    refine ⟨⟨t, ?_⟩, h0⟩
    rw [List.drop_set_of_lt (by have := h.qp; omega), ht]
  · rw [List.take_succ_eq_append_getElem (by simpa using hlt)]
    simp [List.take_set_of_le, h.hout]
  · simp [h.len]
  · intro hh
    rw [List.mem_append] at hh
    rcases hh with hh | hh
    · exact h.nz hh
    · simp at hh; exact hv.hd_ne hne hh.symm

theorem cstr_of_take {m out : Bytes} {q : Nat} (h : m.take q = out) (_hl : out.length = q)
    (nz : (0 : UInt8) ∉ out) (h0 : m[q]? = some 0) : cstr m = out := by
  have hm : m = out ++ m.drop q := by rw [← h, List.take_append_drop]
  have hd' : ∃ t, m.drop q = 0 :: t := by
    obtain ⟨hlt, hg⟩ := List.getElem?_eq_some_iff.1 h0
    exact ⟨m.drop (q + 1), by rw [List.drop_eq_getElem_cons hlt, hg]⟩
  obtain ⟨t, ht⟩ := hd'
  rw [hm, ht]
  unfold cstr
  rw [List.takeWhile_append_of_pos]
  · simp
  · intro a ha; simp; rintro rfl; exact nz ha

theorem zstep_lt (out rest : Bytes) (hne : rest ≠ []) : (zstep out rest).2.length < rest.length := by
  have hp := List.length_pos_iff.2 hne
  have sk : ∀ r : Bytes, (skipZ r).length ≤ r.length := by
    intro r; unfold skipZ; split <;> simp
  unfold zstep
  split
  · simp; omega
  split
  · have := sk (rest.drop 2); simp only [List.length_drop] at this ⊢; omega
  split
  · have := sk (rest.drop 1); simp only [List.length_drop] at this ⊢; omega
  split
  · simp; omega
  split
  · have := sk (rest.drop 3); simp only [List.length_drop] at this ⊢
    split <;> simp at * <;> omega
  split
  · simp; omega
  · simp; omega

theorem loop_refines : ∀ (n : Nat) {m p q out rest}, Rel m p q out rest → rest.length < n →
    ∃ m', pathCleanLoop n m p q = some m' ∧ m'.length = m.length ∧ cstr m' = zloop n out rest := by
  intro n
  induction n with
  | zero => intro m p q out rest _ h; omega
  | succ n ih =>
    intro m p q out rest h hn
    have hlt : q < m.length := by have := h.p_lt; have := h.qp; omega
    unfold pathCleanLoop
    rw [h.view.get]
    cases rest with
    | nil =>
      refine ⟨m.set q 0, by simp [wr, hlt], by simp, ?_⟩
      simp only [zloop]
      apply cstr_of_take (q := q) _ h.len h.nz
      · simp [hlt]
      · rw [List.take_set_of_le (Nat.le_refl q)]; exact h.hout
    | cons c r =>
      have hc : c ≠ 0 := h.view.hd_ne (by simp)
      obtain ⟨m', p', q', e1, e2, e3⟩ := step_refines h (by simp)
      have hl := zstep_lt out (c :: r) (by simp)
      obtain ⟨m'', f1, f2, f3⟩ := ih e3 (by omega)
      exact ⟨m'', by simp only [hd_cons, if_neg hc, e1]; exact f1, by omega, by rw [f3]; rfl⟩

theorem zloop_fuel (n : Nat) : ∀ (k : Nat) (out rest : Bytes), rest.length < n →
    zloop (n + k) out rest = zloop n out rest := by
  induction n with
  | zero => intro k out rest h; omega
  | succ n ih =>
    intro k out rest h
    rw [show n + 1 + k = (n + k) + 1 by omega]
    cases rest with
    | nil => rfl
    | cons c r =>
      have hl := zstep_lt out (c :: r) (by simp)
      simp only [zloop]
      exact ih k _ _ (by omega)

/-- the zipper function with enough fuel -/
def z (out rest : Bytes) : Bytes := zloop (rest.length + 1) out rest

theorem z_nil (out : Bytes) : z out [] = out := rfl

theorem z_step (out rest : Bytes) (h : rest ≠ []) : z out rest = z (zstep out rest).1 (zstep out rest).2 := by
  have hl := zstep_lt out rest h
  unfold z
  cases rest with
  | nil => exact absurd rfl h
  | cons c r =>
    rw [show zloop ((c :: r).length + 1) out (c :: r) =
      zloop (c :: r).length (zstep out (c :: r)).1 (zstep out (c :: r)).2 from rfl]
    obtain ⟨k, hk⟩ : ∃ k, (c :: r).length = (zstep out (c :: r)).2.length + 1 + k :=
      ⟨(c :: r).length - ((zstep out (c :: r)).2.length + 1), by omega⟩
    rw [hk, zloop_fuel _ _ _ _ (by omega)]

/-- path_clean on a NUL-terminated string does not leave its memory and computes `z`. -/
theorem pathClean_z (s tail : Bytes) (h0 : (0 : UInt8) ∉ s) :
    ∃ m', pathClean (s ++ 0 :: tail) = some m' ∧ m'.length = (s ++ 0 :: tail).length ∧
      cstr m' = z [] s := by
  have hrel : Rel (s ++ 0 :: tail) 0 0 [] s :=
    ⟨⟨⟨tail, by simp⟩, h0⟩, by simp, Nat.le_refl _, rfl, by simp⟩
  unfold pathClean
  have hl : s.length < (s ++ 0 :: tail).length + 1 := by simp; omega
  obtain ⟨m', e1, e2, e3⟩ := loop_refines _ hrel hl
  refine ⟨m', e1, e2, ?_⟩
  rw [e3]
  unfold z
  obtain ⟨k, hk⟩ : ∃ k, (s ++ 0 :: tail).length + 1 = (s.length + 1) + k :=
    ⟨(s ++ 0 :: tail).length - s.length, by simp; omega⟩
  rw [hk, zloop_fuel _ _ _ _ (by omega)]

end Gmid
