import Verif.Lemmas.Path

set_option autoImplicit false

namespace Gmid
open Spec

/-! ### the zipper computes `normalize` -/

/-- a component: no slash inside -/
def NoSlash (c : Bytes) : Prop := (47 : UInt8) ∉ c

/-- a component that survives: not empty, not ".", not "..", no slash -/
def Good (c : Bytes) : Prop := NoSlash c ∧ c ≠ [] ∧ c ≠ [46] ∧ c ≠ [46, 46]

theorem splitSlash_ne (s : Bytes) : splitSlash s ≠ [] := by
  cases s with
  | nil => simp [splitSlash]
  | cons c r =>
    unfold splitSlash
    split
    · simp
    · split <;> simp

theorem splitSlash_slash (s : Bytes) : splitSlash (47 :: s) = [] :: splitSlash s := by
  simp [splitSlash]

theorem splitSlash_noSlash (c : Bytes) (h : NoSlash c) : splitSlash c = [c] := by
  induction c with
  | nil => rfl
  | cons x r ih =>
    have hx : x ≠ 47 := by rintro rfl; apply h; simp
    have hr : NoSlash r := fun hh => h (List.mem_cons_of_mem _ hh)
    simp [splitSlash, hx, ih hr]

theorem splitSlash_comp (c s : Bytes) (h : NoSlash c) : splitSlash (c ++ 47 :: s) = c :: splitSlash s := by
  induction c with
  | nil => simp [splitSlash_slash]
  | cons x r ih =>
    have hx : x ≠ 47 := by rintro rfl; apply h; simp
    have hr : NoSlash r := fun hh => h (List.mem_cons_of_mem _ hh)
    rw [List.cons_append, splitSlash, if_neg hx, ih hr]

/-- every string is a component, optionally followed by a slash and more -/
theorem split_first (s : Bytes) : (∃ c, NoSlash c ∧ s = c) ∨ (∃ c t, NoSlash c ∧ s = c ++ 47 :: t) := by
  induction s with
  | nil => left; exact ⟨[], by simp [NoSlash], rfl⟩
  | cons x r ih =>
    by_cases hx : x = 47
    · right; exact ⟨[], r, by simp [NoSlash], by simp [hx]⟩
    · rcases ih with ⟨c, hc, rfl⟩ | ⟨c, t, hc, rfl⟩
      · left; refine ⟨x :: r, ?_, rfl⟩
        intro hh; rcases List.mem_cons.1 hh with h | h
        · exact hx h.symm
        · exact hc h
      · right; refine ⟨x :: c, t, ?_, rfl⟩
        intro hh; rcases List.mem_cons.1 hh with h | h
        · exact hx h.symm
        · exact hc h

theorem joinSlash_append_single (l : List Bytes) (c : Bytes) (h : l ≠ []) :
    joinSlash (l ++ [c]) = joinSlash l ++ 47 :: c := by
  induction l with
  | nil => exact absurd rfl h
  | cons a t ih =>
    cases t with
    | nil => simp [joinSlash]
    | cons b t => simp [joinSlash] at ih ⊢; exact ih

theorem popRev_append (c out : Bytes) (h : NoSlash c) : popRev (c.reverse ++ 47 :: out) = out := by
  have : ∀ c : Bytes, NoSlash c → popRev (c ++ 47 :: out) = out := by
    intro c
    induction c with
    | nil => intro _; simp [popRev]
    | cons x r ih =>
      intro h
      have hx : x ≠ 47 := by rintro rfl; apply h; simp
      have hr : NoSlash r := fun hh => h (List.mem_cons_of_mem _ hh)
      rw [List.cons_append, popRev, if_neg hx, ih hr]
  apply this; unfold NoSlash at *; simpa using h

theorem popRev_noSlash (c : Bytes) (h : NoSlash c) : popRev c.reverse = [] := by
  have : ∀ c : Bytes, NoSlash c → popRev c = [] := by
    intro c
    induction c with
    | nil => intro _; simp [popRev]
    | cons x r ih =>
      intro h
      have hx : x ≠ 47 := by rintro rfl; apply h; simp
      have hr : NoSlash r := fun hh => h (List.mem_cons_of_mem _ hh)
      rw [popRev, if_neg hx, ih hr]
  apply this; unfold NoSlash at *; simpa using h

/-- popping the last component of the output -/
theorem pop_join (stk : List Bytes) (h : ∀ c ∈ stk, Good c) :
    (popRev (joinSlash stk).reverse).reverse = joinSlash stk.dropLast := by
  rcases List.eq_nil_or_concat stk with rfl | ⟨l, c, rfl⟩
  · rfl
  · have hc : Good c := h c (by simp)
    by_cases hl : l = []
    · subst hl; simp [joinSlash, popRev_noSlash c hc.1]
    · simp only [List.concat_eq_append]
      rw [joinSlash_append_single l c hl]
      simp only [List.reverse_append, List.reverse_cons, List.append_assoc, List.cons_append,
        List.nil_append, List.dropLast_concat]
      rw [popRev_append _ _ hc.1]; simp

theorem joinSlash_ne (stk : List Bytes) (h : ∀ c ∈ stk, Good c) (hne : stk ≠ []) : joinSlash stk ≠ [] := by
  cases stk with
  | nil => exact absurd rfl hne
  | cons a t =>
    have := (h a (by simp)).2.1
    cases t <;> simp [joinSlash, this]

/-- what remains to be done after the components in `stk` have been written: `rest` starts at a
component boundary (is empty or starts with a slash) -/
def fin (stk : List Bytes) (comps : List Bytes) (trail : Bool) : Bytes :=
  let s := comps.foldl pushComp stk
  joinSlash s ++ (if s ≠ [] ∧ trail = true then [47] else [])

theorem isDotDot_iff (r : Bytes) (h0 : (0 : UInt8) ∉ r) :
    isDotDot r = true ↔ r = [46, 46] ∨ ∃ t, r = 46 :: 46 :: 47 :: t := by
  rcases r with _ | ⟨a, _ | ⟨b, _ | ⟨c, r⟩⟩⟩ <;> simp [isDotDot] at *
  · intro _ _ hh; exact absurd hh.symm h0.2.2.1

theorem isDot_iff (r : Bytes) (h0 : (0 : UInt8) ∉ r) :
    isDot r = true ↔ r = [46] ∨ ∃ t, r = 46 :: 47 :: t := by
  rcases r with _ | ⟨a, _ | ⟨b, r⟩⟩ <;> simp [isDot] at *
  · intro _ hh; exact absurd hh.symm h0.2.1

/-- a component followed by the end or a slash -/
theorem isDotDot_comp (c t : Bytes) (hc : NoSlash c) (ht : t = [] ∨ ∃ t', t = 47 :: t')
    (h0 : (0 : UInt8) ∉ c ++ t) : isDotDot (c ++ t) = true ↔ c = [46, 46] := by
  rw [isDotDot_iff _ h0]
  rcases ht with rfl | ⟨t', rfl⟩
  · simp; rintro t rfl; exact absurd (by simp) hc
  · constructor
    · rintro (h | ⟨u, h⟩)
      · have := congrArg (fun l => (47 : UInt8) ∈ l) h
        simp at this
      · rcases c with _ | ⟨a, _ | ⟨b, _ | ⟨d, c⟩⟩⟩
        · simp at h
        · simp at h
        · simp at h; simp [h]
        · simp at h; exact absurd (by simp [h.2.2.1]) hc
    · rintro rfl; right; exact ⟨t', rfl⟩

theorem isDot_comp (c t : Bytes) (hc : NoSlash c) (ht : t = [] ∨ ∃ t', t = 47 :: t')
    (h0 : (0 : UInt8) ∉ c ++ t) : isDot (c ++ t) = true ↔ c = [46] := by
  rw [isDot_iff _ h0]
  rcases ht with rfl | ⟨t', rfl⟩
  · simp; rintro t rfl; exact absurd (by simp) hc
  · constructor
    · rintro (h | ⟨u, h⟩)
      · have := congrArg (fun l => (47 : UInt8) ∈ l) h
        simp at this
      · rcases c with _ | ⟨a, _ | ⟨b, c⟩⟩
        · simp at h
        · simp at h; simp [h]
        · simp at h; exact absurd (by simp [h.2.1]) hc
    · rintro rfl; right; exact ⟨t', rfl⟩

/-- once something is in the output, non-slash bytes are copied -/
theorem z_copy (out c t : Bytes) (hout : out ≠ []) (hc : NoSlash c) : z out (c ++ t) = z (out ++ c) t := by
  induction c generalizing out with
  | nil => simp
  | cons x r ih =>
    have hx : x ≠ 47 := by rintro rfl; apply hc; simp
    have hr : NoSlash r := fun hh => hc (List.mem_cons_of_mem _ hh)
    rw [z_step _ _ (by simp)]
    have : zstep out (x :: r ++ t) = (out ++ [x], r ++ t) := by
      simp [zstep, hout, hx]
    rw [this, ih (out ++ [x]) (by simp) hr]; simp

/-- copying a whole good component from the start -/
theorem z_first (c t : Bytes) (hc : Good c) (ht : t = [] ∨ ∃ t', t = 47 :: t')
    (h0 : (0 : UInt8) ∉ c ++ t) : z [] (c ++ t) = z c t := by
  obtain ⟨x, r, rfl⟩ : ∃ x r, c = x :: r := by
    cases c with
    | nil => exact absurd rfl hc.2.1
    | cons x r => exact ⟨x, r, rfl⟩
  have hx : x ≠ 47 := by rintro rfl; apply hc.1; simp
  have hr : NoSlash r := fun hh => hc.1 (List.mem_cons_of_mem _ hh)
  have d2 : ¬ (isDotDot (x :: r ++ t) = true) := fun h => hc.2.2.2 ((isDotDot_comp _ t hc.1 ht h0).1 h)
  have d1 : ¬ (isDot (x :: r ++ t) = true) := fun h => hc.2.2.1 ((isDot_comp _ t hc.1 ht h0).1 h)
  rw [z_step _ _ (by simp)]
  have : zstep [] (x :: r ++ t) = ([x], r ++ t) := by
    unfold zstep
    rw [if_neg (by simp [hx]), if_neg (fun h => d2 h.2), if_neg (fun h => d1 h.2),
      if_neg (by simp [hx]), if_neg (by simp [hx]), if_neg (by simp [hx])]
    simp
  rw [this, z_copy [x] r t (by simp) hr]; rfl

theorem getLast_append_cons (a : Bytes) (x : UInt8) (b : Bytes) :
    (a ++ x :: b).getLast? = (x :: b).getLast? := by
  simp [List.getLast?_append, List.getLast?_cons]

theorem getLast_cons_slash (t : Bytes) :
    ((47 :: t : Bytes).getLast? = some 47) ↔ (t = [] ∨ t.getLast? = some 47) := by
  cases t with
  | nil => simp
  | cons a t => simp [List.getLast?_cons_cons]

theorem getLast_comp_slash (c t : Bytes) :
    ((c ++ 47 :: t : Bytes).getLast? = some 47) ↔ (t = [] ∨ t.getLast? = some 47) := by
  rw [getLast_append_cons, getLast_cons_slash]

theorem getLast_noSlash (c : Bytes) (hc : NoSlash c) : c.getLast? ≠ some 47 := by
  intro h; exact hc (List.mem_of_getLast? h)

/-- does the text end with a slash -/
def tr (s : Bytes) : Bool := decide (s.getLast? = some 47)

/-- main lemma: both boundary situations, by strong induction on the remaining text -/
theorem z_main : ∀ (n : Nat) (s : Bytes), s.length ≤ n → (0 : UInt8) ∉ s →
    (z [] s = fin [] (splitSlash s) (tr s)) ∧
    (∀ stk : List Bytes, stk ≠ [] → (∀ c ∈ stk, Good c) →
      z (joinSlash stk) (47 :: s) = fin stk (splitSlash s) (tr (47 :: s))) := by
  intro n
  induction n with
  | zero =>
    intro s hs h0
    have : s = [] := List.eq_nil_of_length_eq_zero (by omega)
    subst this
    refine ⟨by decide, ?_⟩
    intro stk hne hg
    have hj := joinSlash_ne stk hg hne
    rw [z_step _ _ (by simp)]
    have : zstep (joinSlash stk) [47] = (joinSlash stk ++ [47], []) := by
      simp [zstep, hj, isDotDot, isDot]
    rw [this, z_nil]
    simp [fin, splitSlash, pushComp, tr, hne]
  | succ n ih =>
    intro s hs h0
    rcases split_first s with ⟨c, hc, rfl⟩ | ⟨c, t, hc, rfl⟩
    · -- a last component, without slash after it
      have trc : tr s = false := by simp [tr, getLast_noSlash s hc]
      rw [splitSlash_noSlash s hc, trc]
      constructor
      · by_cases e0 : s = []
        · subst e0; decide
        by_cases e1 : s = [46]
        · subst e1; decide
        by_cases e2 : s = [46, 46]
        · subst e2; decide
        have := z_first s [] ⟨hc, e0, e1, e2⟩ (.inl rfl) (by simpa using h0)
        rw [List.append_nil] at this
        rw [this, z_nil]
        simp [fin, pushComp, e0, e1, e2, joinSlash]
      · intro stk hne hg
        have hj := joinSlash_ne stk hg hne
        have trs : tr (47 :: s) = decide (s = []) := by
          by_cases e0 : s = []
          · subst e0; rfl
          · simp only [tr, getLast_cons_slash, e0, getLast_noSlash s hc]; simp
        rw [z_step _ _ (by simp), trs]
        by_cases e0 : s = []
        · subst e0
          have : zstep (joinSlash stk) [47] = (joinSlash stk ++ [47], []) := by
            simp [zstep, hj, isDotDot, isDot]
          rw [this, z_nil]
          simp [fin, pushComp, hne]
        by_cases e1 : s = [46]
        · subst e1
          have : zstep (joinSlash stk) [47, 46] = (joinSlash stk, []) := by
            simp [zstep, hj, isDotDot, isDot]
          rw [this, z_nil]
          simp [fin, pushComp]
        by_cases e2 : s = [46, 46]
        · subst e2
          have : zstep (joinSlash stk) [47, 46, 46] = (joinSlash stk.dropLast, []) := by
            simp [zstep, hj, isDotDot, pop_join stk hg, skipZ]
          rw [this, z_nil]
          simp [fin, pushComp]
        have hgood : Good s := ⟨hc, e0, e1, e2⟩
        have d2 : ¬ (isDotDot s = true) := fun h => e2 ((isDotDot_comp s [] hc (.inl rfl) (by simpa using h0)).1 (by simpa using h))
        have d1 : ¬ (isDot s = true) := fun h => e1 ((isDot_comp s [] hc (.inl rfl) (by simpa using h0)).1 (by simpa using h))
        have hh : hd s ≠ 47 := by
          cases s with
          | nil => simp
          | cons x r => simp; rintro rfl; apply hc; simp
        have : zstep (joinSlash stk) (47 :: s) = (joinSlash stk ++ [47], s) := by
          simp [zstep, hj, hh, d2, d1]
        rw [this]
        have h2 := z_copy (joinSlash stk ++ [47]) s [] (by simp) hc
        rw [List.append_nil] at h2
        rw [h2, z_nil]
        simp [fin, pushComp, e0, e1, e2, joinSlash_append_single stk s hne]
    · -- a component followed by a slash
      have h0c : (0 : UInt8) ∉ c := fun h => h0 (by simp [h])
      have h0t : (0 : UInt8) ∉ t := fun h => h0 (by simp [h])
      have hlt : t.length ≤ n := by simp at hs; omega
      obtain ⟨ih1, ih2⟩ := ih t hlt h0t
      rw [splitSlash_comp c t hc]
      have tr1 : tr (c ++ 47 :: t) = decide (t = [] ∨ t.getLast? = some 47) := by
        simp only [tr, getLast_comp_slash]
      have tr2 : tr (47 :: (c ++ 47 :: t)) = decide (t = [] ∨ t.getLast? = some 47) := by
        have := getLast_comp_slash (47 :: c) t
        simp only [tr]; rw [← List.cons_append]; simp only [this]
      have tr3 : tr (47 :: t) = decide (t = [] ∨ t.getLast? = some 47) := by
        simp only [tr, getLast_cons_slash]
      -- with an empty stack a final slash makes no difference when nothing survives
      have finT : fin [] (splitSlash t) (tr t) = fin [] (splitSlash t) (decide (t = [] ∨ t.getLast? = some 47)) := by
        by_cases ht : t = []
        · subst ht; rfl
        · simp [tr, ht]
      constructor
      · rw [tr1]
        by_cases e0 : c = []
        · subst e0
          rw [z_step _ _ (by simp)]
          have : zstep [] ([] ++ 47 :: t) = ([], t) := by simp [zstep]
          rw [this, ih1, finT]
          simp [fin, pushComp]
        by_cases e1 : c = [46]
        · subst e1
          rw [z_step _ _ (by simp)]
          have : zstep [] ([46] ++ 47 :: t) = ([], t) := by simp [zstep, isDotDot, isDot, skipZ]
          rw [this, ih1, finT]
          simp [fin, pushComp]
        by_cases e2 : c = [46, 46]
        · subst e2
          rw [z_step _ _ (by simp)]
          have : zstep [] ([46, 46] ++ 47 :: t) = ([], t) := by simp [zstep, isDotDot, skipZ]
          rw [this, ih1, finT]
          simp [fin, pushComp]
        have hgood : Good c := ⟨hc, e0, e1, e2⟩
        rw [z_first c (47 :: t) hgood (.inr ⟨t, rfl⟩) h0]
        have := ih2 [c] (by simp) (by simpa using hgood)
        simp only [joinSlash] at this
        rw [this, tr3]
        simp [fin, pushComp, e0, e1, e2]
      · intro stk hne hg
        have hj := joinSlash_ne stk hg hne
        rw [tr2, z_step _ _ (by simp)]
        by_cases e0 : c = []
        · subst e0
          have : zstep (joinSlash stk) (47 :: ([] ++ 47 :: t)) = (joinSlash stk, 47 :: t) := by simp [zstep, hj]
          rw [this, ih2 stk hne hg, tr3]
          simp [fin, pushComp]
        by_cases e1 : c = [46]
        · subst e1
          have : zstep (joinSlash stk) (47 :: ([46] ++ 47 :: t)) = (joinSlash stk, 47 :: t) := by
            simp [zstep, hj, isDotDot, isDot]
          rw [this, ih2 stk hne hg, tr3]
          simp [fin, pushComp]
        by_cases e2 : c = [46, 46]
        · subst e2
          by_cases hd0 : stk.dropLast = []
          · have : zstep (joinSlash stk) (47 :: ([46, 46] ++ 47 :: t)) = ([], t) := by
              simp [zstep, hj, isDotDot, pop_join stk hg, hd0, joinSlash, skipZ]
            rw [this, ih1, finT]
            simp [fin, pushComp, hd0]
          · have hg' : ∀ c ∈ stk.dropLast, Good c := fun c hc => hg c (List.dropLast_subset _ hc)
            have hj' := joinSlash_ne _ hg' hd0
            have : zstep (joinSlash stk) (47 :: ([46, 46] ++ 47 :: t)) = (joinSlash stk.dropLast, 47 :: t) := by
              simp [zstep, hj, isDotDot, pop_join stk hg, hj']
            rw [this, ih2 _ hd0 hg', tr3]
            simp [fin, pushComp]
        have hgood : Good c := ⟨hc, e0, e1, e2⟩
        have d2 : ¬ (isDotDot (c ++ 47 :: t) = true) := fun h => e2 ((isDotDot_comp c _ hc (.inr ⟨t, rfl⟩) h0).1 h)
        have d1 : ¬ (isDot (c ++ 47 :: t) = true) := fun h => e1 ((isDot_comp c _ hc (.inr ⟨t, rfl⟩) h0).1 h)
        have hh : hd (c ++ 47 :: t) ≠ 47 := by
          cases c with
          | nil => exact absurd rfl e0
          | cons x r => simp; rintro rfl; apply hc; simp
        have : zstep (joinSlash stk) (47 :: (c ++ 47 :: t)) = (joinSlash stk ++ [47], c ++ 47 :: t) := by
          simp [zstep, hj, hh, d2, d1]
        rw [this, z_copy _ c (47 :: t) (by simp) hc]
        have e : joinSlash stk ++ [47] ++ c = joinSlash (stk ++ [c]) := by
          rw [joinSlash_append_single stk c hne]; simp
        rw [e, ih2 (stk ++ [c]) (by simp) (by
          intro x hx; rcases List.mem_append.1 hx with h | h
          · exact hg x h
          · simp at h; subst h; exact hgood), tr3]
        simp [fin, pushComp, e0, e1, e2]

theorem z_normalize (s : Bytes) (h0 : (0 : UInt8) ∉ s) : z [] s = normalize s := by
  rw [(z_main s.length s (Nat.le_refl _) h0).1]
  unfold fin normalize survivors tr
  simp only [decide_eq_true_eq]

/-! ### properties of the normal form -/

theorem pushComp_good (stk : List Bytes) (c : Bytes) (hs : ∀ x ∈ stk, Good x) (hc : NoSlash c) :
    ∀ x ∈ pushComp stk c, Good x := by
  unfold pushComp
  split
  · exact hs
  · split
    · exact fun x hx => hs x (List.dropLast_subset _ hx)
    · intro x hx
      rename_i h1 h2
      rcases List.mem_append.1 hx with h | h
      · exact hs x h
      · simp at h; subst h
        simp at h1
        exact ⟨hc, h1.1, h1.2, h2⟩

theorem foldl_good (comps stk : List Bytes) (hs : ∀ x ∈ stk, Good x) (hc : ∀ x ∈ comps, NoSlash x) :
    ∀ x ∈ comps.foldl pushComp stk, Good x := by
  induction comps generalizing stk with
  | nil => exact hs
  | cons c r ih =>
    exact ih _ (pushComp_good stk c hs (hc c (by simp))) (fun x hx => hc x (by simp [hx]))

theorem splitSlash_noSlash_mem (s : Bytes) : ∀ c ∈ splitSlash s, NoSlash c := by
  induction s with
  | nil => simp [splitSlash, NoSlash]
  | cons x r ih =>
    unfold splitSlash
    split
    · intro c hc
      rcases List.mem_cons.1 hc with rfl | h
      · simp [NoSlash]
      · exact ih c h
    · rename_i hx
      split
      · intro c hc; simp at hc; subst hc; simp [NoSlash]; exact fun h => hx h.symm
      · rename_i h t heq
        intro c hc
        rcases List.mem_cons.1 hc with rfl | h'
        · have := ih h (by rw [heq]; simp)
          unfold NoSlash at *
          simp; exact ⟨fun h => hx h.symm, this⟩
        · exact ih c (by rw [heq]; simp [h'])

theorem survivors_good (p : Bytes) : ∀ c ∈ survivors p, Good c :=
  foldl_good _ _ (by simp) (splitSlash_noSlash_mem p)

theorem split_join (stk : List Bytes) (h : ∀ c ∈ stk, NoSlash c) (hne : stk ≠ []) :
    splitSlash (joinSlash stk) = stk := by
  induction stk with
  | nil => exact absurd rfl hne
  | cons a t ih =>
    cases t with
    | nil => exact splitSlash_noSlash a (h a (by simp))
    | cons b t =>
      rw [joinSlash, splitSlash_comp a _ (h a (by simp)), ih (fun c hc => h c (List.mem_cons_of_mem _ hc)) (by simp)]

theorem split_join_slash (stk : List Bytes) (h : ∀ c ∈ stk, NoSlash c) (hne : stk ≠ []) :
    splitSlash (joinSlash stk ++ [47]) = stk ++ [[]] := by
  induction stk with
  | nil => exact absurd rfl hne
  | cons a t ih =>
    cases t with
    | nil => exact splitSlash_comp a [] (h a (by simp))
    | cons b t =>
      rw [joinSlash, List.append_assoc, List.cons_append, splitSlash_comp a _ (h a (by simp)),
        ih (fun c hc => h c (List.mem_cons_of_mem _ hc)) (by simp)]
      simp

/-- pushing good components onto a stack just appends them -/
theorem foldl_push_good (l stk : List Bytes) (h : ∀ c ∈ l, Good c) : l.foldl pushComp stk = stk ++ l := by
  induction l generalizing stk with
  | nil => simp
  | cons a t ih =>
    have ha := h a (by simp)
    rw [List.foldl_cons, ih _ (fun c hc => h c (by simp [hc]))]
    simp [pushComp, ha.2.1, ha.2.2.1, ha.2.2.2]

theorem noSlash_getLast_join (stk : List Bytes) (h : ∀ c ∈ stk, Good c) : (joinSlash stk).getLast? ≠ some 47 := by
  rcases List.eq_nil_or_concat stk with rfl | ⟨l, c, rfl⟩
  · simp [joinSlash]
  · have hc := h c (by simp)
    by_cases hl : l = []
    · subst hl; simpa [joinSlash] using getLast_noSlash c hc.1
    · rw [List.concat_eq_append, joinSlash_append_single l c hl,
        getLast_append_cons]
      obtain ⟨x, r, rfl⟩ : ∃ x r, c = x :: r := by
        cases c with
        | nil => exact absurd rfl hc.2.1
        | cons x r => exact ⟨x, r, rfl⟩
      rw [List.getLast?_cons_cons]; exact getLast_noSlash _ hc.1

/-- the two shapes of a normal form -/
theorem normalize_shape (p : Bytes) :
    (survivors p = [] ∧ normalize p = []) ∨
    (survivors p ≠ [] ∧ p.getLast? = some 47 ∧ normalize p = joinSlash (survivors p) ++ [47]) ∨
    (survivors p ≠ [] ∧ p.getLast? ≠ some 47 ∧ normalize p = joinSlash (survivors p)) := by
  unfold normalize
  by_cases h : survivors p = []
  · left; simp [h, joinSlash]
  · right
    by_cases h2 : p.getLast? = some 47
    · left; simp [h, h2]
    · right; simp [h, h2]

theorem joinSlash_head (stk : List Bytes) (h : ∀ c ∈ stk, Good c) (hne : stk ≠ []) (t : Bytes) :
    (joinSlash stk ++ t).head? ≠ some 47 := by
  cases stk with
  | nil => exact absurd rfl hne
  | cons a r =>
    have ha := h a (by simp)
    obtain ⟨x, y, rfl⟩ : ∃ x y, a = x :: y := by
      cases a with
      | nil => exact absurd rfl ha.2.1
      | cons x r => exact ⟨x, r, rfl⟩
    have hx : x ≠ 47 := by rintro rfl; apply ha.1; simp
    cases r <;> simp [joinSlash, hx]

theorem normalize_staysBelow (p : Bytes) : StaysBelow (normalize p) := by
  have hg := survivors_good p
  have hn : ∀ c ∈ survivors p, NoSlash c := fun c hc => (hg c hc).1
  rcases normalize_shape p with ⟨-, h⟩ | ⟨h1, -, h⟩ | ⟨h1, -, h⟩
  · rw [h]; simp [StaysBelow, splitSlash]
  · rw [h]
    refine ⟨joinSlash_head _ hg h1 _, ?_⟩
    rw [split_join_slash _ hn h1]
    refine ⟨?_, ?_, ?_⟩
    · intro hh; simp at hh; exact (hg _ hh).2.2.1 rfl
    · intro hh; simp at hh; exact (hg _ hh).2.2.2 rfl
    · simp only [List.dropLast_concat]; intro hh; exact (hg _ hh).2.1 rfl
  · rw [h]
    refine ⟨by simpa using joinSlash_head _ hg h1 [], ?_⟩
    rw [split_join _ hn h1]
    refine ⟨?_, ?_, ?_⟩
    · intro hh; exact (hg _ hh).2.2.1 rfl
    · intro hh; exact (hg _ hh).2.2.2 rfl
    · intro hh; exact (hg _ (List.dropLast_subset _ hh)).2.1 rfl

theorem survivors_normalize (p : Bytes) : survivors (normalize p) = survivors p := by
  have hg := survivors_good p
  have hn : ∀ c ∈ survivors p, NoSlash c := fun c hc => (hg c hc).1
  rcases normalize_shape p with ⟨h1, h⟩ | ⟨h1, -, h⟩ | ⟨h1, -, h⟩
  · rw [h, h1]; rfl
  · rw [h, survivors, split_join_slash _ hn h1, List.foldl_append, foldl_push_good _ _ hg]
    simp [pushComp]
  · rw [h, survivors, split_join _ hn h1, foldl_push_good _ _ hg]; simp

theorem normalize_def (p : Bytes) : normalize p = joinSlash (survivors p) ++
    (if survivors p ≠ [] ∧ p.getLast? = some 47 then [47] else []) := rfl

theorem normalize_idem (p : Bytes) : normalize (normalize p) = normalize p := by
  have hs := survivors_normalize p
  have hg := survivors_good p
  rcases normalize_shape p with ⟨h1, h⟩ | ⟨h1, -, h⟩ | ⟨h1, -, h⟩
  · rw [h]; rfl
  · have hlast : (normalize p).getLast? = some 47 := by rw [h]; simp
    rw [normalize_def (normalize p)]
    rw [hs, hlast, h]; simp [h1]
  · have hlast : (normalize p).getLast? ≠ some 47 := by rw [h]; exact noSlash_getLast_join _ hg
    rw [normalize_def (normalize p)]
    rw [hs]; simp only [hlast, and_false, if_false, List.append_nil]; exact h.symm

/-- total length of components plus separators bounds the join -/
def weight (l : List Bytes) : Nat := (l.map (fun c => c.length + 1)).sum

theorem joinSlash_length (l : List Bytes) : (joinSlash l).length + 1 = weight l ∨ l = [] := by
  induction l with
  | nil => right; rfl
  | cons a t ih =>
    left
    cases t with
    | nil => simp [joinSlash, weight]
    | cons b t =>
      rcases ih with h | h
      · simp [joinSlash, weight] at h ⊢; omega
      · simp at h

theorem weight_append (a b : List Bytes) : weight (a ++ b) = weight a + weight b := by
  simp [weight]

theorem weight_dropLast (l : List Bytes) : weight l.dropLast ≤ weight l := by
  rcases List.eq_nil_or_concat l with rfl | ⟨l, c, rfl⟩
  · simp
  · simp [weight_append]

theorem weight_push (stk : List Bytes) (c : Bytes) : weight (pushComp stk c) ≤ weight stk + (c.length + 1) := by
  unfold pushComp
  split
  · omega
  · split
    · have := weight_dropLast stk; omega
    · simp [weight]

theorem weight_foldl (l stk : List Bytes) : weight (l.foldl pushComp stk) ≤ weight stk + weight l := by
  induction l generalizing stk with
  | nil => simp [weight]
  | cons c r ih =>
    have := ih (pushComp stk c)
    have h2 := weight_push stk c
    simp only [List.foldl_cons]
    have : weight (c :: r) = (c.length + 1) + weight r := by simp [weight]
    omega

theorem weight_split (s : Bytes) : weight (splitSlash s) = s.length + 1 := by
  induction s with
  | nil => rfl
  | cons x r ih =>
    unfold splitSlash
    split
    · simp [weight] at ih ⊢; omega
    · split
      · rename_i h; exact absurd h (splitSlash_ne r)
      · rename_i h t heq
        rw [heq] at ih; simp [weight] at ih ⊢; omega

/-- the last component is empty when the text ends with a slash, so it contributes no letters -/
theorem weight_foldl_trailing (p : Bytes) (h : p.getLast? = some 47) : weight (survivors p) ≤ p.length := by
  obtain ⟨q, rfl⟩ : ∃ q, p = q ++ [47] := by
    rcases List.eq_nil_or_concat p with rfl | ⟨l, c, rfl⟩
    · simp at h
    · simp at h; subst h; exact ⟨l, by simp⟩
  have key : ∀ q : Bytes, splitSlash (q ++ [47]) = splitSlash q ++ [[]] := by
    intro q
    induction q with
    | nil => rfl
    | cons x r ih =>
      by_cases hx : x = 47
      · subst hx; rw [List.cons_append, splitSlash_slash, splitSlash_slash, ih]; rfl
      · rw [List.cons_append, splitSlash, if_neg hx, ih, splitSlash, if_neg hx]
        cases hh : splitSlash r with
        | nil => exact absurd hh (splitSlash_ne r)
        | cons a t => rfl
  unfold survivors
  rw [key, List.foldl_append]
  have := weight_foldl (splitSlash q) []
  rw [weight_split] at this
  simp [pushComp, weight] at this ⊢; omega

theorem normalize_length (p : Bytes) : (normalize p).length ≤ p.length := by
  rcases normalize_shape p with ⟨h1, h⟩ | ⟨h1, h2, h⟩ | ⟨h1, -, h⟩
  · rw [h]; simp
  · rw [h]
    have := weight_foldl_trailing p h2
    rcases joinSlash_length (survivors p) with h3 | h3
    · simp; omega
    · exact absurd h3 h1
  · rw [h]
    have h3 := weight_foldl (splitSlash p) []
    rw [weight_split] at h3
    rcases joinSlash_length (survivors p) with h4 | h4
    · simp [weight] at h3; unfold survivors at *; simp [weight] at h4; omega
    · exact absurd h4 h1

/-- normalisation invents no bytes -/
theorem mem_joinSlash (l : List Bytes) (x : UInt8) (h : x ∈ joinSlash l) : x = 47 ∨ ∃ c ∈ l, x ∈ c := by
  induction l with
  | nil => simp [joinSlash] at h
  | cons a t ih =>
    cases t with
    | nil => right; exact ⟨a, by simp, h⟩
    | cons b t =>
      simp only [joinSlash, List.mem_append, List.mem_cons] at h
      rcases h with h | h | h
      · right; exact ⟨a, by simp, h⟩
      · left; exact h
      · rcases ih h with h | ⟨c, hc, hx⟩
        · left; exact h
        · right; exact ⟨c, List.mem_cons_of_mem _ hc, hx⟩

theorem mem_splitSlash (s : Bytes) : ∀ c ∈ splitSlash s, ∀ x ∈ c, x ∈ s := by
  induction s with
  | nil => simp [splitSlash]
  | cons y r ih =>
    unfold splitSlash
    split
    · intro c hc x hx
      rcases List.mem_cons.1 hc with rfl | h
      · simp at hx
      · exact List.mem_cons_of_mem _ (ih c h x hx)
    · split
      · intro c hc x hx; simp at hc; subst hc; simp at hx; simp [hx]
      · rename_i h t heq
        intro c hc x hx
        rcases List.mem_cons.1 hc with rfl | h'
        · rcases List.mem_cons.1 hx with rfl | h''
          · simp
          · exact List.mem_cons_of_mem _ (ih h (by rw [heq]; simp) x h'')
        · exact List.mem_cons_of_mem _ (ih c (by rw [heq]; simp [h']) x hx)

theorem mem_push (stk : List Bytes) (c d : Bytes) (h : d ∈ pushComp stk c) : d ∈ stk ∨ d = c := by
  unfold pushComp at h
  split at h
  · exact .inl h
  · split at h
    · exact .inl (List.dropLast_subset _ h)
    · simpa using h

theorem mem_foldl (l stk : List Bytes) (d : Bytes) (h : d ∈ l.foldl pushComp stk) : d ∈ stk ∨ d ∈ l := by
  induction l generalizing stk with
  | nil => exact .inl h
  | cons c r ih =>
    rcases ih _ h with h | h
    · rcases mem_push _ _ _ h with h | h
      · exact .inl h
      · exact .inr (by simp [h])
    · exact .inr (by simp [h])

theorem mem_normalize (p : Bytes) (x : UInt8) (h : x ∈ normalize p) : x = 47 ∨ x ∈ p := by
  unfold normalize at h
  rcases List.mem_append.1 h with h | h
  · rcases mem_joinSlash _ _ h with h | ⟨c, hc, hx⟩
    · exact .inl h
    · rcases mem_foldl _ _ _ hc with h | h
      · simp at h
      · exact .inr (mem_splitSlash p c h x hx)
  · split at h <;> simp at h
    exact .inl h

end Gmid
