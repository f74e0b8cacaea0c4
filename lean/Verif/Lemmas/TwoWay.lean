import Verif.Model.TwoWay

/-!
# The two-way string matching algorithm

The needle is a function on positions `0 .. l`; a suffix is the position where it starts.
-/

set_option autoImplicit false

namespace Gmid.TW

/-- the suffix at `s` is smaller than the one at `t` -/
def SLt (x : Nat → Nat) (l s t : Nat) : Prop :=
  ∃ e, s + e ≤ l ∧ t + e < l ∧ (∀ i, i < e → x (s + i) = x (t + i)) ∧ (s + e < l → x (s + e) < x (t + e))

theorem SLt.irrefl {x : Nat → Nat} {l s : Nat} (h : SLt x l s s) : False := by
  obtain ⟨e, h1, h2, h3, h4⟩ := h
  exact Nat.lt_irrefl _ (h4 h2)

theorem SLt.trans {x : Nat → Nat} {l s t u : Nat} (h : SLt x l s t) (g : SLt x l t u) : SLt x l s u := by
  obtain ⟨e, h1, h2, h3, h4⟩ := h
  obtain ⟨d, g1, g2, g3, g4⟩ := g
  rcases Nat.lt_trichotomy e d with hc | hc | hc
  · refine ⟨e, h1, by omega, ?_, ?_⟩
    · intro i hi; rw [h3 i hi, g3 i (by omega)]
    · intro hl; rw [← g3 e hc]; exact h4 hl
  · subst hc
    refine ⟨e, h1, g2, ?_, ?_⟩
    · intro i hi; rw [h3 i hi, g3 i hi]
    · intro hl; exact Nat.lt_trans (h4 hl) (g4 h2)
  · refine ⟨d, by omega, g2, ?_, ?_⟩
    · intro i hi; rw [h3 i (by omega), g3 i hi]
    · intro hl; rw [h3 d hc]; exact g4 (by omega)

theorem SLt.asymm {x : Nat → Nat} {l s t : Nat} (h : SLt x l s t) (g : SLt x l t s) : False := (h.trans g).irrefl

theorem SLt.total (x : Nat → Nat) (l s t : Nat) (hs : s ≤ l) (ht : t ≤ l) (hne : s ≠ t) : SLt x l s t ∨ SLt x l t s := by
  -- walk along the common part
  have walk : ∀ d e, d = l - max s t - e → e ≤ l - max s t → (∀ i, i < e → x (s + i) = x (t + i)) → SLt x l s t ∨ SLt x l t s := by
    intro d
    induction d with
    | zero =>
      intro e h1 h2 h3
      by_cases hlt : s < t
      · exact Or.inr ⟨e, by omega, by omega, fun i hi => (h3 i hi).symm, by omega⟩
      · exact Or.inl ⟨e, by omega, by omega, h3, by omega⟩
    | succ d ih =>
      intro e h1 h2 h3
      rcases Nat.lt_trichotomy (x (s + e)) (x (t + e)) with hc | hc | hc
      · exact Or.inl ⟨e, by omega, by omega, h3, fun _ => hc⟩
      · refine ih (e + 1) (by omega) (by omega) ?_
        intro i hi
        by_cases hie : i = e
        · subst hie; exact hc
        · exact h3 i (by omega)
      · exact Or.inr ⟨e, by omega, by omega, fun i hi => (h3 i hi).symm, fun _ => hc⟩
  exact walk _ 0 rfl (by omega) (by omega)

/-- there is a maximal suffix -/
theorem exists_max (x : Nat → Nat) (l : Nat) : ∃ M, M ≤ l ∧ ∀ s, s ≤ l → s ≠ M → SLt x l s M := by
  have : ∀ k, k ≤ l → ∃ M, M ≤ k ∧ ∀ s, s ≤ k → s ≠ M → SLt x l s M := by
    intro k
    induction k with
    | zero => intro _; exact ⟨0, Nat.le_refl _, by omega⟩
    | succ k ih =>
      intro hk
      obtain ⟨M, h1, h2⟩ := ih (by omega)
      rcases SLt.total x l M (k + 1) (by omega) hk (by omega) with hc | hc
      · refine ⟨k + 1, Nat.le_refl _, ?_⟩
        intro s hs hne
        by_cases hsM : s = M
        · subst hsM; exact hc
        · exact (h2 s (by omega) hsM).trans hc
      · refine ⟨M, by omega, ?_⟩
        intro s hs hne
        by_cases hsk : s = k + 1
        · subst hsk; exact hc
        · exact h2 s (by omega) hne
  exact this l (Nat.le_refl _)

/-- a period repeats -/
theorem period_mul {α : Type} {x : Nat → α} {a m p : Nat} (h : ∀ i, a ≤ i → i + p < m → x i = x (i + p)) (hp : 1 ≤ p) :
    ∀ q i, a ≤ i → i + q * p < m → x i = x (i + q * p) := by
  intro q
  induction q with
  | zero => intro i _ _; simp
  | succ q ih =>
    intro i hi hm
    rw [Nat.add_mul, Nat.one_mul] at hm
    rw [ih i hi (by omega), h (i + q * p) (by omega) (by omega), Nat.add_mul, Nat.one_mul, Nat.add_assoc]

/-- what the first pass establishes -/
structure MaxSuf (x : Nat → Nat) (l a p : Nat) : Prop where
  hp : 1 ≤ p
  ap : a + p ≤ l
  max : ∀ s, s ≤ l → s ≠ a → SLt x l s a
  per : ∀ i, a ≤ i → i + p < l → x i = x (i + p)
  min : ∀ j, 1 ≤ j → j < p → ∃ i, a ≤ i ∧ i + j < l ∧ x i ≠ x (i + j)

/-- the state of the pass -/
structure Inv (x : Nat → Nat) (l M a b k p : Nat) : Prop where
  hk : 1 ≤ k
  kp : k ≤ p
  apb : a + p ≤ b
  dv : ∃ q, b = a + q * p
  ml : b + k ≤ l + 1
  per : ∀ i, a ≤ i → i + p + 1 < b + k → x i = x (i + p)
  pos : M = a ∨ b ≤ M
  low : ∀ s, a < s → s < a + p → ∃ e, s + e < a + p ∧ (∀ i, i < e → x (s + i) = x (a + i)) ∧ x (s + e) < x (a + e)

theorem Inv.start {x : Nat → Nat} {l M : Nat} (hl : 1 ≤ l) : Inv x l M 0 1 1 1 :=
  ⟨by omega, by omega, by omega, ⟨1, by omega⟩, by omega, by intro i; omega, by omega, by intro s; omega⟩

variable {x : Nat → Nat} {l M a b k p : Nat}

/-- the compared bytes, seen from the window -/
theorem Inv.rep (h : Inv x l M a b k p) (d : Nat) (hd : d + 1 < k) : x (a + d) = x (b + d) := by
  obtain ⟨q, hq⟩ := h.dv
  have := period_mul (x := x) (a := a) (m := b + k - 1) (p := p) (fun i h1 h2 => h.per i h1 (by omega)) (by have := h.hk; have := h.kp; omega) q (a + d)
    (by omega) (by omega)
  rw [this]; congr 1; omega

theorem Inv.more (h : Inv x l M a b k p) (hm : b + k ≤ l) (he : x (a + k - 1) = x (b + k - 1)) (hkp : k < p) : Inv x l M a b (k + 1) p := by
  refine ⟨by omega, hkp, h.apb, h.dv, by omega, ?_, h.pos, h.low⟩
  intro i hi him
  by_cases hc : i + p + 1 < b + k
  · exact h.per i hi hc
  · obtain ⟨q, hq⟩ := h.dv
    have h1 := h.hk
    have h2 := h.apb
    cases q with
    | zero => omega
    | succ q =>
      rw [Nat.add_mul, Nat.one_mul] at hq
      have := period_mul (x := x) (a := a) (m := b + k - 1) (p := p) (fun i h1 h2 => h.per i h1 (by omega)) (by omega) q (a + k - 1)
        (by omega) (by omega)
      rw [show i + p = b + k - 1 by omega, ← he, this]
      congr 1; omega

/-- suffixes inside a period of the pattern lose -/
theorem Inv.full (h : Inv x l M a b k p) (hM : ∀ s, s ≤ l → s ≠ M → SLt x l s M) (hm : b + k ≤ l) (he : x (a + k - 1) = x (b + k - 1)) (hkp : k = p) :
    Inv x l M a (b + p) 1 p := by
  subst hkp
  have h1 := h.hk
  have h2 := h.apb
  obtain ⟨q, hq⟩ := h.dv
  -- the period now reaches one byte further
  have per' : ∀ i, a ≤ i → i + k < b + k → x i = x (i + k) := by
    intro i hi him
    by_cases hc : i + k + 1 < b + k
    · exact h.per i hi hc
    · cases q with
      | zero => omega
      | succ q =>
        rw [Nat.add_mul, Nat.one_mul] at hq
        have := period_mul (x := x) (a := a) (m := b + k - 1) (p := k) (fun i h1 h2 => h.per i h1 (by omega)) (by omega) q (a + k - 1)
          (by omega) (by omega)
        rw [show i + k = b + k - 1 by omega, ← he, this]
        congr 1; omega
  have rep : ∀ d, d < k → x (a + d) = x (b + d) := by
    intro d hd
    have := period_mul (x := x) (a := a) (m := b + k) (p := k) per' (by omega) q (a + d) (by omega) (by omega)
    rw [this]; congr 1; omega
  have noM : ∀ t, t ≤ l → ¬ SLt x l M t := by
    intro t ht hlt
    by_cases htM : t = M
    · subst htM; exact hlt.irrefl
    · exact hlt.asymm (hM t ht htM)
  refine ⟨by omega, h1, by omega, ⟨q + 1, by rw [Nat.add_mul, Nat.one_mul]; omega⟩, by omega, fun i h1 h2 => per' i h1 (by omega), ?_, h.low⟩
  rcases h.pos with hp | hp
  · exact Or.inl hp
  · right
    apply Nat.le_of_not_lt
    intro hlt
    by_cases hMb : M = b
    · -- the suffix at b - k would be greater
      have hb : SLt x l (b + k) b := by
        have := hM (b + k) hm (by omega); rw [hMb] at this; exact this
      obtain ⟨e, g1, g2, g3, g4⟩ := hb
      apply noM (b - k) (by omega)
      rw [hMb]
      refine ⟨e + k, by omega, by omega, ?_, ?_⟩
      · intro i hi
        by_cases hik : i < k
        · have := per' (b - k + i) (by omega) (by omega)
          rw [this]; congr 1; omega
        · have := g3 (i - k) (by omega)
          rw [show b + k + (i - k) = b + i by omega, show b + (i - k) = b - k + i by omega] at this
          exact this
      · intro hl
        have := g4 (by omega)
        rw [show b + k + e = b + (e + k) by omega, show b + e = b - k + (e + k) by omega] at this
        exact this
    · -- and inside the block b beats it
      obtain ⟨e, l1, l2, l3⟩ := h.low (a + (M - b)) (by omega) (by omega)
      apply noM b (by omega)
      refine ⟨e, by omega, by omega, ?_, ?_⟩
      · intro i hi
        have := l2 i hi
        rw [rep i (by omega), show a + (M - b) + i = a + (M - b + i) by omega, rep (M - b + i) (by omega)] at this
        rw [← this]; congr 1; omega
      · intro _
        rw [rep e (by omega), show a + (M - b) + e = a + (M - b + e) by omega, rep (M - b + e) (by omega)] at l3
        rw [show M + e = b + (M - b + e) by omega]; exact l3

/-- the byte is smaller: everything up to it becomes the period -/
theorem Inv.less (h : Inv x l M a b k p) (hM : ∀ s, s ≤ l → s ≠ M → SLt x l s M) (hm : b + k ≤ l) (he : x (b + k - 1) < x (a + k - 1)) :
    Inv x l M a (b + k) 1 (b + k - a) := by
  have h1 := h.hk
  have h2 := h.apb
  have h3 := h.kp
  obtain ⟨q, hq⟩ := h.dv
  have noM : ∀ t, t ≤ l → ¬ SLt x l M t := by
    intro t ht hlt
    by_cases htM : t = M
    · subst htM; exact hlt.irrefl
    · exact hlt.asymm (hM t ht htM)
  have pm := period_mul (x := x) (a := a) (m := b + k - 1) (p := p) (fun i h1 h2 => h.per i h1 (by omega)) (by omega)
  -- everything strictly inside is smaller
  have low' : ∀ s, a < s → s < b + k → ∃ e, s + e < b + k ∧ (∀ i, i < e → x (s + i) = x (a + i)) ∧ x (s + e) < x (a + e) := by
    intro s hs hsm
    -- s = a + r * p + d
    have hdiv : s = a + ((s - a) / p) * p + (s - a) % p := by
      have := Nat.div_add_mod (s - a) p
      rw [Nat.mul_comm] at this; omega
    generalize hr : (s - a) / p = r at hdiv
    generalize hd : (s - a) % p = d at hdiv
    have hdp : d < p := by rw [← hd]; exact Nat.mod_lt _ (by omega)
    have hrep : ∀ t, a ≤ t → t + r * p < b + k - 1 → x t = x (t + r * p) := fun t => pm r t
    by_cases hr0 : r = 0
    · subst hr0
      have hsd : s = a + d := by omega
      obtain ⟨e, l1, l2, l3⟩ := h.low s hs (by omega)
      exact ⟨e, by omega, l2, l3⟩
    have hrp : p ≤ r * p := by
      have : 1 * p ≤ r * p := Nat.mul_le_mul_right _ (by omega)
      omega
    -- the byte that would make the period go on
    have hlast : ∀ t, t + r * p = b + k - 1 → a ≤ t → x t = x (a + k - 1) := by
      intro t ht hat
      have hrq : r ≤ q := by
        apply Nat.le_of_not_lt; intro hlt
        have : (q + 1) * p ≤ r * p := Nat.mul_le_mul_right _ hlt
        rw [Nat.add_mul, Nat.one_mul] at this; omega
      have hg : t = a + k - 1 + (q - r) * p := by
        rw [Nat.sub_mul]
        have : r * p ≤ q * p := Nat.mul_le_mul_right _ hrq
        omega
      rw [hg]; exact (pm (q - r) _ (by omega) (by omega)).symm
    by_cases hd0 : d = 0
    · refine ⟨b + k - 1 - s, by omega, ?_, ?_⟩
      · intro i hi
        rw [hrep (a + i) (by omega) (by omega)]; congr 1; omega
      · rw [hlast (a + (b + k - 1 - s)) (by omega) (by omega), show s + (b + k - 1 - s) = b + k - 1 by omega]; exact he
    · obtain ⟨e, l1, l2, l3⟩ := h.low (a + d) (by omega) (by omega)
      by_cases hse : s + e < b + k - 1
      · refine ⟨e, by omega, ?_, ?_⟩
        · intro i hi
          rw [← l2 i hi, hrep (a + d + i) (by omega) (by omega)]; congr 1; omega
        · rw [hrep (a + d + e) (by omega) (by omega), show a + d + e + r * p = s + e by omega] at l3; exact l3
      · refine ⟨b + k - 1 - s, by omega, ?_, ?_⟩
        · intro i hi
          rw [← l2 i (by omega), hrep (a + d + i) (by omega) (by omega)]; congr 1; omega
        · have hx := hlast (a + d + (b + k - 1 - s)) (by omega) (by omega)
          rw [show s + (b + k - 1 - s) = b + k - 1 by omega]
          by_cases hee : b + k - 1 - s = e
          · rw [hee] at hx ⊢; omega
          · have := l2 (b + k - 1 - s) (by omega); omega
  refine ⟨by omega, by omega, by omega, ⟨1, by omega⟩, by omega, by intro i; omega, ?_, ?_⟩
  · rcases h.pos with hp | hp
    · exact Or.inl hp
    · right
      apply Nat.le_of_not_lt
      intro hlt
      obtain ⟨e, l1, l2, l3⟩ := low' M (by omega) hlt
      exact noM a (by omega) ⟨e, by omega, by omega, l2, fun _ => l3⟩
  · intro s hs hs2
    obtain ⟨e, l1, l2, l3⟩ := low' s hs (by omega)
    exact ⟨e, by omega, l2, l3⟩

/-- the byte is greater: a better suffix -/
theorem Inv.more' (h : Inv x l M a b k p) (hM : ∀ s, s ≤ l → s ≠ M → SLt x l s M) (hm : b + k ≤ l) (he : x (a + k - 1) < x (b + k - 1)) :
    Inv x l M b (b + 1) 1 1 := by
  have h1 := h.hk
  have h2 := h.apb
  have h3 := h.kp
  refine ⟨by omega, by omega, by omega, ⟨1, by omega⟩, by omega, by intro i; omega, ?_, by intro s; omega⟩
  rcases h.pos with hp | hp
  · exfalso
    subst hp
    have hlt : SLt x l M b := ⟨k - 1, by omega, by omega, fun i hi => h.rep i (by omega), fun _ => by
      rw [show M + (k - 1) = M + k - 1 by omega, show b + (k - 1) = b + k - 1 by omega]; exact he⟩
    exact hlt.asymm (hM b (by omega) (by omega))
  · omega

theorem Inv.done (h : Inv x l M a b k p) (hM : ∀ s, s ≤ l → s ≠ M → SLt x l s M) (hMl : M < l) (hm : l < b + k) : MaxSuf x l a p := by
  have h1 := h.hk
  have h2 := h.apb
  have h3 := h.kp
  have h4 := h.ml
  obtain ⟨q, hq⟩ := h.dv
  have hMa : M = a := by
    rcases h.pos with hp | hp
    · exact hp
    · exfalso
      have hlt : SLt x l M (M - (b - a)) := by
        refine ⟨l - M, by omega, by omega, ?_, by omega⟩
        intro i hi
        rw [period_mul (x := x) (a := a) (m := b + k - 1) (p := p) (fun i h1 h2 => h.per i h1 (by omega)) (by omega) q (M - (b - a) + i)
          (by omega) (by omega)]
        congr 1; omega
      exact hlt.asymm (hM _ (by omega) (by omega))
  subst hMa
  refine ⟨by omega, by omega, hM, fun i hi hil => h.per i hi (by omega), ?_⟩
  intro j hj hjp
  obtain ⟨e, l1, l2, l3⟩ := h.low (M + j) (by omega) (by omega)
  refine ⟨M + e, by omega, by omega, ?_⟩
  rw [show M + e + j = M + j + e by omega]; omega

/-! ## the pass itself -/

/-- the needle as a function of the position -/
def at' (n : Bytes) (i : Nat) : UInt8 := n.getD i 0

theorem at'_of (n : Bytes) (i : Nat) (h : i < n.length) : n[i]? = some (at' n i) := by
  unfold at'; simp [h]

/-- the pass, for an order given by a rank of the bytes -/
theorem maxSuffix_spec (gt : UInt8 → UInt8 → Bool) (f : UInt8 → Nat) (hgt : ∀ u v, gt u v = true ↔ f v < f u) (hinj : ∀ u v, f u = f v → u = v)
    (n : Bytes) (M : Nat) (hMl : M < n.length) (hM : ∀ s, s ≤ n.length → s ≠ M → SLt (fun i => f (at' n i)) n.length s M) :
    ∀ fuel a b k p, Inv (fun i => f (at' n i)) n.length M a b k p → 3 * n.length + 3 ≤ fuel + a + b + k →
      ∃ c q, maxSuffix gt n fuel a b k p = some (c, q) ∧ MaxSuf (fun i => f (at' n i)) n.length c q := by
  intro fuel
  induction fuel with
  | zero =>
    intro a b k p h hf
    have := h.hk; have := h.kp; have := h.apb; have := h.ml
    omega
  | succ fuel ih =>
    intro a b k p h hf
    have h1 := h.hk; have h2 := h.kp; have h3 := h.apb; have h4 := h.ml
    rw [maxSuffix]
    by_cases hc : b - 1 + k < n.length
    · rw [if_pos hc, at'_of n _ (by omega), at'_of n _ hc, show b - 1 + k = b + k - 1 by omega]
      simp only
      by_cases he : at' n (a + k - 1) = at' n (b + k - 1)
      · rw [if_pos he]
        by_cases hkp : k = p
        · rw [if_pos hkp]
          exact ih _ _ _ _ (h.full hM (by omega) (by simp only [he]) hkp) (by omega)
        · rw [if_neg hkp]
          exact ih _ _ _ _ (h.more (by omega) (by simp only [he]) (by omega)) (by omega)
      · rw [if_neg he]
        by_cases hg : gt (at' n (a + k - 1)) (at' n (b + k - 1)) = true
        · rw [if_pos hg]
          exact ih _ _ _ _ (h.less hM (by omega) ((hgt _ _).mp hg)) (by omega)
        · rw [if_neg hg]
          refine ih _ _ _ _ (h.more' hM (by omega) ?_) (by omega)
          have h5 : ¬ f (at' n (b + k - 1)) < f (at' n (a + k - 1)) := fun hlt => hg ((hgt _ _).mpr hlt)
          have h6 : f (at' n (a + k - 1)) ≠ f (at' n (b + k - 1)) := fun e => he (hinj _ _ e)
          omega
    · rw [if_neg hc]
      exact ⟨a, p, rfl, h.done hM hMl (by omega)⟩

theorem maxSuffix_start (gt : UInt8 → UInt8 → Bool) (f : UInt8 → Nat) (hgt : ∀ u v, gt u v = true ↔ f v < f u) (hinj : ∀ u v, f u = f v → u = v)
    (n : Bytes) (hn : n ≠ []) :
    ∃ c q, maxSuffix gt n (4 * n.length + 4) 0 1 1 1 = some (c, q) ∧ MaxSuf (fun i => f (at' n i)) n.length c q := by
  have hl : 1 ≤ n.length := by
    cases n with
    | nil => exact absurd rfl hn
    | cons => simp
  obtain ⟨M, hMl, hM⟩ := exists_max (fun i => f (at' n i)) n.length
  have : M ≠ n.length := by
    intro e
    have := hM 0 (by omega) (by omega)
    obtain ⟨e, h1, h2, h3, h4⟩ := this
    omega
  exact maxSuffix_spec gt f hgt hinj n M (by omega) hM _ _ _ _ _ (Inv.start hl) (by omega)

/-! ## the critical factorization -/

/-- `j` is a local period at `c` -/
def Local {α : Type} (x : Nat → α) (l c j : Nat) : Prop :=
  1 ≤ j ∧ c + j ≤ l ∧ ∀ i, 1 ≤ i → i ≤ c → i ≤ j → x (c - i) = x (c + j - i)

/-- what the search needs to know of the cut -/
structure Crit (N : Nat → UInt8) (l c p : Nat) : Prop where
  hp : 1 ≤ p
  cp : c + p ≤ l
  loc : ∀ j, Local N l c j → c < j ∧ ∀ i, i + j < l → N i = N (i + j)
  per : ∀ i, c ≤ i → i + p < l → N i = N (i + p)
  min : ∀ j, 1 ≤ j → j < p → ∃ i, c ≤ i ∧ i + j < l ∧ N i ≠ N (i + j)
  own : ∀ j, 1 ≤ j → j ≤ c → ¬ ∀ i, c + i < l → N (c + i) = N (c - j + i)

theorem crit_of (N : Nat → UInt8) (l : Nat) (f g : UInt8 → Nat) (hf : ∀ u v, f u = f v → u = v) (hg : ∀ u v, g u = g v → u = v)
    (hfg : ∀ u v, f u < f v → ¬ g u < g v) (c p c' p' : Nat) (h : MaxSuf (fun i => f (N i)) l c p) (h' : MaxSuf (fun i => g (N i)) l c' p')
    (hle : c' ≤ c) : Crit N l c p := by
  refine ⟨h.hp, h.ap, ?_, fun i h1 h2 => hf _ _ (h.per i h1 h2), ?_, ?_⟩
  · rintro j ⟨hj1, hj2, hj3⟩
    by_cases hjc : j ≤ c
    · -- too short: the suffix at c + j would be greater
      exfalso
      obtain ⟨e, e1, e2, e3, e4⟩ := h.max (c - j) (by omega) (by omega)
      dsimp only at e3 e4
      have hej : j ≤ e := by
        apply Nat.le_of_not_lt; intro hlt
        have h4 := e4 (by omega)
        have := hj3 (j - e) (by omega) (by omega) (by omega)
        rw [show c - (j - e) = c - j + e by omega, show c + j - (j - e) = c + e by omega] at this
        rw [this] at h4; omega
      have hlt : SLt (fun i => f (N i)) l c (c + j) := by
        refine ⟨e - j, by omega, by omega, ?_, ?_⟩
        · intro i hi
          have := e3 (j + i) (by omega)
          rw [show c - j + (j + i) = c + i by omega, show c + (j + i) = c + j + i by omega] at this
          exact this
        · intro _
          have := e4 (by omega)
          rw [show c - j + e = c + (e - j) by omega, show c + e = c + j + (e - j) by omega] at this
          exact this
      exact hlt.asymm (h.max (c + j) (by omega) (by omega))
    · refine ⟨by omega, ?_⟩
      -- the suffix at c + j is below c in both orders
      obtain ⟨e, e1, e2, e3, e4⟩ := h.max (c + j) hj2 (by omega)
      obtain ⟨d, d1, d2, d3, d4⟩ := h'.max (c' + j) (by omega) (by omega)
      dsimp only at e3 e4 d3 d4
      have hd : c - c' ≤ d := by
        apply Nat.le_of_not_lt; intro hlt
        have h4 := d4 (by omega)
        have := hj3 (c - c' - d) (by omega) (by omega) (by omega)
        rw [show c - (c - c' - d) = c' + d by omega, show c + j - (c - c' - d) = c' + j + d by omega] at this
        rw [this] at h4; omega
      have hend : c + j + e = l := by
        apply Nat.le_antisymm e1
        apply Nat.le_of_not_lt; intro hlt
        have hx := e4 hlt
        rcases Nat.lt_trichotomy (d - (c - c')) e with hc | hc | hc
        · have h3 := e3 _ hc
          have h4 := d4 (by omega)
          rw [show c' + j + d = c + j + (d - (c - c')) by omega, show c' + d = c + (d - (c - c')) by omega, hf _ _ h3] at h4
          omega
        · have h4 := d4 (by omega)
          rw [show c' + j + d = c + j + e by omega, show c' + d = c + e by omega] at h4
          exact hfg _ _ hx h4
        · have h3 := d3 (e + (c - c')) (by omega)
          rw [show c' + j + (e + (c - c')) = c + j + e by omega, show c' + (e + (c - c')) = c + e by omega] at h3
          rw [hg _ _ h3] at hx
          omega
      intro i hi
      by_cases hic : i < c
      · have := hj3 (c - i) (by omega) (by omega) (by omega)
        rw [show c - (c - i) = i by omega, show c + j - (c - i) = i + j by omega] at this
        exact this
      · have := hf _ _ (e3 (i - c) (by omega))
        rw [show c + j + (i - c) = i + j by omega, show c + (i - c) = i by omega] at this
        exact this.symm
  · intro j hj hjp
    obtain ⟨i, i1, i2, i3⟩ := h.min j hj hjp
    exact ⟨i, i1, i2, fun e => i3 (by simp only [e])⟩
  · intro j hj hjc hall
    have hap := h.ap
    obtain ⟨e, e1, e2, e3, e4⟩ := h.max (c - j) (by omega) (by omega)
    dsimp only at e3 e4
    have := e4 (by omega)
    rw [hall e e2] at this
    omega

theorem cutNeedle_spec (n : Bytes) (hn : n ≠ []) : ∃ c p, cutNeedle n = some (c, p) ∧ Crit (at' n) n.length c p := by
  have inj : ∀ u v : UInt8, u.toNat = v.toNat → u = v := fun u v h => UInt8.toNat_inj.mp h
  have inj' : ∀ u v : UInt8, 255 - u.toNat = 255 - v.toNat → u = v := by
    intro u v h
    have := u.toNat_lt; have := v.toNat_lt
    exact inj _ _ (by omega)
  obtain ⟨c1, p1, e1, m1⟩ := maxSuffix_start (fun x y => decide (x > y)) (fun u => u.toNat) (by intro u v; simp [UInt8.lt_iff_toNat_lt]) inj n hn
  obtain ⟨c2, p2, e2, m2⟩ := maxSuffix_start (fun x y => decide (x < y)) (fun u => 255 - u.toNat)
    (by intro u v; have := u.toNat_lt; have := v.toNat_lt; simp [UInt8.lt_iff_toNat_lt]; omega) inj' n hn
  unfold cutNeedle
  rw [e1, e2]
  simp only
  by_cases hc : c2 > c1
  · rw [if_pos hc]
    exact ⟨_, _, rfl, crit_of _ _ _ _ inj' inj (by intro u v; have := u.toNat_lt; have := v.toNat_lt; omega) _ _ _ _ m2 m1 (by omega)⟩
  · rw [if_neg hc]
    exact ⟨_, _, rfl, crit_of _ _ _ _ inj inj' (by intro u v; have := u.toNat_lt; have := v.toNat_lt; omega) _ _ _ _ m1 m2 (by omega)⟩

/-! ## the tables -/

theorem bitTest_set (ws : List Nat) (hw : ws.length = 4) (c b : UInt8) :
    (bitSet ws c).length = 4 ∧ bitTest (bitSet ws c) b = (bitTest ws b).map (fun t => t || decide (b = c)) := by
  have hb := b.toNat_lt
  have hc := c.toNat_lt
  refine ⟨by simp [bitSet, hw], ?_⟩
  unfold bitTest bitSet
  rw [List.getElem?_modify]
  have tb : ∀ w k, (w &&& 1 <<< k != 0) = Nat.testBit w k := by
    intro w k
    cases h : w.testBit k with
    | false =>
      have : w &&& 1 <<< k = 0 := by
        apply Nat.eq_of_testBit_eq
        intro i
        by_cases hik : k = i
        · subst hik; simp [h]
        · rw [Nat.testBit_and, Nat.shiftLeft_eq, Nat.one_mul, Nat.testBit_two_pow]; simp [hik]
      simp [this]
    | true =>
      have : (w &&& 1 <<< k).testBit k = true := by
        rw [Nat.testBit_and, Nat.shiftLeft_eq, Nat.one_mul, Nat.testBit_two_pow]; simp [h]
      simp only [bne_iff_ne, ne_eq]
      intro e; rw [e] at this; simp at this
  simp only [tb]
  cases hg : ws[b.toNat / 64]? with
  | none => simp
  | some w =>
    by_cases hq : c.toNat / 64 = b.toNat / 64
    · have e1 : Nat.testBit (w ||| 1 <<< (c.toNat % 64)) (b.toNat % 64) = (Nat.testBit w (b.toNat % 64) || decide (c.toNat % 64 = b.toNat % 64)) := by
        rw [Nat.testBit_or, Nat.shiftLeft_eq, Nat.one_mul, Nat.testBit_two_pow]
      simp only [hq, if_true, Option.map_some, Option.map_eq_map, e1]
      have : (c.toNat % 64 = b.toNat % 64) ↔ b = c := by
        rw [← UInt8.toNat_inj]; omega
      simp only [this]
    · have : b ≠ c := by intro e; subst e; exact hq rfl
      simp [hq, this]

/-- the tables hold the bytes of the needle and where each is last -/
theorem fillTables_spec : ∀ (n : Bytes) (i : Nat) (bs : List Nat) (sh : UInt8 → Option Nat), bs.length = 4 →
    ∀ b, (bitTest (fillTables n i bs sh).1 b = (bitTest bs b).map (fun t => t || decide (b ∈ n))) ∧
      ((b ∉ n → (fillTables n i bs sh).2 b = sh b) ∧
        (b ∈ n → ∃ j, j < n.length ∧ (fillTables n i bs sh).2 b = some (i + j + 1) ∧ at' n j = b ∧ ∀ k, j < k → k < n.length → at' n k ≠ b)) := by
  intro n
  induction n with
  | nil => intro i bs sh hbs b; simp [fillTables]
  | cons c r ih =>
    intro i bs sh hbs b
    obtain ⟨h4, ht⟩ := bitTest_set bs hbs c b
    obtain ⟨ih1, ih2, ih3⟩ := ih (i + 1) (bitSet bs c) (fun x => if x = c then some (i + 1) else sh x) h4 b
    rw [fillTables]
    refine ⟨?_, ?_, ?_⟩
    · rw [ih1, ht]; simp [Function.comp_def, Bool.or_assoc]
    · intro hb
      simp only [List.mem_cons, not_or] at hb
      rw [ih2 hb.2, if_neg hb.1]
    · intro hb
      by_cases hr : b ∈ r
      · obtain ⟨j, j1, j2, j3, j4⟩ := ih3 hr
        refine ⟨j + 1, by simpa using j1, by rw [j2]; congr 1; omega, by simpa [at'] using j3, ?_⟩
        intro k hk hkl
        cases k with
        | zero => omega
        | succ k => simpa [at'] using j4 k (by omega) (by simpa using hkl)
      · have hbc : b = c := by
          rcases List.mem_cons.mp hb with h | h
          · exact h
          · exact absurd h hr
        refine ⟨0, by simp, by rw [ih2 hr, if_pos hbc], by simp [at', hbc], ?_⟩
        intro k hk hkl
        cases k with
        | zero => omega
        | succ k =>
          intro e
          apply hr
          have hk : k < r.length := by simpa using hkl
          have : at' (c :: r) (k + 1) = r[k] := by simp [at', hk]
          rw [← e, this]; exact List.getElem_mem hk

/-! ## the search -/

/-- the needle occurs at `q` -/
def Occ (n h : Bytes) (q : Nat) : Prop := q + n.length ≤ h.length ∧ ∀ i, i < n.length → at' h (q + i) = at' n i

theorem mem_at' (n : Bytes) (b : UInt8) : b ∈ n ↔ ∃ i, i < n.length ∧ at' n i = b := by
  rw [List.mem_iff_getElem]
  constructor
  · rintro ⟨i, h, e⟩; exact ⟨i, h, by simp [at', h, e]⟩
  · rintro ⟨i, h, e⟩; exact ⟨i, h, by simpa [at', h] using e⟩

/-- the last byte of the window -/
theorem lastByte_spec (n : Bytes) (hn : n ≠ []) (mem : Nat) (b : UInt8) (bs : List Nat) (sh : UInt8 → Option Nat)
    (ht : fillTables n 0 [0, 0, 0, 0] (fun _ => none) = (bs, sh)) :
    (lastByte bs sh n.length mem b = some none ∧ at' n (n.length - 1) = b) ∨
      (∃ k, lastByte bs sh n.length mem b = some (some (max k mem)) ∧ 1 ≤ k ∧ k ≤ n.length ∧ ∀ j, j < k → at' n (n.length - 1 - j) ≠ b) ∨
      (lastByte bs sh n.length mem b = some (some n.length) ∧ b ∉ n) := by
  have hl : 1 ≤ n.length := by
    cases n with
    | nil => exact absurd rfl hn
    | cons => simp
  have hb := b.toNat_lt
  obtain ⟨h1, h2, h3⟩ := fillTables_spec n 0 [0, 0, 0, 0] (fun _ => none) rfl b
  have h0 : bitTest [0, 0, 0, 0] b = some false := by
    unfold bitTest
    have : b.toNat / 64 = 0 ∨ b.toNat / 64 = 1 ∨ b.toNat / 64 = 2 ∨ b.toNat / 64 = 3 := by omega
    rcases this with h | h | h | h <;> simp [h]
  rw [ht] at h1 h2 h3
  dsimp only at h1 h2 h3
  rw [h0] at h1
  simp only [Option.map_some, Bool.false_or] at h1
  unfold lastByte
  rw [h1]
  by_cases hbn : b ∈ n
  · simp only [hbn, decide_true]
    obtain ⟨j, j1, j2, j3, j4⟩ := h3 hbn
    rw [j2]
    simp only
    rw [if_neg (by omega)]
    by_cases hj : n.length - (0 + j + 1) ≠ 0
    · rw [if_pos hj]
      refine Or.inr (Or.inl ⟨n.length - (0 + j + 1), ?_, by omega, by omega, ?_⟩)
      · congr 2
        split <;> omega
      · intro t ht; exact j4 _ (by omega) (by omega)
    · rw [if_neg hj]
      refine Or.inl ⟨rfl, ?_⟩
      rw [show n.length - 1 = j by omega]; exact j3
  · right; right
    refine ⟨?_, hbn⟩
    simp only [hbn, decide_false]

theorem cmpRight_spec (n h : Bytes) (pos : Nat) (hw : pos + n.length ≤ h.length) : ∀ d k, k + d = n.length →
    ∃ k', cmpRight n h pos d k = some k' ∧ k ≤ k' ∧ k' ≤ n.length ∧ (∀ i, k ≤ i → i < k' → at' n i = at' h (pos + i)) ∧
      (k' < n.length → at' n k' ≠ at' h (pos + k')) := by
  intro d
  induction d with
  | zero => intro k hk; exact ⟨k, rfl, by omega, by omega, by intro i; omega, by omega⟩
  | succ d ih =>
    intro k hk
    rw [cmpRight, at'_of n _ (by omega), at'_of h _ (by omega)]
    simp only
    by_cases he : at' n k = at' h (pos + k)
    · rw [if_pos he]
      obtain ⟨k', e, h1, h2, h3, h4⟩ := ih (k + 1) (by omega)
      refine ⟨k', e, by omega, h2, ?_, h4⟩
      intro i hi hik
      by_cases hik' : i = k
      · subst hik'; exact he
      · exact h3 i (by omega) hik
    · rw [if_neg he]
      exact ⟨k, rfl, by omega, by omega, by intro i; omega, fun _ => he⟩

theorem cmpLeft_spec (n h : Bytes) (pos mem : Nat) (hw : pos + n.length ≤ h.length) : ∀ k, k ≤ n.length →
    ∃ k', cmpLeft n h pos mem k = some k' ∧ k' ≤ k ∧
      (k' ≤ mem → ∀ i, mem ≤ i → i < k → at' n i = at' h (pos + i)) ∧
      (mem < k' → at' n (k' - 1) ≠ at' h (pos + (k' - 1))) := by
  intro k
  induction k with
  | zero => intro _; exact ⟨0, rfl, by omega, by intro _ i; omega, by omega⟩
  | succ k ih =>
    intro hk
    rw [cmpLeft]
    by_cases hm : k + 1 > mem
    · rw [if_pos hm, at'_of n _ (by omega), at'_of h _ (by omega)]
      simp only
      by_cases he : at' n k = at' h (pos + k)
      · rw [if_pos he]
        obtain ⟨k', e, h1, h2, h3⟩ := ih (by omega)
        refine ⟨k', e, by omega, ?_, h3⟩
        intro hkm i hi hik
        by_cases hik' : i = k
        · subst hik'; exact he
        · exact h2 hkm i hi (by omega)
      · rw [if_neg he]
        exact ⟨k + 1, rfl, by omega, by omega, fun _ => by simpa using he⟩
    · rw [if_neg hm]
      exact ⟨k + 1, rfl, by omega, by intro _ i; omega, by omega⟩

/-- what `p` and `mem0` mean for the search -/
structure Shift (n : Bytes) (c q mem0 : Nat) : Prop where
  hq : 1 ≤ q
  ql : q ≤ n.length
  /-- with the right half matching and an earlier byte not, no occurrence starts before `q` -/
  skip : ∀ j, 1 ≤ j → j < q → ¬ ∀ i, c ≤ i + j → i + j < n.length → at' n i = at' n (i + j)
  /-- what is remembered -/
  mem : mem0 = 0 ∨ (mem0 + q = n.length ∧ c < q ∧ ∀ i, i + q < n.length → at' n i = at' n (i + q))

theorem shiftOf_spec (n : Bytes) (c p : Nat) (h : Crit (at' n) n.length c p) : ∃ q mem0, shiftOf n c p = some (q, mem0) ∧ Shift n c q mem0 := by
  have hcp := h.cp
  have hp := h.hp
  unfold shiftOf sameAfter
  rw [if_pos (by omega)]
  have hs : n.take c = (n.drop p).take c ↔ ∀ i, i < c → at' n i = at' n (i + p) := by
    rw [List.ext_getElem?_iff]
    constructor
    · intro hall i hi
      have := hall i
      rw [List.getElem?_take_of_lt hi, List.getElem?_take_of_lt hi, List.getElem?_drop, at'_of n _ (by omega), at'_of n _ (by omega)] at this
      rw [Option.some.inj this, Nat.add_comm]
    · intro hall i
      by_cases hi : i < c
      · rw [List.getElem?_take_of_lt hi, List.getElem?_take_of_lt hi, List.getElem?_drop, at'_of n _ (by omega), at'_of n _ (by omega),
          hall i hi, Nat.add_comm]
      · rw [List.getElem?_eq_none, List.getElem?_eq_none]
        · simp; omega
        · simp; omega
  cases hb : n.take c == (n.drop p).take c with
  | true =>
    simp only
    have heq := hs.mp (by simpa using hb)
    have hper : ∀ i, i + p < n.length → at' n i = at' n (i + p) := by
      intro i hi
      by_cases hic : i < c
      · exact heq i hic
      · exact h.per i (by omega) hi
    have hcp' := (h.loc p ⟨hp, hcp, by
      intro i h1 h2 h3
      rw [hper (c - i) (by omega)]; congr 1; omega⟩).1
    refine ⟨p, n.length - p, rfl, hp, by omega, ?_, Or.inr ⟨by omega, hcp', hper⟩⟩
    intro j hj hjp hall
    have := h.loc j ⟨hj, by omega, by
      intro i h1 h2 h3
      rw [hall (c - i) (by omega) (by omega)]; congr 1; omega⟩
    obtain ⟨i, i1, i2, i3⟩ := h.min j hj hjp
    exact i3 (this.2 i i2)
  | false =>
    simp only
    have hne : ¬ ∀ i, i < c → at' n i = at' n (i + p) := by
      intro hall
      have := hs.mpr hall
      simp [this] at hb
    have hc : c ≠ 0 := by intro e; subst e; exact hne (by omega)
    rw [if_neg hc]
    refine ⟨max (c - 1) (n.length - c) + 1, 0, rfl, by omega, by omega, ?_, Or.inl rfl⟩
    intro j hj hjq hall
    by_cases hjl : j ≤ n.length - c
    · have hj2 := h.loc j ⟨hj, by omega, by
        intro i h1 h2 h3
        rw [hall (c - i) (by omega) (by omega)]; congr 1; omega⟩
      -- reduce it modulo the period of the right half
      have hdiv : j = ((j - 1) / p) * p + ((j - 1) % p + 1) := by
        have := Nat.div_add_mod (j - 1) p
        rw [Nat.mul_comm] at this; omega
      generalize (j - 1) / p = r at hdiv
      have hlt : (j - 1) % p < p := Nat.mod_lt _ (by omega)
      generalize hj' : (j - 1) % p + 1 = j' at hdiv
      have pm := period_mul (x := at' n) (a := c) (m := n.length) (p := p) h.per hp r
      have hl' := h.loc j' ⟨by omega, by omega, by
        intro i h1 h2 h3
        rw [hj2.2 (c - i) (by omega), show c - i + j = (c + j' - i) + r * p by omega]
        exact (pm (c + j' - i) (by omega) (by omega)).symm⟩
      have hjp : j' = p := by
        by_cases hlt' : j' < p
        · obtain ⟨i, i1, i2, i3⟩ := h.min j' (by omega) hlt'
          exact absurd (hl'.2 i i2) i3
        · omega
      rw [hjp] at hl'
      exact hne (fun i hi => hl'.2 i (by omega))
    · refine h.own j hj (by omega) ?_
      intro i hi
      rw [hall (c - j + i) (by omega) (by omega)]; congr 1; omega

/-- the search, from any state it can be in -/
theorem twowayLoop_spec (n h : Bytes) (hn : n ≠ []) (bs : List Nat) (sh : UInt8 → Option Nat) (ht : fillTables n 0 [0, 0, 0, 0] (fun _ => none) = (bs, sh))
    (c p q mem0 : Nat) (hc : Crit (at' n) n.length c p) (hs : Shift n c q mem0) :
    ∀ fuel pos mem, h.length + 2 ≤ fuel + pos → pos ≤ h.length → (∀ j, j < pos → ¬ Occ n h j) →
      (mem = 0 ∨ (mem = mem0 ∧ ∀ i, i < mem → at' h (pos + i) = at' n i)) →
      ∃ r, twowayLoop n h bs sh c q mem0 fuel pos mem = some r ∧
        ((r = none ∧ ∀ j, ¬ Occ n h j) ∨ ∃ k, r = some k ∧ Occ n h k ∧ ∀ j, j < k → ¬ Occ n h j) := by
  have hl : 1 ≤ n.length := by
    cases n with
    | nil => exact absurd rfl hn
    | cons => simp
  have hcp := hc.cp
  have hp1 := hc.hp
  intro fuel
  induction fuel with
  | zero => intro pos mem hf hpos; omega
  | succ fuel ih =>
    intro pos mem hf hpos hno hmem
    rw [twowayLoop, if_neg (by omega)]
    by_cases hend : h.length - pos < n.length
    · rw [if_pos hend]
      refine ⟨none, rfl, Or.inl ⟨rfl, ?_⟩⟩
      intro j hj
      by_cases hjp : j < pos
      · exact hno j hjp hj
      · have := hj.1; omega
    rw [if_neg hend, at'_of h _ (by omega)]
    simp only
    have hm0 : mem0 + 1 ≤ n.length := by
      have := hs.hq
      rcases hs.mem with h0 | ⟨h0, -⟩ <;> omega
    -- moving on by k, remembering nothing
    have go : ∀ k, 1 ≤ k → k ≤ n.length → (∀ j, j < k → ¬ Occ n h (pos + j)) →
        ∃ r, twowayLoop n h bs sh c q mem0 fuel (pos + k) 0 = some r ∧
        ((r = none ∧ ∀ j, ¬ Occ n h j) ∨ ∃ k, r = some k ∧ Occ n h k ∧ ∀ j, j < k → ¬ Occ n h j) := by
      intro k hk hkl hko
      refine ih (pos + k) 0 (by omega) (by omega) ?_ (Or.inl rfl)
      intro j hj hocc
      by_cases hjp : j < pos
      · exact hno j hjp hocc
      · exact hko (j - pos) (by omega) (by rw [show pos + (j - pos) = j by omega]; exact hocc)
    rcases lastByte_spec n hn mem (at' h (pos + (n.length - 1))) bs sh ht with ⟨e, hb⟩ | ⟨k, e, k1, k2, k3⟩ | ⟨e, hb⟩
    · rw [e]
      simp only
      have hmx : max c mem ≤ n.length := by rcases hmem with h0 | ⟨h0, -⟩ <;> omega
      obtain ⟨k, e1, r1, r2, r3, r4⟩ := cmpRight_spec n h pos (by omega) (n.length - max c mem) (max c mem) (by omega)
      rw [e1]
      simp only
      -- the right half up to k
      have right : ∀ i, c ≤ i → i < k → at' n i = at' h (pos + i) := by
        intro i hi hik
        by_cases hm : i < mem
        · rcases hmem with h0 | ⟨-, h1⟩
          · omega
          · exact (h1 i hm).symm
        · exact r3 i (by omega) hik
      by_cases hk : k < n.length
      · rw [if_pos hk]
        apply go (k + 1 - c) (by omega) (by omega)
        intro j hj hocc
        by_cases hj0 : j = 0
        · subst hj0
          exact r4 hk (hocc.2 k hk).symm
        · have hloc := hc.loc j ⟨by omega, by omega, by
            intro i h1 h2 h3
            rw [right (c + j - i) (by omega) (by omega), ← hocc.2 (c - i) (by omega)]
            congr 1; omega⟩
          apply r4 hk
          have h1 := hloc.2 (k - j) (by omega)
          rw [show k - j + j = k by omega] at h1
          rw [← h1, ← hocc.2 (k - j) (by omega)]
          congr 1; omega
      · rw [if_neg hk]
        obtain ⟨k', e2, l1, l2, l3⟩ := cmpLeft_spec n h pos mem (by omega) c (by omega)
        rw [e2]
        simp only
        by_cases hkm : k' ≤ mem
        · rw [if_pos hkm]
          refine ⟨_, rfl, Or.inr ⟨pos, rfl, ⟨by omega, ?_⟩, hno⟩⟩
          intro i hi
          by_cases hic : c ≤ i
          · exact (right i hic (by omega)).symm
          · by_cases him : i < mem
            · rcases hmem with h0 | ⟨-, h1⟩
              · omega
              · exact h1 i him
            · exact (l2 hkm i (by omega) (by omega)).symm
        · rw [if_neg hkm]
          have hq := hs.hq
          have hql := hs.ql
          refine ih (pos + q) mem0 (by omega) (by omega) ?_ ?_
          · intro j hj hocc
            by_cases hjp : j < pos
            · exact hno j hjp hocc
            · by_cases hj0 : j = pos
              · subst hj0
                exact l3 (by omega) (hocc.2 (k' - 1) (by omega)).symm
              · apply hs.skip (j - pos) (by omega) (by omega)
                intro i h1 h2
                rw [← hocc.2 i (by omega), right (i + (j - pos)) h1 (by omega)]
                congr 1; omega
          · rcases hs.mem with h0 | ⟨h0, h1, h2⟩
            · exact Or.inl h0
            · right
              refine ⟨rfl, ?_⟩
              intro i hi
              rw [h2 i (by omega), right (i + q) (by omega) (by omega)]
              congr 1; omega
    · rw [e]
      simp only
      apply go (max k mem) (by omega) (by rcases hmem with h0 | ⟨h0, -⟩ <;> omega)
      intro j hj hocc
      by_cases hjk : j < k
      · apply k3 j hjk
        rw [← hocc.2 (n.length - 1 - j) (by omega)]
        congr 1; omega
      · -- only what is remembered justifies the longer step
        rcases hmem with h0 | ⟨h0, h1⟩
        · omega
        · rcases hs.mem with g0 | ⟨g0, g1, g2⟩
          · omega
          · apply k3 0 (by omega)
            have a1 := g2 (n.length - 1 - q) (by omega)
            rw [show n.length - 1 - q + q = n.length - 1 by omega] at a1
            have a2 := h1 (n.length - 1 - q) (by omega)
            have a3 := hocc.2 (n.length - 1 - q - j) (by omega)
            rw [show pos + j + (n.length - 1 - q - j) = pos + (n.length - 1 - q) by omega] at a3
            have a4 := g2 (n.length - 1 - q - j) (by omega)
            rw [show n.length - 1 - q - j + q = n.length - 1 - j by omega] at a4
            have a5 := hocc.2 (n.length - 1 - j) (by omega)
            rw [show pos + j + (n.length - 1 - j) = pos + (n.length - 1) by omega] at a5
            rw [show n.length - 1 - 0 = n.length - 1 by omega, ← a1, ← a2, a3, a4, ← a5]
    · rw [e]
      simp only
      apply go n.length hl (Nat.le_refl _)
      intro j hj hocc
      apply hb
      rw [mem_at']
      refine ⟨n.length - 1 - j, by omega, ?_⟩
      rw [← hocc.2 (n.length - 1 - j) (by omega)]
      congr 1; omega

theorem occ_iff (n h : Bytes) (hn : n ≠ []) (q : Nat) : Occ n h q ↔ n <+: h.drop q := by
  constructor
  · rintro ⟨h1, h2⟩
    rw [List.prefix_iff_eq_take, List.ext_getElem?_iff]
    intro i
    by_cases hi : i < n.length
    · rw [List.getElem?_take_of_lt hi, List.getElem?_drop, at'_of n i hi, at'_of h _ (by omega), h2 i hi]
    · rw [List.getElem?_eq_none (by omega), List.getElem?_eq_none (by simp; omega)]
  · rintro ⟨t, ht⟩
    have hlen := congrArg List.length ht
    simp only [List.length_append, List.length_drop] at hlen
    have : 1 ≤ n.length := by
      cases n with
      | nil => exact absurd rfl hn
      | cons => simp
    refine ⟨by omega, ?_⟩
    intro i hi
    have h1 : (h.drop q)[i]? = n[i]? := by rw [← ht, List.getElem?_append_left hi]
    rw [List.getElem?_drop, at'_of n i hi, at'_of h _ (by omega)] at h1
    exact Option.some.inj h1

/-- twoway_memmem finds the first occurrence of any non-empty needle -/
theorem twoway_spec (h n : Bytes) (hn : n ≠ []) : ∃ r, twoway h n = some r ∧
    ((r = none ∧ ∀ j, ¬ n <+: h.drop j) ∨ ∃ k, r = some k ∧ n <+: h.drop k ∧ ∀ j, j < k → ¬ n <+: h.drop j) := by
  obtain ⟨c, p, e1, hc⟩ := cutNeedle_spec n hn
  obtain ⟨q, mem0, e2, hs⟩ := shiftOf_spec n c p hc
  unfold twoway
  rw [e1]
  simp only [e2]
  have := twowayLoop_spec n h hn _ _ rfl c p q mem0 hc hs (h.length + 2) 0 0 (by omega) (by omega) (by omega) (Or.inl rfl)
  simpa only [occ_iff n h hn] using this

end Gmid.TW
