import Verif.Model.Ge
import Verif.Spec.Ge

/-! # C108 (the data directory of gemexp) and C109 (the certificate it generates) -/

set_option autoImplicit false

namespace Gmid.Props
open Spec

/-! ## dirname(3) -/

theorem trimSlash_name (p a : Bytes) (h : PathName a) : trimSlash (p ++ a) = p ++ a := by
  unfold trimSlash
  obtain ⟨x, y, e⟩ : ∃ x y, a.reverse = x :: y := by
    cases hx : a.reverse with
    | nil => exact absurd (by simpa using hx) h.1
    | cons x y => exact ⟨x, y, rfl⟩
  have hm : x ∈ a := by rw [← List.mem_reverse, e]; simp
  have hx : ¬ (x == c%'/') = true := by
    intro hh
    simp at hh
    subst hh
    exact h.2 hm
  have e2 : (p ++ a).reverse = x :: (y ++ p.reverse) := by rw [List.reverse_append, e]; rfl
  rw [e2, List.dropWhile_cons_of_neg (p := fun x => x == c%'/') hx, ← e2, List.reverse_reverse]

theorem trimSlash_slash (p : Bytes) : trimSlash (p ++ [c%'/']) = trimSlash p := by
  simp [trimSlash]

theorem upToSlash (p a : Bytes) (h : PathName a) : ((p ++ c%'/' :: a).reverse.dropWhile (· != c%'/')).reverse = p ++ [c%'/'] := by
  have e : (p ++ c%'/' :: a).reverse = a.reverse ++ c%'/' :: p.reverse := by simp
  rw [e, List.dropWhile_append_of_pos (by
    intro x hx
    simp only [bne_iff_ne, ne_eq]
    rintro rfl
    exact h.2 (List.mem_reverse.1 hx))]
  rw [List.dropWhile_cons_of_neg (by simp)]
  simp

theorem absPath_snoc (l : List Bytes) (a : Bytes) : absPath (l ++ [a]) = absPath l ++ c%'/' :: a := by
  induction l with
  | nil => simp [absPath]
  | cons x r ih => simp [absPath, ih]

theorem absPath_head (l : List Bytes) (h : l ≠ []) : (absPath l).head? = some c%'/' := by
  cases l with
  | nil => exact absurd rfl h
  | cons a r => rfl

/-- the parent of an absolute path -/
theorem dirname_abs (two : Bool) (l : List Bytes) (a : Bytes) (hl : ∀ x ∈ l, PathName x) (ha : PathName a) :
    dirname two (absPath (l ++ [a])) = if l = [] then b%"/" else absPath l := by
  have e : absPath (l ++ [a]) = absPath l ++ c%'/' :: a := absPath_snoc l a
  have e1 : absPath l ++ c%'/' :: a = (absPath l ++ [c%'/']) ++ a := by simp
  unfold dirname
  dsimp only
  rw [if_neg (by rw [e]; simp)]
  have hq : trimSlash (absPath (l ++ [a])) = absPath l ++ c%'/' :: a := by
    rw [e, e1]; exact trimSlash_name _ _ ha
  rw [hq, if_neg (by simp), upToSlash _ _ ha, if_neg (by simp), trimSlash_slash]
  by_cases h : l = []
  · subst h
    rw [if_pos (by rfl)]
    cases two <;> rfl
  · obtain ⟨l', b, rfl⟩ : ∃ l' b, l = l' ++ [b] := ⟨l.dropLast, l.getLast h, (List.dropLast_concat_getLast h).symm⟩
    have hb : PathName b := hl b (by simp)
    have : trimSlash (absPath (l' ++ [b])) = absPath (l' ++ [b]) := by
      rw [absPath_snoc]
      have e2 : absPath l' ++ c%'/' :: b = (absPath l' ++ [c%'/']) ++ b := by simp
      rw [e2]; exact trimSlash_name _ _ hb
    rw [this, if_neg (by rw [absPath_snoc]; simp), if_neg h]

/-! ## mkdirs -/

/-- the directory is missing and cannot be made: it may not, or there is no place for it -/
def Stuck (t : DirTree) (names : List Bytes) : Prop :=
  ∃ k, 2 ≤ k ∧ k ≤ names.length ∧ t.has (absPath (names.take k)) = false ∧
    (t.may (absPath (names.take k)) = false ∨ (k = 2 ∧ t.has (absPath (names.take 1)) = false))

theorem absPath_length (l : List Bytes) : l.length ≤ (absPath l).length := by
  induction l with
  | nil => simp [absPath]
  | cons a r ih => simp [absPath]; omega

theorem absPath_inj_length {l m : List Bytes} (hl : ∀ x ∈ l, PathName x) (hm : ∀ x ∈ m, PathName x) (h : absPath l = absPath m) : l = m := by
  induction l generalizing m with
  | nil =>
    cases m with
    | nil => rfl
    | cons b s => simp [absPath] at h
  | cons a r ih =>
    cases m with
    | nil => simp [absPath] at h
    | cons b s =>
      simp only [absPath, List.cons.injEq, true_and] at h
      have ha := hl a (by simp)
      have hb := hm b (by simp)
      -- the two names end where the next slash, or the end, is
      have key : ∀ (x y : Bytes) (u v : List Bytes), c%'/' ∉ x → c%'/' ∉ y → x ++ absPath u = y ++ absPath v → x = y ∧ absPath u = absPath v := by
        intro x
        induction x with
        | nil =>
          intro y u v _ hy e
          cases y with
          | nil => exact ⟨rfl, e⟩
          | cons c y =>
            cases u with
            | nil => simp [absPath] at e
            | cons w u =>
              simp only [absPath, List.nil_append, List.cons_append, List.cons.injEq] at e
              exact absurd (by rw [← e.1]; simp) hy
        | cons c x ihx =>
          intro y u v hx hy e
          cases y with
          | nil =>
            cases v with
            | nil => simp [absPath] at e
            | cons w v =>
              simp only [absPath, List.nil_append, List.cons_append, List.cons.injEq] at e
              exact absurd (by rw [e.1]; simp) hx
          | cons d y =>
            simp only [List.cons_append, List.cons.injEq] at e
            obtain ⟨k1, k2⟩ := ihx y u v (fun hh => hx (by simp [hh])) (fun hh => hy (by simp [hh])) e.2
            exact ⟨by rw [e.1, k1], k2⟩
      obtain ⟨k1, k2⟩ := key a b r s ha.2 hb.2 h
      rw [k1, ih (fun x hx => hl x (by simp [hx])) (fun x hx => hm x (by simp [hx])) k2]

/-- everything about mkdirs on an absolute path -/
theorem mkdirs_abs (two : Bool) (t : DirTree) (l : List Bytes) : ∀ (a : Bytes), (∀ x ∈ l ++ [a], PathName x) → (absPath (l ++ [a])).length ≤ 4096 →
    ∀ (n : Nat), l.length < n → ∀ (c0 : List Bytes),
    (¬ Stuck t (l ++ [a]) → ∃ t' calls, mkdirs two n (absPath (l ++ [a])) (t, c0) = some (.go (t', calls)) ∧ t'.may = t.may ∧
      (∀ p, t'.has p = true ↔ t.has p = true ∨ ∃ k, 2 ≤ k ∧ k ≤ (l ++ [a]).length ∧ p = absPath ((l ++ [a]).take k)) ∧
      calls = c0 ++ (List.range' 2 ((l ++ [a]).length - 1)).map (fun k => absPath ((l ++ [a]).take k))) ∧
    (Stuck t (l ++ [a]) → mkdirs two n (absPath (l ++ [a])) (t, c0) = some (.exit 1)) := by
  induction hm : l.length generalizing l with
  | zero =>
    intro a ha hlen n hn c0
    have hl : l = [] := List.eq_nil_of_length_eq_zero hm
    subst hl
    obtain ⟨n, rfl⟩ : ∃ m, n = m + 1 := ⟨n - 1, by omega⟩
    have e : mkdirs two (n + 1) (absPath ([] ++ [a])) (t, c0) = some (.go (t, c0)) := by
      rw [mkdirs, if_neg (by omega)]
      dsimp only
      rw [dirname_abs two [] a (by simp) (ha a (by simp)), if_pos rfl, if_pos rfl]
    refine ⟨fun _ => ⟨t, c0, e, rfl, ?_, by simp⟩, ?_⟩
    · intro p
      constructor
      · exact .inl
      · rintro (h | ⟨k, k1, k2, -⟩)
        · exact h
        · simp at k2; omega
    · rintro ⟨k, k1, k2, -⟩
      simp at k2; omega
  | succ m ih =>
    intro a ha hlen n hn c0
    have hl : l ≠ [] := by intro e; subst e; simp at hm
    obtain ⟨n, rfl⟩ : ∃ m, n = m + 1 := ⟨n - 1, by omega⟩
    obtain ⟨l', b, rfl⟩ : ∃ l' b, l = l' ++ [b] := ⟨l.dropLast, l.getLast hl, (List.dropLast_concat_getLast hl).symm⟩
    have hnames : ∀ x ∈ l' ++ [b], PathName x := fun x hx => ha x (by simp at hx ⊢; rcases hx with h | h <;> simp [h])
    have hlen' : (absPath (l' ++ [b])).length ≤ 4096 := by
      rw [absPath_snoc, List.length_append] at hlen; omega
    have hl' : l'.length = m := by simpa using hm
    have IH := ih l' hl' b hnames hlen' n (by omega) c0
    have hd := dirname_abs two (l' ++ [b]) a hnames (ha a (by simp))
    rw [if_neg (by simp)] at hd
    have hne : absPath (l' ++ [b]) ≠ b%"/" := by
      intro e
      have := congrArg List.length e
      rw [absPath_snoc] at this
      have hb := (hnames b (by simp)).1
      cases b with
      | nil => exact hb rfl
      | cons x y => simp at this; omega
    have hlast : (l' ++ [b] ++ [a]).take (m + 2) = l' ++ [b] ++ [a] := List.take_of_length_le (by simp; omega)
    have htake : ∀ k, k ≤ m + 1 → (l' ++ [b] ++ [a]).take k = (l' ++ [b]).take k := by
      intro k hk
      rw [List.take_append_of_le_length (by simp; omega)]
    have hL : (l' ++ [b] ++ [a]).length = m + 2 := by simp; omega
    have hL' : (l' ++ [b]).length = m + 1 := by simp; omega
    -- the recursive call
    have hsub : Stuck t (l' ++ [b]) → Stuck t (l' ++ [b] ++ [a]) := by
      rintro ⟨k, k1, k2, k3, k4⟩
      rw [hL'] at k2
      refine ⟨k, k1, by rw [hL]; omega, by rw [htake k k2]; exact k3, ?_⟩
      rw [htake k k2, htake 1 (by omega)]; exact k4
    have step : mkdirs two (n + 1) (absPath (l' ++ [b] ++ [a])) (t, c0) =
        match mkdirs two n (absPath (l' ++ [b])) (t, c0) with
        | none => none
        | some (.exit k) => some (.exit k)
        | some (.go s) =>
          match s.1.mkdir two (absPath (l' ++ [b] ++ [a])) with
          | (_, .failed) => some (.exit 1)
          | (t, _) => some (.go (t, s.2 ++ [absPath (l' ++ [b] ++ [a])])) := by
      rw [mkdirs, if_neg (by omega)]
      dsimp only
      rw [hd, if_neg hne]
      rfl
    by_cases hs : Stuck t (l' ++ [b])
    · refine ⟨fun h => absurd (hsub hs) h, fun _ => ?_⟩
      rw [step, IH.2 hs]
    · obtain ⟨t1, calls, e1, emay, ehas, ecalls⟩ := IH.1 hs
      rw [step, e1]
      dsimp only
      -- is the directory there already?
      have hpath : ∀ k, 2 ≤ k → k ≤ (l' ++ [b]).length → absPath (l' ++ [b] ++ [a]) ≠ absPath ((l' ++ [b]).take k) := by
        intro k _ hk e
        have := absPath_inj_length ha (fun x hx => hnames x (List.mem_of_mem_take hx)) e
        have := congrArg List.length this
        rw [hL, List.length_take, hL'] at this
        omega
      have hhas : t1.has (absPath (l' ++ [b] ++ [a])) = t.has (absPath (l' ++ [b] ++ [a])) := by
        rw [Bool.eq_iff_iff, ehas]
        constructor
        · rintro (h | ⟨k, k1, k2, k3⟩)
          · exact h
          · exact absurd k3 (hpath k k1 k2)
        · exact .inl
      have hparent : t1.has (absPath (l' ++ [b])) = true ↔ (m = 0 → t.has (absPath (l' ++ [b])) = true) := by
        rw [ehas]
        constructor
        · rintro (h | ⟨k, k1, k2, k3⟩) hm0
          · exact h
          · rw [hL'] at k2; omega
        · intro h
          by_cases hm0 : m = 0
          · exact .inl (h hm0)
          · exact .inr ⟨m + 1, by omega, by rw [hL']; omega, by rw [List.take_of_length_le (by rw [hL']; omega)]⟩
      have hcalls : c0 ++ (List.range' 2 ((l' ++ [b] ++ [a]).length - 1)).map (fun k => absPath ((l' ++ [b] ++ [a]).take k)) =
          calls ++ [absPath (l' ++ [b] ++ [a])] := by
        rw [ecalls, hL, hL']
        have : m + 2 - 1 = (m + 1 - 1) + 1 := by omega
        have e3 : (List.range' 2 (m + 1 - 1)).map (fun k => absPath ((l' ++ [b] ++ [a]).take k)) =
            (List.range' 2 (m + 1 - 1)).map (fun k => absPath ((l' ++ [b]).take k)) := by
          apply List.map_congr_left
          intro k hk
          rw [List.mem_range'_1] at hk
          rw [htake k (by omega)]
        rw [this, List.range'_concat, List.map_append, e3]
        simp only [List.map_cons, List.map_nil]
        rw [show 2 + 1 * (m + 1 - 1) = m + 2 by omega, hlast, List.append_assoc c0]
      have hset : ∀ p, (∃ k, 2 ≤ k ∧ k ≤ (l' ++ [b] ++ [a]).length ∧ p = absPath ((l' ++ [b] ++ [a]).take k)) ↔
          (∃ k, 2 ≤ k ∧ k ≤ (l' ++ [b]).length ∧ p = absPath ((l' ++ [b]).take k)) ∨ p = absPath (l' ++ [b] ++ [a]) := by
        intro p
        constructor
        · rintro ⟨k, k1, k2, k3⟩
          rw [hL] at k2
          by_cases hk : k ≤ m + 1
          · left; exact ⟨k, k1, by rw [hL']; exact hk, by rw [k3, htake k hk]⟩
          · right
            have : k = m + 2 := by omega
            rw [k3, this, hlast]
        · rintro (⟨k, k1, k2, k3⟩ | rfl)
          · rw [hL'] at k2
            exact ⟨k, k1, by rw [hL]; omega, by rw [k3, htake k k2]⟩
          · exact ⟨m + 2, by omega, by rw [hL]; exact Nat.le_refl _, by rw [hlast]⟩
      unfold DirTree.mkdir
      rw [hhas, emay, hd]
      by_cases h1 : t.has (absPath (l' ++ [b] ++ [a])) = true
      · rw [if_pos h1]
        have hns : ¬ Stuck t (l' ++ [b] ++ [a]) := by
          rintro ⟨k, k1, k2, k3, k4⟩
          rw [hL] at k2
          by_cases hk : k ≤ m + 1
          · apply hs
            rw [htake k hk] at k3 k4
            rw [htake 1 (by omega)] at k4
            exact ⟨k, k1, by rw [hL']; exact hk, k3, k4⟩
          · have : k = m + 2 := by omega
            rw [this, hlast, h1] at k3
            cases k3
        refine ⟨fun _ => ⟨t1, _, rfl, emay, fun p => ?_, hcalls.symm⟩, fun h => absurd h hns⟩
        rw [hset, ehas]
        constructor
        · rintro (h | h)
          · exact .inl h
          · exact .inr (.inl h)
        · rintro (h | h | rfl)
          · exact .inl h
          · exact .inr h
          · exact .inl h1
      · rw [if_neg h1]
        by_cases h2 : (t1.has (absPath (l' ++ [b])) && t.may (absPath (l' ++ [b] ++ [a]))) = true
        · rw [if_pos h2]
          simp only [Bool.and_eq_true] at h2
          have hns : ¬ Stuck t (l' ++ [b] ++ [a]) := by
            rintro ⟨k, k1, k2, k3, k4⟩
            rw [hL] at k2
            by_cases hk : k ≤ m + 1
            · apply hs
              rw [htake k hk] at k3 k4
              rw [htake 1 (by omega)] at k4
              exact ⟨k, k1, by rw [hL']; exact hk, k3, k4⟩
            · have hkk : k = m + 2 := by omega
              rw [hkk, hlast] at k4
              rcases k4 with k4 | ⟨k5, k6⟩
              · rw [h2.2] at k4; cases k4
              · have hm0 : m = 0 := by omega
                have := hparent.1 h2.1 hm0
                rw [htake 1 (by omega), List.take_of_length_le (by rw [hL']; omega), this] at k6
                cases k6
          refine ⟨fun _ => ⟨_, _, rfl, rfl, fun p => ?_, hcalls.symm⟩, fun h => absurd h hns⟩
          rw [hset]
          dsimp only
          split
          · rename_i hp
            exact ⟨fun _ => .inr (.inr hp), fun _ => rfl⟩
          · rename_i hp
            rw [ehas]
            constructor
            · rintro (h | h)
              · exact .inl h
              · exact .inr (.inl h)
            · rintro (h | h | h)
              · exact .inl h
              · exact .inr h
              · exact absurd h hp
        · rw [if_neg h2]
          refine ⟨fun h => absurd ?_ h, fun _ => rfl⟩
          have h1' : t.has (absPath (l' ++ [b] ++ [a])) = false := by simpa using h1
          refine ⟨m + 2, by omega, by rw [hL]; exact Nat.le_refl _, by rw [hlast]; exact h1', ?_⟩
          by_cases h3 : t.may (absPath (l' ++ [b] ++ [a])) = true
          · right
            have h4 : ¬ t1.has (absPath (l' ++ [b])) = true := by
              intro h; exact h2 (by rw [h, h3]; rfl)
            rw [hparent] at h4
            by_cases hm0 : m = 0
            · refine ⟨by omega, ?_⟩
              rw [htake 1 (by omega), List.take_of_length_le (by rw [hL']; omega)]
              by_cases h5 : t.has (absPath (l' ++ [b])) = true
              · exact absurd (fun _ => h5) h4
              · simpa using h5
            · exact absurd (fun h => absurd h hm0) h4
          · left; rw [hlast]; simpa using h3

/-! ## C108 -/

/-- C108: for an absolute path, mkdirs makes exactly the directories on the way to it that are missing, from the second one on, or, when one of them cannot be
made, gemexp exits. -/
theorem C108_mkdirs (two : Bool) (t : DirTree) (names : List Bytes) (h1 : names ≠ []) (hn : ∀ x ∈ names, PathName x) (hlen : (absPath names).length ≤ 4096)
    (depth : Nat) (hd : names.length ≤ depth) :
    (¬ Stuck t names → ∃ t' calls, mkdirs two depth (absPath names) (t, []) = some (.go (t', calls)) ∧
      (∀ p, t'.has p = true ↔ t.has p = true ∨ ∃ k, 2 ≤ k ∧ k ≤ names.length ∧ p = absPath (names.take k))) ∧
    (Stuck t names → mkdirs two depth (absPath names) (t, []) = some (.exit 1)) := by
  obtain ⟨l, a, rfl⟩ : ∃ l a, names = l ++ [a] := ⟨names.dropLast, names.getLast h1, (List.dropLast_concat_getLast h1).symm⟩
  obtain ⟨k1, k2⟩ := mkdirs_abs two t l a hn hlen depth (by simp at hd; omega) []
  refine ⟨fun h => ?_, k2⟩
  obtain ⟨t', calls, e1, -, e2, -⟩ := k1 h
  exact ⟨t', calls, e1, e2⟩

theorem absPath_append (l m : List Bytes) : absPath (l ++ m) = absPath l ++ absPath m := by
  induction l with
  | nil => rfl
  | cons a r ih => simp [absPath, ih]

/-- C108, in part: with a home directory that has an absolute name and is there, and XDG_DATA_HOME not set, the data directory is ~/.local/share/gemexp and is
there afterwards, unless it cannot be made, and then gemexp exits.  What is missing: home directories called `/`, relative names, names that end in a slash, and
those of more than 4000 bytes. -/
theorem C108_home_partial (two : Bool) (t : DirTree) (names : List Bytes) (h1 : names ≠ []) (hn : ∀ x ∈ names, PathName x) (hlen : (absPath names).length ≤ 4000)
    (hhas : ∀ k, 1 ≤ k → k ≤ names.length → t.has (absPath (names.take k)) = true) (depth : Nat) (hd : names.length + 3 ≤ depth) :
    (∃ t' calls, dataDir two depth none (some (absPath names)) t = some (.go (absPath names ++ b%"/.local/share/gemexp", t', calls)) ∧
      t'.has (absPath names ++ b%"/.local/share/gemexp") = true ∧
      ∀ p, t'.has p = true → t.has p = true ∨ p ∈ [absPath names ++ b%"/.local", absPath names ++ b%"/.local/share", absPath names ++ b%"/.local/share/gemexp"]) ∨
    (dataDir two depth none (some (absPath names)) t = some (.exit 1) ∧
      ∃ p ∈ [absPath names ++ b%"/.local", absPath names ++ b%"/.local/share", absPath names ++ b%"/.local/share/gemexp"], t.has p = false ∧ t.may p = false) := by
  have e1 : absPath names ++ b%"/.local/share/gemexp" = absPath (names ++ [b%".local", b%"share", b%"gemexp"]) := by
    rw [absPath_append]; rfl
  have hpos : 1 ≤ names.length := by cases names with | nil => exact absurd rfl h1 | cons a r => simp
  have hn' : ∀ x ∈ names ++ [b%".local", b%"share", b%"gemexp"], PathName x := by
    intro x hx
    rcases List.mem_append.1 hx with hx | hx
    · exact hn x hx
    · simp only [List.mem_cons, List.not_mem_nil, or_false] at hx
      rcases hx with rfl | rfl | rfl <;> exact ⟨by decide, by decide⟩
  have hlen' : (absPath (names ++ [b%".local", b%"share", b%"gemexp"])).length ≤ 4096 := by
    rw [← e1, List.length_append]; simp; omega
  have t1 : (names ++ [b%".local", b%"share", b%"gemexp"]).take (names.length + 1) = names ++ [b%".local"] := by
    rw [List.take_append, List.take_of_length_le (by omega)]; simp
  have t2 : (names ++ [b%".local", b%"share", b%"gemexp"]).take (names.length + 2) = names ++ [b%".local", b%"share"] := by
    rw [List.take_append, List.take_of_length_le (by omega)]; simp
  have t3 : (names ++ [b%".local", b%"share", b%"gemexp"]).take (names.length + 3) = names ++ [b%".local", b%"share", b%"gemexp"] :=
    List.take_of_length_le (by simp)
  have a1 : absPath (names ++ [b%".local"]) = absPath names ++ b%"/.local" := by rw [absPath_append]; rfl
  have a2 : absPath (names ++ [b%".local", b%"share"]) = absPath names ++ b%"/.local/share" := by rw [absPath_append]; rfl
  have tk : ∀ k, k ≤ names.length → (names ++ [b%".local", b%"share", b%"gemexp"]).take k = names.take k :=
    fun k hk => List.take_append_of_le_length hk
  have hL : (names ++ [b%".local", b%"share", b%"gemexp"]).length = names.length + 3 := by simp
  have key := C108_mkdirs two t (names ++ [b%".local", b%"share", b%"gemexp"]) (by simp) hn' hlen' depth (by rw [hL]; exact hd)
  have hdata : dataDir two depth none (some (absPath names)) t =
      match mkdirs two depth (absPath (names ++ [b%".local", b%"share", b%"gemexp"])) (t, []) with
      | none => none
      | some (.exit k) => some (.exit k)
      | some (.go (t, l)) => some (.go (absPath names ++ b%"/.local/share/gemexp", t, l)) := by
    rw [← e1]; rfl
  by_cases hs : Stuck t (names ++ [b%".local", b%"share", b%"gemexp"])
  · right
    rw [hdata, key.2 hs]
    refine ⟨rfl, ?_⟩
    obtain ⟨k, k1, k2, k3, k4⟩ := hs
    rw [hL] at k2
    have hk : ¬ k ≤ names.length := by
      intro hk
      rw [tk k hk, hhas k (by omega) hk] at k3
      cases k3
    have hmay : t.may (absPath ((names ++ [b%".local", b%"share", b%"gemexp"]).take k)) = false := by
      rcases k4 with k4 | ⟨-, k4⟩
      · exact k4
      · rw [tk 1 hpos, hhas 1 (by omega) hpos] at k4
        cases k4
    have : k = names.length + 1 ∨ k = names.length + 2 ∨ k = names.length + 3 := by omega
    rcases this with rfl | rfl | rfl
    · rw [t1, a1] at k3 hmay; exact ⟨_, by simp, k3, hmay⟩
    · rw [t2, a2] at k3 hmay; exact ⟨_, by simp, k3, hmay⟩
    · rw [t3, ← e1] at k3 hmay; exact ⟨_, by simp, k3, hmay⟩
  · left
    obtain ⟨t', calls, e2, e3⟩ := key.1 hs
    rw [hdata, e2]
    refine ⟨t', calls, rfl, (e3 _).2 (.inr ⟨names.length + 3, by omega, by rw [hL]; exact Nat.le_refl _, by rw [t3, e1]⟩), fun p hp => ?_⟩
    rcases (e3 p).1 hp with h | ⟨k, k1, k2, rfl⟩
    · exact .inl h
    · rw [hL] at k2
      by_cases hk : k ≤ names.length
      · left; rw [tk k hk]; exact hhas k (by omega) hk
      · right
        have : k = names.length + 1 ∨ k = names.length + 2 ∨ k = names.length + 3 := by omega
        rcases this with rfl | rfl | rfl
        · rw [t1, a1]; simp
        · rw [t2, a2]; simp
        · rw [t3, ← e1]; simp

/-! ### what goes wrong -/

theorem trimSlash_prefix (p : Bytes) : trimSlash p <+: p := by
  unfold trimSlash
  have := List.dropWhile_suffix (fun x => x == c%'/') (l := p.reverse)
  have := List.reverse_prefix.2 this
  rwa [List.reverse_reverse] at this

theorem prefix_head {p q : Bytes} (h : p <+: q) (hp : p ≠ []) : p.head? = q.head? := by
  obtain ⟨r, rfl⟩ := h
  cases p with
  | nil => exact absurd rfl hp
  | cons a p => rfl

theorem trimSlash_nil {p : Bytes} (h : trimSlash p = []) (hp : p ≠ []) : p.head? = some c%'/' := by
  unfold trimSlash at h
  have h : p.reverse.dropWhile (fun x => x == c%'/') = [] := by simpa using h
  have : ∀ x ∈ p.reverse, (x == c%'/') = true := by
    have key : ∀ l : Bytes, l.dropWhile (fun x => x == c%'/') = [] → ∀ x ∈ l, (x == c%'/') = true := by
      intro l
      induction l with
      | nil => simp
      | cons y l ih =>
        intro h
        by_cases hy : (y == c%'/') = true
        · rw [List.dropWhile_cons_of_pos (p := fun x => x == c%'/') hy] at h
          intro x hx
          rcases List.mem_cons.1 hx with rfl | hx
          · exact hy
          · exact ih h x hx
        · rw [List.dropWhile_cons_of_neg (p := fun x => x == c%'/') hy] at h; cases h
    exact key _ h
  cases p with
  | nil => exact absurd rfl hp
  | cons a r =>
    have := this a (by simp)
    simp at this
    rw [this]; rfl

/-- the parent of a relative path is a relative path -/
theorem dirname_relative (two : Bool) (p : Bytes) (h : p.head? ≠ some c%'/') : (dirname two p).head? ≠ some c%'/' ∧ (dirname two p).length ≤ max p.length 1 := by
  unfold dirname
  dsimp only
  split
  · exact ⟨by decide, by simp only [List.length_cons, List.length_nil]; omega⟩
  · rename_i hp
    split
    · rename_i hq; exact absurd (trimSlash_nil hq hp) h
    · rename_i hq
      have hq' := trimSlash_prefix p
      split
      · exact ⟨by decide, by simp; omega⟩
      · rename_i hd
        have hpre : ((trimSlash p).reverse.dropWhile (fun x => x != c%'/')).reverse <+: trimSlash p := by
          have := List.dropWhile_suffix (fun x => x != c%'/') (l := (trimSlash p).reverse)
          have := List.reverse_prefix.2 this
          rwa [List.reverse_reverse] at this
        have hd' := hpre.trans hq'
        have hh := prefix_head hd' hd
        split
        · rename_i he
          exact absurd (hh ▸ trimSlash_nil he hd) h
        · rename_i he
          have he' := trimSlash_prefix ((trimSlash p).reverse.dropWhile (fun x => x != c%'/')).reverse
          have hl := (he'.trans hd').length_le
          exact ⟨by rw [prefix_head he' he, hh]; exact h, by omega⟩

/-- C108 does not hold in full: with a relative XDG_DATA_HOME (or HOME), mkdirs never ends: it calls itself again and again, until the stack is used up. -/
theorem C108_relative_never_ends (two : Bool) (p : Bytes) (h : p.head? ≠ some c%'/') (hlen : p.length ≤ 4096) (depth : Nat) (s : DirTree × List Bytes) :
    mkdirs two depth p s = none := by
  induction depth generalizing p with
  | zero => rfl
  | succ n ih =>
    obtain ⟨h1, h2⟩ := dirname_relative two p h
    rw [mkdirs, if_neg (by omega)]
    dsimp only
    rw [if_neg (by intro e; rw [e] at h1; exact h1 rfl), ih _ h1 (by omega)]

theorem mkdirs_twoSlashes (depth : Nat) (s : DirTree × List Bytes) : mkdirs true depth b%"//" s = none := by
  induction depth with
  | zero => rfl
  | succ n ih =>
    rw [mkdirs, if_neg (by decide)]
    dsimp only
    rw [show dirname true b%"//" = b%"//" by decide, if_neg (by decide), ih]

/-- C108 does not hold in full: nor does it end for a user whose home directory is `/`, with the dirname(3) of glibc. -/
theorem C108_home_is_root (t : DirTree) (depth : Nat) : dataDir true depth none (some b%"/") t = none := by
  have step : ∀ (n : Nat) (p : Bytes) (s : DirTree × List Bytes), p.length < 4097 → dirname true p ≠ b%"/" → (∀ m, mkdirs true m (dirname true p) s = none) →
      mkdirs true n p s = none := by
    intro n p s h1 h2 h3
    cases n with
    | zero => rfl
    | succ n =>
      rw [mkdirs, if_neg (by omega)]
      dsimp only
      rw [if_neg h2, h3]
  have e : dataName none (some b%"/") = .go b%"//.local/share/gemexp" := rfl
  unfold dataDir
  rw [e]
  dsimp only
  rw [step depth b%"//.local/share/gemexp" (t, []) (by decide) (by decide) (fun m => ?_)]
  rw [show dirname true b%"//.local/share/gemexp" = b%"//.local/share" by decide]
  apply step m _ _ (by decide) (by decide)
  intro m
  rw [show dirname true b%"//.local/share" = b%"//.local" by decide]
  apply step m _ _ (by decide) (by decide)
  intro m
  rw [show dirname true b%"//.local" = b%"//" by decide]
  exact mkdirs_twoSlashes m _

/-- C108 does not hold in full: a directory right below the root is never made; gemexp goes on without it.  With an empty XDG_DATA_HOME that is `/gemexp`. -/
theorem C108_top_level (two : Bool) (t : DirTree) (a : Bytes) (ha : PathName a) (hlen : a.length ≤ 4095) (depth : Nat) :
    mkdirs two (depth + 1) (absPath [a]) (t, []) = some (.go (t, [])) := by
  rw [mkdirs, if_neg (by simp [absPath]; omega)]
  dsimp only
  have := dirname_abs two [] a (by simp) ha
  rw [if_pos rfl] at this
  rw [show absPath [a] = absPath ([] ++ [a]) from rfl, this, if_pos rfl]

/-- a tree with `/home` and `/home/u` -/
def exTree : DirTree := { has := fun p => p == b%"/home" || p == b%"/home/u", may := fun _ => true }

example : ((dataDir true 9 none (some b%"/home/u") exTree).bind (fun r => match r with | .go (p, t, l) => some (p, t.has p, l) | .exit _ => none)) =
    some (b%"/home/u/.local/share/gemexp", true, [b%"/home/u", b%"/home/u/.local", b%"/home/u/.local/share", b%"/home/u/.local/share/gemexp"]) := by decide +kernel

example : ¬ Stuck exTree [b%"home", b%"u", b%"x"] := by
  rintro ⟨k, -, -, -, k4⟩
  rcases k4 with k4 | ⟨-, k4⟩
  · cases k4
  · revert k4; decide

example : ((dataDir true 9 (some []) none exTree).bind (fun r => match r with | .go (p, t, l) => some (p, t.has p, l) | .exit _ => none)) =
    some (b%"/gemexp", false, []) := by decide +kernel

example : dirname true b%"a/b//" = b%"a" ∧ dirname true b%"///x" = b%"/" ∧ dirname true b%"//x" = b%"//" ∧ dirname false b%"//x" = b%"/" ∧
    dirname true b%"x" = b%"." ∧ dirname true b%"//" = b%"//" ∧ dirname true b%"/x/" = b%"/" := by decide +kernel

/-! ## C109 -/

theorem appendAll_mem (p : Bytes) (w : List Bytes) : ∀ (d s : CertDir) (f : FileSt), d.file p = some f → s ∈ appendAll p w d →
    (∃ w1 w2, w = w1 ++ w2 ∧ s.file p = some { f with data := f.data ++ w1.flatten }) ∧ (∀ q, q ≠ p → s.file q = d.file q) ∧
    s.writable = d.writable ∧ s.umask = d.umask := by
  induction w with
  | nil =>
    intro d s f hf hs
    simp only [appendAll, List.mem_cons, List.not_mem_nil, or_false] at hs
    subst hs
    exact ⟨⟨[], [], rfl, by simpa using hf⟩, fun _ _ => rfl, rfl, rfl⟩
  | cons b w ih =>
    intro d s f hf hs
    rw [appendAll, List.mem_cons] at hs
    rcases hs with rfl | hs
    · exact ⟨⟨[], b :: w, rfl, by simpa using hf⟩, fun _ _ => rfl, rfl, rfl⟩
    · have e : d.append p b = d.put p (some { f with data := f.data ++ b }) := by simp [CertDir.append, hf]
      have := ih (d.append p b) s { f with data := f.data ++ b } (by rw [e]; simp [CertDir.put]) hs
      obtain ⟨⟨w1, w2, h1, h2⟩, h3, h4, h5⟩ := this
      refine ⟨⟨b :: w1, w2, by rw [h1]; rfl, by rw [h2]; simp⟩, fun q hq => ?_, by rw [h4, e]; rfl, by rw [h5, e]; rfl⟩
      rw [h3 q hq, e]
      simp [CertDir.put, hq]

theorem appendAll_last (p : Bytes) (w : List Bytes) : ∀ (d d0 : CertDir) (f : FileSt), d.file p = some f →
    lastState (appendAll p w d) d0 ∈ appendAll p w d ∧ (lastState (appendAll p w d) d0).file p = some { f with data := f.data ++ w.flatten } := by
  induction w with
  | nil => intro d d0 f hf; exact ⟨by simp [lastState, appendAll], by simp [lastState, appendAll, hf]⟩
  | cons b w ih =>
    intro d d0 f hf
    have e : d.append p b = d.put p (some { f with data := f.data ++ b }) := by simp [CertDir.append, hf]
    obtain ⟨h1, h2⟩ := ih (d.append p b) d0 { f with data := f.data ++ b } (by rw [e]; simp [CertDir.put])
    have hne : appendAll p w (d.append p b) ≠ [] := by cases w <;> simp [appendAll]
    have el : lastState (appendAll p (b :: w) d) d0 = lastState (appendAll p w (d.append p b)) d0 := by
      unfold lastState
      rw [appendAll, List.getLast?_cons]
      cases hg : (appendAll p w (d.append p b)).getLast? with
      | none => exact absurd (List.getLast?_eq_none_iff.1 hg) hne
      | some x => rfl
    rw [el]
    exact ⟨by rw [appendAll]; exact List.mem_cons_of_mem _ h1, by rw [h2]; simp⟩

/-- what fopen(3) does to the file it opens -/
theorem fopenW_spec {d d1 : CertDir} {p : Bytes} (h : d.fopenW p = some d1) :
    ∃ f, d1.file p = some f ∧ f.data = [] ∧ (∀ q, q ≠ p → d1.file q = d.file q) ∧ d1.writable = d.writable ∧ d1.umask = d.umask ∧
      (d.file p = none → f = { data := [], mode := 0o666 - (0o666 &&& d.umask) }) := by
  unfold CertDir.fopenW at h
  split at h
  · rename_i f hf
    split at h
    · cases h
      refine ⟨{ f with data := [] }, by simp [CertDir.put], rfl, fun q hq => by simp [CertDir.put, hq], rfl, rfl, fun e => by rw [hf] at e; cases e⟩
    · cases h
  · split at h
    · cases h
      exact ⟨_, by simp [CertDir.put], rfl, fun q hq => by simp [CertDir.put, hq], rfl, rfl, fun _ => rfl⟩
    · cases h

theorem cert_ne_key (dir host : Bytes) : dir ++ b%"/" ++ host ++ b%".pem" ≠ dir ++ b%"/" ++ host ++ b%".key" := by
  intro e
  have := List.append_cancel_left e
  revert this; decide

/-- the files of the host in the directory -/
def certOf (dir host : Bytes) : Bytes := dir ++ b%"/" ++ host ++ b%".pem"
def keyOf (dir host : Bytes) : Bytes := dir ++ b%"/" ++ host ++ b%".key"

/-- the run of gencert, in the stages it goes through -/
theorem gencert_cases (g : GenEnv) (cert key : Bytes) (hne : cert ≠ key) (d : CertDir) :
    (d.fopenW key = none ∧ gencert g cert key d = (d :: genErr cert key d, false)) ∨
    (∃ d1, d.fopenW key = some d1 ∧
      (gencert g cert key d = (d :: appendAll key g.keyWrites d1 ++ genErr cert key (lastState (appendAll key g.keyWrites d1) d1), false) ∨
      ∃ d3, (lastState (appendAll key g.keyWrites d1) d1).fopenW cert = some d3 ∧ g.keyOk = true ∧ g.x509Ok = true ∧
        ((g.certOk = false ∧ gencert g cert key d = (d :: appendAll key g.keyWrites d1 ++ appendAll cert g.certWrites d3 ++
            genErr cert key (lastState (appendAll cert g.certWrites d3) d3), false)) ∨
         (g.certOk = true ∧ gencert g cert key d = (d :: appendAll key g.keyWrites d1 ++ appendAll cert g.certWrites d3, true))))) := by
  unfold gencert
  cases h1 : d.fopenW key with
  | none => exact .inl ⟨rfl, rfl⟩
  | some d1 =>
    right
    refine ⟨d1, rfl, ?_⟩
    dsimp only
    by_cases hk : (!g.keyOk || !g.x509Ok) = true
    · rw [if_pos hk]; exact .inl rfl
    · rw [if_neg hk]
      have hk' : g.keyOk = true ∧ g.x509Ok = true := by simpa using hk
      cases h3 : (lastState (appendAll key g.keyWrites d1) d1).fopenW cert with
      | none => exact .inl rfl
      | some d3 =>
        right
        refine ⟨d3, rfl, hk'.1, hk'.2, ?_⟩
        dsimp only
        cases g.certOk with
        | false => exact .inl ⟨rfl, rfl⟩
        | true => exact .inr ⟨rfl, rfl⟩

/-- C109: a certificate and a key that can be read are used as they are, and nothing is changed. -/
theorem C109_existing (g : GenEnv) (host dir : Bytes) (hh : host.length ≤ 255) (d : CertDir) (fc fk : FileSt)
    (hc : d.file (certOf dir host) = some fc) (hk : d.file (keyOf dir host) = some fk) (rc : fc.readable = true) (rk : fk.readable = true) :
    loadLocalCert g host dir d = ([d], .go (fc.data, fk.data)) := by
  unfold loadLocalCert
  dsimp only
  have a1 : d.access (dir ++ b%"/" ++ host ++ b%".pem") = true := by
    unfold CertDir.access; rw [show d.file (dir ++ b%"/" ++ host ++ b%".pem") = some fc from hc]; exact rc
  have a2 : d.access (dir ++ b%"/" ++ host ++ b%".key") = true := by
    unfold CertDir.access; rw [show d.file (dir ++ b%"/" ++ host ++ b%".key") = some fk from hk]; exact rk
  rw [a1, a2]
  have l1 : d.load (dir ++ b%"/" ++ host ++ b%".pem") = some fc.data := by
    unfold CertDir.load; rw [show d.file (dir ++ b%"/" ++ host ++ b%".pem") = some fc from hc]; dsimp only; rw [if_pos rc]
  have l2 : d.load (dir ++ b%"/" ++ host ++ b%".key") = some fk.data := by
    unfold CertDir.load; rw [show d.file (dir ++ b%"/" ++ host ++ b%".key") = some fk from hk]; dsimp only; rw [if_pos rk]
  simp only [Bool.not_true, Bool.or_self, Bool.false_eq_true, if_false, lastState, List.getLast?_singleton, Option.getD_some, l1, l2]
  rw [if_neg (by omega)]

theorem load_some {d : CertDir} {p x : Bytes} (h : d.load p = some x) : ∃ f, d.file p = some f ∧ f.readable = true ∧ f.data = x := by
  unfold CertDir.load at h
  split at h
  · rename_i f hf
    split at h
    · rename_i hr; cases h; exact ⟨f, hf, hr, rfl⟩
    · cases h
  · cases h

theorem lastState_append (l : List CertDir) (p : Bytes) (w : List Bytes) (d d0 : CertDir) :
    lastState (l ++ appendAll p w d) d0 = lastState (appendAll p w d) d := by
  have hne : appendAll p w d ≠ [] := by cases w <;> simp [appendAll]
  unfold lastState
  rw [List.getLast?_append]
  cases hg : (appendAll p w d).getLast? with
  | none => exact absurd (List.getLast?_eq_none_iff.1 hg) hne
  | some x => rfl

/-- C109: when gemexp goes on, its certificate and its key either were there, both, and are unchanged, or are both the ones just generated, in full. -/
theorem C109_a_pair (g : GenEnv) (host dir : Bytes) (d : CertDir) (l : List CertDir) (c k : Bytes) (h : loadLocalCert g host dir d = (l, .go (c, k))) :
    (l = [d] ∧ (∃ f, d.file (certOf dir host) = some f ∧ f.data = c) ∧ ∃ f, d.file (keyOf dir host) = some f ∧ f.data = k) ∨
    (c = g.certWrites.flatten ∧ k = g.keyWrites.flatten ∧ g.keyOk = true ∧ g.x509Ok = true ∧ g.certOk = true ∧
      (∃ f, (lastState l d).file (certOf dir host) = some f ∧ f.data = c) ∧ ∃ f, (lastState l d).file (keyOf dir host) = some f ∧ f.data = k) := by
  have hne := cert_ne_key dir host
  change certOf dir host ≠ keyOf dir host at hne
  unfold loadLocalCert at h
  dsimp only at h
  change (match (if (!d.access (certOf dir host) || !d.access (keyOf dir host)) = true then gencert g (certOf dir host) (keyOf dir host) d else ([d], true)) with
    | (l, ok) => if (!ok) = true then (l, MStep.exit 1) else
      match (lastState l d).load (certOf dir host) with
      | none => (l, .exit 1)
      | some c => match (lastState l d).load (keyOf dir host) with
        | none => (l, .exit 1)
        | some k => if host.length ≥ 256 then (l, .exit 1) else (l, .go (c, k))) = (l, .go (c, k)) at h
  -- the files loaded
  have loaded : ∀ (l' : List CertDir) (ok : Bool), (if (!ok) = true then (l', MStep.exit 1) else
      match (lastState l' d).load (certOf dir host) with
      | none => (l', .exit 1)
      | some c => match (lastState l' d).load (keyOf dir host) with
        | none => (l', .exit 1)
        | some k => if host.length ≥ 256 then (l', .exit 1) else (l', .go (c, k))) = (l, .go (c, k)) →
      ok = true ∧ l' = l ∧ (lastState l d).load (certOf dir host) = some c ∧ (lastState l d).load (keyOf dir host) = some k := by
    intro l' ok h
    cases ok with
    | false => simp at h
    | true =>
      simp only [Bool.not_true, Bool.false_eq_true, if_false] at h
      split at h
      · simp at h
      · rename_i c' hc
        split at h
        · simp at h
        · rename_i k' hk
          split at h
          · simp at h
          · simp only [Prod.mk.injEq, MStep.go.injEq] at h
            obtain ⟨rfl, rfl, rfl⟩ := h
            exact ⟨rfl, rfl, hc, hk⟩
  split at h
  rename_i l' ok hl
  obtain ⟨rfl, rfl, h1, h2⟩ := loaded l' ok h
  obtain ⟨f1, a1, -, a2⟩ := load_some h1
  obtain ⟨f2, b1, -, b2⟩ := load_some h2
  split at hl
  · right
    rcases gencert_cases g _ _ hne d with ⟨-, e⟩ | ⟨d1, ho, e | ⟨d3, hc, g1, g2, (⟨-, e⟩ | ⟨g3, e⟩)⟩⟩
    · rw [e] at hl; simp at hl
    · rw [e] at hl; simp at hl
    · rw [e] at hl; simp at hl
    · rw [e] at hl
      simp only [Prod.mk.injEq, and_true] at hl
      subst hl
      rw [lastState_append] at a1 b1 ⊢
      obtain ⟨f, c1, c2, c3, -⟩ := fopenW_spec ho
      obtain ⟨m1, m2⟩ := appendAll_last (keyOf dir host) g.keyWrites d1 d1 f c1
      obtain ⟨f', e1, e2, e3, -⟩ := fopenW_spec hc
      obtain ⟨n1, n2⟩ := appendAll_last (certOf dir host) g.certWrites d3 d3 f' e1
      have hkey := (appendAll_mem (certOf dir host) g.certWrites d3 _ f' e1 n1).2.1 (keyOf dir host) hne.symm
      rw [e3 _ hne.symm, m2] at hkey
      have hc' : c = g.certWrites.flatten := by
        rw [n2, Option.some.injEq] at a1
        rw [← a2, ← a1, e2]; simp
      have hk' : k = g.keyWrites.flatten := by
        rw [hkey, Option.some.injEq] at b1
        rw [← b2, ← b1, c2]; simp
      exact ⟨hc', hk', g1, g2, g3, ⟨f1, a1, a2⟩, ⟨f2, b1, b2⟩⟩
  · left
    simp only [Prod.mk.injEq, and_true] at hl
    subst hl
    exact ⟨rfl, ⟨f1, a1, a2⟩, ⟨f2, b1, b2⟩⟩

theorem appendAll_inv (P : CertDir → Prop) (p : Bytes) (hP : ∀ s b, P s → P (s.append p b)) (w : List Bytes) :
    ∀ d : CertDir, P d → ∀ s ∈ appendAll p w d, P s := by
  induction w with
  | nil => intro d hd s hs; simp [appendAll] at hs; subst hs; exact hd
  | cons b w ih =>
    intro d hd s hs
    rw [appendAll, List.mem_cons] at hs
    rcases hs with rfl | hs
    · exact hd
    · exact ih _ (hP d b hd) s hs

/-- what all the steps preserve holds all the time -/
theorem gencert_inv (P : CertDir → Prop) (g : GenEnv) (cert key : Bytes) (hne : cert ≠ key)
    (ho : ∀ s s' p, (p = cert ∨ p = key) → P s → s.fopenW p = some s' → P s') (ha : ∀ s p b, (p = cert ∨ p = key) → P s → P (s.append p b))
    (hu : ∀ s p, (p = cert ∨ p = key) → P s → P (s.unlink p)) (d : CertDir) (hd : P d) : ∀ s ∈ (gencert g cert key d).1, P s := by
  have er : ∀ d, P d → ∀ s ∈ genErr cert key d, P s := by
    intro d hd s hs
    simp only [genErr, List.mem_cons, List.not_mem_nil, or_false] at hs
    rcases hs with rfl | rfl
    · exact hu _ _ (.inl rfl) hd
    · exact hu _ _ (.inr rfl) (hu _ _ (.inl rfl) hd)
  have last : ∀ (p : Bytes), (p = cert ∨ p = key) → ∀ (w : List Bytes) (d : CertDir), P d → P (lastState (appendAll p w d) d) := by
    intro p hp w d hd
    have hne : appendAll p w d ≠ [] := by cases w <;> simp [appendAll]
    unfold lastState
    cases hg : (appendAll p w d).getLast? with
    | none => exact hd
    | some x => exact appendAll_inv P p (fun s b => ha s p b hp) w d hd x (List.mem_of_getLast? hg)
  have aw : ∀ (p : Bytes), (p = cert ∨ p = key) → ∀ (w : List Bytes) (d : CertDir), P d → ∀ s ∈ appendAll p w d, P s :=
    fun p hp w d hd => appendAll_inv P p (fun s b => ha s p b hp) w d hd
  intro s hs
  rcases gencert_cases g cert key hne d with ⟨-, e⟩ | ⟨d1, h1, h2⟩
  · rw [e] at hs
    rcases List.mem_cons.1 hs with rfl | hs
    · exact hd
    · exact er d hd s hs
  · have p1 := ho d d1 key (.inr rfl) hd h1
    have p2 := last key (.inr rfl) g.keyWrites d1 p1
    rcases h2 with e | ⟨d3, h3, -, -, (⟨-, e⟩ | ⟨-, e⟩)⟩
    · rw [e] at hs
      simp only [List.mem_append, List.mem_cons] at hs
      rcases hs with (rfl | hs) | hs
      · exact hd
      · exact aw key (.inr rfl) _ _ p1 s hs
      · exact er _ p2 s hs
    · have p3 := ho _ d3 cert (.inl rfl) p2 h3
      rw [e] at hs
      simp only [List.mem_append, List.mem_cons] at hs
      rcases hs with ((rfl | hs) | hs) | hs
      · exact hd
      · exact aw key (.inr rfl) _ _ p1 s hs
      · exact aw cert (.inl rfl) _ _ p3 s hs
      · exact er _ (last cert (.inl rfl) _ _ p3) s hs
    · have p3 := ho _ d3 cert (.inl rfl) p2 h3
      rw [e] at hs
      simp only [List.mem_append, List.mem_cons] at hs
      rcases hs with (rfl | hs) | hs
      · exact hd
      · exact aw key (.inr rfl) _ _ p1 s hs
      · exact aw cert (.inl rfl) _ _ p3 s hs

theorem load_states (g : GenEnv) (host dir : Bytes) (d : CertDir) :
    (loadLocalCert g host dir d).1 =
      if (!d.access (certOf dir host) || !d.access (keyOf dir host)) = true then (gencert g (certOf dir host) (keyOf dir host) d).1 else [d] := by
  unfold loadLocalCert
  dsimp only
  change (match (if (!d.access (certOf dir host) || !d.access (keyOf dir host)) = true then gencert g (certOf dir host) (keyOf dir host) d else ([d], true)) with
    | (l, ok) => if (!ok) = true then (l, MStep.exit 1) else
      match (lastState l d).load (certOf dir host) with
      | none => (l, .exit 1)
      | some c => match (lastState l d).load (keyOf dir host) with
        | none => (l, .exit 1)
        | some k => if host.length ≥ 256 then (l, .exit 1) else (l, .go (c, k))).1 = _
  split
  rename_i l ok hl
  have : l = if (!d.access (certOf dir host) || !d.access (keyOf dir host)) = true then (gencert g (certOf dir host) (keyOf dir host) d).1 else [d] := by
    split
    · rename_i hb; rw [if_pos hb] at hl; rw [hl]
    · rename_i hb; rw [if_neg hb] at hl; cases hl; rfl
  rw [← this]
  split
  · rfl
  · split
    · rfl
    · split
      · rfl
      · split <;> rfl

theorem mem_load {P : CertDir → Prop} {g : GenEnv} {host dir : Bytes} {d : CertDir} (hd : P d)
    (h : ∀ s ∈ (gencert g (certOf dir host) (keyOf dir host) d).1, P s) : ∀ s ∈ (loadLocalCert g host dir d).1, P s := by
  intro s hs
  rw [load_states] at hs
  split at hs
  · exact h s hs
  · simp at hs; subst hs; exact hd

/-- C109: no other file is touched, whatever happens. -/
theorem C109_other_files (g : GenEnv) (host dir : Bytes) (d : CertDir) (q : Bytes) (h1 : q ≠ dir ++ b%"/" ++ host ++ b%".pem")
    (h2 : q ≠ dir ++ b%"/" ++ host ++ b%".key") : ∀ s ∈ (loadLocalCert g host dir d).1, s.file q = d.file q := by
  have hq : ∀ p, (p = certOf dir host ∨ p = keyOf dir host) → q ≠ p := by
    rintro p (rfl | rfl)
    · exact h1
    · exact h2
  have put : ∀ (s : CertDir) p f, (p = certOf dir host ∨ p = keyOf dir host) → (s.put p f).file q = s.file q :=
    fun s p f hp => by simp [CertDir.put, hq p hp]
  refine mem_load (P := fun s => s.file q = d.file q) rfl (gencert_inv _ g _ _ (cert_ne_key dir host) ?_ ?_ ?_ d rfl)
  · intro s s' p hp hs ho
    obtain ⟨-, -, -, h, -⟩ := fopenW_spec ho
    rw [h q (hq p hp)]; exact hs
  · intro s p b hp hs
    unfold CertDir.append
    split
    · rw [put _ _ _ hp]; exact hs
    · exact hs
  · intro s p hp hs
    unfold CertDir.unlink
    split
    · rw [put _ _ _ hp]; exact hs
    · exact hs

/-- a key file that gemexp makes has mode 0666 less the umask, at any time -/
theorem key_mode (g : GenEnv) (host dir : Bytes) (d : CertDir) (hk : d.file (keyOf dir host) = none) :
    ∀ s ∈ (loadLocalCert g host dir d).1, s.umask = d.umask ∧ ∀ f, s.file (keyOf dir host) = some f → f.mode = 0o666 - (0o666 &&& d.umask) := by
  have hne : certOf dir host ≠ keyOf dir host := cert_ne_key dir host
  refine mem_load (P := fun s => s.umask = d.umask ∧ ∀ f, s.file (keyOf dir host) = some f → f.mode = 0o666 - (0o666 &&& d.umask)) ?_
    (gencert_inv _ g _ _ hne ?_ ?_ ?_ d ?_)
  · exact ⟨rfl, fun f hf => by rw [hk] at hf; cases hf⟩
  · intro s s' p hp ⟨hs1, hs2⟩ ho
    have ho' := ho
    obtain ⟨f, h1, h2, h3, h4, h5, h6⟩ := fopenW_spec ho
    refine ⟨by rw [h5]; exact hs1, fun f' hf' => ?_⟩
    by_cases hpk : p = keyOf dir host
    · subst hpk
      rw [h1] at hf'
      cases hf'
      cases hsk : s.file (keyOf dir host) with
      | none => rw [h6 hsk, hs1]
      | some f0 =>
        unfold CertDir.fopenW at ho'
        rw [hsk] at ho'
        dsimp only at ho'
        split at ho'
        · cases ho'
          simp [CertDir.put] at h1
          rw [← h1]
          exact hs2 f0 hsk
        · cases ho'
    · rw [h3 _ (fun e => hpk e.symm)] at hf'
      exact hs2 f' hf'
  · intro s p b hp ⟨hs1, hs2⟩
    unfold CertDir.append
    split
    · rename_i f hf
      refine ⟨hs1, fun f' hf' => ?_⟩
      simp only [CertDir.put] at hf'
      split at hf'
      · rename_i e
        cases hf'
        exact hs2 f (by rw [e]; exact hf)
      · exact hs2 f' hf'
    · exact ⟨hs1, hs2⟩
  · intro s p hp ⟨hs1, hs2⟩
    unfold CertDir.unlink
    split
    · refine ⟨hs1, fun f' hf' => ?_⟩
      simp only [CertDir.put] at hf'
      split at hf'
      · cases hf'
      · exact hs2 f' hf'
    · exact ⟨hs1, hs2⟩
  · exact ⟨rfl, fun f hf => by rw [hk] at hf; cases hf⟩

theorem mode_private (u : Nat) (h : u &&& 0o66 = 0o66) : (0o666 - (0o666 &&& u)) &&& 0o77 = 0 := by
  -- only the lower nine bits matter
  have e : ∀ v < 512, v &&& 0o66 = 0o66 → (0o666 - (0o666 &&& v)) &&& 0o77 = 0 := by decide +kernel
  have m1 : 0o666 &&& u = 0o666 &&& (u % 512) := by
    apply Nat.eq_of_testBit_eq
    intro i
    rw [Nat.testBit_and, Nat.testBit_and, show (512 : Nat) = 2 ^ 9 by rfl, Nat.testBit_mod_two_pow]
    by_cases hi : i < 9
    · simp [hi]
    · have : Nat.testBit 0o666 i = false := Nat.testBit_lt_two_pow (Nat.lt_of_lt_of_le (by decide : (0o666 : Nat) < 2 ^ 9) (Nat.pow_le_pow_right (by decide) (by omega)))
      simp [this]
  have m2 : u &&& 0o66 = (u % 512) &&& 0o66 := by
    apply Nat.eq_of_testBit_eq
    intro i
    rw [Nat.testBit_and, Nat.testBit_and, show (512 : Nat) = 2 ^ 9 by rfl, Nat.testBit_mod_two_pow]
    by_cases hi : i < 9
    · simp [hi]
    · have : Nat.testBit 0o66 i = false := Nat.testBit_lt_two_pow (Nat.lt_of_lt_of_le (by decide : (0o66 : Nat) < 2 ^ 9) (Nat.pow_le_pow_right (by decide) (by omega)))
      simp [this]
  rw [m1]
  exact e _ (Nat.mod_lt _ (by decide)) (by rw [← m2]; exact h)

/-- C109, in part: the key that gemexp makes is for its user alone, at any time, if the umask says so (066 or more).  What is missing: that it is so with any
umask. -/
theorem C109_key_private_partial (g : GenEnv) (host dir : Bytes) (d : CertDir) (hk : d.file (dir ++ b%"/" ++ host ++ b%".key") = none)
    (hu : d.umask &&& 0o66 = 0o66) :
    ∀ s ∈ (loadLocalCert g host dir d).1, ∀ f, s.file (dir ++ b%"/" ++ host ++ b%".key") = some f → f.mode &&& 0o77 = 0 := by
  intro s hs f hf
  rw [(key_mode g host dir d hk s hs).2 f hf]
  exact mode_private _ hu

/-- C109 does not hold in full: with the usual umask, 022, everybody can read the private key. -/
theorem C109_key_for_everybody (g : GenEnv) (host dir : Bytes) (d : CertDir) (hk : d.file (dir ++ b%"/" ++ host ++ b%".key") = none) (hu : d.umask = 0o22) :
    ∀ s ∈ (loadLocalCert g host dir d).1, ∀ f, s.file (dir ++ b%"/" ++ host ++ b%".key") = some f → f.mode = 0o644 := by
  intro s hs f hf
  rw [(key_mode g host dir d hk s hs).2 f hf, hu]
  rfl

/-! ### failures and crashes -/

theorem unlink_both {d : CertDir} {cert key : Bytes} (hw : d.writable = true) :
    ((d.unlink cert).unlink key).file cert = none ∧ ((d.unlink cert).unlink key).file key = none := by
  have e : d.unlink cert = d.put cert none := by simp [CertDir.unlink, hw]
  have e2 : (d.put cert none).unlink key = (d.put cert none).put key none := by
    unfold CertDir.unlink
    rw [if_pos (show (d.put cert none).writable = true from hw)]
  rw [e, e2]
  simp [CertDir.put]

theorem gencert_writable (g : GenEnv) (cert key : Bytes) (hne : cert ≠ key) (d : CertDir) : ∀ s ∈ (gencert g cert key d).1, s.writable = d.writable := by
  refine gencert_inv (fun s => s.writable = d.writable) g cert key hne ?_ ?_ ?_ d rfl
  · intro s s' p hp hs ho
    obtain ⟨-, -, -, -, h, -⟩ := fopenW_spec ho
    rw [h]; exact hs
  · intro s p b hp hs; unfold CertDir.append; split <;> exact hs
  · intro s p hp hs; unfold CertDir.unlink; split <;> exact hs

/-- C109: when the certificate cannot be generated, gemexp exits and leaves neither file behind. -/
theorem C109_failure_leaves_nothing (g : GenEnv) (host dir : Bytes) (d : CertDir) (hw : d.writable = true)
    (hf : (gencert g (dir ++ b%"/" ++ host ++ b%".pem") (dir ++ b%"/" ++ host ++ b%".key") d).2 = false)
    (hneed : d.access (dir ++ b%"/" ++ host ++ b%".pem") = false ∨ d.access (dir ++ b%"/" ++ host ++ b%".key") = false) :
    (loadLocalCert g host dir d).2 = .exit 1 ∧ ∃ s, (loadLocalCert g host dir d).1.getLast? = some s ∧
      s.file (dir ++ b%"/" ++ host ++ b%".pem") = none ∧ s.file (dir ++ b%"/" ++ host ++ b%".key") = none := by
  have hb : (!d.access (certOf dir host) || !d.access (keyOf dir host)) = true := by
    rcases hneed with h | h
    · rw [show d.access (certOf dir host) = false from h]; rfl
    · rw [show d.access (keyOf dir host) = false from h]; simp
  have hst := load_states g host dir d
  rw [if_pos hb] at hst
  constructor
  · unfold loadLocalCert
    have hb' : (!d.access (dir ++ b%"/" ++ host ++ b%".pem") || !d.access (dir ++ b%"/" ++ host ++ b%".key")) = true := hb
    dsimp only
    rw [if_pos hb', if_pos (by rw [hf]; rfl)]
  · rw [hst]
    have hne := cert_ne_key dir host
    have hwr := gencert_writable g _ _ hne d
    change (gencert g (certOf dir host) (keyOf dir host) d).2 = false at hf
    change ∀ s ∈ (gencert g (certOf dir host) (keyOf dir host) d).1, s.writable = d.writable at hwr
    have key : ∀ (l : List CertDir) (d' : CertDir), d'.writable = true → ∃ s, (l ++ genErr (certOf dir host) (keyOf dir host) d').getLast? = some s ∧
        s.file (certOf dir host) = none ∧ s.file (keyOf dir host) = none := by
      intro l d' hd'
      refine ⟨(d'.unlink (certOf dir host)).unlink (keyOf dir host), by rw [List.getLast?_append]; rfl, unlink_both hd'⟩
    have lastmem : ∀ (p : Bytes) (w : List Bytes) (d : CertDir), lastState (appendAll p w d) d ∈ appendAll p w d := by
      intro p w d
      have hne : appendAll p w d ≠ [] := by cases w <;> simp [appendAll]
      unfold lastState
      cases hg : (appendAll p w d).getLast? with
      | none => exact absurd (List.getLast?_eq_none_iff.1 hg) hne
      | some x => exact List.mem_of_getLast? hg
    rcases gencert_cases g _ _ hne d with ⟨-, e⟩ | ⟨d1, h1, e | ⟨d3, h3, -, -, (⟨-, e⟩ | ⟨-, e⟩)⟩⟩
    · change gencert g (certOf dir host) (keyOf dir host) d = _ at e
      rw [e]
      exact key [d] d hw
    · change gencert g (certOf dir host) (keyOf dir host) d = _ at e
      rw [e] at hwr ⊢
      apply key
      rw [← hw]
      apply hwr
      have := lastmem (keyOf dir host) g.keyWrites d1
      simp only [List.mem_append, List.mem_cons]
      exact .inl (.inr this)
    · change gencert g (certOf dir host) (keyOf dir host) d = _ at e
      rw [e] at hwr ⊢
      apply key
      rw [← hw]
      apply hwr
      have := lastmem (certOf dir host) g.certWrites d3
      simp only [List.mem_append, List.mem_cons]
      exact .inl (.inr this)
    · change gencert g (certOf dir host) (keyOf dir host) d = _ at e
      rw [e] at hf
      cases hf

/-- C109 does not hold in full: a key that is there but can be neither read nor written by the user (root's, say) is deleted, and the certificate with it, if
the directory is the user's. -/
theorem C109_deletes_a_key (g : GenEnv) (host dir : Bytes) (d : CertDir) (hw : d.writable = true) (fk : FileSt)
    (hk : d.file (dir ++ b%"/" ++ host ++ b%".key") = some fk) (h1 : fk.readable = false) (h2 : fk.writable = false) :
    (loadLocalCert g host dir d).2 = .exit 1 ∧ ∃ s, (loadLocalCert g host dir d).1.getLast? = some s ∧
      s.file (dir ++ b%"/" ++ host ++ b%".pem") = none ∧ s.file (dir ++ b%"/" ++ host ++ b%".key") = none := by
  apply C109_failure_leaves_nothing g host dir d hw
  · have : d.fopenW (dir ++ b%"/" ++ host ++ b%".key") = none := by
      unfold CertDir.fopenW; rw [hk]; simp [h2]
    unfold gencert
    rw [this]
  · right
    unfold CertDir.access
    rw [hk]; exact h1

/-- C109, in part: gemexp is started in a directory without the files and dies at any point of the generation: in what it leaves, a certificate is there only
with the whole key, so that the next start, if no certificate is there, generates both afresh.  What is missing: the certificate may be incomplete. -/
theorem C109_interrupted_partial (g : GenEnv) (host dir : Bytes) (d : CertDir)
    (hc : d.file (dir ++ b%"/" ++ host ++ b%".pem") = none) (hk : d.file (dir ++ b%"/" ++ host ++ b%".key") = none) :
    ∀ s ∈ (loadLocalCert g host dir d).1,
      s.file (dir ++ b%"/" ++ host ++ b%".pem") = none ∨
      (∃ fc fk, s.file (dir ++ b%"/" ++ host ++ b%".pem") = some fc ∧ fc.data <+: g.certWrites.flatten ∧
        s.file (dir ++ b%"/" ++ host ++ b%".key") = some fk ∧ fk.data = g.keyWrites.flatten) ∨
      d.writable = false := by
  have hne : certOf dir host ≠ keyOf dir host := cert_ne_key dir host
  cases hw : d.writable with
  | false => intro s _; exact .inr (.inr rfl)
  | true =>
  refine mem_load (P := fun s => s.file (certOf dir host) = none ∨ (∃ fc fk, s.file (certOf dir host) = some fc ∧ fc.data <+: g.certWrites.flatten ∧
        s.file (keyOf dir host) = some fk ∧ fk.data = g.keyWrites.flatten) ∨ true = false) (.inl hc) ?_
  intro s hs
  have er : ∀ d' : CertDir, d'.writable = true → ∀ s ∈ genErr (certOf dir host) (keyOf dir host) d', s.file (certOf dir host) = none := by
    intro d' hd' s hs
    simp only [genErr, List.mem_cons, List.not_mem_nil, or_false] at hs
    rcases hs with rfl | rfl
    · simp [CertDir.unlink, hd', CertDir.put]
    · exact (unlink_both hd').1
  rcases gencert_cases g _ _ hne d with ⟨-, e⟩ | ⟨d1, h1, h2⟩
  · rw [e] at hs
    left
    rcases List.mem_cons.1 hs with rfl | hs
    · exact hc
    · exact er d hw s hs
  · obtain ⟨f, a1, a2, a3, a4, -⟩ := fopenW_spec h1
    have hk1 : ∀ s ∈ appendAll (keyOf dir host) g.keyWrites d1, s.file (certOf dir host) = none ∧ s.writable = true := by
      intro s hs
      have := appendAll_mem _ _ d1 s f a1 hs
      exact ⟨by rw [this.2.1 _ hne, a3 _ hne]; exact hc, by rw [this.2.2.1, a4, hw]⟩
    obtain ⟨m1, m2⟩ := appendAll_last (keyOf dir host) g.keyWrites d1 d1 f a1
    rcases h2 with e | ⟨d3, h3, -, -, h4⟩
    · rw [e] at hs
      left
      simp only [List.mem_append, List.mem_cons] at hs
      rcases hs with (rfl | hs) | hs
      · exact hc
      · exact (hk1 s hs).1
      · exact er _ (hk1 _ m1).2 s hs
    · obtain ⟨f', b1, b2, b3, b4, -⟩ := fopenW_spec h3
      have hc3 : ∀ s ∈ appendAll (certOf dir host) g.certWrites d3, (∃ fc fk, s.file (certOf dir host) = some fc ∧ fc.data <+: g.certWrites.flatten ∧
          s.file (keyOf dir host) = some fk ∧ fk.data = g.keyWrites.flatten) ∧ s.writable = true := by
        intro s hs
        obtain ⟨⟨w1, w2, k1, k2⟩, k3, k4, -⟩ := appendAll_mem _ _ d3 s f' b1 hs
        refine ⟨⟨_, _, k2, ?_, by rw [k3 _ hne.symm, b3 _ hne.symm]; exact m2, by simp [a2]⟩, by rw [k4, b4]; exact (hk1 _ m1).2⟩
        rw [k1, List.flatten_append, b2]
        exact List.prefix_append _ _
      rcases h4 with ⟨-, e⟩ | ⟨-, e⟩
      · rw [e] at hs
        simp only [List.mem_append, List.mem_cons] at hs
        rcases hs with ((rfl | hs) | hs) | hs
        · exact .inl hc
        · exact .inl (hk1 s hs).1
        · exact .inr (.inl (hc3 s hs).1)
        · left
          apply er _ _ s hs
          obtain ⟨n1, -⟩ := appendAll_last (certOf dir host) g.certWrites d3 d3 f' b1
          exact (hc3 _ n1).2
      · rw [e] at hs
        simp only [List.mem_append, List.mem_cons] at hs
        rcases hs with (rfl | hs) | hs
        · exact .inl hc
        · exact .inl (hk1 s hs).1
        · exact .inr (.inl (hc3 s hs).1)

/-- C109 does not hold in full: in every generation there is a point where, should gemexp die, an empty certificate is left with the key, and every later start
takes it for the certificate: it is never generated again. -/
theorem C109_half_a_certificate (g : GenEnv) (host dir : Bytes) (hh : host.length ≤ 255) (d : CertDir) (hw : d.writable = true)
    (hc : d.file (dir ++ b%"/" ++ host ++ b%".pem") = none) (hk : d.file (dir ++ b%"/" ++ host ++ b%".key") = none)
    (h1 : g.keyOk = true) (h2 : g.x509Ok = true) :
    ∃ s ∈ (loadLocalCert g host dir d).1, ∀ g' : GenEnv, loadLocalCert g' host dir s = ([s], .go ([], g.keyWrites.flatten)) := by
  have hne : certOf dir host ≠ keyOf dir host := cert_ne_key dir host
  have hb : (!d.access (certOf dir host) || !d.access (keyOf dir host)) = true := by
    have : d.access (certOf dir host) = false := by unfold CertDir.access; rw [show d.file (certOf dir host) = none from hc]
    rw [this]; rfl
  rw [load_states, if_pos hb]
  have hko : d.fopenW (keyOf dir host) = some (d.put (keyOf dir host) (some { data := [], mode := 0o666 - (0o666 &&& d.umask) })) := by
    unfold CertDir.fopenW; rw [show d.file (keyOf dir host) = none from hk]; dsimp only; rw [if_pos hw]
  generalize hd1 : d.put (keyOf dir host) (some { data := [], mode := 0o666 - (0o666 &&& d.umask) }) = d1 at hko
  have a1 : d1.file (keyOf dir host) = some { data := [], mode := 0o666 - (0o666 &&& d.umask) } := by rw [← hd1]; simp [CertDir.put]
  obtain ⟨m1, m2⟩ := appendAll_last (keyOf dir host) g.keyWrites d1 d1 _ a1
  have mm := appendAll_mem (keyOf dir host) g.keyWrites d1 _ _ a1 m1
  have hcn : (lastState (appendAll (keyOf dir host) g.keyWrites d1) d1).file (certOf dir host) = none := by
    rw [mm.2.1 _ hne, ← hd1]
    simp only [CertDir.put, if_neg hne]
    exact hc
  have hww : (lastState (appendAll (keyOf dir host) g.keyWrites d1) d1).writable = true := by rw [mm.2.2.1, ← hd1]; exact hw
  obtain ⟨d3, h3⟩ : ∃ d3, (lastState (appendAll (keyOf dir host) g.keyWrites d1) d1).fopenW (certOf dir host) = some d3 := by
    unfold CertDir.fopenW; rw [hcn]; dsimp only; rw [if_pos hww]; exact ⟨_, rfl⟩
  obtain ⟨f', b1, b2, b3, -, -, b6⟩ := fopenW_spec h3
  have hs : d3 ∈ appendAll (certOf dir host) g.certWrites d3 := by cases g.certWrites <;> simp [appendAll]
  refine ⟨d3, ?_, fun g' => ?_⟩
  · unfold gencert
    rw [hko]
    dsimp only
    rw [h1, h2, h3]
    dsimp only
    simp only [Bool.not_true, Bool.or_self, Bool.false_eq_true, if_false]
    split
    · simp [hs]
    · simp [hs]
  · have := C109_existing g' host dir hh d3 f' _ b1 (by rw [b3 _ hne.symm]; exact m2) (by rw [b6 hcn]) rfl
    rw [this, b2]
    simp

/-! ### examples -/

def exGen : GenEnv := { keyWrites := [b%"KE", b%"Y"], keyOk := true, x509Ok := true, certWrites := [b%"CERT"], certOk := true }
def exCerts : CertDir := { file := fun p => if p = b%"d/other" then some { data := b%"x", mode := 0o600 } else none, writable := true, umask := 0o22 }

example : (loadLocalCert exGen b%"h" b%"d" exCerts).2 = .go (b%"CERT", b%"KEY") ∧
    (loadLocalCert exGen b%"h" b%"d" exCerts).1.map (fun s => ((s.file b%"d/h.pem").map (·.data), (s.file b%"d/h.key").map (fun f => (f.data, f.mode)))) =
      [(none, none), (none, some ([], 0o644)), (none, some (b%"KE", 0o644)), (none, some (b%"KEY", 0o644)), (some [], some (b%"KEY", 0o644)),
       (some b%"CERT", some (b%"KEY", 0o644))] := by decide +kernel

example : (loadLocalCert { exGen with certOk := false } b%"h" b%"d" exCerts).2 = .exit 1 ∧
    ((loadLocalCert { exGen with certOk := false } b%"h" b%"d" exCerts).1.getLast?.map (fun s => (s.file b%"d/h.pem", s.file b%"d/h.key", (s.file b%"d/other").isSome))) =
      some (none, none, true) := by decide +kernel

end Gmid.Props
