import Verif.Spec.Cli
import Verif.Props.Clients
import Verif.Props.Ge
import Verif.Props.UpTls

/-!
# gg and titan from their command line: C126, C127
-/

set_option autoImplicit false

namespace Gmid.Props

open Gmid.Spec

/-! ## getopt -/

theorem getoptOf_word (letters : List (UInt8 × Bool)) (w : Bytes) (rest : List Bytes) (hw : w ≠ []) (hd : w ≠ b%"-") :
    getoptOf letters ((c%'-' :: w) :: rest) =
      match getoptLetters letters w with
      | (os, none) => (os ++ (getoptOf letters rest).1, (getoptOf letters rest).2)
      | (os, some c) =>
        match rest with
        | [] => (os ++ [(c%'?', [])], [])
        | v :: rest => (os ++ (c, v) :: (getoptOf letters rest).1, (getoptOf letters rest).2) := by
  rw [getoptOf, if_neg (by intro e; simp at e; exact hd e), if_pos ⟨rfl, by intro e; simp at e; exact hw e⟩]
  rfl

/-- the letters of the option string -/
structure Letters (letters : List (UInt8 × Bool)) (flags valued : List UInt8) : Prop where
  flag : ∀ c, letters.lookup c = some false ↔ c ∈ flags
  value : ∀ c, letters.lookup c = some true ↔ c ∈ valued
  dash : c%'-' ∉ flags ∧ c%'-' ∉ valued
  mark : c%'?' ∉ flags ∧ c%'?' ∉ valued

section
variable {letters : List (UInt8 × Bool)} {flags valued : List UInt8}

theorem optLine_letters {args : List Bytes} {os : List (UInt8 × Bytes)} (h : OptLine flags valued args os) :
    ∀ x ∈ os, x.1 ∈ flags ∨ x.1 ∈ valued := by
  induction h with
  | nil => simp
  | flag c rest os hc _ ih => intro x hx; rcases List.mem_cons.1 hx with rfl | hx; exact .inl hc; exact ih x hx
  | apart c v rest os hc _ ih => intro x hx; rcases List.mem_cons.1 hx with rfl | hx; exact .inr hc; exact ih x hx
  | joined c v rest os hc _ _ ih => intro x hx; rcases List.mem_cons.1 hx with rfl | hx; exact .inr hc; exact ih x hx
  | cluster c d r rest os hc _ ih => intro x hx; rcases List.mem_cons.1 hx with rfl | hx; exact .inl hc; exact ih x hx

theorem word_ne {c : UInt8} (h : c ≠ c%'-') (r : Bytes) : c :: r ≠ b%"-" := by
  intro e; simp at e; exact h e.1

theorem optLine_getopt (hl : Letters letters flags valued) {args : List Bytes} {os : List (UInt8 × Bytes)} (h : OptLine flags valued args os)
    (tail : List Bytes) : getoptOf letters (args ++ tail) = (os ++ (getoptOf letters tail).1, (getoptOf letters tail).2) := by
  have nf : ∀ c, c ∈ flags → c ≠ c%'-' := fun c hc e => hl.dash.1 (e ▸ hc)
  have nv : ∀ c, c ∈ valued → c ≠ c%'-' := fun c hc e => hl.dash.2 (e ▸ hc)
  induction h with
  | nil => rfl
  | flag c rest os hc _ ih =>
    rw [List.cons_append, getoptOf_word _ _ _ (by simp) (word_ne (nf c hc) _)]
    simp [getoptLetters, (hl.flag c).2 hc, ih]
  | apart c v rest os hc _ ih =>
    rw [List.cons_append, List.cons_append, getoptOf_word _ _ _ (by simp) (word_ne (nv c hc) _)]
    simp [getoptLetters, (hl.value c).2 hc, ih]
  | joined c v rest os hc hv _ ih =>
    rw [List.cons_append, getoptOf_word _ _ _ (by simp) (word_ne (nv c hc) _)]
    simp [getoptLetters, (hl.value c).2 hc, ih, hv]
  | cluster c d r rest os hc h ih =>
    have hd : d ≠ c%'-' := by
      cases h with
      | flag _ _ _ hd => exact nf _ hd
      | apart _ _ _ _ hd => exact nv _ hd
      | joined _ _ _ _ hd => exact nv _ hd
      | cluster _ _ _ _ _ hd => exact nf _ hd
    rw [List.cons_append, getoptOf_word _ _ _ (by simp) (word_ne hd _)] at ih
    rw [List.cons_append, getoptOf_word _ _ _ (by simp) (word_ne (nf c hc) _)]
    have e : getoptLetters letters (c :: d :: r) = ((c, []) :: (getoptLetters letters (d :: r)).1, (getoptLetters letters (d :: r)).2) := by
      rw [getoptLetters, (hl.flag c).2 hc]
    rw [e]
    rcases hg : getoptLetters letters (d :: r) with ⟨os1, n⟩
    rw [hg] at ih
    cases n with
    | none =>
      simp only [Prod.mk.injEq] at ih ⊢
      exact ⟨by rw [List.cons_append, ih.1]; rfl, ih.2⟩
    | some k =>
      cases hr : rest ++ tail with
      | nil => rw [hr] at ih; simp only [Prod.mk.injEq] at ih ⊢; exact ⟨by rw [List.cons_append, ih.1]; rfl, ih.2⟩
      | cons v rr => rw [hr] at ih; simp only [Prod.mk.injEq] at ih ⊢; exact ⟨by rw [List.cons_append, ih.1]; rfl, ih.2⟩

theorem operands_getopt {tail ops : List Bytes} (h : Operands tail ops) : getoptOf letters tail = ([], ops) := by
  rcases h with rfl | ⟨rfl, h⟩
  · rw [getoptOf, if_pos rfl]
  · cases tail with
    | nil => rfl
    | cons a rest =>
      have h1 : ∀ r, a = c%'-' :: r → r = [] := fun r e => h r (by rw [e]; rfl)
      rw [getoptOf, if_neg (by rintro rfl; exact absurd (h1 _ rfl) (by simp)), if_neg]
      rintro ⟨e1, e2⟩
      cases a with
      | nil => simp at e1
      | cons x r =>
        simp at e1
        subst e1
        exact e2 (by rw [h1 r rfl])

theorem word_line (hl : Letters letters flags valued) (w : Bytes) (hw : w ≠ []) : ∀ (os1 : List (UInt8 × Bytes)) (n : Option UInt8),
    getoptLetters letters w = (os1, n) → (∀ x ∈ os1, x.1 ≠ c%'?') → ∀ (pre : List Bytes) (os2 : List (UInt8 × Bytes)), OptLine flags valued pre os2 →
      (n = none → OptLine flags valued ((c%'-' :: w) :: pre) (os1 ++ os2)) ∧
      (∀ c v, n = some c → OptLine flags valued ((c%'-' :: w) :: v :: pre) (os1 ++ (c, v) :: os2)) := by
  induction w with
  | nil => exact absurd rfl hw
  | cons c r ih =>
    intro os1 n h hq pre os2 hp
    rw [getoptLetters] at h
    cases hc : letters.lookup c with
    | none =>
      rw [hc] at h
      simp only [Prod.mk.injEq] at h
      exact absurd rfl (hq (c%'?', []) (by rw [← h.1]; simp))
    | some b =>
      rw [hc] at h
      cases b with
      | false =>
        have hf := (hl.flag c).1 hc
        simp only [Prod.mk.injEq] at h
        obtain ⟨h1, h2⟩ := h
        cases r with
        | nil =>
          simp only [getoptLetters] at h1 h2
          subst h1 h2
          exact ⟨fun _ => .flag c pre os2 hf hp, fun _ _ e => by cases e⟩
        | cons d r =>
          obtain ⟨k1, k2⟩ := ih (by simp) _ _ rfl (fun x hx => hq x (by rw [← h1]; exact List.mem_cons_of_mem _ hx)) pre os2 hp
          subst h1 h2
          exact ⟨fun e => .cluster c d r pre _ hf (k1 e), fun k v e => .cluster c d r (v :: pre) _ hf (k2 k v e)⟩
      | true =>
        have hv := (hl.value c).1 hc
        dsimp only at h
        by_cases hr : r = []
        · subst hr
          simp only [ne_eq, not_true_eq_false, if_false, Prod.mk.injEq] at h
          obtain ⟨h1, h2⟩ := h
          subst h1 h2
          exact ⟨fun e => (by cases e), fun k v e => by simp only [Option.some.injEq] at e; subst e; exact .apart c v pre os2 hv hp⟩
        · rw [if_pos hr] at h
          simp only [Prod.mk.injEq] at h
          obtain ⟨h1, h2⟩ := h
          subst h1 h2
          exact ⟨fun _ => .joined c r pre os2 hv hr hp, fun _ _ e => by cases e⟩

theorem getopt_line (hl : Letters letters flags valued) (m : Nat) : ∀ (args : List Bytes), args.length ≤ m →
    (∀ x ∈ (getoptOf letters args).1, x.1 ≠ c%'?') → CliLine flags valued args (getoptOf letters args).1 (getoptOf letters args).2 := by
  induction m with
  | zero =>
    intro args hm _
    cases args with
    | nil => exact ⟨[], [], rfl, .nil, .inr ⟨rfl, by simp [getoptOf]⟩⟩
    | cons a r => simp at hm
  | succ m ih =>
    intro args hm hq
    cases args with
    | nil => exact ⟨[], [], rfl, .nil, .inr ⟨rfl, by simp [getoptOf]⟩⟩
    | cons a rest =>
      by_cases h1 : a = b%"--"
      · subst h1
        rw [getoptOf, if_pos rfl]
        exact ⟨[], _, rfl, .nil, .inl rfl⟩
      · by_cases h2 : a.take 1 = b%"-" ∧ a ≠ b%"-"
        · obtain ⟨w, rfl⟩ : ∃ w, a = c%'-' :: w := by
            cases a with
            | nil => simp at h2
            | cons x r => simp at h2; exact ⟨r, by rw [h2.1]⟩
          have hw : w ≠ [] := by rintro rfl; exact h2.2 rfl
          have hd : w ≠ b%"-" := by rintro rfl; exact h1 rfl
          have e := getoptOf_word letters w rest hw hd
          rcases hg : getoptLetters letters w with ⟨os1, n⟩
          rw [hg] at e
          cases n with
          | none =>
            dsimp only at e
            rw [e] at hq ⊢
            obtain ⟨pre, tail, k1, k2, k3⟩ := ih rest (by simp at hm; omega) (fun x hx => hq x (by simp [hx]))
            exact ⟨(c%'-' :: w) :: pre, tail, by rw [k1]; rfl,
              (word_line hl w hw os1 none hg (fun x hx => hq x (by simp [hx])) pre _ k2).1 rfl, k3⟩
          | some c =>
            cases rest with
            | nil =>
              dsimp only at e
              rw [e] at hq
              exact absurd rfl (hq (c%'?', []) (by simp))
            | cons v rest =>
              dsimp only at e
              rw [e] at hq ⊢
              obtain ⟨pre, tail, k1, k2, k3⟩ := ih rest (by simp at hm; omega) (fun x hx => hq x (by simp [hx]))
              exact ⟨(c%'-' :: w) :: v :: pre, tail, by rw [k1]; rfl,
                (word_line hl w hw os1 (some c) hg (fun x hx => hq x (by simp [hx])) pre _ k2).2 c v rfl, k3⟩
        · have e : getoptOf letters (a :: rest) = ([], a :: rest) := by rw [getoptOf, if_neg h1, if_neg h2]
          rw [e]
          refine ⟨[], a :: rest, rfl, .nil, .inr ⟨rfl, ?_⟩⟩
          intro r hr
          simp only [List.head?_cons, Option.some.injEq] at hr
          subst hr
          cases r with
          | nil => rfl
          | cons x r => exact absurd ⟨rfl, by simp⟩ h2

/-- getopt splits exactly the command lines that are correct as it should -/
theorem getopt_iff (hl : Letters letters flags valued) (args : List Bytes) (os : List (UInt8 × Bytes)) (ops : List Bytes) :
    CliLine flags valued args os ops ↔ getoptOf letters args = (os, ops) ∧ ∀ x ∈ os, x.1 ≠ c%'?' := by
  constructor
  · rintro ⟨pre, tail, rfl, h1, h2⟩
    rw [optLine_getopt hl h1, operands_getopt h2, List.append_nil]
    refine ⟨rfl, fun x hx e => ?_⟩
    rcases optLine_letters h1 x hx with h | h <;> rw [e] at h
    · exact hl.mark.1 h
    · exact hl.mark.2 h
  · rintro ⟨h1, h2⟩
    have := getopt_line hl args.length args (Nat.le_refl _) (by rw [h1]; exact h2)
    rw [h1] at this
    exact this

end

/-! ## the options of gg -/

theorem lookup_iff (c : UInt8) (b : Bool) (l : List (UInt8 × Bool)) (hn : (l.map (·.1)).Nodup) : l.lookup c = some b ↔ (c, b) ∈ l := by
  induction l with
  | nil => simp
  | cons x l ih =>
    obtain ⟨d, e⟩ := x
    simp only [List.map_cons, List.nodup_cons] at hn
    by_cases h : c = d
    · subst h
      have : (c, b) ∉ l := fun hm => hn.1 (List.mem_map.2 ⟨_, hm, rfl⟩)
      simp [List.lookup, this]; exact eq_comm
    · have : (c == d) = false := by simp [h]
      rw [List.lookup, this]
      simp [ih hn.2, h]

theorem ggLetters_ok : Letters ggLetters ggFlags ggValued := by
  refine ⟨fun c => ?_, fun c => ?_, by decide, by decide⟩ <;> rw [lookup_iff c _ _ (by decide)] <;>
    simp [ggLetters, ggFlags, ggValued] <;> grind

theorem lastArg_cons (c : UInt8) (x : UInt8 × Bytes) (r : List (UInt8 × Bytes)) :
    lastArg c (x :: r) = (lastArg c r).or (if x.1 = c then some x.2 else none) := by
  rw [lastArg]; cases lastArg c r <;> rfl

theorem has_lastArg (c : UInt8) (os : List (UInt8 × Bytes)) : Has c os ↔ lastArg c os ≠ none := by
  induction os with
  | nil => simp [Has, lastArg]
  | cons x r ih =>
    rw [lastArg_cons]
    simp only [Has, List.mem_cons] at ih ⊢
    cases h : lastArg c r with
    | some v => simp [h] at ih; simp; exact ih.imp fun v h => .inr h
    | none =>
      simp [h] at ih
      obtain ⟨d, v⟩ := x
      simp only [Option.none_or, ne_eq, ite_eq_right_iff, reduceCtorEq, imp_false, Decidable.not_not, Prod.mk.injEq]
      exact ⟨fun ⟨w, hw⟩ => hw.elim (fun e => e.1.symm) (fun e => absurd e (ih w)), fun e => ⟨v, .inl ⟨e.symm, rfl⟩⟩⟩

theorem modeNamed_iff (v : Bytes) (m : GgMode) : ModeNamed v m ↔ parseDebug v = some m := by
  constructor
  · rintro ⟨⟩ <;> rfl
  · unfold parseDebug
    intro h
    repeat' split at h
    all_goals first | (cases h; subst_vars; constructor) | cases h

theorem proxyArg_iff (v : Bytes) (p : Bytes × Bytes) : ProxyArg v p ↔ parseProxyArg v = some p := by
  have hd : ∀ h : Bytes, h.head? ≠ some c%'[' → ∀ r, h ≠ c%'[' :: r := by rintro h hh r rfl; exact hh rfl
  have split1 : ∀ (c : UInt8) (l x : Bytes) (d : UInt8), l.dropWhile (· != c) = d :: x → d = c ∧ c ∉ l.takeWhile (· != c) ∧ l = l.takeWhile (· != c) ++ c :: x := by
    intro c l
    induction l with
    | nil => intro x d h; simp at h
    | cons a l ih =>
      intro x d h
      by_cases ha : a = c
      · subst ha
        simp at h
        simp [h.1, h.2]
      · have hb : (a != c) = true := by simp [ha]
        rw [List.dropWhile_cons, if_pos hb] at h
        obtain ⟨k1, k2, k3⟩ := ih x d h
        rw [List.takeWhile_cons, if_pos hb]
        exact ⟨k1, by simp [k2, Ne.symm ha], by rw [List.cons_append, ← k3]⟩
  have none1 : ∀ (c : UInt8) (l : Bytes), l.dropWhile (· != c) = [] → c ∉ l := by
    intro c l
    induction l with
    | nil => simp
    | cons a l ih =>
      intro h
      by_cases ha : a = c
      · subst ha; simp at h
      · have hb : (a != c) = true := by simp [ha]
        rw [List.dropWhile_cons, if_pos hb] at h
        simp [ih h, Ne.symm ha]
  constructor
  · intro h
    cases h with
    | host h h1 h2 => exact ((C81_proxy_arg v []).1 h1 (hd v h2)).1
    | hostPort h p h1 h2 => exact ((C81_proxy_arg h p).1 h1 (hd h h2)).2
    | addr h h1 => exact ((C81_proxy_arg h []).2 h1).1
    | addrPort h p h1 => exact ((C81_proxy_arg h p).2 h1).2
  · intro h
    unfold parseProxyArg at h
    split at h
    · rename_i rest
      split at h
      · cases h
      · rename_i d hx
        obtain ⟨rfl, k2, k3⟩ := split1 _ _ _ _ hx
        simp only [Option.some.injEq] at h
        subst h
        have := ProxyArg.addr _ k2
        rw [List.append_assoc, ← k3] at this
        exact this
      · rename_i d q hx
        obtain ⟨rfl, k2, k3⟩ := split1 _ _ _ _ hx
        simp only [Option.some.injEq] at h
        subst h
        have := ProxyArg.addrPort _ q k2
        rw [List.append_assoc, List.append_assoc] at this
        have e : b%"]:" ++ q = c%']' :: c%':' :: q := rfl
        rw [e, ← k3] at this
        exact this
      · cases h
    · rename_i hn
      split at h
      · rename_i hx
        simp only [Option.some.injEq] at h
        subst h
        refine .host _ (none1 _ _ hx) ?_
        intro e
        cases v with
        | nil => simp at e
        | cons a r => simp at e; exact hn r (by rw [e])
      · rename_i d q hx
        obtain ⟨rfl, k2, k3⟩ := split1 _ _ _ _ hx
        simp only [Option.some.injEq] at h
        subst h
        have := ProxyArg.hostPort _ q k2 (by
          intro e
          have : v.head? = some c%'[' := by
            rw [k3]
            cases hv : v.takeWhile (· != c%':') with
            | nil => rw [hv] at e; simp at e
            | cons a r => rw [hv] at e; simpa using e
          cases v with
          | nil => simp at this
          | cons a r => simp at this; exact hn r (by rw [this]))
        rw [List.append_assoc] at this
        have e : b%":" ++ q = c%':' :: q := rfl
        rw [e, ← k3] at this
        exact this

theorem seconds_iff (v : Bytes) (n : Int) : Seconds v n ↔ strtonum v 1 1000 = (n, none) := (C46_strtonum v 1 1000 n (by omega) (by omega)).symm

/-- one option -/
theorem ggOpt_go (o o1 : GgOpts) (c : UInt8) (v : Bytes) (hx : ggOpt o (c, v) = .go o1) :
    (c ∈ ggFlags ∨ c ∈ ggValued) ∧ (c = c%'d' → parseDebug v ≠ none) ∧ (c = c%'P' → parseProxyArg v ≠ none) ∧
    (c = c%'T' → (strtonum v 1 1000).2 = none) ∧ (if c = c%'2' then true else o.two) = o1.two ∧ (if c = c%'3' then true else o.three) = o1.three ∧
    (if c = c%'C' then some v else o.cert) = o1.cert ∧ (if c = c%'K' then some v else o.key) = o1.key ∧ (if c = c%'H' then some v else o.sni) = o1.sni ∧
    (if c = c%'d' then parseDebug v else some o.mode) = some o1.mode ∧
    (if c = c%'N' then true else if c = c%'P' then true else o.noVerify) = o1.noVerify ∧
    (if c = c%'n' then true else o.nop) = o1.nop ∧ (if c = c%'q' then true else o.quiet) = o1.quiet ∧
    (if c = c%'P' then parseProxyArg v else o.proxy) = o1.proxy ∧ (if c = c%'T' then (strtonum v 1 1000).1 else o.timer) = o1.timer := by
  unfold ggOpt at hx
  dsimp only at hx
  by_cases h2 : c = c%'2'
  · subst h2
    cases hx
    simp [ggFlags, ggValued]
  rw [if_neg h2] at hx
  by_cases h3 : c = c%'3'
  · subst h3
    cases hx
    simp [ggFlags, ggValued]
  rw [if_neg h3] at hx
  by_cases hC : c = c%'C'
  · subst hC
    cases hx
    simp [ggFlags, ggValued]
  rw [if_neg hC] at hx
  by_cases hd : c = c%'d'
  · subst hd
    cases hp : parseDebug v with
    | none => rw [hp] at hx; cases hx
    | some m => rw [hp] at hx; cases hx; simp [ggValued]
  rw [if_neg hd] at hx
  by_cases hH : c = c%'H'
  · subst hH
    cases hx
    simp [ggFlags, ggValued]
  rw [if_neg hH] at hx
  by_cases hK : c = c%'K'
  · subst hK
    cases hx
    simp [ggFlags, ggValued]
  rw [if_neg hK] at hx
  by_cases hN : c = c%'N'
  · subst hN
    cases hx
    simp [ggFlags, ggValued]
  rw [if_neg hN] at hx
  by_cases hn : c = c%'n'
  · subst hn
    cases hx
    simp [ggFlags, ggValued]
  rw [if_neg hn] at hx
  by_cases hP : c = c%'P'
  · subst hP
    cases hp : parseProxyArg v with
    | none => rw [hp] at hx; cases hx
    | some m => rw [hp] at hx; cases hx; simp [ggValued]
  rw [if_neg hP] at hx
  by_cases hq : c = c%'q'
  · subst hq
    cases hx
    simp [ggFlags, ggValued]
  rw [if_neg hq] at hx
  by_cases hT : c = c%'T'
  · subst hT
    rcases hp : strtonum v 1 1000 with ⟨n, m⟩
    cases m with
    | some m => rw [hp] at hx; cases hx
    | none => rw [hp] at hx; cases hx; simp [ggValued]
  rw [if_neg hT] at hx
  cases hx

/-- what the loop over the options leaves in the variables -/
theorem ggOptsGo_go (os : List (UInt8 × Bytes)) : ∀ (o o' : GgOpts), ggOptsGo o os = .go o' →
    (∀ x ∈ os, x.1 ∈ ggFlags ∨ x.1 ∈ ggValued) ∧
    (∀ v, (c%'d', v) ∈ os → parseDebug v ≠ none) ∧ (∀ v, (c%'P', v) ∈ os → parseProxyArg v ≠ none) ∧ (∀ v, (c%'T', v) ∈ os → (strtonum v 1 1000).2 = none) ∧
    (o'.two = true ↔ o.two = true ∨ lastArg c%'2' os ≠ none) ∧ (o'.three = true ↔ o.three = true ∨ lastArg c%'3' os ≠ none) ∧
    o'.cert = (lastArg c%'C' os).or o.cert ∧ o'.key = (lastArg c%'K' os).or o.key ∧ o'.sni = (lastArg c%'H' os).or o.sni ∧
    some o'.mode = (match lastArg c%'d' os with | none => some o.mode | some v => parseDebug v) ∧
    (o'.noVerify = true ↔ o.noVerify = true ∨ lastArg c%'N' os ≠ none ∨ lastArg c%'P' os ≠ none) ∧
    (o'.nop = true ↔ o.nop = true ∨ lastArg c%'n' os ≠ none) ∧ (o'.quiet = true ↔ o.quiet = true ∨ lastArg c%'q' os ≠ none) ∧
    o'.proxy = (match lastArg c%'P' os with | none => o.proxy | some v => parseProxyArg v) ∧
    o'.timer = (match lastArg c%'T' os with | none => o.timer | some v => (strtonum v 1 1000).1) := by
  induction os with
  | nil => intro o o' h; cases h; simp [lastArg]
  | cons x r ih =>
    intro o o' h
    obtain ⟨c, v⟩ := x
    rw [ggOptsGo] at h
    cases hx : ggOpt o (c, v) with
    | exit n => rw [hx] at h; cases h
    | go o1 =>
      rw [hx] at h
      obtain ⟨a0, a1, a2, a3, a4, a5, a6, a7, a8, a9, a10, a11, a12, a13, a14⟩ := ih o1 o' h
      simp only [lastArg_cons]
      clear ih h
      have lastM : ∀ {α : Type} (k : UInt8) (f : Bytes → α) (p q : α), (if c = k then f v else p) = q →
          (match lastArg k r with | none => q | some v => f v) = (match (lastArg k r).or (if c = k then some v else none) with | none => p | some v => f v) := by
        intro α k f p q e
        cases lastArg k r with
        | some w => rfl
        | none => rw [← e]; by_cases hk : c = k <;> simp [hk]
      have lastO : ∀ (k : UInt8) (p q : Option Bytes), (if c = k then some v else p) = q →
          (lastArg k r).or q = ((lastArg k r).or (if c = k then some v else none)).or p := by
        intro k p q e
        rw [← e]
        cases lastArg k r with
        | some w => rfl
        | none => split <;> rfl
      have lastB : ∀ (k : UInt8) (p q s : Bool), (s = true ↔ q = true ∨ lastArg k r ≠ none) → (if c = k then true else p) = q →
          (s = true ↔ p = true ∨ (lastArg k r).or (if c = k then some v else none) ≠ none) := by
        intro k p q s e1 e
        rw [e1, ← e]
        cases lastArg k r with
        | some w => simp
        | none => split <;> simp
      obtain ⟨b0, b1, b2, b3, b4, b5, b6, b7, b8, b9, b10, b11, b12, b13, b14⟩ := ggOpt_go o o1 c v hx
      refine ⟨?_, ?_, ?_, ?_, lastB _ _ _ _ a4 b4, lastB _ _ _ _ a5 b5, a6.trans (lastO _ _ _ b6), a7.trans (lastO _ _ _ b7), a8.trans (lastO _ _ _ b8),
        a9.trans (lastM _ _ _ _ b9), ?_, lastB _ _ _ _ a11 b11, lastB _ _ _ _ a12 b12, a13.trans (lastM _ _ _ _ b13), a14.trans (lastM _ _ _ _ b14)⟩
      · intro x hx
        rcases List.mem_cons.1 hx with rfl | hx
        · exact b0
        · exact a0 x hx
      · intro w hw
        rcases List.mem_cons.1 hw with e | hw
        · cases e; exact b1 rfl
        · exact a1 w hw
      · intro w hw
        rcases List.mem_cons.1 hw with e | hw
        · cases e; exact b2 rfl
        · exact a2 w hw
      · intro w hw
        rcases List.mem_cons.1 hw with e | hw
        · cases e; exact b3 rfl
        · exact a3 w hw
      · rw [a10, ← b10]
        cases lastArg c%'N' r with
        | some w => simp
        | none =>
          cases lastArg c%'P' r with
          | some w => simp
          | none =>
            by_cases hN : c = c%'N'
            · simp [hN]
            · by_cases hP : c = c%'P' <;> simp [hN, hP]

theorem ggOpt_exit (o : GgOpts) (x : UInt8 × Bytes) (n : Nat) (h : ggOpt o x = .exit n) : n = 1 := by
  unfold ggOpt at h
  grind (splits := 30)

theorem ggOptsGo_exit (os : List (UInt8 × Bytes)) : ∀ (o : GgOpts) (n : Nat), ggOptsGo o os = .exit n → n = 1 := by
  induction os with
  | nil => intro o n h; cases h
  | cons x r ih =>
    intro o n h
    rw [ggOptsGo] at h
    cases hx : ggOpt o x with
    | exit m => rw [hx] at h; cases h; exact ggOpt_exit _ _ _ hx
    | go o1 => rw [hx] at h; exact ih _ _ h

theorem ggOpt_ok (o : GgOpts) (c : UInt8) (v : Bytes) (hc : c ∈ ggFlags ∨ c ∈ ggValued) (h1 : c = c%'d' → parseDebug v ≠ none)
    (h2 : c = c%'P' → parseProxyArg v ≠ none) (h3 : c = c%'T' → (strtonum v 1 1000).2 = none) : ∃ o', ggOpt o (c, v) = .go o' := by
  simp only [ggFlags, ggValued, List.mem_cons, List.not_mem_nil, or_false] at hc
  rcases hc with (rfl | rfl | rfl | rfl | rfl) | rfl | rfl | rfl | rfl | rfl | rfl
  · exact ⟨_, rfl⟩
  · exact ⟨_, rfl⟩
  · exact ⟨_, rfl⟩
  · exact ⟨_, rfl⟩
  · exact ⟨_, rfl⟩
  · exact ⟨_, rfl⟩
  · cases hp : parseDebug v with
    | none => exact absurd hp (h1 rfl)
    | some m => exact ⟨{ o with mode := m }, by simp [ggOpt, hp]⟩
  · exact ⟨_, rfl⟩
  · exact ⟨_, rfl⟩
  · cases hp : parseProxyArg v with
    | none => exact absurd hp (h2 rfl)
    | some m => exact ⟨{ o with proxy := some m, noVerify := true }, by simp [ggOpt, hp]⟩
  · rcases hp : strtonum v 1 1000 with ⟨n, m⟩
    have := h3 rfl
    rw [hp] at this
    cases this
    exact ⟨{ o with timer := n }, by simp [ggOpt, hp]⟩

theorem ggOptsGo_ok (os : List (UInt8 × Bytes)) : ∀ (o : GgOpts), (∀ x ∈ os, x.1 ∈ ggFlags ∨ x.1 ∈ ggValued) → (∀ v, (c%'d', v) ∈ os → parseDebug v ≠ none) →
    (∀ v, (c%'P', v) ∈ os → parseProxyArg v ≠ none) → (∀ v, (c%'T', v) ∈ os → (strtonum v 1 1000).2 = none) → ∃ o', ggOptsGo o os = .go o' := by
  induction os with
  | nil => intro o _ _ _ _; exact ⟨o, rfl⟩
  | cons x r ih =>
    intro o h0 h1 h2 h3
    obtain ⟨c, v⟩ := x
    obtain ⟨o1, h⟩ := ggOpt_ok o c v (h0 _ List.mem_cons_self) (by rintro rfl; exact h1 v List.mem_cons_self) (by rintro rfl; exact h2 v List.mem_cons_self)
      (by rintro rfl; exact h3 v List.mem_cons_self)
    rw [ggOptsGo, h]
    exact ih o1 (fun x hx => h0 x (List.mem_cons_of_mem _ hx)) (fun x hx => h1 x (List.mem_cons_of_mem _ hx)) (fun x hx => h2 x (List.mem_cons_of_mem _ hx))
      (fun x hx => h3 x (List.mem_cons_of_mem _ hx))

theorem modes_iff (v : Bytes) : (∃ m, ModeNamed v m) ↔ parseDebug v ≠ none := by
  rw [Option.ne_none_iff_exists']
  exact ⟨fun ⟨m, h⟩ => ⟨m, (modeNamed_iff v m).1 h⟩, fun ⟨m, h⟩ => ⟨m, (modeNamed_iff v m).2 h⟩⟩

theorem proxies_iff (v : Bytes) : (∃ p, ProxyArg v p) ↔ parseProxyArg v ≠ none := by
  rw [Option.ne_none_iff_exists']
  exact ⟨fun ⟨m, h⟩ => ⟨m, (proxyArg_iff v m).1 h⟩, fun ⟨m, h⟩ => ⟨m, (proxyArg_iff v m).2 h⟩⟩

theorem times_iff (v : Bytes) : (∃ n, Seconds v n) ↔ (strtonum v 1 1000).2 = none :=
  ⟨fun ⟨n, h⟩ => by rw [(seconds_iff v n).1 h], fun h => ⟨_, (seconds_iff v _).2 (Prod.ext rfl h)⟩⟩

/-- the variables after the loop are as the options say -/
theorem ggSet_of (os : List (UInt8 × Bytes)) (o : GgOpts) (h : ggOptsGo {} os = .go o) : GgSet os o := by
  obtain ⟨a0, a1, a2, a3, a4, a5, a6, a7, a8, a9, a10, a11, a12, a13, a14⟩ := ggOptsGo_go os {} o h
  constructor
  · rw [a4, has_lastArg]; simp
  · rw [a5, has_lastArg]; simp
  · rw [a6]; simp
  · rw [a7]; simp
  · rw [a8]; simp
  · cases hd : lastArg c%'d' os with
    | none => rw [hd] at a9; exact .inl ⟨rfl, by simpa using a9⟩
    | some v => rw [hd] at a9; exact .inr ⟨v, rfl, (modeNamed_iff _ _).2 a9.symm⟩
  · rw [a10, has_lastArg, has_lastArg]; simp
  · rw [a11, has_lastArg]; simp
  · rw [a12, has_lastArg]; simp
  · cases hd : lastArg c%'P' os with
    | none => rw [hd] at a13; exact .inl ⟨rfl, a13⟩
    | some v =>
      rw [hd] at a13
      cases hp : parseProxyArg v with
      | none => exact absurd hp (a2 v (lastArg_mem hd))
      | some p => exact .inr ⟨v, p, rfl, (proxyArg_iff _ _).2 hp, a13.trans hp⟩
  · cases hd : lastArg c%'T' os with
    | none => rw [hd] at a14; exact .inl ⟨rfl, a14⟩
    | some v =>
      rw [hd] at a14
      exact .inr ⟨v, rfl, (seconds_iff _ _).2 (Prod.ext a14.symm (a3 v (lastArg_mem hd)))⟩

theorem ggSet_unique {os : List (UInt8 × Bytes)} {o o' : GgOpts} (h : GgSet os o) (h' : GgSet os o') : o = o' := by
  have bool : ∀ {a b : Bool} {P : Prop}, (a = true ↔ P) → (b = true ↔ P) → a = b := fun ha hb => Bool.eq_iff_iff.2 (ha.trans hb.symm)
  have e1 := bool h.two h'.two
  have e2 := bool h.three h'.three
  have e3 := h.cert.trans h'.cert.symm
  have e4 := h.key.trans h'.key.symm
  have e5 := h.sni.trans h'.sni.symm
  have e6 : o.mode = o'.mode := by
    rcases h.mode with ⟨k, k1⟩ | ⟨v, k, k1⟩ <;> rcases h'.mode with ⟨m, m1⟩ | ⟨w, m, m1⟩
    · rw [k1, m1]
    · rw [k] at m; cases m
    · rw [k] at m; cases m
    · rw [k] at m; cases m
      have := (modeNamed_iff _ _).1 k1
      rw [(modeNamed_iff _ _).1 m1] at this
      simpa using this.symm
  have e7 := bool h.noVerify h'.noVerify
  have e8 := bool h.nop h'.nop
  have e9 := bool h.quiet h'.quiet
  have e10 : o.proxy = o'.proxy := by
    rcases h.proxy with ⟨k, k1⟩ | ⟨v, p, k, k1, k2⟩ <;> rcases h'.proxy with ⟨m, m1⟩ | ⟨w, q, m, m1, m2⟩
    · rw [k1, m1]
    · rw [k] at m; cases m
    · rw [k] at m; cases m
    · rw [k] at m; cases m
      rw [k2, m2, ← (proxyArg_iff _ _).1 k1, ← (proxyArg_iff _ _).1 m1]
  have e11 : o.timer = o'.timer := by
    rcases h.timer with ⟨k, k1⟩ | ⟨v, k, k1⟩ <;> rcases h'.timer with ⟨m, m1⟩ | ⟨w, m, m1⟩
    · rw [k1, m1]
    · rw [k] at m; cases m
    · rw [k] at m; cases m
    · rw [k] at m; cases m
      have := (seconds_iff _ _).1 k1
      rw [(seconds_iff _ _).1 m1] at this
      exact (congrArg Prod.fst this).symm
  cases o; cases o'
  simp only at e1 e2 e3 e4 e5 e6 e7 e8 e9 e10 e11
  subst e1 e2 e3 e4 e5 e6 e7 e8 e9 e10 e11
  rfl

theorem ggCheck_exit (o : GgOpts) (l : List Bytes) (n : Nat) (h : ggCheck o l = .exit n) : n = 1 := by
  unfold ggCheck at h
  grind

theorem ggCheck_go (o o' : GgOpts) (l : List Bytes) (u : Bytes) :
    ggCheck o l = .go (o', u) ↔ o = o' ∧ l = [u] ∧ ¬ (o.two = true ∧ o.three = true) ∧ (o.cert ≠ none ↔ o.key ≠ none) := by
  unfold ggCheck
  by_cases h1 : (o.two && o.three) = true
  · rw [if_pos h1]; simp at h1; simp [h1]
  · rw [if_neg h1]
    simp only [Bool.and_eq_true] at h1
    by_cases h2 : (o.cert.isSome != o.key.isSome) = true
    · rw [if_pos h2]
      simp only [reduceCtorEq, false_iff, not_and]
      intro _ _ _ h3
      cases hc : o.cert <;> cases hk : o.key <;> simp_all
    · rw [if_neg h2]
      have h3 : o.cert ≠ none ↔ o.key ≠ none := by cases hc : o.cert <;> cases hk : o.key <;> simp_all
      split
      · simp [h1, h3]
      · rename_i hn
        simp only [reduceCtorEq, false_iff, not_and]
        intro _ e
        exact absurd e (hn u)

/-- **C126.** The command line of gg: it goes ahead with exactly the command lines of gg(1), that is options written as POSIX has it whose arguments are right, `-2` and `-3`
not together, `-C` and `-K` together, and one url; and then does what the options say, the last one of those that are repeated. -/
theorem C126_command_line (prog : Bytes) (args : List Bytes) (o : GgOpts) (u : Bytes) :
    ggArgs (prog :: args) = .go (o, u) ↔ ∃ os, CliLine ggFlags ggValued args os [u] ∧ GgAllowed os ∧ GgSet os o := by
  unfold ggArgs
  rw [List.drop_succ_cons, List.drop_zero]
  constructor
  · intro h
    cases hg : ggOptsGo {} (getoptOf ggLetters args).1 with
    | exit n => rw [hg] at h; cases h
    | go o1 =>
      rw [hg] at h
      obtain ⟨rfl, h1, h2, h3⟩ := (ggCheck_go _ _ _ _).1 h
      obtain ⟨a0, a1, a2, a3, _⟩ := ggOptsGo_go _ _ _ hg
      have hs := ggSet_of _ _ hg
      refine ⟨(getoptOf ggLetters args).1, ?_, ⟨?_, ?_, ?_, ?_, ?_⟩, hs⟩
      · rw [getopt_iff ggLetters_ok]
        refine ⟨Prod.ext rfl h1, fun x hx e => ?_⟩
        have := a0 x hx
        rw [e] at this
        exact absurd this (by decide)
      · exact fun v hv => (modes_iff v).2 (a1 v hv)
      · exact fun v hv => (proxies_iff v).2 (a2 v hv)
      · exact fun v hv => (times_iff v).2 (a3 v hv)
      · rw [← hs.two, ← hs.three]; exact h2
      · rw [has_lastArg, has_lastArg, ← hs.cert, ← hs.key]; exact h3
  · rintro ⟨os, h1, h2, h3⟩
    obtain ⟨h4, h5⟩ := (getopt_iff ggLetters_ok _ _ _).1 h1
    rw [h4]
    obtain ⟨pre, tail, _, h6, _⟩ := h1
    obtain ⟨o1, hg⟩ := ggOptsGo_ok os {} (optLine_letters h6) (fun v hv => (modes_iff v).1 (h2.modes v hv)) (fun v hv => (proxies_iff v).1 (h2.proxies v hv))
      (fun v hv => (times_iff v).1 (h2.seconds v hv))
    have hs := ggSet_of _ _ hg
    have := ggSet_unique h3 hs
    subst this
    rw [hg]
    refine (ggCheck_go _ _ _ _).2 ⟨rfl, rfl, ?_, ?_⟩
    · rw [h3.two, h3.three]; exact h2.oneVersion
    · rw [h3.cert, h3.key, ← has_lastArg, ← has_lastArg]; exact h2.pair

example : ggArgs [b%"gg", b%"-nqT9", b%"-P", b%"[::1]:1", b%"--", b%"-u"] =
    .go ({ nop := true, quiet := true, timer := 9, proxy := some (b%"::1", b%"1"), noVerify := true }, b%"-u") := by decide +kernel

example : CliLine ggFlags ggValued [b%"-nqT9", b%"-P", b%"[::1]:1", b%"--", b%"-u"] [(c%'n', []), (c%'q', []), (c%'T', b%"9"), (c%'P', b%"[::1]:1")] [b%"-u"] := by
  rw [getopt_iff ggLetters_ok]; decide +kernel

theorem ggArgs_exit (argv : List Bytes) (n : Nat) (h : ggArgs argv = .exit n) : n = 1 := by
  unfold ggArgs at h
  cases hg : ggOptsGo {} (getoptOf ggLetters (argv.drop 1)).1 with
  | exit m => rw [hg] at h; cases h; exact ggOptsGo_exit _ _ _ hg
  | go o => rw [hg] at h; exact ggCheck_exit _ _ _ h

section
variable (env : CliEnv) (prog : Bytes) (args : List Bytes) (hs : List SslRes) (ws : List (Option Nat)) (rs : List TRead)

/-- **C126.** With any other command line gg exits with 1, without having contacted anybody. -/
theorem C126_refused (h : ¬ ∃ os u, CliLine ggFlags ggValued args os [u] ∧ GgAllowed os) :
    ggMain env (prog :: args) hs ws rs = .ok { status := some 1 } := by
  unfold ggMain
  cases hg : ggArgs (prog :: args) with
  | exit n => rw [ggArgs_exit _ _ hg]
  | go x =>
    obtain ⟨o, u⟩ := x
    obtain ⟨os, h1, h2, _⟩ := (C126_command_line _ _ _ _).1 hg
    exact absurd ⟨os, u, h1, h2⟩ h

example : ¬ ∃ os u, CliLine ggFlags ggValued [b%"-z", b%"gemini://h/"] os [u] ∧ GgAllowed os := by
  rintro ⟨os, u, h, _⟩
  obtain ⟨h1, h2⟩ := (getopt_iff ggLetters_ok _ _ _).1 h
  have e : getoptOf ggLetters [b%"-z", b%"gemini://h/"] = ([(c%'?', [])], [b%"gemini://h/"]) := by decide +kernel
  rw [e] at h1
  cases h1
  exact h2 _ List.mem_cons_self rfl

variable {os : List (UInt8 × Bytes)} {u : Bytes}

/-- an allowed command line starts get with what it asks for -/
theorem ggMain_of (hl : CliLine ggFlags ggValued args os [u]) (ha : GgAllowed os) :
    ∃ o, GgSet os o ∧ ggMain env (prog :: args) hs ws rs = ggGet env o u hs ws rs := by
  have hok : ∃ o, GgSet os o := by
    obtain ⟨pre, tail, _, h6, _⟩ := hl
    obtain ⟨o1, hg⟩ := ggOptsGo_ok os {} (optLine_letters h6) (fun v hv => (modes_iff v).1 (ha.modes v hv)) (fun v hv => (proxies_iff v).1 (ha.proxies v hv))
      (fun v hv => (times_iff v).1 (ha.seconds v hv))
    exact ⟨o1, ggSet_of _ _ hg⟩
  obtain ⟨o, ho⟩ := hok
  refine ⟨o, ho, ?_⟩
  unfold ggMain
  rw [(C126_command_line prog args o u).2 ⟨os, hl, ha, ho⟩]

/-- the files that `-C` and `-K` name can be read -/
def PairRead (env : CliEnv) (os : List (UInt8 × Bytes)) : Prop :=
  ∀ c k, lastArg c%'C' os = some c → lastArg c%'K' os = some k → env.file c ≠ none ∧ env.file k ≠ none

theorem keypairFile_none (c k : Bytes) : keypairFile env c k = none ↔ env.file c = none ∨ env.file k = none := by
  unfold keypairFile
  cases env.file c <;> cases env.file k <;> simp

/-- what ggConf gives -/
theorem ggConf_some {o : GgOpts} {conf : ClientTls} (h : ggConf env o = some conf) :
    conf.verifyCert = false ∧ (conf.verifyName = !o.noVerify) ∧
    conf.protocols = (if o.three then protoTls13 else if o.two then protoTls12 else protosDefault) ∧
    conf.keypair = (match o.cert, o.key with | some c, some k => keypairFile env c k | _, _ => none) := by
  unfold ggConf at h
  cases hc : o.cert with
  | none => rw [hc] at h; cases h; cases o.noVerify <;> cases o.two <;> cases o.three <;> simp
  | some c =>
    cases hk : o.key with
    | none => rw [hc, hk] at h; cases h; cases o.noVerify <;> cases o.two <;> cases o.three <;> simp
    | some k =>
      rw [hc, hk] at h
      dsimp only at h ⊢
      cases hp : keypairFile env c k with
      | none => rw [hp] at h; cases h
      | some p =>
        rw [hp] at h
        cases h
        cases o.noVerify <;> cases o.two <;> cases o.three <;> simp

theorem ggConf_iff {o : GgOpts} (ho : GgSet os o) (ha : GgAllowed os) : (∃ conf, ggConf env o = some conf) ↔ PairRead env os := by
  unfold ggConf PairRead
  rw [← ho.cert, ← ho.key]
  cases hc : o.cert with
  | none => simp
  | some c =>
    cases hk : o.key with
    | none => simp
    | some k =>
      simp only [Option.some.injEq]
      constructor
      · rintro ⟨conf, h⟩ c' k' rfl rfl
        cases hp : keypairFile env c k with
        | none => rw [hp] at h; cases h
        | some p =>
          refine ⟨fun e => ?_, fun e => ?_⟩
          · rw [(keypairFile_none env c k).2 (.inl e)] at hp; cases hp
          · rw [(keypairFile_none env c k).2 (.inr e)] at hp; cases hp
      · intro h
        have := h c k rfl rfl
        cases hp : keypairFile env c k with
        | none => rcases (keypairFile_none env c k).1 hp with e | e; exact absurd e this.1; exact absurd e this.2
        | some p => exact ⟨_, rfl⟩

theorem ggRequest_ok {isAddr : Bytes → Bool} {url req host port : Bytes} (h : ggRequest isAddr url = .ok (req, host, port)) :
    url.length ≤ 1024 ∧ ∃ i, parseIri isAddr url = .ok i ∧ req = url ++ b%"\r\n" ∧ host = i.host ∧ port = (if i.port = [] then b%"1965" else i.port) := by
  unfold ggRequest at h
  split at h
  · cases h
  · split at h
    · cases h
    · refine ⟨by omega, ?_⟩
      cases hp : parseIri isAddr url with
      | err => rw [hp] at h; cases h
      | ub => rw [hp] at h; cases h
      | ok i => rw [hp] at h; cases h; exact ⟨i, rfl, rfl, rfl, rfl⟩

/-- **C126.** `-n` contacts nobody; the exit status says if the url is a valid IRI of at most 1024 bytes. -/
theorem C126_check_only (hl : CliLine ggFlags ggValued args os [u]) (ha : GgAllowed os) (hn : Has c%'n' os) (hp : PairRead env os) :
    ((u.length ≤ 1024 ∧ ∃ i, parseIri env.isAddr u = .ok i) → ggMain env (prog :: args) hs ws rs = .ok { status := some 0 }) ∧
    (¬ (u.length ≤ 1024 ∧ ∃ i, parseIri env.isAddr u = .ok i) → ggMain env (prog :: args) hs ws rs = .ok { status := some 1 }) := by
  obtain ⟨o, ho, e⟩ := ggMain_of env prog args hs ws rs hl ha
  obtain ⟨conf, hc⟩ := (ggConf_iff env ho ha).2 hp
  rw [e, ggGet, hc]
  dsimp only
  have hnop := ho.nop.2 hn
  constructor
  · rintro ⟨h1, i, h2⟩
    have : ggRequest env.isAddr u = .ok (u ++ b%"\r\n", i.host, if i.port = [] then b%"1965" else i.port) := by
      unfold ggRequest
      rw [if_neg (by omega), if_neg (by omega), h2]
    rw [this]
    dsimp only
    rw [if_pos hnop]
  · intro hx
    cases hq : ggRequest env.isAddr u with
    | ub =>
      exfalso
      unfold ggRequest at hq
      split at hq
      · cases hq
      · split at hq
        · cases hq
        · cases hi : parseIri env.isAddr u with
          | ok i => rw [hi] at hq; cases hq
          | err => rw [hi] at hq; cases hq
          | ub => exact C01_no_undefined_behaviour _ _ hi
    | err => rfl
    | ok x =>
      obtain ⟨a, b, c⟩ := x
      obtain ⟨k1, i, k2, _⟩ := ggRequest_ok hq
      exact absurd ⟨k1, i, k2⟩ hx

/-- how a run comes about: nothing happens, or the host is looked up and so on -/
theorem ggMain_cases (hl : CliLine ggFlags ggValued args os [u]) (ha : GgAllowed os) {r : CliRun} (h : ggMain env (prog :: args) hs ws rs = .ok r) :
    (∃ n, r = { status := some n }) ∨
    ∃ o conf i, GgSet os o ∧ ggConf env o = some conf ∧ parseIri env.isAddr u = .ok i ∧ u.length ≤ 1024 ∧ o.nop = false ∧
      r = ggReach env o conf (u ++ b%"\r\n") i.host (if i.port = [] then b%"1965" else i.port) hs ws rs := by
  obtain ⟨o, ho, e⟩ := ggMain_of env prog args hs ws rs hl ha
  rw [e, ggGet] at h
  cases hc : ggConf env o with
  | none => rw [hc] at h; cases h; exact .inl ⟨1, rfl⟩
  | some conf =>
    rw [hc] at h
    dsimp only at h
    cases hq : ggRequest env.isAddr u with
    | ub => rw [hq] at h; cases h
    | err => rw [hq] at h; cases h; exact .inl ⟨1, rfl⟩
    | ok x =>
      obtain ⟨a, b, c⟩ := x
      rw [hq] at h
      dsimp only at h
      obtain ⟨k1, i, k2, rfl, rfl, rfl⟩ := ggRequest_ok hq
      by_cases hn : o.nop = true
      · rw [if_pos hn] at h; cases h; exact .inl ⟨0, rfl⟩
      · rw [if_neg hn] at h
        cases h
        exact .inr ⟨o, conf, i, ho, hc, k2, k1, by simpa using hn, rfl⟩

theorem ggTarget_spec {o : GgOpts} (ho : GgSet os o) (i : Iri) :
    GgHost os i (ggTarget o i.host (if i.port = [] then b%"1965" else i.port)).1 ∧
    GgName os (ggTarget o i.host (if i.port = [] then b%"1965" else i.port)).1.1 (ggTarget o i.host (if i.port = [] then b%"1965" else i.port)).2 := by
  constructor
  · unfold ggTarget GgHost
    rcases ho.proxy with ⟨k1, k2⟩ | ⟨v, p, k1, k2, k3⟩
    · rw [k2]
      refine .inr ⟨k1, rfl, ?_⟩
      by_cases hp : i.port = []
      · exact .inl ⟨hp, by simp [hp]⟩
      · exact .inr ⟨hp, by simp [hp]⟩
    · rw [k3]; exact .inl ⟨v, k1, k2⟩
  · unfold ggTarget GgName
    rw [← ho.sni]
    cases o.sni with
    | none => exact .inr ⟨rfl, rfl⟩
    | some s => exact .inl rfl

/-- the cases of ggReach -/
theorem ggReach_cases (o : GgOpts) (conf : ClientTls) (req host port : Bytes) :
    ∃ hp name, ggTarget o host port = (hp, name) ∧ (ggReach env o conf req host port hs ws rs).asked = some hp ∧
      (((ggReach env o conf req host port hs ws rs).sent = [] ∧
        (∀ t, (ggReach env o conf req host port hs ws rs).tls = some t → tlsConnect env.inet env.loads conf name = some t) ∧
        (ggReach env o conf req host port hs ws rs).status ≠ some 0) ∨
       ∃ t k, tlsConnect env.inet env.loads conf name = some t ∧ shake env.inet t hs = some true ∧
        ggReach env o conf req host port hs ws rs = ggTalk o req ws rs { asked := some hp, peer := some k, tls := some t }) := by
  refine ⟨(ggTarget o host port).1, (ggTarget o host port).2, rfl, ?_⟩
  unfold ggReach
  dsimp only
  cases h1 : (env.dial (ggTarget o host port).1.1 (ggTarget o host port).1.2).bind (firstThat 0) with
  | none => exact ⟨rfl, .inl ⟨rfl, by simp, by simp⟩⟩
  | some k =>
    dsimp only
    cases h2 : tlsConnect env.inet env.loads conf (ggTarget o host port).2 with
    | none => exact ⟨rfl, .inl ⟨rfl, by simp, by simp⟩⟩
    | some t =>
      dsimp only
      cases h3 : shake env.inet t hs with
      | none => exact ⟨rfl, .inl ⟨rfl, by simp, by simp⟩⟩
      | some b =>
        cases b with
        | false => exact ⟨rfl, .inl ⟨rfl, by simp, by simp⟩⟩
        | true => exact ⟨by simp only [ggTalk]; split <;> rfl, .inr ⟨t, k, rfl, h3, rfl⟩⟩

theorem shake_true {inet : Bytes → Option Bytes} {t : TlsClient} {hs : List SslRes} (h : shake inet t hs = some true) :
    ∃ r ∈ hs, tlsHandshakeClient inet t r = .complete := by
  induction hs with
  | nil => cases h
  | cons r hs ih =>
    rw [shake] at h
    cases hr : tlsHandshakeClient inet t r with
    | complete => exact ⟨r, by simp, hr⟩
    | failed => rw [hr] at h; simp at h
    | wantIn => rw [hr] at h; obtain ⟨r', h1, h2⟩ := ih h; exact ⟨r', by simp [h1], h2⟩
    | wantOut => rw [hr] at h; obtain ⟨r', h1, h2⟩ := ih h; exact ⟨r', by simp [h1], h2⟩

theorem tlsConnect_some {inet : Bytes → Option Bytes} {loads : Bytes × Bytes → Bool} {conf : ClientTls} {hn : Bytes} {t : TlsClient}
    (h : tlsConnect inet loads conf hn = some t) : t.conf = conf ∧ t.servername = stripDot hn ∧ (t.sni = none ∧ (inet (stripDot hn)).isSome ∨ t.sni = some (stripDot hn)) := by
  unfold tlsConnect at h
  dsimp only at h
  split at h
  · cases h
  · split at h
    · rename_i hi; cases h; exact ⟨rfl, rfl, .inl ⟨rfl, hi⟩⟩
    · unfold sslHostName at h
      split at h
      · cases h
      · rename_i hh
        split at hh
        · cases hh
        · cases hh; cases h; exact ⟨rfl, rfl, .inr rfl⟩

theorem firstThat_some {l : List Bool} {k n : Nat} (h : firstThat n l = some k) : n ≤ k ∧ l[k - n]? = some true ∧ ∀ j < k - n, l[j]? = some false := by
  induction l generalizing n with
  | nil => cases h
  | cons x r ih =>
    cases x with
    | true => cases h; simp
    | false =>
      obtain ⟨h1, h2, h3⟩ := ih (show firstThat (n + 1) r = some k from h)
      have e : k - n = (k - (n + 1)) + 1 := by omega
      refine ⟨by omega, by rw [e]; exact h2, ?_⟩
      intro j hj
      cases j with
      | zero => rfl
      | succ j => exact h3 j (by omega)

theorem firstThat_none {l : List Bool} {n : Nat} (h : firstThat n l = none) : ∀ x ∈ l, x = false := by
  induction l generalizing n with
  | nil => simp
  | cons x r ih =>
    cases x with
    | true => cases h
    | false =>
      intro y hy
      rcases List.mem_cons.1 hy with rfl | hy
      · rfl
      · exact ih (show firstThat (n + 1) r = none from h) y hy

/-- the address that is talked to: of those the name has, the first that accepts the connection -/
def FirstToAccept (l : List Bool) (k : Nat) : Prop := l[k]? = some true ∧ ∀ j < k, l[j]? = some false

/-- what is known of whom a client reached -/
def Reached (env : CliEnv) (r : CliRun) : Prop :=
  ∀ hp, r.asked = some hp →
    (∃ l k, env.dial hp.1 hp.2 = some l ∧ r.peer = some k ∧ FirstToAccept l k) ∨
    ((∀ l, env.dial hp.1 hp.2 = some l → ∀ x ∈ l, x = false) ∧ r.peer = none ∧ r.tls = none ∧ r.sent = [] ∧ r.status = some 1)

theorem reached_of {env : CliEnv} {hp : Bytes × Bytes} {k : Nat} (h : (env.dial hp.1 hp.2).bind (firstThat 0) = some k) :
    ∃ l k', env.dial hp.1 hp.2 = some l ∧ some k = some k' ∧ FirstToAccept l k' := by
  cases hd : env.dial hp.1 hp.2 with
  | none => rw [hd] at h; cases h
  | some l =>
    rw [hd] at h
    obtain ⟨_, h2, h3⟩ := firstThat_some h
    exact ⟨l, k, rfl, rfl, h2, h3⟩

theorem unreached_of {env : CliEnv} {hp : Bytes × Bytes} (h : (env.dial hp.1 hp.2).bind (firstThat 0) = none) :
    ∀ l, env.dial hp.1 hp.2 = some l → ∀ x ∈ l, x = false := by
  intro l hl
  rw [hl] at h
  exact firstThat_none h

/-- **C126.** Of the addresses that the host has gg talks to the first that accepts the connection; if none does it sends nothing and exits with 1. -/
theorem C126_peer (hl : CliLine ggFlags ggValued args os [u]) (ha : GgAllowed os) {r : CliRun} (h : ggMain env (prog :: args) hs ws rs = .ok r) :
    Reached env r := by
  rcases ggMain_cases env prog args hs ws rs hl ha h with ⟨n, rfl⟩ | ⟨o, conf, i, ho, hc, hi, _, hn, rfl⟩
  · intro hp hr; cases hr
  · intro hp
    unfold ggReach
    dsimp only
    generalize ggTarget o i.host (if i.port = [] then b%"1965" else i.port) = tg
    cases h1 : (env.dial tg.1.1 tg.1.2).bind (firstThat 0) with
    | none => intro hr; cases hr; exact .inr ⟨unreached_of h1, rfl, rfl, rfl, rfl⟩
    | some k =>
      have hk := reached_of h1
      dsimp only
      split
      · intro hr; cases hr; exact .inl hk
      · split
        · intro hr; cases hr; exact .inl hk
        · intro hr; cases hr; exact .inl hk
        · unfold ggTalk
          split
          · intro hr; cases hr; exact .inl hk
          · intro hr; cases hr; exact .inl hk

/-- **C126.** The host gg looks up and connects to is the one the last `-P` names, or the one of the url. -/
theorem C126_where (hl : CliLine ggFlags ggValued args os [u]) (ha : GgAllowed os) {r : CliRun} (h : ggMain env (prog :: args) hs ws rs = .ok r)
    (hp : Bytes × Bytes) (hr : r.asked = some hp) : ∃ i, parseIri env.isAddr u = .ok i ∧ GgHost os i hp ∧ ¬ Has c%'n' os := by
  rcases ggMain_cases env prog args hs ws rs hl ha h with ⟨n, rfl⟩ | ⟨o, conf, i, ho, hc, hi, _, hn, rfl⟩
  · cases hr
  · refine ⟨i, hi, ?_, ?_⟩
    · obtain ⟨hp', name, h1, h2, _⟩ := ggReach_cases env hs ws rs o conf (u ++ b%"\r\n") i.host (if i.port = [] then b%"1965" else i.port)
      rw [h2] at hr
      cases hr
      have := (ggTarget_spec ho i).1
      rw [h1] at this
      exact this
    · rw [← ho.nop, hn]; simp

/-- **C126.** What gg sends is the url and a line end, and it sends it to somebody who completed a handshake with one of the versions asked for and a certificate for the
host, or the `-H` name.  With `-N` or with `-P` the certificate may be any. -/
theorem C126_to_whom (hl : CliLine ggFlags ggValued args os [u]) (ha : GgAllowed os) {r : CliRun} (h : ggMain env (prog :: args) hs ws rs = .ok r)
    (hr : r.sent ≠ []) :
    ∃ i hp name v cert tr, parseIri env.isAddr u = .ok i ∧ u.length ≤ 1024 ∧ r.asked = some hp ∧ GgHost os i hp ∧ GgName os hp.1 name ∧
      .done v cert tr ∈ hs ∧ GgVersion os v ∧ (Has c%'N' os ∨ Has c%'P' os ∨ CertIsFor env.inet cert name) ∧ r.sent <+: u ++ b%"\r\n" := by
  rcases ggMain_cases env prog args hs ws rs hl ha h with ⟨n, rfl⟩ | ⟨o, conf, i, ho, hc, hi, hlen, hn, rfl⟩
  · exact absurd rfl hr
  · obtain ⟨hp, name, h1, h2, h3⟩ := ggReach_cases env hs ws rs o conf (u ++ b%"\r\n") i.host (if i.port = [] then b%"1965" else i.port)
    rcases h3 with ⟨h3, _⟩ | ⟨t, k, h3, h4, h5⟩
    · exact absurd h3 hr
    · obtain ⟨s1, s2⟩ := ggTarget_spec ho i
      rw [h1] at s1 s2
      obtain ⟨x, hx, hx'⟩ := shake_true h4
      obtain ⟨v, cert, tr, rfl, hv, hcert⟩ := handshake_complete env.inet t x hx'
      obtain ⟨t1, t2, _⟩ := tlsConnect_some h3
      obtain ⟨c1, c2, c3, c4⟩ := ggConf_some env hc
      refine ⟨i, hp, name, v, cert, tr, hi, hlen, h2, s1, s2, hx, ?_, ?_, ?_⟩
      · rw [t1, c3] at hv
        unfold GgVersion
        rw [← ho.two, ← ho.three]
        have h23 := ha.oneVersion
        rw [← ho.two, ← ho.three] at h23
        revert hv h23
        cases o.two <;> cases o.three <;> cases v <;> decide
      · rcases hcert with hc' | ⟨c, k1, k2⟩
        · rw [t1, c2] at hc'
          rcases ho.noVerify.1 (by simpa using hc') with g | g
          · exact .inl g
          · exact .inr (.inl g)
        · rw [t2] at k2
          refine .inr (.inr ⟨c, stripDot name, k1, ?_, k2⟩)
          rcases stripDot_spec name with ⟨e1, e2⟩ | e1
          · exact .inr ⟨e1.symm, e2⟩
          · exact .inl e1
      · rw [h5]
        have := (doreq_sends ws (u ++ b%"\r\n")).1
        unfold ggTalk
        split <;> exact this

/-- **C126.** The certificate that gg shows is the one of `-C` and `-K`, and no other; the name it asks for in the handshake is the one it checks. -/
theorem C126_shown (hl : CliLine ggFlags ggValued args os [u]) (ha : GgAllowed os) {r : CliRun} (h : ggMain env (prog :: args) hs ws rs = .ok r)
    (t : TlsClient) (hr : r.tls = some t) :
    (∀ pair, t.conf.keypair = some pair ↔ ∃ c k, lastArg c%'C' os = some c ∧ lastArg c%'K' os = some k ∧ env.file c = some pair.1 ∧ env.file k = some pair.2) ∧
    ∃ hp name, r.asked = some hp ∧ GgName os hp.1 name ∧ (name = t.servername ∨ name = t.servername ++ b%".") ∧
      (t.sni = some t.servername ∨ t.sni = none ∧ (env.inet t.servername).isSome) := by
  rcases ggMain_cases env prog args hs ws rs hl ha h with ⟨n, rfl⟩ | ⟨o, conf, i, ho, hc, hi, hlen, hn, rfl⟩
  · cases hr
  · obtain ⟨hp, name, h1, h2, h3⟩ := ggReach_cases env hs ws rs o conf (u ++ b%"\r\n") i.host (if i.port = [] then b%"1965" else i.port)
    have key : tlsConnect env.inet env.loads conf name = some t := by
      rcases h3 with ⟨_, h3, _⟩ | ⟨t', k, h3, h4, h5⟩
      · exact h3 t hr
      · rw [h5] at hr
        have : (ggTalk o (u ++ b%"\r\n") ws rs { asked := some hp, peer := some k, tls := some t' }).tls = some t' := by unfold ggTalk; split <;> rfl
        rw [this] at hr
        cases hr
        exact h3
    obtain ⟨t1, t2, t3⟩ := tlsConnect_some key
    obtain ⟨c1, c2, c3, c4⟩ := ggConf_some env hc
    constructor
    · intro pair
      rw [t1, c4, ← ho.cert, ← ho.key]
      cases o.cert with
      | none => simp
      | some c =>
        cases o.key with
        | none => simp
        | some k =>
          unfold keypairFile
          dsimp only
          cases hfc : env.file c <;> cases hfk : env.file k <;> simp [hfc, hfk, Prod.ext_iff]
    · have s2 := (ggTarget_spec ho i).2
      rw [h1] at s2
      refine ⟨hp, name, h2, s2, ?_, ?_⟩
      · rw [t2]
        rcases stripDot_spec name with ⟨e, _⟩ | e
        · exact .inl e.symm
        · exact .inr e
      · rw [t2]
        rcases t3 with ⟨e1, e2⟩ | e
        · exact .inr ⟨e1, e2⟩
        · exact .inl e

/-- **C126.** Exit status 0 means that the whole request was sent and that the reply was taken for a good one (C58 says which are), or that `-n` was given; and what is printed is
the part of the reply that the last `-d` asks for, in the way of C58. -/
theorem C126_success (hl : CliLine ggFlags ggValued args os [u]) (ha : GgAllowed os) {r : CliRun} (h : ggMain env (prog :: args) hs ws rs = .ok r)
    (hr : r.status = some 0) (hn : ¬ Has c%'n' os) :
    r.sent = u ++ b%"\r\n" ∧ ∃ m q, ((lastArg c%'d' os = none ∧ m = .none) ∨ ∃ v, lastArg c%'d' os = some v ∧ ModeNamed v m) ∧ (q = true ↔ Has c%'q' os) ∧
      (ggReply m q rs).status = 0 ∧ r.out = (ggReply m q rs).out ∧ r.says = (ggReply m q rs).says := by
  obtain ⟨o0, ho0, e0⟩ := ggMain_of env prog args hs ws rs hl ha
  rcases ggMain_cases env prog args hs ws rs hl ha h with ⟨n, rfl⟩ | ⟨o, conf, i, ho, hc, hi, hlen, hn', rfl⟩
  · exfalso
    cases hr
    rw [e0, ggGet] at h
    have hnop : o0.nop = false := by
      cases hx : o0.nop with
      | false => rfl
      | true => exact absurd (ho0.nop.1 hx) hn
    cases hc : ggConf env o0 with
    | none => rw [hc] at h; cases h
    | some conf =>
      rw [hc] at h
      dsimp only at h
      cases hq : ggRequest env.isAddr u with
      | ub => rw [hq] at h; cases h
      | err => rw [hq] at h; cases h
      | ok x =>
        obtain ⟨a, b, c⟩ := x
        rw [hq] at h
        dsimp only at h
        rw [if_neg (by rw [hnop]; simp)] at h
        obtain ⟨hp, name, h1, h2, _⟩ := ggReach_cases env hs ws rs o0 conf a b c
        simp only [Res.ok.injEq] at h
        rw [h] at h2
        cases h2
  · obtain ⟨hp, name, h1, h2, h3⟩ := ggReach_cases env hs ws rs o conf (u ++ b%"\r\n") i.host (if i.port = [] then b%"1965" else i.port)
    rcases h3 with ⟨_, _, h3⟩ | ⟨t, k, h3, h4, h5⟩
    · exact absurd hr h3
    · rw [h5] at hr ⊢
      unfold ggTalk at hr ⊢
      cases hd : (doreq ws (u ++ b%"\r\n")).2 with
      | false => rw [hd] at hr; simp at hr
      | true =>
        rw [hd] at hr
        rw [if_pos rfl] at hr ⊢
        refine ⟨(doreq_sends ws _).2 hd, o.mode, o.quiet, ho.mode, ho.quiet, ?_, rfl, rfl⟩
        simpa using hr

/-- **C126, false of the code** if one goes by gg(1), which says "the name verification" is done unless `-N` disables it: with `-P` the request goes to whoever answers,
with any certificate or none, even if `-H` says which name to expect. -/
theorem C126_proxy_unverified (hl : CliLine ggFlags ggValued args os [u]) (ha : GgAllowed os) (hP : Has c%'P' os) (hn : ¬ Has c%'n' os) (h2 : ¬ Has c%'2' os)
    (hC : ¬ Has c%'C' os) (i : Iri) (hi : parseIri env.isAddr u = .ok i) (hlen : u.length ≤ 1024)
    (hd : ∀ h p, env.dial h p = some [true]) (hname : ∀ hp name, GgHost os i hp → GgName os hp.1 name → 2 ≤ name.length ∧ name.length ≤ 255)
    (cert : Option CertNames) (tr : Bool) :
    ∃ r, ggMain env (prog :: args) [.done .tls13 cert tr] [some (u.length + 2)] rs = .ok r ∧ r.sent = u ++ b%"\r\n" := by
  obtain ⟨o, ho, e⟩ := ggMain_of env prog args [.done .tls13 cert tr] [some (u.length + 2)] rs hl ha
  have hcn : o.cert = none := by rw [ho.cert]; rw [has_lastArg] at hC; simpa using hC
  obtain ⟨conf, hc⟩ : ∃ conf, ggConf env o = some conf := by
    unfold ggConf; rw [hcn]; exact ⟨_, rfl⟩
  obtain ⟨c1, c2, c3, c4⟩ := ggConf_some env hc
  rw [hcn] at c4
  dsimp only at c4
  have hnop : o.nop = false := by
    cases hx : o.nop with
    | false => rfl
    | true => exact absurd (ho.nop.1 hx) hn
  have htwo : o.two = false := by
    cases hx : o.two with
    | false => rfl
    | true => exact absurd (ho.two.1 hx) h2
  have hq : ggRequest env.isAddr u = .ok (u ++ b%"\r\n", i.host, if i.port = [] then b%"1965" else i.port) := by
    unfold ggRequest
    rw [if_neg (by omega), if_neg (by omega), hi]
  rw [e, ggGet, hc, hq]
  dsimp only
  rw [if_neg (by rw [hnop]; simp)]
  refine ⟨_, rfl, ?_⟩
  unfold ggReach
  obtain ⟨s1, s2⟩ := ggTarget_spec ho i
  dsimp only
  rw [hd]
  obtain ⟨n1, n2⟩ := hname _ _ s1 s2
  generalize (ggTarget o i.host (if i.port = [] then b%"1965" else i.port)).2 = name at n1 n2
  generalize (ggTarget o i.host (if i.port = [] then b%"1965" else i.port)).1 = hp
  have hlen' : 1 ≤ (stripDot name).length ∧ (stripDot name).length ≤ 255 := by
    unfold stripDot; split
    · rw [List.length_dropLast]; omega
    · omega
  have ht : ∃ t, tlsConnect env.inet env.loads conf name = some t := by
    unfold tlsConnect
    dsimp only
    rw [if_neg (by rw [c4]; simp)]
    split
    · exact ⟨_, rfl⟩
    · rw [show sslHostName (stripDot name) = some (stripDot name) from by unfold sslHostName; rw [if_neg (by omega)]]
      exact ⟨_, rfl⟩
  obtain ⟨t, ht⟩ := ht
  obtain ⟨t1, t2, _⟩ := tlsConnect_some ht
  have hsh : shake env.inet t [.done .tls13 cert tr] = some true := by
    have hv : t.conf.verifyName = false := by rw [t1, c2, ho.noVerify.2 (.inr hP)]; rfl
    have hv2 : t.conf.verifyCert = false := by rw [t1, c1]
    have hp3 : sslNo t.conf.protocols .tls13 = false := by
      rw [t1, c3, htwo]
      cases o.three <;> decide
    simp [shake, tlsHandshakeClient, sslConnect, hv, hv2, hp3]
  show (match (some [true]).bind (firstThat 0) with
    | none => ({ asked := some hp, status := some 1 } : CliRun)
    | some k => _).sent = _
  simp only [Option.bind_some, firstThat, ht, hsh]
  have hdq : doreq [some (u.length + 2)] (u ++ b%"\r\n") = (u ++ b%"\r\n", true) := by
    have e1 : (u ++ b%"\r\n").take (u.length + 2) = u ++ b%"\r\n" := List.take_of_length_le (by simp)
    have e2 : (u ++ b%"\r\n").drop (u.length + 2) = [] := List.drop_of_length_le (by simp)
    cases hu : u ++ b%"\r\n" with
    | nil => simp at hu
    | cons a b =>
      have e3 : doreq [some (u.length + 2)] (a :: b) =
        ((a :: b).take (u.length + 2) ++ (doreq [] ((a :: b).drop (u.length + 2))).1, (doreq [] ((a :: b).drop (u.length + 2))).2) := rfl
      rw [e3, ← hu, e1, e2]; simp [doreq]
  unfold ggTalk
  rw [hdq]
  rfl

/-- a network where everybody answers -/
def cliEnv : CliEnv := { isAddr := fun _ => false, inet := fun _ => none, loads := fun _ => true, file := fun _ => none, dial := fun _ _ => some [false, true] }

/-- a certificate for example.com -/
def cliCert : CertNames := { alts := some [.dns true b%"example.com"], cns := [] }

example : (ggMain cliEnv [b%"gg", b%"gemini://example.com/x"] [.wantIn, .done .tls13 (some cliCert) false] [some 10, some 100] [.data c%'2' b%"0 a\r\nhi"]).val? =
    some { asked := some (b%"example.com", b%"1965"), peer := some 1,
           tls := some { conf := { verifyCert := false }, servername := b%"example.com", sni := some b%"example.com" },
           sent := b%"gemini://example.com/x\r\n", out := b%"hi", status := some 0 } := by decide +kernel

example : ((ggMain cliEnv [b%"gg", b%"gemini://example.org/x"] [.done .tls13 (some cliCert) false] [some 100] []).val?.map fun r => (r.sent, r.status)) =
    some ([], some 1) := by decide +kernel

example : ((ggMain cliEnv [b%"gg", b%"-P", b%"proxy:1", b%"-H", b%"example.org", b%"gemini://example.org/x"] [.done .tls13 (some cliCert) false] [some 100] []).val?.map
    fun r => (r.asked, r.sent)) = some (some (b%"proxy", b%"1"), b%"gemini://example.org/x\r\n") := by decide +kernel

/-- nobody accepts the connection -/
example : (ggMain { cliEnv with dial := fun _ _ => some [false, false] } [b%"gg", b%"gemini://example.com/x"] [] [] []).val? =
    some { asked := some (b%"example.com", b%"1965"), status := some 1 } := by decide +kernel

example : FirstToAccept [false, true, true] 1 := ⟨rfl, by intro j hj; cases j with | zero => rfl | succ j => omega⟩

example : ((ggMain cliEnv [b%"gg", b%"-n", b%"gemini://example.org/x"] [] [] []).val?.map fun r => (r.asked, r.status)) = some (none, some 0) := by decide +kernel

example : ∃ os, CliLine ggFlags ggValued [b%"-P", b%"proxy:1", b%"gemini://example.org/x"] os [b%"gemini://example.org/x"] ∧ GgAllowed os ∧ Has c%'P' os := by
  refine ⟨[(c%'P', b%"proxy:1")], by rw [getopt_iff ggLetters_ok]; decide +kernel, ⟨?_, ?_, ?_, ?_, ?_⟩, ⟨_, List.mem_cons_self⟩⟩
  · intro v hv; simp at hv
  · intro v hv
    simp at hv
    subst hv
    exact ⟨(b%"proxy", b%"1"), .hostPort b%"proxy" b%"1" (by decide) (by decide)⟩
  · intro v hv; simp at hv
  · rintro ⟨⟨v, hv⟩, _⟩; simp at hv
  · constructor <;> rintro ⟨v, hv⟩ <;> simp at hv

end

/-! ## C127: titan -/

theorem titanLetters_ok : Letters titanLetters [] titanValued := by
  refine ⟨fun c => ?_, fun c => ?_, by decide, by decide⟩ <;> rw [lookup_iff c _ _ (by decide)] <;>
    simp [titanLetters, titanValued]

theorem titanOpt_go (o o1 : TitanOpts) (c : UInt8) (v : Bytes) (hx : titanOpt o (c, v) = .go o1) :
    c ∈ titanValued ∧ (if c = c%'C' then some v else o.cert) = o1.cert ∧ (if c = c%'K' then some v else o.key) = o1.key ∧
    (if c = c%'m' then some v else o.mime) = o1.mime ∧ (if c = c%'t' then some v else o.token) = o1.token := by
  unfold titanOpt at hx
  dsimp only at hx
  by_cases hC : c = c%'C'
  · subst hC; cases hx; simp [titanValued]
  rw [if_neg hC] at hx
  by_cases hK : c = c%'K'
  · subst hK; cases hx; simp [titanValued]
  rw [if_neg hK] at hx
  by_cases hm : c = c%'m'
  · subst hm; cases hx; simp [titanValued]
  rw [if_neg hm] at hx
  by_cases ht : c = c%'t'
  · subst ht; cases hx; simp [titanValued]
  rw [if_neg ht] at hx
  cases hx

theorem titanOptsGo_go (os : List (UInt8 × Bytes)) : ∀ (o o' : TitanOpts), titanOptsGo o os = .go o' →
    (∀ x ∈ os, x.1 ∈ titanValued) ∧ o'.cert = (lastArg c%'C' os).or o.cert ∧ o'.key = (lastArg c%'K' os).or o.key ∧
    o'.mime = (lastArg c%'m' os).or o.mime ∧ o'.token = (lastArg c%'t' os).or o.token := by
  induction os with
  | nil => intro o o' h; cases h; simp [lastArg]
  | cons x r ih =>
    intro o o' h
    obtain ⟨c, v⟩ := x
    rw [titanOptsGo] at h
    cases hx : titanOpt o (c, v) with
    | exit n => rw [hx] at h; cases h
    | go o1 =>
      rw [hx] at h
      obtain ⟨a0, a1, a2, a3, a4⟩ := ih o1 o' h
      obtain ⟨b0, b1, b2, b3, b4⟩ := titanOpt_go o o1 c v hx
      have lastO : ∀ (k : UInt8) (p q : Option Bytes), (if c = k then some v else p) = q →
          (lastArg k r).or q = ((lastArg k r).or (if c = k then some v else none)).or p := by
        intro k p q e
        rw [← e]
        cases lastArg k r with
        | some w => rfl
        | none => split <;> rfl
      simp only [lastArg_cons]
      refine ⟨?_, a1.trans (lastO _ _ _ b1), a2.trans (lastO _ _ _ b2), a3.trans (lastO _ _ _ b3), a4.trans (lastO _ _ _ b4)⟩
      intro x hx
      rcases List.mem_cons.1 hx with rfl | hx
      · exact b0
      · exact a0 x hx

theorem titanOptsGo_ok (os : List (UInt8 × Bytes)) : ∀ (o : TitanOpts), (∀ x ∈ os, x.1 ∈ titanValued) → ∃ o', titanOptsGo o os = .go o' := by
  induction os with
  | nil => intro o _; exact ⟨o, rfl⟩
  | cons x r ih =>
    intro o h
    obtain ⟨c, v⟩ := x
    have hc := h _ List.mem_cons_self
    simp only [titanValued, List.mem_cons, List.not_mem_nil, or_false] at hc
    have : ∃ o1, titanOpt o (c, v) = .go o1 := by
      rcases hc with rfl | rfl | rfl | rfl <;> exact ⟨_, rfl⟩
    obtain ⟨o1, h1⟩ := this
    rw [titanOptsGo, h1]
    exact ih o1 (fun x hx => h x (List.mem_cons_of_mem _ hx))

theorem titanOptsGo_exit (os : List (UInt8 × Bytes)) : ∀ (o : TitanOpts) (n : Nat), titanOptsGo o os = .exit n → n = 1 := by
  induction os with
  | nil => intro o n h; cases h
  | cons x r ih =>
    intro o n h
    rw [titanOptsGo] at h
    cases hx : titanOpt o x with
    | exit m => rw [hx] at h; cases h; unfold titanOpt at hx; grind
    | go o1 => rw [hx] at h; exact ih _ _ h

theorem titanCheck_exit (o : TitanOpts) (l : List Bytes) (n : Nat) (h : titanCheck o l = .exit n) : n = 1 := by
  unfold titanCheck at h
  grind

theorem titanCheck_go (o o' : TitanOpts) (l : List Bytes) (u : Bytes) (f : Option Bytes) :
    titanCheck o l = .go (o', u, f) ↔ l = u :: f.toList ∧ (o.key ≠ none → o.cert ≠ none) ∧ o' = { o with key := o.key.or o.cert } := by
  unfold titanCheck
  by_cases h1 : o.cert = none ∧ o.key ≠ none
  · rw [if_pos h1]
    simp only [reduceCtorEq, false_iff, not_and]
    intro _ h
    exact absurd h1.1 (h h1.2)
  · rw [if_neg h1]
    have h2 : o.key ≠ none → o.cert ≠ none := fun hk hc => h1 ⟨hc, hk⟩
    have e : (if o.cert ≠ none ∧ o.key = none then { o with key := o.cert } else o) = { o with key := o.key.or o.cert } := by
      obtain ⟨c, k, m, t⟩ := o
      cases c <;> cases k <;> simp at h1 ⊢
    rw [e]
    dsimp only
    match l with
    | [] => simp
    | [a] => cases f <;> simp [eq_comm, and_comm]; intro _ _; exact fun h => h2 h
    | [a, b] => cases f <;> simp [eq_comm, and_comm]; intro _ _ _; exact fun h => h2 h
    | a :: b :: c :: d => cases f <;> simp

/-- **C127.** The command line of titan: it goes ahead with exactly the command lines of titan(1): options, each with an argument, `-K` only together with `-C`, the url, and
possibly a file; the last one of the options that are repeated counts. -/
theorem C127_command_line (prog : Bytes) (args : List Bytes) (o : TitanOpts) (u : Bytes) (f : Option Bytes) :
    titanArgs (prog :: args) = .go (o, u, f) ↔ ∃ os, CliLine [] titanValued args os (u :: f.toList) ∧ (Has c%'K' os → Has c%'C' os) ∧ TitanSet os o := by
  unfold titanArgs
  rw [List.drop_succ_cons, List.drop_zero]
  constructor
  · intro h
    cases hg : titanOptsGo {} (getoptOf titanLetters args).1 with
    | exit n => rw [hg] at h; cases h
    | go o1 =>
      rw [hg] at h
      obtain ⟨h1, h2, h3⟩ := (titanCheck_go _ _ _ _ _).1 h
      obtain ⟨a0, a1, a2, a3, a4⟩ := titanOptsGo_go _ _ _ hg
      simp only [Option.or_none] at a1 a2 a3 a4
      refine ⟨(getoptOf titanLetters args).1, ?_, ?_, ?_⟩
      · rw [getopt_iff titanLetters_ok]
        refine ⟨Prod.ext rfl h1, fun x hx e => ?_⟩
        have := a0 x hx
        rw [e] at this
        exact absurd this (by decide)
      · rw [has_lastArg, has_lastArg, ← a1, ← a2]; exact h2
      · subst h3
        refine ⟨a1, ⟨fun hk => ?_, fun hk => ?_⟩, a3, a4⟩
        · dsimp only
          rw [a2]
          cases hv : lastArg c%'K' (getoptOf titanLetters args).1 with
          | none => exact absurd hv hk
          | some v => rfl
        · dsimp only
          rw [a2, hk, a1]; rfl
  · rintro ⟨os, h1, h2, h3⟩
    obtain ⟨h4, h5⟩ := (getopt_iff titanLetters_ok _ _ _).1 h1
    rw [h4]
    obtain ⟨pre, tail, _, h6, _⟩ := h1
    obtain ⟨o1, hg⟩ := titanOptsGo_ok os {} (fun x hx => by
      rcases optLine_letters h6 x hx with h | h
      · simp at h
      · exact h)
    obtain ⟨a0, a1, a2, a3, a4⟩ := titanOptsGo_go _ _ _ hg
    simp only [Option.or_none] at a1 a2 a3 a4
    rw [hg]
    refine (titanCheck_go _ _ _ _ _).2 ⟨rfl, ?_, ?_⟩
    · rw [a1, a2, ← has_lastArg, ← has_lastArg]; exact h2
    · have e2 : o.key = o1.key.or o1.cert := by
        rw [a1, a2]
        cases hv : lastArg c%'K' os with
        | none => rw [h3.key.2 hv]; rfl
        | some v => rw [h3.key.1 (by rw [hv]; simp), hv]; rfl
      have e1 := h3.cert.trans a1.symm
      have e3 := h3.mime.trans a3.symm
      have e4 := h3.token.trans a4.symm
      cases o
      simp only at e1 e2 e3 e4
      subst e1 e2 e3 e4
      rfl

example : titanArgs [b%"titan", b%"-C", b%"c.pem", b%"-mtext/plain", b%"titan://h/", b%"f"] =
    .go ({ cert := some b%"c.pem", key := some b%"c.pem", mime := some b%"text/plain" }, b%"titan://h/", some b%"f") := by decide +kernel

theorem titanArgs_exit (argv : List Bytes) (n : Nat) (h : titanArgs argv = .exit n) : n = 1 := by
  unfold titanArgs at h
  cases hg : titanOptsGo {} (getoptOf titanLetters (argv.drop 1)).1 with
  | exit m => rw [hg] at h; cases h; exact titanOptsGo_exit _ _ _ hg
  | go o => rw [hg] at h; exact titanCheck_exit _ _ _ h

theorem copyIn_spec (puts : Nat → Bool) (l : List InRead) : ∀ (n : Nat) (got : Bytes) (e : Bool),
    (e = true → (copyIn puts n got e l).2 = true) ∧
    ((copyIn puts n got e l).2 = false → everything l = some ((copyIn puts n got e l).1.drop got.length) ∧ got <+: (copyIn puts n got e l).1) := by
  induction l with
  | nil => intro n got e; simp [copyIn, everything]
  | cons x r ih =>
    intro n got e
    cases x with
    | fail => simp [copyIn]
    | data b t err =>
      rw [copyIn]
      by_cases hp : puts n = true
      · rw [if_pos hp]
        obtain ⟨k1, k2⟩ := ih (n + 1) (got ++ b :: t) (e || err)
        constructor
        · rintro rfl; exact k1 (by simp)
        · intro h
          have he : err = false := by
            cases err with
            | false => rfl
            | true => rw [k1 (by simp)] at h; cases h
          subst he
          obtain ⟨k3, k4⟩ := k2 h
          obtain ⟨m, hm⟩ := k4
          rw [everything, k3, ← hm]
          constructor
          · simp [List.append_assoc]
          · exact ⟨b :: t ++ m, by simp⟩
      · rw [if_neg hp]; simp

/-- **C127.** Without a file titan uploads standard input: if it goes on at all, what it has is all of it, no read or write having failed, and the size it announces is its size. -/
theorem C127_stdin (i : TitanIn) (up : Upload) (h : titanInput i none = some up) : everything i.stdin = some up.bytes ∧ up.size = up.bytes.length := by
  unfold titanInput at h
  dsimp only at h
  split at h
  · cases h
  · split at h
    · cases h
    · rename_i hc
      split at h
      · cases h
      · cases h
        have := ((copyIn_spec i.puts i.stdin 0 [] false).2 (by simpa using hc)).1
        exact ⟨by simpa using this, rfl⟩

example : titanInput { opens := fun _ => none, stdin := [.data c%'a' b%"b" false, .data c%'c' [] false], tmp := true, puts := fun _ => true, seek := true } none =
    some { size := 3, bytes := b%"abc" } := by decide +kernel

example : titanInput { opens := fun _ => none, stdin := [.data c%'a' b%"b" false, .fail], tmp := true, puts := fun _ => true, seek := true } none = none := by decide +kernel

section
variable (env : CliEnv) (pledges : Bool) (bufsiz : Nat) (inp : TitanIn) (prog : Bytes) (args : List Bytes) (hs : List SslRes) (first : List Round) (runs : List (List Round))

/-- **C127.** With any other command line titan exits with 1, without having contacted anybody. -/
theorem C127_refused (h : ¬ ∃ (os : List (UInt8 × Bytes)) (u : Bytes) (f : Option Bytes), CliLine [] titanValued args os (u :: f.toList) ∧ (Has c%'K' os → Has c%'C' os)) :
    titanMain env pledges bufsiz inp (prog :: args) hs first runs = .ok (.run { status := some 1 }) := by
  unfold titanMain
  cases hg : titanArgs (prog :: args) with
  | exit n => rw [titanArgs_exit _ _ hg]
  | go x =>
    obtain ⟨o, u, f⟩ := x
    obtain ⟨os, h1, h2, _⟩ := (C127_command_line _ _ _ _ _).1 hg
    exact absurd ⟨os, u, f, h1, h2⟩ h

example : ¬ ∃ os u f, CliLine [] titanValued [b%"-K", b%"k", b%"titan://h/"] os (u :: Option.toList f) ∧ (Has c%'K' os → Has c%'C' os) := by
  rintro ⟨os, u, f, h, hk⟩
  obtain ⟨h1, h2⟩ := (getopt_iff titanLetters_ok _ _ _).1 h
  have e : getoptOf titanLetters [b%"-K", b%"k", b%"titan://h/"] = ([(c%'K', b%"k")], [b%"titan://h/"]) := by decide +kernel
  rw [e] at h1
  simp only [Prod.mk.injEq] at h1
  obtain ⟨rfl, _⟩ := h1
  obtain ⟨v, hv⟩ := hk ⟨_, List.mem_cons_self⟩
  simp at hv

variable {os : List (UInt8 × Bytes)} {u : Bytes} {f : Option Bytes}

theorem titanMain_of (hl : CliLine [] titanValued args os (u :: f.toList)) (ha : Has c%'K' os → Has c%'C' os) :
    ∃ o, TitanSet os o ∧ titanMain env pledges bufsiz inp (prog :: args) hs first runs = titanGo env pledges bufsiz inp o u f hs first runs := by
  let o : TitanOpts := { cert := lastArg c%'C' os, key := (lastArg c%'K' os).or (lastArg c%'C' os), mime := lastArg c%'m' os, token := lastArg c%'t' os }
  have ho : TitanSet os o := by
    refine ⟨rfl, ⟨fun hk => ?_, fun hk => ?_⟩, rfl, rfl⟩
    · cases hv : lastArg c%'K' os with
      | none => exact absurd hv hk
      | some v => simp [o, hv]
    · simp [o, hk]
  refine ⟨o, ho, ?_⟩
  unfold titanMain
  rw [(C127_command_line prog args o u f).2 ⟨os, hl, ha, ho⟩]

theorem optLine_values {flags valued : List UInt8} {args : List Bytes} {os : List (UInt8 × Bytes)} (h : OptLine flags valued args os) (hz : ∀ a ∈ args, (0 : UInt8) ∉ a) :
    ∀ x ∈ os, (0 : UInt8) ∉ x.2 := by
  induction h with
  | nil => simp
  | flag c rest os hc _ ih =>
    intro x hx
    rcases List.mem_cons.1 hx with rfl | hx
    · simp
    · exact ih (fun a ha => hz a (List.mem_cons_of_mem _ ha)) x hx
  | apart c v rest os hc _ ih =>
    intro x hx
    rcases List.mem_cons.1 hx with rfl | hx
    · exact hz v (by simp)
    · exact ih (fun a ha => hz a (List.mem_cons_of_mem _ (List.mem_cons_of_mem _ ha))) x hx
  | joined c v rest os hc _ _ ih =>
    intro x hx
    rcases List.mem_cons.1 hx with rfl | hx
    · have := hz _ List.mem_cons_self
      simp at this
      exact this.2
    · exact ih (fun a ha => hz a (List.mem_cons_of_mem _ ha)) x hx
  | cluster c d r rest os hc _ ih =>
    intro x hx
    rcases List.mem_cons.1 hx with rfl | hx
    · simp
    · refine ih (fun a ha => ?_) x hx
      rcases List.mem_cons.1 ha with rfl | ha
      · have := hz _ List.mem_cons_self
        simp at this ⊢
        exact this.2
      · exact hz a (List.mem_cons_of_mem _ ha)

theorem operands_mem {tail ops : List Bytes} (h : Operands tail ops) : ∀ a ∈ ops, a ∈ tail := by
  rcases h with rfl | ⟨rfl, _⟩
  · exact fun a ha => List.mem_cons_of_mem _ ha
  · exact fun a ha => ha

theorem iomux_done (inp : Bytes) (qs : List Round) (s b : Bytes) (h : iomux false qs 0 [] inp = (s, .reply b)) : s = inp := by
  induction qs generalizing inp s with
  | nil => simp [iomux] at h
  | cons q qs ih =>
    rw [iomux, if_neg (by simp)] at h
    unfold ioWrite at h
    by_cases hi : inp = []
    · subst hi
      rw [if_pos ⟨rfl, rfl⟩] at h
      cases h
      rfl
    · rw [if_neg (by intro e; exact hi e.1), if_neg hi] at h
      cases hw : q.wr with
      | want => rw [hw] at h; exact ih inp s h
      | fail => rw [hw] at h; cases h
      | took n =>
        rw [hw] at h
        dsimp only at h
        rcases hk : iomux false qs 0 [] (inp.drop (n + 1)) with ⟨s', x⟩
        rw [hk] at h
        simp only [Prod.mk.injEq] at h
        obtain ⟨rfl, rfl⟩ := h
        rw [ih _ _ hk, List.take_append_drop]

theorem titanTalk_sent (req : Bytes) (up : Upload) (r : CliRun) : (titanTalk bufsiz req up first runs r).sent <+: req ++ up.bytes.take bufsiz ∧
    (titanTalk bufsiz req up first runs r).asked = r.asked ∧ (titanTalk bufsiz req up first runs r).tls = r.tls := by
  unfold titanTalk
  have h1 := iomux_sent false first 0 [] req
  rcases h : iomux false first 0 [] req with ⟨s, x⟩
  rw [h] at h1
  have h2 : s <+: req ++ up.bytes.take bufsiz := h1.trans (List.prefix_append _ _)
  cases x with
  | waiting => exact ⟨h2, rfl, rfl⟩
  | fail => exact ⟨h2, rfl, rfl⟩
  | reply b =>
    have h3 : s = req := (iomux_done req first s b h)
    subst h3
    have h4 := C82_only_first_block bufsiz runs up.bytes
    have h5 : s ++ (titanLoop bufsiz runs up.bytes).sent <+: s ++ up.bytes.take bufsiz := (List.prefix_append_right_inj s).2 h4
    dsimp only
    cases (titanLoop bufsiz runs up.bytes).res with
    | none => exact ⟨h5, rfl, rfl⟩
    | some y => exact ⟨h5, rfl, rfl⟩

theorem titanConf_some {o : TitanOpts} {conf : ClientTls} (h : titanConf env o = some conf) :
    conf.verifyCert = false ∧ conf.verifyName = false ∧ conf.protocols = protosDefault ∧
    conf.keypair = (match o.cert, o.key with | some c, some k => keypairFile env c k | _, _ => none) := by
  unfold titanConf at h
  cases hc : o.cert with
  | none => rw [hc] at h; cases h; simp
  | some c =>
    cases hk : o.key with
    | none => rw [hc, hk] at h; cases h; simp
    | some k =>
      rw [hc, hk] at h
      dsimp only at h ⊢
      cases hp : keypairFile env c k with
      | none => rw [hp] at h; cases h
      | some p => rw [hp] at h; cases h; simp

/-- how a run comes about -/
theorem titanMain_cases (hl : CliLine [] titanValued args os (u :: f.toList)) (ha : Has c%'K' os → Has c%'C' os) {r : CliRun}
    (h : titanMain env pledges bufsiz inp (prog :: args) hs first runs = .ok (.run r)) :
    r = { status := some 1 } ∨
    ∃ o conf i up req, TitanSet os o ∧ titanInput inp f = some up ∧ titanConf env o = some conf ∧ (pledges = false ∨ o.cert = none) ∧
      titanRequest env.isAddr u up.size o.token o.mime = .ok req ∧ parseIri env.isAddr u = .ok i ∧
      r = titanConnect env bufsiz conf req i.host i.port up hs first runs := by
  obtain ⟨o, ho, e⟩ := titanMain_of env pledges bufsiz inp prog args hs first runs hl ha
  rw [e, titanGo] at h
  cases hi : titanInput inp f with
  | none => rw [hi] at h; cases h; exact .inl rfl
  | some up =>
    rw [hi] at h
    dsimp only at h
    cases hq : titanRequest env.isAddr u up.size o.token o.mime with
    | ub => rw [hq] at h; cases h
    | err => rw [hq] at h; cases h; exact .inl rfl
    | ok req =>
      rw [hq] at h
      dsimp only at h
      split at h
      · cases h
      · rename_i hk
        cases hc : titanConf env o with
        | none => rw [hc] at h; cases h; exact .inl rfl
        | some conf =>
          rw [hc] at h
          dsimp only at h
          cases hp : parseIri env.isAddr u with
          | ok i =>
            rw [hp] at h
            cases h
            refine .inr ⟨o, conf, i, up, req, ho, rfl, hc, ?_, hq, rfl, rfl⟩
            cases pledges with
            | false => exact .inl rfl
            | true => right; simpa using hk
          | err => rw [hp] at h; cases h; exact .inl rfl
          | ub => rw [hp] at h; cases h; exact .inl rfl

theorem titanConnect_cases (conf : ClientTls) (req host port : Bytes) (up : Upload) :
    (titanConnect env bufsiz conf req host port up hs first runs).asked = some (host, if port = [] then b%"1965" else port) ∧
    ((titanConnect env bufsiz conf req host port up hs first runs).sent = [] ∨
     ∃ t k, tlsConnect env.inet env.loads conf host = some t ∧ shake env.inet t hs = some true ∧
       titanConnect env bufsiz conf req host port up hs first runs =
         titanTalk bufsiz req up first runs { asked := some (host, if port = [] then b%"1965" else port), peer := some k, tls := some t }) := by
  unfold titanConnect
  dsimp only
  cases h1 : (env.dial host (if port = [] then b%"1965" else port)).bind (firstThat 0) with
  | none => exact ⟨rfl, .inl rfl⟩
  | some k =>
    dsimp only
    cases h2 : tlsConnect env.inet env.loads conf host with
    | none => exact ⟨rfl, .inl rfl⟩
    | some t =>
      dsimp only
      cases h3 : shake env.inet t hs with
      | none => exact ⟨rfl, .inl rfl⟩
      | some b =>
        cases b with
        | false => exact ⟨rfl, .inl rfl⟩
        | true =>
          dsimp only
          exact ⟨(titanTalk_sent bufsiz first runs req up _).2.1, .inr ⟨t, k, rfl, h3, rfl⟩⟩

/-- what is uploaded: standard input, all of it, with its size; or what the file is found to have, with the size that the system says it has -/
def Uploads (inp : TitanIn) (f : Option Bytes) (up : Upload) : Prop :=
  (f = none ∧ everything inp.stdin = some up.bytes ∧ up.size = up.bytes.length) ∨ ∃ n, f = some n ∧ inp.opens n = some up

/-- **C127.** What titan sends goes to the host and port of the url, once somebody there has completed a handshake with TLS 1.2 or 1.3, and is the request line with the url, the
size of what is uploaded and the last `-t` and `-m`, and then nothing but what is uploaded. -/
theorem C127_sends (hl : CliLine [] titanValued args os (u :: f.toList)) (ha : Has c%'K' os → Has c%'C' os) (hz : ∀ a ∈ args, (0 : UInt8) ∉ a) {r : CliRun}
    (h : titanMain env pledges bufsiz inp (prog :: args) hs first runs = .ok (.run r)) (hr : r.sent ≠ []) :
    ∃ i up v cert tr, parseIri env.isAddr u = .ok i ∧ i.schema = b%"titan" ∧ Uploads inp f up ∧
      r.asked = some (i.host, if i.port = [] then b%"1965" else i.port) ∧ .done v cert tr ∈ hs ∧ (v = .tls12 ∨ v = .tls13) ∧
      r.sent <+: titanLine i.host i.path i.query up.size (lastArg c%'t' os) (lastArg c%'m' os) ++ b%"\r\n" ++ up.bytes := by
  rcases titanMain_cases env pledges bufsiz inp prog args hs first runs hl ha h with rfl | ⟨o, conf, i, up, req, ho, hi, hc, hk, hq, hp, rfl⟩
  · exact absurd rfl hr
  · obtain ⟨h1, h2⟩ := titanConnect_cases env bufsiz hs first runs conf req i.host i.port up
    rcases h2 with h2 | ⟨t, k, h2, h3, h4⟩
    · exact absurd h2 hr
    · obtain ⟨x, hx, hx'⟩ := shake_true h3
      obtain ⟨v, cert, tr, rfl, hv, _⟩ := handshake_complete env.inet t x hx'
      obtain ⟨t1, t2, _⟩ := tlsConnect_some h2
      obtain ⟨c1, c2, c3, c4⟩ := titanConf_some env hc
      obtain ⟨pre, tail, e1, e2, e3⟩ := hl
      have zu : (0 : UInt8) ∉ u := hz u (by rw [e1]; exact List.mem_append_right _ (operands_mem e3 u List.mem_cons_self))
      have zos := optLine_values e2 (fun a ha => hz a (by rw [e1]; exact List.mem_append_left _ ha))
      have hline := C84_titan_line env.isAddr u i up.size o.token o.mime hp zu
        (fun t ht => zos _ (lastArg_mem (ho.token ▸ ht))) (fun m hm => zos _ (lastArg_mem (ho.mime ▸ hm)))
      rw [hq] at hline
      split at hline
      · rename_i hcond
        simp only [Res.ok.injEq] at hline
        refine ⟨i, up, v, cert, tr, hp, hcond.2.1, ?_, h1, hx, ?_, ?_⟩
        · cases f with
          | none => exact .inl ⟨rfl, C127_stdin inp up hi⟩
          | some n => exact .inr ⟨n, rfl, hi⟩
        · rw [t1, c3] at hv
          revert hv
          cases v <;> decide
        · rw [h4]
          have := (titanTalk_sent bufsiz first runs req up { asked := some (i.host, if i.port = [] then b%"1965" else i.port), peer := some k, tls := some t }).1
          rw [hline, ho.token, ho.mime] at this
          rw [hline, ho.token, ho.mime]
          exact this.trans ((List.prefix_append_right_inj _).2 (List.take_prefix _ _))
      · cases hline

theorem titanTalk_peer (req : Bytes) (up : Upload) (r : CliRun) : (titanTalk bufsiz req up first runs r).peer = r.peer := by
  unfold titanTalk
  rcases iomux false first 0 [] req with ⟨s, x⟩
  cases x with
  | waiting => rfl
  | fail => rfl
  | reply b =>
    dsimp only
    cases (titanLoop bufsiz runs up.bytes).res with
    | none => rfl
    | some y => rfl

/-- **C127.** Of the addresses that the host has titan talks to the first that accepts the connection; if none does it sends nothing and exits with 1. -/
theorem C127_peer (hl : CliLine [] titanValued args os (u :: f.toList)) (ha : Has c%'K' os → Has c%'C' os) {r : CliRun}
    (h : titanMain env pledges bufsiz inp (prog :: args) hs first runs = .ok (.run r)) : Reached env r := by
  rcases titanMain_cases env pledges bufsiz inp prog args hs first runs hl ha h with rfl | ⟨o, conf, i, up, req, ho, hi, hc, hk, hq, hp, rfl⟩
  · intro hp hr; cases hr
  · intro hp
    unfold titanConnect
    dsimp only
    generalize (if i.port = [] then b%"1965" else i.port) = port
    cases h1 : (env.dial i.host port).bind (firstThat 0) with
    | none => intro hr; cases hr; exact .inr ⟨unreached_of h1, rfl, rfl, rfl, rfl⟩
    | some k =>
      have hk := reached_of (hp := (i.host, port)) h1
      dsimp only
      split
      · intro hr; cases hr; exact .inl hk
      · split
        · intro hr; cases hr; exact .inl hk
        · intro hr; cases hr; exact .inl hk
        · intro hr
          rw [(titanTalk_sent bufsiz first runs req up _).2.1] at hr
          cases hr
          rw [titanTalk_peer]
          exact .inl hk

/-- how many bytes the writes of some rounds take -/
def tookBy : List Round → Nat
  | [] => 0
  | q :: qs => (match q.wr with | .took n => n + 1 | _ => 0) + tookBy qs

theorem iomux_broken (pre post : List Round) (rd : Option TRead) : ∀ inp : Bytes, (∀ q ∈ pre, q.wr ≠ .fail) → tookBy pre < inp.length →
    (iomux false (pre ++ ⟨rd, .fail⟩ :: post) 0 [] inp).2 = .fail := by
  induction pre with
  | nil =>
    intro inp _ hl
    have hi : inp ≠ [] := by intro e; subst e; simp at hl
    simp [iomux, ioWrite, hi]
  | cons q qs ih =>
    intro inp hq hl
    have hi : inp ≠ [] := by intro e; subst e; simp at hl
    rw [List.cons_append, iomux, if_neg (by simp)]
    unfold ioWrite
    rw [if_neg (by intro e; exact hi e.1), if_neg hi]
    rw [tookBy] at hl
    cases hw : q.wr with
    | fail => exact absurd hw (hq q List.mem_cons_self)
    | want => exact ih inp (fun x hx => hq x (List.mem_cons_of_mem _ hx)) (by omega)
    | took n =>
      rw [hw] at hl
      dsimp only at hl ⊢
      exact ih _ (fun x hx => hq x (List.mem_cons_of_mem _ hx)) (by rw [List.length_drop]; omega)

/-- **C127.** If the connection breaks before the whole request line is written titan exits with 1 (or it is still in the handshake, and has sent nothing). -/
theorem C127_broken (hl : CliLine [] titanValued args os (u :: f.toList)) (ha : Has c%'K' os → Has c%'C' os) (up : Upload)
    (hu : titanInput inp f = some up) (req : Bytes) (hreq : titanRequest env.isAddr u up.size (lastArg c%'t' os) (lastArg c%'m' os) = .ok req)
    (pre post : List Round) (rd : Option TRead) (hf : first = pre ++ ⟨rd, .fail⟩ :: post) (hok : ∀ q ∈ pre, q.wr ≠ .fail) (hlt : tookBy pre < req.length)
    {r : CliRun} (h : titanMain env pledges bufsiz inp (prog :: args) hs first runs = .ok (.run r)) :
    r.status = some 1 ∨ ∃ t, r.tls = some t ∧ shake env.inet t hs = none ∧ r.sent = [] := by
  rcases titanMain_cases env pledges bufsiz inp prog args hs first runs hl ha h with rfl | ⟨o, conf, i, up', req', ho, hi, hc, hk, hq, hp, rfl⟩
  · exact .inl rfl
  · rw [hu] at hi
    cases hi
    rw [ho.token, ho.mime, hreq] at hq
    cases hq
    have hb := iomux_broken pre post rd req hok hlt
    rw [← hf] at hb
    unfold titanConnect
    dsimp only
    split
    · exact .inl rfl
    · split
      · exact .inl rfl
      · split
        · rename_i t _ _ hsh
          exact .inr ⟨t, rfl, hsh, rfl⟩
        · exact .inl rfl
        · left
          unfold titanTalk
          rcases hx : iomux false first 0 [] req with ⟨s, x⟩
          rw [hx] at hb
          cases hb
          rfl

/-- **C127, false of the code.** titan(1) says that the name is verified; it is not: the request line goes to whoever completes a handshake, with any certificate or none. -/
theorem C127_name_not_verified (hl : CliLine [] titanValued args os (u :: f.toList)) (hC : ¬ Has c%'C' os) (hK : ¬ Has c%'K' os) (up : Upload)
    (hu : titanInput inp f = some up) (i : Iri) (hi : parseIri env.isAddr u = .ok i) (req : Bytes)
    (hreq : titanRequest env.isAddr u up.size (lastArg c%'t' os) (lastArg c%'m' os) = .ok req)
    (hd : ∀ h p, env.dial h p = some [true]) (hname : 2 ≤ i.host.length ∧ i.host.length ≤ 255) (cert : Option CertNames) (tr : Bool) :
    ∃ r, titanMain env pledges bufsiz inp (prog :: args) [.done .tls13 cert tr] [⟨none, .took req.length⟩, ⟨none, .want⟩] runs = .ok (.run r) ∧
      req <+: r.sent := by
  obtain ⟨o, ho, e⟩ := titanMain_of env pledges bufsiz inp prog args [.done .tls13 cert tr] [⟨none, .took req.length⟩, ⟨none, .want⟩] runs hl
    (fun hk => absurd hk hK)
  have hcn : o.cert = none := by rw [ho.cert]; rw [has_lastArg] at hC; simpa using hC
  rw [← ho.token, ← ho.mime] at hreq
  obtain ⟨conf, hc⟩ : ∃ conf, titanConf env o = some conf := by unfold titanConf; rw [hcn]; exact ⟨_, rfl⟩
  obtain ⟨c1, c2, c3, c4⟩ := titanConf_some env hc
  rw [hcn] at c4
  dsimp only at c4
  rw [e, titanGo, hu]
  dsimp only
  rw [hreq]
  dsimp only
  rw [if_neg (by rw [hcn]; simp), hc, hi]
  dsimp only
  refine ⟨_, rfl, ?_⟩
  have hlen' : 1 ≤ (stripDot i.host).length ∧ (stripDot i.host).length ≤ 255 := by
    unfold stripDot; split
    · rw [List.length_dropLast]; omega
    · omega
  have ht : ∃ t, tlsConnect env.inet env.loads conf i.host = some t := by
    unfold tlsConnect
    dsimp only
    rw [if_neg (by rw [c4]; simp)]
    split
    · exact ⟨_, rfl⟩
    · rw [show sslHostName (stripDot i.host) = some (stripDot i.host) from by unfold sslHostName; rw [if_neg (by omega)]]
      exact ⟨_, rfl⟩
  obtain ⟨t, ht⟩ := ht
  obtain ⟨t1, t2, _⟩ := tlsConnect_some ht
  have hsh : shake env.inet t [.done .tls13 cert tr] = some true := by
    have hv : t.conf.verifyName = false := by rw [t1, c2]
    have hv2 : t.conf.verifyCert = false := by rw [t1, c1]
    have hp3 : sslNo t.conf.protocols .tls13 = false := by rw [t1, c3]; decide
    simp [shake, tlsHandshakeClient, sslConnect, hv, hv2, hp3]
  unfold titanConnect
  dsimp only
  rw [hd]
  simp only [Option.bind_some, firstThat, ht, hsh]
  have hio : iomux false [⟨none, .took req.length⟩, ⟨none, .want⟩] 0 [] req = (req, .reply []) := by
    have e1 : req.take (req.length + 1) = req := List.take_of_length_le (by omega)
    have e2 : req.drop (req.length + 1) = [] := List.drop_of_length_le (by omega)
    by_cases hr : req = []
    · subst hr; rfl
    · simp only [iomux, Bool.false_eq_true, if_false, ioWrite, hr, false_and, e1, e2]
      simp
  unfold titanTalk
  rw [hio]
  dsimp only
  cases (titanLoop bufsiz runs up.bytes).res with
  | none => exact List.prefix_append _ _
  | some y => exact List.prefix_append _ _

/-- **C127, false of the code.** On OpenBSD no upload with a client certificate gets anywhere: titan gives up the right to open files before it reads the certificate, and the
system kills it, or it gives up even before that. -/
theorem C127_certificate_killed (hl : CliLine [] titanValued args os (u :: f.toList)) (ha : Has c%'K' os → Has c%'C' os) (hC : Has c%'C' os) :
    (∀ r, titanMain env true bufsiz inp (prog :: args) hs first runs = .ok (.run r) → r.sent = [] ∧ r.asked = none ∧ r.status = some 1) ∧
    (∀ up req, titanInput inp f = some up → titanRequest env.isAddr u up.size (lastArg c%'t' os) (lastArg c%'m' os) = .ok req →
      titanMain env true bufsiz inp (prog :: args) hs first runs = .ok .killed) := by
  constructor
  · intro r h
    rcases titanMain_cases env true bufsiz inp prog args hs first runs hl ha h with rfl | ⟨o, conf, i, up, req, ho, hi, hc, hk, hq, hp, rfl⟩
    · exact ⟨rfl, rfl, rfl⟩
    · rcases hk with hk | hk
      · cases hk
      · rw [ho.cert] at hk
        exact absurd hk ((has_lastArg _ _).1 hC)
  · intro up req hu hreq
    obtain ⟨o, ho, e⟩ := titanMain_of env true bufsiz inp prog args hs first runs hl ha
    rw [← ho.token, ← ho.mime] at hreq
    rw [e, titanGo, hu]
    dsimp only
    rw [hreq]
    dsimp only
    rw [if_pos]
    have := (has_lastArg _ _).1 hC
    rw [← ho.cert] at this
    cases hx : o.cert with
    | none => exact absurd hx this
    | some c => rfl

end

/-- standard input has "abc"; the file `fifo` is a pipe with as much in it -/
def cliIn : TitanIn :=
  { opens := fun n => if n = b%"fifo" then some { size := 0, bytes := b%"abc" } else none
    stdin := [.data c%'a' b%"bc" false], tmp := true, puts := fun _ => true, seek := true }

example : titanMain cliEnv false 4 cliIn [b%"titan", b%"-t", b%"x", b%"titan://example.com/y"] [.wantOut, .done .tls13 none false]
    [⟨none, .took 99⟩, ⟨none, .want⟩] [[⟨some .want, .took 9⟩, ⟨some (.data c%'2' b%"0 ok\r\n"), .want⟩, ⟨none, .want⟩]] =
    .ok (.run { asked := some (b%"example.com", b%"1965"), peer := some 1,
                tls := some { conf := { verifyCert := false, verifyName := false }, servername := b%"example.com", sni := some b%"example.com" },
                sent := b%"titan://example.com/y;size=3;token=x\r\nabc", status := some 0 }) := by decide +kernel

/-- the connection breaks within the request line -/
example : ((titanMain cliEnv false 4 cliIn [b%"titan", b%"titan://example.com/y"] [.done .tls13 none false] [⟨none, .took 4⟩, ⟨none, .want⟩, ⟨none, .fail⟩] []).val?.map
    fun e => match e with | .run r => (r.sent, r.status) | .killed => ([], none)) = some (b%"titan", some 1) := by decide +kernel

/-- **C127, false of the code** for a file that is not a regular one: the size that is announced is the one of fstat(2), not how much there is. -/
theorem C127_fifo :
    titanMain cliEnv false 4 cliIn [b%"titan", b%"titan://example.com/y", b%"fifo"] [.done .tls13 none false]
      [⟨none, .took 99⟩, ⟨none, .want⟩] [[⟨some .want, .took 9⟩, ⟨some (.data c%'2' b%"0 ok\r\n"), .want⟩, ⟨none, .want⟩]] =
    .ok (.run { asked := some (b%"example.com", b%"1965"), peer := some 1,
                tls := some { conf := { verifyCert := false, verifyName := false }, servername := b%"example.com", sni := some b%"example.com" },
                sent := b%"titan://example.com/y;size=0\r\nabc", status := some 0 }) := by decide +kernel

example : titanMain { cliEnv with file := fun _ => some b%"pem" } true 4 cliIn [b%"titan", b%"-C", b%"c", b%"titan://example.com/y"] [] [] [] = .ok .killed := by decide +kernel

end Gmid.Props
