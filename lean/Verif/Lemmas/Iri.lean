import Verif.Lemmas.Path2
import Verif.Lemmas.Utf8
import Verif.Spec.Iri

set_option autoImplicit false

namespace Gmid
open Spec

/-! ### character classes -/

instance (c : UInt8) : Decidable (Unreserved c) := by unfold Unreserved; infer_instance
instance (c : UInt8) : Decidable (SubDelim c) := by unfold SubDelim; infer_instance
instance (c : UInt8) : Decidable (HostChar c) := by unfold HostChar; infer_instance
instance (c : UInt8) : Decidable (PathChar c) := by unfold PathChar; infer_instance
instance (c : UInt8) : Decidable (QueryChar c) := by unfold QueryChar; infer_instance

theorem hostChar_iff : ∀ c, hostChar c = true ↔ HostChar c := by decide +kernel
theorem pathChar_iff : ∀ c, pathChar c = true ↔ PathChar c := by decide +kernel
theorem queryChar_iff : ∀ c, queryChar c = true ↔ QueryChar c := by decide +kernel
theorem toLower_eq : ∀ c, toLower c = lower c := by decide +kernel
theorem schemeChar_iff : ∀ c, schemeChar c = true ↔
  c ∈ b%"ABCDEFGHIJKLMNOPQRSTUVWXYZabcdefghijklmnopqrstuvwxyz0123456789+-." := by decide +kernel
theorem isAlpha_iff : ∀ c, isAlpha c = true ↔
  c ∈ b%"ABCDEFGHIJKLMNOPQRSTUVWXYZabcdefghijklmnopqrstuvwxyz" := by decide +kernel
theorem isDigit_iff : ∀ c, isDigit c = true ↔ c ∈ b%"0123456789" := by decide +kernel

theorem hexVal_of_xdigit : ∀ c, isXdigit c = true → (hexVal c).toNat < 16 ∧
    (b%"0123456789abcdef"[(hexVal c).toNat]? = some c ∨ b%"0123456789ABCDEF"[(hexVal c).toNat]? = some c) := by
  decide +kernel

theorem xdigit_of_HexVal (c : UInt8) (n : Nat) (h : HexVal c n) :
    isXdigit c = true ∧ (hexVal c).toNat = n ∧ n < 16 := by
  have hn : n < 16 := by
    rcases h with h | h <;>
    · have := (List.getElem?_eq_some_iff.1 h).1
      simpa using this
  have key : ∀ n : Fin 16, ∀ c, (b%"0123456789abcdef"[n.val]? = some c ∨ b%"0123456789ABCDEF"[n.val]? = some c) →
      isXdigit c = true ∧ (hexVal c).toNat = n.val := by
    decide +kernel
  have := key ⟨n, hn⟩ c h
  exact ⟨this.1, this.2, hn⟩

theorem escape_iff (a b v : UInt8) : Escape a b v ↔
    isXdigit a = true ∧ isXdigit b = true ∧ v = hexVal a * 16 + hexVal b := by
  constructor
  · rintro ⟨x, y, h1, h2, h3⟩
    obtain ⟨p1, p2, p3⟩ := xdigit_of_HexVal a x h1
    obtain ⟨q1, q2, q3⟩ := xdigit_of_HexVal b y h2
    refine ⟨p1, q1, ?_⟩
    rw [UInt8.toNat_eq_iff', UInt8.toNat_add, UInt8.toNat_mul, h3, p2, q2]
    simp; omega
  · rintro ⟨h1, h2, h3⟩
    obtain ⟨p1, p2⟩ := hexVal_of_xdigit a h1
    obtain ⟨q1, q2⟩ := hexVal_of_xdigit b h2
    refine ⟨_, _, p2, q2, ?_⟩
    rw [h3, UInt8.toNat_add, UInt8.toNat_mul]
    simp; omega

theorem escape_zero : ∀ a, isXdigit a = true → ∀ b, isXdigit b = true →
    (hexVal a * 16 + hexVal b = 0 ↔ a = 48 ∧ b = 48) := by decide +kernel

/-! ### UTF-8 prefixes -/

theorem abnf_unique {c1 c2 : Nat} {u1 u2 t1 t2 : Bytes} (h1 : Abnf c1 u1) (h2 : Abnf c2 u2)
    (h : u1 ++ t1 = u2 ++ t2) : u1 = u2 ∧ t1 = t2 := by
  cases h1 <;> cases h2 <;> simp at h ⊢ <;> (obtain ⟨rfl, h⟩ := h) <;> simp_all <;> omega

theorem multi_unique {u1 u2 t1 t2 : Bytes} (h1 : Utf8Multi u1) (h2 : Utf8Multi u2)
    (h : u1 ++ t1 = u2 ++ t2) : u1 = u2 ∧ t1 = t2 := by
  obtain ⟨c1, h1⟩ := h1
  obtain ⟨c2, h2⟩ := h2
  exact abnf_unique ((abnf_iff _ _).2 h1) ((abnf_iff _ _).2 h2) h

theorem multi_bytes {u : Bytes} (h : Utf8Multi u) : u ≠ [] ∧ ∀ x ∈ u, 0x80 ≤ x.toNat := by
  obtain ⟨c, h⟩ := h
  have h := (abnf_iff _ _).2 h
  cases h <;> simp_all [isTail] <;> omega

theorem multi_hd {u : Bytes} (h : Utf8Multi u) (t : Bytes) : 0x80 ≤ (hd (u ++ t)).toNat := by
  obtain ⟨h1, h2⟩ := multi_bytes h
  cases u with
  | nil => exact absurd rfl h1
  | cons a r => exact h2 a (by simp)

theorem validMultibyte_seq (s u t : Bytes) : validMultibyte s = .seq u t ↔ s = u ++ t ∧ Utf8Multi u := by
  constructor
  · intro h
    rcases validMultibyte_cases s with ⟨h1, -⟩ | ⟨h1, -⟩ | ⟨u', t', h1, h2, h3⟩
    · rw [h] at h1; simp at h1
    · rw [h] at h1; simp at h1
    · rw [h] at h1; injection h1 with e1 e2; subst e1; subst e2; exact ⟨h2, h3⟩
  · rintro ⟨rfl, hu⟩
    rcases validMultibyte_cases (u ++ t) with ⟨-, h1⟩ | ⟨-, -, h1⟩ | ⟨u', t', h1, h2, h3⟩
    · have := multi_hd hu t
      rcases h1 with h1 | h1
      · have := (multi_bytes hu).1
        simp at h1; exact absurd h1.1 this
      · omega
    · exact absurd hu (h1 u t rfl)
    · obtain ⟨rfl, rfl⟩ := multi_unique hu h3 h2; exact h1

/-! ### the scanning loops -/

/-- `Decodes`, with the text left in the buffer: decoded, or raw when `keep` -/
inductive PT (cls : UInt8 → Bool) (keep : Bool) : Bytes → Bytes → Prop where
  | nil : PT cls keep [] []
  | lit (c : UInt8) (raw out : Bytes) : cls c = true → PT cls keep raw out → PT cls keep (c :: raw) (c :: out)
  | pct (a b v : UInt8) (raw out : Bytes) : Escape a b v → v ≠ 0 → PT cls keep raw out →
      PT cls keep (37 :: a :: b :: raw) ((if keep then [37, a, b] else [v]) ++ out)
  | multi (u raw out : Bytes) : Utf8Multi u → PT cls keep raw out → PT cls keep (u ++ raw) (u ++ out)

theorem pt_decodes {cls : UInt8 → Bool} {P : UInt8 → Prop} (h : ∀ c, cls c = true ↔ P c) (raw out : Bytes) :
    PT cls false raw out ↔ Decodes P raw out := by
  constructor
  · intro hp
    induction hp with
    | nil => exact .nil
    | lit c raw out hc _ ih => exact .lit c raw out ((h c).1 hc) ih
    | pct a b v raw out e ne _ ih => exact .pct a b v raw out e ne ih
    | multi u raw out hu _ ih => exact .multi u raw out hu ih
  · intro hp
    induction hp with
    | nil => exact .nil
    | lit c raw out hc _ ih => exact .lit c raw out ((h c).2 hc) ih
    | pct a b v raw out e ne _ ih => exact .pct a b v raw out e ne ih
    | multi u raw out hu _ ih => exact .multi u raw out hu ih

theorem pt_keep {cls : UInt8 → Bool} {P : UInt8 → Prop} (h : ∀ c, cls c = true ↔ P c) (raw out : Bytes) :
    PT cls true raw out ↔ raw = out ∧ ∃ d, Decodes P raw d := by
  constructor
  · intro hp
    induction hp with
    | nil => exact ⟨rfl, [], .nil⟩
    | lit c raw out hc _ ih =>
      obtain ⟨rfl, d, hd⟩ := ih; exact ⟨rfl, _, .lit c raw d ((h c).1 hc) hd⟩
    | pct a b v raw out e ne _ ih =>
      obtain ⟨rfl, d, hd⟩ := ih; exact ⟨by simp, _, .pct a b v raw d e ne hd⟩
    | multi u raw out hu _ ih =>
      obtain ⟨rfl, d, hd⟩ := ih; exact ⟨rfl, _, .multi u raw d hu hd⟩
  · rintro ⟨rfl, d, hp⟩
    induction hp with
    | nil => exact .nil
    | lit c raw out hc _ ih => exact .lit c raw raw ((h c).2 hc) ih
    | pct a b v raw out e ne _ ih => exact PT.pct (keep := true) a b v raw raw e ne ih
    | multi u raw out hu _ ih => exact .multi u raw raw hu ih

/-- the escape parser for each mode -/
def pctOf (keep : Bool) : Bytes → El := if keep then validPctEncoded else parsePctEncoded

theorem pctOf_no (keep : Bool) (s : Bytes) (h : hd s ≠ 37) : pctOf keep s = .no := by
  cases keep <;> simp [pctOf, validPctEncoded, parsePctEncoded, h]

theorem pctOf_yes (keep : Bool) (a b v : UInt8) (s : Bytes) (h : Escape a b v) (hv : v ≠ 0) :
    pctOf keep (37 :: a :: b :: s) = .yes (if keep then [37, a, b] else [v]) s := by
  obtain ⟨h1, h2, h3⟩ := (escape_iff a b v).1 h
  have hz : ¬ (a = 48 ∧ b = 48) := by
    intro hh; exact hv (h3.trans ((escape_zero a h1 b h2).2 hh))
  have hval : validPctEncString (37 :: a :: b :: s) = true := by
    simp [validPctEncString, h1, h2]
    exact Classical.not_and_iff_not_or_not.1 hz
  cases keep
  · simp [pctOf, parsePctEncoded, hval, pctDecode, ← h3, hv]
  · simp [pctOf, validPctEncoded, hval]

theorem pctOf_cases (keep : Bool) (s : Bytes) :
    (hd s ≠ 37 ∧ pctOf keep s = .no) ∨
    (hd s = 37 ∧ pctOf keep s = .bad ∧ ∀ a b t v, s = 37 :: a :: b :: t → Escape a b v → v = 0) ∨
    (∃ a b v t, s = 37 :: a :: b :: t ∧ Escape a b v ∧ v ≠ 0 ∧
      pctOf keep s = .yes (if keep then [37, a, b] else [v]) t) := by
  by_cases h : hd s = 37
  · right
    by_cases h2 : ∃ a b v t, s = 37 :: a :: b :: t ∧ Escape a b v ∧ v ≠ 0
    · right
      obtain ⟨a, b, v, t, rfl, e, hv⟩ := h2
      exact ⟨a, b, v, t, rfl, e, hv, pctOf_yes keep a b v t e hv⟩
    · left
      refine ⟨h, ?_, ?_⟩
      · have hval : validPctEncString s = false := by
          cases hh : validPctEncString s with
          | false => rfl
          | true =>
            exfalso
            rcases s with _ | ⟨c, _ | ⟨a, _ | ⟨b, t⟩⟩⟩
            · simp at h
            · simp at h; subst h; simp [validPctEncString] at hh
            · simp at h; subst h; simp [validPctEncString] at hh
            · simp at h; subst h
              simp [validPctEncString] at hh
              refine h2 ⟨a, b, hexVal a * 16 + hexVal b, t, rfl, (escape_iff _ _ _).2 ⟨hh.1.1, hh.1.2, rfl⟩, ?_⟩
              rw [Ne, escape_zero a hh.1.1 b hh.1.2]
              exact Classical.not_and_iff_not_or_not.2 hh.2
        cases keep <;> simp [pctOf, validPctEncoded, parsePctEncoded, h, hval]
      · intro a b t v hs he
        apply Classical.byContradiction
        intro hv; exact h2 ⟨a, b, v, t, hs, he, hv⟩
  · left; exact ⟨h, pctOf_no keep s h⟩

/-- a class of ASCII characters without '%' and NUL -/
structure OkCls (cls : UInt8 → Bool) : Prop where
  pct : cls 37 = false
  ascii : ∀ c, cls c = true → c.toNat < 0x80
  nul : cls 0 = false

theorem okHost : OkCls hostChar := ⟨by decide, by decide +kernel, by decide⟩
theorem okPath : OkCls pathChar := ⟨by decide, by decide +kernel, by decide⟩
theorem okQuery : OkCls queryChar := ⟨by decide, by decide +kernel, by decide⟩

/-- the scan ends here -/
def Stop (cls : UInt8 → Bool) (s : Bytes) : Prop :=
  s = [] ∨ (cls (hd s) = false ∧ hd s ≠ 37 ∧ (hd s).toNat < 0x80)

theorem scanStep_stop {cls : UInt8 → Bool} (keep : Bool) {s : Bytes} (h : Stop cls s) :
    scanStep cls (pctOf keep) s = .no := by
  cases s with
  | nil => rfl
  | cons c r =>
    rcases h with h | ⟨h1, h2, h3⟩
    · simp at h
    · simp only [hd_cons] at h1 h2 h3
      simp [scanStep, h1, pctOf_no keep (c :: r) h2, validMultibyte_ascii c r h3]

theorem scanStep_lit {cls : UInt8 → Bool} (keep : Bool) (c : UInt8) (s : Bytes) (h : cls c = true) :
    scanStep cls (pctOf keep) (c :: s) = .yes [c] s := by
  simp [scanStep, h]

theorem scanStep_pct {cls : UInt8 → Bool} (ok : OkCls cls) (keep : Bool) (a b v : UInt8) (s : Bytes)
    (h : Escape a b v) (hv : v ≠ 0) :
    scanStep cls (pctOf keep) (37 :: a :: b :: s) = .yes (if keep then [37, a, b] else [v]) s := by
  simp [scanStep, ok.pct, pctOf_yes keep a b v s h hv]

theorem scanStep_multi {cls : UInt8 → Bool} (ok : OkCls cls) (keep : Bool) (u s : Bytes) (h : Utf8Multi u) :
    scanStep cls (pctOf keep) (u ++ s) = .yes u s := by
  have hh := multi_hd h s
  have hv := (validMultibyte_seq (u ++ s) u s).2 ⟨rfl, h⟩
  have hp : hd (u ++ s) ≠ 37 := by intro e; rw [e] at hh; exact absurd hh (by decide)
  have hc : cls (hd (u ++ s)) = false := by
    cases hcc : cls (hd (u ++ s)) with
    | false => rfl
    | true => have := ok.ascii _ hcc; omega
  obtain ⟨x, r, hxr⟩ : ∃ x r, u ++ s = x :: r := by
    cases hu : u ++ s with
    | nil => have := (multi_bytes h).1; simp at hu; exact absurd hu.1 this
    | cons x r => exact ⟨x, r, rfl⟩
  rw [hxr] at hh hv hp hc ⊢
  simp only [hd_cons] at hp hc
  simp [scanStep, hc, pctOf_no keep (x :: r) hp, hv]

theorem scanStep_cases {cls : UInt8 → Bool} (_ok : OkCls cls) (keep : Bool) (s : Bytes) :
    (scanStep cls (pctOf keep) s = .no ∧ Stop cls s) ∨
    (scanStep cls (pctOf keep) s = .bad ∧ ∀ raw out rest, s = raw ++ rest → PT cls keep raw out → raw ≠ [] → False) ∨
    (∃ c t, s = c :: t ∧ cls c = true ∧ scanStep cls (pctOf keep) s = .yes [c] t) ∨
    (∃ a b v t, s = 37 :: a :: b :: t ∧ Escape a b v ∧ v ≠ 0 ∧
      scanStep cls (pctOf keep) s = .yes (if keep then [37, a, b] else [v]) t) ∨
    (∃ u t, s = u ++ t ∧ Utf8Multi u ∧ scanStep cls (pctOf keep) s = .yes u t) := by
  cases s with
  | nil => left; exact ⟨rfl, .inl rfl⟩
  | cons c r =>
    cases hc : cls c with
    | true => right; right; left; exact ⟨c, r, rfl, hc, scanStep_lit keep c r hc⟩
    | false =>
      have hs : scanStep cls (pctOf keep) (c :: r) =
        (match pctOf keep (c :: r) with
          | .yes out rest => .yes out rest
          | .bad => .bad
          | .no => match validMultibyte (c :: r) with
            | .no => .no | .bad => .bad | .seq u t => .yes u t) := by
        simp only [scanStep, hc]
        cases pctOf keep (c :: r) <;> rfl
      rw [hs]
      rcases pctOf_cases keep (c :: r) with ⟨h1, h2⟩ | ⟨h1, h2, h3⟩ | ⟨a, b, v, t, h1, h2, h3, h4⟩
      · rw [h2]
        rcases validMultibyte_cases (c :: r) with ⟨k1, k2⟩ | ⟨k1, k2, k3⟩ | ⟨u, t, k1, k2, k3⟩
        · left; rw [k1]; refine ⟨rfl, .inr ⟨hc, h1, ?_⟩⟩
          rcases k2 with k2 | k2
          · simp at k2
          · exact k2
        · right; left; rw [k1]; refine ⟨rfl, ?_⟩
          intro raw out rest he hp hne
          cases hp with
          | nil => exact hne rfl
          | lit c' raw' out' hc' _ => simp at he; rw [he.1, hc'] at hc; simp at hc
          | pct a b v raw' out' _ _ _ => simp at he; exact h1 he.1
          | multi u raw' out' hu _ =>
            rw [List.append_assoc] at he; exact k3 _ _ he hu
        · right; right; right; right; rw [k1]; exact ⟨u, t, k2, k3, rfl⟩
      · right; left; rw [h2]; refine ⟨rfl, ?_⟩
        intro raw out rest he hp hne
        cases hp with
        | nil => exact hne rfl
        | lit c' raw' out' hc' _ => simp at he; rw [he.1, hc'] at hc; simp at hc
        | pct a b v raw' out' e hv _ => exact hv (h3 a b _ v he e)
        | multi u raw' out' hu _ =>
          have := multi_hd hu (raw' ++ rest)
          rw [List.append_assoc] at he
          rw [← he, h1] at this; exact absurd this (by decide)
      · right; right; right; left; rw [h4]; exact ⟨a, b, v, t, h1, h2, h3, rfl⟩

/-- completeness of the scanning loop -/
theorem scan_complete {cls : UInt8 → Bool} (ok : OkCls cls) (keep : Bool) (post : UInt8 → UInt8)
    {raw out : Bytes} (hp : PT cls keep raw out) (rest : Bytes) (hs : Stop cls rest) :
    ∀ n, raw.length ≤ n → scan cls (pctOf keep) post n (raw ++ rest) = some (out.map post, rest) := by
  induction hp with
  | nil =>
    intro n _
    cases n <;> simp [scan, scanStep_stop keep hs]
  | lit c raw out hc _ ih =>
    intro n hn
    obtain ⟨k, rfl⟩ : ∃ k, n = k + 1 := ⟨n - 1, by simp at hn; omega⟩
    have := ih k (by simp at hn; omega)
    simp [scan, scanStep_lit keep c (raw ++ rest) hc, this]
  | pct a b v raw out e hv _ ih =>
    intro n hn
    obtain ⟨k, rfl⟩ : ∃ k, n = k + 1 := ⟨n - 1, by simp at hn; omega⟩
    have := ih k (by simp at hn; omega)
    simp [scan, scanStep_pct ok keep a b v (raw ++ rest) e hv, this]
  | multi u raw out hu _ ih =>
    intro n hn
    have hpos := List.length_pos_iff.2 (multi_bytes hu).1
    obtain ⟨k, rfl⟩ : ∃ k, n = k + 1 := ⟨n - 1, by simp at hn; omega⟩
    have := ih k (by simp at hn; omega)
    simp [scan, List.append_assoc, scanStep_multi ok keep u (raw ++ rest) hu, this]

/-- soundness of the scanning loop -/
theorem scan_sound {cls : UInt8 → Bool} (ok : OkCls cls) (keep : Bool) (post : UInt8 → UInt8) :
    ∀ n s o r, scan cls (pctOf keep) post n s = some (o, r) →
      ∃ raw out, s = raw ++ r ∧ PT cls keep raw out ∧ o = out.map post ∧ Stop cls r := by
  intro n
  induction n with
  | zero =>
    intro s o r h
    rcases scanStep_cases ok keep s with ⟨h1, h2⟩ | ⟨h1, -⟩ | ⟨c, t, -, -, h1⟩ | ⟨a, b, v, t, -, -, -, h1⟩ | ⟨u, t, -, -, h1⟩ <;>
    simp [scan, h1] at h
    obtain ⟨rfl, rfl⟩ := h
    exact ⟨[], [], rfl, .nil, rfl, h2⟩
  | succ n ih =>
    intro s o r h
    have next : ∀ raw1 out1 t, s = raw1 ++ t → scanStep cls (pctOf keep) s = .yes out1 t →
        (∀ raw out, PT cls keep raw out → PT cls keep (raw1 ++ raw) (out1 ++ out)) →
        ∃ raw out, s = raw ++ r ∧ PT cls keep raw out ∧ o = out.map post ∧ Stop cls r := by
      intro raw1 out1 t hs hst hpt
      simp only [scan, hst] at h
      cases hh : scan cls (pctOf keep) post n t with
      | none => rw [hh] at h; simp at h
      | some p =>
        obtain ⟨o', r'⟩ := p
        rw [hh] at h; simp at h
        obtain ⟨rfl, rfl⟩ := h
        obtain ⟨raw, out, e1, e2, e3, e4⟩ := ih _ _ _ hh
        exact ⟨raw1 ++ raw, out1 ++ out, by rw [hs, e1, List.append_assoc], hpt _ _ e2, by simp [e3], e4⟩
    rcases scanStep_cases ok keep s with ⟨h1, h2⟩ | ⟨h1, -⟩ | ⟨c, t, k1, k2, h1⟩ | ⟨a, b, v, t, k1, k2, k3, h1⟩ | ⟨u, t, k1, k2, h1⟩
    · simp [scan, h1] at h
      obtain ⟨rfl, rfl⟩ := h
      exact ⟨[], [], rfl, .nil, rfl, h2⟩
    · simp [scan, h1] at h
    · exact next [c] [c] t k1 h1 (fun raw out hp => .lit c raw out k2 hp)
    · exact next [37, a, b] _ t k1 h1 (fun raw out hp => .pct a b v raw out k2 k3 hp)
    · exact next u u t k1 h1 (fun raw out hp => .multi u raw out k2 hp)

theorem pt_nonul {cls : UInt8 → Bool} (ok : OkCls cls) {raw out : Bytes} (h : PT cls false raw out) :
    (0 : UInt8) ∉ out := by
  induction h with
  | nil => simp
  | lit c raw out hc _ ih =>
    intro hh
    rcases List.mem_cons.1 hh with h | h
    · rw [← h, ok.nul] at hc; simp at hc
    · exact ih h
  | pct a b v raw out _ hv _ ih =>
    intro hh
    simp at hh
    rcases hh with h | h
    · exact hv h.symm
    · exact ih h
  | multi u raw out hu _ ih =>
    intro hh
    rcases List.mem_append.1 hh with h | h
    · have := (multi_bytes hu).2 0 h; exact absurd this (by decide)
    · exact ih h

/-! ### normalize and leading slashes -/

theorem normalize_slash (d : Bytes) : normalize (47 :: d) = normalize d := by
  have hs : survivors (47 :: d) = survivors d := by
    simp [survivors, splitSlash_slash, pushComp]
  rw [normalize_def, normalize_def, hs]
  by_cases hd0 : d = []
  · subst hd0; rfl
  · simp [getLast_cons_slash, hd0]

end Gmid
