import Verif.Lemmas.Iri

set_option autoImplicit false

namespace Gmid
open Spec

theorem takeWhile_append_stop {p : UInt8 → Bool} (a t : Bytes) (ha : ∀ x ∈ a, p x = true)
    (ht : t = [] ∨ p (hd t) = false) : (a ++ t).takeWhile p = a ∧ (a ++ t).dropWhile p = t := by
  induction a with
  | nil =>
    cases t with
    | nil => simp
    | cons c r =>
      rcases ht with h | h
      · simp at h
      · simp at h; simp [h]
  | cons c r ih =>
    have hc := ha c (by simp)
    have := ih (fun x hx => ha x (by simp [hx]))
    simp [hc, this]

theorem takeWhile_all {p : UInt8 → Bool} (l : Bytes) : ∀ x ∈ l.takeWhile p, p x = true := by
  induction l with
  | nil => simp
  | cons c r ih =>
    intro x hx
    rw [List.takeWhile_cons] at hx
    split at hx
    · rename_i h
      rcases List.mem_cons.1 hx with rfl | hx
      · exact h
      · exact ih x hx
    · simp at hx

theorem map_toLower (l : Bytes) : l.map toLower = l.map lower := by
  apply List.map_congr_left; intro a _; exact toLower_eq a

theorem parseScheme_iff (s sch rest : Bytes) :
    parseScheme s = some (sch, rest) ↔
      ∃ raw, s = raw ++ (58 :: 47 :: 47 :: rest) ∧ SchemeName raw ∧ sch = raw.map lower := by
  constructor
  · intro h
    cases s with
    | nil => simp [parseScheme] at h
    | cons c r =>
      simp only [parseScheme] at h
      split at h
      · simp at h
      · rename_i hc
        split at h
        · rename_i rest' heq
          simp at h
          obtain ⟨h1, rfl⟩ := h
          refine ⟨c :: r.takeWhile schemeChar, ?_, ⟨c, _, rfl, ?_, ?_⟩, ?_⟩
          · rw [List.cons_append, ← heq, List.takeWhile_append_dropWhile]
          · rw [← isAlpha_iff]; simpa using hc
          · intro x hx; rw [← schemeChar_iff]; exact takeWhile_all _ x hx
          · rw [← map_toLower]; simp [← h1]
        · simp at h
  · rintro ⟨raw, rfl, ⟨c, r, rfl, hc, hr⟩, rfl⟩
    rw [← isAlpha_iff] at hc
    have hr' : ∀ x ∈ r, schemeChar x = true := fun x hx => (schemeChar_iff x).2 (hr x hx)
    obtain ⟨e1, e2⟩ := takeWhile_append_stop (p := schemeChar) r (58 :: 47 :: 47 :: rest) hr' (.inr (by rfl))
    simp only [List.cons_append, parseScheme, hc, e1, e2]
    simp [toLower_eq]

/-! ### port -/

theorem decimal_append (a : Bytes) (d : UInt8) : decimal (a ++ [d]) = decimal a * 10 + (d.toNat - 48) := by
  simp [decimal]

def decFrom (i : Nat) (ds : Bytes) : Nat := ds.foldl (fun n d => n * 10 + (d.toNat - 48)) i

theorem decFrom_ge (ds : Bytes) (i : Nat) : i ≤ decFrom i ds := by
  induction ds generalizing i with
  | nil => simp [decFrom]
  | cons d r ih =>
    have := ih (i * 10 + (d.toNat - 48))
    simp only [decFrom, List.foldl_cons] at this ⊢; omega

theorem portLoop_complete (ds rest : Bytes) (i : Nat) (hd' : ∀ d ∈ ds, isDigit d = true)
    (hr : rest = [] ∨ isDigit (hd rest) = false) (hb : decFrom i ds ≤ 65535) :
    portLoop i (ds ++ rest) = some (decFrom i ds, rest) := by
  induction ds generalizing i with
  | nil =>
    cases rest with
    | nil => simp [portLoop, decFrom]
    | cons c r =>
      rcases hr with h | h
      · simp at h
      · simp at h; simp [portLoop, h, decFrom]
  | cons d r ih =>
    have hdd := hd' d (by simp)
    have hge := decFrom_ge r (i * 10 + (d.toNat - 48))
    have hb' : decFrom (i * 10 + (d.toNat - 48)) r ≤ 65535 := hb
    have e : (i * 10 + (d.toNat - 48)) % 4294967296 = i * 10 + (d.toNat - 48) := by omega
    simp only [List.cons_append, portLoop, hdd, if_true, e]
    rw [if_neg (by omega)]
    exact ih _ (fun x hx => hd' x (by simp [hx])) hb'

theorem portLoop_sound (s : Bytes) (i j : Nat) (rest : Bytes) (hi : i ≤ 65535)
    (h : portLoop i s = some (j, rest)) :
    ∃ ds, s = ds ++ rest ∧ (∀ d ∈ ds, isDigit d = true) ∧ (rest = [] ∨ isDigit (hd rest) = false) ∧
      j = decFrom i ds ∧ j ≤ 65535 := by
  induction s generalizing i with
  | nil => simp [portLoop] at h; exact ⟨[], by simp [h], by simp, by simp [h], by simp [decFrom, h], by omega⟩
  | cons c r ih =>
    simp only [portLoop] at h
    split at h
    · rename_i hc
      split at h
      · simp at h
      · rename_i hle
        have hcb : c.toNat ≤ 57 := by
          have := (by decide +kernel : ∀ c, isDigit c = true → c.toNat ≤ 57) c hc
          exact this
        have e : (i * 10 + (c.toNat - 48)) % 4294967296 = i * 10 + (c.toNat - 48) := by omega
        rw [e] at h hle
        obtain ⟨ds, h1, h2, h3, h4, h5⟩ := ih _ (by omega) h
        refine ⟨c :: ds, by simp [h1], ?_, h3, h4, h5⟩
        intro d hd
        rcases List.mem_cons.1 hd with rfl | hd
        · exact hc
        · exact h2 d hd
    · rename_i hc
      simp at h
      obtain ⟨rfl, rfl⟩ := h
      exact ⟨[], rfl, by simp, .inr (by simpa using hc), rfl, hi⟩

/-- what may follow the authority in the remaining text: nothing, or a slash and `r` -/
def AfterAuth (s r : Bytes) : Prop := (s = [] ∧ r = []) ∨ s = 47 :: r

theorem parsePort_iff (s port : Bytes) (no : Nat) (r : Bytes) :
    parsePort s = some (port, no, r) ↔
      ∃ t, s = port ++ t ∧ (∀ d ∈ port, d ∈ b%"0123456789") ∧ no = decimal port ∧ no ≤ 65535 ∧ AfterAuth t r := by
  constructor
  · intro h
    unfold parsePort at h
    split at h
    · simp at h
    · rename_i i rest heq
      obtain ⟨ds, h1, h2, h3, h4, h5⟩ := portLoop_sound s 0 i rest (by omega) heq
      have hdig : ∀ d ∈ ds, d ∈ b%"0123456789" := fun d hd => (isDigit_iff d).1 (h2 d hd)
      split at h
      · simp at h
        obtain ⟨rfl, rfl, rfl⟩ := h
        simp at h1; subst h1
        exact ⟨[], by simp, hdig, h4, h5, .inl ⟨rfl, rfl⟩⟩
      · rename_i r'
        simp at h
        obtain ⟨e1, rfl, rfl⟩ := h
        have := (takeWhile_append_stop (p := isDigit) ds (47 :: r') h2 (.inr (by rfl))).1
        rw [← h1, e1] at this; subst this
        exact ⟨47 :: r', h1, hdig, h4, h5, .inr rfl⟩
      · simp at h
  · rintro ⟨t, rfl, hd', rfl, hle, ht⟩
    have hdig : ∀ d ∈ port, isDigit d = true := fun d hd => (isDigit_iff d).2 (hd' d hd)
    unfold parsePort
    rcases ht with ⟨rfl, rfl⟩ | rfl
    · rw [portLoop_complete port [] 0 hdig (.inl rfl) hle]; simp [decimal, decFrom]
    · rw [portLoop_complete port (47 :: r) 0 hdig (.inr (by rfl)) hle]
      have := (takeWhile_append_stop (p := isDigit) port (47 :: r) hdig (.inr (by rfl))).1
      simp [this, decimal, decFrom]

theorem parseAuthorityEnd_iff (h0 s host port : Bytes) (no : Nat) (r : Bytes) :
    parseAuthorityEnd h0 s = some (host, port, no, r) ↔
      host = h0 ∧ ∃ pp t, s = pp ++ t ∧ PortPart pp port no ∧ AfterAuth t r := by
  constructor
  · intro h
    unfold parseAuthorityEnd at h
    split at h
    · rename_i s'
      split at h
      · simp at h
      · rename_i port' no' rest heq
        simp at h
        obtain ⟨rfl, rfl, rfl, rfl⟩ := h
        obtain ⟨t, h1, h2, h3, h4, h5⟩ := (parsePort_iff _ _ _ _).1 heq
        exact ⟨rfl, 58 :: port', t, by simp [h1], .inr ⟨rfl, h2, h3, h4⟩, h5⟩
    · simp at h
      obtain ⟨rfl, rfl, rfl, rfl⟩ := h
      exact ⟨rfl, [], _, rfl, .inl ⟨rfl, rfl, rfl⟩, .inr rfl⟩
    · simp at h
      obtain ⟨rfl, rfl, rfl, rfl⟩ := h
      exact ⟨rfl, [], [], rfl, .inl ⟨rfl, rfl, rfl⟩, .inl ⟨rfl, rfl⟩⟩
    · simp at h
  · rintro ⟨rfl, pp, t, rfl, hp, ht⟩
    rcases hp with ⟨rfl, rfl, rfl⟩ | ⟨rfl, h1, h2, h3⟩
    · rcases ht with ⟨rfl, rfl⟩ | rfl <;> simp [parseAuthorityEnd]
    · have := (parsePort_iff (port ++ t) port no r).2 ⟨t, rfl, h1, h2, h3, ht⟩
      simp [parseAuthorityEnd, this]

/-- what follows the host stops the scan -/
theorem stop_after (pp t port r : Bytes) (no : Nat) (hp : PortPart pp port no) (ht : AfterAuth t r) :
    Stop hostChar (pp ++ t) := by
  rcases hp with ⟨rfl, -⟩ | ⟨rfl, -⟩
  · rcases ht with ⟨rfl, -⟩ | rfl
    · exact .inl rfl
    · exact .inr (by simp; decide)
  · exact .inr (by simp; decide)

theorem pctOf_false : pctOf false = parsePctEncoded := rfl
theorem pctOf_true : pctOf true = validPctEncoded := rfl

theorem hd_decodes {P : UInt8 → Prop} {raw d : Bytes} (h : Decodes P raw d) (t : Bytes) :
    raw = [] ∨ P (hd (raw ++ t)) ∨ hd (raw ++ t) = 37 ∨ 0x80 ≤ (hd (raw ++ t)).toNat := by
  cases h with
  | nil => exact .inl rfl
  | lit c raw dec hc _ => exact .inr (.inl (by simpa using hc))
  | pct a b v raw dec _ _ _ => exact .inr (.inr (.inl (by simp)))
  | multi u raw dec hu _ =>
    right; right; right
    rw [List.append_assoc]; exact multi_hd hu _

theorem parseAuthority_iff (isAddr : Bytes → Bool) (s host port : Bytes) (no : Nat) (r : Bytes) :
    parseAuthority isAddr s = some (host, port, no, r) ↔
      ∃ auth pp t, s = auth ++ pp ++ t ∧ Authority isAddr auth host ∧ PortPart pp port no ∧ AfterAuth t r := by
  constructor
  · intro h
    unfold parseAuthority at h
    split at h
    · rename_i hb
      dsimp only at h
      split at h
      · simp at h
      · rename_i c rest heq
        split at h
        · rename_i haddr
          obtain ⟨rfl, pp, t, h1, h2, h3⟩ := (parseAuthorityEnd_iff _ _ _ _ _ _).1 h
          obtain ⟨x, s', rfl⟩ : ∃ x s', s = x :: s' := by
            cases s with
            | nil => simp at hb
            | cons x s' => exact ⟨x, s', rfl⟩
          simp only [hd_cons] at hb; subst hb
          simp only [List.drop_succ_cons, List.drop_zero] at heq haddr h ⊢
          have hc : c = 93 := by
            have hm := List.dropWhile_append_of_pos (p := fun x : UInt8 => decide (x ≠ 93)) (l₁ := []) (l₂ := s') (by simp)
            have : (s'.dropWhile (fun x => decide (x ≠ 93))).head? = some c := by rw [heq]; rfl
            have h2 := List.head?_dropWhile_not (fun x : UInt8 => decide (x ≠ 93)) s'
            rw [this] at h2; simpa using h2
          subst hc
          refine ⟨91 :: (s'.takeWhile (fun x => decide (x ≠ 93)) ++ [93]), pp, t, ?_, .inl ⟨rfl, ?_, haddr⟩, h2, h3⟩
          · have := List.takeWhile_append_dropWhile (p := fun x : UInt8 => decide (x ≠ 93)) (l := s')
            rw [heq, h1] at this
            simp [List.append_assoc] at this ⊢; exact this.symm
          · intro hm; have := takeWhile_all (p := fun x : UInt8 => decide (x ≠ 93)) s' 93 hm; simp at this
        · simp at h
    · rename_i hb
      split at h
      · simp at h
      · rename_i host' rest heq
        obtain ⟨rfl, pp, t, h1, h2, h3⟩ := (parseAuthorityEnd_iff _ _ _ _ _ _).1 h
        rw [← pctOf_false] at heq
        obtain ⟨raw, out, k1, k2, k3, k4⟩ := scan_sound okHost false hostPost _ _ _ _ heq
        refine ⟨raw, pp, t, by rw [k1, h1, List.append_assoc], .inr ⟨out, (pt_decodes hostChar_iff _ _).1 k2, ?_⟩, h2, h3⟩
        rw [k3, ← map_toLower]; rfl
  · rintro ⟨auth, pp, t, rfl, ha, hp, ht⟩
    have hend := (parseAuthorityEnd_iff host (pp ++ t) host port no r).2 ⟨rfl, pp, t, rfl, hp, ht⟩
    rcases ha with ⟨rfl, h1, h2⟩ | ⟨d, h1, rfl⟩
    · have hall : ∀ x ∈ host, (fun x : UInt8 => decide (x ≠ 93)) x = true := by
        intro x hx; simp; rintro rfl; exact h1 hx
      obtain ⟨e1, e2⟩ := takeWhile_append_stop (p := fun x : UInt8 => decide (x ≠ 93)) host (93 :: (pp ++ t)) hall (.inr (by simp))
      unfold parseAuthority
      simp only [List.cons_append, hd_cons, if_true, List.drop_succ_cons, List.drop_zero, List.append_assoc,
        List.nil_append]
      rw [e1, e2]; simp [h2, hend]
    · have hstop := stop_after pp t port r no hp ht
      have hb : hd (auth ++ pp ++ t) ≠ 91 := by
        rw [List.append_assoc]
        rcases hd_decodes h1 (pp ++ t) with rfl | h | h | h
        · rcases hstop with h | ⟨-, -, -⟩
          · rw [List.nil_append, h]; decide
          · rw [List.nil_append]
            rcases hp with ⟨rfl, -⟩ | ⟨rfl, -⟩
            · rcases ht with ⟨rfl, -⟩ | rfl <;> simp
            · simp
        · intro e; rw [e] at h; exact absurd h (by decide)
        · rw [h]; decide
        · intro e; rw [e] at h; exact absurd h (by decide)
      unfold parseAuthority
      rw [if_neg hb]
      have := scan_complete okHost false hostPost ((pt_decodes hostChar_iff _ _).2 h1) (pp ++ t) hstop
        (auth ++ pp ++ t).length (by simp)
      rw [pctOf_false, ← List.append_assoc] at this
      rw [this]
      have e : d.map hostPost = d.map lower := map_toLower d
      rw [e]; exact hend

/-! ### path, query, fragment -/

theorem parseQueryFragment_iff (s q f : Bytes) :
    parseQueryFragment s = some (q, f) ↔
      (s = q ∧ f = [] ∧ ∃ d, Decodes QueryChar q d) ∨ (s = q ++ 35 :: f ∧ ∃ d, Decodes QueryChar q d) := by
  constructor
  · intro h
    unfold parseQueryFragment at h
    split at h
    · simp at h
    · rename_i q' rest heq
      rw [← pctOf_true] at heq
      obtain ⟨raw, out, k1, k2, k3, k4⟩ := scan_sound okQuery true id _ _ _ _ heq
      obtain ⟨rfl, hdec⟩ := (pt_keep queryChar_iff _ _).1 k2
      simp at k3; subst k3
      split at h
      · simp at h; obtain ⟨rfl, rfl⟩ := h
        left; exact ⟨by simpa using k1, rfl, hdec⟩
      · simp at h; obtain ⟨rfl, rfl⟩ := h
        right; exact ⟨k1, hdec⟩
      · simp at h
  · intro h
    unfold parseQueryFragment
    rcases h with ⟨rfl, rfl, hdec⟩ | ⟨rfl, hdec⟩
    · have := scan_complete okQuery true id ((pt_keep queryChar_iff _ _).2 ⟨rfl, hdec⟩) [] (.inl rfl) s.length (Nat.le_refl _)
      rw [pctOf_true, List.append_nil] at this
      rw [this]; simp
    · have := scan_complete okQuery true id ((pt_keep queryChar_iff _ _).2 ⟨rfl, hdec⟩) (35 :: f)
        (.inr (by simp; decide)) (q ++ 35 :: f).length (by simp)
      rw [pctOf_true] at this
      rw [this]; simp

/-- the part after the path, as parsed by parse_path -/
def qfParse (rest : Bytes) : Option (Bytes × Bytes) :=
  match rest with
  | [] => some ([], [])
  | 35 :: f => some ([], f)
  | 63 :: r => parseQueryFragment r
  | _ => none

theorem qfParse_iff (rest q f : Bytes) : qfParse rest = some (q, f) ↔ QueryFragment rest q f := by
  unfold qfParse QueryFragment
  split
  · constructor
    · intro h; simp at h; exact .inl ⟨rfl, h.1, h.2⟩
    · rintro (⟨-, rfl, rfl⟩ | ⟨h, -⟩ | ⟨h, -⟩ | ⟨h, -⟩)
      · rfl
      all_goals simp at h
  · rename_i f'
    simp
    constructor
    · rintro ⟨rfl, rfl⟩; exact ⟨rfl, rfl⟩
    · rintro ⟨rfl, rfl⟩; exact ⟨rfl, rfl⟩
  · rename_i r
    rw [parseQueryFragment_iff]
    simp
  · rename_i h1 h2 h3
    constructor
    · intro h; simp at h
    · rintro (⟨rfl, -⟩ | ⟨rfl, -⟩ | ⟨rfl, -⟩ | ⟨rfl, -⟩)
      · exact absurd rfl h1
      · exact absurd rfl (h2 f)
      · exact absurd rfl (h3 q)
      · exact absurd rfl (h3 _)

/-- what follows a path stops the scan -/
theorem stop_qf (rest q f : Bytes) (h : QueryFragment rest q f) : Stop pathChar rest := by
  rcases h with ⟨rfl, -⟩ | ⟨rfl, -⟩ | ⟨rfl, -⟩ | ⟨rfl, -⟩
  · exact .inl rfl
  · exact .inr ⟨rfl, by simp, by simp⟩
  · exact .inr ⟨rfl, by simp, by simp⟩
  · exact .inr ⟨rfl, by simp, by simp⟩

theorem cleanStr_eq (p tail : Bytes) (h : (0 : UInt8) ∉ p) : cleanStr p tail = .ok (normalize p) := by
  obtain ⟨m', h1, -, h3⟩ := pathClean_z p tail h
  simp [cleanStr, h1, h3, z_normalize p h]

theorem decodes_nil {P : UInt8 → Prop} {d : Bytes} (h : Decodes P [] d) : d = [] := by
  generalize hs : ([] : Bytes) = s at h
  cases h with
  | nil => rfl
  | lit c raw' dec hc hd => simp at hs
  | pct a b v raw' dec _ _ _ => simp at hs
  | multi u raw' dec hu _ =>
    have := (List.append_eq_nil_iff.1 hs.symm).1
    exact absurd this (multi_bytes hu).1

/-- leading slashes decode to themselves -/
theorem decodes_slash {raw d : Bytes} (h : Decodes PathChar (47 :: raw) d) :
    ∃ d', d = 47 :: d' ∧ Decodes PathChar raw d' := by
  generalize hs : (47 :: raw : Bytes) = s at h
  cases h with
  | nil => simp at hs
  | lit c raw' dec hc hd => simp at hs; obtain ⟨rfl, rfl⟩ := hs; exact ⟨dec, rfl, hd⟩
  | pct a b v raw' dec _ _ _ => simp at hs
  | multi u raw' dec hu _ =>
    have := multi_hd hu raw'
    rw [← hs] at this; simp at this

theorem dropSlash_decodes (rp qf d q f : Bytes) (hq : QueryFragment qf q f) (h : Decodes PathChar rp d) :
    ∃ rp' d', (rp ++ qf).dropWhile (· == 47) = rp' ++ qf ∧ Decodes PathChar rp' d' ∧ normalize d' = normalize d := by
  induction rp generalizing d with
  | nil =>
    obtain rfl := decodes_nil h
    refine ⟨[], [], ?_, .nil, rfl⟩
    rcases hq with ⟨rfl, -⟩ | ⟨rfl, -⟩ | ⟨rfl, -⟩ | ⟨rfl, -⟩ <;> simp
  | cons x r ih =>
    by_cases hx : x = 47
    · subst hx
      obtain ⟨d', rfl, h'⟩ := decodes_slash h
      obtain ⟨rp', d'', e1, e2, e3⟩ := ih d' h'
      exact ⟨rp', d'', by simpa using e1, e2, by rw [normalize_slash]; exact e3⟩
    · exact ⟨x :: r, d, by simp [hx], h, rfl⟩

theorem slash_dropWhile (s : Bytes) : ∃ k, s = List.replicate k 47 ++ s.dropWhile (· == 47) := by
  induction s with
  | nil => exact ⟨0, rfl⟩
  | cons c r ih =>
    by_cases h : c = 47
    · obtain ⟨k, hk⟩ := ih
      refine ⟨k + 1, ?_⟩
      subst h
      rw [List.replicate_succ, List.cons_append]
      simp only [List.dropWhile_cons, beq_self_eq_true, if_true]
      rw [← hk]
    · exact ⟨0, by simp [h]⟩

theorem decodes_slashes (k : Nat) {raw d : Bytes} (h : Decodes PathChar raw d) :
    Decodes PathChar (List.replicate k 47 ++ raw) (List.replicate k 47 ++ d) := by
  induction k with
  | zero => simpa
  | succ k ih =>
    rw [List.replicate_succ, List.cons_append, List.cons_append]
    exact .lit 47 _ _ (by decide) ih

theorem normalize_slashes (k : Nat) (d : Bytes) : normalize (List.replicate k 47 ++ d) = normalize d := by
  induction k with
  | zero => rfl
  | succ k ih => rw [List.replicate_succ, List.cons_append, normalize_slash, ih]

/-- the path part: `s` is what follows the slash after the authority -/
theorem parsePath_eq (s p q f : Bytes) :
    parsePath s = .ok (p, q, f) ↔
      ∃ rp d qf, s = rp ++ qf ∧ Decodes PathChar rp d ∧ p = normalize d ∧ QueryFragment qf q f := by
  constructor
  · intro h
    obtain ⟨k, hk⟩ := slash_dropWhile s
    unfold parsePath at h
    dsimp only at h
    split at h
    · rename_i heq
      simp at h
      obtain ⟨rfl, rfl, rfl⟩ := h
      rw [heq, List.append_nil] at hk
      refine ⟨s, List.replicate k 47, [], by simp, ?_, ?_, .inl ⟨rfl, rfl, rfl⟩⟩
      · have := decodes_slashes k (raw := []) (d := []) .nil
        rw [hk]; simpa using this
      · have := normalize_slashes k []
        rw [List.append_nil] at this; rw [this]; rfl
    · split at h
      · simp at h
      · rename_i path rest heq
        rw [← pctOf_false] at heq
        obtain ⟨raw, out, k1, k2, k3, k4⟩ := scan_sound okPath false id _ _ _ _ heq
        simp at k3; subst k3
        have hqf : ∀ x, (match rest with
          | [] => some ([], [])
          | 35 :: f => some ([], f)
          | 63 :: r => parseQueryFragment r
          | _ => none) = some x → qfParse rest = some x := fun x hx => hx
        split at h
        · simp at h
        · rename_i q' f' hq'
          rw [cleanStr_eq path _ (pt_nonul okPath k2)] at h
          simp at h
          obtain ⟨rfl, rfl, rfl⟩ := h
          have hdec := (pt_decodes pathChar_iff _ _).1 k2
          refine ⟨List.replicate k 47 ++ raw, List.replicate k 47 ++ path, rest, ?_, decodes_slashes k hdec,
            (normalize_slashes k path).symm, (qfParse_iff _ _ _).1 (hqf _ hq')⟩
          rw [List.append_assoc, ← k1]; exact hk
  · rintro ⟨rp, d, qf, rfl, hdec, rfl, hqf⟩
    obtain ⟨rp', d', e1, e2, e3⟩ := dropSlash_decodes rp qf d q f hqf hdec
    unfold parsePath
    dsimp only
    rw [e1]
    have hscan := scan_complete okPath false id ((pt_decodes pathChar_iff _ _).2 e2) qf (stop_qf _ _ _ hqf)
      (rp' ++ qf).length (by simp)
    rw [pctOf_false] at hscan
    have hclean := cleanStr_eq d' (qf.drop 1) (pt_nonul okPath ((pt_decodes pathChar_iff _ _).2 e2))
    have hq := (qfParse_iff _ _ _).2 hqf
    split
    · rename_i heq
      simp at heq
      obtain ⟨rfl, rfl⟩ := heq
      obtain rfl := decodes_nil e2
      rcases hqf with ⟨-, rfl, rfl⟩ | ⟨h, -⟩ | ⟨h, -⟩ | ⟨h, -⟩
      · rw [← e3]; rfl
      all_goals simp at h
    · rw [hscan]
      show (match qfParse qf with
        | none => Res.err
        | some (q, f) => match cleanStr (List.map id d') (qf.drop 1) with
          | .ok p => .ok (p, q, f)
          | .err => .err
          | .ub => .ub) = _
      rw [hq, List.map_id, hclean, e3]

theorem parsePath_no_ub (s : Bytes) : parsePath s ≠ .ub := by
  intro h
  unfold parsePath at h
  dsimp only at h
  split at h
  · simp at h
  · split at h
    · simp at h
    · rename_i path rest heq
      rw [← pctOf_false] at heq
      obtain ⟨raw, out, k1, k2, k3, k4⟩ := scan_sound okPath false id _ _ _ _ heq
      simp at k3; subst k3
      split at h
      · simp at h
      · rw [cleanStr_eq path _ (pt_nonul okPath k2)] at h
        simp at h

/-- parse_iri decides the grammar -/
theorem parseIri_iff (isAddr : Bytes → Bool) (s : Bytes) (i : Iri) :
    parseIri isAddr s = .ok i ↔
      IriGrammar isAddr s i.schema i.host i.port i.portNo i.path i.query i.fragment := by
  constructor
  · intro h
    unfold parseIri at h
    split at h
    · simp at h
    · rename_i sch r h1
      split at h
      · simp at h
      · rename_i host port no r' h2
        split at h
        · rename_i p q f h3
          simp at h; subst h
          obtain ⟨raw, rfl, hsch, hl⟩ := (parseScheme_iff _ _ _).1 h1
          obtain ⟨auth, pp, t, rfl, ha, hp, ht⟩ := (parseAuthority_iff _ _ _ _ _ _).1 h2
          obtain ⟨rp, d, qf, rfl, hd', hn, hq⟩ := (parsePath_eq _ _ _ _).1 h3
          refine ⟨raw, auth, pp, t, by simp [List.append_assoc], hsch, hl, ha, hp, ?_⟩
          rcases ht with ⟨rfl, he⟩ | rfl
          · left
            have : rp = [] ∧ qf = [] := by simpa using he
            obtain ⟨rfl, rfl⟩ := this
            obtain rfl := decodes_nil hd'
            rcases hq with ⟨-, rfl, rfl⟩ | ⟨h, -⟩ | ⟨h, -⟩ | ⟨h, -⟩
            · subst hn; exact ⟨rfl, rfl, rfl, rfl⟩
            all_goals simp at h
          · right; exact ⟨rp, d, qf, rfl, hd', hn, hq⟩
        · simp at h
        · simp at h
  · rintro ⟨sch, auth, pp, tail, rfl, hsch, hl, ha, hp, ht⟩
    have hr : ∃ r, AfterAuth tail r ∧ parsePath r = .ok (i.path, i.query, i.fragment) := by
      rcases ht with ⟨rfl, h1, h2, h3⟩ | ⟨rp, d, qf, rfl, h1, h2, h3⟩
      · exact ⟨[], .inl ⟨rfl, rfl⟩, by rw [h1, h2, h3]; rfl⟩
      · exact ⟨rp ++ qf, .inr rfl, (parsePath_eq _ _ _ _).2 ⟨rp, d, qf, rfl, h1, h2, h3⟩⟩
    obtain ⟨r, hr1, hr2⟩ := hr
    have e1 := (parseScheme_iff (sch ++ 58 :: 47 :: 47 :: (auth ++ pp ++ tail)) i.schema (auth ++ pp ++ tail)).2
      ⟨sch, rfl, hsch, hl⟩
    have e2 := (parseAuthority_iff isAddr (auth ++ pp ++ tail) i.host i.port i.portNo r).2
      ⟨auth, pp, tail, rfl, ha, hp, hr1⟩
    have es : sch ++ [58, 47, 47] ++ auth ++ pp ++ tail = sch ++ 58 :: 47 :: 47 :: (auth ++ pp ++ tail) := by
      simp [List.append_assoc]
    rw [es]
    unfold parseIri
    simp only [e1, e2, hr2]

theorem parseIri_no_ub (isAddr : Bytes → Bool) (s : Bytes) : parseIri isAddr s ≠ .ub := by
  intro h
  unfold parseIri at h
  split at h
  · simp at h
  · split at h
    · simp at h
    · split at h
      · simp at h
      · simp at h
      · rename_i h3; exact parsePath_no_ub _ h3

end Gmid
