import Verif.Spec.Protocols
import Verif.Props.Actions
import Verif.Props.Logger

/-!
# C111: the versions of TLS a `protocols` string enables
-/

set_option autoImplicit false

namespace Gmid.Props
open Gmid.Spec

/-! ### the list and its fields -/

theorem strsepAll_ne (s : Bytes) : strsepAll s ≠ [] := by
  cases s with
  | nil => simp [strsepAll]
  | cons c s =>
    simp only [strsepAll]
    split
    · simp
    · split <;> simp

theorem strsepAll_field (f : Bytes) (h : ∀ c ∈ f, ¬ SepChar c) : strsepAll f = [f] := by
  induction f with
  | nil => rfl
  | cons c f ih =>
    have hc : ¬ (c = c%',' ∨ c = c%':') := h c (by simp)
    rw [strsepAll, if_neg hc, ih (fun x hx => h x (by simp [hx]))]

theorem strsepAll_more (f : Bytes) (sep : UInt8) (rest : Bytes) (h : ∀ c ∈ f, ¬ SepChar c) (hs : SepChar sep) :
    strsepAll (f ++ sep :: rest) = f :: strsepAll rest := by
  induction f with
  | nil => rw [List.nil_append, strsepAll]; exact if_pos hs
  | cons c f ih =>
    have hc : ¬ (c = c%',' ∨ c = c%':') := h c (by simp)
    rw [List.cons_append, strsepAll, if_neg hc, ih (fun x hx => h x (by simp [hx]))]

theorem fields_eq {s : Bytes} {fs : List Bytes} (h : Fields s fs) : strsepAll s = fs := by
  induction h with
  | one f h => exact strsepAll_field f h
  | more f sep rest fs h hs hr ih => rw [strsepAll_more f sep rest h hs, ih]

theorem fields_exist (s : Bytes) : Fields s (strsepAll s) := by
  induction s with
  | nil => exact .one [] (by simp)
  | cons c s ih =>
    by_cases hc : c = c%',' ∨ c = c%':'
    · rw [strsepAll, if_pos hc]
      exact Fields.more [] c s _ (by simp) hc ih
    · rw [strsepAll, if_neg hc]
      have hx : ∀ {f : Bytes}, (∀ x ∈ f, ¬ SepChar x) → ∀ x ∈ c :: f, ¬ SepChar x := by
        intro f hf x hx
        rcases List.mem_cons.mp hx with e | e
        · rw [e]; exact hc
        · exact hf x e
      generalize hw : strsepAll s = ws at ih ⊢
      cases ih with
      | one f h => exact .one _ (hx h)
      | more f sep rest fs h hs hr => exact Fields.more (c :: f) sep rest fs (hx h) hs hr

/-! ### a word -/

theorem small_toLower (c : UInt8) : toLower c = small c := by
  have := forall_byte_of_all (p := fun c => toLower c == small c) (by decide +kernel) c
  simpa using this

theorem eqNoCase_small (p lit : Bytes) (h : lit.map small = lit) : eqNoCase p lit = decide (p.map small = lit) := by
  have e : (toLower : UInt8 → UInt8) = small := funext small_toLower
  rw [eqNoCase, e, h]; exact Bool.eq_iff_iff.mpr (by simp)

/-- the bits of a list of versions -/
def bitsOf (l : List TlsVer) : UInt32 := (if TlsVer.tls12 ∈ l then 8 else 0) ||| (if TlsVer.tls13 ∈ l then 16 else 0)

theorem protoNamed_bits (p : Bytes) : protoNamed p = bitsOf (namedVersions (p.map small)) := by
  unfold protoNamed
  rw [eqNoCase_small p b%"all" (by decide), eqNoCase_small p b%"legacy" (by decide), eqNoCase_small p b%"default" (by decide),
    eqNoCase_small p b%"secure" (by decide), eqNoCase_small p b%"tlsv1" (by decide), eqNoCase_small p b%"tlsv1.0" (by decide),
    eqNoCase_small p b%"tlsv1.1" (by decide), eqNoCase_small p b%"tlsv1.2" (by decide), eqNoCase_small p b%"tlsv1.3" (by decide)]
  generalize p.map small = n
  by_cases h1 : n = b%"all"
  · subst h1; decide +kernel
  by_cases h2 : n = b%"legacy"
  · subst h2; decide +kernel
  by_cases h3 : n = b%"default"
  · subst h3; decide +kernel
  by_cases h4 : n = b%"secure"
  · subst h4; decide +kernel
  by_cases h5 : n = b%"tlsv1"
  · subst h5; decide +kernel
  by_cases h6 : n = b%"tlsv1.0"
  · subst h6; decide +kernel
  by_cases h7 : n = b%"tlsv1.1"
  · subst h7; decide +kernel
  by_cases h8 : n = b%"tlsv1.2"
  · subst h8; decide +kernel
  by_cases h9 : n = b%"tlsv1.3"
  · subst h9; decide +kernel
  simp only [h1, h2, h3, h4, h5, h6, h7, h8, h9, decide_false, Bool.or_self, Bool.false_eq_true, if_false, namedVersions, List.mem_cons, List.not_mem_nil, or_false]
  decide

theorem namedVersions_bits (n : Bytes) : bitsOf (namedVersions n) = 0 ↔ namedVersions n = [] := by
  unfold namedVersions
  split
  · simp; decide
  split
  · simp; decide
  split
  · simp; decide
  · simp; decide

theorem namedVersions_only (n : Bytes) (v : TlsVer) (h : v ∈ namedVersions n) : v = .tls12 ∨ v = .tls13 := by
  unfold namedVersions at h
  split at h
  · simpa using h
  split at h
  · left; simpa using h
  split at h
  · right; simpa using h
  · simp at h

theorem protoSkip_append (bl r : Bytes) (h : ∀ c ∈ bl, c = c%' ' ∨ c = 9) : protoSkip (bl ++ r) = protoSkip r := by
  induction bl with
  | nil => rfl
  | cons c bl ih => rw [List.cons_append, protoSkip, if_pos (h c (by simp)), ih (fun x hx => h x (by simp [hx]))]

theorem protoSkip_split (f : Bytes) : ∃ bl, (∀ c ∈ bl, c = c%' ' ∨ c = 9) ∧ f = bl ++ protoSkip f := by
  induction f with
  | nil => exact ⟨[], by simp, rfl⟩
  | cons c f ih =>
    by_cases hc : c = c%' ' ∨ c = 9
    · obtain ⟨bl, h1, h2⟩ := ih
      refine ⟨c :: bl, ?_, ?_⟩
      · intro x hx
        rcases List.mem_cons.mp hx with e | e
        · rw [e]; exact hc
        · exact h1 x e
      · rw [protoSkip, if_pos hc, List.cons_append, ← h2]
    · exact ⟨[], by simp, by rw [protoSkip, if_neg hc]; rfl⟩

/-- the first byte of a name that stands for something -/
theorem named_head (n : Bytes) (h : namedVersions (n.map small) ≠ []) : ∃ c r, n = c :: r ∧ c ≠ c%' ' ∧ c ≠ 9 ∧ c ≠ c%'!' := by
  cases n with
  | nil => exact absurd (by decide) h
  | cons c r =>
    have key : ∀ d : UInt8, small d = d → d ∉ ([c%'a', c%'l', c%'d', c%'s', c%'t'] : Bytes) → c ≠ d := by
      intro d hd hn e
      apply h
      subst e
      simp only [List.map_cons, hd]
      simp only [List.mem_cons, List.not_mem_nil, or_false, not_or] at hn
      obtain ⟨a, b, e, f, g⟩ := hn
      unfold namedVersions
      rw [if_neg, if_neg, if_neg]
      · intro hh; exact g (List.cons.inj hh).1
      · simp only [List.mem_cons, List.not_mem_nil, or_false, not_or]
        exact ⟨fun hh => g (List.cons.inj hh).1, fun hh => g (List.cons.inj hh).1, fun hh => g (List.cons.inj hh).1⟩
      · simp only [List.mem_cons, List.not_mem_nil, or_false, not_or]
        exact ⟨fun hh => a (List.cons.inj hh).1, fun hh => b (List.cons.inj hh).1, fun hh => e (List.cons.inj hh).1,
          fun hh => f (List.cons.inj hh).1, fun hh => g (List.cons.inj hh).1⟩
    exact ⟨c, r, rfl, key _ (by decide) (by decide), key _ (by decide) (by decide), key _ (by decide) (by decide)⟩

/-- one step on a word -/
def stepWord (p : UInt32) (w : PWord) : UInt32 :=
  if w.incl then p ||| bitsOf w.vers else (if p = 0 then 24 else p) &&& ~~~ bitsOf w.vers

theorem protoStep_word (p : UInt32) (f : Bytes) (w : PWord) (h : IsWord f w) : protoStep p f = some (stepWord p w) := by
  obtain ⟨bl, name, hb, hf, hv, hne⟩ := h
  rw [hv] at hne
  obtain ⟨c, r, hn, h1, h2, h3⟩ := named_head name hne
  have hz : protoNamed name ≠ 0 := by
    rw [protoNamed_bits]; exact fun e => hne ((namedVersions_bits _).mp e)
  have hbits : protoNamed name = bitsOf w.vers := by rw [protoNamed_bits, hv]
  unfold protoStep
  rw [hf, List.append_assoc, protoSkip_append _ _ hb]
  cases hi : w.incl with
  | true =>
    have e : protoSkip ((if true = true then [] else [c%'!']) ++ name) = name := by
      rw [if_pos rfl, List.nil_append, hn, protoSkip, if_neg (by simp [h1, h2])]
    rw [e]
    have e2 : protoNegate name = (false, name) := by rw [hn]; unfold protoNegate; simp [h3]
    rw [e2]
    unfold protoApply
    simp only [Bool.false_and, Bool.false_eq_true, if_false]
    rw [if_neg hz, hbits]
    simp [stepWord, hi]
  | false =>
    have e : protoSkip ((if false = true then [] else [c%'!']) ++ name) = c%'!' :: name := by
      rw [if_neg (by simp), List.singleton_append, protoSkip, if_neg (by decide)]
    rw [e]
    have e2 : protoNegate (c%'!' :: name) = (true, name) := by unfold protoNegate; simp
    rw [e2]
    unfold protoApply
    simp only [Bool.true_and, if_true, beq_iff_eq]
    rw [if_neg hz, hbits]
    simp only [stepWord, hi, Bool.false_eq_true, if_false, show protosAll = 24 from by decide]

theorem protoStep_none (p : UInt32) (f : Bytes) (h : ¬ ∃ w, IsWord f w) : protoStep p f = none := by
  obtain ⟨bl, hb, hf⟩ := protoSkip_split f
  unfold protoStep
  generalize hs : protoSkip f = s at hf ⊢
  have key : ∀ (b : Bool) (name : Bytes), protoNegate s = (b, name) → f = bl ++ (if (!b) then [] else [c%'!']) ++ name → protoApply p b name = none := by
    intro b name _ hfn
    unfold protoApply
    have : protoNamed name = 0 := by
      rw [protoNamed_bits, namedVersions_bits]
      cases hv : namedVersions (name.map small) with
      | nil => rfl
      | cons x xs =>
        exact absurd ⟨⟨!b, namedVersions (name.map small)⟩, bl, name, hb, hfn, rfl, by simp [hv]⟩ h
    simp only [this, if_true]
  cases s with
  | nil => exact key false [] rfl (by simpa using hf)
  | cons c r =>
    by_cases hc : c = c%'!'
    · have e : protoNegate (c :: r) = (true, r) := by unfold protoNegate; simp [hc]
      rw [e]; exact key true r e (by simpa [hc] using hf)
    · have e : protoNegate (c :: r) = (false, c :: r) := by unfold protoNegate; simp [hc]
      rw [e]; exact key false (c :: r) e (by simpa using hf)

theorem protoLoop_none (fs : List Bytes) : ∀ p, (∃ f ∈ fs, ¬ ∃ w, IsWord f w) → protoLoop p fs = none := by
  induction fs with
  | nil => intro p ⟨f, hf, _⟩; simp at hf
  | cons f fs ih =>
    intro p ⟨g, hg, hn⟩
    rw [protoLoop]
    cases hs : protoStep p f with
    | none => rfl
    | some v =>
      rcases List.mem_cons.mp hg with e | e
      · rw [e] at hn; rw [protoStep_none p f hn] at hs; cases hs
      · exact ih v ⟨g, e, hn⟩

theorem protoLoop_words (fs : List Bytes) : ∀ (ws : List PWord) p, Words fs ws → protoLoop p fs = some (ws.foldl stepWord p) := by
  induction fs with
  | nil => intro ws p h; cases h; rfl
  | cons f fs ih =>
    intro ws p h
    cases h with
    | cons _ _ _ _ h1 h2 => rw [protoLoop, protoStep_word p f _ h1]; exact ih _ _ h2

/-! ### what a list of words leaves enabled -/

/-- a value with these two bits -/
def enc (a b : Bool) : UInt32 := (if a then 8 else 0) ||| (if b then 16 else 0)

theorem bitsOf_enc (l : List TlsVer) : bitsOf l = enc (decide (TlsVer.tls12 ∈ l)) (decide (TlsVer.tls13 ∈ l)) := by
  simp [bitsOf, enc]

theorem stepWord_enc (a b : Bool) (w : PWord) : stepWord (enc a b) w =
    if w.incl then enc (a || decide (TlsVer.tls12 ∈ w.vers)) (b || decide (TlsVer.tls13 ∈ w.vers))
    else if a = false ∧ b = false then enc (!decide (TlsVer.tls12 ∈ w.vers)) (!decide (TlsVer.tls13 ∈ w.vers))
    else enc (a && !decide (TlsVer.tls12 ∈ w.vers)) (b && !decide (TlsVer.tls13 ∈ w.vers)) := by
  unfold stepWord
  rw [bitsOf_enc]
  generalize decide (TlsVer.tls12 ∈ w.vers) = x
  generalize decide (TlsVer.tls13 ∈ w.vers) = y
  generalize w.incl = i
  revert a b x y i
  decide

theorem offers_enc (a b : Bool) : offers (enc a b) .tls12 = a ∧ offers (enc a b) .tls13 = b := by
  revert a b; decide

theorem offers_old (p : UInt32) : offers p .ssl2 = false ∧ offers p .ssl3 = false ∧ offers p .tls10 = false ∧ offers p .tls11 = false :=
  ⟨rfl, rfl, rfl, rfl⟩

/-- one more word -/
theorem enabled_snoc (ws : List PWord) (w : PWord) (v : TlsVer) : Enabled (ws ++ [w]) v ↔
    (v ∈ w.vers ∧ w.incl = true) ∨ (v ∉ w.vers ∧ ((ws ≠ [] ∧ Enabled ws v) ∨ (ws = [] ∧ w.incl = false ∧ (v = .tls12 ∨ v = .tls13)))) := by
  constructor
  · rintro (⟨pre, u, post, he, hi, hv, hp⟩ | ⟨hv, ⟨u, rest, he, hi⟩, hn⟩)
    · rcases List.eq_nil_or_concat post with hpost | ⟨q, x, hpost⟩
      · subst hpost
        have := List.append_inj' he (by simp)
        obtain ⟨_, e⟩ := this
        cases e
        exact .inl ⟨hv, hi⟩
      · rw [List.concat_eq_append] at hpost
        subst hpost
        have e2 : ws ++ [w] = (pre ++ u :: q) ++ [x] := by simpa using he
        obtain ⟨e3, e4⟩ := List.append_inj' e2 (by simp)
        cases e4
        refine .inr ⟨hp w (by simp), .inl ⟨by rw [e3]; simp, .inl ⟨pre, u, q, e3, hi, hv, fun y hy => hp y (by simp [hy])⟩⟩⟩
    · refine .inr ⟨hn w (by simp), ?_⟩
      cases ws with
      | nil =>
        simp only [List.nil_append] at he
        cases he
        exact .inr ⟨rfl, hi, hv⟩
      | cons y ws =>
        simp only [List.cons_append] at he
        obtain ⟨e1, e2⟩ := List.cons.inj he
        exact .inl ⟨by simp, .inr ⟨hv, ⟨y, ws, rfl, e1 ▸ hi⟩, fun z hz => hn z (by rcases List.mem_cons.mp hz with e | e <;> simp [e])⟩⟩
  · rintro (⟨hv, hi⟩ | ⟨hv, ⟨hne, hE⟩ | ⟨he, hi, hv2⟩⟩)
    · exact .inl ⟨ws, w, [], rfl, hi, hv, by simp⟩
    · rcases hE with ⟨pre, u, post, he, hi, hu, hp⟩ | ⟨hv2, ⟨u, rest, he, hi⟩, hn⟩
      · refine .inl ⟨pre, u, post ++ [w], by rw [he]; simp, hi, hu, ?_⟩
        intro x hx
        rcases List.mem_append.mp hx with e | e
        · exact hp x e
        · rw [List.mem_singleton.mp e]; exact hv
      · refine .inr ⟨hv2, ⟨u, rest ++ [w], by rw [he]; rfl, hi⟩, ?_⟩
        intro x hx
        rcases List.mem_append.mp hx with e | e
        · exact hn x e
        · rw [List.mem_singleton.mp e]; exact hv
    · subst he
      exact .inr ⟨hv2, ⟨w, [], rfl, hi⟩, by simpa using hv⟩

/-- words only ever name the two versions there are -/
def Two (w : PWord) : Prop := ∀ v ∈ w.vers, v = .tls12 ∨ v = .tls13

theorem enabled_two (ws : List PWord) (hT : ∀ w ∈ ws, Two w) (v : TlsVer) (h : Enabled ws v) : v = .tls12 ∨ v = .tls13 := by
  rcases h with ⟨pre, u, post, he, _, hv, _⟩ | ⟨hv, _⟩
  · exact hT u (by rw [he]; simp) v hv
  · exact hv

theorem fold_enabled (ws : List PWord) : (∀ w ∈ ws, Two w) → NeverEmptied ws →
    ∃ a b, ws.foldl stepWord 0 = enc a b ∧ (a = true ↔ Enabled ws .tls12) ∧ (b = true ↔ Enabled ws .tls13) := by
  induction ws using snocInd with
  | nil =>
    intro _ _
    refine ⟨false, false, by decide, ?_, ?_⟩ <;> simp [Enabled]
  | snoc ws w ih =>
    intro hT hN
    have hT' : ∀ u ∈ ws, Two u := fun u hu => hT u (by simp [hu])
    obtain ⟨a, b, hf, ha, hb⟩ := ih hT' (fun pre u post e h1 h2 => hN pre u (post ++ [w]) (by rw [e]; simp) h1 h2)
    rw [List.foldl_append, hf, List.foldl_cons, List.foldl_nil, stepWord_enc]
    cases hi : w.incl with
    | true =>
      refine ⟨_, _, rfl, ?_, ?_⟩
      · rw [enabled_snoc]
        by_cases hw : ws = []
        · subst hw
          have : a = false := by cases a with | false => rfl | true => exact absurd (ha.mp rfl) (by simp [Enabled])
          simp [hi, this]
        · simp only [Bool.or_eq_true, decide_eq_true_eq, ha, hi, hw]
          grind
      · rw [enabled_snoc]
        by_cases hw : ws = []
        · subst hw
          have : b = false := by cases b with | false => rfl | true => exact absurd (hb.mp rfl) (by simp [Enabled])
          simp [hi, this]
        · simp only [Bool.or_eq_true, decide_eq_true_eq, hb, hi, hw]
          grind
    | false =>
      by_cases hw : ws = []
      · subst hw
        have h1 : a = false := by cases a with | false => rfl | true => exact absurd (ha.mp rfl) (by simp [Enabled])
        have h2 : b = false := by cases b with | false => rfl | true => exact absurd (hb.mp rfl) (by simp [Enabled])
        subst h1; subst h2
        refine ⟨_, _, by rw [if_neg (by simp), if_pos ⟨rfl, rfl⟩], ?_, ?_⟩ <;> rw [enabled_snoc] <;> simp [hi]
      · obtain ⟨v, hv⟩ := hN ws w [] rfl hw hi
        have hne : ¬ (a = false ∧ b = false) := by
          rintro ⟨h1, h2⟩
          rcases enabled_two ws hT' v hv with e | e
          · rw [e] at hv; rw [ha.mpr hv] at h1; cases h1
          · rw [e] at hv; rw [hb.mpr hv] at h2; cases h2
        refine ⟨_, _, by rw [if_neg (by simp), if_neg hne], ?_, ?_⟩
        · rw [enabled_snoc]
          simp only [Bool.and_eq_true, Bool.not_eq_true', decide_eq_false_iff_not, ha, hi, hw]
          grind
        · rw [enabled_snoc]
          simp only [Bool.and_eq_true, Bool.not_eq_true', decide_eq_false_iff_not, hb, hi, hw]
          grind

theorem words_two {fs : List Bytes} {ws : List PWord} (h : Words fs ws) : ∀ w ∈ ws, Two w := by
  induction h with
  | nil => simp
  | cons f w fs ws h hs ih =>
    intro u hu
    rcases List.mem_cons.mp hu with e | e
    · obtain ⟨_, name, _, _, hv, _⟩ := h
      intro v hv2
      rw [e, hv] at hv2
      exact namedVersions_only _ v hv2
    · exact ih u e

theorem words_exist (fs : List Bytes) (hall : ∀ f ∈ fs, ∃ w, IsWord f w) : ∃ ws, Words fs ws := by
  induction fs with
  | nil => exact ⟨[], .nil⟩
  | cons f fs ih =>
    obtain ⟨w, hw⟩ := hall f (by simp)
    obtain ⟨ws, hws⟩ := ih (fun g hg => hall g (by simp [hg]))
    exact ⟨w :: ws, .cons f w fs ws hw hws⟩

/-- C111, the full statement: a string is accepted exactly if each field is a word, and then the versions let in are those
the words say -/
def ProtocolsMean : Prop := ∀ (s : Bytes) (fs : List Bytes), Fields s fs →
  ((∃ f ∈ fs, ¬ ∃ w, IsWord f w) → parseProtocols (some s) = none) ∧
  ∀ ws, Words fs ws → ∃ p, parseProtocols (some s) = some p ∧ ∀ v, offers p v = true ↔ Enabled ws v

/-- **C111.** Without a string, TLS 1.2 and 1.3 and nothing else. -/
theorem C111_none : ∃ p, parseProtocols none = some p ∧ ∀ v, offers p v = true ↔ v = .tls12 ∨ v = .tls13 := by
  refine ⟨_, rfl, fun v => ?_⟩
  cases v <;> decide

/-- C111 (partial): for the lists that never keep everything out before going on with another exclusion.  Missing: the
others, see `C111_excluded_again`. -/
theorem C111_meaning_partial (s : Bytes) (fs : List Bytes) (h : Fields s fs) (ws : List PWord) (hw : Words fs ws) (hn : NeverEmptied ws) :
    ∃ p, parseProtocols (some s) = some p ∧ ∀ v, offers p v = true ↔ Enabled ws v := by
  obtain ⟨a, b, hf, ha, hb⟩ := fold_enabled ws (words_two hw) hn
  refine ⟨enc a b, by rw [parseProtocols, fields_eq h, protoLoop_words fs ws 0 hw, hf], ?_⟩
  obtain ⟨o1, o2⟩ := offers_enc a b
  intro v
  have hold : ∀ v', (v' ≠ .tls12 ∧ v' ≠ .tls13) → ¬ Enabled ws v' := fun v' hv' he => by
    rcases enabled_two ws (words_two hw) v' he with e | e
    · exact hv'.1 e
    · exact hv'.2 e
  cases v with
  | tls12 => rw [o1]; exact ha
  | tls13 => rw [o2]; exact hb
  | ssl2 => simp [offers, sslNo, hold TlsVer.ssl2 ⟨by simp, by simp⟩]
  | ssl3 => simp [offers, sslNo, hold TlsVer.ssl3 ⟨by simp, by simp⟩]
  | tls10 => simp [offers, sslNo, hold TlsVer.tls10 ⟨by simp, by simp⟩]
  | tls11 => simp [offers, sslNo, hold TlsVer.tls11 ⟨by simp, by simp⟩]

/-- C111: a string with a field that is not a word is refused, whatever the other fields -/
theorem C111_refused (s : Bytes) (fs : List Bytes) (h : Fields s fs) : parseProtocols (some s) = none ↔ ∃ f ∈ fs, ¬ ∃ w, IsWord f w := by
  constructor
  · intro hp
    apply Classical.byContradiction
    intro hn
    have hall : ∀ f ∈ fs, ∃ w, IsWord f w := fun f hf => Classical.byContradiction fun hx => hn ⟨f, hf, hx⟩
    obtain ⟨ws, hws⟩ := words_exist fs hall
    rw [parseProtocols, fields_eq h, protoLoop_words fs ws 0 hws] at hp
    cases hp
  · intro hx
    rw [parseProtocols, fields_eq h]
    exact protoLoop_none fs 0 hx

/-- C111: nothing older than TLS 1.2 is ever used, whatever the string -/
theorem C111_never_old (s : Option Bytes) (p : UInt32) (_h : parseProtocols s = some p) (v : TlsVer) (hv : offers p v = true) :
    v = .tls12 ∨ v = .tls13 := by
  cases v <;> simp [offers, sslNo] at hv ⊢

/-- C111 (partial): the versions the server accepts are those of the last `protocols` of the file, both if it has none.
`conf->protos` is what the workers receive (C38) and give to libtls (server.c:1513).  Missing: see `C111_meaning_partial`. -/
theorem C111_server_partial (env : PEnv) (hr : Resolves env) (hp : env.protos = libtlsProtos) (ds : List Directive) (c : CConf)
    (h : parseConf env confNew ds = .ok (c, true)) :
    (lastOf protocolsOf ds = none → ∀ v, offers (UInt32.ofNat c.protos) v = true ↔ v = .tls12 ∨ v = .tls13) ∧
    (∀ s, Directive.protocols s ∈ ds → ∀ fs, Fields s fs → ∃ ws, Words fs ws) ∧
    ∀ s fs ws, lastOf protocolsOf ds = some s → Fields s fs → Words fs ws → NeverEmptied ws →
      ∀ v, offers (UInt32.ofNat c.protos) v = true ↔ Enabled ws v := by
  have hg := (C72_global env hr confNew c ⟨rfl, rfl, rfl, rfl⟩ ds h).protos
  have hok : FileOk env ds := (C69_accepted_partial env hr confNew ⟨rfl, rfl, rfl, rfl⟩ ds c true h).mp rfl
  refine ⟨?_, ?_, ?_⟩
  · intro hn v
    have e : c.protos = 24 := by rw [hg, hn]; rfl
    rw [e]
    cases v <;> decide
  · intro s hs fs hfs
    have hne : env.protos s ≠ none := hok.1 _ hs
    rw [hp] at hne
    refine words_exist fs fun f hf => Classical.byContradiction fun hx => hne ?_
    rw [libtlsProtos, (C111_refused s fs hfs).mpr ⟨f, hf, hx⟩]; rfl
  · intro s fs ws hl hf hw hN v
    obtain ⟨p, hpp, hv⟩ := C111_meaning_partial s fs hf ws hw hN
    have : UInt32.ofNat c.protos = p := by
      rw [hg, hl, hp]
      simp [libtlsProtos, hpp]
    rw [this]; exact hv v

/-- C111 is false of the code: a list that has kept everything out starts again from everything at the next exclusion.  Here
the last word about TLS 1.3 keeps it out, and it is used all the same. -/
theorem C111_excluded_again : ¬ ProtocolsMean := by
  intro h
  have hF : Fields b%"!tlsv1.2,!tlsv1.3,!tlsv1.2" [b%"!tlsv1.2", b%"!tlsv1.3", b%"!tlsv1.2"] := by
    have := fields_exist b%"!tlsv1.2,!tlsv1.3,!tlsv1.2"
    rwa [show strsepAll b%"!tlsv1.2,!tlsv1.3,!tlsv1.2" = [b%"!tlsv1.2", b%"!tlsv1.3", b%"!tlsv1.2"] from by decide +kernel] at this
  have w2 : IsWord b%"!tlsv1.2" ⟨false, [.tls12]⟩ := ⟨[], b%"tlsv1.2", by simp, by decide, by decide +kernel, by simp⟩
  have w3 : IsWord b%"!tlsv1.3" ⟨false, [.tls13]⟩ := ⟨[], b%"tlsv1.3", by simp, by decide, by decide +kernel, by simp⟩
  obtain ⟨p, hp, hv⟩ := (h _ _ hF).2 _ (.cons _ _ _ _ w2 (.cons _ _ _ _ w3 (.cons _ _ _ _ w2 .nil)))
  have e : parseProtocols (some b%"!tlsv1.2,!tlsv1.3,!tlsv1.2") = some 16 := by decide +kernel
  rw [e] at hp
  cases hp
  have := (hv .tls13).mp (by decide)
  rcases this with ⟨pre, w, post, he, hi, _, _⟩ | ⟨_, _, hn⟩
  · have hm : w ∈ pre ++ w :: post := by simp
    rw [← he] at hm
    simp only [List.mem_cons, List.not_mem_nil, or_false] at hm
    rcases hm with e | e | e <;> (rw [e] at hi; cases hi)
  · exact hn ⟨false, [.tls13]⟩ (by simp) (by simp)

/-- What the names of the versions that are gone do: keeping TLS 1.1 out turns TLS 1.2 off, letting TLS 1.0 in turns it on.
And a string may turn everything off. -/
theorem C111_old_names :
    (∃ p, parseProtocols (some b%"all,!tlsv1.1") = some p ∧ offers p .tls12 = false ∧ offers p .tls13 = true) ∧
    (∃ p, parseProtocols (some b%"tlsv1.3,tlsv1.0") = some p ∧ offers p .tls12 = true) ∧
    (∃ p, parseProtocols (some b%"!all") = some p ∧ ∀ v, offers p v = false) := by
  refine ⟨⟨16, by decide +kernel, by decide, by decide⟩, ⟨24, by decide +kernel, by decide⟩, ⟨0, by decide +kernel, ?_⟩⟩
  intro v; cases v <;> decide

/-- a list with blanks, both separators and capitals meets the hypotheses -/
example : ∃ fs ws, Fields b%"ALL: !TLSv1.2" fs ∧ Words fs ws ∧ NeverEmptied ws ∧ Enabled ws .tls13 ∧ ¬ Enabled ws .tls12 := by
  refine ⟨[b%"ALL", b%" !TLSv1.2"], [⟨true, [.tls12, .tls13]⟩, ⟨false, [.tls12]⟩], ?_, ?_, ?_, ?_, ?_⟩
  · have := fields_exist b%"ALL: !TLSv1.2"
    rwa [show strsepAll b%"ALL: !TLSv1.2" = [b%"ALL", b%" !TLSv1.2"] from by decide +kernel] at this
  · exact .cons _ _ _ _ ⟨[], b%"ALL", by simp, by decide, by decide +kernel, by simp⟩
      (.cons _ _ _ _ ⟨b%" ", b%"TLSv1.2", by simp, by decide, by decide +kernel, by simp⟩ .nil)
  · intro pre w post he hp _
    cases pre with
    | nil => exact absurd rfl hp
    | cons x pre =>
      obtain ⟨e1, e2⟩ := List.cons.inj he
      cases pre with
      | nil => subst e1; exact ⟨.tls13, .inl ⟨[], _, [], rfl, rfl, by simp, by simp⟩⟩
      | cons y pre =>
        obtain ⟨_, e3⟩ := List.cons.inj e2
        simp at e3
  · exact .inl ⟨[], _, [⟨false, [.tls12]⟩], rfl, rfl, by simp, by simp⟩
  · rw [show [(⟨true, [.tls12, .tls13]⟩ : PWord), ⟨false, [.tls12]⟩] = [⟨true, [.tls12, .tls13]⟩] ++ [⟨false, [.tls12]⟩] from rfl, enabled_snoc]
    simp

/-- an accepted file with a `protocols` -/
example : ∃ c, parseConf { cfEnv with protos := libtlsProtos } confNew [.protocols b%"tlsv1.3"] = .ok (c, true) ∧ c.protos = 16 :=
  ⟨{ confNew with protos := 16 }, by
    have e : libtlsProtos b%"tlsv1.3" = some 16 := by decide +kernel
    unfold parseConf confActions confAction
    simp only [e]
    rfl, rfl⟩

end Gmid.Props
