import Verif.Spec.Vhost
import Verif.Spec.Path
import Verif.Model.Utils

/-!
# C15 (per-location options), C32 (relay-to selection), C24 (strip), and the lookup part of C16
-/

set_option autoImplicit false

namespace Gmid.Props
open Spec

variable (fnm : Bytes → Bytes → Bool)

theorem pmatch_iff (pat s : Bytes) :
    pmatch fnm pat s = true ↔ fnm pat (if s.head? = some c%'/' then s.tail else s) = true := by
  unfold pmatch
  split
  · simp
  · rename_i h
    rw [if_neg]
    intro e
    cases s with
    | nil => simp at e
    | cons c r => simp at e; subst e; exact h r rfl

theorem locMatches_iff (l : Location) (path : Bytes) : pmatch fnm l.pat path = true ↔ LocMatches fnm l path :=
  pmatch_iff fnm _ _

/-- C15: the two cases of the theorems below are exhaustive. -/
theorem C15_exhaustive (set : Location → Prop) (locs : List Location) (path : Bytes) :
    (∃ l, FirstSet fnm set locs path l) ∨ NoneSet fnm set locs path := by
  induction locs with
  | nil => right; intro x hx; simp at hx
  | cons a r ih =>
    by_cases ha : set a ∧ LocMatches fnm a path
    · left; exact ⟨a, [], r, rfl, ha.1, ha.2, by simp⟩
    · rcases ih with ⟨l, b, c, h1, h2, h3, h4⟩ | h
      · left
        refine ⟨l, a :: b, c, by simp [h1], h2, h3, ?_⟩
        intro x hx; rcases List.mem_cons.1 hx with rfl | hx
        · exact ha
        · exact h4 x hx
      · right; intro x hx; rcases List.mem_cons.1 hx with rfl | hx
        · exact ha
        · exact h x hx

/-- C15: and there is at most one first match. -/
theorem C15_unique (set : Location → Prop) (locs : List Location) (path : Bytes) (l l' : Location)
    (h : FirstSet fnm set locs path l) (h' : FirstSet fnm set locs path l') : l = l' := by
  obtain ⟨b, a, e, h1, h2, h3⟩ := h
  obtain ⟨b', a', e', h1', h2', h3'⟩ := h'
  rw [e] at e'
  rcases List.append_eq_append_iff.1 e' with ⟨as, k1, k2⟩ | ⟨bs, k1, k2⟩
  · cases as with
    | nil => simp at k2; exact k2.1
    | cons x as =>
      simp at k2
      exact absurd ⟨h1, h2⟩ (h3' l (by rw [k1, k2.1]; simp))
  · cases bs with
    | nil => simp at k2; exact k2.1.symm
    | cons x bs =>
      simp at k2
      exact absurd ⟨h1', h2'⟩ (h3 l' (by rw [k1, k2.1]; simp))

/-- a loop of the shape used by all the lookups -/
theorem loop_first {α : Type} (f : List Location → Option α) (set : Location → Prop) (val : Location → α)
    (path : Bytes) (hnil : f [] = none)
    (hyes : ∀ l r, set l → LocMatches fnm l path → f (l :: r) = some (val l))
    (hno : ∀ l r, ¬ (set l ∧ LocMatches fnm l path) → f (l :: r) = f r) (locs : List Location) :
    (∀ l, FirstSet fnm set locs path l → f locs = some (val l)) ∧
    (NoneSet fnm set locs path → f locs = none) := by
  constructor
  · rintro l ⟨b, a, rfl, h1, h2, h3⟩
    induction b with
    | nil => exact hyes l a h1 h2
    | cons x b ih =>
      rw [List.cons_append, hno x _ (h3 x (by simp))]
      exact ih (fun y hy => h3 y (by simp [hy]))
  · intro h
    induction locs with
    | nil => exact hnil
    | cons x r ih =>
      rw [hno x r (h x (by simp))]
      exact ih (fun y hy => h y (by simp [hy]))

section
variable (v : Vhost) (path : Bytes)

/-- C15, lang -/
theorem C15_lang :
    (∀ l, FirstSet fnm (·.lang ≠ []) v.locs path l → vhostLang fnm (some v) (some path) = some l.lang) ∧
    (NoneSet fnm (·.lang ≠ []) v.locs path →
      vhostLang fnm (some v) (some path) = if v.dflt.lang = [] then none else some v.dflt.lang) := by
  have := loop_first fnm (langLoop fnm path) (·.lang ≠ []) (·.lang) path rfl
    (by intro l r h1 h2; simp [langLoop, h1, (locMatches_iff fnm l path).2 h2])
    (by
      intro l r h; rw [← locMatches_iff] at h
      by_cases h1 : l.lang = []
      · simp [langLoop, h1]
      · have h2 : pmatch fnm l.pat path = false := by simpa [h1] using h
        simp [langLoop, h2]) v.locs
  exact ⟨fun l h => by simp [vhostLang, this.1 l h], fun h => by simp [vhostLang, this.2 h]⟩

/-- C15, default type -/
theorem C15_default_type :
    (∀ l, FirstSet fnm (·.defaultMime ≠ []) v.locs path l →
      vhostDefaultMime fnm (some v) (some path) = l.defaultMime) ∧
    (NoneSet fnm (·.defaultMime ≠ []) v.locs path →
      vhostDefaultMime fnm (some v) (some path) =
        if v.dflt.defaultMime = [] then b%"application/octet-stream" else v.dflt.defaultMime) := by
  have := loop_first fnm (mimeLoop fnm path) (·.defaultMime ≠ []) (·.defaultMime) path rfl
    (by intro l r h1 h2; simp [mimeLoop, h1, (locMatches_iff fnm l path).2 h2])
    (by
      intro l r h; rw [← locMatches_iff] at h
      by_cases h1 : l.defaultMime = []
      · simp [mimeLoop, h1]
      · have h2 : pmatch fnm l.pat path = false := by simpa [h1] using h
        simp [mimeLoop, h2]) v.locs
  refine ⟨fun l h => by simp [vhostDefaultMime, this.1 l h], fun h => ?_⟩
  simp only [vhostDefaultMime, this.2 h]
  by_cases h' : v.dflt.defaultMime = [] <;> simp [h']

/-- C15, index -/
theorem C15_index :
    (∀ l, FirstSet fnm (·.index ≠ []) v.locs path l →
      vhostIndex fnm (some v) (some path) = l.index) ∧
    (NoneSet fnm (·.index ≠ []) v.locs path →
      vhostIndex fnm (some v) (some path) =
        if v.dflt.index = [] then b%"index.gmi" else v.dflt.index) := by
  have := loop_first fnm (indexLoop fnm path) (·.index ≠ []) (·.index) path rfl
    (by intro l r h1 h2; simp [indexLoop, h1, (locMatches_iff fnm l path).2 h2])
    (by
      intro l r h; rw [← locMatches_iff] at h
      by_cases h1 : l.index = []
      · simp [indexLoop, h1]
      · have h2 : pmatch fnm l.pat path = false := by simpa [h1] using h
        simp [indexLoop, h2]) v.locs
  refine ⟨fun l h => by simp [vhostIndex, this.1 l h], fun h => ?_⟩
  simp only [vhostIndex, this.2 h]
  by_cases h' : v.dflt.index = [] <;> simp [h']

/-- C15, auto index (`on` is 1, `off` is -1, 0 is unset) -/
theorem C15_auto_index :
    (∀ l, FirstSet fnm (·.autoIndex ≠ 0) v.locs path l →
      (vhostAutoIndex fnm (some v) (some path) = true ↔ l.autoIndex = 1)) ∧
    (NoneSet fnm (·.autoIndex ≠ 0) v.locs path →
      (vhostAutoIndex fnm (some v) (some path) = true ↔ v.dflt.autoIndex = 1)) := by
  have := loop_first fnm (autoIndexLoop fnm path) (·.autoIndex ≠ 0) (fun l => decide (l.autoIndex = 1)) path rfl
    (by intro l r h1 h2; simp [autoIndexLoop, h1, (locMatches_iff fnm l path).2 h2])
    (by
      intro l r h; rw [← locMatches_iff] at h
      by_cases h1 : l.autoIndex = 0
      · simp [autoIndexLoop, h1]
      · have h2 : pmatch fnm l.pat path = false := by simpa [h1] using h
        simp [autoIndexLoop, h2]) v.locs
  exact ⟨fun l h => by simp [vhostAutoIndex, this.1 l h], fun h => by simp [vhostAutoIndex, this.2 h]⟩

/-- C15, block return -/
theorem C15_block_return :
    (∀ l, FirstSet fnm (·.blockCode ≠ 0) v.locs path l →
      vhostBlockReturn fnm (some v) (some path) = some (l.blockCode, l.blockFmt)) ∧
    (NoneSet fnm (·.blockCode ≠ 0) v.locs path →
      vhostBlockReturn fnm (some v) (some path) =
        if v.dflt.blockCode = 0 then none else some (v.dflt.blockCode, v.dflt.blockFmt)) := by
  have := loop_first fnm (blockLoop fnm path) (·.blockCode ≠ 0) (fun l => (l.blockCode, l.blockFmt)) path rfl
    (by intro l r h1 h2; simp [blockLoop, h1, (locMatches_iff fnm l path).2 h2])
    (by
      intro l r h; rw [← locMatches_iff] at h
      by_cases h1 : l.blockCode = 0
      · simp [blockLoop, h1]
      · have h2 : pmatch fnm l.pat path = false := by simpa [h1] using h
        simp [blockLoop, h2]) v.locs
  refine ⟨fun l h => by simp [vhostBlockReturn, this.1 l h], fun h => ?_⟩
  simp only [vhostBlockReturn, this.2 h]
  by_cases h' : v.dflt.blockCode = 0 <;> simp [h']

/-- C15, root directory: the descriptor, and the number of the location block (0 = server). -/
theorem C15_root :
    (∀ before l after, v.locs = before ++ l :: after → l.dirfd ≠ -1 → LocMatches fnm l path →
      (∀ x ∈ before, ¬ (x.dirfd ≠ -1 ∧ LocMatches fnm x path)) →
      vhostDirfd fnm (some v) (some path) = (l.dirfd, before.length + 1)) ∧
    (NoneSet fnm (·.dirfd ≠ -1) v.locs path →
      vhostDirfd fnm (some v) (some path) = (v.dflt.dirfd, 0)) := by
  have hno : ∀ n l r, ¬ (l.dirfd ≠ -1 ∧ LocMatches fnm l path) →
      dirfdLoop fnm path n (l :: r) = dirfdLoop fnm path (n + 1) r := by
    intro n l r h; rw [← locMatches_iff] at h
    by_cases h1 : l.dirfd = -1
    · simp [dirfdLoop, h1]
    · have h2 : pmatch fnm l.pat path = false := by simpa [h1] using h
      simp [dirfdLoop, h2]
  constructor
  · intro b l a e h1 h2 h3
    have : ∀ n, dirfdLoop fnm path n (b ++ l :: a) = some (l.dirfd, n + b.length + 1) := by
      clear e
      induction b with
      | nil => intro n; simp [dirfdLoop, h1, (locMatches_iff fnm l path).2 h2]
      | cons x b ih =>
        intro n
        rw [List.cons_append, hno n x _ (h3 x (by simp)), ih (fun y hy => h3 y (by simp [hy]))]
        simp; omega
    simp [vhostDirfd, e, this]
  · intro h
    have : ∀ n locs, NoneSet fnm (·.dirfd ≠ -1) locs path → dirfdLoop fnm path n locs = none := by
      intro n locs hl
      induction locs generalizing n with
      | nil => rfl
      | cons x r ih =>
        rw [hno n x r (hl x (by simp))]
        exact ih _ (fun y hy => hl y (by simp [hy]))
    simp [vhostDirfd, this 0 _ h]

/-- C15, strip -/
theorem C15_strip :
    (∀ l, FirstSet fnm (·.strip ≠ 0) v.locs path l → vhostStrip fnm (some v) (some path) = l.strip) ∧
    (NoneSet fnm (·.strip ≠ 0) v.locs path → vhostStrip fnm (some v) (some path) = v.dflt.strip) := by
  have := loop_first fnm (stripLoop fnm path) (·.strip ≠ 0) (·.strip) path rfl
    (by intro l r h1 h2; simp [stripLoop, h1, (locMatches_iff fnm l path).2 h2])
    (by
      intro l r h; rw [← locMatches_iff] at h
      by_cases h1 : l.strip = 0
      · simp [stripLoop, h1]
      · have h2 : pmatch fnm l.pat path = false := by simpa [h1] using h
        simp [stripLoop, h2]) v.locs
  exact ⟨fun l h => by simp [vhostStrip, this.1 l h], fun h => by simp [vhostStrip, this.2 h]⟩

/-- C15, client CA -/
theorem C15_client_ca :
    (∀ l, FirstSet fnm (·.reqca ≠ none) v.locs path l → vhostRequireCa fnm (some v) (some path) = l.reqca) ∧
    (NoneSet fnm (·.reqca ≠ none) v.locs path → vhostRequireCa fnm (some v) (some path) = v.dflt.reqca) := by
  have := loop_first fnm (caLoop fnm path) (·.reqca ≠ none) (fun l => l.reqca.getD 0) path rfl
    (by
      intro l r h1 h2
      obtain ⟨s, hs⟩ := Option.ne_none_iff_exists'.1 h1
      simp [caLoop, hs, (locMatches_iff fnm l path).2 h2])
    (by
      intro l r h; rw [← locMatches_iff] at h
      cases hs : l.reqca with
      | none => simp [caLoop, hs]
      | some s =>
        have h2 : pmatch fnm l.pat path = false := by simpa [hs] using h
        simp [caLoop, hs, h2]) v.locs
  refine ⟨fun l h => ?_, fun h => by simp [vhostRequireCa, this.2 h]⟩
  simp only [vhostRequireCa, this.1 l h]
  obtain ⟨_, _, _, h1, _⟩ := h
  obtain ⟨s, hs⟩ := Option.ne_none_iff_exists'.1 h1
  simp [hs]

/-- C15, log: disabled iff some matching location disables it, or the server does. -/
theorem C15_log :
    (∀ l, FirstSet fnm (·.disableLog = true) v.locs path l → vhostDisableLog fnm (some v) (some path) = true) ∧
    (NoneSet fnm (·.disableLog = true) v.locs path →
      vhostDisableLog fnm (some v) (some path) = v.dflt.disableLog) := by
  have := loop_first fnm (fun l => if logLoop fnm path l then some true else none) (·.disableLog = true)
    (fun _ => true) path (by simp [logLoop])
    (by intro l r h1 h2; simp [logLoop, h1, (locMatches_iff fnm l path).2 h2])
    (by
      intro l r h; rw [← locMatches_iff] at h
      have h2 : (l.disableLog && pmatch fnm l.pat path) = false := by
        cases h1 : l.disableLog <;> simp_all
      simp [logLoop, h2]) v.locs
  constructor
  · intro l h
    have := this.1 l h
    simp [vhostDisableLog] at this ⊢; simp [this]
  · intro h
    have := this.2 h
    simp [vhostDisableLog] at this ⊢; simp [this]

/-- C15, fastcgi: the first location that matches and says either `fastcgi ...` or `fastcgi off`
decides; otherwise the server. -/
theorem C15_fastcgi :
    (∀ l, FirstSet fnm (fun l => l.fcgi ≠ -1 ∨ l.nofcgi = true) v.locs path l →
      vhostFastcgi fnm (some v) (some path) = if l.fcgi ≠ -1 then some l else none) ∧
    (NoneSet fnm (fun l => l.fcgi ≠ -1 ∨ l.nofcgi = true) v.locs path →
      vhostFastcgi fnm (some v) (some path) = if v.dflt.fcgi ≠ -1 then some v.dflt else none) := by
  have := loop_first fnm (fcgiLoop fnm path) (fun l => l.fcgi ≠ -1 ∨ l.nofcgi = true)
    (fun l => if l.fcgi ≠ -1 then some l else none) path rfl
    (by
      intro l r h1 h2
      rw [← locMatches_iff] at h2
      by_cases hf : l.fcgi = -1
      · have : l.nofcgi = true := by simpa [hf] using h1
        simp [fcgiLoop, hf, this, h2]
      · simp [fcgiLoop, hf, h2])
    (by
      intro l r h; rw [← locMatches_iff] at h
      by_cases hm : pmatch fnm l.pat path = true
      · have : ¬ (l.fcgi ≠ -1 ∨ l.nofcgi = true) := fun hh => h ⟨hh, hm⟩
        simp only [not_or] at this
        simp [fcgiLoop, this]
      · simp [fcgiLoop, hm]) v.locs
  refine ⟨fun l h => by simp [vhostFastcgi, this.1 l h], fun h => ?_⟩
  simp only [vhostFastcgi, this.2 h]
  by_cases h' : v.dflt.fcgi = -1 <;> simp [h']

/-- C15: without a virtual host or a path the defaults apply. -/
theorem C15_no_host (v : Option Vhost) (path : Option Bytes) (h : v = none ∨ path = none) :
    vhostLang fnm v path = none ∧ vhostDefaultMime fnm v path = b%"application/octet-stream" ∧
    vhostIndex fnm v path = b%"index.gmi" ∧ vhostAutoIndex fnm v path = false ∧
    vhostBlockReturn fnm v path = none ∧ vhostFastcgi fnm v path = none ∧
    vhostStrip fnm v path = 0 ∧ vhostRequireCa fnm v path = none ∧ vhostDisableLog fnm v path = false := by
  rcases h with rfl | rfl
  · cases path <;> exact ⟨rfl, rfl, rfl, rfl, rfl, rfl, rfl, rfl, rfl⟩
  · cases v <;> exact ⟨rfl, rfl, rfl, rfl, rfl, rfl, rfl, rfl, rfl⟩

end

/-- a toy fnmatch for the examples: equality, or the pattern `*` -/
def exFnm (p s : Bytes) : Bool := p == b%"*" || p == s

/-- an example host with two matching locations -/
def exHost : Vhost :=
  { domain := b%"ex.org", aliases := [b%"www.ex.org"], dflt := { pat := b%"*", lang := b%"en", dirfd := 3 },
    locs := [{ pat := b%"*" }, { pat := b%"x", lang := b%"it", nofcgi := true },
             { pat := b%"*", lang := b%"fr", fcgi := 0, dirfd := 5, reqca := some 1 }] }

example : vhostLang exFnm (some exHost) (some b%"/x") = some b%"it" ∧
    vhostLang exFnm (some exHost) (some b%"y") = some b%"fr" ∧
    vhostFastcgi exFnm (some exHost) (some b%"x") = none ∧
    vhostDirfd exFnm (some exHost) (some b%"x") = (5, 3) := by decide
example : FirstSet exFnm (·.lang ≠ []) exHost.locs b%"/x"
    { pat := b%"x", lang := b%"it", nofcgi := true } :=
  ⟨[{ pat := b%"*" }], [{ pat := b%"*", lang := b%"fr", fcgi := 0, dirfd := 5, reqca := some 1 }],
    rfl, by decide, by unfold LocMatches; decide, by simp⟩
example : NoneSet exFnm (·.blockCode ≠ 0) exHost.locs b%"/x" := by
  intro x hx; simp [exHost] at hx; rcases hx with rfl | rfl | rfl <;> simp

/-! ## the lookup of C16 -/

theorem matchHost_iff (v : Vhost) (name : Bytes) : matchHost fnm v name = true ↔ HostMatches fnm v name := by
  have hal : ∀ l : List Bytes, matchAliases fnm name l = true ↔ ∃ p ∈ l, pmatch fnm p name = true := by
    intro l
    induction l with
    | nil => simp [matchAliases]
    | cons a r ih =>
      simp only [matchAliases]
      split
      · rename_i h; simp [h]
      · rename_i h; rw [ih]; simp [h]
  unfold matchHost HostMatches
  split
  · rename_i h
    simp only [true_iff]
    exact ⟨v.domain, .inl rfl, (pmatch_iff fnm _ _).1 h⟩
  · rename_i h
    rw [hal]
    constructor
    · rintro ⟨p, hp, hm⟩; exact ⟨p, .inr hp, (pmatch_iff fnm _ _).1 hm⟩
    · rintro ⟨p, rfl | hp, hm⟩
      · exact absurd ((pmatch_iff fnm _ _).2 hm) h
      · exact ⟨p, hp, (pmatch_iff fnm _ _).2 hm⟩

/-- C16: the host chosen for a name is the first one that matches it. -/
theorem C16_first_matching_host (name : Bytes) (hosts : List Vhost) :
    (∀ v, findHost fnm name hosts = some v ↔
      ∃ before after, hosts = before ++ v :: after ∧ HostMatches fnm v name ∧
        ∀ w ∈ before, ¬ HostMatches fnm w name) ∧
    (findHost fnm name hosts = none ↔ ∀ w ∈ hosts, ¬ HostMatches fnm w name) := by
  induction hosts with
  | nil =>
    refine ⟨fun v => ?_, by simp [findHost]⟩
    simp [findHost]
  | cons h r ih =>
    by_cases hm : HostMatches fnm h name
    · have hb := (matchHost_iff fnm h name).2 hm
      refine ⟨fun v => ?_, by simp [findHost, hb, hm]⟩
      simp only [findHost, hb, if_true, Option.some.injEq]
      constructor
      · rintro rfl; exact ⟨[], r, rfl, hm, by simp⟩
      · rintro ⟨b, a, e, h1, h2⟩
        cases b with
        | nil => simp at e; exact e.1
        | cons x b => simp at e; exact absurd (e.1 ▸ hm) (h2 x (by simp))
    · have hb : matchHost fnm h name = false := by
        cases hh : matchHost fnm h name with
        | false => rfl
        | true => exact absurd ((matchHost_iff fnm h name).1 hh) hm
      refine ⟨fun v => ?_, ?_⟩
      · simp only [findHost, hb, Bool.false_eq_true, if_false, ih.1 v]
        constructor
        · rintro ⟨b, a, rfl, h1, h2⟩
          exact ⟨h :: b, a, rfl, h1, by
            intro w hw; rcases List.mem_cons.1 hw with rfl | hw
            · exact hm
            · exact h2 w hw⟩
        · rintro ⟨b, a, e, h1, h2⟩
          cases b with
          | nil => simp at e; exact absurd (e.1 ▸ h1) hm
          | cons x b => simp at e; exact ⟨b, a, e.2, h1, fun w hw => h2 w (by simp [hw])⟩
      · simp only [findHost, hb, Bool.false_eq_true, if_false, ih.2]
        simp [hm]

example : findHost exFnm b%"www.ex.org" [{ domain := b%"a" }, exHost] = some exHost := by decide

/-! ## C32 -/

theorem relay_iff (p : Proxy) (schema domain port : Bytes) :
    (pmatch fnm (patOr p.matchProto b%"gemini") schema && pmatch fnm (patOr p.matchHost b%"*") domain &&
      pmatch fnm (patOr p.matchPort b%"*") port) = true ↔ RelayMatches fnm p schema domain port := by
  simp only [Bool.and_eq_true, pmatch_iff, RelayMatches, patOr, and_assoc]

/-- C32: the relay chosen is the first whose three patterns match, and there is none iff no rule
matches. -/
theorem C32_first_matching_relay (schema domain port : Bytes) (rules : List Proxy) :
    (∀ p, matchedProxy fnm schema domain port rules = some p ↔
      ∃ before after, rules = before ++ p :: after ∧ RelayMatches fnm p schema domain port ∧
        ∀ q ∈ before, ¬ RelayMatches fnm q schema domain port) ∧
    (matchedProxy fnm schema domain port rules = none ↔
      ∀ q ∈ rules, ¬ RelayMatches fnm q schema domain port) := by
  induction rules with
  | nil => refine ⟨fun v => ?_, by simp [matchedProxy]⟩; simp [matchedProxy]
  | cons h r ih =>
    by_cases hm : RelayMatches fnm h schema domain port
    · have hb := (relay_iff fnm h schema domain port).2 hm
      refine ⟨fun v => ?_, by simp only [matchedProxy, hb, if_true]; simp [hm]⟩
      simp only [matchedProxy, hb, if_true, Option.some.injEq]
      constructor
      · rintro rfl; exact ⟨[], r, rfl, hm, by simp⟩
      · rintro ⟨b, a, e, h1, h2⟩
        cases b with
        | nil => simp at e; exact e.1
        | cons x b => simp at e; exact absurd (e.1 ▸ hm) (h2 x (by simp))
    · have hb : ¬ (pmatch fnm (patOr h.matchProto b%"gemini") schema &&
          pmatch fnm (patOr h.matchHost b%"*") domain && pmatch fnm (patOr h.matchPort b%"*") port) = true :=
        fun hh => hm ((relay_iff fnm h schema domain port).1 hh)
      refine ⟨fun v => ?_, ?_⟩
      · rw [matchedProxy, if_neg hb, ih.1 v]
        constructor
        · rintro ⟨b, a, rfl, h1, h2⟩
          exact ⟨h :: b, a, rfl, h1, by
            intro w hw; rcases List.mem_cons.1 hw with rfl | hw
            · exact hm
            · exact h2 w hw⟩
        · rintro ⟨b, a, e, h1, h2⟩
          cases b with
          | nil => simp at e; exact absurd (e.1 ▸ h1) hm
          | cons x b => simp at e; exact ⟨b, a, e.2, h1, fun w hw => h2 w (by simp [hw])⟩
      · rw [matchedProxy, if_neg hb, ih.2]
        simp [hm]

example : matchedProxy exFnm b%"gemini" b%"h" b%"70"
    [{ matchProto := b%"titan" }, { matchPort := b%"1965" }, { matchHost := b%"h", host := b%"up" }] =
    some { matchHost := b%"h", host := b%"up" } := by decide

/-! ## C24 -/

theorem strchrSlash_split (p : Bytes) :
    (c%'/' ∉ p ∧ strchrSlash p = none ∧ splitSlash p = [p]) ∨
    (c%'/' ∈ p ∧ strchrSlash p = some (c%'/' :: joinSlash ((splitSlash p).drop 1)) ∧
      (splitSlash p).drop 1 ≠ []) := by
  have hne : ∀ p : Bytes, splitSlash p ≠ [] := by
    intro p; cases p with
    | nil => simp [splitSlash]
    | cons c r => simp only [splitSlash]; split
                  · simp
                  · split <;> simp
  have hjoin : ∀ p : Bytes, joinSlash (splitSlash p) = p := by
    intro p
    induction p with
    | nil => rfl
    | cons c r ih =>
      simp only [splitSlash]
      split
      · rename_i h; subst h
        cases hs : splitSlash r with
        | nil => exact absurd hs (hne r)
        | cons x xs => rw [hs] at ih; simp [joinSlash, ih]
      · split
        · rename_i hs; exact absurd hs (hne r)
        · rename_i x xs hs
          rw [hs] at ih
          cases xs with
          | nil => simp only [joinSlash] at ih ⊢; rw [ih]
          | cons y ys => simp only [joinSlash, List.cons_append] at ih ⊢; rw [ih]
  induction p with
  | nil => left; simp [strchrSlash, splitSlash]
  | cons c r ih =>
    by_cases hc : c = 47
    · right
      subst hc
      simp [strchrSlash, splitSlash, hjoin, hne]
    · rcases ih with ⟨h1, h2, h3⟩ | ⟨h1, h2, h3⟩
      · left; simp [strchrSlash, splitSlash, hc, h1, h2, h3, Ne.symm hc]
      · right
        refine ⟨by simp [h1], ?_, ?_⟩
        · simp only [strchrSlash, if_neg hc, h2, splitSlash]
          split
          · rename_i hs; exact absurd hs (hne r)
          · rename_i x xs hs; simp [hs]
        · simp only [splitSlash, if_neg hc]
          split
          · rename_i hs; exact absurd hs (hne r)
          · rename_i x xs hs; rw [hs] at h3; simpa using h3

/-- C24, partial: `strip 0` keeps the path and `strip 1` leaves what follows the first component,
with its slash (nothing when there is a single component).  Missing: N >= 2, for which the property
is false of the code, see the next theorems. -/
theorem C24_strip_partial (p : Bytes) :
    stripPath p 0 = p ∧
    stripPath p 1 = if (splitSlash p).drop 1 = [] then [] else c%'/' :: joinSlash ((splitSlash p).drop 1) := by
  refine ⟨rfl, ?_⟩
  show stripLoopN 1 p = _
  rcases strchrSlash_split p with ⟨-, h2, h3⟩ | ⟨-, h2, h3⟩
  · simp [stripLoopN, h2, h3]
  · rw [if_neg h3]; simp only [stripLoopN, h2]

/-- C24 is false of the code for N >= 2: every `strip N` with N >= 1 does what `strip 1` does, for
every path, because the scan restarts at the slash it has just found. -/
theorem C24_strip_n_is_strip_one (p : Bytes) (n : Nat) (hn : 1 ≤ n) : stripPath p n = stripPath p 1 := by
  obtain ⟨k, rfl⟩ : ∃ k, n = k + 1 := ⟨n - 1, by omega⟩
  show stripLoopN (Int.toNat ((k : Int) + 1)) p = stripLoopN 1 p
  have hk : Int.toNat ((k : Int) + 1) = k + 1 := by omega
  rw [hk]
  have slash : ∀ (m : Nat) (t : Bytes), stripLoopN m (47 :: t) = 47 :: t := by
    intro m t
    induction m with
    | zero => rfl
    | succ m ih => simp [stripLoopN, strchrSlash]; exact ih
  rcases strchrSlash_split p with ⟨-, h2, -⟩ | ⟨-, h2, -⟩
  · simp [stripLoopN, h2]
  · simp only [stripLoopN, h2]; exact slash k _

/-- C24, a concrete witness: `strip 2` of a/b/c is /b/c, not c. -/
theorem C24_strip_two_wrong : stripPath b%"a/b/c" 2 = b%"/b/c" := by decide

end Gmid.Props
