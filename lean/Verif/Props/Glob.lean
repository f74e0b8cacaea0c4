import Verif.Spec.Glob
import Verif.Props.Protect
import Verif.Props.FetchDir

/-!
# C138: patterns with asterisks, for paths and for the names of servers
-/

set_option autoImplicit false

namespace Gmid.Props
open Gmid.Spec

theorem glob_star {p s : Bytes} : Glob (c%'*' :: p) s ↔ ∃ t r, s = t ++ r ∧ Glob p r := by
  constructor
  · intro h
    generalize hq : c%'*' :: p = q at h
    cases h with
    | done => cases hq
    | same x p' s' hx h => simp only [List.cons.injEq] at hq; exact absurd hq.1.symm hx
    | any p' t s' h => simp only [List.cons.injEq, true_and] at hq; subst hq; exact ⟨t, s', rfl, h⟩
  · rintro ⟨t, r, rfl, h⟩; exact .any p t r h

theorem glob_same {x : UInt8} {p s : Bytes} (hx : x ≠ c%'*') : Glob (x :: p) s ↔ ∃ r, s = x :: r ∧ Glob p r := by
  constructor
  · intro h
    generalize hq : x :: p = q at h
    cases h with
    | done => cases hq
    | same y p' s' hy h =>
      simp only [List.cons.injEq] at hq
      obtain ⟨rfl, rfl⟩ := hq
      exact ⟨s', rfl, h⟩
    | any p' t s' h => simp only [List.cons.injEq] at hq; exact absurd hq.1 hx
  · rintro ⟨r, rfl, h⟩; exact .same x p r hx h

theorem glob_text {d p s : Bytes} (hd : GlobPlain d) : Glob (d ++ p) s ↔ ∃ r, s = d ++ r ∧ Glob p r := by
  induction d generalizing s with
  | nil => simp
  | cons x d ih =>
    have hx : x ≠ c%'*' := fun e => hd x (by simp) (by rw [e]; decide)
    have hd' : GlobPlain d := fun c hc => hd c (by simp [hc])
    rw [List.cons_append, glob_same hx]
    constructor
    · rintro ⟨s', rfl, h⟩
      obtain ⟨r, rfl, hr⟩ := (ih hd').1 h
      exact ⟨r, rfl, hr⟩
    · rintro ⟨r, rfl, hr⟩
      exact ⟨d ++ r, rfl, (ih hd').2 ⟨r, rfl, hr⟩⟩

theorem glob_nil {s : Bytes} : Glob [] s ↔ s = [] := by
  constructor
  · intro h; cases h; rfl
  · rintro rfl; exact .done

theorem glob_exact {d s : Bytes} (hd : GlobPlain d) : Glob d s ↔ s = d := by
  conv => lhs; rw [← List.append_nil d]
  rw [glob_text hd]
  constructor
  · rintro ⟨r, rfl, h⟩; rw [glob_nil] at h; simp [h]
  · rintro rfl; exact ⟨[], by simp, .done⟩

/-- plain text, an asterisk, plain text -/
theorem glob_between {d e s : Bytes} (hd : GlobPlain d) (he : GlobPlain e) : Glob (d ++ b%"*" ++ e) s ↔ ∃ m, s = d ++ m ++ e := by
  rw [List.append_assoc, glob_text hd]
  constructor
  · rintro ⟨r, rfl, h⟩
    obtain ⟨t, r', rfl, h'⟩ := glob_star.1 h
    have := (glob_exact he).1 h'
    subst this
    exact ⟨t, by simp⟩
  · rintro ⟨m, rfl⟩
    refine ⟨m ++ e, by simp, glob_star.2 ⟨m, e, rfl, (glob_exact he).2 rfl⟩⟩

theorem plain_pattern {d : Bytes} (hd : GlobPlain d) : StarPattern d := by
  intro c hc h
  exact hd c hc (by have : ∀ c : UInt8, c ∈ b%"?[\\" → c ∈ b%"*?[\\" := by decide +kernel
                    exact this c h)

theorem between_star {d e : Bytes} (hd : GlobPlain d) (he : GlobPlain e) : StarPattern (d ++ b%"*" ++ e) := by
  intro c hc h
  rw [List.mem_append, List.mem_append] at hc
  rcases hc with (hc | hc) | hc
  · exact plain_pattern hd c hc h
  · simp at hc; subst hc; revert h; decide
  · exact plain_pattern he c hc h

/-- such a matcher has the laws used for C59, C60 and the like -/
theorem globSpec_laws {fnm : Bytes → Bytes → Bool} (h : GlobSpec fnm) : GlobLaw fnm ∧ GlobExact fnm := by
  constructor
  · intro d s hd
    have e : d ++ b%"*" = d ++ b%"*" ++ [] := by simp
    have hn : GlobPlain [] := fun c hc => by cases hc
    rw [e, h _ s (between_star hd hn), glob_between hd hn]
    constructor
    · rintro ⟨m, rfl⟩; exact ⟨m, by simp⟩
    · rintro ⟨m, rfl⟩; exact ⟨m, by simp⟩
  · intro d s hd
    rw [h d s (plain_pattern hd), glob_exact hd]
    exact eq_comm

/-- **C138.** There is such a matcher. -/
theorem C138_reference : GlobSpec globRef := by
  intro p s _
  induction p generalizing s with
  | nil => rw [glob_nil]; cases s <;> simp [globRef]
  | cons x p ih =>
    have ih' : ∀ s, globRef p s = true ↔ Glob p s := fun s => ih s (fun c hc => by rename_i h; exact h c (by simp [hc]))
    unfold globRef
    by_cases hx : x = c%'*'
    · rw [if_pos hx, hx, glob_star]
      simp only [List.any_eq_true, List.mem_range]
      constructor
      · rintro ⟨k, _, h⟩
        exact ⟨s.take k, s.drop k, (List.take_append_drop k s).symm, (ih' _).1 h⟩
      · rintro ⟨t, r, rfl, h⟩
        refine ⟨t.length, by simp; omega, ?_⟩
        rw [List.drop_left]
        exact (ih' _).2 h
    · rw [if_neg hx, glob_same hx]
      cases s with
      | nil => simp
      | cons y s =>
        simp only [Bool.and_eq_true, beq_iff_eq, ih']
        constructor
        · rintro ⟨rfl, h⟩; exact ⟨s, rfl, h⟩
        · rintro ⟨r, e, h⟩
          simp only [List.cons.injEq] at e
          obtain ⟨rfl, rfl⟩ := e
          exact ⟨rfl, h⟩

/-- **C138.** With the matcher of POSIX, a location whose pattern is plain text applies to exactly that path; one with an asterisk, wherever it is, to exactly the
paths that begin with what is before and end with what is after it: in particular one ending in an asterisk to all that begin so, one beginning with it to all that end so, and the asterisk alone to all. -/
theorem C138_location {fnm : Bytes → Bytes → Bool} (hg : GlobSpec fnm) (l : Location) (path : Bytes) (hp : Relative path) :
    (GlobPlain l.pat → (pmatch fnm l.pat path = true ↔ path = l.pat)) ∧
    (∀ d e, GlobPlain d → GlobPlain e → l.pat = d ++ b%"*" ++ e → (pmatch fnm l.pat path = true ↔ ∃ m, path = d ++ m ++ e)) ∧
    (∀ d, GlobPlain d → l.pat = d ++ b%"*" → (pmatch fnm l.pat path = true ↔ d <+: path)) ∧
    (∀ e, GlobPlain e → l.pat = b%"*" ++ e → (pmatch fnm l.pat path = true ↔ e <:+ path)) ∧
    (l.pat = b%"*" → pmatch fnm l.pat path = true) := by
  have hm : ∀ pat, pmatch fnm pat path = fnm pat path := by
    intro pat
    unfold pmatch
    split
    · rename_i r; exact absurd rfl hp
    · rfl
  have hn : GlobPlain [] := fun c hc => by cases hc
  rw [hm]
  refine ⟨fun h => ?_, fun d e hd he h => ?_, fun d hd h => ?_, fun e he h => ?_, fun h => ?_⟩
  · rw [hg _ _ (plain_pattern h), glob_exact h]
  · rw [h, hg _ _ (between_star hd he), glob_between hd he]
  · rw [h, (globSpec_laws hg).1 d path hd]
  · rw [h, show b%"*" ++ e = [] ++ b%"*" ++ e from rfl, hg _ _ (between_star hn he), glob_between hn he]
    constructor
    · rintro ⟨m, rfl⟩; exact ⟨m, by simp⟩
    · rintro ⟨m, rfl⟩; exact ⟨m, by simp⟩
  · rw [h, show (b%"*" : Bytes) = [] ++ b%"*" ++ [] from rfl, hg _ _ (between_star hn hn), glob_between hn hn]
    exact ⟨path, by simp⟩

section
variable {penv : PEnv} {files : Bytes → Option Bytes} {loadCa : Bytes → Option Nat} {openDir : Bytes → Option Int}
  {txt : Bytes} {ds : List Directive} {c : CConf} {env : Env}

theorem namedBy_iff (hg : GlobSpec env.fnm) (x : Bytes × List SrvOpt) (hu : UsualNames x) (name : Bytes) (hn : Relative name) :
    NamedBy env.fnm name x ↔ ∃ p, (p = x.1 ∨ p ∈ x.2.filterMap aliasOf) ∧ NameCovers p name := by
  unfold NamedBy
  rw [if_neg hn]
  have hnil : GlobPlain [] := fun c hc => by cases hc
  have key : ∀ p, (GlobPlain p ∨ ∃ e, GlobPlain e ∧ p = b%"*." ++ e) → (env.fnm p name = true ↔ NameCovers p name) := by
    intro p h
    rcases h with h | ⟨e, he, rfl⟩
    · rw [hg _ _ (plain_pattern h), glob_exact h]
      constructor
      · intro k; exact .inl ⟨h, k⟩
      · rintro (⟨_, k⟩ | ⟨e, _, _, rfl, _⟩)
        · exact k
        · exact absurd (show (c%'*' : UInt8) ∈ b%"*?[\\" by decide) (h c%'*' (by simp))
    · have he' : GlobPlain (b%"." ++ e) := by
        intro c hc
        rw [List.mem_append] at hc
        rcases hc with hc | hc
        · simp at hc; subst hc; decide
        · exact he c hc
      rw [show b%"*." ++ e = [] ++ b%"*" ++ (b%"." ++ e) from rfl, hg _ _ (between_star hnil he'), glob_between hnil he']
      constructor
      · rintro ⟨m, rfl⟩; exact .inr ⟨e, m, he, rfl, by simp⟩
      · rintro (⟨k, _⟩ | ⟨e', sub, _, k, rfl⟩)
        · exact absurd (show (c%'*' : UInt8) ∈ b%"*?[\\" by decide) (k c%'*' (by simp))
        · refine ⟨sub, ?_⟩
          have : e = e' := by simpa using k
          simp [this]
  constructor
  · rintro ⟨p, h1, h2⟩; exact ⟨p, h1, (key p (hu p h1)).1 h2⟩
  · rintro ⟨p, h1, h2⟩; exact ⟨p, h1, (key p (hu p h1)).2 h2⟩

/-- **C138.** gmid runs with a configuration file whose servers have plain names, and names and aliases that begin with `*.`, and fnmatch is that of POSIX. A connection for a name is bound to the last server of the file
that has this name, or `*.` and what follows a dot in it; and when there is none the client is told so, with 59, whatever it sends. (The options of the server come before its locations, C70.) -/
theorem C138_server (h : Serving penv files loadCa openDir txt ds c env) (hg : GlobSpec env.fnm) (husual : ∀ x ∈ ds.filterMap serverOf, UsualNames x)
    (sni : Option Bytes) (name : Bytes) (hneg : Negotiated env sni name) (hrel : Relative name) :
    (∀ before x after, ds.filterMap serverOf = before ++ x :: after → OptsFirst x.2 → (∃ p, (p = x.1 ∨ p ∈ x.2.filterMap aliasOf) ∧ NameCovers p name) →
      (∀ y ∈ after, ∀ p, (p = y.1 ∨ p ∈ y.2.filterMap aliasOf) → ¬ NameCovers p name) →
      handshakeDone env sni {} = { ({} : Client) with domain := name, host := some (hostIn penv files loadCa openDir c x) }) ∧
    ((∀ x ∈ ds.filterMap serverOf, ∀ p, (p = x.1 ∨ p ∈ x.2.filterMap aliasOf) → ¬ NameCovers p name) →
      ∀ (bufsiz : Nat) (evs : List (Env × Ev)), ∃ c', runEvents bufsiz evs (handshakeDone env sni {}) = .ok c' ∧ c'.sent ++ c'.out = b%"59 Wrong/malformed host\r\n") := by
  constructor
  · intro before x after e ho hx hafter
    have hm : ∀ y ∈ after, y ∈ ds.filterMap serverOf := by intro y hy; rw [e]; simp [hy]
    have hl : LastServer env.fnm ds name x := by
      refine ⟨before, after, e, (namedBy_iff hg x (husual x (by rw [e]; simp)) name hrel).2 hx, fun y hy k => ?_⟩
      obtain ⟨p, h1, h2⟩ := (namedBy_iff hg y (husual y (hm y hy)) name hrel).1 k
      exact hafter y hy p h1 h2
    rw [handshake_name env sni name _ hneg, serving_bound h name x hl ho]
  · intro hno bufsiz evs
    obtain ⟨c', h1, h2, _⟩ := C112_unknown h sni name hneg (fun x hx k => by
      obtain ⟨p, h1, h2⟩ := (namedBy_iff hg x (husual x hx) name hrel).1 k
      exact hno x hx p h1 h2) bufsiz evs
    exact ⟨c', h1, h2⟩

end

/-! ## the hypotheses are met -/

def exGbTxt : Bytes := b%"types {\n text/x-a a\n}\nserver \"*.h\" {\n cert \"/c\"\n key \"/k\"\n root \"/d\"\n}\nserver \"w.h\" {\n alias \"*.v\"\n cert \"/c\"\n key \"/k\"\n root \"/d\"\n}\n"

def exGbAll : Bytes × List SrvOpt := (b%"*.h", [.cert b%"/c", .key b%"/k", .opt (.root b%"/d")])
def exGbOne : Bytes × List SrvOpt := (b%"w.h", [.alias b%"*.v", .cert b%"/c", .key b%"/k", .opt (.root b%"/d")])

def exGbDs : List Directive := [.types [(b%"text/x-a", [b%"a"])], .server exGbAll.1 exGbAll.2, .server exGbOne.1 exGbOne.2]

def exGbC : CConf := (mainStart cfEnv (fun _ => none) exGbDs).getD confNew

def exGbEnv : Env := { exDepEnv with fnm := globRef, hosts := exGbC.hosts.map (CHost.toVhost (caIn exDepFiles exDepCa) (dirIn exDepDir)) }

def exGbMs : List (Proc × CMsg CLoc (Bytes × Bytes) CProxy LAddr FcgiEp) := (mainConfigure exDepFiles (fun _ => true) (exGbC.toP false)).getD []
def exGbSt : Worker := ((recvAll exDepFiles exDepCa (fun _ => none) (fun _ => none) .server {} (forProc .server exGbMs) : Res Worker).val?).getD {}

theorem exGb_serving : Serving cfEnv exDepFiles exDepCa exDepDir exGbTxt exGbDs exGbC exGbEnv where
  resolves := cfEnv_ok.1
  says := ⟨80, (lexAll 80 (lexStart exGbTxt [])).dropLast,
    [.types [.names b%"text/x-a" [b%"a"]], .vhost (.server exGbAll.1 exGbAll.2), .vhost (.server exGbOne.1 exGbOne.2)],
    by decide +kernel, pGrammar_iff.1 (by decide +kernel), rfl⟩
  runs := .inl ⟨fun _ => none, by decide +kernel⟩
  sent := ⟨false, fun _ => true, exGbMs, fun _ => none, fun _ => none, {}, exGbSt, by decide +kernel, by decide +kernel,
    ⟨⟨[⟨b%"text/x-a", b%"a"⟩], by decide +kernel, List.Perm.refl _, by simp [exGbEnv, exDepEnv]⟩, by
      have : loadVhosts exDepDir exGbSt.hosts = some (exGbC.hosts.map (CHost.toVhost (caIn exDepFiles exDepCa) (dirIn exDepDir))) := by decide +kernel
      exact this, by
      have : exGbSt.fcgi.length = 0 := by decide +kernel
      exact this.symm⟩⟩

theorem exGb_plain (p : Bytes) (h : ∀ c ∈ p, c ∉ b%"*?[\\") : GlobPlain p := h

theorem exGb_usual : ∀ x ∈ exGbDs.filterMap serverOf, UsualNames x := by
  have e : exGbDs.filterMap serverOf = [exGbAll, exGbOne] := by decide +kernel
  have e1 : exGbAll.2.filterMap aliasOf = [] := by decide +kernel
  have e2 : exGbOne.2.filterMap aliasOf = [b%"*.v"] := by decide +kernel
  intro x hx p hp
  rw [e] at hx
  simp only [List.mem_cons, List.not_mem_nil, or_false] at hx
  rcases hx with rfl | rfl
  · rw [e1] at hp
    simp only [List.not_mem_nil, or_false] at hp
    exact .inr ⟨b%"h", exGb_plain _ (by decide +kernel), hp⟩
  · rw [e2] at hp
    simp only [List.mem_cons, List.not_mem_nil, or_false] at hp
    rcases hp with rfl | rfl
    · exact .inl (exGb_plain _ (by decide +kernel))
    · exact .inr ⟨b%"v", exGb_plain _ (by decide +kernel), rfl⟩

/-- the names are short: they are negotiated as they are -/
theorem exGb_negotiated (name : Bytes) (h : name ≠ []) : Negotiated exGbEnv (some name) name := .inl ⟨name, name, rfl, rfl, h, rfl⟩

/-- C138_server applies: a.b.h is for the first server, w.h and x.v for the second, and h for none -/
example : (∀ sub : Bytes, (∀ s, sub ≠ s ++ b%"w") → sub.head? ≠ some c%'/' → sub ≠ [] →
      (handshakeDone exGbEnv (some (sub ++ b%".h")) {}).host = some (hostIn cfEnv exDepFiles exDepCa exDepDir exGbC exGbAll)) ∧
    (handshakeDone exGbEnv (some b%"w.h") {}).host = some (hostIn cfEnv exDepFiles exDepCa exDepDir exGbC exGbOne) ∧
    ∀ (bufsiz : Nat) (evs : List (Env × Ev)), ∃ c', runEvents bufsiz evs (handshakeDone exGbEnv (some b%"h") {}) = .ok c' ∧ c'.sent ++ c'.out = b%"59 Wrong/malformed host\r\n" := by
  have e : exGbDs.filterMap serverOf = [exGbAll, exGbOne] := by decide +kernel
  have e1 : exGbAll.2.filterMap aliasOf = [] := by decide +kernel
  have e2 : exGbOne.2.filterMap aliasOf = [b%"*.v"] := by decide +kernel
  have of : OptsFirst exGbAll.2 ∧ OptsFirst exGbOne.2 := ⟨⟨exGbAll.2, [], by simp, by decide, by simp⟩, ⟨exGbOne.2, [], by simp, by decide, by simp⟩⟩
  refine ⟨fun sub hsub hhd hne => ?_, ?_, ?_⟩
  · obtain ⟨k, -⟩ := C138_server exGb_serving C138_reference exGb_usual (some (sub ++ b%".h")) (sub ++ b%".h") (exGb_negotiated _ (by simp)) (by
      unfold Relative; cases sub with
      | nil => exact absurd rfl hne
      | cons a r => simpa using hhd)
    rw [k [] exGbAll [exGbOne] e of.1 ⟨b%"*.h", .inl rfl, .inr ⟨b%"h", sub, exGb_plain _ (by decide +kernel), rfl, by simp⟩⟩ ?_]
    intro y hy p hp
    simp only [List.mem_cons, List.not_mem_nil, or_false] at hy
    subst hy
    rw [e2] at hp
    simp only [List.mem_cons, List.not_mem_nil, or_false] at hp
    rcases hp with rfl | rfl
    · rintro (⟨_, h⟩ | ⟨x, _, _, h, _⟩)
      · refine hsub [] ?_
        have h' : sub ++ b%".h" = b%"w" ++ b%".h" := h
        simpa using List.append_cancel_right h'
      · simp [exGbOne] at h
    · rintro (⟨h, _⟩ | ⟨x, s', _, h, h'⟩)
      · exact absurd (show (c%'*' : UInt8) ∈ b%"*?[\\" by decide) (h c%'*' (by simp))
      · have : x = b%"v" := by simpa using h.symm
        subst this
        have := congrArg List.getLast? h'
        simp at this
  · obtain ⟨k, -⟩ := C138_server exGb_serving C138_reference exGb_usual (some b%"w.h") b%"w.h" (exGb_negotiated _ (by decide)) (by unfold Relative; decide)
    rw [k [exGbAll] exGbOne [] e of.2 ⟨b%"w.h", .inl rfl, .inl ⟨exGb_plain _ (by decide +kernel), rfl⟩⟩ (by simp)]
  · obtain ⟨-, k⟩ := C138_server exGb_serving C138_reference exGb_usual (some b%"h") b%"h" (exGb_negotiated _ (by decide)) (by unfold Relative; decide)
    refine k ?_
    intro x hx p hp
    rintro (⟨h1, rfl⟩ | ⟨y, sub, _, rfl, h⟩)
    · rw [e] at hx
      simp only [List.mem_cons, List.not_mem_nil, or_false] at hx
      rcases hx with rfl | rfl
      · rw [e1] at hp; revert hp; decide
      · rw [e2] at hp; revert hp; decide
    · have : (46 : UInt8) ∈ (b%"h" : Bytes) := by rw [h]; simp
      revert this; decide

/-- C138_location applies -/
example : Relative b%"doc/a.gmi" ∧ pmatch globRef b%"doc/*" b%"doc/a.gmi" = true ∧ pmatch globRef b%"*.gmi" b%"doc/a.gmi" = true ∧ pmatch globRef b%"*.gmi" b%"doc/a.gm" = false ∧
    pmatch globRef b%"d*.gmi" b%"doc/a.gmi" = true := by
  refine ⟨by unfold Relative; decide, by decide +kernel, by decide +kernel, by decide +kernel, by decide +kernel⟩

end Gmid.Props
