import Verif.Lemmas.GrammarSound

/-!
# Newlines and semicolons do not matter

`NlEq a b`: the two are the same but for how long the runs of newlines and semicolons are, and for those after a `{`.
-/

set_option autoImplicit false

namespace Gmid

def AllNl (n : Toks) : Prop := ∀ t ∈ n, isNlTok t = true

inductive NlEq : Toks → Toks → Prop where
  | nil : NlEq [] []
  | tok (t : Tok) (a b : Toks) (ht : isNlTok t = false) (h : NlEq a b) : NlEq (t :: a) (t :: b)
  | run (n n' a b : Toks) (hn : AllNl n) (hn' : AllNl n') (h0 : n ≠ []) (h0' : n' ≠ []) (h : NlEq a b) : NlEq (n ++ a) (n' ++ b)
  | brace (n n' a b : Toks) (hn : AllNl n) (hn' : AllNl n') (h : NlEq a b) : NlEq (.chr c%'{' :: (n ++ a)) (.chr c%'{' :: (n' ++ b))

theorem NlEq.refl : ∀ (a : Toks), NlEq a a
  | [] => .nil
  | t :: a => by
    cases h : isNlTok t with
    | false => exact .tok t a a h (NlEq.refl a)
    | true => exact .run [t] [t] a a (by simpa [AllNl] using h) (by simpa [AllNl] using h) (by simp) (by simp) (NlEq.refl a)

theorem NlEq.prepend {b b' : Toks} (a : Toks) (h : NlEq b b') : NlEq (a ++ b) (a ++ b') := by
  induction a with
  | nil => exact h
  | cons t a ih =>
    cases ht : isNlTok t with
    | false => exact .tok t _ _ ht ih
    | true => exact .run [t] [t] _ _ (by simpa [AllNl] using ht) (by simpa [AllNl] using ht) (by simp) (by simp) ih

/-- neither newlines nor `{` -/
def Plain (o : Toks) : Prop := ∀ t ∈ o, isNlTok t = false ∧ t ≠ .chr c%'{'

theorem nlEq_tok {t : Tok} {a c : Toks} (h : NlEq (t :: a) c) (ht : isNlTok t = false) (hb : t ≠ .chr c%'{') : ∃ c', c = t :: c' ∧ NlEq a c' := by
  generalize e : t :: a = x at h
  cases h with
  | nil => cases e
  | tok t' a' b _ h => cases e; exact ⟨b, rfl, h⟩
  | run n n' a' b hn _ h0 _ h =>
    cases n with
    | nil => exact absurd rfl h0
    | cons t' n =>
      simp only [List.cons_append, List.cons.injEq] at e
      have := hn t' (by simp)
      rw [← e.1, ht] at this
      cases this
  | brace n n' a' b _ _ h => simp only [List.cons.injEq] at e; exact absurd e.1 hb

theorem nlEq_plain {o : Toks} (ho : Plain o) : ∀ {ts c : Toks}, NlEq (o ++ ts) c → ∃ c', c = o ++ c' ∧ NlEq ts c' := by
  induction o with
  | nil => intro ts c h; exact ⟨c, rfl, h⟩
  | cons t o ih =>
    intro ts c h
    obtain ⟨c1, rfl, h1⟩ := nlEq_tok h (ho t (by simp)).1 (ho t (by simp)).2
    obtain ⟨c2, rfl, h2⟩ := ih (fun x hx => ho x (by simp [hx])) h1
    exact ⟨c2, rfl, h2⟩

/-- a run of newlines at the start of another sequence -/
theorem run_prefix {m n a ts : Toks} (e : m ++ a = n ++ ts) (hm : AllNl m) (hts : NotNl ts) : ∃ n2, n = m ++ n2 ∧ a = n2 ++ ts := by
  rcases List.append_eq_append_iff.1 e with ⟨x, h1, h2⟩ | ⟨x, h1, h2⟩
  · exact ⟨x, h1, h2⟩
  · cases x with
    | nil => exact ⟨[], by simpa using h1.symm, by simpa using h2.symm⟩
    | cons t x =>
      have h3 := hts t (x ++ a) (by simpa using h2)
      have h4 := hm t (by rw [h1]; simp)
      rw [h3] at h4; cases h4

theorem nlEq_run : ∀ (k : Nat) {n ts c : Toks}, n.length ≤ k → AllNl n → NotNl ts → NlEq (n ++ ts) c →
    ∃ n' c', c = n' ++ c' ∧ AllNl n' ∧ (n ≠ [] → n' ≠ []) ∧ NlEq ts c' := by
  intro k
  induction k with
  | zero =>
    intro n ts c hk hn hts h
    have : n = [] := List.length_eq_zero_iff.1 (by omega)
    subst this
    exact ⟨[], c, rfl, by simp [AllNl], by simp, h⟩
  | succ k ih =>
    intro n ts c hk hn hts h
    cases n with
    | nil => exact ⟨[], c, rfl, by simp [AllNl], by simp, h⟩
    | cons t n =>
      have ht : isNlTok t = true := hn t (by simp)
      generalize e : t :: n ++ ts = x at h
      cases h with
      | nil => cases e
      | tok t' a b h' h =>
        simp only [List.cons_append, List.cons.injEq] at e
        rw [e.1, h'] at ht; cases ht
      | run m m' a b hm hm' h0 h0' h =>
        obtain ⟨n2, e1, e2⟩ := run_prefix e.symm hm hts
        subst e2
        have hl : n2.length ≤ k := by
          have := congrArg List.length e1
          have : 0 < m.length := List.length_pos_iff.2 h0
          simp only [List.length_append, List.length_cons] at *
          omega
        obtain ⟨n', c', h1, h2, _, h4⟩ := ih hl (fun x hx => hn x (by rw [e1]; simp [hx])) hts h
        refine ⟨m' ++ n', c', by rw [h1]; simp, ?_, ?_, h4⟩
        · intro x hx
          rcases List.mem_append.1 hx with hx | hx
          · exact hm' x hx
          · exact h2 x hx
        · intro _ h; exact h0' (List.append_eq_nil_iff.1 h).1
      | brace m m' a b _ _ h =>
        simp only [List.cons_append, List.cons.injEq] at e
        rw [e.1] at ht; cases ht

theorem nlEq_brace {n ts c : Toks} (hn : AllNl n) (hts : NotNl ts) (h : NlEq (.chr c%'{' :: (n ++ ts)) c) :
    ∃ n' c', c = .chr c%'{' :: (n' ++ c') ∧ AllNl n' ∧ NlEq ts c' := by
  generalize e : Tok.chr c%'{' :: (n ++ ts) = x at h
  cases h with
  | nil => cases e
  | tok t' a b _ h =>
    cases e
    obtain ⟨n', c', h1, h2, _, h3⟩ := nlEq_run _ (Nat.le_refl _) hn hts h
    exact ⟨n', c', by rw [h1], h2, h3⟩
  | run m m' a b hm hm' h0 h0' h =>
    cases m with
    | nil => exact absurd rfl h0
    | cons t' m =>
      simp only [List.cons_append, List.cons.injEq] at e
      have := hm t' (by simp)
      rw [← e.1] at this
      cases this
  | brace m m' a b hm hm' h =>
    simp only [List.cons.injEq, true_and] at e
    obtain ⟨n2, e1, rfl⟩ := run_prefix e.symm hm hts
    obtain ⟨n', c', h1, h2, _, h4⟩ := nlEq_run _ (Nat.le_refl _) (fun x hx => hn x (by rw [e1]; simp [hx])) hts h
    refine ⟨m' ++ n', c', by rw [h1]; simp, ?_, h4⟩
    intro x hx
    rcases List.mem_append.1 hx with hx | hx
    · exact hm' x hx
    · exact h2 x hx

/-- however the newlines are changed, it is still there -/
def Stable {V : Type} (P : Toks → V → Prop) : Prop :=
  ∀ o v ts c, P o v → NlEq (o ++ ts) c → ∃ o' c', c = o' ++ c' ∧ P o' v ∧ NlEq ts c'

theorem stable_plain {V : Type} {P : Toks → V → Prop} (h : ∀ o v, P o v → Plain o) : Stable P := by
  intro o v ts c ho hc
  obtain ⟨c', h1, h2⟩ := nlEq_plain (h o v ho) hc
  exact ⟨o, c', h1, ho, h2⟩

theorem stable_one {V : Type} {G : Toks → V → Prop} (h : Stable G) : Stable (One G) := by
  intro o v ts c ⟨d, ho, e⟩ hc
  obtain ⟨o', c', h1, h2, h3⟩ := h o d ts c ho hc
  exact ⟨o', c', h1, ⟨d, h2, e⟩, h3⟩

theorem notNl_body {V : Type} {P : Toks → List V → Prop} {N : Toks → Prop} (hs : ∀ o v r, P o v → NotNl (o ++ r)) {ts : Toks} {vs : List V}
    (h : Body P N ts vs) {r : Toks} (hr : NotNl r) : NotNl (ts ++ r) := by
  cases h with
  | nil => exact hr
  | cons o n ts v vs ho _ _ =>
    have := hs o v (n ++ (ts ++ r)) ho
    simpa [List.append_assoc] using this

theorem stable_body {V : Type} {P : Toks → List V → Prop} {N : Toks → Prop} (hN : ∀ n, N n → AllNl n) (hN' : ∀ n n', N n → AllNl n' → (n ≠ [] → n' ≠ []) → N n')
    (hP : Stable P) (hs : ∀ o v r, P o v → NotNl (o ++ r)) {ts : Toks} {vs : List V} (h : Body P N ts vs) :
    ∀ {r c : Toks}, NotNl r → NlEq (ts ++ r) c → ∃ ts' c', c = ts' ++ c' ∧ Body P N ts' vs ∧ NlEq r c' := by
  induction h with
  | nil => intro r c _ h; exact ⟨[], c, rfl, .nil, h⟩
  | cons o n ts v vs ho hn hb ih =>
    intro r c hr h
    rw [List.append_assoc, List.append_assoc] at h
    obtain ⟨o', c1, rfl, ho', h1⟩ := hP _ _ _ _ ho h
    obtain ⟨n', c2, rfl, h2, h3, h4⟩ := nlEq_run _ (Nat.le_refl _) (hN _ hn) (notNl_body hs hb hr) h1
    obtain ⟨ts', c3, rfl, h5, h6⟩ := ih hr h4
    exact ⟨o' ++ n' ++ ts', c3, by simp, .cons _ _ _ _ _ ho' (hN' _ _ hn h2 h3) h5, h6⟩

theorem optnl_ok (n n' : Toks) (_ : GOptnl n) (h : AllNl n') (_ : n ≠ [] → n' ≠ []) : GOptnl n' := all_goptnl n' h
theorem nl_ok (n n' : Toks) (hn : GNl n) (h : AllNl n') (h0 : n ≠ [] → n' ≠ []) : GNl n' := all_gnl n' (h0 (gnl_all hn).1) h

theorem notNl_chr (c : UInt8) (hc : isNlTok (.chr c) = false) (r : Toks) : NotNl (.chr c :: r) := by
  intro t r' e; cases e; exact hc

/-- a block of options -/
theorem stable_block {V : Type} {P : Toks → List V → Prop} {N : Toks → Prop} (hN : ∀ n, N n → AllNl n)
    (hN' : ∀ n n', N n → AllNl n' → (n ≠ [] → n' ≠ []) → N n') (hP : Stable P) (hs : ∀ o v r, P o v → NotNl (o ++ r)) {n b : Toks} {vs : List V}
    (hn : GOptnl n) (hb : Body P N b vs) {r c : Toks} (h : NlEq (.chr c%'{' :: (n ++ (b ++ .chr c%'}' :: r))) c) :
    ∃ n' b' c', c = .chr c%'{' :: (n' ++ (b' ++ .chr c%'}' :: c')) ∧ GOptnl n' ∧ Body P N b' vs ∧ NlEq r c' := by
  obtain ⟨n', c1, rfl, h1, h2⟩ := nlEq_brace (goptnl_all hn) (notNl_body hs hb (notNl_chr _ (by decide) _)) h
  obtain ⟨b', c2, rfl, h3, h4⟩ := stable_body hN hN' hP hs hb (notNl_chr _ (by decide) _) h2
  obtain ⟨c3, rfl, h5⟩ := nlEq_tok h4 (by decide) (by decide)
  exact ⟨n', b', c3, rfl, all_goptnl n' h1, h3, h5⟩

/-! ## The nonterminals -/

theorem plain_nil : Plain [] := by simp [Plain]
theorem plain_cons {t : Tok} {o : Toks} (h1 : isNlTok t = false) (h2 : t ≠ .chr c%'{') (h : Plain o) : Plain (t :: o) := by
  intro x hx
  rcases List.mem_cons.1 hx with rfl | hx
  · exact ⟨h1, h2⟩
  · exact h x hx
theorem plain_append {a b : Toks} (h1 : Plain a) (h2 : Plain b) : Plain (a ++ b) := by
  intro x hx
  rcases List.mem_append.1 hx with hx | hx
  · exact h1 x hx
  · exact h2 x hx
theorem plain_kw {k : Bytes} {o : Toks} (h : Plain o) : Plain (.kw k :: o) := plain_cons rfl (by simp) h
theorem plain_str {k : Bytes} {o : Toks} (h : Plain o) : Plain (.str k :: o) := plain_cons rfl (by simp) h
theorem plain_num {k : Int} {o : Toks} (h : Plain o) : Plain (.num k :: o) := plain_cons rfl (by simp) h
theorem plain_eq {o : Toks} (h : Plain o) : Plain (.chr c%'=' :: o) := plain_cons (by decide) (by decide) h
theorem plain_star {o : Toks} (h : Plain o) : Plain (.chr c%'*' :: o) := plain_cons (by decide) (by decide) h

theorem plain_gstring {o : Toks} {s : Bytes} (h : GString o s) : Plain o := by
  induction h with
  | more ts a b _ ih => exact plain_append ih (plain_str plain_nil)
  | one a => exact plain_str plain_nil

theorem plain_bool {o : Toks} {b : Bool} (h : GBool o b) : Plain o := by cases h <;> exact plain_kw plain_nil

theorem plain_logopt {o : Toks} {d : Directive} (h : GLogopt o d) : Plain o := by
  cases h with
  | access ts s h => exact plain_kw (plain_gstring h)
  | style ts s h => exact plain_kw (plain_gstring h)
  | facility ts s h => exact plain_kw (plain_kw (plain_gstring h))
  | syslogOff => exact plain_kw (plain_kw plain_nil)
  | syslog => exact plain_kw plain_nil

theorem plain_fcgiopt {o : Toks} {d : LocOpt} (h : GFastcgiopt o d) : Plain o := by
  cases h with
  | param t u n v h h' => exact plain_append (plain_kw (plain_gstring h)) (plain_eq (plain_gstring h'))
  | socket t s h => exact plain_kw (plain_gstring h)
  | tcpNum t s n h => exact plain_append (plain_kw (plain_kw (plain_gstring h))) (plain_kw (plain_num plain_nil))
  | tcp t s h => exact plain_kw (plain_kw (plain_gstring h))
  | tcpStr t u s p h h' => exact plain_append (plain_kw (plain_kw (plain_gstring h))) (plain_kw (plain_gstring h'))
  | strip n => exact plain_kw (plain_num plain_nil)

theorem plain_port {o : Toks} {p : PortArg} (h : GProxyPort o p) : Plain o := by
  cases h with
  | empty => exact plain_nil
  | str s => exact plain_kw (plain_str plain_nil)
  | num n => exact plain_kw (plain_num plain_nil)

theorem plain_proxyMatch {o : Toks} {d : ProxyMatch} (h : GProxyMatch o d) : Plain o := by
  cases h with
  | proto t s h => exact plain_kw (plain_gstring h)
  | forHost t u s p h hp => exact plain_append (plain_kw (plain_gstring h)) (plain_port hp)

theorem plain_proxyMatches {o : Toks} {d : List ProxyMatch} (h : GProxyMatches o d) : Plain o := by
  induction h with
  | empty => exact plain_nil
  | more ts o ms m _ ho ih => exact plain_append ih (plain_proxyMatch ho)

theorem plain_proxyOpt {o : Toks} {d : ProxyOpt} (h : GProxyOpt o d) : Plain o := by
  cases h with
  | relayTo t u s p h hp => exact plain_append (plain_kw (plain_gstring h)) (plain_port hp)
  | requireCa t s h => exact plain_kw (plain_kw (plain_kw (plain_gstring h)))
  | proxyV1 => exact plain_kw plain_nil
  | useTls t b h => exact plain_kw (plain_bool h)
  | verifyName t b h => exact plain_kw (plain_bool h)
  | cert t s h => exact plain_kw (plain_gstring h)
  | key t s h => exact plain_kw (plain_gstring h)
  | protocols t s h => exact plain_kw (plain_gstring h)
  | sni t s h => exact plain_kw (plain_gstring h)

theorem plain_numStr {o : Toks} {s : Bytes} (h : GNumStr o s) : Plain o := by
  cases h with
  | num n => exact plain_num plain_nil
  | str s => exact plain_str plain_nil

theorem plain_names {o : Toks} {ns : List Bytes} (h : GMedianames o ns) : Plain o := by
  induction h with
  | more ts o ns s _ ho ih => exact plain_append ih (plain_numStr ho)
  | one o s h => exact plain_numStr h

theorem plain_media {o : Toks} {m : Media} (h : GMediaoptsl o m) : Plain o := by
  cases h with
  | names s ts ns h => exact plain_str (plain_names h)
  | incl ts s h => cases h; exact plain_kw (plain_str plain_nil)

theorem plain_addr {o : Toks} {m : Option Bytes} (h : GListenAddr o m) : Plain o := by
  cases h with
  | any => exact plain_star plain_nil
  | str s => exact plain_str plain_nil

theorem stable_log : Stable GLog := by
  intro o v ts c h hc
  cases h with
  | block n b ds hn h =>
    have e : [Tok.kw b%"LOG", .chr c%'{'] ++ n ++ b ++ [.chr c%'}'] ++ ts = [Tok.kw b%"LOG"] ++ .chr c%'{' :: (n ++ (b ++ .chr c%'}' :: ts)) := by simp
    rw [e] at hc
    obtain ⟨c1, rfl, h1⟩ := nlEq_plain (plain_kw plain_nil) hc
    obtain ⟨n', b', c', rfl, h2, h3, h4⟩ := stable_block (fun n h => goptnl_all h) optnl_ok (stable_one (stable_plain (fun _ _ => plain_logopt)))
      (fun o v r ⟨d, h, _⟩ => ((logopt_start h).rest 0 r).1) hn (glogopts_body h) h1
    exact ⟨[.kw b%"LOG", .chr c%'{'] ++ n' ++ b' ++ [.chr c%'}'], c', by simp, .block _ _ _ h2 (body_logopts h3 [] [] .empty), h4⟩
  | one o d h =>
    obtain ⟨c', rfl, h'⟩ := nlEq_plain (plain_kw (plain_logopt h)) hc
    exact ⟨_, c', rfl, .one _ _ h, h'⟩

theorem stable_fastcgi : Stable GFastcgi := by
  intro o v ts c h hc
  cases h with
  | block n b ds hn h =>
    have e : [Tok.kw b%"FASTCGI", .chr c%'{'] ++ n ++ b ++ [.chr c%'}'] ++ ts = [Tok.kw b%"FASTCGI"] ++ .chr c%'{' :: (n ++ (b ++ .chr c%'}' :: ts)) := by simp
    rw [e] at hc
    obtain ⟨c1, rfl, h1⟩ := nlEq_plain (plain_kw plain_nil) hc
    obtain ⟨n', b', c', rfl, h2, h3, h4⟩ := stable_block (fun n h => goptnl_all h) optnl_ok (stable_one (stable_plain (fun _ _ => plain_fcgiopt)))
      (fun o v r ⟨d, h, _⟩ => ((fcgiopt_start h).rest 0 r).1) hn (gfcgiopts_body h) h1
    exact ⟨[.kw b%"FASTCGI", .chr c%'{'] ++ n' ++ b' ++ [.chr c%'}'], c', by simp, .block _ _ _ h2 (body_fcgiopts h3 [] [] .empty), h4⟩
  | one o d h =>
    obtain ⟨c', rfl, h'⟩ := nlEq_plain (plain_kw (plain_fcgiopt h)) hc
    exact ⟨_, c', rfl, .one _ _ h, h'⟩
  | off =>
    obtain ⟨c', rfl, h'⟩ := nlEq_plain (plain_kw (plain_kw plain_nil)) hc
    exact ⟨_, c', rfl, .off, h'⟩
  | path o d h =>
    obtain ⟨c', rfl, h'⟩ := nlEq_plain (plain_kw (plain_gstring h)) hc
    exact ⟨_, c', rfl, .path _ _ h, h'⟩

theorem stable_locopt : Stable GLocopt := by
  intro o v ts c h hc
  cases h with
  | fastcgi =>
    rename_i h
    obtain ⟨o', c', h1, h2, h3⟩ := stable_fastcgi _ _ _ _ h hc
    exact ⟨o', c', h1, .fastcgi _ _ h2, h3⟩
  | autoIndex ts b h =>
    obtain ⟨c', rfl, h'⟩ := nlEq_plain (plain_kw (plain_kw (plain_bool h))) hc
    exact ⟨_, c', rfl, .autoIndex _ _ h, h'⟩
  | blockText n ts s h =>
    obtain ⟨c', rfl, h'⟩ := nlEq_plain (plain_kw (plain_kw (plain_num (plain_gstring h)))) hc
    exact ⟨_, c', rfl, .blockText _ _ _ h, h'⟩
  | blockCode n =>
    obtain ⟨c', rfl, h'⟩ := nlEq_plain (plain_kw (plain_kw (plain_num plain_nil))) hc
    exact ⟨_, c', rfl, .blockCode _, h'⟩
  | block =>
    obtain ⟨c', rfl, h'⟩ := nlEq_plain (plain_kw plain_nil) hc
    exact ⟨_, c', rfl, .block, h'⟩
  | defaultType ts s h =>
    obtain ⟨c', rfl, h'⟩ := nlEq_plain (plain_kw (plain_kw (plain_gstring h))) hc
    exact ⟨_, c', rfl, .defaultType _ _ h, h'⟩
  | index ts s h =>
    obtain ⟨c', rfl, h'⟩ := nlEq_plain (plain_kw (plain_gstring h)) hc
    exact ⟨_, c', rfl, .index _ _ h, h'⟩
  | lang ts s h =>
    obtain ⟨c', rfl, h'⟩ := nlEq_plain (plain_kw (plain_gstring h)) hc
    exact ⟨_, c', rfl, .lang _ _ h, h'⟩
  | log ts b h =>
    obtain ⟨c', rfl, h'⟩ := nlEq_plain (plain_kw (plain_bool h)) hc
    exact ⟨_, c', rfl, .log _ _ h, h'⟩
  | requireCa ts s h =>
    obtain ⟨c', rfl, h'⟩ := nlEq_plain (plain_kw (plain_kw (plain_kw (plain_gstring h)))) hc
    exact ⟨_, c', rfl, .requireCa _ _ h, h'⟩
  | root ts s h =>
    obtain ⟨c', rfl, h'⟩ := nlEq_plain (plain_kw (plain_gstring h)) hc
    exact ⟨_, c', rfl, .root _ _ h, h'⟩
  | strip n =>
    obtain ⟨c', rfl, h'⟩ := nlEq_plain (plain_kw (plain_num plain_nil)) hc
    exact ⟨_, c', rfl, .strip _, h'⟩

theorem stable_location : Stable GLocation := by
  intro o v ts c h hc
  cases h with
  | mk t n b s ds hs hn h =>
    have e : Tok.kw b%"LOCATION" :: t ++ [.chr c%'{'] ++ n ++ b ++ [.chr c%'}'] ++ ts = (Tok.kw b%"LOCATION" :: t) ++ .chr c%'{' :: (n ++ (b ++ .chr c%'}' :: ts)) := by
      simp
    rw [e] at hc
    obtain ⟨c1, rfl, h1⟩ := nlEq_plain (plain_kw (plain_gstring hs)) hc
    obtain ⟨n', b', c', rfl, h2, h3, h4⟩ := stable_block (fun n h => goptnl_all h) optnl_ok stable_locopt
      (fun o v r h => ((locopt_start h).rest 0 r).1) hn (glocopts_body h) h1
    exact ⟨.kw b%"LOCATION" :: t ++ [.chr c%'{'] ++ n' ++ b' ++ [.chr c%'}'], c', by simp, .mk _ _ _ _ _ hs h2 (body_locopts h3 [] [] .empty), h4⟩

theorem stable_proxy : Stable GProxy := by
  intro o v ts c h hc
  cases h with
  | mk t n b s ds hs hn h =>
    have e : Tok.kw b%"PROXY" :: t ++ [.chr c%'{'] ++ n ++ b ++ [.chr c%'}'] ++ ts = (Tok.kw b%"PROXY" :: t) ++ .chr c%'{' :: (n ++ (b ++ .chr c%'}' :: ts)) := by
      simp
    rw [e] at hc
    obtain ⟨c1, rfl, h1⟩ := nlEq_plain (plain_kw (plain_proxyMatches hs)) hc
    obtain ⟨n', b', c', rfl, h2, h3, h4⟩ := stable_block (fun n h => goptnl_all h) optnl_ok (stable_one (stable_plain (fun _ _ => plain_proxyOpt)))
      (fun o v r ⟨d, h, _⟩ => ((proxyOpt_start h).rest 0 r).1) hn (gproxyOpts_body h) h1
    exact ⟨.kw b%"PROXY" :: t ++ [.chr c%'{'] ++ n' ++ b' ++ [.chr c%'}'], c', by simp, .mk _ _ _ _ _ hs h2 (body_proxyOpts h3 [] [] .empty), h4⟩

theorem plain_servopt {o : Toks} {v : List SrvOpt} (h : GServopt o v) : Plain o ∨ ∃ ds, GLocopt o ds ∧ v = ds.map .opt := by
  cases h with
  | locopt => rename_i h; exact .inr ⟨_, h, rfl⟩
  | alias t s h => exact .inl (plain_kw (plain_gstring h))
  | cert t s h => exact .inl (plain_kw (plain_gstring h))
  | cgi t s h => exact .inl (plain_kw (plain_gstring h))
  | key t s h => exact .inl (plain_kw (plain_gstring h))
  | ocsp t s h => exact .inl (plain_kw (plain_gstring h))
  | param t u n v h h' => exact .inl (plain_append (plain_kw (plain_gstring h)) (plain_eq (plain_gstring h')))
  | listen t a h => exact .inl (plain_kw (plain_kw (plain_addr h)))
  | listenStr t a s h => exact .inl (plain_append (plain_kw (plain_kw (plain_addr h))) (plain_kw (plain_str plain_nil)))
  | listenNum t a s h => exact .inl (plain_append (plain_kw (plain_kw (plain_addr h))) (plain_kw (plain_num plain_nil)))
  | listenV1 t a h => exact .inl (plain_append (plain_kw (plain_kw (plain_addr h))) (plain_kw plain_nil))
  | listenStrV1 t a s h => exact .inl (plain_append (plain_kw (plain_kw (plain_addr h))) (plain_kw (plain_str (plain_kw plain_nil))))
  | listenNumV1 t a s h => exact .inl (plain_append (plain_kw (plain_kw (plain_addr h))) (plain_kw (plain_num (plain_kw plain_nil))))

theorem stable_servopt : Stable GServopt := by
  intro o v ts c h hc
  rcases plain_servopt h with hp | ⟨ds, hl, rfl⟩
  · obtain ⟨c', rfl, h'⟩ := nlEq_plain hp hc
    exact ⟨_, c', rfl, h, h'⟩
  · obtain ⟨o', c', h1, h2, h3⟩ := stable_locopt _ _ _ _ hl hc
    exact ⟨o', c', h1, .locopt _ _ h2, h3⟩

theorem stable_serv : Stable GServ := by
  intro o v ts c h hc
  rcases h with h | h | h
  · obtain ⟨o', c', h1, h2, h3⟩ := stable_servopt _ _ _ _ h hc
    exact ⟨o', c', h1, .inl h2, h3⟩
  · obtain ⟨o', c', h1, h2, h3⟩ := stable_one stable_location _ _ _ _ h hc
    exact ⟨o', c', h1, .inr (.inl h2), h3⟩
  · obtain ⟨o', c', h1, h2, h3⟩ := stable_one stable_proxy _ _ _ _ h hc
    exact ⟨o', c', h1, .inr (.inr h2), h3⟩

theorem stable_vhost : Stable GVhost := by
  intro o v ts c h hc
  cases h with
  | mk t n b s ds hs hn h =>
    have e : Tok.kw b%"SERVER" :: t ++ [.chr c%'{'] ++ n ++ b ++ [.chr c%'}'] ++ ts = (Tok.kw b%"SERVER" :: t) ++ .chr c%'{' :: (n ++ (b ++ .chr c%'}' :: ts)) := by
      simp
    rw [e] at hc
    obtain ⟨c1, rfl, h1⟩ := nlEq_plain (plain_kw (plain_gstring hs)) hc
    obtain ⟨n', b', c', rfl, h2, h3, h4⟩ := stable_block (fun n h => goptnl_all h) optnl_ok stable_serv
      (fun o v r h => ((serv_start h).rest 0 r).1) hn (gservbody_body h) h1
    exact ⟨.kw b%"SERVER" :: t ++ [.chr c%'{'] ++ n' ++ b' ++ [.chr c%'}'], c', by simp, .mk _ _ _ _ _ hs h2 (body_servbody h3 [] [] .empty), h4⟩

theorem stable_types : Stable GTypes := by
  intro o v ts c h hc
  cases h with
  | mk n b ms hn h =>
    have e : [Tok.kw b%"TYPES", .chr c%'{'] ++ n ++ b ++ [.chr c%'}'] ++ ts = [Tok.kw b%"TYPES"] ++ .chr c%'{' :: (n ++ (b ++ .chr c%'}' :: ts)) := by simp
    rw [e] at hc
    obtain ⟨hb, hne⟩ := gmediaopts_body h
    obtain ⟨c1, rfl, h1⟩ := nlEq_plain (plain_kw plain_nil) hc
    obtain ⟨n', b', c', rfl, h2, h3, h4⟩ := stable_block (fun n h => (gnl_all h).2) nl_ok (stable_one (stable_plain (fun _ _ => plain_media)))
      (fun o v r ⟨d, h, _⟩ => ((media_start h).rest 0 r).1) hn hb h1
    exact ⟨[.kw b%"TYPES", .chr c%'{'] ++ n' ++ b' ++ [.chr c%'}'], c', by simp, .mk _ _ _ h2 ((body_mediaopts h3).2 hne), h4⟩

theorem stable_item : Stable GItem := by
  intro o v ts c h hc
  cases h with
  | incl s h =>
    cases h
    obtain ⟨c', rfl, h'⟩ := nlEq_plain (plain_kw (plain_str plain_nil)) hc
    exact ⟨_, c', rfl, .incl _ _ (.mk _), h'⟩
  | varset n v h =>
    cases h with
    | mk n t v h =>
      obtain ⟨c', rfl, h'⟩ := nlEq_plain (plain_append (plain_str (plain_eq plain_nil)) (plain_gstring h)) hc
      exact ⟨_, c', rfl, .varset _ _ _ (.mk _ _ _ h), h'⟩
  | option ds h =>
    cases h with
    | log =>
      rename_i h
      obtain ⟨o', c', h1, h2, h3⟩ := stable_log _ _ _ _ h hc
      exact ⟨o', c', h1, .option _ _ (.log _ _ h2), h3⟩
    | chroot t s h =>
      obtain ⟨c', rfl, h'⟩ := nlEq_plain (plain_kw (plain_gstring h)) hc
      exact ⟨_, c', rfl, .option _ _ (.chroot _ _ h), h'⟩
    | ipv6 t s h =>
      obtain ⟨c', rfl, h'⟩ := nlEq_plain (plain_kw (plain_bool h)) hc
      exact ⟨_, c', rfl, .option _ _ (.ipv6 _ _ h), h'⟩
    | port n =>
      obtain ⟨c', rfl, h'⟩ := nlEq_plain (plain_kw (plain_num plain_nil)) hc
      exact ⟨_, c', rfl, .option _ _ (.port _), h'⟩
    | prefork n =>
      obtain ⟨c', rfl, h'⟩ := nlEq_plain (plain_kw (plain_num plain_nil)) hc
      exact ⟨_, c', rfl, .option _ _ (.prefork _), h'⟩
    | protocols t s h =>
      obtain ⟨c', rfl, h'⟩ := nlEq_plain (plain_kw (plain_gstring h)) hc
      exact ⟨_, c', rfl, .option _ _ (.protocols _ _ h), h'⟩
    | user t s h =>
      obtain ⟨c', rfl, h'⟩ := nlEq_plain (plain_kw (plain_gstring h)) hc
      exact ⟨_, c', rfl, .option _ _ (.user _ _ h), h'⟩
  | vhost d h =>
    obtain ⟨o', c', h1, h2, h3⟩ := stable_vhost _ _ _ _ h hc
    exact ⟨o', c', h1, .vhost _ _ h2, h3⟩
  | types ms h =>
    obtain ⟨o', c', h1, h2, h3⟩ := stable_types _ _ _ _ h hc
    exact ⟨o', c', h1, .types _ _ h2, h3⟩

theorem nlEq_nil {c : Toks} (h : NlEq [] c) : c = [] := by
  generalize e : ([] : Toks) = x at h
  cases h with
  | nil => rfl
  | tok => cases e
  | run n n' a b _ _ h0 => exact absurd (List.append_eq_nil_iff.1 e.symm).1 h0
  | brace => cases e

theorem grammar_layout {ts c : Toks} {is : List Item} (h : Grammar ts is) (hc : NlEq ts c) : Grammar c is := by
  obtain ⟨n, b, rfl, hn, h⟩ := grammar_parts h
  have hb := gconf_body h
  have hs : ∀ o v r, One GItem o v → NotNl (o ++ r) := fun o v r ⟨d, h, _⟩ => ((item_start h).rest 0 r).1
  have h0 : NotNl b := by
    have := notNl_body hs hb (r := []) (by intro t r' e; cases e)
    simpa using this
  obtain ⟨n', c1, rfl, h1, _, h2⟩ := nlEq_run _ (Nat.le_refl _) (goptnl_all hn) h0 hc
  obtain ⟨b', c2, rfl, h3, h4⟩ := stable_body (fun n h => (gnl_all h).2) nl_ok (stable_one stable_item) hs hb (r := []) (by intro t r' e; cases e)
    (by simpa using h2)
  have := nlEq_nil h4
  subst this
  have hg := body_conf h3 [] [] .empty
  simp only [List.append_nil]
  cases n' with
  | nil => exact .conf _ _ (by simpa using hg)
  | cons t n => exact .nl _ _ _ (all_gnl _ (by simp) h1) (by simpa using hg)

end Gmid
