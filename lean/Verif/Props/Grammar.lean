import Verif.Lemmas.GrammarLayout

/-!
# C92, C93: a configuration has one meaning, and its layout does not matter
-/

set_option autoImplicit false

namespace Gmid.Props

/-! ## C92 -/

/-- **C92.** The grammar derives a sequence of tokens in one way only, as far as what it means goes: there are no two readings of a
configuration, and so none depends on how the parser was generated. -/
theorem C92_one_meaning (ts : Toks) (a b : List Item) (ha : Grammar ts a) (hb : Grammar ts b) : a = b := grammar_unique ha hb

/-- a `types` block that can be written: it has a line, and each line has a name -/
def TypesOk : Directive → Prop
  | .types l => l ≠ [] ∧ ∀ x ∈ l, x.2 ≠ []
  | _ => True

theorem locOpt_written (o : LocOpt) : ∃ ts, GLocopt ts [o] := by
  cases o with
  | autoIndex b => cases b; exact ⟨_, .autoIndex _ _ .off⟩; exact ⟨_, .autoIndex _ _ .on⟩
  | blockReturn n t => cases t with
    | none => exact ⟨_, .blockCode n⟩
    | some s => exact ⟨_, .blockText n _ s (.one s)⟩
  | block => exact ⟨_, .block⟩
  | defaultType s => exact ⟨_, .defaultType _ _ (.one s)⟩
  | fcgiOff => exact ⟨_, .fastcgi _ _ .off⟩
  | fcgiParam n v => exact ⟨_, .fastcgi _ _ (.one _ _ (.param _ _ _ _ (.one n) (.one v)))⟩
  | fcgiSocket s p => cases p with
    | none => exact ⟨_, .fastcgi _ _ (.path _ _ (.one s))⟩
    | some p => exact ⟨_, .fastcgi _ _ (.one _ _ (.tcpStr _ _ _ _ (.one s) (.one p)))⟩
  | fcgiStrip n => exact ⟨_, .fastcgi _ _ (.one _ _ (.strip n))⟩
  | index s => exact ⟨_, .index _ _ (.one s)⟩
  | lang s => exact ⟨_, .lang _ _ (.one s)⟩
  | log b => cases b; exact ⟨_, .log _ _ .off⟩; exact ⟨_, .log _ _ .on⟩
  | requireCa s => exact ⟨_, .requireCa _ _ (.one s)⟩
  | root s => exact ⟨_, .root _ _ (.one s)⟩
  | strip n => exact ⟨_, .strip n⟩

theorem locOpts_written (os : List LocOpt) : ∃ ts, GLocopts ts os := by
  have : ∃ ts, Body GLocopt GOptnl ts os := by
    induction os with
    | nil => exact ⟨_, .nil⟩
    | cons o os ih =>
      obtain ⟨t, h⟩ := ih
      obtain ⟨o', h'⟩ := locOpt_written o
      exact ⟨_, .cons _ _ _ _ _ h' .empty h⟩
  obtain ⟨ts, h⟩ := this
  exact ⟨_, by simpa using body_locopts h [] [] .empty⟩

theorem port_written (p : PortArg) : ∃ ts, GProxyPort ts p := by
  cases p with
  | none => exact ⟨_, .empty⟩
  | name s => exact ⟨_, .str s⟩
  | num n => exact ⟨_, .num n⟩

theorem proxyMatches_written (os : List ProxyMatch) : ∃ ts, GProxyMatches ts os := by
  have : ∃ ts, Body (One GProxyMatch) (fun n => n = []) ts os := by
    induction os with
    | nil => exact ⟨_, .nil⟩
    | cons o os ih =>
      obtain ⟨t, h⟩ := ih
      have : ∃ o', GProxyMatch o' o := by
        cases o with
        | proto s => exact ⟨_, .proto _ _ (.one s)⟩
        | forHost s p => obtain ⟨u, hu⟩ := port_written p; exact ⟨_, .forHost _ _ _ _ (.one s) hu⟩
      obtain ⟨o', h'⟩ := this
      exact ⟨_, .cons _ _ _ [o] _ ⟨o, h', rfl⟩ rfl h⟩
  obtain ⟨ts, h⟩ := this
  exact ⟨_, by simpa using body_proxyMatches h [] [] .empty⟩

theorem bool_written (b : Bool) : ∃ ts, GBool ts b := by
  cases b
  · exact ⟨_, .off⟩
  · exact ⟨_, .on⟩

theorem proxyOpts_written (os : List ProxyOpt) : ∃ ts, GProxyOpts ts os := by
  have : ∃ ts, Body (One GProxyOpt) GOptnl ts os := by
    induction os with
    | nil => exact ⟨_, .nil⟩
    | cons o os ih =>
      obtain ⟨t, h⟩ := ih
      have : ∃ o', GProxyOpt o' o := by
        cases o with
        | cert s => exact ⟨_, .cert _ _ (.one s)⟩
        | key s => exact ⟨_, .key _ _ (.one s)⟩
        | protocols s => exact ⟨_, .protocols _ _ (.one s)⟩
        | proxyV1 => exact ⟨_, .proxyV1⟩
        | relayTo s p => obtain ⟨u, hu⟩ := port_written p; exact ⟨_, .relayTo _ _ _ _ (.one s) hu⟩
        | requireCa s => exact ⟨_, .requireCa _ _ (.one s)⟩
        | sni s => exact ⟨_, .sni _ _ (.one s)⟩
        | useTls b => obtain ⟨u, hu⟩ := bool_written b; exact ⟨_, .useTls _ _ hu⟩
        | verifyName b => obtain ⟨u, hu⟩ := bool_written b; exact ⟨_, .verifyName _ _ hu⟩
      obtain ⟨o', h'⟩ := this
      exact ⟨_, .cons _ _ _ [o] _ ⟨o, h', rfl⟩ .empty h⟩
  obtain ⟨ts, h⟩ := this
  exact ⟨_, by simpa using body_proxyOpts h [] [] .empty⟩

theorem addr_written (a : Option Bytes) : ∃ ts, GListenAddr ts a := by
  cases a with
  | none => exact ⟨_, .any⟩
  | some s => exact ⟨_, .str s⟩

theorem servbody_written (os : List SrvOpt) : ∃ ts, GServbody ts os := by
  have : ∃ ts, Body GServ GOptnl ts os := by
    induction os with
    | nil => exact ⟨_, .nil⟩
    | cons o os ih =>
      obtain ⟨t, h⟩ := ih
      have : ∃ o', GServ o' [o] := by
        cases o with
        | alias s => exact ⟨_, .inl (.alias _ _ (.one s))⟩
        | cert s => exact ⟨_, .inl (.cert _ _ (.one s))⟩
        | cgi s => exact ⟨_, .inl (.cgi _ _ (.one s))⟩
        | key s => exact ⟨_, .inl (.key _ _ (.one s))⟩
        | ocsp s => exact ⟨_, .inl (.ocsp _ _ (.one s))⟩
        | listen a p v =>
          obtain ⟨u, hu⟩ := addr_written a
          cases v
          · exact ⟨_, .inl (.listenStr _ _ p hu)⟩
          · exact ⟨_, .inl (.listenStrV1 _ _ p hu)⟩
        | opt o => obtain ⟨u, hu⟩ := locOpt_written o; exact ⟨_, .inl (.locopt _ _ hu)⟩
        | location p os => obtain ⟨u, hu⟩ := locOpts_written os; exact ⟨_, .inr (.inl ⟨_, .mk _ _ _ _ _ (.one p) .empty hu, rfl⟩)⟩
        | proxy ms os =>
          obtain ⟨u, hu⟩ := proxyMatches_written ms
          obtain ⟨w, hw⟩ := proxyOpts_written os
          exact ⟨_, .inr (.inr ⟨_, .mk _ _ _ _ _ hu .empty hw, rfl⟩)⟩
      obtain ⟨o', h'⟩ := this
      exact ⟨_, .cons _ _ _ [o] _ h' .empty h⟩
  obtain ⟨ts, h⟩ := this
  exact ⟨_, by simpa using body_servbody h [] [] .empty⟩

theorem gnl_newline : GNl [.chr 10] := .newline _ .empty

theorem names_written : ∀ (ns : List Bytes), ns ≠ [] → ∃ ts, GMedianames ts ns := by
  intro ns h
  cases ns with
  | nil => exact absurd rfl h
  | cons n ns =>
    have : ∀ (ns : List Bytes) (o : Toks) (a : List Bytes), GMedianames o a → ∃ ts, GMedianames ts (a ++ ns) := by
      intro ns
      induction ns with
      | nil => intro o a h; exact ⟨o, by simpa using h⟩
      | cons m ns ih =>
        intro o a h
        obtain ⟨t, ht⟩ := ih _ _ (.more _ _ _ _ h (.str m))
        exact ⟨t, by simpa using ht⟩
    exact this ns _ [n] (.one _ _ (.str n))

theorem types_written (l : List (Bytes × List Bytes)) (h0 : l ≠ []) (h : ∀ x ∈ l, x.2 ≠ []) :
    ∃ ts, GTypes ts (l.map fun x => Media.names x.1 x.2) := by
  have : ∃ ts, Body (One GMediaoptsl) GNl ts (l.map fun x => Media.names x.1 x.2) := by
    clear h0
    induction l with
    | nil => exact ⟨_, .nil⟩
    | cons x l ih =>
      obtain ⟨t, ht⟩ := ih (fun y hy => h y (by simp [hy]))
      obtain ⟨u, hu⟩ := names_written x.2 (h x (by simp))
      exact ⟨_, .cons _ _ _ [_] _ ⟨_, .names x.1 _ _ hu, rfl⟩ gnl_newline ht⟩
  obtain ⟨ts, hb⟩ := this
  exact ⟨_, .mk [] _ _ .empty ((body_mediaopts hb).2 (by simpa using h0))⟩

theorem directive_written (d : Directive) (h : TypesOk d) : ∃ ts i, GItem ts i ∧ i.directives = [d] := by
  cases d with
  | chroot s => exact ⟨_, _, .option _ _ (.chroot _ _ (.one s)), rfl⟩
  | ipv6 b => obtain ⟨u, hu⟩ := bool_written b; exact ⟨_, _, .option _ _ (.ipv6 _ _ hu), rfl⟩
  | port n => exact ⟨_, _, .option _ _ (.port n), rfl⟩
  | prefork n => exact ⟨_, _, .option _ _ (.prefork n), rfl⟩
  | protocols s => exact ⟨_, _, .option _ _ (.protocols _ _ (.one s)), rfl⟩
  | user s => exact ⟨_, _, .option _ _ (.user _ _ (.one s)), rfl⟩
  | logAccess s => exact ⟨_, _, .option _ _ (.log _ _ (.one _ _ (.access _ _ (.one s)))), rfl⟩
  | logStyle s => exact ⟨_, _, .option _ _ (.log _ _ (.one _ _ (.style _ _ (.one s)))), rfl⟩
  | syslogFacility s => exact ⟨_, _, .option _ _ (.log _ _ (.one _ _ (.facility _ _ (.one s)))), rfl⟩
  | syslogOff => exact ⟨_, _, .option _ _ (.log _ _ (.one _ _ .syslogOff)), rfl⟩
  | syslog => exact ⟨_, _, .option _ _ (.log _ _ (.one _ _ .syslog)), rfl⟩
  | server s b => obtain ⟨u, hu⟩ := servbody_written b; exact ⟨_, _, .vhost _ _ (.mk _ _ _ _ _ (.one s) .empty hu), rfl⟩
  | types l =>
    obtain ⟨u, hu⟩ := types_written l h.1 h.2
    refine ⟨_, _, .types _ _ hu, ?_⟩
    simp only [Item.directives, List.filterMap_map]
    congr 2
    clear h hu u
    induction l with
    | nil => rfl
    | cons x l ih => simp [ih]

/-- **C92.** And every sequence of directives is the meaning of some configuration: the directives over which C69-C76 range are those
that the grammar derives. -/
theorem C92_every_directive (ds : List Directive) (h : ∀ d ∈ ds, TypesOk d) : ∃ ts is, Grammar ts is ∧ is.flatMap Item.directives = ds := by
  have : ∃ ts is, Body (One GItem) GNl ts is ∧ is.flatMap Item.directives = ds := by
    induction ds with
    | nil => exact ⟨_, _, .nil, rfl⟩
    | cons d ds ih =>
      obtain ⟨t, is, h1, h2⟩ := ih (fun x hx => h x (by simp [hx]))
      obtain ⟨o, i, h3, h4⟩ := directive_written d (h d (by simp))
      exact ⟨_, _, .cons _ _ _ [i] _ ⟨i, h3, rfl⟩ gnl_newline h1, by simp [h2, h4]⟩
  obtain ⟨ts, is, h1, h2⟩ := this
  exact ⟨ts, is, .conf _ _ (by simpa using body_conf h1 [] [] .empty), h2⟩

/-- and those of a configuration are all of this kind, but for a `types` block that only includes files -/
theorem C92_types_lines (ts : Toks) (is : List Item) (h : Grammar ts is) (l : List (Bytes × List Bytes))
    (hl : Directive.types l ∈ is.flatMap Item.directives) : ∀ x ∈ l, x.2 ≠ [] := by
  obtain ⟨n, c, rfl, hn, hg⟩ := grammar_parts h
  clear hn h
  induction hg with
  | empty => simp at hl
  | more ts o n is i _ ho hn ih =>
    simp only [List.flatMap_append, List.mem_append] at hl
    rcases hl with hl | hl
    · exact ih hl
    · simp only [List.flatMap_cons, List.flatMap_nil, List.append_nil] at hl
      cases ho with
      | incl s h => simp [Item.directives] at hl
      | varset n v h => simp [Item.directives] at hl
      | vhost d h => cases h; simp [Item.directives] at hl
      | option ds h =>
        simp only [Item.directives] at hl
        cases h with
        | log =>
          rename_i h
          cases h with
          | block n ts ds hn h =>
            exfalso
            induction h with
            | empty => simp at hl
            | more ts o n ds d _ ho _ ih =>
              rcases List.mem_append.1 hl with hl | hl
              · exact ih hl
              · cases ho <;> simp at hl
          | one ts d h => cases h <;> simp at hl
        | _ => simp at hl
      | types ms h =>
        cases h with
        | mk n ts ms hn h =>
          simp only [Item.directives, List.mem_singleton, Directive.types.injEq] at hl
          subst hl
          clear hn
          intro x hx
          have key : ∀ m ∈ ms, ∀ t ns, m = Media.names t ns → ns ≠ [] := by
            clear hx ih
            induction h with
            | more ts o n ms m _ ho _ ih =>
              intro m' hm t ns e
              rcases List.mem_append.1 hm with hm | hm
              · exact ih m' hm t ns e
              · rw [List.mem_singleton.1 hm] at e
                subst e
                cases ho with
                | names s ts ns h => exact (takeNames_G h []).2
            | one o n m ho _ =>
              intro m' hm t ns e
              rw [List.mem_singleton.1 hm] at e
              subst e
              cases ho with
              | names s ts ns h => exact (takeNames_G h []).2
          obtain ⟨m, hm, e⟩ := List.mem_filterMap.1 hx
          cases m with
          | names t ns =>
            simp only [Option.some.injEq] at e
            subst e
            exact key _ hm t ns rfl
          | incl s => cases e

/-! ## C93 -/

/-- newlines and semicolons, at least one -/
def Separators (n : Toks) : Prop := n ≠ [] ∧ ∀ t ∈ n, t = .chr c%'\n' ∨ t = .chr c%';'

theorem isNlTok_iff (t : Tok) : isNlTok t = true ↔ t = .chr c%'\n' ∨ t = .chr c%';' := by
  cases t <;> simp [isNlTok]

/-- **C93.** A newline is as good as a semicolon, and one is as good as many: blank lines do not matter. -/
theorem C93_blank_lines (a b n n' : Toks) (hn : Separators n) (hn' : Separators n') (is : List Item) :
    Grammar (a ++ n ++ b) is ↔ Grammar (a ++ n' ++ b) is := by
  have h1 : AllNl n := fun t ht => (isNlTok_iff t).2 (hn.2 t ht)
  have h2 : AllNl n' := fun t ht => (isNlTok_iff t).2 (hn'.2 t ht)
  rw [List.append_assoc, List.append_assoc]
  exact ⟨fun h => grammar_layout h (NlEq.prepend a (.run _ _ _ _ h1 h2 hn.1 hn'.1 (.refl b))),
    fun h => grammar_layout h (NlEq.prepend a (.run _ _ _ _ h2 h1 hn'.1 hn.1 (.refl b)))⟩

/-- **C93.** After an open brace none is needed, and any number will do. -/
theorem C93_after_brace (a b n : Toks) (hn : Separators n) (is : List Item) :
    Grammar (a ++ .chr c%'{' :: n ++ b) is ↔ Grammar (a ++ .chr c%'{' :: b) is := by
  have h1 : AllNl n := fun t ht => (isNlTok_iff t).2 (hn.2 t ht)
  have h2 : AllNl ([] : Toks) := by simp [AllNl]
  rw [List.append_assoc, List.cons_append]
  exact ⟨fun h => grammar_layout h (NlEq.prepend a (.brace n [] _ _ h1 h2 (.refl b))),
    fun h => grammar_layout h (NlEq.prepend a (.brace [] n _ _ h2 h1 (.refl b)))⟩

/-- **C93.** And at the start of the file, too. -/
theorem C93_at_start (b n : Toks) (hn : Separators n) (is : List Item) : Grammar (n ++ b) is ↔ Grammar b is := by
  have h1 : AllNl n := fun t ht => (isNlTok_iff t).2 (hn.2 t ht)
  constructor
  · intro h
    obtain ⟨m, c, e, hm, h⟩ := grammar_parts h
    have hb := gconf_body h
    have hs : ∀ o v r, One GItem o v → NotNl (o ++ r) := fun o v r ⟨d, h, _⟩ => ((item_start h).rest 0 r).1
    have h0 : NotNl c := by
      have := notNl_body hs hb (r := []) (by intro t r' e; cases e)
      simpa using this
    obtain ⟨n2, e1, e2⟩ := run_prefix e h1 h0
    rw [e2]
    have h3 : ∀ t ∈ n2, isNlTok t = true := fun t ht => goptnl_all hm t (by rw [e1]; simp [ht])
    cases n2 with
    | nil => exact .conf _ _ h
    | cons t n2 => exact .nl _ _ _ (all_gnl _ (by simp) h3) h
  · intro h
    obtain ⟨m, c, rfl, hm, h⟩ := grammar_parts h
    rw [← List.append_assoc]
    refine .nl _ _ _ (all_gnl _ (by simp [hn.1]) ?_) h
    intro t ht
    rcases List.mem_append.1 ht with ht | ht
    · exact h1 t ht
    · exact goptnl_all hm t ht

/-! ## Examples -/

/-- `server "a" { listen on * port 1966; location "/b*" { block return 40 "x" "y" } }`, and a newline -/
def exToks : Toks :=
  [.kw b%"SERVER", .str b%"a", .chr c%'{', .kw b%"LISTEN", .kw b%"ON", .chr c%'*', .kw b%"PORT", .num 1966, .chr c%';',
   .kw b%"LOCATION", .str b%"/b*", .chr c%'{', .kw b%"BLOCK", .kw b%"RETURN", .num 40, .str b%"x", .str b%"y", .chr c%'}', .chr c%'}', .chr c%'\n']

/-- it has a meaning, hence one only -/
example : Grammar exToks [.vhost (.server b%"a" [.listen none b%"1966" false, .location b%"/b*" [.blockReturn 40 (some b%"xy")]])] :=
  pGrammar_s (by decide +kernel)

/-- without the newline at its end it has none; nor is a `types` line allowed without one -/
example : ¬ ∃ is, Grammar exToks.dropLast is := by
  rintro ⟨is, h⟩
  have h1 := pGrammar_G h
  have h2 : pGrammar exToks.dropLast = none := by decide +kernel
  rw [h2] at h1; cases h1

example : Separators [.chr c%';', .chr c%'\n'] := by
  refine ⟨by simp, ?_⟩
  intro t ht
  simp only [List.mem_cons, List.not_mem_nil, or_false] at ht
  rcases ht with rfl | rfl <;> simp

/-- `;` after `1966` and `{` before `listen` are places where C93 applies -/
example : ∃ a b, exToks = a ++ [.chr c%';'] ++ b := ⟨exToks.take 8, exToks.drop 9, by decide +kernel⟩
example : ∃ a b, exToks = a ++ .chr c%'{' :: b := ⟨exToks.take 2, exToks.drop 3, by decide +kernel⟩

example : TypesOk (.types [(b%"text/plain", [b%"txt"])]) := ⟨by simp, by simp⟩

end Gmid.Props
