import Verif.Lemmas.Grammar

/-!
# The parser of Lemmas/Grammar.lean finds only derivations
-/

set_option autoImplicit false

namespace Gmid

theorem expKw_s {k : Bytes} {ts r : Toks} (h : expKw k ts = some r) : ts = .kw k :: r := by
  unfold expKw at h
  split at h
  · split at h
    · rename_i h'; cases h; rw [h']
    · cases h
  · cases h

theorem expChr_s {c : UInt8} {ts r : Toks} (h : expChr c ts = some r) : ts = .chr c :: r := by
  unfold expChr at h
  split at h
  · split at h
    · rename_i h'; cases h; rw [h']
    · cases h
  · cases h

theorem expNum_s {ts r : Toks} {n : Int} (h : expNum ts = some (n, r)) : ts = .num n :: r := by
  unfold expNum at h
  split at h
  · cases h; rfl
  · cases h

theorem expStr_s {ts r : Toks} {n : Bytes} (h : expStr ts = some (n, r)) : ts = .str n :: r := by
  unfold expStr at h
  split at h
  · cases h; rfl
  · cases h

theorem expNum_map {V : Type} {f : Int × Toks → V} {ts : Toks} {v : V} (h : (expNum ts).map f = some v) : ∃ n r, ts = .num n :: r ∧ f (n, r) = v := by
  cases e : expNum ts with
  | none => rw [e] at h; cases h
  | some x => obtain ⟨n, r⟩ := x; rw [e] at h; exact ⟨n, r, expNum_s e, by simpa using h⟩

theorem expStr_map {V : Type} {f : Bytes × Toks → V} {ts : Toks} {v : V} (h : (expStr ts).map f = some v) : ∃ n r, ts = .str n :: r ∧ f (n, r) = v := by
  cases e : expStr ts with
  | none => rw [e] at h; cases h
  | some x => obtain ⟨n, r⟩ := x; rw [e] at h; exact ⟨n, r, expStr_s e, by simpa using h⟩

theorem takeStrs_s (ts : Toks) : ∀ (o : Toks) (a : Bytes), GString o a → ∃ o', o ++ ts = o' ++ (takeStrs ts).2 ∧ GString o' (a ++ (takeStrs ts).1) := by
  induction ts with
  | nil => intro o a h; exact ⟨o, rfl, by simpa [takeStrs] using h⟩
  | cons t ts ih =>
    intro o a h
    cases t with
    | str s =>
      obtain ⟨o', h1, h2⟩ := ih _ _ (GString.more o a s h)
      refine ⟨o', ?_, ?_⟩
      · simp only [takeStrs]; rw [← h1]; simp
      · simp only [takeStrs]; rw [← List.append_assoc]; exact h2
    | _ => exact ⟨o, rfl, by simpa [takeStrs] using h⟩

theorem pString_s {ts r : Toks} {s : Bytes} (h : pString ts = some (s, r)) : ∃ o, ts = o ++ r ∧ GString o s := by
  unfold pString at h
  split at h
  · rename_i a r'
    cases h
    obtain ⟨o, h1, h2⟩ := takeStrs_s r' _ _ (GString.one a)
    exact ⟨o, h1, h2⟩
  · cases h

theorem pString_map {V : Type} {f : Bytes × Toks → V} {ts : Toks} {v : V} (h : (pString ts).map f = some v) :
    ∃ s o r, ts = o ++ r ∧ GString o s ∧ f (s, r) = v := by
  cases e : pString ts with
  | none => rw [e] at h; cases h
  | some x =>
    obtain ⟨n, r⟩ := x
    rw [e] at h
    obtain ⟨o, h1, h2⟩ := pString_s e
    exact ⟨n, o, r, h1, h2, by simpa using h⟩

theorem pBool_s {ts r : Toks} {b : Bool} (h : pBool ts = some (b, r)) : ∃ o, ts = o ++ r ∧ GBool o b := by
  unfold pBool at h
  split at h
  · split at h
    · rename_i e; subst e; cases h; exact ⟨[_], rfl, .on⟩
    · split at h
      · rename_i e; subst e; cases h; exact ⟨[_], rfl, .off⟩
      · cases h
  · cases h

theorem pBool_map {V : Type} {f : Bool × Toks → V} {ts : Toks} {v : V} (h : (pBool ts).map f = some v) :
    ∃ s o r, ts = o ++ r ∧ GBool o s ∧ f (s, r) = v := by
  cases e : pBool ts with
  | none => rw [e] at h; cases h
  | some x =>
    obtain ⟨n, r⟩ := x
    rw [e] at h
    obtain ⟨o, h1, h2⟩ := pBool_s e
    exact ⟨n, o, r, h1, h2, by simpa using h⟩

theorem pLogopt_s {ts r : Toks} {d : Directive} (h : pLogopt ts = some (d, r)) : ∃ o, ts = o ++ r ∧ GLogopt o d := by
  unfold pLogopt at h
  split at h
  · split at h
    · rename_i e; subst e
      obtain ⟨s, o, r, rfl, g, e⟩ := pString_map h
      cases e; exact ⟨_, rfl, .access _ _ g⟩
    split at h
    · rename_i e; subst e
      obtain ⟨s, o, r, rfl, g, e⟩ := pString_map h
      cases e; exact ⟨_, rfl, .style _ _ g⟩
    split at h
    · rename_i e; subst e
      split at h
      · rename_i e; rw [expKw_s e]
        obtain ⟨s, o, r, rfl, g, e⟩ := pString_map h
        cases e; exact ⟨_, rfl, .facility _ _ g⟩
      · split at h
        · rename_i e; rw [expKw_s e]; cases h; exact ⟨[_, _], rfl, .syslogOff⟩
        · cases h; exact ⟨[_], rfl, .syslog⟩
    · cases h
  · cases h

theorem one_s {V : Type} {G : Toks → V → Prop} {p : Toks → Option (V × Toks)} (hp : ∀ ts v r, p ts = some (v, r) → ∃ o, ts = o ++ r ∧ G o v)
    (ts : Toks) (v : List V) (r : Toks) (h : one p ts = some (v, r)) : ∃ o, ts = o ++ r ∧ One G o v := by
  unfold one at h
  cases e : p ts with
  | none => rw [e] at h; cases h
  | some x =>
    obtain ⟨x, r'⟩ := x
    rw [e] at h
    cases h
    obtain ⟨o, h1, h2⟩ := hp _ _ _ e
    exact ⟨o, h1, x, h2, rfl⟩

theorem pBody_s {V : Type} {stop : UInt8} {sep : Toks → Option Toks} {p : Toks → Option (List V × Toks)} {P : Toks → List V → Prop}
    {N : Toks → Prop} (hp : ∀ ts v r, p ts = some (v, r) → ∃ o, ts = o ++ r ∧ P o v) (hs : ∀ ts r, sep ts = some r → ∃ n, ts = n ++ r ∧ N n) :
    ∀ (fuel : Nat) (ts : Toks) (vs : List V) (r : Toks), pBody stop sep p fuel ts = some (vs, r) →
      ∃ b, ts = b ++ .chr stop :: r ∧ Body P N b vs := by
  intro fuel
  induction fuel with
  | zero =>
    intro ts vs r h
    simp only [pBody, Option.map_eq_some_iff] at h
    obtain ⟨r', h1, h2⟩ := h
    cases h2
    exact ⟨[], expChr_s h1, .nil⟩
  | succ fuel ih =>
    intro ts vs r h
    simp only [pBody] at h
    split at h
    · rename_i e; cases h; exact ⟨[], expChr_s e, .nil⟩
    · split at h
      · cases h
      · rename_i v r1 e1
        split at h
        · cases h
        · rename_i r2 e2
          simp only [Option.map_eq_some_iff] at h
          obtain ⟨⟨vs', r'⟩, h1, h2⟩ := h
          cases h2
          obtain ⟨b, rfl, hb⟩ := ih _ _ _ h1
          obtain ⟨n, rfl, hn⟩ := hs _ _ e2
          obtain ⟨o, rfl, ho⟩ := hp _ _ _ e1
          exact ⟨o ++ n ++ b, by simp, .cons _ _ _ _ _ ho hn hb⟩

theorem optSep_s (ts r : Toks) (h : optSep ts = some r) : ∃ n, ts = n ++ r ∧ GOptnl n := by
  cases h
  obtain ⟨n, h1, h2, _⟩ := skipNl_spec ts
  exact ⟨n, h1, all_goptnl n h2⟩

theorem nlSep_s (ts r : Toks) (h : pNl ts = some r) : ∃ n, ts = n ++ r ∧ GNl n := by
  obtain ⟨n, h1, h2, _⟩ := pNl_sound h; exact ⟨n, h1, h2⟩

theorem pBlock_s {V : Type} {p : Toks → Option (List V × Toks)} {P : Toks → List V → Prop}
    (hp : ∀ ts v r, p ts = some (v, r) → ∃ o, ts = o ++ r ∧ P o v) {ts r : Toks} {vs : List V} (h : pBlock p ts = some (vs, r)) :
    ∃ n b, ts = .chr c%'{' :: (n ++ (b ++ .chr c%'}' :: r)) ∧ GOptnl n ∧ Body P GOptnl b vs := by
  unfold pBlock at h
  split at h
  · cases h
  · rename_i r1 e
    rw [expChr_s e]
    obtain ⟨b, h1, h2⟩ := pBody_s hp optSep_s _ _ _ _ h
    obtain ⟨n, h3, h4, _⟩ := skipNl_spec r1
    exact ⟨n, b, by rw [← h1, ← h3], all_goptnl n h4, h2⟩

theorem body_logopts {ts : Toks} {ds : List Directive} (h : Body (One GLogopt) GOptnl ts ds) :
    ∀ ts0 ds0, GLogopts ts0 ds0 → GLogopts (ts0 ++ ts) (ds0 ++ ds) := by
  induction h with
  | nil => intro ts0 ds0 h; simpa using h
  | cons o n ts v vs ho hn _ ih =>
    intro ts0 ds0 h
    obtain ⟨d, ho, rfl⟩ := ho
    simpa [List.append_assoc] using ih _ _ (.more _ _ _ _ _ h ho hn)

theorem body_fcgiopts {ts : Toks} {ds : List LocOpt} (h : Body (One GFastcgiopt) GOptnl ts ds) :
    ∀ ts0 ds0, GFastcgiopts ts0 ds0 → GFastcgiopts (ts0 ++ ts) (ds0 ++ ds) := by
  induction h with
  | nil => intro ts0 ds0 h; simpa using h
  | cons o n ts v vs ho hn _ ih =>
    intro ts0 ds0 h
    obtain ⟨d, ho, rfl⟩ := ho
    simpa [List.append_assoc] using ih _ _ (.more _ _ _ _ _ h ho hn)

theorem body_locopts {ts : Toks} {ds : List LocOpt} (h : Body GLocopt GOptnl ts ds) :
    ∀ ts0 ds0, GLocopts ts0 ds0 → GLocopts (ts0 ++ ts) (ds0 ++ ds) := by
  induction h with
  | nil => intro ts0 ds0 h; simpa using h
  | cons o n ts v vs ho hn _ ih =>
    intro ts0 ds0 h
    simpa [List.append_assoc] using ih _ _ (.more _ _ _ _ _ h ho hn)

theorem body_proxyMatches {ts : Toks} {ds : List ProxyMatch} (h : Body (One GProxyMatch) (fun n => n = []) ts ds) :
    ∀ ts0 ds0, GProxyMatches ts0 ds0 → GProxyMatches (ts0 ++ ts) (ds0 ++ ds) := by
  induction h with
  | nil => intro ts0 ds0 h; simpa using h
  | cons o n ts v vs ho hn _ ih =>
    intro ts0 ds0 h
    obtain ⟨d, ho, rfl⟩ := ho
    subst hn
    simpa [List.append_assoc] using ih _ _ (.more _ _ _ _ h ho)

theorem body_proxyOpts {ts : Toks} {ds : List ProxyOpt} (h : Body (One GProxyOpt) GOptnl ts ds) :
    ∀ ts0 ds0, GProxyOpts ts0 ds0 → GProxyOpts (ts0 ++ ts) (ds0 ++ ds) := by
  induction h with
  | nil => intro ts0 ds0 h; simpa using h
  | cons o n ts v vs ho hn _ ih =>
    intro ts0 ds0 h
    obtain ⟨d, ho, rfl⟩ := ho
    simpa [List.append_assoc] using ih _ _ (.more _ _ _ _ _ h ho hn)

theorem body_servbody {ts : Toks} {ds : List SrvOpt} (h : Body GServ GOptnl ts ds) :
    ∀ ts0 ds0, GServbody ts0 ds0 → GServbody (ts0 ++ ts) (ds0 ++ ds) := by
  induction h with
  | nil => intro ts0 ds0 h; simpa using h
  | cons o n ts v vs ho hn _ ih =>
    intro ts0 ds0 h
    rcases ho with ho | ⟨d, ho, rfl⟩ | ⟨d, ho, rfl⟩
    · simpa [List.append_assoc] using ih _ _ (.opt _ _ _ _ _ h ho hn)
    · simpa [List.append_assoc] using ih _ _ (.location _ _ _ _ _ h ho hn)
    · simpa [List.append_assoc] using ih _ _ (.proxy _ _ _ _ _ h ho hn)

theorem body_mediaopts {ts : Toks} {ds : List Media} (h : Body (One GMediaoptsl) GNl ts ds) :
    (∀ ts0 ds0, GMediaopts ts0 ds0 → GMediaopts (ts0 ++ ts) (ds0 ++ ds)) ∧ (ds ≠ [] → GMediaopts ts ds) := by
  induction h with
  | nil => exact ⟨by intro ts0 ds0 h; simpa using h, by simp⟩
  | cons o n ts v vs ho hn _ ih =>
    obtain ⟨d, ho, rfl⟩ := ho
    refine ⟨?_, ?_⟩
    · intro ts0 ds0 h
      simpa [List.append_assoc] using ih.1 _ _ (.more _ _ _ _ _ h ho hn)
    · intro _
      simpa [List.append_assoc] using ih.1 _ _ (.one _ _ _ ho hn)

theorem body_conf {ts : Toks} {ds : List Item} (h : Body (One GItem) GNl ts ds) :
    ∀ ts0 ds0, GConf ts0 ds0 → GConf (ts0 ++ ts) (ds0 ++ ds) := by
  induction h with
  | nil => intro ts0 ds0 h; simpa using h
  | cons o n ts v vs ho hn _ ih =>
    intro ts0 ds0 h
    obtain ⟨d, ho, rfl⟩ := ho
    simpa [List.append_assoc] using ih _ _ (.more _ _ _ _ _ h ho hn)

theorem pLog_s {ts r : Toks} {ds : List Directive} (h : pLog ts = some (ds, r)) : ∃ o, ts = o ++ r ∧ GLog (.kw b%"LOG" :: o) ds := by
  unfold pLog at h
  split at h
  · obtain ⟨n, b, rfl, hn, hb⟩ := pBlock_s (one_s (fun _ _ _ => pLogopt_s)) h
    refine ⟨.chr c%'{' :: (n ++ (b ++ [.chr c%'}'])), by simp, ?_⟩
    simpa using GLog.block n b ds hn (body_logopts hb [] [] .empty)
  · obtain ⟨o, rfl, d, g, rfl⟩ := one_s (fun _ _ _ => pLogopt_s) _ _ _ h
    exact ⟨o, rfl, .one _ _ g⟩

theorem pFcgiopt_s {ts r : Toks} {d : LocOpt} (h : pFcgiopt ts = some (d, r)) : ∃ o, ts = o ++ r ∧ GFastcgiopt o d := by
  unfold pFcgiopt at h
  split at h
  · split at h
    · rename_i e; subst e
      split at h
      · cases h
      rename_i e
      obtain ⟨o, rfl, g⟩ := pString_s e
      split at h
      · cases h
      rename_i e
      rw [expChr_s e]
      obtain ⟨s, o', r, rfl, g', e⟩ := pString_map h
      cases e; exact ⟨_, by simp, .param _ _ _ _ g g'⟩
    split at h
    · rename_i e; subst e
      split at h
      · obtain ⟨s, o, r, rfl, g, e⟩ := pString_map h
        cases e; exact ⟨_, rfl, .socket _ _ g⟩
      rename_i e; rw [expKw_s e]
      split at h
      · cases h
      rename_i e
      obtain ⟨o, rfl, g⟩ := pString_s e
      split at h
      · cases h; exact ⟨_, rfl, .tcp _ _ g⟩
      rename_i e; rw [expKw_s e]
      split at h
      · rename_i e; rw [expNum_s e]; cases h; exact ⟨_, by simp, .tcpNum _ _ _ g⟩
      · obtain ⟨s, o', r, rfl, g', e⟩ := pString_map h
        cases e; exact ⟨_, by simp, .tcpStr _ _ _ _ g g'⟩
    split at h
    · rename_i e; subst e
      obtain ⟨n, r, rfl, e⟩ := expNum_map h
      cases e; exact ⟨[_, _], rfl, .strip n⟩
    · cases h
  · cases h

theorem pFastcgi_s {ts r : Toks} {ds : List LocOpt} (h : pFastcgi ts = some (ds, r)) : ∃ o, ts = o ++ r ∧ GFastcgi (.kw b%"FASTCGI" :: o) ds := by
  unfold pFastcgi at h
  split at h
  · obtain ⟨n, b, rfl, hn, hb⟩ := pBlock_s (one_s (fun _ _ _ => pFcgiopt_s)) h
    refine ⟨.chr c%'{' :: (n ++ (b ++ [.chr c%'}'])), by simp, ?_⟩
    simpa using GFastcgi.block n b ds hn (body_fcgiopts hb [] [] .empty)
  · split at h
    · rename_i e; rw [expKw_s e]; cases h; exact ⟨[_], rfl, .off⟩
    · split at h
      · rename_i e; obtain ⟨o, rfl, g⟩ := pString_s e; cases h; exact ⟨o, rfl, .path _ _ g⟩
      · obtain ⟨o, rfl, d, g, rfl⟩ := one_s (fun _ _ _ => pFcgiopt_s) _ _ _ h
        exact ⟨o, rfl, .one _ _ g⟩

theorem expKws_s {ks : List Bytes} {ts r : Toks} (h : expKws ks ts = some r) : ts = ks.map Tok.kw ++ r := by
  induction ks generalizing ts with
  | nil => cases h; rfl
  | cons k ks ih =>
    simp only [expKws] at h
    split at h
    · rename_i e; rw [expKw_s e, ih h]; rfl
    · cases h

theorem pLocopt_s {ts r : Toks} {d : List LocOpt} (h : pLocopt ts = some (d, r)) : ∃ o, ts = o ++ r ∧ GLocopt o d := by
  unfold pLocopt at h
  split at h
  · split at h
    · rename_i e; subst e
      split at h
      · cases h
      rename_i e; rw [expKw_s e]
      obtain ⟨s, o, r, rfl, g, e⟩ := pBool_map h
      cases e; exact ⟨_, rfl, .autoIndex _ _ g⟩
    split at h
    · rename_i e; subst e
      split at h
      · cases h; exact ⟨[_], rfl, .block⟩
      rename_i e; rw [expKw_s e]
      split at h
      · cases h
      rename_i e; rw [expNum_s e]
      split at h
      · rename_i e; obtain ⟨o, rfl, g⟩ := pString_s e; cases h; exact ⟨_, rfl, .blockText _ _ _ g⟩
      · cases h; exact ⟨[_, _, _], rfl, .blockCode _⟩
    split at h
    · rename_i e; subst e
      split at h
      · cases h
      rename_i e; rw [expKw_s e]
      obtain ⟨s, o, r, rfl, g, e⟩ := pString_map h
      cases e; exact ⟨_, rfl, .defaultType _ _ g⟩
    split at h
    · rename_i e; subst e
      obtain ⟨o, rfl, g⟩ := pFastcgi_s h
      exact ⟨_, rfl, .fastcgi _ _ g⟩
    split at h
    · rename_i e; subst e
      obtain ⟨s, o, r, rfl, g, e⟩ := pString_map h
      cases e; exact ⟨_, rfl, .index _ _ g⟩
    split at h
    · rename_i e; subst e
      obtain ⟨s, o, r, rfl, g, e⟩ := pString_map h
      cases e; exact ⟨_, rfl, .lang _ _ g⟩
    split at h
    · rename_i e; subst e
      obtain ⟨s, o, r, rfl, g, e⟩ := pBool_map h
      cases e; exact ⟨_, rfl, .log _ _ g⟩
    split at h
    · rename_i e; subst e
      split at h
      · cases h
      rename_i e; rw [expKws_s e]
      obtain ⟨s, o, r, rfl, g, e⟩ := pString_map h
      cases e; exact ⟨_, rfl, .requireCa _ _ g⟩
    split at h
    · rename_i e; subst e
      obtain ⟨s, o, r, rfl, g, e⟩ := pString_map h
      cases e; exact ⟨_, rfl, .root _ _ g⟩
    split at h
    · rename_i e; subst e
      obtain ⟨n, r, rfl, e⟩ := expNum_map h
      cases e; exact ⟨[_, _], rfl, .strip n⟩
    · cases h
  · cases h

theorem pPort_s (ts : Toks) : ∃ o, ts = o ++ (pPort ts).2 ∧ GProxyPort o (pPort ts).1 := by
  unfold pPort
  split
  · exact ⟨[], rfl, .empty⟩
  · rename_i e; rw [expKw_s e]
    split
    · rename_i e; rw [expNum_s e]; exact ⟨[_, _], rfl, .num _⟩
    · split
      · rename_i e; rw [expStr_s e]; exact ⟨[_, _], rfl, .str _⟩
      · exact ⟨[], rfl, .empty⟩

theorem pProxyMatch_s {ts r : Toks} {d : ProxyMatch} (h : pProxyMatch ts = some (d, r)) : ∃ o, ts = o ++ r ∧ GProxyMatch o d := by
  unfold pProxyMatch at h
  split at h
  · split at h
    · rename_i e; subst e
      obtain ⟨s, o, r, rfl, g, e⟩ := pString_map h
      cases e; exact ⟨_, rfl, .proto _ _ g⟩
    split at h
    · rename_i e; subst e
      obtain ⟨s, o, r, rfl, g, e⟩ := pString_map h
      obtain ⟨o', h1, h2⟩ := pPort_s r
      cases e
      refine ⟨_, ?_, .forHost _ _ _ _ g h2⟩
      simp only [List.cons_append, List.append_assoc]
      rw [← h1]
    · cases h
  · cases h

theorem pProxyOpt_s {ts r : Toks} {d : ProxyOpt} (h : pProxyOpt ts = some (d, r)) : ∃ o, ts = o ++ r ∧ GProxyOpt o d := by
  unfold pProxyOpt at h
  split at h
  · split at h
    · rename_i e; subst e
      obtain ⟨s, o, r, rfl, g, e⟩ := pString_map h
      cases e; exact ⟨_, rfl, .cert _ _ g⟩
    split at h
    · rename_i e; subst e
      obtain ⟨s, o, r, rfl, g, e⟩ := pString_map h
      cases e; exact ⟨_, rfl, .key _ _ g⟩
    split at h
    · rename_i e; subst e
      obtain ⟨s, o, r, rfl, g, e⟩ := pString_map h
      cases e; exact ⟨_, rfl, .protocols _ _ g⟩
    split at h
    · rename_i e; subst e
      cases h; exact ⟨[_], rfl, .proxyV1⟩
    split at h
    · rename_i e; subst e
      obtain ⟨s, o, r, rfl, g, e⟩ := pString_map h
      obtain ⟨o', h1, h2⟩ := pPort_s r
      cases e
      refine ⟨_, ?_, .relayTo _ _ _ _ g h2⟩
      simp only [List.cons_append, List.append_assoc]
      rw [← h1]
    split at h
    · rename_i e; subst e
      split at h
      · cases h
      rename_i e; rw [expKws_s e]
      obtain ⟨s, o, r, rfl, g, e⟩ := pString_map h
      cases e; exact ⟨_, rfl, .requireCa _ _ g⟩
    split at h
    · rename_i e; subst e
      obtain ⟨s, o, r, rfl, g, e⟩ := pString_map h
      cases e; exact ⟨_, rfl, .sni _ _ g⟩
    split at h
    · rename_i e; subst e
      obtain ⟨s, o, r, rfl, g, e⟩ := pBool_map h
      cases e; exact ⟨_, rfl, .useTls _ _ g⟩
    split at h
    · rename_i e; subst e
      obtain ⟨s, o, r, rfl, g, e⟩ := pBool_map h
      cases e; exact ⟨_, rfl, .verifyName _ _ g⟩
    · cases h
  · cases h

theorem pProxy_s {ts r : Toks} {d : SrvOpt} (h : pProxy ts = some (d, r)) : ∃ o, ts = o ++ r ∧ GProxy (.kw b%"PROXY" :: o) d := by
  unfold pProxy at h
  split at h
  · cases h
  · rename_i ms r1 e
    simp only [Option.map_eq_some_iff] at h
    obtain ⟨⟨ds, r2⟩, h1, h2⟩ := h
    cases h2
    obtain ⟨b, h3, h4⟩ := pBody_s (one_s (fun _ _ _ => pProxyMatch_s)) (N := fun n => n = []) (fun ts r h => ⟨[], by cases h; rfl, rfl⟩) _ _ _ _ e
    obtain ⟨b', h5, h6⟩ := pBody_s (one_s (fun _ _ _ => pProxyOpt_s)) optSep_s _ _ _ _ h1
    obtain ⟨n, h7, h8, _⟩ := skipNl_spec r1
    rw [h5] at h7
    refine ⟨b ++ .chr c%'{' :: (n ++ (b' ++ [.chr c%'}'])), by rw [h3, h7]; simp, ?_⟩
    simpa using GProxy.mk b n b' ms ds (body_proxyMatches h4 [] [] .empty) (all_goptnl n h8) (body_proxyOpts h6 [] [] .empty)

theorem pLocation_s {ts r : Toks} {d : SrvOpt} (h : pLocation ts = some (d, r)) : ∃ o, ts = o ++ r ∧ GLocation (.kw b%"LOCATION" :: o) d := by
  unfold pLocation at h
  split at h
  · cases h
  · rename_i s r1 e
    obtain ⟨o, rfl, g⟩ := pString_s e
    simp only [Option.map_eq_some_iff] at h
    obtain ⟨⟨ds, r2⟩, h1, h2⟩ := h
    cases h2
    obtain ⟨n, b, rfl, hn, hb⟩ := pBlock_s (fun _ _ _ => pLocopt_s) h1
    refine ⟨o ++ .chr c%'{' :: (n ++ (b ++ [.chr c%'}'])), by simp, ?_⟩
    simpa using GLocation.mk o n b s ds g hn (body_locopts hb [] [] .empty)

theorem pListenAddr_s {ts r : Toks} {a : Option Bytes} (h : pListenAddr ts = some (a, r)) : ∃ o, ts = o ++ r ∧ GListenAddr o a := by
  unfold pListenAddr at h
  split at h
  · rename_i e; rw [expChr_s e]; cases h; exact ⟨[_], rfl, .any⟩
  · obtain ⟨s, r, rfl, e⟩ := expStr_map h
    cases e; exact ⟨[_], rfl, .str _⟩

theorem pListen_s {ts r : Toks} {d : SrvOpt} (h : pListen ts = some (d, r)) : ∃ o, ts = o ++ r ∧ GServopt (.kw b%"LISTEN" :: o) [d] := by
  unfold pListen at h
  split at h
  · cases h
  rename_i e; rw [expKw_s e]
  split at h
  · cases h
  rename_i e
  obtain ⟨o, rfl, g⟩ := pListenAddr_s e
  dsimp only at h
  split at h
  · split at h
    · rename_i e; rw [expKw_s e]; cases h; exact ⟨_, by simp, .listenV1 _ _ g⟩
    · cases h; exact ⟨_, rfl, .listen _ _ g⟩
  rename_i e; rw [expKw_s e]
  split at h
  · rename_i e; rw [expNum_s e]
    split at h
    · rename_i e; rw [expKw_s e]; cases h; exact ⟨_, by simp, .listenNumV1 _ _ _ g⟩
    · cases h; exact ⟨_, by simp, .listenNum _ _ _ g⟩
  · split at h
    · rename_i e; rw [expStr_s e]
      split at h
      · rename_i e; rw [expKw_s e]; cases h; exact ⟨_, by simp, .listenStrV1 _ _ _ g⟩
      · cases h; exact ⟨_, by simp, .listenStr _ _ _ g⟩
    · cases h

theorem pServ_s {ts r : Toks} {d : List SrvOpt} (h : pServ ts = some (d, r)) : ∃ o, ts = o ++ r ∧ GServ o d := by
  unfold pServ at h
  split at h
  · split at h
    · rename_i e; subst e
      obtain ⟨s, o, r, rfl, g, e⟩ := pString_map h
      cases e; exact ⟨_, rfl, .inl (.alias _ _ g)⟩
    split at h
    · rename_i e; subst e
      obtain ⟨s, o, r, rfl, g, e⟩ := pString_map h
      cases e; exact ⟨_, rfl, .inl (.cert _ _ g)⟩
    split at h
    · rename_i e; subst e
      obtain ⟨s, o, r, rfl, g, e⟩ := pString_map h
      cases e; exact ⟨_, rfl, .inl (.cgi _ _ g)⟩
    split at h
    · rename_i e; subst e
      obtain ⟨s, o, r, rfl, g, e⟩ := pString_map h
      cases e; exact ⟨_, rfl, .inl (.key _ _ g)⟩
    split at h
    · rename_i e; subst e
      obtain ⟨s, o, r, rfl, g, e⟩ := pString_map h
      cases e; exact ⟨_, rfl, .inl (.ocsp _ _ g)⟩
    split at h
    · rename_i e; subst e
      split at h
      · cases h
      rename_i e
      obtain ⟨o, rfl, g⟩ := pString_s e
      split at h
      · cases h
      rename_i e
      rw [expChr_s e]
      obtain ⟨s, o', r, rfl, g', e⟩ := pString_map h
      cases e; exact ⟨_, by simp, .inl (.param _ _ _ _ g g')⟩
    split at h
    · rename_i e; subst e
      obtain ⟨o, rfl, d, g, rfl⟩ := one_s (G := fun o d => GServopt (.kw b%"LISTEN" :: o) [d]) (fun _ _ _ => pListen_s) _ _ _ h
      exact ⟨_, rfl, .inl g⟩
    split at h
    · rename_i e; subst e
      obtain ⟨o, rfl, d, g, rfl⟩ := one_s (G := fun o d => GLocation (.kw b%"LOCATION" :: o) d) (fun _ _ _ => pLocation_s) _ _ _ h
      exact ⟨_, rfl, .inr (.inl ⟨d, g, rfl⟩)⟩
    split at h
    · rename_i e; subst e
      obtain ⟨o, rfl, d, g, rfl⟩ := one_s (G := fun o d => GProxy (.kw b%"PROXY" :: o) d) (fun _ _ _ => pProxy_s) _ _ _ h
      exact ⟨_, rfl, .inr (.inr ⟨d, g, rfl⟩)⟩
    · simp only [Option.map_eq_some_iff] at h
      obtain ⟨⟨ds, r2⟩, h1, h2⟩ := h
      cases h2
      obtain ⟨o, h3, g⟩ := pLocopt_s h1
      exact ⟨o, h3, .inl (.locopt _ _ g)⟩
  · cases h

theorem takeNames_s (ts : Toks) : ∀ (o : Toks) (a : List Bytes), GMedianames o a →
    ∃ o', o ++ ts = o' ++ (takeNames ts).2 ∧ GMedianames o' (a ++ (takeNames ts).1) := by
  induction ts with
  | nil => intro o a h; exact ⟨o, rfl, by simpa [takeNames] using h⟩
  | cons t ts ih =>
    intro o a h
    cases t with
    | str s =>
      obtain ⟨o', h1, h2⟩ := ih _ _ (GMedianames.more o [.str s] a s h (.str s))
      refine ⟨o', ?_, ?_⟩
      · simp only [takeNames]; rw [← h1]; simp
      · simpa [takeNames, List.append_assoc] using h2
    | num n =>
      obtain ⟨o', h1, h2⟩ := ih _ _ (GMedianames.more o [.num n] a _ h (.num n))
      refine ⟨o', ?_, ?_⟩
      · simp only [takeNames]; rw [← h1]; simp
      · simpa [takeNames, List.append_assoc] using h2
    | _ => exact ⟨o, rfl, by simpa [takeNames] using h⟩

theorem takeNames_s' {ts r : Toks} {n : Bytes} {ns : List Bytes} (h : takeNames ts = (n :: ns, r)) : ∃ o, ts = o ++ r ∧ GMedianames o (n :: ns) := by
  cases ts with
  | nil => cases h
  | cons t ts =>
    cases t with
    | str s =>
      obtain ⟨o, h1, h2⟩ := takeNames_s ts _ _ (.one [.str s] s (.str s))
      simp only [takeNames, Prod.mk.injEq, List.cons.injEq] at h
      obtain ⟨⟨rfl, rfl⟩, rfl⟩ := h
      exact ⟨o, h1, h2⟩
    | num m =>
      obtain ⟨o, h1, h2⟩ := takeNames_s ts _ _ (.one [.num m] _ (.num m))
      simp only [takeNames, Prod.mk.injEq, List.cons.injEq] at h
      obtain ⟨⟨rfl, rfl⟩, rfl⟩ := h
      exact ⟨o, h1, h2⟩
    | _ => cases h

theorem pMedia_s {ts r : Toks} {m : Media} (h : pMedia ts = some (m, r)) : ∃ o, ts = o ++ r ∧ GMediaoptsl o m := by
  unfold pMedia at h
  split at h
  · split at h
    · cases h
    · rename_i e
      cases h
      obtain ⟨o, rfl, g⟩ := takeNames_s' e
      exact ⟨_, rfl, .names _ _ _ g⟩
  · split at h
    · rename_i e; subst e
      obtain ⟨s, r, rfl, e⟩ := expStr_map h
      cases e; exact ⟨[_, _], rfl, .incl _ _ (.mk s)⟩
    · cases h
  · cases h

theorem pTypes_s {ts r : Toks} {ms : List Media} (h : pTypes ts = some (ms, r)) : ∃ o, ts = o ++ r ∧ GTypes (.kw b%"TYPES" :: o) ms := by
  unfold pTypes at h
  split at h
  · cases h
  rename_i r1 e; rw [expChr_s e]
  split at h
  · rename_i m ms' r' e
    cases h
    obtain ⟨b, h1, h2⟩ := pBody_s (one_s (fun _ _ _ => pMedia_s)) nlSep_s _ _ _ _ e
    obtain ⟨n, h3, h4, _⟩ := skipNl_spec r1
    rw [h1] at h3
    refine ⟨.chr c%'{' :: (n ++ (b ++ [.chr c%'}'])), by rw [h3]; simp, ?_⟩
    simpa using GTypes.mk n b _ (all_goptnl n h4) ((body_mediaopts h2).2 (by simp))
  · cases h

theorem pItem_s {ts r : Toks} {i : Item} (h : pItem ts = some (i, r)) : ∃ o, ts = o ++ r ∧ GItem o i := by
  unfold pItem at h
  split at h
  · split at h
    · cases h
    rename_i e; rw [expChr_s e]
    obtain ⟨s, o, r, rfl, g, e⟩ := pString_map h
    cases e; exact ⟨_, rfl, .varset _ _ _ (.mk _ _ _ g)⟩
  · split at h
    · rename_i e; subst e
      obtain ⟨s, r, rfl, e⟩ := expStr_map h
      cases e; exact ⟨[_, _], rfl, .incl _ _ (.mk s)⟩
    split at h
    · rename_i e; subst e
      obtain ⟨s, o, r, rfl, g, e⟩ := pString_map h
      cases e; exact ⟨_, rfl, .option _ _ (.chroot _ _ g)⟩
    split at h
    · rename_i e; subst e
      obtain ⟨s, o, r, rfl, g, e⟩ := pBool_map h
      cases e; exact ⟨_, rfl, .option _ _ (.ipv6 _ _ g)⟩
    split at h
    · rename_i e; subst e
      simp only [Option.map_eq_some_iff] at h
      obtain ⟨⟨ds, r2⟩, h1, h2⟩ := h
      cases h2
      obtain ⟨o, rfl, g⟩ := pLog_s h1
      exact ⟨_, rfl, .option _ _ (.log _ _ g)⟩
    split at h
    · rename_i e; subst e
      obtain ⟨n, r, rfl, e⟩ := expNum_map h
      cases e; exact ⟨[_, _], rfl, .option _ _ (.port n)⟩
    split at h
    · rename_i e; subst e
      obtain ⟨n, r, rfl, e⟩ := expNum_map h
      cases e; exact ⟨[_, _], rfl, .option _ _ (.prefork n)⟩
    split at h
    · rename_i e; subst e
      obtain ⟨s, o, r, rfl, g, e⟩ := pString_map h
      cases e; exact ⟨_, rfl, .option _ _ (.protocols _ _ g)⟩
    split at h
    · rename_i e; subst e
      obtain ⟨s, o, r, rfl, g, e⟩ := pString_map h
      cases e; exact ⟨_, rfl, .option _ _ (.user _ _ g)⟩
    split at h
    · rename_i e; subst e
      split at h
      · cases h
      rename_i s r1 e
      obtain ⟨o, rfl, g⟩ := pString_s e
      simp only [Option.map_eq_some_iff] at h
      obtain ⟨⟨ds, r2⟩, h1, h2⟩ := h
      cases h2
      obtain ⟨n, b, rfl, hn, hb⟩ := pBlock_s (fun _ _ _ => pServ_s) h1
      refine ⟨.kw b%"SERVER" :: (o ++ .chr c%'{' :: (n ++ (b ++ [.chr c%'}']))), by simp, ?_⟩
      refine .vhost _ _ ?_
      simpa using GVhost.mk o n b s ds g hn (body_servbody hb [] [] .empty)
    split at h
    · rename_i e; subst e
      simp only [Option.map_eq_some_iff] at h
      obtain ⟨⟨ds, r2⟩, h1, h2⟩ := h
      cases h2
      obtain ⟨o, rfl, g⟩ := pTypes_s h1
      exact ⟨_, rfl, .types _ _ g⟩
    · cases h
  · cases h

theorem pGrammar_s {ts : Toks} {is : List Item} (h : pGrammar ts = some is) : Grammar ts is := by
  unfold pGrammar at h
  split at h
  · rename_i is' e
    cases h
    obtain ⟨b, h1, h2⟩ := pBody_s (one_s (fun _ _ _ => pItem_s)) nlSep_s _ _ _ _ e
    have hb : skipNl ts = b := by simpa using h1
    obtain ⟨n, h3, h4, _⟩ := skipNl_spec ts
    rw [hb] at h3
    have hc := body_conf h2 [] [] .empty
    rw [h3]
    cases n with
    | nil => exact .conf _ _ hc
    | cons t n => exact .nl _ _ _ (all_gnl _ (by simp) h4) hc
  · cases h

/-- The parser is the grammar. -/
theorem pGrammar_iff {ts : Toks} {is : List Item} : pGrammar ts = some is ↔ Grammar ts is := ⟨pGrammar_s, pGrammar_G⟩

end Gmid
