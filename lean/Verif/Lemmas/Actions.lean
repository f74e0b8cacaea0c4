import Verif.Spec.Actions
import Verif.Props.Parse
import Verif.Lemmas.Server

/-!
# Lemmas about the semantic actions
-/

set_option autoImplicit false

namespace Gmid

open Spec Props

theorem lastOf_snoc {α β : Type} (f : α → Option β) (l : List α) (a : α) : lastOf f (l ++ [a]) = (f a).or (lastOf f l) := by
  unfold lastOf
  rw [List.filterMap_append]
  cases h : f a with
  | none => simp [h]
  | some v => simp [h]

theorem lastOf_nil {α β : Type} (f : α → Option β) : lastOf f [] = none := rfl

theorem fld_of_le {n : Nat} {s : Bytes} (h : tooLong n s = 0) : fld n s = s := by
  unfold tooLong at h
  unfold fld
  by_cases hc : s.length ≥ n
  · rw [if_pos hc] at h; cases h
  · exact List.take_of_length_le (by omega)

theorem tooLong_iff (n : Nat) (s : Bytes) (hn : 0 < n) : tooLong n s = 0 ↔ s.length ≤ n - 1 := by
  unfold tooLong
  by_cases hc : s.length ≥ n
  · rw [if_pos hc]; simp; omega
  · rw [if_neg hc]; simp; omega

theorem ensureAbs_iff (s : Bytes) : ensureAbs s = 0 ↔ s.head? = some c%'/' := by
  unfold ensureAbs
  cases s with
  | nil => simp [hd]
  | cons c r => by_cases hc : c = 47 <;> simp [hd, hc]

/-- the endpoints fit their fields -/
def EpsOk (fs : List FcgiEp) : Prop := ∀ f ∈ fs, f.path.length ≤ 4095 ∧ f.port.length ≤ 31

theorem fastcgiConf_err {fs fs' : List FcgiEp} {p : Bytes} {q : Option Bytes} {i e : Nat} (ho : EpsOk fs) (h : fastcgiConf fs p q = .ok (fs', i, e)) :
    EpsOk fs' ∧ (e = 0 ↔ p.length ≤ 4095 ∧ (q.getD []).length ≤ 31) := by
  obtain ⟨h1, h2, h3, h4⟩ := fcgiFind_spec p q fs 0
  unfold fastcgiConf at h
  cases hf : fcgiFind p q 0 fs with
  | ub => rw [hf] at h; cases h
  | err => rw [hf] at h; cases h
  | ok o =>
    rw [hf] at h
    cases o with
    | some k =>
      simp only [Res.ok.injEq, Prod.mk.injEq] at h
      obtain ⟨e1, e2, e3⟩ := h
      subst e1 e2 e3
      have := ho _ (List.mem_of_getElem? (h1 k hf).2)
      exact ⟨ho, by simpa [endpoint] using this⟩
    | none =>
      simp only [Res.ok.injEq, Prod.mk.injEq] at h
      obtain ⟨e1, e2, e3⟩ := h
      subst e1 e3
      refine ⟨fun f hfm => ?_, ?_⟩
      · simp only [List.mem_append, List.mem_singleton] at hfm
        rcases hfm with hfm | hfm
        · exact ho f hfm
        · subst hfm
          simp only [List.length_take]
          exact ⟨by omega, by omega⟩
      · by_cases a : p.length ≥ 4096
        · rw [if_pos a]; omega
        · rw [if_neg a]
          by_cases b : (q.getD []).length ≥ 32
          · rw [if_pos b]; omega
          · rw [if_neg b]; omega

theorem locAction_err {fs fs' : List FcgiEp} {l l' : CLoc} {o : LocOpt} {e : Nat} (ho : EpsOk fs) (h : locAction fs l o = .ok (fs', l', e)) :
    EpsOk fs' ∧ (e = 0 ↔ LocOptOk o) := by
  have code : ∀ n : Int, (checkBlockCode n = true ↔ (10 ≤ n ∧ n < 70 ∧ ¬ (20 ≤ n ∧ n ≤ 29))) := by
    intro n
    simp only [checkBlockCode, Bool.not_eq_true', Bool.or_eq_false_iff, Bool.and_eq_false_iff, decide_eq_false_iff_not]
    omega
  cases o with
  | blockReturn n s =>
    cases s with
    | none =>
      simp only [locAction, Res.ok.injEq, Prod.mk.injEq] at h
      obtain ⟨rfl, _, rfl⟩ := h
      refine ⟨ho, ?_⟩
      simp only [LocOptOk, ← code n]
      by_cases a : checkBlockCode n = true <;> by_cases b : n ≥ 30 ∧ n < 40 <;> simp [a, b]
    | some s =>
      simp only [locAction] at h
      obtain ⟨g1, g2, _⟩ := C43_format_partial s
      cases hc : checkBlockFmt s with
      | ub => rw [hc] at h; cases h
      | err => exact absurd hc g2
      | ok good =>
        rw [hc] at h
        simp only [Res.ok.injEq, Prod.mk.injEq] at h
        obtain ⟨rfl, _, rfl⟩ := h
        refine ⟨ho, ?_⟩
        simp only [LocOptOk, ← code n, ← g1, hc, Res.ok.injEq]
        have := tooLong_iff 1027 s (by omega)
        by_cases a : checkBlockCode n = true <;> by_cases b : good = true <;> simp [a, b] <;> omega
  | fcgiSocket p q =>
    simp only [locAction] at h
    cases hc : fastcgiConf fs p q with
    | ub => rw [hc] at h; cases h
    | err => rw [hc] at h; cases h
    | ok x =>
      obtain ⟨x1, x2, x3⟩ := x
      rw [hc] at h
      simp only [Res.ok.injEq, Prod.mk.injEq] at h
      obtain ⟨rfl, _, rfl⟩ := h
      exact fastcgiConf_err ho hc
  | strip n =>
    simp only [locAction, Res.ok.injEq, Prod.mk.injEq] at h
    obtain ⟨rfl, _, rfl⟩ := h
    refine ⟨ho, ?_⟩
    simp only [LocOptOk, checkStripNo]
    by_cases a : n ≤ 0 <;> simp [a] <;> omega
  | fcgiParam n v =>
    simp only [locAction, Res.ok.injEq, Prod.mk.injEq] at h
    obtain ⟨rfl, _, rfl⟩ := h
    refine ⟨ho, ?_⟩
    have := tooLong_iff 511 n (by omega)
    have := tooLong_iff 511 v (by omega)
    simp only [LocOptOk]
    omega
  | requireCa s =>
    simp only [locAction, Res.ok.injEq, Prod.mk.injEq] at h
    obtain ⟨rfl, _, rfl⟩ := h
    exact ⟨ho, ensureAbs_iff s⟩
  | defaultType s | index s | lang s | root s =>
    simp only [locAction, Res.ok.injEq, Prod.mk.injEq] at h
    obtain ⟨rfl, _, rfl⟩ := h
    exact ⟨ho, tooLong_iff _ s (by omega)⟩
  | autoIndex _ | block | fcgiOff | fcgiStrip _ | log _ =>
    simp only [locAction, Res.ok.injEq, Prod.mk.injEq] at h
    obtain ⟨rfl, _, rfl⟩ := h
    exact ⟨ho, by simp [LocOptOk]⟩

theorem locActions_err (os : List LocOpt) : ∀ {fs fs' : List FcgiEp} {l l' : CLoc} {e : Nat}, EpsOk fs → locActions fs l os = .ok (fs', l', e) →
    EpsOk fs' ∧ (e = 0 ↔ ∀ o ∈ os, LocOptOk o) := by
  induction os with
  | nil =>
    intro fs fs' l l' e ho h
    simp only [locActions, Res.ok.injEq, Prod.mk.injEq] at h
    obtain ⟨rfl, _, rfl⟩ := h
    exact ⟨ho, by simp⟩
  | cons o r ih =>
    intro fs fs' l l' e ho h
    rw [locActions] at h
    cases h1 : locAction fs l o with
    | ub => rw [h1] at h; cases h
    | err => rw [h1] at h; cases h
    | ok x =>
      obtain ⟨x1, x2, x3⟩ := x
      rw [h1] at h
      simp only at h
      cases h2 : locActions x1 x2 r with
      | ub => rw [h2] at h; cases h
      | err => rw [h2] at h; cases h
      | ok y =>
        obtain ⟨y1, y2, y3⟩ := y
        rw [h2] at h
        simp only [Res.ok.injEq, Prod.mk.injEq] at h
        obtain ⟨rfl, _, rfl⟩ := h
        obtain ⟨a1, a2⟩ := locAction_err ho h1
        obtain ⟨b1, b2⟩ := ih a1 h2
        refine ⟨b1, ?_⟩
        simp only [List.forall_mem_cons, ← a2, ← b2]
        omega

/-! ## Values -/

theorem idxOf_prefix {fs fs' : List FcgiEp} (hp : fs <+: fs') {x : FcgiEp} (hx : x ∈ fs) : fs'.idxOf x = fs.idxOf x := by
  obtain ⟨t, rfl⟩ := hp
  rw [List.idxOf_append, if_pos hx]

theorem lastOf_mem {α β : Type} {f : α → Option β} {l : List α} {b : β} (h : lastOf f l = some b) : ∃ a ∈ l, f a = some b := by
  unfold lastOf at h
  have := List.mem_of_getLast? h
  simpa [List.mem_filterMap] using this

/-- the endpoints of these options are declared -/
def Declared (fs : List FcgiEp) (os : List LocOpt) : Prop := ∀ o ∈ os, ∀ d, socketOf o = some d → endpoint d ∈ fs

theorem Declared.mono {fs fs' : List FcgiEp} {os : List LocOpt} (h : Declared fs os) (hp : fs <+: fs') : Declared fs' os :=
  fun o ho d hd => hp.subset (h o ho d hd)

theorem locValue_mono {fs fs' : List FcgiEp} (hp : fs <+: fs') {os : List LocOpt} (hd : Declared fs os) (pat : Bytes) :
    locValue fs' pat os = locValue fs pat os := by
  have key : fcgiIndex fs' (lastOf fcgiOf os) = fcgiIndex fs (lastOf fcgiOf os) := by
    cases h : lastOf fcgiOf os with
    | none => rfl
    | some x =>
      cases x with
      | none => rfl
      | some d =>
        obtain ⟨o, ho, he⟩ := lastOf_mem h
        have : socketOf o = some d := by cases o <;> simp_all [fcgiOf, socketOf]
        simp only [fcgiIndex, idxOf_prefix hp (hd o ho d this)]
  unfold locValue
  simp only [key]

theorem locAction_val {fs fs' : List FcgiEp} {l' : CLoc} {o : LocOpt} {os : List LocOpt} {pat : Bytes} (hn : fs.Nodup) (hd : Declared fs os)
    (h : locAction fs (locValue fs pat os) o = .ok (fs', l', 0)) :
    fs'.Nodup ∧ fs <+: fs' ∧ Declared fs' (os ++ [o]) ∧ l' = locValue fs' pat (os ++ [o]) := by
  have decl : (∀ d, socketOf o ≠ some d) → Declared fs (os ++ [o]) := by
    intro hno x hx d hxd
    simp only [List.mem_append, List.mem_singleton] at hx
    rcases hx with hx | rfl
    · exact hd x hx d hxd
    · exact absurd hxd (hno d)
  cases o with
  | blockReturn n s =>
    cases s with
    | none =>
      simp only [locAction, Res.ok.injEq, Prod.mk.injEq] at h
      obtain ⟨rfl, rfl, he⟩ := h
      refine ⟨hn, List.prefix_rfl, decl (by simp [socketOf]), ?_⟩
      simp [locValue, lastOf_snoc, langOf, defaultTypeOf, indexOf, autoIndexOf, blockOf, stripOf, requireCaOf, logOf, fcgiOf, isFcgiOff, fcgiStripOf, paramOf, rootOf, fcgiIndex]
    | some s =>
      simp only [locAction] at h
      cases hc : checkBlockFmt s with
      | ub => rw [hc] at h; cases h
      | err => rw [hc] at h; cases h
      | ok good =>
        rw [hc] at h
        simp only [Res.ok.injEq, Prod.mk.injEq] at h
        obtain ⟨rfl, rfl, he⟩ := h
        refine ⟨hn, List.prefix_rfl, decl (by simp [socketOf]), ?_⟩
        rw [fld_of_le (n := 1027) (by omega)]
        simp [locValue, lastOf_snoc, langOf, defaultTypeOf, indexOf, autoIndexOf, blockOf, stripOf, requireCaOf, logOf, fcgiOf, isFcgiOff, fcgiStripOf, paramOf, rootOf, fcgiIndex]
  | fcgiSocket p q =>
    simp only [locAction] at h
    cases hc : fastcgiConf fs p q with
    | ub => rw [hc] at h; cases h
    | err => rw [hc] at h; cases h
    | ok x =>
      obtain ⟨x1, x2, x3⟩ := x
      rw [hc] at h
      simp only [Res.ok.injEq, Prod.mk.injEq] at h
      obtain ⟨rfl, rfl, rfl⟩ := h
      obtain ⟨a1, a2, a3⟩ := fastcgiConf_spec (d := (p, q)) hn hc
      have hp : fs <+: x1 := by
        rcases a3 with rfl | rfl
        · exact List.prefix_rfl
        · exact List.prefix_append _ _
      have hi : x1.idxOf (endpoint (p, q)) = x2 := by
        obtain ⟨hlt, he⟩ := List.getElem?_eq_some_iff.mp a2
        rw [← he, List.Nodup.idxOf_getElem a1 x2 hlt]
      have hdm := hd.mono hp
      refine ⟨a1, hp, ?_, ?_⟩
      · intro y hy d hyd
        simp only [List.mem_append, List.mem_singleton] at hy
        rcases hy with hy | rfl
        · exact hdm y hy d hyd
        · simp only [socketOf, Option.some.injEq] at hyd
          exact hyd ▸ List.mem_of_getElem? a2
      · rw [← locValue_mono hp hd pat]
        simp [locValue, lastOf_snoc, langOf, defaultTypeOf, indexOf, autoIndexOf, blockOf, stripOf, requireCaOf, logOf, fcgiOf, isFcgiOff, fcgiStripOf, paramOf, rootOf, fcgiIndex, hi]
  | fcgiParam n v =>
    simp only [locAction, Res.ok.injEq, Prod.mk.injEq] at h
    obtain ⟨rfl, rfl, he⟩ := h
    refine ⟨hn, List.prefix_rfl, decl (by simp [socketOf]), ?_⟩
    rw [fld_of_le (n := 511) (s := n) (by omega), fld_of_le (n := 511) (s := v) (by omega)]
    simp [locValue, lastOf_snoc, langOf, defaultTypeOf, indexOf, autoIndexOf, blockOf, stripOf, requireCaOf, logOf, fcgiOf, isFcgiOff, fcgiStripOf, paramOf, rootOf, fcgiIndex]
  | defaultType s | index s | lang s | root s =>
    simp only [locAction, Res.ok.injEq, Prod.mk.injEq] at h
    obtain ⟨rfl, rfl, he⟩ := h
    refine ⟨hn, List.prefix_rfl, decl (by simp [socketOf]), ?_⟩
    rw [fld_of_le he]
    simp [locValue, lastOf_snoc, langOf, defaultTypeOf, indexOf, autoIndexOf, blockOf, stripOf, requireCaOf, logOf, fcgiOf, isFcgiOff, fcgiStripOf, paramOf, rootOf, fcgiIndex]
  | autoIndex _ | block | fcgiOff | fcgiStrip _ | log _ | requireCa _ | strip _ =>
    simp only [locAction, Res.ok.injEq, Prod.mk.injEq] at h
    obtain ⟨rfl, rfl, he⟩ := h
    refine ⟨hn, List.prefix_rfl, decl (by simp [socketOf]), ?_⟩
    simp [locValue, lastOf_snoc, langOf, defaultTypeOf, indexOf, autoIndexOf, blockOf, stripOf, requireCaOf, logOf, fcgiOf, isFcgiOff, fcgiStripOf, paramOf, rootOf, fcgiIndex]

theorem locActions_val (r : List LocOpt) : ∀ {fs fs' : List FcgiEp} {l' : CLoc} {os : List LocOpt} {pat : Bytes}, fs.Nodup → Declared fs os →
    locActions fs (locValue fs pat os) r = .ok (fs', l', 0) →
    fs'.Nodup ∧ fs <+: fs' ∧ Declared fs' (os ++ r) ∧ l' = locValue fs' pat (os ++ r) := by
  induction r with
  | nil =>
    intro fs fs' l' os pat hn hd h
    simp only [locActions, Res.ok.injEq, Prod.mk.injEq] at h
    obtain ⟨rfl, rfl, _⟩ := h
    exact ⟨hn, List.prefix_rfl, by simpa using hd, by simp⟩
  | cons o r ih =>
    intro fs fs' l' os pat hn hd h
    rw [locActions] at h
    cases h1 : locAction fs (locValue fs pat os) o with
    | ub => rw [h1] at h; cases h
    | err => rw [h1] at h; cases h
    | ok x =>
      obtain ⟨x1, x2, x3⟩ := x
      rw [h1] at h
      simp only at h
      cases h2 : locActions x1 x2 r with
      | ub => rw [h2] at h; cases h
      | err => rw [h2] at h; cases h
      | ok y =>
        obtain ⟨y1, y2, y3⟩ := y
        rw [h2] at h
        simp only [Res.ok.injEq, Prod.mk.injEq] at h
        obtain ⟨rfl, rfl, he⟩ := h
        have e1 : x3 = 0 := by omega
        have e2 : y3 = 0 := by omega
        subst e1 e2
        obtain ⟨a1, a2, a3, a4⟩ := locAction_val hn hd h1
        subst a4
        obtain ⟨b1, b2, b3, b4⟩ := ih a1 a3 h2
        have : os ++ o :: r = os ++ [o] ++ r := by simp
        rw [this]
        exact ⟨b1, a2.trans b2, b3, b4⟩

/-! ## Proxy blocks -/

theorem runActions_err {σ α : Type} {f : σ → α → σ × Nat} {ok : α → Prop} (hf : ∀ s o, (f s o).2 = 0 ↔ ok o) (r : List α) :
    ∀ s, (runActions f s r).2 = 0 ↔ ∀ o ∈ r, ok o := by
  induction r with
  | nil => intro s; simp [runActions]
  | cons o r ih =>
    intro s
    simp only [runActions, List.forall_mem_cons, ← hf s o, ← ih (f s o).1]
    omega

theorem runActions_val {σ α : Type} {f : σ → α → σ × Nat} {val : List α → σ} (hf : ∀ os o, (f (val os) o).2 = 0 → (f (val os) o).1 = val (os ++ [o]))
    (r : List α) : ∀ os, (runActions f (val os) r).2 = 0 → (runActions f (val os) r).1 = val (os ++ r) := by
  induction r with
  | nil => intro os _; simp [runActions]
  | cons o r ih =>
    intro os h
    simp only [runActions] at h ⊢
    have e := hf os o (by omega)
    rw [e] at h ⊢
    rw [ih _ (by omega)]
    simp

theorem natDec_len (m : Nat) : ∀ k : Nat, k < 10 ^ (m + 1) → (natDec k).length ≤ m + 1 := by
  induction m with
  | zero => intro k hk; rw [natDec_small k (by omega)]; simp
  | succ m ih =>
    intro k hk
    by_cases h : k < 10
    · rw [natDec_small k h]; simp
    · rw [natDec_step k (by omega)]
      have := ih (k / 10) (by rw [Nat.pow_succ] at hk; omega)
      simp; omega

theorem intDec_len {n : Int} (h1 : -2147483648 ≤ n) (h2 : n ≤ 2147483647) : (intDec n).length ≤ 31 := by
  have := natDec_len 9 n.natAbs (by omega)
  unfold intDec
  split <;> simp <;> omega

theorem getservice_eq (env : PEnv) (s : Bytes) :
    getservice env s = (portValue env (.name s)).getD (-1) ∧ ∀ v, portValue env (.name s) = some v → 0 ≤ v ∧ v ≤ 65535 := by
  unfold getservice portValue
  cases hs : strtonum s 0 65535 with
  | mk v e =>
    cases e with
    | none =>
      obtain ⟨_, h1, h2⟩ := (C46_strtonum s 0 65535 v (by omega) (by omega)).mp hs
      simp only [hs, Option.getD_some, Option.some.injEq, true_and]
      rintro w rfl
      exact ⟨h1, h2⟩
    | some e =>
      simp only
      cases env.serv s with
      | none => simp [hs]
      | some q =>
        have := q.toNat_lt
        simp only [hs, Option.map_some, Option.getD_some, Option.some.injEq, true_and]
        rintro w rfl
        omega

theorem getservice_portValue (env : PEnv) (p : PortArg) :
    ((proxyPort env p).2 = 0 ↔ portValue env p ≠ none) ∧ ((proxyPort env p).2 = 0 → portValue env p = some (proxyPort env p).1) ∧
    -2147483648 ≤ (proxyPort env p).1 ∧ (proxyPort env p).1 ≤ 2147483647 := by
  cases p with
  | none => simp [proxyPort, portValue]
  | num n =>
    simp only [proxyPort, portValue, llToInt]
    refine ⟨by simp, by simp, ?_, ?_⟩ <;> omega
  | name s =>
    obtain ⟨g1, g2⟩ := getservice_eq env s
    simp only [proxyPort]
    cases h : portValue env (.name s) with
    | none =>
      rw [h] at g1
      simp only [Option.getD_none] at g1
      rw [g1]
      simp
    | some v =>
      rw [h] at g1
      simp only [Option.getD_some] at g1
      have := g2 v h
      rw [g1, if_neg (by omega)]
      refine ⟨by simp, by simp, ?_, ?_⟩ <;> omega

theorem fld_port (env : PEnv) (p : PortArg) : fld 32 (intDec (proxyPort env p).1) = intDec (proxyPort env p).1 := by
  obtain ⟨_, _, h1, h2⟩ := getservice_portValue env p
  exact List.take_of_length_le (intDec_len h1 h2)

/-- the value of a proxy block after its matches and these options -/
theorem proxyMatch_val (env : PEnv) (os : List ProxyMatch) (o : ProxyMatch) (h : (proxyMatchAction env (proxyValue env (os, [])) o).2 = 0) :
    (proxyMatchAction env (proxyValue env (os, [])) o).1 = proxyValue env (os ++ [o], []) := by
  cases o with
  | proto s =>
    simp only [proxyMatchAction] at h ⊢
    rw [fld_of_le h]
    simp [proxyValue, lastOf_snoc, protoOf, forHostOf]
  | forHost s p =>
    simp only [proxyMatchAction] at h ⊢
    obtain ⟨_, g2, _⟩ := getservice_portValue env p
    rw [fld_port, fld_of_le (n := 256) (by omega)]
    simp [proxyValue, lastOf_snoc, protoOf, forHostOf, hostText, portText, g2 (by omega)]

theorem proxyOpt_val (env : PEnv) (ms : List ProxyMatch) (os : List ProxyOpt) (o : ProxyOpt) (h : (proxyOptAction env (proxyValue env (ms, os)) o).2 = 0) :
    (proxyOptAction env (proxyValue env (ms, os)) o).1 = proxyValue env (ms, os ++ [o]) := by
  cases o with
  | protocols s =>
    simp only [proxyOptAction] at h ⊢
    cases hp : env.protos s with
    | none => rw [hp] at h; cases h
    | some v => simp [proxyValue, lastOf_snoc, pCertOf, pKeyOf, pProtocolsOf, pRelayOf, pRequireCaOf, pSniOf, pUseTlsOf, pVerifyOf, hp]
  | relayTo s p =>
    simp only [proxyOptAction] at h ⊢
    obtain ⟨_, g2, _⟩ := getservice_portValue env p
    rw [fld_port, fld_of_le (n := 256) (by omega)]
    simp [proxyValue, lastOf_snoc, pCertOf, pKeyOf, pProtocolsOf, pRelayOf, pRequireCaOf, pSniOf, pUseTlsOf, pVerifyOf, hostText, portText, g2 (by omega)]
  | sni s =>
    simp only [proxyOptAction] at h ⊢
    rw [fld_of_le h]
    simp [proxyValue, lastOf_snoc, pCertOf, pKeyOf, pProtocolsOf, pRelayOf, pRequireCaOf, pSniOf, pUseTlsOf, pVerifyOf]
  | cert s | key s | proxyV1 | requireCa s | useTls b | verifyName b =>
    simp [proxyOptAction, proxyValue, lastOf_snoc, pCertOf, pKeyOf, pProtocolsOf, pRelayOf, pRequireCaOf, pSniOf, pUseTlsOf, pVerifyOf]

theorem proxyAction_spec (env : PEnv) (ms : List ProxyMatch) (os : List ProxyOpt) :
    ((proxyAction env ms os).2 = 0 ↔ ProxyOk env ms os) ∧ ((proxyAction env ms os).2 = 0 → (proxyAction env ms os).1 = proxyValue env (ms, os)) := by
  have m1 := runActions_err (f := proxyMatchAction env) (ok := ProxyMatchOk env) (fun s o => by
    cases o with
    | proto x => exact tooLong_iff 32 x (by omega)
    | forHost x p =>
      simp only [proxyMatchAction, ProxyMatchOk, ← (getservice_portValue env p).1]
      have := tooLong_iff 256 x (by omega)
      omega) ms {}
  have m2 := runActions_val (f := proxyMatchAction env) (val := fun l => proxyValue env (l, [])) (proxyMatch_val env) ms []
  have e0 : proxyValue env ([], []) = {} := rfl
  simp only [e0, List.nil_append] at m2
  have o1 := fun s => runActions_err (f := proxyOptAction env) (ok := ProxyOptOk env) (fun s o => by
    cases o with
    | cert x => exact ensureAbs_iff x
    | key x => exact ensureAbs_iff x
    | requireCa x => exact ensureAbs_iff x
    | sni x => exact tooLong_iff 255 x (by omega)
    | protocols x => simp only [proxyOptAction, ProxyOptOk]; cases env.protos x <;> simp
    | relayTo x p =>
      simp only [proxyOptAction, ProxyOptOk, ← (getservice_portValue env p).1]
      have := tooLong_iff 256 x (by omega)
      omega
    | proxyV1 => simp [proxyOptAction, ProxyOptOk]
    | useTls b => simp [proxyOptAction, ProxyOptOk]
    | verifyName b => simp [proxyOptAction, ProxyOptOk]) os s
  have o2 := runActions_val (f := proxyOptAction env) (val := fun l => proxyValue env (ms, l)) (proxyOpt_val env ms) os []
  simp only [List.nil_append] at o2
  unfold proxyAction ProxyOk
  simp only
  by_cases hm : (runActions (proxyMatchAction env) {} ms).2 = 0
  · rw [m2 hm]
    by_cases ho : (runActions (proxyOptAction env) (proxyValue env (ms, [])) os).2 = 0
    · rw [o2 ho, hm, ho]
      have hh : (proxyValue env (ms, os)).host = [] ↔ ¬ ∃ s p, lastOf pRelayOf os = some (s, p) ∧ s ≠ [] := by
        simp only [proxyValue, hostText]
        cases hl : lastOf pRelayOf os with
        | none => simp
        | some x => obtain ⟨s, p⟩ := x; simp
      have hc : (proxyValue env (ms, os)).certPath = lastOf pCertOf os := rfl
      have hk : (proxyValue env (ms, os)).keyPath = lastOf pKeyOf os := rfl
      rw [hc, hk]
      have a := m1.mp hm
      have b := (o1 _).mp ho
      refine ⟨?_, fun _ => rfl⟩
      by_cases h1 : (proxyValue env (ms, os)).host = []
      · rw [if_pos h1]
        have := hh.mp h1
        constructor
        · intro h; omega
        · intro h; exact absurd h.2.2.1 this
      · rw [if_neg h1]
        have h2 : ∃ s p, lastOf pRelayOf os = some (s, p) ∧ s ≠ [] := Classical.not_not.mp (fun hn => h1 (hh.mpr hn))
        by_cases h3 : (lastOf pCertOf os = none ∧ lastOf pKeyOf os ≠ none) ∨ (lastOf pCertOf os ≠ none ∧ lastOf pKeyOf os = none)
        · rw [if_pos h3]
          constructor
          · intro h; omega
          · intro h
            have h4 := h.2.2.2
            rcases h3 with ⟨x, y⟩ | ⟨x, y⟩
            · exact absurd (h4.mp x) y
            · exact absurd (h4.mpr y) x
        · rw [if_neg h3]
          refine ⟨fun _ => ⟨a, b, h2, ?_⟩, fun _ => rfl⟩
          constructor
          · intro x; exact Classical.not_not.mp (fun y => h3 (.inl ⟨x, y⟩))
          · intro y; exact Classical.not_not.mp (fun x => h3 (.inr ⟨x, y⟩))
    · refine ⟨⟨fun h => by omega, fun h => absurd ((o1 _).mpr h.2.1) ho⟩, fun h => by omega⟩
  · refine ⟨⟨fun h => by omega, fun h => absurd (m1.mpr h.1) hm⟩, fun h => by omega⟩

end Gmid
