import Verif.Lemmas.Actions

/-!
# Lemmas about the semantic actions: servers and files
-/

set_option autoImplicit false

namespace Gmid

open Spec Props

theorem dropSlash_eq (p : Bytes) : dropSlash p = noSlash p := by
  unfold noSlash
  cases p with
  | nil => rfl
  | cons c r => by_cases hc : c = 47 <;> simp [dropSlash, hc]

theorem setLast_concat {α : Type} (l : List α) (x a : α) : setLast a (l ++ [x]) = l ++ [a] := by
  induction l with
  | nil => rfl
  | cons y r ih =>
    cases r with
    | nil => rfl
    | cons z r => rw [List.cons_append, List.cons_append, setLast, ← List.cons_append, ih]; rfl
                  simp

/-- the addresses a directive of a server asks for -/
def srvPairs (env : PEnv) (o : SrvOpt) : List (AddrInfo × Bool) :=
  match listenOf o with
  | some l => resolved env l
  | none => []

theorem srvAction_err {env : PEnv} {s s' : SrvSt} {o : SrvOpt} (ho : EpsOk s.fcgi) (h : srvAction env s o = .ok s') :
    EpsOk s'.fcgi ∧ ∃ e eh ec, s'.errors = s.errors + e + eh + ec ∧ (e = 0 ↔ SrvOptOk env o) ∧
      addAll s.host.addrs (srvPairs env o) = .ok (s'.host.addrs, eh) ∧ addAll s.confAddrs (srvPairs env o) = .ok (s'.confAddrs, ec) := by
  cases o with
  | alias a =>
    simp only [srvAction, Res.ok.injEq] at h
    subst h
    exact ⟨ho, tooLong 256 a, 0, 0, rfl, tooLong_iff 256 a (by omega), rfl, rfl⟩
  | cert a | key a | ocsp a =>
    simp only [srvAction, Res.ok.injEq] at h
    subst h
    exact ⟨ho, ensureAbs a, 0, 0, rfl, ensureAbs_iff a, rfl, rfl⟩
  | cgi a =>
    simp only [srvAction, Res.ok.injEq] at h
    subst h
    exact ⟨ho, 1, 0, 0, rfl, by simp [SrvOptOk], rfl, rfl⟩
  | listen hst port v =>
    simp only [srvAction] at h
    cases hr : env.resolve hst port with
    | none =>
      rw [hr] at h
      simp only [Res.ok.injEq] at h
      subst h
      refine ⟨ho, 1, 0, 0, rfl, by simp [SrvOptOk, hr], ?_, ?_⟩ <;> simp [srvPairs, listenOf, resolved, hr, addAll]
    | some ais =>
      rw [hr] at h
      simp only at h
      cases hl : listenOn s.host.addrs s.confAddrs v ais with
      | ub => rw [hl] at h; cases h
      | err => rw [hl] at h; cases h
      | ok x =>
        obtain ⟨hq, cq, e⟩ := x
        rw [hl] at h
        simp only [Res.ok.injEq] at h
        subst h
        obtain ⟨eh, ec, g1, g2, g3⟩ := listenOn_split _ _ _ _ _ _ _ hl
        refine ⟨ho, 0, eh, ec, by simp only; omega, by simp [SrvOptOk, hr], ?_, ?_⟩
        · simpa [srvPairs, listenOf, resolved, hr] using g1
        · simpa [srvPairs, listenOf, resolved, hr] using g2
  | opt o =>
    simp only [srvAction] at h
    cases hl : s.host.locs.getLast? with
    | none => rw [hl] at h; cases h
    | some l =>
      rw [hl] at h
      simp only at h
      cases ha : locAction s.fcgi l o with
      | ub => rw [ha] at h; cases h
      | err => rw [ha] at h; cases h
      | ok x =>
        obtain ⟨fs, l', e⟩ := x
        rw [ha] at h
        simp only [Res.ok.injEq] at h
        subst h
        obtain ⟨a1, a2⟩ := locAction_err ho ha
        exact ⟨a1, e, 0, 0, rfl, a2, rfl, rfl⟩
  | location path opts =>
    simp only [srvAction] at h
    cases ha : locActions s.fcgi {} opts with
    | ub => rw [ha] at h; cases h
    | err => rw [ha] at h; cases h
    | ok x =>
      obtain ⟨fs, l, e⟩ := x
      rw [ha] at h
      simp only [Res.ok.injEq] at h
      subst h
      obtain ⟨a1, a2⟩ := locActions_err opts ho ha
      refine ⟨a1, e + tooLong 128 (dropSlash path), 0, 0, by simp only; omega, ?_, rfl, rfl⟩
      simp only [SrvOptOk, ← a2]
      rw [dropSlash_eq]
      have := tooLong_iff 128 (noSlash path) (by omega)
      omega
  | proxy ms opts =>
    simp only [srvAction, Res.ok.injEq] at h
    subst h
    exact ⟨ho, (proxyAction env ms opts).2, 0, 0, rfl, (proxyAction_spec env ms opts).1, rfl, rfl⟩

theorem addAll_trans {q q1 q2 : List LAddr} {a b : List (AddrInfo × Bool)} {e1 e2 : Nat} (h1 : addAll q a = .ok (q1, e1)) (h2 : addAll q1 b = .ok (q2, e2)) :
    addAll q (a ++ b) = .ok (q2, e1 + e2) := by
  rw [addAll_append, h1]
  simp only [h2]

theorem srvActions_err {env : PEnv} (body : List SrvOpt) : ∀ {s s' : SrvSt}, EpsOk s.fcgi → srvActions env s body = .ok s' →
    EpsOk s'.fcgi ∧ ∃ e eh ec, s'.errors = s.errors + e + eh + ec ∧ (e = 0 ↔ ∀ o ∈ body, SrvOptOk env o) ∧
      addAll s.host.addrs (body.flatMap (srvPairs env)) = .ok (s'.host.addrs, eh) ∧
      addAll s.confAddrs (body.flatMap (srvPairs env)) = .ok (s'.confAddrs, ec) := by
  induction body with
  | nil =>
    intro s s' ho h
    simp only [srvActions, Res.ok.injEq] at h
    subst h
    exact ⟨ho, 0, 0, 0, rfl, by simp, rfl, rfl⟩
  | cons o r ih =>
    intro s s' ho h
    rw [srvActions] at h
    cases h1 : srvAction env s o with
    | ub => rw [h1] at h; cases h
    | err => rw [h1] at h; cases h
    | ok s1 =>
      rw [h1] at h
      simp only at h
      obtain ⟨a1, e, eh, ec, a2, a3, a4, a5⟩ := srvAction_err ho h1
      obtain ⟨b1, e', eh', ec', b2, b3, b4, b5⟩ := ih a1 h
      refine ⟨b1, e + e', eh + eh', ec + ec', by omega, ?_, ?_, ?_⟩
      · simp only [List.forall_mem_cons, ← a3, ← b3]; omega
      · rw [List.flatMap_cons]; exact addAll_trans a4 b4
      · rw [List.flatMap_cons]; exact addAll_trans a5 b5

/-! ## Values -/

/-- an option is added to the last block -/
def addToLast (o : LocOpt) : List (Bytes × List LocOpt) → List (Bytes × List LocOpt)
  | [] => []
  | [b] => [(b.1, b.2 ++ [o])]
  | b :: r => b :: addToLast o r

theorem addToLast_concat (o : LocOpt) (l : List (Bytes × List LocOpt)) (b : Bytes × List LocOpt) : addToLast o (l ++ [b]) = l ++ [(b.1, b.2 ++ [o])] := by
  induction l with
  | nil => rfl
  | cons y r ih =>
    cases r with
    | nil => rfl
    | cons z r => rw [List.cons_append, List.cons_append, addToLast, ← List.cons_append, ih]; rfl
                  simp

/-- the locations of a server with the options they get -/
def blockStep (bs : List (Bytes × List LocOpt)) : SrvOpt → List (Bytes × List LocOpt)
  | .opt o => addToLast o bs
  | .location p os => bs ++ [(noSlash p, os)]
  | _ => bs

/-- the locations of a server with the options they get: first the default one -/
def blocks (body : List SrvOpt) : List (Bytes × List LocOpt) := body.foldl blockStep [(b%"*", [])]

theorem blocks_snoc (body : List SrvOpt) (o : SrvOpt) : blocks (body ++ [o]) = blockStep (blocks body) o := by simp [blocks]

theorem blocks_ne (body : List SrvOpt) : blocks body ≠ [] := by
  have : ∀ bs, bs ≠ [] → body.foldl blockStep bs ≠ [] := by
    induction body with
    | nil => intro bs h; exact h
    | cons o r ih =>
      intro bs h
      refine ih _ ?_
      cases o with
      | opt o =>
        obtain ⟨l, b, rfl⟩ : ∃ l b, bs = l ++ [b] := ⟨bs.dropLast, bs.getLast h, (List.dropLast_concat_getLast h).symm⟩
        simp [blockStep, addToLast_concat]
      | location p os => simp [blockStep]
      | _ => exact h
  exact this _ (by simp)

/-- the server after these directives -/
structure SrvInv (env : PEnv) (name : Bytes) (body : List SrvOpt) (s : SrvSt) : Prop where
  nodup : s.fcgi.Nodup
  decl : ∀ b ∈ blocks body, Declared s.fcgi b.2
  locs : s.host.locs = (blocks body).map fun b => locValue s.fcgi b.1 b.2
  domain : s.host.domain = name
  cert : s.host.certPath = lastOf certOf body
  key : s.host.keyPath = lastOf keyOf body
  ocsp : s.host.ocspPath = lastOf ocspOf body
  aliases : s.host.aliases = body.filterMap aliasOf
  proxies : s.host.proxies = (body.filterMap proxyOf).map (proxyValue env)

theorem blocks_mono {fs fs' : List FcgiEp} (hp : fs <+: fs') {bs : List (Bytes × List LocOpt)} (hd : ∀ b ∈ bs, Declared fs b.2) :
    (bs.map fun b => locValue fs' b.1 b.2) = bs.map fun b => locValue fs b.1 b.2 :=
  List.map_congr_left fun b hb => locValue_mono hp (hd b hb) b.1

theorem srvAction_val {env : PEnv} {s s' : SrvSt} {name : Bytes} {body : List SrvOpt} {o : SrvOpt} (hi : SrvInv env name body s)
    (h : srvAction env s o = .ok s') (h0 : s'.errors = 0) : SrvInv env name (body ++ [o]) s' ∧ s.fcgi <+: s'.fcgi := by
  obtain ⟨i1, i2, i3, i4, i5, i6, i7, i8, i9⟩ := hi
  cases o with
  | alias a =>
    simp only [srvAction, Res.ok.injEq] at h
    subst h
    simp only at h0
    have : fld 256 a = a := fld_of_le (by omega)
    refine ⟨⟨i1, by simpa [blocks_snoc, blockStep] using i2, by simpa [blocks_snoc, blockStep] using i3, i4, ?_, ?_, ?_, ?_, ?_⟩, List.prefix_rfl⟩ <;>
      simp [lastOf_snoc, certOf, keyOf, ocspOf, aliasOf, proxyOf, i5, i6, i7, i8, i9, this]
  | cert a | key a | ocsp a | cgi a =>
    simp only [srvAction, Res.ok.injEq] at h
    subst h
    simp only at h0
    refine ⟨⟨i1, by simpa [blocks_snoc, blockStep] using i2, by simpa [blocks_snoc, blockStep] using i3, i4, ?_, ?_, ?_, ?_, ?_⟩, List.prefix_rfl⟩ <;>
      simp [lastOf_snoc, certOf, keyOf, ocspOf, aliasOf, proxyOf, i5, i6, i7, i8, i9]
  | listen hst port v =>
    simp only [srvAction] at h
    cases hr : env.resolve hst port with
    | none =>
      rw [hr] at h
      simp only [Res.ok.injEq] at h
      subst h
      simp at h0
    | some ais =>
      rw [hr] at h
      simp only at h
      cases hl : listenOn s.host.addrs s.confAddrs v ais with
      | ub => rw [hl] at h; cases h
      | err => rw [hl] at h; cases h
      | ok x =>
        obtain ⟨hq, cq, e⟩ := x
        rw [hl] at h
        simp only [Res.ok.injEq] at h
        subst h
        refine ⟨⟨i1, by simpa [blocks_snoc, blockStep] using i2, by simpa [blocks_snoc, blockStep] using i3, i4, ?_, ?_, ?_, ?_, ?_⟩, List.prefix_rfl⟩ <;>
          simp [lastOf_snoc, certOf, keyOf, ocspOf, aliasOf, proxyOf, i5, i6, i7, i8, i9]
  | opt o =>
    simp only [srvAction] at h
    obtain ⟨l, b, hb⟩ : ∃ l b, blocks body = l ++ [b] := ⟨(blocks body).dropLast, (blocks body).getLast (blocks_ne body), (List.dropLast_concat_getLast _).symm⟩
    rw [i3, hb] at h
    simp only [List.map_append, List.map_cons, List.map_nil, List.getLast?_concat, setLast_concat] at h
    cases ha : locAction s.fcgi (locValue s.fcgi b.1 b.2) o with
    | ub => rw [ha] at h; cases h
    | err => rw [ha] at h; cases h
    | ok x =>
      obtain ⟨fs, l', e⟩ := x
      rw [ha] at h
      simp only [Res.ok.injEq] at h
      subst h
      simp only at h0
      have e0 : e = 0 := by omega
      subst e0
      obtain ⟨a1, a2, a3, a4⟩ := locAction_val i1 (i2 b (by rw [hb]; simp)) ha
      have hbs : blocks (body ++ [.opt o]) = l ++ [(b.1, b.2 ++ [o])] := by rw [blocks_snoc, hb, blockStep, addToLast_concat]
      refine ⟨⟨a1, ?_, ?_, i4, ?_, ?_, ?_, ?_, ?_⟩, a2⟩
      · intro x hx
        rw [hbs] at hx
        simp only [List.mem_append, List.mem_singleton] at hx
        rcases hx with hx | rfl
        · exact (i2 x (by rw [hb]; simp [hx])).mono a2
        · exact a3
      · simp only [hbs, List.map_append, List.map_cons, List.map_nil, a4]
        rw [blocks_mono a2 (fun x hx => i2 x (by rw [hb]; simp [hx]))]
      all_goals simp [lastOf_snoc, certOf, keyOf, ocspOf, aliasOf, proxyOf, i5, i6, i7, i8, i9]
  | location path opts =>
    simp only [srvAction] at h
    cases ha : locActions s.fcgi {} opts with
    | ub => rw [ha] at h; cases h
    | err => rw [ha] at h; cases h
    | ok x =>
      obtain ⟨fs, l, e⟩ := x
      rw [ha] at h
      simp only [Res.ok.injEq] at h
      subst h
      simp only at h0
      have e0 : e = 0 := by omega
      subst e0
      have ev : locValue s.fcgi [] [] = {} := rfl
      rw [← ev] at ha
      obtain ⟨a1, a2, a3, a4⟩ := locActions_val opts i1 (fun o ho => by cases ho) ha
      simp only [List.nil_append] at a3 a4
      have hp : fld 128 (dropSlash path) = noSlash path := by rw [← dropSlash_eq]; exact fld_of_le (by omega)
      refine ⟨⟨a1, ?_, ?_, i4, ?_, ?_, ?_, ?_, ?_⟩, a2⟩
      · intro x hx
        rw [blocks_snoc, blockStep] at hx
        simp only [List.mem_append, List.mem_singleton] at hx
        rcases hx with hx | rfl
        · exact (i2 x hx).mono a2
        · exact a3
      · simp only [blocks_snoc, blockStep, List.map_append, List.map_cons, List.map_nil, i3, hp, a4]
        rw [blocks_mono a2 i2]
        rfl
      all_goals simp [lastOf_snoc, certOf, keyOf, ocspOf, aliasOf, proxyOf, i5, i6, i7, i8, i9]
  | proxy ms opts =>
    simp only [srvAction, Res.ok.injEq] at h
    subst h
    simp only at h0
    have := (proxyAction_spec env ms opts).2 (by omega)
    refine ⟨⟨i1, by simpa [blocks_snoc, blockStep] using i2, by simpa [blocks_snoc, blockStep] using i3, i4, ?_, ?_, ?_, ?_, ?_⟩, List.prefix_rfl⟩ <;>
      simp [lastOf_snoc, certOf, keyOf, ocspOf, aliasOf, proxyOf, i5, i6, i7, i8, i9, this]

theorem srvActions_val {env : PEnv} {name : Bytes} (r : List SrvOpt) : ∀ {s s' : SrvSt} {body : List SrvOpt}, EpsOk s.fcgi → SrvInv env name body s →
    srvActions env s r = .ok s' → s'.errors = 0 → SrvInv env name (body ++ r) s' ∧ s.fcgi <+: s'.fcgi := by
  induction r with
  | nil =>
    intro s s' body _ hi h _
    simp only [srvActions, Res.ok.injEq] at h
    subst h
    exact ⟨by simpa using hi, List.prefix_rfl⟩
  | cons o r ih =>
    intro s s' body ho hi h h0
    rw [srvActions] at h
    cases h1 : srvAction env s o with
    | ub => rw [h1] at h; cases h
    | err => rw [h1] at h; cases h
    | ok s1 =>
      rw [h1] at h
      simp only at h
      obtain ⟨a1, _⟩ := srvAction_err ho h1
      obtain ⟨b1, e', eh', ec', b2, _⟩ := srvActions_err r a1 h
      obtain ⟨c1, c2⟩ := srvAction_val hi h1 (by omega)
      obtain ⟨d1, d2⟩ := ih a1 c1 h h0
      exact ⟨by simpa using d1, c2.trans d2⟩

/-- at the opening brace -/
theorem newHost_inv {env : PEnv} {fs : List FcgiEp} (hn : fs.Nodup) (cq : List LAddr) {name : Bytes} (e : Nat) (hl : name.length ≤ 255) :
    SrvInv env name [] ⟨fs, cq, newHost name, e⟩ := by
  refine ⟨hn, ?_, rfl, ?_, rfl, rfl, rfl, rfl, rfl⟩
  · intro b hb
    simp only [blocks, List.foldl_nil, List.mem_singleton] at hb
    subst hb
    intro o ho
    cases ho
  · exact List.take_of_length_le (by simpa using hl)

/-- if the options of the server come first, the locations have their own options and the default one those of the server -/
theorem blocks_first {body : List SrvOpt} (h : OptsFirst body) :
    blocks body = (b%"*", body.filterMap optOf) :: (body.filterMap locationOf).map fun x => (noSlash x.1, x.2) := by
  obtain ⟨pre, post, rfl, h1, h2⟩ := h
  have p1 : ∀ os, pre.foldl blockStep [(b%"*", os)] = [(b%"*", os ++ pre.filterMap optOf)] := by
    induction pre with
    | nil => intro os; simp
    | cons o r ih =>
      intro os
      cases o with
      | location p q => simp [locationOf] at h1
      | opt o => rw [List.foldl_cons, blockStep, addToLast, ih (by simpa [locationOf] using h1)]; simp [optOf]
      | alias _ | cert _ | cgi _ | key _ | ocsp _ | listen _ _ _ | proxy _ _ => exact ih h1 os
  have p2 : ∀ bs, post.foldl blockStep bs = bs ++ (post.filterMap locationOf).map fun x => (noSlash x.1, x.2) := by
    clear h1 p1
    induction post with
    | nil => intro bs; simp
    | cons o r ih =>
      intro bs
      cases o with
      | location p q => rw [List.foldl_cons, blockStep, ih (by simpa [optOf] using h2)]; simp [locationOf]
      | opt o => simp [optOf] at h2
      | alias _ | cert _ | cgi _ | key _ | ocsp _ | listen _ _ _ | proxy _ _ => exact ih h2 bs
  unfold blocks
  rw [List.foldl_append, p1, p2]
  simp [h1, h2]

end Gmid
