import Verif.Lemmas.Exec

/-!
# C94, C96: how the processes are started, and the command line
-/

set_option autoImplicit false

namespace Gmid.Props
open Gmid.Spec

/-- the processes there are -/
abbrev childIds : List Nat := [pServer, pCrypto, pLogger]

theorem title_of {p : Nat} (hp : p ∈ childIds) :
    ∃ t, (match procTable.find? (fun x => decide (x.2 = p)) with | some x => x.1 | none => []) = t ∧ procGetid t = p ∧ p ≠ procMax := by
  simp only [childIds, List.mem_cons, List.not_mem_nil, or_false] at hp
  rcases hp with h | h | h <;> subst h <;> exact ⟨_, rfl, by decide +kernel, by decide⟩

theorem sees_some (l : List Bytes) : execSees (l.map some) = l := by
  unfold execSees
  induction l with
  | nil => rfl
  | cons a r ih => simpa using ih

theorem intDec_prefork {n : Int} (h : n ≤ 16) : ∃ k : Nat, k ≤ 16 ∧ (k : Int) = max 1 n ∧ intDec (if n < 1 then 1 else n) = natDec k := by
  refine ⟨(max 1 n).toNat, by omega, by omega, ?_⟩
  have : (if n < 1 then 1 else n) = (((max 1 n).toNat : Nat) : Int) := by split <;> omega
  rw [this, intDec_pos]

/-- what the parent does, taken apart -/
theorem parent_cases {env : StartEnv} {cred : Cred} {wd dflt : Bytes} {conf : Bytes → Option StartConf} {a0 : Bytes} {args : List Bytes}
    {os : List (UInt8 × Bytes)} (hcl : CmdLine args os) {c : StartConf} {pw : Option Passwd} {run : Nat → Nat → List Bytes}
    (hp : parentExec env cred wd dflt conf (a0 :: args) = some (c, pw, run)) :
    ∃ o c0, mainOptsGo wd { config := dflt } os = .go o ∧ o.conftest = 0 ∧ conf o.config = some c0 ∧ parentConf c0 = some c0 ∧
      startPw env cred c0 = some (pw, c) ∧
      run = fun p i => execSees (execArgv pw (if c.chroot = [] then none else some c.chroot) (if c.prefork < 1 then 1 else c.prefork)
        (match procTable.find? (fun x => decide (x.2 = p)) with | some x => x.1 | none => []) i (a0 :: args)) := by
  unfold parentExec at hp
  have hg := cmdline_getopt hcl []
  rw [List.append_nil] at hg
  simp only [getopt, List.append_nil] at hg
  unfold mainArgs at hp
  rw [List.drop_succ_cons, List.drop_zero, hg] at hp
  dsimp only at hp
  split at hp
  · cases hp
  rename_i o ho
  split at hp
  · cases hp
  split at hp
  · cases hp
  rename_i c1 hc1
  split at hp
  · cases hp
  rename_i c2 hc2
  have e : c2 = c1 := by
    unfold parentConf at hc2; split at hc2
    · cases hc2
    · exact (Option.some.inj hc2).symm
  subst e
  split at hp
  · cases hp
  rename_i pw' c3 hc3
  split at hp
  · cases hp
  rename_i hn
  simp only [Option.some.injEq, Prod.mk.injEq] at hp
  obtain ⟨e1, e2, e3⟩ := hp
  subst e1 e2
  exact ⟨o, c2, ho, by omega, hc1, hc2, hc3, e3.symm⟩

/-- what a child gets to see -/
theorem run_cases {env : StartEnv} {cred : Cred} {c0 c : StartConf} {pw : Option Passwd} (hpw : startPw env cred c0 = some (pw, c))
    (hdb : ∀ u q, env.getpwnam u = some q → q.name = u) (hpf : c0.prefork ≤ 16) (hpc : parentConf c0 = some c0) (t a0 : Bytes) (i : Nat) (args : List Bytes) :
    ∃ k : Nat, k ≤ 16 ∧ (k : Int) = max 1 c0.prefork ∧
      ((c0.user = [] ∧ c0.chroot = [] ∧
        execSees (execArgv pw (if c.chroot = [] then none else some c.chroot) (if c.prefork < 1 then 1 else c.prefork) t i (a0 :: args)) =
          a0 :: (childPre t none k i ++ args)) ∨
       (c0.user ≠ [] ∧ cred.uid = 0 ∧ ∃ q, env.getpwnam c0.user = some q ∧ pw = some q ∧
         ((c.chroot ≠ [] ∧ c.chroot = (if c0.chroot = [] then q.dir.take 4095 else c0.chroot) ∧
          execSees (execArgv pw (if c.chroot = [] then none else some c.chroot) (if c.prefork < 1 then 1 else c.prefork) t i (a0 :: args)) =
            a0 :: (childPre t (some (c0.user, c.chroot)) k i ++ args)) ∨
          (c0.chroot = [] ∧ q.dir = [] ∧
          execSees (execArgv pw (if c.chroot = [] then none else some c.chroot) (if c.prefork < 1 then 1 else c.prefork) t i (a0 :: args)) =
            [a0, b%"-T", t, b%"-U", c0.user, b%"-X"])))) := by
  obtain ⟨k, hk1, hk2, hk3⟩ := intDec_prefork hpf
  refine ⟨k, hk1, hk2, ?_⟩
  unfold startPw at hpw
  split at hpw
  · rename_i hu
    simp only [Option.some.injEq, Prod.mk.injEq] at hpw
    obtain ⟨e1, e2⟩ := hpw
    subst e1 e2
    refine .inl ⟨hu, ?_, ?_⟩
    · unfold parentConf at hpc; split at hpc
      · cases hpc
      · rename_i h; exact Classical.byContradiction fun hc => h ⟨hc, hu⟩
    · simp only [execArgv, hk3, childPre, List.head?_cons, List.drop_succ_cons, List.drop_zero]
      rw [← sees_some (a0 :: _)]
      simp
  · rename_i hu
    split at hpw
    · cases hpw
    rename_i hr
    split at hpw
    · cases hpw
    rename_i q hq
    simp only [Option.some.injEq, Prod.mk.injEq] at hpw
    obtain ⟨e1, e2⟩ := hpw
    have epf : c.prefork = c0.prefork := by rw [← e2]; split <;> rfl
    have ech : c.chroot = (if c0.chroot = [] then q.dir.take 4095 else c0.chroot) := by rw [← e2]; split <;> rfl
    subst e1
    refine .inr ⟨hu, by simpa using hr, q, hq, rfl, ?_⟩
    rw [epf]
    by_cases hc : c.chroot = []
    · right
      have h0 : c0.chroot = [] := by
        rw [ech] at hc; split at hc
        · assumption
        · contradiction
      have hd : q.dir = [] := by
        rw [ech, if_pos h0] at hc
        rcases List.take_eq_nil_iff.mp hc with h | h
        · omega
        · exact h
      refine ⟨h0, hd, ?_⟩
      rw [if_pos hc]
      simp [execArgv, execSees, hk3, hdb _ _ hq]
    · left
      refine ⟨hc, ech, ?_⟩
      rw [if_neg hc]
      simp only [execArgv, hk3, childPre, List.head?_cons, List.drop_succ_cons, List.drop_zero, hdb _ _ hq]
      rw [← sees_some (a0 :: _)]
      simp

/-- without an argument for -X -/
theorem noarg_exits (wd dflt a0 t u : Bytes) : mainArgs wd dflt [a0, b%"-T", t, b%"-U", u, b%"-X"] = .exit 1 := by
  unfold mainArgs
  rw [List.drop_succ_cons, List.drop_zero]
  rw [show b%"-T" = [c%'-', c%'T'] from rfl, show b%"-U" = [c%'-', c%'U'] from rfl, show b%"-X" = [c%'-', c%'X'] from rfl]
  rw [getopt_pair _ _ _ rfl (by decide), getopt_pair _ _ _ rfl (by decide)]
  have : (getopt [[c%'-', c%'X']]).1 = [(c%'?', [])] := by decide +kernel
  rw [this]
  simp only [mainOptsGo, mainOpt]
  by_cases h : procGetid t = procMax <;> simp [h]

/-- the credentials the configuration asks for: none, or those of the user, in the chroot or else the home of the user -/
def WantedCred (getpwnam : Bytes → Option Passwd) (before : Cred) (c : StartConf) (after : Cred) : Prop :=
  (c.user = [] → after = before) ∧
  (c.user ≠ [] → ∃ q, getpwnam c.user = some q ∧
    after = { root := if c.chroot = [] then q.dir else c.chroot, cwd := b%"/", uid := q.uid, gid := q.gid, groups := [q.gid] })

/-- C94: for every correct command line of the parent, every configuration, user database and failure of a system call: whenever the process that was
started as instance `i` of `p` gets to its event loop it is that one, knows how many there are, and has the credentials the configuration `c0`, from the file
the command line says, asks for. -/
theorem C94_started_as (env env' : StartEnv) (cred cred' : Cred) (wd wd' dflt a0 : Bytes) (conf : Bytes → Option StartConf) (args : List Bytes)
    (os : List (UInt8 × Bytes)) (hcl : CmdLine args os) (c : StartConf) (pw : Option Passwd) (run : Nat → Nat → List Bytes)
    (hp : parentExec env cred wd dflt conf (a0 :: args) = some (c, pw, run)) (hdb : ∀ u q, env.getpwnam u = some q → q.name = u ∧ q.dir.length < 4096)
    (henv : env'.getpwnam = env.getpwnam) :
    ∃ c0, conf (match lastArg c%'c' os with | some v => fromDir wd v | none => dflt) = some c0 ∧
      (c0.prefork ≤ 16 → ∀ p ∈ childIds, ∀ i < 16, ∀ s, childMain env' cred' wd' dflt (run p i) = some s →
        s.id = p ∧ s.inst = i ∧ s.prefork = max 1 c0.prefork ∧ WantedCred env.getpwnam cred' c0 s.cred) := by
  obtain ⟨o, c0, ho, hn, hc0, hpc, hpw, hrun⟩ := parent_cases hcl hp
  have hd := cmdline_documented hcl
  have hdoc := mainOptsGo_doc wd os hd _ _ ho
  refine ⟨c0, ?_, fun hpf p hpp i hi s hs => ?_⟩
  · have h := hdoc.2.2.1
    rw [h] at hc0
    cases hl : lastArg c%'c' os with
    | none => simp_all
    | some v =>
      simp only [hl] at hc0
      dsimp only
      rw [← hc0]
      congr 1
      cases v with
      | nil => simp [fromDir, absolutify]
      | cons x v => simp [fromDir, absolutify]
  obtain ⟨t, ht, hid, hmax⟩ := title_of hpp
  rw [hrun] at hs
  dsimp only at hs
  rw [ht] at hs
  have hg := cmdline_getopt hcl []
  rw [List.append_nil] at hg
  simp only [getopt, List.append_nil] at hg
  obtain ⟨k, hk1, hk2, hc⟩ := run_cases hpw (fun u q h => (hdb u q h).1) hpf hpc t a0 i args
  rcases hc with ⟨hu, hch, e⟩ | ⟨hu, hr, q, hq, hq', hc⟩
  · rw [e] at hs
    unfold childMain at hs
    rw [mainArgs_childPre _ _ _ _ _ _ _ _ (by rw [hid]; exact hmax) hk1 (by omega), hg] at hs
    split at hs
    · cases hs
    rename_i o2 ho2
    have h2 := mainOptsGo_doc wd' os hd _ _ ho2
    simp only [MainOpts.childPart, Prod.mk.injEq] at h2
    obtain ⟨⟨h21, h22, h23, h24, h25, h26⟩, -⟩ := h2
    simp only [Option.map_none] at h25 h26
    have hcc : childConf o2 = some { user := [], chroot := [], prefork := k } := by simp [childConf, h25, h26, h23]
    have hsp : startPw env' cred' { user := [], chroot := [], prefork := k } = some (none, { user := [], chroot := [], prefork := k }) := by simp [startPw]
    rw [hcc] at hs
    dsimp only at hs
    rw [hsp] at hs
    dsimp only [dropPriv] at hs
    split at hs
    · cases hs
    cases hs
    exact ⟨by rw [h21, hid], h22, hk2, fun _ => rfl, fun h => absurd hu h⟩
  · rcases hc with ⟨hne, hch, e⟩ | ⟨h0, hd0, e⟩
    · rw [e] at hs
      unfold childMain at hs
      rw [mainArgs_childPre _ _ _ _ _ _ _ _ (by rw [hid]; exact hmax) hk1 (by omega), hg] at hs
      split at hs
      · cases hs
      rename_i o2 ho2
      have h2 := mainOptsGo_doc wd' os hd _ _ ho2
      simp only [MainOpts.childPart, Prod.mk.injEq] at h2
      obtain ⟨⟨h21, h22, h23, h24, h25, h26⟩, -⟩ := h2
      simp only [Option.map_some] at h25 h26
      simp only [childConf, h25, h26, h23, Option.getD_some] at hs
      split at hs
      · cases hs
      rename_i c2 hc2
      split at hc2
      · cases hc2
      split at hc2
      · cases hc2
      cases hc2
      simp only [startPw, if_neg hu, henv, hq] at hs
      by_cases hr' : cred'.uid = 0
      · simp only [hr', ne_eq, not_true_eq_false, if_false, if_neg hne] at hs
        split at hs
        · cases hs
        simp only [dropPriv] at hs
        split at hs
        · cases hs
        rename_i cr hcr
        split at hcr <;> try cases hcr
        split at hcr <;> try cases hcr
        split at hcr <;> try cases hcr
        split at hcr <;> try cases hcr
        split at hcr <;> try cases hcr
        cases hs
        refine ⟨by simpa [hid] using h21, h22, hk2, fun h => absurd h hu, fun _ => ⟨q, hq, ?_⟩⟩
        simp only [Cred.mk.injEq, and_true]
        rw [hch, List.take_of_length_le (by have := (hdb _ _ hq).2; omega)]
      · simp [hr'] at hs
    · rw [e] at hs
      unfold childMain at hs
      rw [noarg_exits] at hs
      cases hs

/-- C94, the other direction: when nothing fails every process does get to its event loop. -/
theorem C94_all_start (env env' : StartEnv) (cred cred' : Cred) (wd wd' dflt a0 : Bytes) (conf : Bytes → Option StartConf) (args : List Bytes)
    (os : List (UInt8 × Bytes)) (hcl : CmdLine args os) (c : StartConf) (pw : Option Passwd) (run : Nat → Nat → List Bytes)
    (hp : parentExec env cred wd dflt conf (a0 :: args) = some (c, pw, run))
    (hdb : ∀ u q, env.getpwnam u = some q → q.name = u ∧ 0 < q.dir.length ∧ q.dir.length < 4096)
    (hconf : ∀ f c0, conf f = some c0 → c0.prefork ≤ 16 ∧ c0.user.length < 256 ∧ c0.chroot.length < 4096)
    (henv : env'.getpwnam = env.getpwnam) (hok : ∀ x, env'.ok x = true) (hcred : cred'.uid = cred.uid) (p : Nat) (hpp : p ∈ childIds) (i : Nat) (hi : i < 16) :
    (childMain env' cred' wd' dflt (run p i)).isSome := by
  obtain ⟨o, c0, ho, hn, hc0, hpc, hpw, hrun⟩ := parent_cases hcl hp
  have hd := cmdline_documented hcl
  have hcc := hconf _ _ hc0
  obtain ⟨t, ht, hid, hmax⟩ := title_of hpp
  rw [hrun]
  dsimp only
  rw [ht]
  have hg := cmdline_getopt hcl []
  rw [List.append_nil] at hg
  simp only [getopt, List.append_nil] at hg
  obtain ⟨k, hk1, hk2, hc⟩ := run_cases hpw (fun u q h => (hdb u q h).1) hcc.1 hpc t a0 i args
  have hdoc := mainOptsGo_doc wd os hd _ _ ho
  have hcnt : os.countP (fun x => x.1 = c%'n') = 0 := by have := hdoc.2.1; rw [hn] at this; simp only at this; omega
  rcases hc with ⟨hu, hch, e⟩ | ⟨hu, hr, q, hq, hq', hc⟩
  · rw [e]
    unfold childMain
    rw [mainArgs_childPre _ _ _ _ _ _ _ _ (by rw [hid]; exact hmax) hk1 (by omega), hg]
    obtain ⟨o2, ho2, -⟩ := mainOptsGo_sim wd wd' os hd { config := dflt }
      { config := dflt, title := some t, procId := procGetid t, nprocs := k, inst := i, user := none, chroot := none } _ rfl ho
    have h2 := mainOptsGo_doc wd' os hd _ _ ho2
    simp only [MainOpts.childPart, Prod.mk.injEq] at h2
    obtain ⟨⟨h21, h22, h23, h24, h25, h26⟩, hct, -⟩ := h2
    simp only [Option.map_none, ho2]
    have : o2.conftest = 0 := by rw [hct, hcnt]
    simp [childConf, startPw, dropPriv, h25, h26, this]
  · rcases hc with ⟨hne, hch, e⟩ | ⟨h0, hd0, e⟩
    · rw [e]
      unfold childMain
      rw [mainArgs_childPre _ _ _ _ _ _ _ _ (by rw [hid]; exact hmax) hk1 (by omega), hg]
      obtain ⟨o2, ho2, -⟩ := mainOptsGo_sim wd wd' os hd { config := dflt }
        { config := dflt, title := some t, procId := procGetid t, nprocs := k, inst := i, user := some c0.user, chroot := some c.chroot } _ rfl ho
      have h2 := mainOptsGo_doc wd' os hd _ _ ho2
      simp only [MainOpts.childPart, Prod.mk.injEq] at h2
      obtain ⟨⟨h21, h22, h23, h24, h25, h26⟩, hct, -⟩ := h2
      simp only [Option.map_some, ho2]
      have h0 : o2.conftest = 0 := by rw [hct, hcnt]
      have hl : c.chroot.length < 4096 := by
        rw [hch]; split
        · rw [List.length_take]; omega
        · exact hcc.2.2
      have hu' : ¬ c0.user.length ≥ 256 := by omega
      have hl' : ¬ c.chroot.length ≥ 4096 := by omega
      simp only [childConf, h25, h26, Option.getD_some, if_neg hu', if_neg hl', startPw, if_neg hu, henv, hq, hcred, hr, ne_eq, not_true_eq_false, if_false,
        if_neg hne, h0, Nat.lt_irrefl, dropPriv, hok, Bool.not_true, Bool.false_eq_true, gt_iff_lt, Option.isSome_some]
    · have := (hdb _ _ hq).2.1
      rw [hd0] at this
      simp at this

/-- a system for the examples -/
def exStartEnv : StartEnv :=
  { getpwnam := fun u => if u = b%"_gmid" then some { name := b%"_gmid", uid := 97, gid := 98, dir := b%"/var/gemini" } else none, ok := fun _ => true }

def exRoot : Cred := { root := b%"/", cwd := b%"/root", uid := 0, gid := 0, groups := [0, 5] }

def exConfFile : Bytes → Option StartConf :=
  fun f => if f = b%"/etc/my.conf" then some { user := b%"_gmid", chroot := [], prefork := 3 } else none

/-- the second of three server processes, started with `gmid -v -c my.conf` in /etc -/
example : CmdLine [b%"-v", b%"-c", b%"my.conf"] [(c%'v', []), (c%'c', b%"my.conf")] ∧
    (parentExec exStartEnv exRoot b%"/etc" b%"/etc/gmid.conf" exConfFile [b%"gmid", b%"-v", b%"-c", b%"my.conf"]).map (fun x => x.2.2 pServer 1) =
      some [b%"gmid", b%"-T", b%"server", b%"-U", b%"_gmid", b%"-X", b%"/var/gemini", b%"-J", b%"3", b%"-I", b%"1", b%"-v", b%"-c", b%"my.conf"] ∧
    (parentExec exStartEnv exRoot b%"/etc" b%"/etc/gmid.conf" exConfFile [b%"gmid", b%"-v", b%"-c", b%"my.conf"]).bind
        (fun x => childMain exStartEnv exRoot b%"/etc" b%"/etc/gmid.conf" (x.2.2 pServer 1)) =
      some { id := pServer, inst := 1, prefork := 3, cred := { root := b%"/var/gemini", cwd := b%"/", uid := 97, gid := 98, groups := [98] } } := by
  refine ⟨.flag _ _ _ (by decide) (.apart _ _ _ _ (by decide) .nil), by decide +kernel, by decide +kernel⟩

/-- the hypotheses of C94_all_start -/
example : (∀ u q, exStartEnv.getpwnam u = some q → q.name = u ∧ 0 < q.dir.length ∧ q.dir.length < 4096) ∧
    (∀ f c0, exConfFile f = some c0 → c0.prefork ≤ 16 ∧ c0.user.length < 256 ∧ c0.chroot.length < 4096) := by
  constructor
  · intro u q h
    simp only [exStartEnv] at h
    split at h
    · rename_i hu; cases h; exact ⟨hu.symm, by decide, by decide⟩
    · cases h
  · intro f c0 h
    simp only [exConfFile] at h
    split at h
    · cases h; decide
    · cases h

/-- C94: the table for the arguments of a child, of argc + 11 pointers, has room for all of them and the null pointer at the end. -/
theorem C94_argv_fits (pw : Option Passwd) (chroot : Option Bytes) (prefork : Int) (title : Bytes) (i : Nat) (a0 : Bytes) (args : List Bytes) :
    (execArgv pw chroot prefork title i (a0 :: args)).length + 1 ≤ (a0 :: args).length + 11 := by
  cases pw <;> simp [execArgv] <;> omega

/-- C94 is false without the hypothesis on the home of the user in C94_all_start: with an empty one and no chroot the children find -X without an argument
and exit. -/
theorem C94_empty_home : ∃ (env : StartEnv) (cred : Cred) (conf : Bytes → Option StartConf), (∀ x, env.ok x = true) ∧ cred.uid = 0 ∧
    ∃ x, parentExec env cred b%"/" b%"/etc/gmid.conf" conf [b%"gmid"] = some x ∧
      ∀ p ∈ childIds, childMain env cred b%"/" b%"/etc/gmid.conf" (x.2.2 p 0) = none := by
  refine ⟨{ getpwnam := fun _ => some { name := b%"u", uid := 1, gid := 1, dir := [] }, ok := fun _ => true }, exRoot,
    fun _ => some { user := b%"u", chroot := [], prefork := 3 }, fun _ => rfl, rfl, _, rfl, ?_⟩
  decide +kernel

/-! ## C96 -/

theorem go_of_not {wd : Bytes} {x y : List (UInt8 × Bytes)} (o : MainOpts) (h : ∀ o', ∃ n, mainOptsGo wd o' y = .exit n ∧ n = 1) (hd : Documented x) :
    ∃ n, mainOptsGo wd o (x ++ y) = .exit n ∧ ((∀ z ∈ x, z.1 ≠ c%'h' ∧ z.1 ≠ c%'V') → n = 1) := by
  induction x generalizing o with
  | nil => obtain ⟨n, e, h1⟩ := h o; exact ⟨n, e, fun _ => h1⟩
  | cons a r ih =>
    rw [List.cons_append, mainOptsGo]
    cases ha : mainOpt wd o a with
    | exit n =>
      refine ⟨n, rfl, fun hz => ?_⟩
      have hz := hz a (by simp)
      have hd := hd a (by simp)
      obtain ⟨c, v⟩ := a
      simp only [flagLetters, argLetters, List.mem_cons, List.not_mem_nil, or_false, List.mem_append] at hd
      rcases hd with (hx | hx | hx | hx | hx) | (hx | hx | hx) <;> subst hx <;> simp [mainOpt] at ha hz
      case inr.inr.inl =>
        split at ha <;> cases ha
        rfl
    | go o' =>
      obtain ⟨n, e, h1⟩ := ih o' (fun z hz => hd z (by simp [hz]))
      exact ⟨n, e, fun hz => h1 (fun z hz' => hz z (by simp [hz']))⟩

/-- gmid ends with an error, unless one of the options before was -h or -V, in which case it ends as well -/
def Refused (wd dflt : Bytes) (argv : List Bytes) (before : List (UInt8 × Bytes)) : Prop :=
  ∃ n, mainArgs wd dflt argv = .exit n ∧ ((∀ z ∈ before, z.1 ≠ c%'h' ∧ z.1 ≠ c%'V') → n ≠ 0)

theorem refused_starts_nothing {wd dflt : Bytes} {argv : List Bytes} {before : List (UInt8 × Bytes)} (h : Refused wd dflt argv before) (env : StartEnv)
    (cred : Cred) (conf : Bytes → Option StartConf) : parentExec env cred wd dflt conf argv = none := by
  obtain ⟨n, h, _⟩ := h
  simp [parentExec, h]

theorem refused_of {wd dflt a0 : Bytes} {args bad : List Bytes} {os : List (UInt8 × Bytes)} (hcl : CmdLine args os)
    (h : ∀ o, ∃ n, mainOptsGo wd o (getopt bad).1 = .exit n ∧ n = 1) : Refused wd dflt (a0 :: (args ++ bad)) os := by
  unfold Refused mainArgs
  rw [List.drop_succ_cons, List.drop_zero, cmdline_getopt hcl bad]
  obtain ⟨n, e, h1⟩ := go_of_not { config := dflt } h (cmdline_documented hcl)
  exact ⟨n, e, fun hz => by rw [h1 hz]; decide⟩

theorem usage_exits (wd : Bytes) (o : MainOpts) (r : List (UInt8 × Bytes)) : ∃ n, mainOptsGo wd o ((c%'?', []) :: r) = .exit n ∧ n = 1 :=
  ⟨1, by simp [mainOptsGo, mainOpt], rfl⟩

/-- C96: after correct arguments one with a letter that is not an option is refused, whatever comes after it. -/
theorem C96_unknown_option_partial (wd dflt a0 : Bytes) (args post : List Bytes) (os : List (UInt8 × Bytes)) (hcl : CmdLine args os) (c : UInt8) (r : Bytes)
    (hc : c ∉ gmidOpts.map (·.1)) (hd : c ≠ c%'-') : Refused wd dflt (a0 :: (args ++ (c%'-' :: c :: r) :: post)) os := by
  refine refused_of hcl fun o => ?_
  rw [getopt_letters c r post hd]
  have hl : gmidOpts.lookup c = none := by
    rw [List.lookup_eq_none_iff]
    intro p hp
    simp only [List.mem_map, not_exists, not_and] at hc
    have := hc p hp
    simp only [bne_iff_ne, ne_eq, beq_eq_false_iff_ne]
    exact fun e => this e.symm
  rw [optCluster, hl]
  dsimp only
  split <;> rename_i hx <;> simp only [Prod.mk.injEq] at hx <;> obtain ⟨e, _⟩ := hx <;> subst e
  · exact usage_exits _ _ _
  · split <;> exact usage_exits _ _ _

/-- C96: an option whose argument is missing is refused. -/
theorem C96_missing_argument_partial (wd dflt a0 : Bytes) (args : List Bytes) (os : List (UInt8 × Bytes)) (hcl : CmdLine args os) (c : UInt8)
    (hc : c ∈ argLetters) : Refused wd dflt (a0 :: (args ++ [[c%'-', c]])) os := by
  refine refused_of hcl fun o => ?_
  rw [getopt_letters c [] [] (letter_ne (by simp [hc]))]
  simp only [optCluster, arg_lookup hc]
  exact usage_exits _ _ _

/-- C96: a long option other than help and version, or the start of one of them, is refused. -/
theorem C96_unknown_long_partial (wd dflt a0 : Bytes) (args post : List Bytes) (os : List (UInt8 × Bytes)) (hcl : CmdLine args os) (name : Bytes)
    (hn : name ≠ []) (h1 : ¬ name <+: b%"help") (h2 : ¬ name <+: b%"version") : Refused wd dflt (a0 :: (args ++ (c%'-' :: c%'-' :: name) :: post)) os := by
  refine refused_of hcl fun o => ?_
  rw [getopt, if_neg (by intro e; simp at e; exact hn e), if_pos (show List.take 2 (c%'-' :: c%'-' :: name) = b%"--" from rfl)]
  have e : optLong (List.drop 2 (c%'-' :: c%'-' :: name)) = (c%'?', []) := by
    rw [← List.isPrefixOf_iff_prefix] at h1 h2
    simp [optLong, h1, h2]
  simp only [e]
  exact usage_exits _ _ _

theorem splitLastEq_none {v : Bytes} (h : c%'=' ∉ v) : splitLastEq v = none := by
  induction v with
  | nil => rfl
  | cons c r ih =>
    simp only [List.mem_cons, not_or] at h
    rw [splitLastEq, ih h.2]
    exact if_neg (fun e => h.1 e.symm)

/-- C96: a macro without an equals sign is refused. -/
theorem C96_bad_macro_partial (wd dflt a0 : Bytes) (args post : List Bytes) (os : List (UInt8 × Bytes)) (hcl : CmdLine args os) (v : Bytes) (h : c%'=' ∉ v) :
    Refused wd dflt (a0 :: (args ++ b%"-D" :: v :: post)) os := by
  refine refused_of hcl fun o => ?_
  rw [show b%"-D" = [c%'-', c%'D'] from rfl, getopt_pair _ _ _ rfl (by decide)]
  exact ⟨1, by simp [mainOptsGo, mainOpt, cmdlineSymset, splitLastEq_none h], rfl⟩

/-- C96: with -n, -h or -V among them nothing is started. -/
theorem C96_starts_nothing (env : StartEnv) (cred : Cred) (wd dflt a0 : Bytes) (conf : Bytes → Option StartConf) (args : List Bytes)
    (os : List (UInt8 × Bytes)) (hcl : CmdLine args os) (h : ∃ x ∈ os, x.1 = c%'n' ∨ x.1 = c%'h' ∨ x.1 = c%'V') :
    parentExec env cred wd dflt conf (a0 :: args) = none := by
  cases hp : parentExec env cred wd dflt conf (a0 :: args) with
  | none => rfl
  | some x =>
    obtain ⟨o, c0, ho, hn, -⟩ := parent_cases hcl hp
    have hd := mainOptsGo_doc wd os (cmdline_documented hcl) _ _ ho
    obtain ⟨y, hy, h⟩ := h
    have := hd.2.2.2.2 y hy
    rcases h with h | h | h
    · have h2 := hd.2.1
      rw [hn] at h2
      simp only at h2
      have h0 : os.countP (fun x => decide (x.1 = c%'n')) = 0 := by omega
      rw [List.countP_eq_zero] at h0
      exact absurd h (by simpa using h0 y hy)
    · exact absurd h this.1
    · exact absurd h this.2

/-- C96 is false for arguments that are not options: `usage` only prints, so that gmid runs as if they were not there. -/
theorem C96_stray_argument (wd dflt a0 : Bytes) (args : List Bytes) (os : List (UInt8 × Bytes)) (hcl : CmdLine args os) (a : Bytes) (post : List Bytes)
    (ha : a.head? ≠ some c%'-') : mainArgs wd dflt (a0 :: (args ++ a :: post)) = mainArgs wd dflt (a0 :: args) := by
  have e : getopt (a :: post) = ([], a :: post) := by
    rw [getopt, if_neg, if_neg, if_neg]
    · rintro ⟨h, _⟩; cases a <;> simp_all
    · intro h; cases a <;> simp_all
    · rintro h; subst h; simp at ha
  unfold mainArgs
  have := cmdline_getopt hcl []
  rw [List.append_nil] at this
  simp only [List.drop_succ_cons, List.drop_zero, cmdline_getopt hcl, e, this, getopt]

/-- gmid foo -/
example : mainArgs b%"/" b%"/etc/gmid.conf" [b%"gmid", b%"foo"] = .go { config := b%"/etc/gmid.conf" } := by decide +kernel

/-- gmid -f -z, gmid -f -c, gmid --foo, gmid -D foo and gmid -nv -cx -/
example : (∃ os, CmdLine [b%"-f"] os) ∧ c%'z' ∉ gmidOpts.map (·.1) ∧ c%'=' ∉ b%"foo" ∧
    CmdLine [b%"-nv", b%"-cx"] [(c%'n', []), (c%'v', []), (c%'c', b%"x")] :=
  ⟨⟨_, .flag _ _ _ (by decide) .nil⟩, by decide, by decide,
    .cluster _ _ _ _ (by decide) (.flag _ _ _ (by decide) (.joined _ _ _ _ (by decide) (by decide) .nil)) (by decide)⟩

end Gmid.Props
