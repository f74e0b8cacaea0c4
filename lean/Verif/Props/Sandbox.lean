import Verif.Model.Sandbox

/-!
# C95: what the processes may do with files
-/

set_option autoImplicit false

namespace Gmid.Props

/-- the kernel says that it has no landlock, or that it is disabled -/
def NoLandlock (k : LandEnv) : Prop :=
  (∃ e, (e = .enosys ∨ e = .eopnotsupp) ∧ (k.abi = .error e ∨ k.prctl = some e ∨ k.create = some e))

/-- what a process is for: the server reads files, and the others do not access any -/
def Meant (id : Nat) (r : Right) : Prop := id = pServer ∧ (r = .readFile ∨ r = .readDir)

/-- the rights that are handled -/
def wanted (abi : Nat) : List Right :=
  [.execute, .readFile, .readDir, .writeFile, .removeDir, .removeFile, .makeChar, .makeDir, .makeReg, .makeSock, .makeFifo, .makeBlock, .makeSym]
    ++ (if abi ≥ 2 then [.refer] else []) ++ (if abi ≥ 3 then [.truncate] else [])

theorem init_spec (k : LandEnv) : landlockInit k {} =
    match k.prctl with
    | some e => ({}, .error e)
    | none =>
      match k.abi with
      | .error e => ({}, .error e)
      | .ok abi =>
        match k.create with
        | some e => ({ state := 1 }, .error e)
        | none => ({ state := 1 }, .ok { handled := wanted abi, rules := [] }) := by
  unfold landlockInit
  cases k.prctl with
  | some e => rfl
  | none =>
    cases k.abi with
    | error e => rfl
    | ok abi =>
      dsimp only
      have h : abi < 2 ∨ abi = 2 ∨ 3 ≤ abi := by omega
      rcases h with h | h | h
      · have h1 : abi < 3 := by omega
        have h2 : ¬ 2 ≤ abi := by omega
        have h3 : ¬ 3 ≤ abi := by omega
        simp [h, h1, h2, h3, wanted, abiRights]; rfl
      · subst h
        simp [wanted, abiRights]; rfl
      · have h1 : ¬ abi < 3 := by omega
        have h2 : ¬ abi < 2 := by omega
        have h3 : 2 ≤ abi := by omega
        simp [h, h1, h2, h3, wanted, abiRights]; rfl

/-- the two ways the sandbox of a process ends, apart from ending the process -/
theorem init_cases {k : LandEnv} {id : Nat} {s : LandState} (h : initSandbox k id = some s) :
    (s.domain = none ∧ NoLandlock k) ∨
    (∃ abi, k.abi = .ok abi ∧ k.prctl = none ∧ k.create = none ∧ k.restrict = none ∧
      s.domain = some { handled := wanted abi, rules := if id = pServer then [(b%"/", [.readFile, .readDir])] else [] } ∧ s.state = 2) := by
  have hi := init_spec k
  unfold initSandbox sandboxServer sandboxCrypto sandboxLogger landlockUnveil at h
  rw [if_pos rfl, hi] at h
  unfold NoLandlock
  cases hp : k.prctl with
  | some e =>
    left
    simp only [hp] at h
    cases e <;> simp [landlockUnveil'] at h <;> (repeat' split at h) <;> simp_all
    all_goals subst h; simp
  | none =>
    cases ha : k.abi with
    | error e =>
      left
      simp only [hp, ha] at h
      cases e <;> simp [landlockUnveil'] at h <;> (repeat' split at h) <;> simp_all
      all_goals subst h; simp
    | ok abi =>
      cases hc : k.create with
      | some e =>
        left
        simp only [hp, ha, hc] at h
        cases e <;> simp [landlockUnveil'] at h <;> (repeat' split at h) <;> simp_all
        all_goals subst h; simp
      | none =>
        right
        refine ⟨abi, rfl, rfl, rfl, ?_⟩
        simp only [hp, ha, hc] at h
        cases hr : k.restrict with
        | some e =>
          simp [landlockUnveil', landlockLock, hr] at h
          cases ho : k.openPath b%"/" <;> cases hd : k.addRule <;> simp_all [landlockUnveil', landlockLock]
        | none =>
          refine ⟨rfl, ?_⟩
          cases ho : k.openPath b%"/" <;> cases hd : k.addRule <;> simp_all [landlockUnveil', landlockLock] <;> (repeat' split at h) <;> simp_all
          all_goals first | (subst h; simp_all; done) | (obtain ⟨_, rfl⟩ := h; simp_all)

theorem wanted_mem (abi : Nat) (r : Right) : r ∈ wanted abi ↔ (r = .refer → 2 ≤ abi) ∧ (r = .truncate → 3 ≤ abi) := by
  unfold wanted
  cases r <;> simp <;> split <;> simp_all <;> omega

/-- C95: for every kernel and every failure of a system call: a process that went on after its sandbox was set up may only use files as it is meant to, on
every path, unless the kernel said that it has no landlock; except for truncate(2) when the kernel has a version of landlock before 3. -/
theorem C95_confined_partial (k : LandEnv) (id : Nat) (s : LandState) (h : initSandbox k id = some s) (hk : ¬ NoLandlock k) (r : Right) (path : Bytes)
    (hp : landPermits s r path = true) : Meant id r ∨ (r = .truncate ∧ ∃ abi, k.abi = .ok abi ∧ abi < 3) := by
  rcases init_cases h with ⟨_, h⟩ | ⟨abi, ha, _, _, _, hd, _⟩
  · exact absurd h hk
  · simp only [landPermits, hd] at hp
    by_cases hr : r ∈ wanted abi
    · left
      rw [if_pos (by simpa using hr)] at hp
      unfold Meant
      split at hp
      · rename_i hid
        simp at hp
        exact ⟨hid, hp.2⟩
      · simp at hp
    · rw [if_neg (by simpa using hr)] at hp
      rw [wanted_mem] at hr
      right
      have hne : r ≠ .refer := by simpa using hp
      have hr : ¬ (r = .truncate → 3 ≤ abi) := fun h => hr ⟨fun e => absurd e hne, h⟩
      rw [Classical.not_imp] at hr
      exact ⟨hr.1, abi, ha, by omega⟩

/-- C95: the server may read every file, so that the sandbox does not get in its way. -/
theorem C95_server_reads (k : LandEnv) (s : LandState) (h : initSandbox k pServer = some s) (path : Bytes) (r : Right) (hr : r = .readFile ∨ r = .readDir) :
    landPermits s r path = true := by
  rcases init_cases h with ⟨h, _⟩ | ⟨abi, ha, _, _, _, hd, _⟩
  · simp [landPermits, h]
  · have hw : r ∈ wanted abi := by rw [wanted_mem]; rcases hr with hr | hr <;> subst hr <;> simp
    simp only [landPermits, hd, List.contains_iff_mem, hw, if_true]
    rcases hr with hr | hr <;> subst hr <;> simp [pathBelow]

/-- C95: with every version of landlock the sandbox is set up if no call fails, and without landlock the processes run all the same. -/
theorem C95_runs (k : LandEnv) (id : Nat) (hid : id = pServer ∨ id = pCrypto ∨ id = pLogger) :
    (k.prctl = none → (k.abi = .error .enosys ∨ k.abi = .error .eopnotsupp) → ∃ s, initSandbox k id = some s) ∧
    ((∃ abi, k.abi = .ok abi) → k.prctl = none → k.create = none → k.openPath b%"/" = none → k.addRule = none → k.restrict = none →
      ∃ s, initSandbox k id = some s ∧ s.domain.isSome) := by
  have hi := init_spec k
  constructor
  · intro hp ha
    unfold initSandbox sandboxServer sandboxCrypto sandboxLogger landlockUnveil
    rw [if_pos rfl, hi]
    rcases ha with ha | ha <;> rcases hid with h | h | h <;> subst h <;> simp [hp, ha, landlockUnveil', pServer, pCrypto, pLogger]
  · rintro ⟨abi, ha⟩ hp hc ho hr hl
    unfold initSandbox sandboxServer sandboxCrypto sandboxLogger landlockUnveil
    rw [if_pos rfl, hi]
    rcases hid with h | h | h <;> subst h <;> simp [hp, ha, hc, ho, hr, hl, landlockUnveil', landlockLock, pServer, pCrypto, pLogger]

/-- C95: once the sandbox is in force more cannot be allowed: landlock_unveil of any path fails and changes nothing. -/
theorem C95_no_way_back (k k' : LandEnv) (id : Nat) (s : LandState) (h : initSandbox k id = some s) (hk : ¬ NoLandlock k) (path perm : Bytes) :
    ∃ e, landlockUnveil k' s (some path) (some perm) = (s, some e) := by
  have hs : s.state = 2 := by
    rcases init_cases h with ⟨_, h'⟩ | ⟨abi, ha, hp, hc, hr, hd, hs⟩
    · exact absurd h' hk
    · exact hs
  exact ⟨.einval, by simp [landlockUnveil, landlockUnveil', hs]⟩

/-- C95 is false for kernels before ABI 3, of Linux 6.2: there every process may truncate(2) every file its user may write. -/
theorem C95_truncate (k : LandEnv) (abi : Nat) (ha : k.abi = .ok abi) (h3 : abi < 3) (id : Nat) (s : LandState) (h : initSandbox k id = some s)
    (path : Bytes) : landPermits s .truncate path = true := by
  rcases init_cases h with ⟨h, _⟩ | ⟨abi', ha', _, _, _, hd, _⟩
  · simp [landPermits, h]
  · have e : abi' = abi := by rw [ha] at ha'; exact (Except.ok.inj ha').symm
    subst e
    have hw : Right.truncate ∉ wanted abi' := by rw [wanted_mem]; intro h; have := h.2 rfl; omega
    simp only [landPermits, hd, List.contains_iff_mem, hw, if_false]
    rfl

/-- a kernel with landlock 5, and what the processes may do there -/
def exLand : LandEnv := { prctl := none, abi := .ok 5, create := none, openPath := fun _ => none, addRule := none, restrict := none }

example : ¬ NoLandlock exLand ∧ (∃ s, initSandbox exLand pServer = some s ∧ landPermits s .readFile b%"/srv/index.gmi" = true ∧
      landPermits s .writeFile b%"/srv/index.gmi" = false ∧ landPermits s .truncate b%"/srv/index.gmi" = false) ∧
    (∃ s, initSandbox exLand pLogger = some s ∧ landPermits s .readFile b%"/etc/passwd" = false) := by
  refine ⟨?_, ⟨_, rfl, by decide, by decide, by decide⟩, ⟨_, rfl, by decide⟩⟩
  rintro ⟨e, h, h' | h' | h'⟩ <;> cases h'

/-- a kernel with landlock 1, as in C95_truncate -/
example : ∃ s, initSandbox { exLand with abi := .ok 1 } pCrypto = some s ∧ landPermits s .readFile b%"/etc/passwd" = false ∧
    landPermits s .refer b%"/etc/passwd" = false ∧ landPermits s .truncate b%"/etc/passwd" = true :=
  ⟨_, rfl, by decide, by decide, by decide⟩

/-- the kernel refuses: the process ends -/
example : initSandbox { exLand with restrict := some .other } pServer = none ∧ initSandbox { exLand with openPath := fun _ => some .other } pServer = none :=
  ⟨rfl, rfl⟩

end Gmid.Props
