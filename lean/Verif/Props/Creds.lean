import Verif.Model.Creds
import Verif.Props.Exec

/-!
# C120: privileges that were given up stay given up
-/

set_option autoImplicit false

namespace Gmid.Spec

/-- the process is the user `uid` of the group `gid` in every respect -/
def IsOnly (uid gid : Nat) (c : Creds) : Prop := c.u = ⟨uid, uid, uid⟩ ∧ c.g = ⟨gid, gid, gid⟩ ∧ c.groups = [gid]

/-- an id a user can have: not that which stands for "leave it as it is" -/
def RealId (x : Nat) : Prop := x < 4294967295

end Gmid.Spec

namespace Gmid.Props
open Gmid.Spec

theorem realId_ne {x : Nat} (h : RealId x) : (x == noId) = false := by
  unfold RealId at h
  simp [noId]
  omega

theorem kSet_same (fail : Bool) (x y : Nat) (i : Ids) (hi : i = ⟨y, y, y⟩) (i' : Ids) (h : kSet fail false x i = some i') : i' = i := by
  subst hi
  unfold kSet at h
  grind

theorem kSetE_same (fail : Bool) (x y : Nat) (i : Ids) (hi : i = ⟨y, y, y⟩) (i' : Ids) (h : kSetE fail false x i = some i') : i' = i := by
  subst hi
  unfold kSetE Ids.has at h
  grind

theorem kSetRe_same (fail : Bool) (r e y : Nat) (i : Ids) (hi : i = ⟨y, y, y⟩) (i' : Ids) (h : kSetRe fail false r e i = some i') : i' = i := by
  subst hi
  unfold kSetRe Ids.has orKeep at h
  grind

theorem kSetRes_same (fail : Bool) (r e s y : Nat) (i : Ids) (hi : i = ⟨y, y, y⟩) (i' : Ids) (h : kSetRes fail false r e s i = some i') : i' = i := by
  subst hi
  unfold kSetRes Ids.has orKeep at h
  grind

theorem afterCall_same (fail : Bool) (x : IdCall) (uid gid : Nat) (c : Creds) (h0 : uid ≠ 0) (h : IsOnly uid gid c) : afterCall fail x c = c := by
  have hp : c.priv = false := by unfold Creds.priv; rw [h.1]; simp [h0]
  have hu : ∀ r : Option Ids, (∀ i', r = some i' → i' = c.u) → (r.map fun u => ({ c with u := u } : Creds)).getD c = c := by
    intro r hr
    cases r with
    | none => rfl
    | some i => rw [Option.map_some, Option.getD_some, hr i rfl]
  have hg : ∀ r : Option Ids, (∀ i', r = some i' → i' = c.g) → (r.map fun g => ({ c with g := g } : Creds)).getD c = c := by
    intro r hr
    cases r with
    | none => rfl
    | some i => rw [Option.map_some, Option.getD_some, hr i rfl]
  unfold afterCall idCall
  cases x
  all_goals dsimp only
  all_goals rw [hp]
  · exact hu _ fun i' e => kSet_same _ _ _ _ h.1 _ e
  · exact hu _ fun i' e => kSetE_same _ _ _ _ h.1 _ e
  · exact hu _ fun i' e => kSetRe_same _ _ _ _ _ h.1 _ e
  · exact hu _ fun i' e => kSetRes_same _ _ _ _ _ _ h.1 _ e
  · exact hg _ fun i' e => kSet_same _ _ _ _ h.2.1 _ e
  · exact hg _ fun i' e => kSetE_same _ _ _ _ h.2.1 _ e
  · exact hg _ fun i' e => kSetRe_same _ _ _ _ _ h.2.1 _ e
  · exact hg _ fun i' e => kSetRes_same _ _ _ _ _ _ h.2.1 _ e
  · simp

theorem idRun_same (uid gid : Nat) (h0 : uid ≠ 0) (evs : List (Bool × IdCall)) : ∀ c : Creds, IsOnly uid gid c → idRun evs c = c := by
  induction evs with
  | nil => intro c _; rfl
  | cons e r ih =>
    intro c h
    obtain ⟨f, x⟩ := e
    rw [idRun, afterCall_same f x uid gid c h0 h]
    exact ih c h

theorem doSetresgid_ids (native : Bool) (fail : Nat → Bool) (x : Nat) (c c' : Creds) (hx : RealId x) (h : doSetresgid native fail x c = (c', true)) :
    c'.g = ⟨x, x, x⟩ ∧ c'.u = c.u ∧ c'.groups = c.groups := by
  have hn := realId_ne hx
  unfold doSetresgid at h
  split at h
  · unfold idCall kSetRes orKeep at h
    simp only [hn] at h
    grind
  · unfold compatSetresgid idCall kSetRe orKeep at h
    simp only [hn] at h
    grind

theorem setreuid_ids (f : Bool) (x : Nat) (c c1 : Creds) (hx : RealId x) (h : idCall f (.setreuid x x) c = some c1) : c1 = { c with u := ⟨x, x, x⟩ } := by
  have hn := realId_ne hx
  have hn' : (x != noId) = true := by simp [bne, hn]
  unfold idCall kSetRe orKeep at h
  simp only [hn, hn', Option.map_eq_some_iff] at h
  obtain ⟨i, hi, rfl⟩ := h
  split at hi
  · cases hi
  · split at hi
    · cases hi
    · cases hi; simp

theorem goBack_cases (fail : Nat → Bool) (ouid : Nat) (c1 : Creds) :
    (goBack fail ouid c1 = (c1, false)) ∨ (∃ c2, idCall (fail 3) (.setuid ouid) c1 = some c2 ∧ goBack fail ouid c1 = (c2, false)) ∨ ∃ c3, goBack fail ouid c1 = (c3, true) := by
  unfold goBack
  cases h1 : idCall (fail 3) (.setuid ouid) c1 with
  | none => exact .inl rfl
  | some c2 =>
    dsimp only
    cases h2 : idCall (fail 4) (.seteuid ouid) c2 with
    | none => exact .inr (.inl ⟨c2, rfl, rfl⟩)
    | some c3 => exact .inr (.inr ⟨c3, rfl⟩)

theorem doSetresuid_ids (native : Bool) (fail : Nat → Bool) (x : Nat) (c c' : Creds) (hx : RealId x) (h : doSetresuid native fail x c = (c', true)) :
    c' = { c with u := ⟨x, x, x⟩ } := by
  have hn := realId_ne hx
  unfold doSetresuid at h
  split at h
  · unfold idCall kSetRes orKeep at h
    simp only [hn] at h
    grind
  · unfold compatSetresuid at h
    simp only [bne_self_eq_false, Bool.or_self, Bool.false_eq_true, if_false] at h
    cases hr : idCall (fail 2) (.setreuid x x) c with
    | none => rw [hr] at h; cases h
    | some c1 =>
      rw [hr] at h
      have h1 := setreuid_ids _ _ _ _ hx hr
      dsimp only at h
      simp only [beq_self_eq_true, Bool.true_and] at h
      by_cases ho : (c.u.r != x) = true
      · rw [if_pos ho] at h
        rcases goBack_cases fail c.u.r c1 with hb | ⟨c2, h2, hb⟩ | ⟨c3, hb⟩
        · rw [hb] at h
          simp only [Bool.false_eq_true, if_false] at h
          split at h
          · cases h
          · cases h; exact h1
        · exfalso
          have h3 : c2.u.r ≠ x := by
            subst h1
            unfold idCall kSet Creds.priv at h2
            grind
          rw [hb] at h
          simp [h3] at h
        · rw [hb] at h
          simp at h
      · rw [if_neg ho] at h
        simp only [Bool.false_eq_true, if_false] at h
        split at h
        · cases h
        · cases h; exact h1

/-- **C120**, first part: a process that goes on after proc_run gave up its privileges is the configured user in every respect, with the system's setresuid
and setresgid and with those of compat, whichever calls the kernel refuses. -/
theorem C120_dropped (native : Bool) (fail : Nat → Bool) (pw : Passwd) (c c' : Creds) (hu : RealId pw.uid) (hg : RealId pw.gid) (h : dropIds native fail pw c = some c') :
    IsOnly pw.uid pw.gid c' := by
  unfold dropIds at h
  cases h0 : idCall (fail 0) (.setgroups [pw.gid]) c with
  | none => rw [h0] at h; cases h
  | some c0 =>
    rw [h0] at h
    dsimp only at h
    have e0 : c0.groups = [pw.gid] := by
      unfold idCall at h0
      dsimp only at h0
      split at h0
      · cases h0
      · cases h0; rfl
    cases hg1 : doSetresgid native fail pw.gid c0 with
    | mk c1 b1 =>
      rw [hg1] at h
      cases b1 with
      | false => cases h
      | true =>
        simp only [Bool.not_true, Bool.false_eq_true, if_false] at h
        obtain ⟨e1, -, e2⟩ := doSetresgid_ids native fail _ _ _ hg hg1
        cases hu1 : doSetresuid native fail pw.uid c1 with
        | mk c2 b2 =>
          rw [hu1] at h
          cases b2 with
          | false => cases h
          | true =>
            simp only [Bool.not_true, Bool.false_eq_true, if_false, Option.some.injEq] at h
            subst h
            rw [doSetresuid_ids native fail _ _ _ hu hu1]
            exact ⟨rfl, e1, e2.trans e0⟩

/-- **C120**, second part: unless that user is root, no sequence of calls, of which the kernel may refuse any, changes anything about that. -/
theorem C120_for_good (native : Bool) (fail : Nat → Bool) (pw : Passwd) (c c' : Creds) (hu : RealId pw.uid) (hg : RealId pw.gid) (h0 : pw.uid ≠ 0)
    (h : dropIds native fail pw c = some c') (later : List (Bool × IdCall)) : IsOnly pw.uid pw.gid (idRun later c') := by
  have h1 := C120_dropped native fail pw c c' hu hg h
  rw [idRun_same _ _ h0 later c' h1]
  exact h1

/-- **C120**, third part: a process started by root goes on, unless the kernel refuses one of the calls. -/
theorem C120_goes_on (native : Bool) (fail : Nat → Bool) (pw : Passwd) (c : Creds) (hu : RealId pw.uid) (hg : RealId pw.gid) (hf : ∀ n, fail n = false)
    (hr : c.u = ⟨0, 0, 0⟩) : (dropIds native fail pw c).isSome = true := by
  have hp : ∀ g l, (⟨c.u, g, l⟩ : Creds).priv = true := by intro g l; simp [Creds.priv, hr]
  have hn := realId_ne hu
  have hng := realId_ne hg
  have hng' : (pw.gid != noId) = true := by simp [bne, hng]
  have hn' : (pw.uid != noId) = true := by simp [bne, hn]
  have hc : [pw.gid].contains noId = false := by
    simp only [List.contains_cons, List.contains_nil, Bool.or_false]
    rw [Bool.beq_comm]; exact hng
  have e0 : idCall (fail 0) (.setgroups [pw.gid]) c = some { c with groups := [pw.gid] } := by
    unfold idCall
    dsimp only
    rw [hf 0, hc, show c.priv = true from hp c.g c.groups]
    rfl
  unfold dropIds
  rw [e0]
  dsimp only
  have e1 : doSetresgid native fail pw.gid { c with groups := [pw.gid] } = ({ c with groups := [pw.gid], g := ⟨pw.gid, pw.gid, pw.gid⟩ }, true) := by
    unfold doSetresgid compatSetresgid idCall
    dsimp only
    rw [hf 1, hp]
    unfold kSetRes kSetRe orKeep
    rw [hng, hng']
    cases native <;> simp
  rw [e1]
  simp only [Bool.not_true, Bool.false_eq_true, if_false]
  have e2 : doSetresuid native fail pw.uid { c with groups := [pw.gid], g := ⟨pw.gid, pw.gid, pw.gid⟩ } =
      ({ u := ⟨pw.uid, pw.uid, pw.uid⟩, groups := [pw.gid], g := ⟨pw.gid, pw.gid, pw.gid⟩ }, true) := by
    unfold doSetresuid compatSetresuid
    have k1 : ∀ f : Bool, f = false → idCall f (.setreuid pw.uid pw.uid) { c with groups := [pw.gid], g := ⟨pw.gid, pw.gid, pw.gid⟩ } =
        some { u := ⟨pw.uid, pw.uid, pw.uid⟩, groups := [pw.gid], g := ⟨pw.gid, pw.gid, pw.gid⟩ } := by
      intro f hf
      unfold idCall
      dsimp only
      rw [hf, hp]
      unfold kSetRe orKeep
      rw [hn, hn']
      simp
    cases native with
    | true =>
      unfold idCall
      dsimp only
      rw [hf 2, hp]
      unfold kSetRes orKeep
      rw [hn]
      simp
    | false =>
      rw [k1 _ (hf 2)]
      by_cases hz : pw.uid = 0
      · rw [hz, hr]
        rfl
      · have k2 : idCall (fail 3) (.setuid c.u.r) { u := ⟨pw.uid, pw.uid, pw.uid⟩, groups := [pw.gid], g := ⟨pw.gid, pw.gid, pw.gid⟩ } = none := by
          rw [hr, hf 3]
          unfold idCall kSet Creds.priv
          have : (0 == pw.uid) = false := by simp; omega
          have h2 : (pw.uid == 0) = false := by simp; omega
          simp only [this, h2]
          rfl
        dsimp only
        unfold goBack
        rw [k2]
        simp
  rw [e2]
  rfl

/-- what proc_run did in the model of C94 is what it does here: the ids of `dropPriv` are the ones the process really has -/
theorem C120_started_ids (native : Bool) (fail : Nat → Bool) (env : StartEnv) (cred cr : Cred) (pw : Passwd) (chroot : Option Bytes) (c c' : Creds) (hu : RealId pw.uid)
    (hg : RealId pw.gid) (hm : dropPriv env cred (some pw) chroot = some cr) (h : dropIds native fail pw c = some c') : IsOnly cr.uid cr.gid c' ∧ cr.groups = c'.groups := by
  have h1 := C120_dropped native fail pw c c' hu hg h
  unfold dropPriv at hm
  dsimp only at hm
  split at hm
  · cases hm
  · split at hm
    · cases hm
    · split at hm
      · cases hm
      · split at hm
        · cases hm
        · split at hm
          · cases hm
          · cases hm
            exact ⟨h1, h1.2.2.symm⟩

/-- C120 does not hold of a user whose id is (uid_t)-1: the system's setresuid leaves everything as it is and says that it succeeded, and the process goes
on as root -/
theorem C120_no_such_uid : ∃ (pw : Passwd) (c c' : Creds), pw.uid = 4294967295 ∧ c.u = ⟨0, 0, 0⟩ ∧ dropIds true (fun _ => false) pw c = some c' ∧ c'.u = ⟨0, 0, 0⟩ := by
  refine ⟨{ name := b%"u", uid := 4294967295, gid := 7, dir := b%"/" }, { u := ⟨0, 0, 0⟩, g := ⟨0, 0, 0⟩, groups := [] }, { u := ⟨0, 0, 0⟩, g := ⟨7, 7, 7⟩, groups := [7] }, rfl, rfl, ?_, rfl⟩
  decide +kernel

/-- whereas the one of compat notices -/
theorem C120_compat_notices (fail : Nat → Bool) (pw : Passwd) (c : Creds) (hp : pw.uid = 4294967295) (hc : c.u = ⟨0, 0, 0⟩) : dropIds false fail pw c = none := by
  unfold dropIds
  cases h0 : idCall (fail 0) (.setgroups [pw.gid]) c with
  | none => rfl
  | some c0 =>
    have e0 : c0.u = c.u := by
      unfold idCall at h0
      dsimp only at h0
      split at h0
      · cases h0
      · cases h0; rfl
    dsimp only
    have e1 : (doSetresgid false fail pw.gid c0).1.u = c.u := by
      rw [← e0]
      unfold doSetresgid compatSetresgid
      simp only [Bool.false_eq_true, if_false, bne_self_eq_false, Bool.or_self]
      cases h1 : idCall (fail 1) (.setregid pw.gid pw.gid) c0 with
      | none => rfl
      | some c1 =>
        unfold idCall at h1
        simp only [Option.map_eq_some_iff] at h1
        obtain ⟨i, -, rfl⟩ := h1
        rfl
    have e2 : (doSetresuid false fail pw.uid (doSetresgid false fail pw.gid c0).1).2 = false := by
      generalize (doSetresgid false fail pw.gid c0).1 = c1 at e1
      have e1' : c1.u = ⟨0, 0, 0⟩ := e1.trans hc
      unfold doSetresuid compatSetresuid
      rw [hp]
      cases h1 : idCall (fail 2) (.setreuid 4294967295 4294967295) c1 with
      | none => simp
      | some c2 =>
        have k1 : c2.u.r = 0 := by
          unfold idCall kSetRe orKeep noId at h1
          simp only [Option.map_eq_some_iff] at h1
          obtain ⟨i, hi, rfl⟩ := h1
          rw [e1'] at hi
          grind
        rw [e1']
        dsimp only
        simp only [beq_self_eq_true, bne_self_eq_false, Bool.or_self, Bool.false_eq_true, if_false, Bool.true_and]
        have hb : ((0 : Nat) != 4294967295) = true := rfl
        rw [hb, if_pos rfl]
        rcases goBack_cases fail 0 c2 with hb | ⟨c3, h2, hb⟩ | ⟨c3, hb⟩
        · rw [hb]; simp [k1]
        · have k2 : c3.u.r = 0 := by
            unfold idCall kSet at h2
            grind
          rw [hb]; simp [k2]
        · rw [hb]; simp
    rw [e2]
    simp

/-- why the order matters: a process that has given up its user id can not give up its groups any more -/
theorem C120_groups_first (f : Bool) (c : Creds) (h : c.u.e ≠ 0) (l : List Nat) : idCall f (.setgroups l) c = none := by
  unfold idCall Creds.priv
  simp [h]

/-! ## the hypotheses are met -/

def exPwUser : Passwd := { name := b%"_gmid", uid := 979, gid := 979, dir := b%"/var/empty" }
def exRootCreds : Creds := { u := ⟨0, 0, 0⟩, g := ⟨0, 0, 0⟩, groups := [0, 4, 27] }

example : RealId exPwUser.uid ∧ RealId exPwUser.gid ∧ exPwUser.uid ≠ 0 := by unfold RealId; decide
example : dropIds true (fun _ => false) exPwUser exRootCreds = some { u := ⟨979, 979, 979⟩, g := ⟨979, 979, 979⟩, groups := [979] } := by decide +kernel
example : dropIds false (fun _ => false) exPwUser exRootCreds = some { u := ⟨979, 979, 979⟩, g := ⟨979, 979, 979⟩, groups := [979] } := by decide +kernel
/-- setreuid fails, as setuid does with EAGAIN -/
example : dropIds false (fun n => n == 2) exPwUser exRootCreds = none := by decide +kernel
/-- root can, the user can not -/
example : idRun [(false, .seteuid 5), (false, .setgroups [1]), (false, .setuid 0)] exRootCreds = { u := ⟨0, 0, 0⟩, g := ⟨0, 0, 0⟩, groups := [0, 4, 27] } := by decide +kernel
example : idRun [(false, .setgroups [1]), (false, .setuid 8), (false, .setuid 0)] exRootCreds = { u := ⟨8, 8, 8⟩, g := ⟨0, 0, 0⟩, groups := [1] } := by decide +kernel

end Gmid.Props
