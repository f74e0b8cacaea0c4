import Verif.Model.Upstream
import Verif.Props.Encode
import Verif.Props.Proxy

/-!
# C106: a relayed request reaches the upstream server in full, and its reply is read to the end
-/

set_option autoImplicit false

namespace Gmid.Spec

/-- the upstream connection is in use: the client is there and upstream neither closed nor failed -/
def Relayed (u : Up) : Prop := u.f.c.closed = false ∧ u.f.phase = .relaying

/-- what was written so far is a beginning of `msg`, what is queued is the rest of it, and while the connection is in use the event loop will
call back for the rest and for what arrives -/
structure OnItsWay (msg : Bytes) (u : Up) : Prop where
  split : u.wire ++ u.out = msg
  write : Relayed u → u.out ≠ [] → u.wr = true
  read : Relayed u → u.rd = true

/-- how many events let at least a byte pass -/
def roomFor (evs : List UpEv) : Nat :=
  (evs.filter fun ev => match ev with | .writable (.got n) => decide (0 < n) | _ => false).length

/-- what the events of the upstream socket mean for the relayed reply: data, or the end -/
def UpMeans : UpEv → Option PEv
  | .readable (.got []) => some .eof
  | .readable (.got (b :: d)) => some (.data (b :: d))
  | .readable .failed => some .eof
  | .readable .want => none
  | .writable .failed => some .eof
  | .writable _ => none
  | .client n => some (.flush n)

end Gmid.Spec

namespace Gmid.Props

open Gmid.Spec

section
variable {env : Env}

theorem with_ok (u u' : Up) (r : Res PClient) (h : u.with r = .ok u') : ∃ f, r = .ok f ∧ u' = { u with f := f } := by
  unfold Up.with at h
  split at h
  · cases h; exact ⟨_, rfl, rfl⟩
  · cases h
  · cases h

theorem proxyError_over (f g : PClient) (h : proxyError env f = .ok g) : g.phase = .over := by
  unfold proxyError at h
  dsimp only at h
  split at h
  · cases h; rfl
  · split at h
    · cases h; rfl
    · cases h
    · cases h

theorem upStep_way (msg : Bytes) (ev : UpEv) (u u' : Up) (h : OnItsWay msg u) (hs : upStep env ev u = .ok u') : OnItsWay msg u' := by
  unfold upStep at hs
  split at hs
  · cases hs; exact h
  · rename_i hc
    have hc' : u.f.c.closed = false := by simpa using hc
    split at hs
    · split at hs
      · rename_i r hg
        simp only [Bool.and_eq_true, decide_eq_true_eq] at hg
        have hu : Relayed u := ⟨hc', hg.2⟩
        unfold upReadable at hs
        dsimp only at hs
        split at hs
        · cases hs; exact ⟨h.split, fun _ hn => h.write hu hn, fun _ => rfl⟩
        · obtain ⟨f, h1, rfl⟩ := with_ok _ _ _ hs
          have := proxyError_over _ _ h1
          refine ⟨h.split, fun hr => ?_, fun hr => ?_⟩ <;> (have h2 := hr.2; dsimp only at h2; rw [this] at h2; cases h2)
        · obtain ⟨f, h1, rfl⟩ := with_ok _ _ _ hs
          have := proxyError_over _ _ h1
          refine ⟨h.split, fun hr => ?_, fun hr => ?_⟩ <;> (have h2 := hr.2; dsimp only at h2; rw [this] at h2; cases h2)
        · obtain ⟨f, h1, rfl⟩ := with_ok _ _ _ hs
          exact ⟨h.split, fun _ hn => h.write hu hn, fun _ => rfl⟩
      · cases hs; exact h
    · split at hs
      · rename_i r hg
        simp only [Bool.and_eq_true, decide_eq_true_eq] at hg
        have hu : Relayed u := ⟨hc', hg.2⟩
        unfold upWritable at hs
        dsimp only at hs
        split at hs
        · rename_i ho
          cases hs
          exact ⟨h.split, fun _ hn => absurd ho hn, fun _ => h.read hu⟩
        · split at hs
          · cases hs; exact ⟨h.split, fun _ _ => rfl, fun _ => h.read hu⟩
          · obtain ⟨f, h1, rfl⟩ := with_ok _ _ _ hs
            have := proxyError_over _ _ h1
            refine ⟨h.split, fun hr => ?_, fun hr => ?_⟩ <;> (have h2 := hr.2; dsimp only at h2; rw [this] at h2; cases h2)
          · rename_i n
            have hsp : (u.wire ++ u.out.take n) ++ u.out.drop n = msg := by
              rw [List.append_assoc, List.take_append_drop]; exact h.split
            split at hs
            · rename_i ho
              cases hs
              exact ⟨hsp, fun _ hn => absurd ho hn, fun _ => h.read hu⟩
            · cases hs
              exact ⟨hsp, fun _ _ => rfl, fun _ => h.read hu⟩
      · cases hs; exact h
    · rename_i n
      obtain ⟨f, h1, rfl⟩ := with_ok _ _ _ hs
      have hph : f.phase = u.f.phase := by
        unfold proxyStep at h1
        rw [if_neg hc] at h1
        dsimp only at h1
        split at h1
        · cases h1; rfl
        · cases h1
        · cases h1
      refine ⟨h.split, fun hr hn => h.write ⟨hc', ?_⟩ hn, fun hr => h.read ⟨hc', ?_⟩⟩
      · rw [← hph]; exact hr.2
      · rw [← hph]; exact hr.2

theorem upRun_way (msg : Bytes) (evs : List UpEv) : ∀ u u' : Up, OnItsWay msg u → upRun env evs u = .ok u' → OnItsWay msg u' := by
  induction evs with
  | nil => intro u u' h hs; cases hs; exact h
  | cons ev r ih =>
    intro u u' h hs
    unfold upRun at hs
    split at hs
    · rename_i u1 h1; exact ih _ _ (upStep_way msg ev _ _ h h1) hs
    · cases hs
    · cases hs

/-- once not in use, never again -/
theorem not_relayed_step (ev : UpEv) (u u' : Up) (h : ¬ Relayed u) (hs : upStep env ev u = .ok u') : ¬ Relayed u' := by
  unfold upStep at hs
  split at hs
  · cases hs; exact h
  · rename_i hc
    have hph : u.f.phase ≠ .relaying := fun e => h ⟨by simpa using hc, e⟩
    split at hs
    · rw [if_neg (by simp [hph])] at hs; cases hs; exact h
    · rw [if_neg (by simp [hph])] at hs; cases hs; exact h
    · obtain ⟨f, h1, rfl⟩ := with_ok _ _ _ hs
      have hp : f.phase = u.f.phase := by
        unfold proxyStep at h1
        rw [if_neg hc] at h1
        dsimp only at h1
        split at h1
        · cases h1; rfl
        · cases h1
        · cases h1
      intro hr
      exact hph (by rw [← hp]; exact hr.2)

theorem not_relayed_run (evs : List UpEv) : ∀ u u' : Up, ¬ Relayed u → upRun env evs u = .ok u' → ¬ Relayed u' := by
  induction evs with
  | nil => intro u u' h hs; cases hs; exact h
  | cons ev r ih =>
    intro u u' h hs
    unfold upRun at hs
    split at hs
    · rename_i u1 h1; exact ih _ _ (not_relayed_step ev _ _ h h1) hs
    · cases hs
    · cases hs

/-- an event never adds to what is queued, and one that lets a byte pass takes some of it -/
theorem upStep_shrinks (msg : Bytes) (ev : UpEv) (u u' : Up) (hw : OnItsWay msg u) (hr : Relayed u) (hs : upStep env ev u = .ok u') :
    u'.out.length + roomFor [ev] ≤ u.out.length ∨ u'.out = [] := by
  by_cases he : u.out = []
  · right
    have := (upStep_way msg ev u u' hw hs).split
    have hle : u'.out.length ≤ u.out.length := by
      unfold upStep at hs
      rw [if_neg (by rw [hr.1]; simp)] at hs
      split at hs
      · split at hs
        · unfold upReadable at hs
          dsimp only at hs
          split at hs
          · cases hs; exact Nat.le_refl _
          · obtain ⟨f, -, rfl⟩ := with_ok _ _ _ hs; exact Nat.le_refl _
          · obtain ⟨f, -, rfl⟩ := with_ok _ _ _ hs; exact Nat.le_refl _
          · obtain ⟨f, -, rfl⟩ := with_ok _ _ _ hs; exact Nat.le_refl _
        · cases hs; exact Nat.le_refl _
      · split at hs
        · unfold upWritable at hs
          dsimp only at hs
          rw [if_pos he] at hs
          cases hs; exact Nat.le_refl _
        · cases hs; exact Nat.le_refl _
      · obtain ⟨f, -, rfl⟩ := with_ok _ _ _ hs; exact Nat.le_refl _
    rw [he] at hle
    exact List.length_eq_zero_iff.1 (Nat.le_zero.1 hle)
  · have hwr := hw.write hr he
    have hrd := hw.read hr
    unfold upStep at hs
    rw [if_neg (by rw [hr.1]; simp)] at hs
    split at hs
    · left
      rw [if_pos (by rw [hrd, hr.2]; rfl)] at hs
      unfold upReadable at hs
      dsimp only at hs
      split at hs
      · cases hs; simp [roomFor]
      · obtain ⟨f, -, rfl⟩ := with_ok _ _ _ hs; simp [roomFor]
      · obtain ⟨f, -, rfl⟩ := with_ok _ _ _ hs; simp [roomFor]
      · obtain ⟨f, -, rfl⟩ := with_ok _ _ _ hs; simp [roomFor]
    · rw [if_pos (by rw [hwr, hr.2]; rfl)] at hs
      unfold upWritable at hs
      dsimp only at hs
      rw [if_neg he] at hs
      split at hs
      · cases hs; left; simp [roomFor]
      · obtain ⟨f, -, rfl⟩ := with_ok _ _ _ hs; left; simp [roomFor]
      · rename_i n
        split at hs
        · rename_i ho; cases hs; exact .inr ho
        · rename_i ho
          cases hs
          left
          have hpos : 0 < u.out.length := List.length_pos_iff.2 he
          dsimp only
          by_cases hn : 0 < n
          · simp [roomFor, hn]; omega
          · simp [roomFor, hn]
    · obtain ⟨f, -, rfl⟩ := with_ok _ _ _ hs; left; simp [roomFor]

theorem roomFor_cons (ev : UpEv) (r : List UpEv) : roomFor (ev :: r) = roomFor [ev] + roomFor r := by
  unfold roomFor
  rw [← List.length_append, ← List.filter_append, List.singleton_append]

theorem upRun_empties (msg : Bytes) (evs : List UpEv) : ∀ u u' : Up, OnItsWay msg u → upRun env evs u = .ok u' → Relayed u' →
    u.out.length ≤ roomFor evs → u'.out = [] := by
  induction evs with
  | nil =>
    intro u u' h hs hr hl
    cases hs
    exact List.length_eq_zero_iff.1 (Nat.le_zero.1 hl)
  | cons ev r ih =>
    intro u u' h hs hr hl
    unfold upRun at hs
    split at hs
    · rename_i u1 h1
      have hu : Relayed u := Classical.byContradiction fun hn => not_relayed_run r u1 u' (not_relayed_step ev u u1 hn h1) hs hr
      have h1w := upStep_way msg ev u u1 h h1
      refine ih u1 u' h1w hs hr ?_
      rw [roomFor_cons] at hl
      rcases upStep_shrinks msg ev u u1 h hu h1 with hk | hk
      · omega
      · rw [hk]; exact Nat.zero_le _
    · cases hs
    · cases hs

/-- the client's side of it is that of Model/Proxy.lean -/
theorem upStep_means (ev : UpEv) (u u' : Up) (hw : Relayed u → u.rd = true) (hph : u.f.phase ≠ .connecting)
    (hs : upStep env ev u = .ok u') :
    (match UpMeans ev with | some e => proxyStep env e u.f | none => .ok u.f) = .ok u'.f ∨ (ev = .writable .failed ∧ u'.f = u.f) := by
  by_cases hev : ev = .writable .failed ∧ u'.f = u.f
  · exact .inr hev
  left
  unfold upStep at hs
  split at hs
  · rename_i hc
    cases hs
    cases hm : UpMeans ev with
    | none => rfl
    | some e => dsimp only; unfold proxyStep; rw [if_pos hc]
  · rename_i hc
    have hc' : u.f.c.closed = false := by simpa using hc
    have hov : ∀ e : PEv, (∀ n, e ≠ .flush n) → u.f.phase ≠ .relaying → proxyStep env e u.f = .ok u.f := by
      intro e he hp
      have hpo : u.f.phase = .over := by
        cases hq : u.f.phase with
        | connecting => exact absurd hq hph
        | relaying => exact absurd hq hp
        | over => rfl
      unfold proxyStep
      rw [if_neg hc, hpo]
      cases e with
      | handshake b => cases b <;> rfl
      | timeout => rfl
      | data b => rfl
      | eof => rfl
      | flush n => exact absurd rfl (he n)
    split at hs
    · rename_i r
      by_cases hp : u.f.phase = .relaying
      · rw [if_pos (by rw [hw ⟨hc', hp⟩, hp]; rfl)] at hs
        unfold upReadable at hs
        dsimp only at hs
        split at hs
        · cases hs; rfl
        · obtain ⟨f, h1, rfl⟩ := with_ok _ _ _ hs
          simp only [UpMeans]
          unfold proxyStep
          rw [if_neg hc, hp]
          exact h1
        · obtain ⟨f, h1, rfl⟩ := with_ok _ _ _ hs
          simp only [UpMeans]
          unfold proxyStep
          rw [if_neg hc, hp]
          exact h1
        · rename_i data hd
          obtain ⟨f, h1, rfl⟩ := with_ok _ _ _ hs
          cases data with
          | nil => exact absurd rfl hd
          | cons b d =>
            simp only [UpMeans]
            unfold proxyStep
            rw [if_neg hc, hp]
            exact h1
      · rw [if_neg (by simp [hp])] at hs
        cases hs
        cases r with
        | want => rfl
        | failed => exact hov _ (by intro n h; cases h) hp
        | got d => cases d with
          | nil => exact hov _ (by intro n h; cases h) hp
          | cons b d => exact hov _ (by intro n h; cases h) hp
    · rename_i r
      by_cases hp : u.f.phase = .relaying
      · cases r with
        | want =>
          split at hs
          · unfold upWritable at hs; dsimp only at hs; split at hs <;> (cases hs; rfl)
          · cases hs; rfl
        | failed =>
          split at hs
          · unfold upWritable at hs
            dsimp only at hs
            split at hs
            · cases hs; exact absurd ⟨rfl, rfl⟩ hev
            · obtain ⟨f, h3, rfl⟩ := with_ok _ _ _ hs
              simp only [UpMeans]
              unfold proxyStep
              rw [if_neg hc, hp]
              exact h3
          · cases hs; exact absurd ⟨rfl, rfl⟩ hev
        | got n =>
          split at hs
          · unfold upWritable at hs; dsimp only at hs
            split at hs
            · cases hs; rfl
            · split at hs <;> (cases hs; rfl)
          · cases hs; rfl
      · rw [if_neg (by simp [hp])] at hs
        cases hs
        cases r with
        | want => rfl
        | failed => exact hov _ (by intro n h; cases h) hp
        | got d => rfl
    · obtain ⟨f, h1, rfl⟩ := with_ok _ _ _ hs
      exact h1


theorem upStep_phase (ev : UpEv) (u u' : Up) (h : u.f.phase ≠ .connecting) (hs : upStep env ev u = .ok u') : u'.f.phase ≠ .connecting := by
  have rdp : ∀ (f g : PClient) (d : Bytes), f.phase ≠ .connecting → proxyRead env f d = .ok g → g.phase ≠ .connecting := by
    intro f g d hf hg
    have er : ∀ f', proxyError env f' = .ok g → g.phase ≠ .connecting := by
      intro f' h; rw [proxyError_over _ _ h]; intro h; cases h
    unfold proxyRead at hg
    dsimp only at hg
    split at hg
    · split at hg
      · split at hg
        · exact er _ hg
        · cases hg; exact hf
      · split at hg
        · split at hg
          · exact er _ hg
          · split at hg
            · exact er _ hg
            · split at hg
              · exact er _ hg
              · cases hg; exact hf
        · exact er _ hg
    · cases hg; exact hf
  have er : ∀ g, proxyError env u.f = .ok g → g.phase ≠ .connecting := by
    intro g h; rw [proxyError_over _ _ h]; intro h; cases h
  unfold upStep at hs
  split at hs
  · cases hs; exact h
  · rename_i hc
    split at hs
    · split at hs
      · unfold upReadable at hs
        dsimp only at hs
        split at hs
        · cases hs; exact h
        · obtain ⟨f, h1, rfl⟩ := with_ok _ _ _ hs; exact er _ h1
        · obtain ⟨f, h1, rfl⟩ := with_ok _ _ _ hs; exact er _ h1
        · obtain ⟨f, h1, rfl⟩ := with_ok _ _ _ hs; exact rdp _ _ _ h h1
      · cases hs; exact h
    · split at hs
      · unfold upWritable at hs
        dsimp only at hs
        split at hs
        · cases hs; exact h
        · split at hs
          · cases hs; exact h
          · obtain ⟨f, h1, rfl⟩ := with_ok _ _ _ hs; exact er _ h1
          · split at hs <;> (cases hs; exact h)
      · cases hs; exact h
    · obtain ⟨f, h1, rfl⟩ := with_ok _ _ _ hs
      unfold proxyStep at h1
      rw [if_neg hc] at h1
      dsimp only at h1
      split at h1
      · cases h1; exact h
      · cases h1
      · cases h1

theorem upRun_means (msg : Bytes) (evs : List UpEv) : ∀ u u' : Up, OnItsWay msg u → u.f.phase ≠ .connecting → upRun env evs u = .ok u' →
    ∃ evs' : List UpEv, evs'.Sublist evs ∧ (∀ ev, ev ≠ .writable .failed → evs'.count ev = evs.count ev) ∧ proxyRun env (evs'.filterMap UpMeans) u.f = .ok u'.f := by
  induction evs with
  | nil => intro u u' _ _ hs; cases hs; exact ⟨[], List.Sublist.refl _, fun _ _ => rfl, rfl⟩
  | cons ev r ih =>
    intro u u' h hp hs
    unfold upRun at hs
    split at hs
    · rename_i u1 h1
      obtain ⟨evs', k1, k2, k3⟩ := ih u1 u' (upStep_way msg ev u u1 h h1) (upStep_phase ev u u1 hp h1) hs
      rcases upStep_means ev u u1 h.read hp h1 with hm | ⟨e1, e2⟩
      · refine ⟨ev :: evs', k1.cons₂ _, ?_, ?_⟩
        · intro e he; rw [List.count_cons, List.count_cons, k2 e he]
        · cases hu : UpMeans ev with
          | none =>
            rw [hu] at hm
            rw [List.filterMap_cons_none hu]
            simp only [Res.ok.injEq] at hm
            rw [hm]
            exact k3
          | some e =>
            rw [hu] at hm
            rw [List.filterMap_cons_some hu]
            unfold proxyRun
            dsimp only at hm
            rw [hm]
            exact k3
      · refine ⟨evs', k1.cons _, ?_, ?_⟩
        · intro e he
          rw [k2 e he, List.count_cons_of_ne]
          rw [e1]; exact fun h => he h.symm
        · rw [← e2]; exact k3
    · cases hs
    · cases hs

end

/-- C106: the message to the upstream server is the PROXY line, if there is one, and the request line; at any point of any history what was
written is a beginning of it and the rest is queued; and while the connection is in use the event loop will call back to write that rest, and
when something arrives. -/
theorem C106_request_on_its_way (env : Env) (pre iribuf : Bytes) (i : Iri) (f : PClient) (evs : List UpEv) (hb : iribuf.length = 1027)
    (h1 : (0 : UInt8) ∉ i.schema) (h2 : (0 : UInt8) ∉ i.host) (h3 : (0 : UInt8) ∉ i.path) (h4 : (0 : UInt8) ∉ i.query) :
    ∃ u, upEnqueue pre iribuf i f = some u ∧
      ∀ u', upRun env evs u = .ok u' → OnItsWay (pre ++ ((iriText i).take 1026 ++ b%"\r\n")) u' := by
  obtain ⟨m, ok, e, -, -, hc⟩ := C10_serialize_bounded i iribuf 1027 (by omega) (by omega) h1 h2 h3 h4
  refine ⟨{ f := { f with phase := .relaying }, out := pre ++ (cstr m ++ b%"\r\n") }, by unfold upEnqueue; rw [e], ?_⟩
  intro u' hs
  refine upRun_way _ evs _ u' ⟨?_, fun _ _ => rfl, fun _ => rfl⟩ hs
  rw [hc]; rfl

/-- C106: and it is written in full once the connection let as many bytes pass as it has (a byte per event at least), unless upstream or the
client went away before. -/
theorem C106_request_in_full (env : Env) (pre iribuf : Bytes) (i : Iri) (f : PClient) (evs : List UpEv) (u u' : Up)
    (hu : upEnqueue pre iribuf i f = some u) (hs : upRun env evs u = .ok u') (hr : Relayed u')
    (hl : u.out.length ≤ roomFor evs) : u'.wire = u.out ∧ u'.out = [] := by
  have hw : OnItsWay u.out u := by
    unfold upEnqueue at hu
    split at hu
    · cases hu
    · cases hu
      exact ⟨rfl, fun _ _ => rfl, fun _ => rfl⟩
  have he := upRun_empties u.out evs u u' hw hs hr hl
  have := (upRun_way u.out evs u u' hw hs).split
  rw [he, List.append_nil] at this
  exact ⟨this, he⟩

/-- C106: and the reply of the upstream server is treated as in C31, whatever tls_read and tls_write want: data and the end are those
reported, in that order (a failed write counts as the end; one that was not asked for is not reported). -/
theorem C106_reply_read (env : Env) (pre iribuf : Bytes) (i : Iri) (f : PClient) (evs : List UpEv) (u u' : Up)
    (hu : upEnqueue pre iribuf i f = some u) (hs : upRun env evs u = .ok u') :
    ∃ evs' : List UpEv, evs'.Sublist evs ∧ (∀ ev, ev ≠ .writable .failed → evs'.count ev = evs.count ev) ∧
      proxyRun env (evs'.filterMap UpMeans) { f with phase := .relaying } = .ok u'.f := by
  have hw : OnItsWay u.out u ∧ u.f = { f with phase := .relaying } := by
    unfold upEnqueue at hu
    split at hu
    · cases hu
    · cases hu
      exact ⟨⟨rfl, fun _ _ => rfl, fun _ => rfl⟩, rfl⟩
  have := upRun_means u.out evs u u' hw.1 (by rw [hw.2]; intro h; cases h) hs
  rw [hw.2] at this
  exact this

/-! ## the PROXY line in front of TLS -/

/-- one call: more of the line, or the rest of the line and then some of the TLS data -/
theorem proxyWriteCb_spec (buf : Bytes) (ws : List WRes) : ∀ (s s' : PLine) (r : CbRes), s.readPos ≤ s.data.length →
    proxyWriteCb buf s ws = (s', r) →
    s'.data = s.data ∧ s.readPos ≤ s'.readPos ∧ s'.readPos ≤ s.data.length ∧
    ((∃ n, r = .took n ∧ s'.readPos = s.data.length ∧ s'.sock = s.sock ++ s.data.drop s.readPos ++ buf.take n) ∨
     ((r = .wantOut ∨ r = .error ∨ r = .took 0) ∧ s'.sock = s.sock ++ (s.data.drop s.readPos).take (s'.readPos - s.readPos))) := by
  induction ws with
  | nil =>
    intro s s' r hp h
    unfold proxyWriteCb at h
    split at h
    · cases h; exact ⟨rfl, Nat.le_refl _, hp, .inr ⟨.inl rfl, by simp⟩⟩
    · unfold plinePayload at h; cases h; exact ⟨rfl, Nat.le_refl _, hp, .inr ⟨.inl rfl, by simp⟩⟩
  | cons w ws ih =>
    intro s s' r hp h
    unfold proxyWriteCb at h
    split at h
    · rename_i hl
      cases w with
      | again => cases h; exact ⟨rfl, Nat.le_refl _, hp, .inr ⟨.inl rfl, by simp⟩⟩
      | failed => cases h; exact ⟨rfl, Nat.le_refl _, hp, .inr ⟨.inr (.inl rfl), by simp⟩⟩
      | wrote n =>
        dsimp only at h
        split at h
        · cases h; exact ⟨rfl, Nat.le_refl _, hp, .inr ⟨.inr (.inr rfl), by simp⟩⟩
        · generalize hm : min n (s.data.length - s.readPos) = m at h
          have hmle : m ≤ s.data.length - s.readPos := by omega
          obtain ⟨k1, k2, k3, k4⟩ := ih _ s' r (by dsimp only; omega) h
          dsimp only at k1 k2 k3 k4
          refine ⟨k1, by omega, k3, ?_⟩
          have hd : s.data.drop s.readPos = (s.data.drop s.readPos).take m ++ s.data.drop (s.readPos + m) := by
            rw [← List.drop_drop, List.take_append_drop]
          rcases k4 with ⟨n', e1, e2, e3⟩ | ⟨e1, e2⟩
          · refine .inl ⟨n', e1, e2, ?_⟩
            rw [e3, hd]
            simp only [List.append_assoc]
            rw [← List.drop_drop, List.take_append_drop, List.drop_drop]
          · refine .inr ⟨e1, ?_⟩
            rw [e2, List.append_assoc]
            congr 1
            have hle : m ≤ s'.readPos - s.readPos := by omega
            rw [show s'.readPos - s.readPos = m + (s'.readPos - (s.readPos + m)) by omega, List.take_add, List.drop_drop]
    · rename_i hl
      have he : s.readPos = s.data.length := by omega
      have hdn : s.data.drop s.readPos = [] := by rw [he]; exact List.drop_length
      cases w with
      | again => unfold plinePayload at h; cases h; exact ⟨rfl, Nat.le_refl _, hp, .inr ⟨.inl rfl, by simp⟩⟩
      | failed => unfold plinePayload at h; cases h; exact ⟨rfl, Nat.le_refl _, hp, .inr ⟨.inr (.inl rfl), by simp⟩⟩
      | wrote n =>
        unfold plinePayload at h
        cases h
        refine ⟨rfl, Nat.le_refl _, hp, .inl ⟨_, rfl, he, ?_⟩⟩
        dsimp only
        rw [hdn, List.append_nil, ← List.take_take, List.take_length]

/-- C106: with TLS, the PROXY line goes first: whatever write(2) answers, the socket has got a beginning of the line and nothing else, or
the line and then exactly the TLS data that was reported as taken. -/
theorem C106_line_before_tls (line : Bytes) (calls : List (Bytes × List WRes)) (s : PLine) (taken : Bytes)
    (h : plineCalls calls { data := line } = (s, taken)) :
    (s.sock <+: line ∧ taken = []) ∨ s.sock = line ++ taken := by
  have gen : ∀ (calls : List (Bytes × List WRes)) (s0 s : PLine) (taken : Bytes), s0.readPos ≤ s0.data.length → plineCalls calls s0 = (s, taken) →
      s.data = s0.data ∧ s0.readPos ≤ s.readPos ∧ s.readPos ≤ s0.data.length ∧
      ((taken = [] ∧ s.sock = s0.sock ++ (s0.data.drop s0.readPos).take (s.readPos - s0.readPos)) ∨ s.sock = s0.sock ++ s0.data.drop s0.readPos ++ taken) := by
    intro calls
    induction calls with
    | nil =>
      intro s0 s taken hp h
      cases h
      exact ⟨rfl, Nat.le_refl _, hp, .inl ⟨rfl, by simp⟩⟩
    | cons call r ih =>
      obtain ⟨buf, ws⟩ := call
      intro s0 s taken hp h
      unfold plineCalls at h
      cases hc : proxyWriteCb buf s0 ws with
      | mk s1 res =>
        rw [hc] at h
        obtain ⟨k1, k2, k3, k4⟩ := proxyWriteCb_spec buf ws s0 s1 res hp hc
        -- what the remaining calls do
        have rest : ∀ t, plineCalls r s1 = (s, t) → s.data = s0.data ∧ s0.readPos ≤ s.readPos ∧ s.readPos ≤ s0.data.length ∧
            ((t = [] ∧ s.sock = s1.sock ++ (s0.data.drop s1.readPos).take (s.readPos - s1.readPos)) ∨ s.sock = s1.sock ++ s0.data.drop s1.readPos ++ t) ∧
            s1.readPos ≤ s.readPos := by
          intro t ht
          obtain ⟨j1, j2, j3, j4⟩ := ih s1 s t (by rw [k1]; exact k3) ht
          rw [k1] at j1 j3 j4
          exact ⟨j1, by omega, j3, j4, j2⟩
        have step : ∀ t, plineCalls r s1 = (s, t) → s1.sock = s0.sock ++ (s0.data.drop s0.readPos).take (s1.readPos - s0.readPos) →
            s.data = s0.data ∧ s0.readPos ≤ s.readPos ∧ s.readPos ≤ s0.data.length ∧
            ((t = [] ∧ s.sock = s0.sock ++ (s0.data.drop s0.readPos).take (s.readPos - s0.readPos)) ∨ s.sock = s0.sock ++ s0.data.drop s0.readPos ++ t) := by
          intro t ht hso
          obtain ⟨j1, j2, j3, j4, j5⟩ := rest t ht
          refine ⟨j1, j2, j3, ?_⟩
          have hdd : (s0.data.drop s0.readPos).drop (s1.readPos - s0.readPos) = s0.data.drop s1.readPos := by
            rw [List.drop_drop]; congr 1; omega
          rcases j4 with ⟨e1, e2⟩ | e2
          · refine .inl ⟨e1, ?_⟩
            rw [e2, hso, List.append_assoc]
            congr 1
            rw [show s.readPos - s0.readPos = (s1.readPos - s0.readPos) + (s.readPos - s1.readPos) by omega, List.take_add, hdd]
          · refine .inr ?_
            rw [e2, hso, ← hdd, List.append_assoc s0.sock, List.take_append_drop]
        cases res with
        | took n =>
          dsimp only at h
          cases hq : plineCalls r s1 with
          | mk sq tq =>
            rw [hq] at h
            dsimp only at h
            cases h
            rcases k4 with ⟨n', e1, e2, e3⟩ | ⟨e1, e2⟩
            · cases e1
              obtain ⟨j1, j2, j3, j4, j5⟩ := rest _ hq
              have hdn : s0.data.drop s1.readPos = [] := by rw [e2]; exact List.drop_length
              refine ⟨j1, j2, j3, .inr ?_⟩
              rcases j4 with ⟨f1, f2⟩ | f2
              · rw [f2, hdn, f1, e3]; simp
              · rw [f2, hdn, e3]; simp
            · have hn : n = 0 := by
                rcases e1 with e | e | e
                · cases e
                · cases e
                · cases e; rfl
              subst hn
              simpa using step _ hq e2
        | wantOut =>
          dsimp only at h
          rcases k4 with ⟨n', e1, -, -⟩ | ⟨-, e2⟩
          · cases e1
          · exact step _ h e2
        | error =>
          dsimp only at h
          rcases k4 with ⟨n', e1, -, -⟩ | ⟨-, e2⟩
          · cases e1
          · exact step _ h e2
  obtain ⟨-, -, -, h4⟩ := gen calls { data := line } s taken (Nat.zero_le _) h
  rcases h4 with ⟨e1, e2⟩ | e2
  · refine .inl ⟨?_, e1⟩
    rw [e2]
    simpa using List.take_prefix _ _
  · refine .inr ?_
    rw [e2]; simp

/-! ### cases -/

/-- a request sent in three pieces with retries in between, then the reply; the hypotheses of the theorems hold -/
example : (upEnqueue b%"PROXY TCP4 1.2.3.4 5.6.7.8 9 1965\r\n" (List.replicate 1027 7) ⟨b%"gemini", b%"h", [], 1965, b%"a", [], []⟩ { c := exRel }).map (·.out) =
    some b%"PROXY TCP4 1.2.3.4 5.6.7.8 9 1965\r\ngemini://h/a\r\n" := by decide +kernel

example : ((upEnqueue [] (List.replicate 1027 7) ⟨b%"gemini", b%"h", [], 1965, b%"a", [], []⟩ { c := exRel }).bind fun u =>
    (upRun exEnv [.writable .want, .writable (.got 3), .readable .want, .writable (.got 10), .writable (.got 99), .readable (.got b%"20 a\r\nhe"), .client 3,
      .readable (.got b%"llo")] u).val?.map fun u => (u.wire, u.out, u.rd, u.f.c.sent ++ u.f.c.out, u.f.c.closed)) =
    some (b%"gemini://h/a\r\n", [], true, b%"20 a\r\nhello", false) := by decide +kernel

example : plineCalls [(b%"hello", [.wrote 2, .again]), (b%"hello", [.wrote 0]), (b%"hello", [.wrote 5, .wrote 3]), (b%"lo", [.wrote 9])] { data := b%"PROXY" } =
    ({ data := b%"PROXY", readPos := 5, sock := b%"PROXYhello" }, b%"hello") := by decide +kernel

end Gmid.Props
