import Verif.Props.Imsg
import Verif.Spec.Events

/-!
# C110: messages between the processes are delivered
-/

set_option autoImplicit false

namespace Gmid.Props

open Gmid.Spec

section
variable {σ : Type} {bar : Barrier} {pid : Bool → Nat} {h : Handler σ}

@[simp] theorem setChan_self (l : Link σ) (s : Bool) (c : Chan) : (l.setChan s c).chan s = c := by simp [Link.setChan]
@[simp] theorem setChan_other (l : Link σ) (s : Bool) (c : Chan) : (l.setChan s c).chan (!s) = l.chan (!s) := by
  cases s <;> simp [Link.setChan]
@[simp] theorem setChan_other' (l : Link σ) (s : Bool) (c : Chan) : (l.setChan (!s) c).chan s = l.chan s := by
  cases s <;> simp [Link.setChan]
@[simp] theorem setChan_side (l : Link σ) (s : Bool) (c : Chan) : (l.setChan s c).side = l.side := rfl
@[simp] theorem setSide_self (l : Link σ) (s : Bool) (p : Side σ) : (l.setSide s p).side s = p := by simp [Link.setSide]
@[simp] theorem setSide_other (l : Link σ) (s : Bool) (p : Side σ) : (l.setSide s p).side (!s) = l.side (!s) := by
  cases s <;> simp [Link.setSide]
@[simp] theorem setSide_chan (l : Link σ) (s : Bool) (p : Side σ) : (l.setSide s p).chan = l.chan := rfl

/-- both channels are in order -/
def Sound (pid : Bool → Nat) (l : Link σ) : Prop := ∀ s, CInv (pid s) (l.chan s)

/-- a step of a channel, as it is when the channel is in order -/
theorem onChan_sound (hp : ∀ s, pid s < 4294967296) (l : Link σ) (hs : Sound pid l) (who dir : Bool) (a : ChanAct) (ha : ∀ m, a = .compose m → Fits m) :
    ∃ c, chanStep bar (pid dir) (l.chan dir) a = some c ∧ onChan bar pid who dir a l = l.setChan dir c ∧ Sound pid (l.setChan dir c) := by
  obtain ⟨c, h1, h2⟩ := chanStep_inv bar (pid dir) (l.chan dir) (hs dir) (hp dir) a ha
  refine ⟨c, h1, by unfold onChan; rw [h1], ?_⟩
  intro s
  by_cases e : s = dir
  · subst e; rw [setChan_self]; exact h2
  · have : s = !dir := by cases s <;> cases dir <;> simp_all
    subst this; rw [setChan_other]; exact hs _

theorem chan_compose {mp : Nat} {c c' : Chan} {m : IMsg} (hc : chanStep bar mp c (.compose m) = some c') :
    c'.wire = c.wire ∧ c'.rd = c.rd ∧ c'.got = c.got ∧ (c'.sent = if m.data.length + 16 ≤ 16384 then c.sent ++ [m] else c.sent) ∧
      (¬ m.data.length + 16 ≤ 16384 → c' = c) := by
  simp only [chanStep, compose_iff] at hc
  by_cases hl : m.data.length + 16 ≤ 16384
  · rw [if_pos hl] at hc
    simp only [Option.some.injEq] at hc
    subst hc
    simp [hl]
  · rw [if_neg hl] at hc
    simp only [Option.some.injEq] at hc
    subst hc
    simp [hl]

theorem chan_write {mp : Nat} {c c' : Chan} {n : Nat} (hc : chanStep bar mp c (.write n) = some c') :
    c'.queue = (msgbufWrite n c.queue c.wire).1 ∧ c'.wire = (msgbufWrite n c.queue c.wire).2 ∧ c'.rd = c.rd ∧ c'.got = c.got ∧ c'.sent = c.sent := by
  simp only [chanStep, Option.some.injEq] at hc
  subst hc; simp

theorem chan_read {mp : Nat} {c c' : Chan} {k : Nat} (hc : chanStep bar mp c (.read k) = some c') :
    c'.queue = c.queue ∧ c'.got = c.got ∧ c'.sent = c.sent ∧
      c'.wire = c.wire.drop (min (min k (ibufReadSize - c.rd.rbuf.length)) (recvMax bar c.wire)) := by
  simp only [chanStep] at hc
  split at hc
  · simp at hc
  · rename_i w r hr
    simp only [Option.some.injEq] at hc
    subst hc
    refine ⟨rfl, rfl, rfl, ?_⟩
    unfold msgbufRead at hr
    dsimp only at hr
    split at hr
    · rename_i h0
      simp only [Option.some.injEq, Prod.mk.injEq] at hr
      rw [h0, ← hr.1]; rfl
    · split at hr
      · cases hr
      · simp only [Option.some.injEq, Prod.mk.injEq] at hr
        exact hr.1.symm

/-- a message that is queued is got -/
theorem chan_get {mp : Nat} {c : Chan} (hi : CInv mp c) (hne : c.rd.rbufs ≠ []) :
    ∃ m r, imsgGet c.rd = some (m, r) ∧ r.rbufs = c.rd.rbufs.tail ∧ chanStep bar mp c .get = some { c with rd := r, got := c.got ++ [m] } := by
  obtain ⟨hgood, -, dn, qd, rest, h1, h2, h3, -, -⟩ := hi
  cases hr : c.rd.rbufs with
  | nil => exact absurd hr hne
  | cons b bs =>
    cases qd with
    | nil => rw [hr] at h3; simp at h3
    | cons m qs =>
      rw [hr] at h3
      simp only [List.map_cons, List.cons.injEq] at h3
      have hgm : Good mp m := hgood m (by rw [h1]; simp)
      have hb : b = (frame mp m, b.2) := by rw [← h3.1]
      have e := get_frame mp m hgm b.2 bs c.rd (by rw [hr, hb])
      exact ⟨_, _, e, rfl, by simp only [chanStep, e]⟩

/-! ## composing -/

/-- only the channel of `s` changed, and only what is queued there; the processes run as before -/
structure Composed (s : Bool) (l l' : Link σ) : Prop where
  sound : Sound pid l'
  rd : (l'.chan s).rd = (l.chan s).rd
  wire : (l'.chan s).wire = (l.chan s).wire
  got : (l'.chan s).got = (l.chan s).got
  sent : (l.chan s).sent <+: (l'.chan s).sent
  other : l'.chan (!s) = l.chan (!s)
  st : (l'.side s).st = (l.side s).st
  alive : (l'.side s).alive = (l.side s).alive
  peer : l'.side (!s) = l.side (!s)

theorem Composed.trans {s : Bool} {a b c : Link σ} (h1 : Composed (pid := pid) s a b) (h2 : Composed (pid := pid) s b c) : Composed (pid := pid) s a c where
  sound := h2.sound
  rd := h2.rd.trans h1.rd
  wire := h2.wire.trans h1.wire
  got := h2.got.trans h1.got
  sent := h1.sent.trans h2.sent
  other := h2.other.trans h1.other
  st := h2.st.trans h1.st
  alive := h2.alive.trans h1.alive
  peer := h2.peer.trans h1.peer

theorem composeEvent_composed (hp : ∀ s, pid s < 4294967296) (l : Link σ) (hs : Sound pid l) (s : Bool) (m : IMsg) (hm : Fits m) :
    Composed (pid := pid) s l (composeEvent bar pid s m l) ∧
    ((composeEvent bar pid s m l).chan s).sent = (if m.data.length + 16 ≤ 16384 then (l.chan s).sent ++ [m] else (l.chan s).sent) ∧
    (m.data.length + 16 ≤ 16384 → ((composeEvent bar pid s m l).side s).rdEv = true ∧
      ((composeEvent bar pid s m l).side s).wrEv = decide (((composeEvent bar pid s m l).chan s).queue ≠ [])) ∧
    (¬ m.data.length + 16 ≤ 16384 → composeEvent bar pid s m l = l) := by
  unfold composeEvent
  rw [compose_iff]
  by_cases hl : m.data.length + 16 ≤ 16384
  · rw [if_pos hl]
    dsimp only
    obtain ⟨c, h1, h2, h3⟩ := onChan_sound (bar := bar) hp l hs s s (.compose m) (by intro x hx; cases hx; exact hm)
    obtain ⟨k1, k2, k3, k4, -⟩ := chan_compose h1
    rw [h2]
    refine ⟨?_, ?_, ?_, fun hx => absurd hl hx⟩
    · constructor
      · exact h3
      all_goals simp [eventAdd, k1, k2, k3, k4, hl]
    · simp [eventAdd, k4, hl]
    · simp [eventAdd]
  · rw [if_neg hl]
    dsimp only
    refine ⟨⟨hs, rfl, rfl, rfl, List.prefix_refl _, rfl, rfl, rfl, rfl⟩, by simp [hl], fun hx => absurd hx hl, fun _ => rfl⟩

theorem composeEvents_composed (hp : ∀ s, pid s < 4294967296) (s : Bool) : ∀ (ms : List IMsg) (l : Link σ), Sound pid l → (∀ m ∈ ms, Fits m) →
    Composed (pid := pid) s l (composeEvents bar pid s ms l) := by
  intro ms
  induction ms with
  | nil => intro l hs _; exact ⟨hs, rfl, rfl, rfl, List.prefix_refl _, rfl, rfl, rfl, rfl⟩
  | cons m r ih =>
    intro l hs hf
    have h1 := (composeEvent_composed (bar := bar) hp l hs s m (hf m (by simp))).1
    exact h1.trans (ih _ h1.sound fun x hx => hf x (by simp [hx]))

/-! ## the loop -/

/-- what the loop of proc_dispatch does to the two channels -/
structure Looped (s : Bool) (l l' : Link σ) : Prop where
  sound : Sound pid l'
  peer : l'.side (!s) = l.side (!s)
  ownRd : (l'.chan s).rd = (l.chan s).rd
  ownWire : (l'.chan s).wire = (l.chan s).wire
  ownGot : (l'.chan s).got = (l.chan s).got
  ownSent : (l.chan s).sent <+: (l'.chan s).sent
  queue : (l'.chan (!s)).queue = (l.chan (!s)).queue
  wire : (l'.chan (!s)).wire = (l.chan (!s)).wire
  sent : (l'.chan (!s)).sent = (l.chan (!s)).sent

theorem handleAll_concat (f : σ → IMsg → Option (σ × List IMsg)) : ∀ (ms : List IMsg) (a b : σ) (m : IMsg) (x : σ × List IMsg), handleAll f a ms = some b → f b m = some x →
    handleAll f a (ms ++ [m]) = some x.1 := by
  intro ms
  induction ms with
  | nil => intro a b m x h1 h2; simp only [handleAll, Option.some.injEq] at h1; subst h1; simp [handleAll, h2]
  | cons y r ih =>
    intro a b m x h1 h2
    simp only [handleAll, List.cons_append] at h1 ⊢
    cases hy : f a y with
    | none => rw [hy] at h1; cases h1
    | some z => rw [hy] at h1; exact ih _ _ _ _ h1 h2

theorem Looped.of_composed {s : Bool} {l l' : Link σ} (hc : Composed (pid := pid) s l l') : Looped (pid := pid) s l l' where
  sound := hc.sound
  peer := hc.peer
  ownRd := hc.rd
  ownWire := hc.wire
  ownGot := hc.got
  ownSent := hc.sent
  queue := by rw [hc.other]
  wire := by rw [hc.other]
  sent := by rw [hc.other]

theorem Looped.trans {s : Bool} {a b c : Link σ} (h1 : Looped (pid := pid) s a b) (h2 : Looped (pid := pid) s b c) : Looped (pid := pid) s a c where
  sound := h2.sound
  peer := h2.peer.trans h1.peer
  ownRd := h2.ownRd.trans h1.ownRd
  ownWire := h2.ownWire.trans h1.ownWire
  ownGot := h2.ownGot.trans h1.ownGot
  ownSent := h1.ownSent.trans h2.ownSent
  queue := h2.queue.trans h1.queue
  wire := h2.wire.trans h1.wire
  sent := h2.sent.trans h1.sent

theorem getLoop_looped (hp : ∀ s, pid s < 4294967296) (hh : HandlerFits h) (st0 : Bool → σ) (s : Bool) : ∀ (n : Nat) (l : Link σ), Sound pid l →
    (l.side s).alive = true → (l.chan (!s)).rd.rbufs.length = n → handleAll (h s) (st0 s) (l.chan (!s)).got = some (l.side s).st →
    Looped (pid := pid) s l (getLoop bar pid h s n l) ∧
    (((getLoop bar pid h s n l).side s).alive = true → ((getLoop bar pid h s n l).chan (!s)).rd.rbufs = [] ∧
      handleAll (h s) (st0 s) ((getLoop bar pid h s n l).chan (!s)).got = some ((getLoop bar pid h s n l).side s).st) ∧
    ((∀ st m, h s st m ≠ none) → ((getLoop bar pid h s n l).side s).alive = true) := by
  intro n
  induction n with
  | zero =>
    intro l hs ha hn hst
    refine ⟨⟨hs, rfl, rfl, rfl, rfl, List.prefix_refl _, rfl, rfl, rfl⟩, fun _ => ⟨List.length_eq_zero_iff.1 hn, hst⟩, fun _ => ha⟩
  | succ n ih =>
    intro l hs ha hn hst
    have hne : (l.chan (!s)).rd.rbufs ≠ [] := by intro e; rw [e] at hn; cases hn
    obtain ⟨m, r, g1, g2, g3⟩ := chan_get (bar := bar) (hs (!s)) hne
    obtain ⟨c, c1, c2, c3⟩ := onChan_sound (bar := bar) hp l hs s (!s) .get (by intro x hx; cases hx)
    rw [g3] at c1
    simp only [Option.some.injEq] at c1
    have e : getLoop bar pid h s (n + 1) l = (match h s (l.side s).st m with
        | none => stop s (l.setChan (!s) c)
        | some (st, ms) => getLoop bar pid h s n (composeEvents bar pid s ms ((l.setChan (!s) c).setSide s { l.side s with st := st }))) := by
      simp only [getLoop, g1, c2]; rfl
    have hgot : Looped (pid := pid) s l (l.setChan (!s) c) := by
      constructor
      · exact c3
      all_goals simp [← c1]
    rw [e]
    cases hm : h s (l.side s).st m with
    | none =>
      dsimp only
      refine ⟨hgot.trans ⟨?_, ?_, rfl, rfl, rfl, List.prefix_refl _, rfl, rfl, rfl⟩, ?_, fun hx => absurd hm (hx _ _)⟩
      · exact c3
      · unfold stop; rw [setSide_other]
      · intro hx; simp [stop] at hx
    | some x =>
      obtain ⟨st, ms⟩ := x
      dsimp only
      have hl1 : Looped (pid := pid) s l ((l.setChan (!s) c).setSide s { l.side s with st := st }) := by
        refine hgot.trans ⟨c3, ?_, rfl, rfl, rfl, List.prefix_refl _, rfl, rfl, rfl⟩
        rw [setSide_other]
      have hcs := composeEvents_composed (bar := bar) hp s ms ((l.setChan (!s) c).setSide s { l.side s with st := st }) hl1.sound (hh _ _ _ _ _ hm)
      have hl2 := hl1.trans (Looped.of_composed hcs)
      obtain ⟨i1, i2, i3⟩ := ih _ hl2.sound (by rw [hcs.alive, setSide_self]; exact ha) (by
        rw [hcs.other, setSide_chan, setChan_self, ← c1]
        show r.rbufs.length = n
        rw [g2, List.length_tail, hn]; rfl) (by
        rw [hcs.other, hcs.st, setSide_self, setSide_chan, setChan_self, ← c1]
        exact handleAll_concat _ _ _ _ _ _ hst hm)
      exact ⟨hl2.trans i1, i2, i3⟩

/-! ## a dispatch -/

/-- what holds between two events -/
structure LInv (pid : Bool → Nat) (h : Handler σ) (st0 : Bool → σ) (l : Link σ) : Prop where
  sound : Sound pid l
  run : ∀ s, (l.side s).alive = true → (l.side s).rdEv = true ∧ (l.side s).wrEv = decide ((l.chan s).queue ≠ []) ∧ (l.chan (!s)).rd.rbufs = [] ∧
    handleAll (h s) (st0 s) (l.chan (!s)).got = some (l.side s).st

/-- what one call of proc_dispatch does -/
structure Dispatched (st0 : Bool → σ) (s : Bool) (ev : Ready) (l l' : Link σ) : Prop where
  inv : LInv pid h st0 l'
  peer : l'.side (!s) = l.side (!s)
  ownSent : (l.chan s).sent <+: (l'.chan s).sent
  ownGot : (l'.chan s).got = (l.chan s).got
  sent : (l'.chan (!s)).sent = (l.chan (!s)).sent
  queue : (l'.chan (!s)).queue = (l.chan (!s)).queue
  wire : (l'.chan (!s)).wire = match ev.rd with
    | none => (l.chan (!s)).wire
    | some k => (l.chan (!s)).wire.drop (min (min k (ibufReadSize - (l.chan (!s)).rd.rbuf.length)) (recvMax bar (l.chan (!s)).wire))
  alive : (∀ st m, h s st m ≠ none) → (l'.side s).alive = true

theorem other_cases (s x : Bool) : x = s ∨ x = !s := by cases s <;> cases x <;> simp

theorem LInv.peer_alone {st0 : Bool → σ} {s : Bool} {l l' : Link σ} (hi : LInv pid h st0 l) (h0 : Sound pid l') (h1 : l'.side (!s) = l.side (!s))
    (h2 : (l'.chan (!s)).queue = (l.chan (!s)).queue) (h3 : (l'.chan s).rd = (l.chan s).rd) (h4 : (l'.chan s).got = (l.chan s).got)
    (h5 : (l'.side s).alive = true → (l'.side s).rdEv = true ∧ (l'.side s).wrEv = decide ((l'.chan s).queue ≠ []) ∧ (l'.chan (!s)).rd.rbufs = [] ∧
      handleAll (h s) (st0 s) (l'.chan (!s)).got = some (l'.side s).st) : LInv pid h st0 l' := by
  refine ⟨h0, fun x hx => ?_⟩
  rcases other_cases s x with rfl | rfl
  · exact h5 hx
  · rw [h1] at hx ⊢
    have := hi.run (!s) hx
    rw [Bool.not_not] at this ⊢
    rw [h2, h3, h4]
    exact this

theorem dispatch_spec (hp : ∀ s, pid s < 4294967296) (hh : HandlerFits h) (st0 : Bool → σ) (s : Bool) (ev : Ready) (l : Link σ) (hi : LInv pid h st0 l)
    (ha : (l.side s).alive = true) : Dispatched (bar := bar) (pid := pid) (h := h) st0 s ev l (procDispatch bar pid h s ev l) := by
  obtain ⟨hrd, hwr, hbufs, hst⟩ := hi.run s ha
  -- the read
  have step1 : ∃ l1 : Link σ, l1 = readPart bar pid s ev.rd (l.setSide s { l.side s with rdEv := false, wrEv := false }) ∧ Sound pid l1 ∧
      l1.side s = { l.side s with rdEv := false, wrEv := false } ∧ l1.side (!s) = l.side (!s) ∧ l1.chan s = l.chan s ∧
      (l1.chan (!s)).got = (l.chan (!s)).got ∧ (l1.chan (!s)).sent = (l.chan (!s)).sent ∧ (l1.chan (!s)).queue = (l.chan (!s)).queue ∧
      (l1.chan (!s)).wire = (match ev.rd with
        | none => (l.chan (!s)).wire
        | some k => (l.chan (!s)).wire.drop (min (min k (ibufReadSize - (l.chan (!s)).rd.rbuf.length)) (recvMax bar (l.chan (!s)).wire))) := by
    cases ev.rd with
    | none =>
      refine ⟨_, rfl, hi.sound, ?_⟩
      simp [readPart]
    | some k =>
      dsimp only
      obtain ⟨c, c1, c2, c3⟩ := onChan_sound (bar := bar) hp (l.setSide s { l.side s with rdEv := false, wrEv := false }) hi.sound s (!s) (.read k) (by intro x hx; cases hx)
      obtain ⟨k1, k2, k3, k4⟩ := chan_read c1
      refine ⟨_, c2.symm, c3, ?_⟩
      simp only [setChan_side, setSide_self, setSide_other, setChan_other', setSide_chan, setChan_self] at k1 k2 k3 k4 ⊢
      exact ⟨trivial, trivial, trivial, k2, k3, k1, k4⟩
  obtain ⟨l1, d1, s1, p1, q1, r1, t1, u1, v1, w1⟩ := step1
  -- the write
  have step2 : ∃ l2 : Link σ, l2 = writePart bar pid s ev.wr l1 ∧ Sound pid l2 ∧ l2.side = l1.side ∧ l2.chan (!s) = l1.chan (!s) ∧
      (l2.chan s).rd = (l1.chan s).rd ∧ (l2.chan s).got = (l1.chan s).got ∧ (l2.chan s).sent = (l1.chan s).sent := by
    cases ev.wr with
    | none => exact ⟨l1, rfl, s1, rfl, rfl, rfl, rfl, rfl⟩
    | some n =>
      obtain ⟨c, c1, c2, c3⟩ := onChan_sound (bar := bar) hp l1 s1 s s (.write n) (by intro x hx; cases hx)
      obtain ⟨-, -, k3, k4, k5⟩ := chan_write c1
      refine ⟨_, c2.symm, c3, ?_⟩
      simp only [setChan_side, setChan_other, setChan_self]
      exact ⟨trivial, trivial, k3, k4, k5⟩
  obtain ⟨l2, d2, s2, p2, q2, r2, t2, u2⟩ := step2
  have e : procDispatch bar pid h s ev l = (if !((getLoop bar pid h s (l2.chan (!s)).rd.rbufs.length l2).side s).alive then getLoop bar pid h s (l2.chan (!s)).rd.rbufs.length l2
      else eventAdd s (getLoop bar pid h s (l2.chan (!s)).rd.rbufs.length l2)) := by
    unfold procDispatch
    dsimp only at d1 ⊢
    rw [← d1, p1]
    dsimp only
    rw [ha, if_neg (by decide), ← d2]
  have ha2 : (l2.side s).alive = true := by rw [p2, p1]; exact ha
  obtain ⟨g1, g2, g3⟩ := getLoop_looped (bar := bar) (pid := pid) hp hh st0 s _ l2 s2 ha2 rfl (by rw [q2, t1, p2, p1]; exact hst)
  rw [e]
  generalize getLoop bar pid h s (l2.chan (!s)).rd.rbufs.length l2 = l3 at g1 g2 g3
  have hpeer : l3.side (!s) = l.side (!s) := by rw [g1.peer, p2, q1]
  have hq : (l3.chan (!s)).queue = (l.chan (!s)).queue := by rw [g1.queue, q2, v1]
  have hr : (l3.chan s).rd = (l.chan s).rd := by rw [g1.ownRd, r2, r1]
  have hg : (l3.chan s).got = (l.chan s).got := by rw [g1.ownGot, t2, r1]
  have hs : (l.chan s).sent <+: (l3.chan s).sent := by rw [← r1, ← u2]; exact g1.ownSent
  have ho : (l3.chan (!s)).sent = (l.chan (!s)).sent := by rw [g1.sent, q2, u1]
  have hw : (l3.chan (!s)).wire = (l1.chan (!s)).wire := by rw [g1.wire, q2]
  cases h3 : (l3.side s).alive with
  | false =>
    rw [if_pos (by decide)]
    refine ⟨hi.peer_alone g1.sound hpeer hq hr hg (by intro hx; rw [h3] at hx; cases hx), hpeer, hs, hg, ho, hq, by rw [hw, w1], ?_⟩
    intro hx
    exact g3 hx
  | true =>
    rw [if_neg (by decide)]
    have hc : (eventAdd s l3).chan = l3.chan := rfl
    have hside : (eventAdd s l3).side (!s) = l3.side (!s) := by unfold eventAdd; rw [setSide_other]
    refine ⟨hi.peer_alone g1.sound (by rw [hside, hpeer]) (by rw [hc, hq]) (by rw [hc, hr]) (by rw [hc, hg]) ?_, by rw [hside, hpeer], by rw [hc]; exact hs,
      by rw [hc, hg], by rw [hc, ho], by rw [hc, hq], by rw [hc, hw, w1], ?_⟩
    · intro _
      obtain ⟨b1, b2⟩ := g2 h3
      refine ⟨by simp [eventAdd], by simp [eventAdd], b1, ?_⟩
      rw [hc, b2]; simp [eventAdd]
    · intro _
      simp [eventAdd, h3]

/-! ## a history -/

theorem step_inv (hp : ∀ s, pid s < 4294967296) (hh : HandlerFits h) (st0 : Bool → σ) (e : LinkEv) (he : EventFits e) (l : Link σ) (hi : LInv pid h st0 l) :
    LInv pid h st0 (linkStep bar pid h e l) ∧ (∀ s, (l.chan s).sent <+: ((linkStep bar pid h e l).chan s).sent) ∧
    (∀ s, e ≠ .gone s → (∀ st m, h s st m ≠ none) → (l.side s).alive = true → ((linkStep bar pid h e l).side s).alive = true) := by
  have same : LInv pid h st0 l ∧ (∀ s, (l.chan s).sent <+: (l.chan s).sent) ∧
    (∀ s, e ≠ .gone s → (∀ st m, h s st m ≠ none) → (l.side s).alive = true → (l.side s).alive = true) :=
    ⟨hi, fun _ => List.prefix_refl _, fun _ _ _ h => h⟩
  cases e with
  | ready s ev =>
    have e1 : linkStep bar pid h (.ready s ev) l = if (l.side s).alive && ((if (l.side s).rdEv then ev.rd else none).isSome || (if (l.side s).wrEv then ev.wr else none).isSome)
        then procDispatch bar pid h s { rd := if (l.side s).rdEv then ev.rd else none, wr := if (l.side s).wrEv then ev.wr else none } l else l := rfl
    rw [e1]
    by_cases hc : ((l.side s).alive && ((if (l.side s).rdEv then ev.rd else none).isSome || (if (l.side s).wrEv then ev.wr else none).isSome)) = true
    · rw [if_pos hc]
      simp only [Bool.and_eq_true] at hc
      have d := dispatch_spec (bar := bar) hp hh st0 s
        { rd := if (l.side s).rdEv then ev.rd else none, wr := if (l.side s).wrEv then ev.wr else none } l hi hc.1
      refine ⟨d.inv, fun x => ?_, fun x _ hx ha => ?_⟩
      · rcases other_cases s x with rfl | rfl
        · exact d.ownSent
        · rw [d.sent]; exact List.prefix_refl _
      · rcases other_cases s x with rfl | rfl
        · exact d.alive hx
        · rw [d.peer]; exact ha
    · rw [if_neg hc]; exact same
  | compose s m =>
    unfold linkStep
    dsimp only
    split
    · rename_i hc
      obtain ⟨c1, -, c3, c4⟩ := composeEvent_composed (bar := bar) hp l hi.sound s m he
      by_cases hl : m.data.length + 16 ≤ 16384
      · refine ⟨hi.peer_alone c1.sound c1.peer (by rw [c1.other]) c1.rd c1.got ?_, fun x => ?_, fun x _ _ ha => ?_⟩
        · intro _
          obtain ⟨k1, k2⟩ := c3 hl
          obtain ⟨-, -, r3, r4⟩ := hi.run s hc
          refine ⟨k1, k2, by rw [c1.other]; exact r3, by rw [c1.other, c1.st]; exact r4⟩
        · rcases other_cases s x with rfl | rfl
          · exact c1.sent
          · rw [c1.other]; exact List.prefix_refl _
        · rcases other_cases s x with rfl | rfl
          · rw [c1.alive]; exact ha
          · rw [c1.peer]; exact ha
      · rw [c4 hl]; exact same
    · exact same
  | gone s =>
    unfold linkStep
    dsimp only
    split
    · have hc : (stop s l).chan = l.chan := rfl
      refine ⟨hi.peer_alone (s := s) hi.sound ?_ rfl rfl rfl ?_, fun x => by rw [hc]; exact List.prefix_refl _, fun x hx _ ha => ?_⟩
      · unfold stop; rw [setSide_other]
      · intro hx; simp [stop] at hx
      · rcases other_cases s x with rfl | rfl
        · exact absurd rfl hx
        · unfold stop; rw [setSide_other]; exact ha
    · exact same

theorem run_inv (hp : ∀ s, pid s < 4294967296) (hh : HandlerFits h) (st0 : Bool → σ) : ∀ (evs : List LinkEv), (∀ e ∈ evs, EventFits e) → ∀ (l : Link σ), LInv pid h st0 l →
    LInv pid h st0 (linkRun bar pid h evs l) ∧
    (∀ s, .gone s ∉ evs → (∀ st m, h s st m ≠ none) → (l.side s).alive = true → ((linkRun bar pid h evs l).side s).alive = true) := by
  intro evs
  induction evs with
  | nil => intro _ l hi; exact ⟨hi, fun _ _ _ h => h⟩
  | cons e r ih =>
    intro hf l hi
    obtain ⟨h1, -, h3⟩ := step_inv (bar := bar) hp hh st0 e (hf e (by simp)) l hi
    obtain ⟨k1, k2⟩ := ih (fun x hx => hf x (by simp [hx])) _ h1
    refine ⟨k1, fun s hg hx ha => k2 s (fun hc => hg (by simp [hc])) hx (h3 s (fun hc => hg (by simp [hc])) hx ha)⟩

theorem new_inv (st0 : Bool → σ) : LInv pid h st0 (linkNew st0) := by
  refine ⟨fun s => ⟨by simp [linkNew], by simp [linkNew], [], [], [], rfl, rfl, rfl, rfl, Or.inl ⟨rfl, by simp [linkNew]⟩⟩, fun s _ => ?_⟩
  simp [linkNew, handleAll]

/-! ## C110 -/

/-- C110: at any time of any history, a process that runs has handled, in order and each once, the first of the messages that its peer has sent, and nothing else:
its state is what these messages make of it. -/
theorem C110_in_order (hp : ∀ s, pid s < 4294967296) (hh : HandlerFits h) (st0 : Bool → σ) (evs : List LinkEv) (hf : ∀ e ∈ evs, EventFits e) (s : Bool)
    (ha : ((linkRun bar pid h evs (linkNew st0)).side (!s)).alive = true) :
    ∃ ms, handleAll (h (!s)) (st0 (!s)) ms = some ((linkRun bar pid h evs (linkNew st0)).side (!s)).st ∧
      ms.map noFd <+: (((linkRun bar pid h evs (linkNew st0)).chan s).sent).map (fun m => noFd (seenAs (pid s) m)) := by
  obtain ⟨hi, -⟩ := run_inv (bar := bar) hp hh st0 evs hf _ (new_inv st0)
  obtain ⟨-, -, -, h4⟩ := hi.run _ ha
  rw [Bool.not_not] at h4
  refine ⟨_, h4, ?_⟩
  obtain ⟨-, -, dn, qd, rest, h1, h2, -⟩ := hi.sound s
  rw [h2, h1, List.append_assoc, List.map_append]
  exact List.prefix_append _ _

/-- C110: a message that a process composes, of up to 16368 bytes, is one of those sent; they are never taken back. -/
theorem C110_composed (hp : ∀ s, pid s < 4294967296) (hh : HandlerFits h) (st0 : Bool → σ) (evs : List LinkEv) (hf : ∀ e ∈ evs, EventFits e) (s : Bool) (m : IMsg) (hm : Fits m) :
    let l := linkRun bar pid h evs (linkNew st0)
    (l.side s).alive = true → m.data.length ≤ 16368 →
    ((linkStep bar pid h (.compose s m) l).chan s).sent = (l.chan s).sent ++ [m] ∧
      ∀ e, EventFits e → ∀ x, (l.chan x).sent <+: ((linkStep bar pid h e l).chan x).sent := by
  intro l ha hlen
  obtain ⟨hi, -⟩ := run_inv (bar := bar) hp hh st0 evs hf _ (new_inv st0)
  refine ⟨?_, fun e he x => (step_inv (bar := bar) hp hh st0 e he l hi).2.1 x⟩
  have e1 : linkStep bar pid h (.compose s m) l = composeEvent bar pid s m l := by
    unfold linkStep
    dsimp only
    rw [if_pos ha]
  rw [e1, (composeEvent_composed (bar := bar) hp l hi.sound s m hm).2.1, if_pos (by omega)]

/-- C110: no message waits for something else to happen: a process that runs waits for data from its peer, it waits for room in the socket as long as it has
something to send, and what it has received it has handled. -/
theorem C110_no_stall (hp : ∀ s, pid s < 4294967296) (hh : HandlerFits h) (st0 : Bool → σ) (evs : List LinkEv) (hf : ∀ e ∈ evs, EventFits e) (s : Bool) :
    let l := linkRun bar pid h evs (linkNew st0)
    (l.side s).alive = true → (l.side s).rdEv = true ∧ ((l.side s).wrEv = true ↔ (l.chan s).queue ≠ []) ∧ imsgGet (l.chan (!s)).rd = none := by
  intro l ha
  obtain ⟨hi, -⟩ := run_inv (bar := bar) hp hh st0 evs hf _ (new_inv st0)
  obtain ⟨h1, h2, h3, -⟩ := hi.run s ha
  refine ⟨h1, by rw [h2]; simp [l], ?_⟩
  unfold imsgGet; rw [h3]

/-- C110: nothing that arrives makes a process end but a message whose handling is fatal, or the end of its peer. -/
theorem C110_goes_on (hp : ∀ s, pid s < 4294967296) (hh : HandlerFits h) (st0 : Bool → σ) (evs : List LinkEv) (hf : ∀ e ∈ evs, EventFits e) (s : Bool)
    (hg : .gone s ∉ evs) (hx : ∀ st m, h s st m ≠ none) : ((linkRun bar pid h evs (linkNew st0)).side s).alive = true :=
  (run_inv (bar := bar) hp hh st0 evs hf _ (new_inv st0)).2 s hg hx rfl

/-! ### delivery -/

theorem aq_length (q : List (Bytes × Option Nat)) : (aq q).length = (q.map (fun b => b.1.length)).sum := by
  have := congrArg List.length (aq_fst q)
  rw [List.length_map, List.length_flatten] at this
  rw [this, List.map_map]
  rfl

theorem write_moves (n : Nat) (hn : 0 < n) (q : List (Bytes × Option Nat)) (w : Wire) (hq : q ≠ []) (hne : ∀ b ∈ q, b.1 ≠ []) :
    w.length < (msgbufWrite n q w).2.length := by
  cases q with
  | nil => exact absurd rfl hq
  | cons b r =>
    simp only [msgbufWrite]
    have hb : 0 < b.1.length := List.length_pos_iff.2 (hne b (by simp))
    have hlen : 0 < ((gather (b :: r)).map fun x => x.1).flatten.length := by
      simp only [gather, List.map_cons, List.flatten_cons, List.length_append]
      omega
    rw [if_neg (by omega)]
    dsimp only
    rw [List.length_append]
    have : (onWire (((gather (b :: r)).map fun x => x.1).flatten.take (min n ((gather (b :: r)).map fun x => x.1).flatten.length)) b.2).length
        = min n ((gather (b :: r)).map fun x => x.1).flatten.length := by
      have e := congrArg List.length (onWire_fst (((gather (b :: r)).map fun x => x.1).flatten.take (min n ((gather (b :: r)).map fun x => x.1).flatten.length)) b.2)
      rw [List.length_map, List.length_take] at e
      rw [e]; omega
    rw [this]
    omega

theorem recvMax_pos (w : Wire) (hw : w ≠ []) : 0 < recvMax bar w := by
  cases w with
  | nil => exact absurd rfl hw
  | cons x r =>
    cases bar with
    | before => simp only [recvMax]; omega
    | after =>
      simp only [recvMax]
      have hk : runLen (x :: r) = 0 ∨ 0 < runLen (x :: r) := by omega
      rcases hk with hk | hk
      · rw [hk]
        show 0 < 0 + (1 + runLen r)
        omega
      · omega

/-- how much is to be done -/
def toDo (c : Chan) : Nat := 2 * queued c + inSocket c

/-- a process writes -/
theorem write_event (hp : ∀ s, pid s < 4294967296) (st0 : Bool → σ) (s : Bool) (n : Nat) (hn : 0 < n) (l : Link σ) (hi : LInv pid h st0 l) (ha : (l.side s).alive = true) :
    ((linkStep bar pid h (.ready s { wr := some n }) l).side s).alive = true ∧ (linkStep bar pid h (.ready s { wr := some n }) l).side (!s) = l.side (!s) ∧
    ((linkStep bar pid h (.ready s { wr := some n }) l).chan s).sent = (l.chan s).sent ∧
    toDo ((linkStep bar pid h (.ready s { wr := some n }) l).chan s) ≤ toDo (l.chan s) ∧
    ((l.chan s).queue ≠ [] → toDo ((linkStep bar pid h (.ready s { wr := some n }) l).chan s) < toDo (l.chan s)) ∧
    ((l.chan s).queue = [] → linkStep bar pid h (.ready s { wr := some n }) l = l) := by
  obtain ⟨h1, h2, h3, h4⟩ := hi.run s ha
  by_cases hq : (l.chan s).queue = []
  · have e : linkStep bar pid h (.ready s { wr := some n }) l = l := by
      simp [linkStep, h2, hq, h1]
    rw [e]
    exact ⟨ha, rfl, rfl, Nat.le_refl _, fun hx => absurd hq hx, fun _ => rfl⟩
  · have hi0 : Sound pid (l.setSide s { l.side s with rdEv := false, wrEv := false }) := hi.sound
    obtain ⟨c, c1, c2, c3⟩ := onChan_sound (bar := bar) hp (l.setSide s { l.side s with rdEv := false, wrEv := false }) hi0 s s (.write n) (by intro x hx; cases hx)
    have e : linkStep bar pid h (.ready s { wr := some n }) l = eventAdd s ((l.setSide s { l.side s with rdEv := false, wrEv := false }).setChan s c) := by
      have e0 : linkStep bar pid h (.ready s { wr := some n }) l = procDispatch bar pid h s { wr := some n } l := by
        simp [linkStep, h2, hq, h1, ha]
      rw [e0]
      unfold procDispatch
      dsimp only [readPart, writePart]
      have a1 : (!((l.setSide s { l.side s with rdEv := false, wrEv := false }).side s).alive) = false := by rw [setSide_self]; simp [ha]
      have a2 : (((l.setSide s { l.side s with rdEv := false, wrEv := false }).setChan s c).chan (!s)).rd.rbufs.length = 0 := by
        rw [setChan_other, setSide_chan, h3]; rfl
      have a3 : (!(((l.setSide s { l.side s with rdEv := false, wrEv := false }).setChan s c).side s).alive) = false := a1
      dsimp only at c2 a1 a2 a3
      simp only [c2, a1, a2, getLoop, a3]
      rfl
    obtain ⟨k1, k2, -, -, k5⟩ := chan_write c1
    rw [setSide_chan] at k1 k2 k5
    rw [e]
    have hw := congrArg List.length (write_aq n (l.chan s).queue (l.chan s).wire (hi.sound s).2.1)
    rw [List.length_append, List.length_append, aq_length, aq_length] at hw
    have hm := write_moves n hn (l.chan s).queue (l.chan s).wire hq (hi.sound s).2.1
    have ec : (eventAdd s ((l.setSide s { l.side s with rdEv := false, wrEv := false }).setChan s c)).chan s = c := by
      unfold eventAdd; rw [setSide_chan, setChan_self]
    have hd : toDo c < toDo (l.chan s) := by
      unfold toDo queued inSocket
      rw [k1, k2]
      omega
    rw [ec]
    exact ⟨by simp [eventAdd, ha], by simp [eventAdd], k5, Nat.le_of_lt hd, fun _ => hd, fun hx => absurd hx hq⟩

/-- a process reads -/
theorem read_event (hp : ∀ s, pid s < 4294967296) (hh : HandlerFits h) (st0 : Bool → σ) (s : Bool) (k : Nat) (hk : 0 < k) (l : Link σ) (hi : LInv pid h st0 l)
    (ha : (l.side (!s)).alive = true) :
    (linkStep bar pid h (.ready (!s) { rd := some k }) l).side s = l.side s ∧
    ((linkStep bar pid h (.ready (!s) { rd := some k }) l).chan s).sent = (l.chan s).sent ∧
    toDo ((linkStep bar pid h (.ready (!s) { rd := some k }) l).chan s) ≤ toDo (l.chan s) ∧
    ((l.chan s).wire ≠ [] → toDo ((linkStep bar pid h (.ready (!s) { rd := some k }) l).chan s) < toDo (l.chan s)) := by
  obtain ⟨h1, -, -, -⟩ := hi.run (!s) ha
  have e : linkStep bar pid h (.ready (!s) { rd := some k }) l = procDispatch bar pid h (!s) { rd := some k } l := by
    simp [linkStep, h1, ha]
  have d := dispatch_spec (bar := bar) hp hh st0 (!s) { rd := some k } l hi ha
  rw [e]
  have dp := d.peer
  have ds := d.sent
  have dq := d.queue
  have dw := d.wire
  dsimp only at dw
  rw [Bool.not_not] at dp ds dq dw
  have hr : (l.chan s).rd.rbuf.length < 16 := by
    obtain ⟨-, -, dn, qd, rest, -, -, -, -, h5⟩ := hi.sound s
    rcases h5 with h5 | h5
    · exact h5.2
    · rw [h5.1]; decide
  refine ⟨dp, ds, ?_, ?_⟩
  · unfold toDo queued inSocket
    rw [dq, dw, List.length_drop]
    omega
  · intro hw
    have := recvMax_pos (bar := bar) _ hw
    have hlen : 0 < (l.chan s).wire.length := List.length_pos_iff.2 hw
    unfold toDo queued inSocket
    rw [dq, dw, List.length_drop]
    simp only [ibufReadSize]
    omega

/-- a process that ended does not run again -/
theorem alive_before (hp : ∀ s, pid s < 4294967296) (hh : HandlerFits h) (st0 : Bool → σ) (e : LinkEv) (he : EventFits e) (l : Link σ) (hi : LInv pid h st0 l) (s : Bool)
    (ha : ((linkStep bar pid h e l).side s).alive = true) : (l.side s).alive = true := by
  cases hd : (l.side s).alive with
  | true => rfl
  | false =>
    rw [← hd, ← ha]
    cases e with
    | ready x ev =>
      have e1 : linkStep bar pid h (.ready x ev) l = if (l.side x).alive && ((if (l.side x).rdEv then ev.rd else none).isSome || (if (l.side x).wrEv then ev.wr else none).isSome)
          then procDispatch bar pid h x { rd := if (l.side x).rdEv then ev.rd else none, wr := if (l.side x).wrEv then ev.wr else none } l else l := rfl
      rw [e1]
      clear e1 ha
      by_cases hc : ((l.side x).alive && ((if (l.side x).rdEv then ev.rd else none).isSome || (if (l.side x).wrEv then ev.wr else none).isSome)) = true
      · rw [if_pos hc]
        simp only [Bool.and_eq_true] at hc
        have d := dispatch_spec (bar := bar) hp hh st0 x
          { rd := if (l.side x).rdEv then ev.rd else none, wr := if (l.side x).wrEv then ev.wr else none } l hi hc.1
        rcases other_cases x s with rfl | rfl
        · rw [hc.1] at hd; cases hd
        · rw [d.peer]
      · rw [if_neg hc]
    | compose x m =>
      unfold linkStep
      dsimp only
      split
      · rename_i hc
        obtain ⟨c1, -⟩ := composeEvent_composed (bar := bar) hp l hi.sound x m he
        rcases other_cases x s with rfl | rfl
        · rw [c1.alive]
        · rw [c1.peer]
      · rfl
    | gone x =>
      unfold linkStep
      dsimp only
      split
      · rename_i hc
        simp only [Bool.and_eq_true] at hc
        rcases other_cases x s with rfl | rfl
        · rw [hc.1] at hd; cases hd
        · unfold stop; rw [setSide_other]
      · rfl

theorem alive_before_run (hp : ∀ s, pid s < 4294967296) (hh : HandlerFits h) (st0 : Bool → σ) (s : Bool) : ∀ (evs : List LinkEv), (∀ e ∈ evs, EventFits e) → ∀ (l : Link σ), LInv pid h st0 l →
    ((linkRun bar pid h evs l).side s).alive = true → (l.side s).alive = true := by
  intro evs
  induction evs with
  | nil => intro _ l _ ha; exact ha
  | cons e r ih =>
    intro hf l hi ha
    have he := hf e (by simp)
    exact alive_before (bar := bar) hp hh st0 e he l hi s (ih (fun x hx => hf x (by simp [hx])) _ (step_inv (bar := bar) hp hh st0 e he l hi).1 ha)

theorem rounds_fit (s : Bool) (sizes : List (Nat × Nat)) : ∀ e ∈ rounds s sizes, EventFits e := by
  intro e he
  obtain ⟨x, -, hx⟩ := List.mem_flatMap.1 he
  simp only [List.mem_cons, List.not_mem_nil, or_false] at hx
  rcases hx with rfl | rfl <;> trivial

theorem rounds_done (hp : ∀ s, pid s < 4294967296) (hh : HandlerFits h) (st0 : Bool → σ) (s : Bool) : ∀ (sizes : List (Nat × Nat)), (∀ x ∈ sizes, 0 < x.1 ∧ 0 < x.2) →
    ∀ (l : Link σ), LInv pid h st0 l → (l.side s).alive = true → toDo (l.chan s) ≤ sizes.length →
    ((linkRun bar pid h (rounds s sizes) l).side (!s)).alive = true →
    ((linkRun bar pid h (rounds s sizes) l).chan s).sent = (l.chan s).sent ∧ toDo ((linkRun bar pid h (rounds s sizes) l).chan s) = 0 := by
  intro sizes
  induction sizes with
  | nil => intro _ l _ _ h0 _; exact ⟨rfl, Nat.le_zero.1 h0⟩
  | cons x r ih =>
    intro hx l hi ha hd hfin
    have e : linkRun bar pid h (rounds s (x :: r)) l =
        linkRun bar pid h (rounds s r) (linkStep bar pid h (.ready (!s) { rd := some x.2 }) (linkStep bar pid h (.ready s { wr := some x.1 }) l)) := by
      simp [rounds, linkRun]
    obtain ⟨x1, x2⟩ := hx x (by simp)
    obtain ⟨w1, w2, w3, w4, w5, w6⟩ := write_event (bar := bar) hp st0 s x.1 x1 l hi ha
    have hi1 := (step_inv (bar := bar) hp hh st0 (.ready s { wr := some x.1 }) trivial l hi).1
    rw [e] at hfin ⊢
    generalize linkStep bar pid h (.ready s { wr := some x.1 }) l = l1 at *
    have hi2 := (step_inv (bar := bar) hp hh st0 (.ready (!s) { rd := some x.2 }) trivial l1 hi1).1
    have hb : (l1.side (!s)).alive = true := alive_before (bar := bar) hp hh st0 (.ready (!s) { rd := some x.2 }) trivial l1 hi1 (!s)
      (alive_before_run (bar := bar) hp hh st0 (!s) _ (rounds_fit s r) _ hi2 hfin)
    obtain ⟨r1, r2, r3, r4⟩ := read_event (bar := bar) hp hh st0 s x.2 x2 l1 hi1 hb
    obtain ⟨i1, i2⟩ := ih (fun y hy => hx y (by simp [hy])) _ hi2 (by rw [r1]; exact w1) (by
      simp only [List.length_cons] at hd
      by_cases hq : (l.chan s).queue = []
      · by_cases hw : (l1.chan s).wire = []
        · have h0 : toDo (l1.chan s) = 0 := by
            rw [w6 hq] at hw ⊢
            simp [toDo, queued, inSocket, hq, hw]
          omega
        · have := r4 hw; omega
      · have := w5 hq; omega) hfin
    exact ⟨by rw [i1, r2, w3], i2⟩

/-- C110: whatever happened before, and whatever the sizes the kernel chooses, after enough rounds in which the socket takes something from one process and gives something to the other one,
the other one has handled all the messages, unless handling them made it end. -/
theorem C110_delivered (hp : ∀ s, pid s < 4294967296) (hh : HandlerFits h) (st0 : Bool → σ) (evs : List LinkEv) (hf : ∀ e ∈ evs, EventFits e) (s : Bool)
    (sizes : List (Nat × Nat)) (hx : ∀ x ∈ sizes, 0 < x.1 ∧ 0 < x.2) :
    let l := linkRun bar pid h evs (linkNew st0)
    let l' := linkRun bar pid h (rounds s sizes) l
    2 * queued (l.chan s) + inSocket (l.chan s) ≤ sizes.length → (l.side s).alive = true → (l'.side (!s)).alive = true →
    ∃ ms, handleAll (h (!s)) (st0 (!s)) ms = some (l'.side (!s)).st ∧ ms.map noFd = ((l.chan s).sent).map (fun m => noFd (seenAs (pid s) m)) := by
  intro l l' hd ha hb
  obtain ⟨hi, -⟩ := run_inv (bar := bar) hp hh st0 evs hf _ (new_inv st0)
  obtain ⟨h1, h2⟩ := rounds_done (bar := bar) hp hh st0 s sizes hx l hi ha hd hb
  have hi' := (run_inv (bar := bar) hp hh st0 (rounds s sizes) (rounds_fit s sizes) l hi).1
  obtain ⟨-, -, r3, r4⟩ := hi'.run (!s) hb
  rw [Bool.not_not] at r3 r4
  refine ⟨_, r4, ?_⟩
  rw [← h1]
  have hsound := hi'.sound s
  have hempty := chan_empty hsound
  have z : queued (l'.chan s) = 0 ∧ inSocket (l'.chan s) = 0 := by
    have h2 : toDo (l'.chan s) = 0 := h2
    unfold toDo at h2; omega
  refine hempty ?_ (List.length_eq_zero_iff.1 z.2) r3
  cases hq : (l'.chan s).queue with
  | nil => rfl
  | cons b r =>
    have hne := hsound.2.1 b (by show b ∈ (l'.chan s).queue; rw [hq]; simp)
    have h0 := z.1
    unfold queued at h0
    rw [hq] at h0
    have : 0 < b.1.length := List.length_pos_iff.2 hne
    simp only [List.map_cons, List.sum_cons] at h0
    omega
end

/-! ## Examples -/

/-- two processes that count the bytes they are told; `true` answers each message with the count -/
def exHandler : Handler Nat := fun s st m => if m.ty = 9 then none else some (st + m.data.length, if s then [{ ty := 2, peer := 0, pid := 0, data := [(st + m.data.length).toUInt8], fd := none }] else [])

theorem exHandler_fits : HandlerFits exHandler := by
  intro s st m st' ms hm x hx
  unfold exHandler at hm
  split at hm
  · cases hm
  · simp only [Option.some.injEq, Prod.mk.injEq] at hm
    rw [← hm.2] at hx
    split at hx
    · simp only [List.mem_singleton] at hx
      subst hx
      exact ⟨by show 2 < 4294967296; decide, by show 0 < 4294967296; decide, by show 0 < 4294967296; decide⟩
    · cases hx

/-- two messages are written in pieces, read in pieces, handled, and answered -/
def exHistory : List LinkEv :=
  [.compose false { ty := 1, peer := 0, pid := 0, data := b%"abc", fd := none }, .ready false { wr := some 5 }, .ready true { rd := some 4 },
   .compose false { ty := 1, peer := 0, pid := 0, data := b%"de", fd := none }, .ready false { rd := some 0, wr := some 20 }, .ready true { rd := some 17 },
   .ready false { wr := some 100 }, .ready true { rd := some 3 }]

example : (∀ e ∈ exHistory, EventFits e) ∧
    (let l := linkRun .after (fun _ => 7) exHandler exHistory (linkNew fun _ => 0)
    (l.side true).st = 3 ∧ (l.side true).alive = true ∧ (l.chan true).sent.length = 1 ∧ (l.side true).wrEv = true ∧ queued (l.chan false) = 0 ∧ inSocket (l.chan false) = 13) := by
  constructor
  · intro e he
    simp only [exHistory, List.mem_cons, List.not_mem_nil, or_false] at he
    rcases he with rfl | rfl | rfl | rfl | rfl | rfl | rfl | rfl <;> first | trivial | exact ⟨by decide, by decide, by decide⟩
  · decide +kernel

/-- and delivered in the end -/
example : ((linkRun .after (fun _ => 7) exHandler (rounds false (List.replicate 13 (1, 1))) (linkRun .after (fun _ => 7) exHandler exHistory (linkNew fun _ => 0))).side true).st = 5 := by
  decide +kernel

end Gmid.Props
