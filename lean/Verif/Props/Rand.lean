import Verif.Spec.Rand

/-!
# C134: random bytes
-/

set_option autoImplicit false

namespace Gmid.Props

open Gmid Gmid.Spec

/-! ## what a byte was made from -/

/-- `c` is a byte of the keystream of `k`, or of one whose key was made from it (unless something was mixed in) -/
inductive OccIn (k : List Cell) : Cell → Prop where
  | here (i : Nat) : OccIn k (.ks k i)
  | deep (K : List Cell) (i : Nat) (c : Cell) : c ∈ K → OccIn k c → OccIn k (.ks K i)

/-- the `n`th piece of entropy is in `c` -/
inductive HasEnt (n : Nat) : Cell → Prop where
  | here (j : Nat) : HasEnt n (.ent n j)
  | deep (K : List Cell) (i : Nat) (c : Cell) : c ∈ K → HasEnt n c → HasEnt n (.ks K i)
  | left (a b : Cell) : HasEnt n a → HasEnt n (.xor a b)
  | right (a b : Cell) : HasEnt n b → HasEnt n (.xor a b)

theorem occ_size {k : List Cell} {c : Cell} (h : OccIn k c) : sizeOf k < sizeOf c := by
  induction h with
  | here i => simp only [Cell.ks.sizeOf_spec]; omega
  | deep K i c hc _ ih =>
    have := List.sizeOf_lt_of_mem hc
    simp only [Cell.ks.sizeOf_spec]; omega

theorem occ_self {k : List Cell} {c : Cell} (hc : c ∈ k) : ¬ OccIn k c := by
  intro h
  have := occ_size h
  have := List.sizeOf_lt_of_mem hc
  omega

theorem occ_ks {k K : List Cell} {i : Nat} : OccIn k (.ks K i) ↔ K = k ∨ ∃ c ∈ K, OccIn k c := by
  constructor
  · intro h
    cases h with
    | here => exact .inl rfl
    | deep _ _ c hc h => exact .inr ⟨c, hc, h⟩
  · rintro (rfl | ⟨c, hc, h⟩)
    · exact .here i
    · exact .deep K i c hc h

theorem occ_trans {k k' : List Cell} {c c' : Cell} (h : OccIn k' c) (hc' : c' ∈ k') (h' : OccIn k c') : OccIn k c := by
  induction h with
  | here i => exact .deep _ i c' hc' h'
  | deep K i c hc _ ih => exact .deep K i c hc ih

theorem occ_ent {k : List Cell} {c c' : Cell} {n : Nat} (h : OccIn k c) (hc' : c' ∈ k) (h' : HasEnt n c') : HasEnt n c := by
  induction h with
  | here i => exact .deep _ i c' hc' h'
  | deep K i c hc _ ih => exact .deep K i c hc ih

theorem ent_ks {n : Nat} {K : List Cell} {i : Nat} (h : HasEnt n (.ks K i)) : ∃ c ∈ K, HasEnt n c := by
  cases h with
  | deep _ _ c hc h => exact ⟨c, hc, h⟩

theorem ent_ent {n m j : Nat} (h : HasEnt n (.ent m j)) : n = m := by cases h; rfl

/-! ## one generator -/

/-- the bytes that will be given out next -/
def usable (s : RState0) : List Cell := s.buf.drop (rsBufSize - s.have_)

theorem mem_keystream {s : RState0} {n : Nat} {c : Cell} (h : c ∈ keystream s n) : ∃ i, c = .ks s.key i := by
  unfold keystream at h
  rw [List.mem_map] at h
  obtain ⟨j, _, rfl⟩ := h
  exact ⟨_, rfl⟩

theorem length_keystream (s : RState0) (n : Nat) : (keystream s n).length = n := by simp [keystream]

theorem nodup_keystream (s : RState0) (n : Nat) : (keystream s n).Nodup := by
  unfold keystream
  refine List.Pairwise.map _ ?_ List.nodup_range
  intro a b hab h
  injection h with h1 h2
  exact hab (by omega)

theorem rekey_none (s : RState0) : (rsRekey none s).key = (keystream s rsBufSize).take rsKey ∧
    (rsRekey none s).buf = List.replicate rsKey .zero ++ (keystream s rsBufSize).drop rsKey ∧ (rsRekey none s).have_ = rsBufSize - rsKey ∧
    (rsRekey none s).ready = s.ready ∧ (rsRekey none s).pid = s.pid := by
  unfold rsRekey afterStream
  generalize keystream s rsBufSize = b
  refine ⟨?_, ?_, ?_, ?_, ?_⟩ <;> trivial

theorem usable_rekey (s : RState0) : usable (rsRekey none s) = (keystream s rsBufSize).drop rsKey := by
  obtain ⟨_, h2, h3, _⟩ := rekey_none s
  unfold usable
  rw [h2, h3, List.drop_append_of_le_length (by simp [rsBufSize, rsKey])]
  simp [rsBufSize, rsKey]

theorem mixIn_mem {cs ds : List Cell} {c : Cell} {m : Nat} (h : c ∈ (mixIn cs ds).take m) (hm : m ≤ ds.length) : ∃ a ∈ cs, ∃ b ∈ ds, c = .xor a b := by
  induction cs generalizing ds m with
  | nil => cases ds <;> simp [mixIn] at h
  | cons x cs ih =>
    cases ds with
    | nil => simp at hm; subst hm; simp at h
    | cons d ds =>
      cases m with
      | zero => simp at h
      | succ m =>
        rw [mixIn, List.take_succ_cons, List.mem_cons] at h
        rcases h with rfl | h
        · exact ⟨x, by simp, d, by simp, rfl⟩
        · obtain ⟨a, ha, b, hb, rfl⟩ := ih h (by simpa using hm)
          exact ⟨a, by simp [ha], b, by simp [hb], rfl⟩

theorem mixIn_length (cs ds : List Cell) : (mixIn cs ds).length = cs.length := by
  induction cs generalizing ds with
  | nil => cases ds <;> rfl
  | cons x cs ih => cases ds with
    | nil => rfl
    | cons d ds => simp [mixIn, ih]

theorem entropy_mem {n : Nat} {c : Cell} (h : c ∈ entropy n) : ∃ j, c = .ent n j := by
  unfold entropy at h
  rw [List.mem_map] at h
  obtain ⟨j, _, rfl⟩ := h
  exact ⟨j, rfl⟩

theorem entropy_length (n : Nat) : (entropy n).length = rsKey := by simp [entropy]

/-- after a stir: the key is new, and nothing is left in the buffer -/
theorem stir_facts (fuzz : List Cell → Nat) (n : Nat) (s : RState0) :
    (rsStir fuzz n s).buf = List.replicate rsBufSize .zero ∧ (rsStir fuzz n s).have_ = 0 ∧ (rsStir fuzz n s).ready = true ∧ (rsStir fuzz n s).pid = s.pid ∧
    (rsStir fuzz n s).key.length = rsKey ∧
    ∀ c ∈ (rsStir fuzz n s).key, ∃ j, c = .ent n j ∨ ∃ i, c = .xor (.ks s.key i) (.ent n j) := by
  unfold rsStir
  cases hr : s.ready with
  | false =>
    simp only [Bool.false_eq_true, if_false]
    refine ⟨rfl, rfl, rfl, rfl, entropy_length n, ?_⟩
    intro c hc
    obtain ⟨j, rfl⟩ := entropy_mem hc
    exact ⟨j, .inl rfl⟩
  | true =>
    simp only [if_true, rsRekey, afterStream]
    have hlen := length_keystream s rsBufSize
    have hmem : ∀ c ∈ keystream s rsBufSize, ∃ i, c = .ks s.key i := fun c hc => mem_keystream hc
    generalize keystream s rsBufSize = b at hlen hmem
    refine ⟨trivial, trivial, hr, trivial, ?_, ?_⟩
    · rw [List.length_take, mixIn_length, hlen]
      decide
    · intro c hc
      obtain ⟨a, ha, b, hb, rfl⟩ := mixIn_mem hc (by rw [List.length_take, entropy_length]; decide)
      obtain ⟨i, rfl⟩ := hmem a ha
      obtain ⟨j, rfl⟩ := entropy_mem (List.mem_of_mem_take hb)
      exact ⟨j, .inr ⟨i, rfl⟩⟩

/-- taking `m` of the bytes there are -/
theorem take_facts (m : Nat) (s : RState0) (hl : s.buf.length = rsBufSize) (hh : s.have_ ≤ rsBufSize) (hm : m ≤ s.have_) :
    (rsTake m s).1 = (usable s).take m ∧ usable (rsTake m s).2 = (usable s).drop m ∧ (rsTake m s).1.length = m ∧
    (rsTake m s).2.buf.length = rsBufSize ∧ (rsTake m s).2.have_ = s.have_ - m ∧ (rsTake m s).2.key = s.key ∧ (rsTake m s).2.ready = s.ready ∧
    (rsTake m s).2.pid = s.pid ∧ ∀ c ∈ (rsTake m s).2.buf, c = .zero ∨ c ∈ s.buf := by
  refine ⟨rfl, ?_, ?_, ?_, rfl, rfl, rfl, rfl, ?_⟩
  · unfold usable rsTake
    dsimp only
    have e : rsBufSize - (s.have_ - m) = (s.buf.take (rsBufSize - s.have_) ++ List.replicate m Cell.zero).length := by
      simp only [List.length_append, List.length_take, List.length_replicate]; omega
    rw [e, List.drop_left, List.drop_drop]
  · unfold rsTake
    dsimp only
    rw [List.length_take, List.length_drop]; omega
  · unfold rsTake
    dsimp only
    simp only [List.length_append, List.length_take, List.length_replicate, List.length_drop]; omega
  · intro c hc
    unfold rsTake at hc
    dsimp only at hc
    rw [List.mem_append, List.mem_append] at hc
    rcases hc with (h | h) | h
    · exact .inr (List.mem_of_mem_take h)
    · exact .inl (List.eq_of_mem_replicate h)
    · exact .inr (List.mem_of_mem_drop h)

/-! ## all the processes -/

/-- the bytes that are somewhere: given out, or in the memory of a process -/
def InWorld (w : RWorld) (c : Cell) : Prop := (∃ p, (p, c) ∈ w.given) ∨ ∃ p x, w.procs p = some x ∧ (c ∈ x.st.buf ∨ c ∈ x.st.key)

/-- `own p`: the process `p` is not just a copy of another one -/
structure RandInv (own : Nat → Prop) (pids : List Nat) (w : RWorld) : Prop where
  alive : ∀ p, own p → ∃ x, w.procs p = some x
  key : ∀ p x, w.procs p = some x → own p → ∀ c, InWorld w c → ¬ OccIn x.st.key c
  keys : ∀ p q x y, w.procs p = some x → w.procs q = some y → own p → own q → p ≠ q → x.st.key ≠ y.st.key
  nodup : ∀ p x, w.procs p = some x → own p → (usable x.st).Nodup ∧ ∀ c ∈ usable x.st, (∀ q, (q, c) ∉ w.given) ∧ ∃ k i, c = .ks k i
  apart : ∀ p q x y, w.procs p = some x → w.procs q = some y → own p → own q → p ≠ q → ∀ c ∈ usable x.st, c ∉ usable y.st
  ents : ∀ c, InWorld w c → ∀ n, w.ents ≤ n → ¬ HasEnt n c
  sizes : ∀ p x, w.procs p = some x → own p → x.st.buf.length = rsBufSize ∧ x.st.key.length = rsKey ∧ x.st.have_ ≤ rsBufSize ∧ x.st.ready = true
  given : (w.given.map (·.2)).Nodup ∧ ∀ g ∈ w.given, ∃ k i, g.2 = .ks k i
  pids : ∀ p x, w.procs p = some x → x.pid ∈ pids ∧ x.pid ≠ 0 ∧ (x.st.pid = 0 ∨ x.st.pid ∈ pids) ∧ (x.st.pid = x.pid → own p)

section
variable {own : Nat → Prop} {pids : List Nat} {w : RWorld}

theorem procs_put {p i : Nat} {x : Option RProc} : w.put p x i = if i = p then x else w.procs i := rfl

/-- the process `p` changes -/
theorem inv_replace (h : RandInv own pids w) (p : Nat) (x : RProc) (hx : w.procs p = some x) (o : List Cell) (s : RState0) (n : Nat) (hn : w.ents ≤ n)
    (hc : ∀ c, c ∈ s.buf ∨ c ∈ s.key ∨ c ∈ o → (∀ q y, q ≠ p → own q → w.procs q = some y → ¬ OccIn y.st.key c) ∧ ∀ m, n ≤ m → ¬ HasEnt m c)
    (hk : ∀ c, InWorld w c ∨ c ∈ s.buf ∨ c ∈ s.key ∨ c ∈ o → ¬ OccIn s.key c)
    (hb : ∀ q y, q ≠ p → own q → w.procs q = some y → y.st.key ≠ s.key)
    (hu : (o ++ usable s).Nodup ∧ ∀ c ∈ o ++ usable s, (∀ q, (q, c) ∉ w.given) ∧ (∃ k i, c = .ks k i) ∧
      ∀ q y, q ≠ p → own q → w.procs q = some y → c ∉ usable y.st)
    (hs : s.buf.length = rsBufSize ∧ s.key.length = rsKey ∧ s.have_ ≤ rsBufSize ∧ s.ready = true)
    (hp : s.pid = 0 ∨ s.pid ∈ pids) : RandInv (fun q => q = p ∨ own q) pids (rStepOut w p x.pid (o, s, n)) := by
  have hpr : ∀ q y, (rStepOut w p x.pid (o, s, n)).procs q = some y → (q = p ∧ y = ⟨x.pid, s⟩) ∨ (q ≠ p ∧ w.procs q = some y) := by
    intro q y hy
    unfold rStepOut at hy
    dsimp only at hy
    rw [procs_put] at hy
    split at hy
    · rename_i e; cases hy; exact .inl ⟨e, rfl⟩
    · rename_i e; exact .inr ⟨e, hy⟩
  have hg : (rStepOut w p x.pid (o, s, n)).given = w.given ++ o.map (p, ·) := rfl
  have hmg : ∀ q c, (q, c) ∈ (rStepOut w p x.pid (o, s, n)).given → (q, c) ∈ w.given ∨ c ∈ o := by
    intro q c hq
    rw [hg, List.mem_append, List.mem_map] at hq
    rcases hq with h | ⟨d, hd, e⟩
    · exact .inl h
    · cases e; exact .inr hd
  have hw : ∀ c, InWorld (rStepOut w p x.pid (o, s, n)) c → InWorld w c ∨ c ∈ s.buf ∨ c ∈ s.key ∨ c ∈ o := by
    intro c hc
    rcases hc with ⟨q, hq⟩ | ⟨q, y, hy, hm⟩
    · rcases hmg q c hq with h | h
      · exact .inl (.inl ⟨q, h⟩)
      · exact .inr (.inr (.inr h))
    · rcases hpr q y hy with ⟨rfl, rfl⟩ | ⟨_, hy⟩
      · rcases hm with h | h
        · exact .inr (.inl h)
        · exact .inr (.inr (.inl h))
      · exact .inl (.inr ⟨q, y, hy, hm⟩)
  have hou : ∀ c ∈ o, c ∉ usable s := by
    intro c hc hc'
    exact (List.nodup_append.1 hu.1).2.2 c hc c hc' rfl
  constructor
  · intro q hq
    by_cases e : q = p
    · subst e; exact ⟨⟨x.pid, s⟩, by simp [rStepOut, procs_put]⟩
    · rcases hq with hq | hq
      · exact absurd hq e
      · obtain ⟨y, hy⟩ := h.alive q hq
        exact ⟨y, by simp [rStepOut, procs_put, e, hy]⟩
  · intro q y hy hq c hcw
    rcases hpr q y hy with ⟨rfl, rfl⟩ | ⟨e, hy⟩
    · exact hk c (hw c hcw)
    · have hq := hq.resolve_left e
      rcases hw c hcw with h1 | h1
      · exact h.key q y hy hq c h1
      · exact (hc c h1).1 q y e hq hy
  · intro q r y z hy hz hq hr hqr
    rcases hpr q y hy with ⟨rfl, rfl⟩ | ⟨e, hy⟩
    · rcases hpr r z hz with ⟨rfl, rfl⟩ | ⟨e', hz⟩
      · exact absurd rfl hqr
      · exact fun hh => hb r z e' (hr.resolve_left e') hz hh.symm
    · rcases hpr r z hz with ⟨rfl, rfl⟩ | ⟨e', hz⟩
      · rename_i hy' ; exact hb q y e (hq.resolve_left e) hy'
      · exact h.keys q r y z hy hz (hq.resolve_left e) (hr.resolve_left e') hqr
  · intro q y hy hq
    rcases hpr q y hy with ⟨rfl, rfl⟩ | ⟨e, hy⟩
    · refine ⟨(List.nodup_append.1 hu.1).2.1, fun c hc' => ⟨fun r hr => ?_, (hu.2 c (List.mem_append_right _ hc')).2.1⟩⟩
      rcases hmg r c hr with h1 | h1
      · exact (hu.2 c (List.mem_append_right _ hc')).1 r h1
      · exact hou c h1 hc'
    · obtain ⟨h1, h2⟩ := h.nodup q y hy (hq.resolve_left e)
      refine ⟨h1, fun c hc' => ⟨fun r hr => ?_, (h2 c hc').2⟩⟩
      rcases hmg r c hr with h3 | h3
      · exact (h2 c hc').1 r h3
      · exact (hu.2 c (List.mem_append_left _ h3)).2.2 q y e (hq.resolve_left e) hy hc'
  · intro q r y z hy hz hq hr hqr c hcy
    rcases hpr q y hy with ⟨rfl, rfl⟩ | ⟨e, hy⟩
    · rcases hpr r z hz with ⟨rfl, rfl⟩ | ⟨e', hz⟩
      · exact absurd rfl hqr
      · exact (hu.2 c (List.mem_append_right _ hcy)).2.2 r z e' (hr.resolve_left e') hz
    · rcases hpr r z hz with ⟨rfl, rfl⟩ | ⟨e', hz⟩
      · rename_i hy'
        exact fun hcs => (hu.2 c (List.mem_append_right _ hcs)).2.2 q y e (hq.resolve_left e) hy' hcy
      · exact h.apart q r y z hy hz (hq.resolve_left e) (hr.resolve_left e') hqr c hcy
  · intro c hcw m hm
    have hm : n ≤ m := hm
    rcases hw c hcw with h1 | h1
    · exact h.ents c h1 m (by omega)
    · exact (hc c h1).2 m hm
  · intro q y hy hq
    rcases hpr q y hy with ⟨rfl, rfl⟩ | ⟨e, hy⟩
    · exact hs
    · exact h.sizes q y hy (hq.resolve_left e)
  · rw [hg]
    have e : (w.given ++ o.map (p, ·)).map (·.2) = w.given.map (·.2) ++ o := by simp [Function.comp_def]
    rw [e]
    refine ⟨List.nodup_append.2 ⟨h.given.1, (List.nodup_append.1 hu.1).1, ?_⟩, ?_⟩
    · intro a ha b hb' hab
      subst hab
      rw [List.mem_map] at ha
      obtain ⟨⟨q, a'⟩, hq, rfl⟩ := ha
      exact (hu.2 _ (List.mem_append_left _ hb')).1 q hq
    · intro g hg'
      rw [List.mem_append, List.mem_map] at hg'
      rcases hg' with h1 | ⟨c, h1, rfl⟩
      · exact h.given.2 g h1
      · exact (hu.2 c (List.mem_append_left _ h1)).2.1
  · intro q y hy
    rcases hpr q y hy with ⟨rfl, rfl⟩ | ⟨e, hy⟩
    · obtain ⟨h1, h2, _, _⟩ := h.pids q x hx
      exact ⟨h1, h2, hp, fun _ => .inl rfl⟩
    · obtain ⟨h1, h2, h3, h4⟩ := h.pids q y hy
      exact ⟨h1, h2, h3, fun hh => .inr (h4 hh)⟩

/-- entropy is mixed in: the process is on its own from now on, if it was not -/
theorem inv_stir (h : RandInv own pids w) (p : Nat) (x : RProc) (hx : w.procs p = some x) (fuzz : List Cell → Nat) (s : RState0) (hk : s.key = x.st.key)
    (k : Nat) (hp : s.pid = 0 ∨ s.pid ∈ pids) :
    RandInv (fun q => q = p ∨ own q) pids (rStepOut w p x.pid ([], { rsStir fuzz w.ents s with count := k }, w.ents + 1)) := by
  obtain ⟨f1, f2, f3, f4, f5, f6⟩ := stir_facts fuzz w.ents s
  generalize hS : rsStir fuzz w.ents s = S at f1 f2 f3 f4 f5 f6
  have hz : ∀ c ∈ S.buf, c = .zero := by intro c hc; rw [f1] at hc; exact List.eq_of_mem_replicate hc
  have hne : ∀ c ∈ S.key, HasEnt w.ents c := by
    intro c hc
    obtain ⟨j, rfl | ⟨i, rfl⟩⟩ := f6 c hc
    · exact .here j
    · exact .right _ _ (.here j)
  have hhd : ∃ c, c ∈ S.key := by
    cases hl : S.key with
    | nil => rw [hl] at f5; cases f5
    | cons c _ => exact ⟨c, by simp⟩
  obtain ⟨c0, hc0⟩ := hhd
  have hocc : ∀ K c, c ∈ S.buf ∨ c ∈ S.key → ¬ OccIn K c := by
    intro K c hc ho
    rcases hc with hc | hc
    · rw [hz c hc] at ho; cases ho
    · obtain ⟨j, rfl | ⟨i, rfl⟩⟩ := f6 c hc <;> cases ho
  refine inv_replace h p x hx [] { S with count := k } (w.ents + 1) (by omega) ?_ ?_ ?_ ?_ ?_ ?_
  · intro c hc
    rcases hc with hc | hc | hc
    · refine ⟨fun q y _ _ _ => hocc _ c (.inl hc), fun m _ he => ?_⟩
      rw [hz c hc] at he; cases he
    · refine ⟨fun q y _ _ _ => hocc _ c (.inr hc), fun m hm he => ?_⟩
      obtain ⟨j, rfl | ⟨i, rfl⟩⟩ := f6 c hc
      · have := ent_ent he; omega
      · cases he with
        | left _ _ he =>
          obtain ⟨d, hd, he⟩ := ent_ks he
          rw [hk] at hd
          exact h.ents d (.inr ⟨p, x, hx, .inr hd⟩) m (by omega) he
        | right _ _ he => have := ent_ent he; omega
    · cases hc
  · intro c hc ho
    rcases hc with hc | hc | hc | hc
    · exact h.ents c hc w.ents (Nat.le_refl _) (occ_ent ho hc0 (hne c0 hc0))
    · exact hocc _ c (.inl hc) ho
    · exact hocc _ c (.inr hc) ho
    · cases hc
  · intro q y _ _ hy e
    have e : y.st.key = S.key := e
    exact h.ents c0 (.inr ⟨q, y, hy, .inr (by rw [e]; exact hc0)⟩) w.ents (Nat.le_refl _) (hne c0 hc0)
  · have hu : usable { S with count := k } = [] := by
      show S.buf.drop (rsBufSize - S.have_) = []
      rw [f1, f2]; simp
    rw [hu]
    simp
  · exact ⟨by show S.buf.length = _; rw [f1]; simp, f5, by show S.have_ ≤ _; rw [f2]; exact Nat.zero_le _, f3⟩
  · show S.pid = 0 ∨ S.pid ∈ pids
    rw [f4]; exact hp

/-- the buffer is filled again -/
theorem inv_rekey (h : RandInv own pids w) (p : Nat) (x : RProc) (hx : w.procs p = some x) (ho : own p) :
    RandInv (fun q => q = p ∨ own q) pids (rStepOut w p x.pid ([], rsRekey none x.st, w.ents)) := by
  obtain ⟨g1, g2, g3, g4, g5⟩ := rekey_none x.st
  obtain ⟨z1, z2, z3, z4⟩ := h.sizes p x hx ho
  have hu := usable_rekey x.st
  generalize hS : rsRekey none x.st = S at g1 g2 g3 g4 g5 hu
  have hbuf : ∀ c ∈ S.buf, c = .zero ∨ ∃ i, c = .ks x.st.key i := by
    intro c hc
    rw [g2, List.mem_append] at hc
    rcases hc with hc | hc
    · exact .inl (List.eq_of_mem_replicate hc)
    · exact .inr (mem_keystream (List.mem_of_mem_drop hc))
  have hkey : ∀ c ∈ S.key, ∃ i, c = .ks x.st.key i := by
    intro c hc; rw [g1] at hc; exact mem_keystream (List.mem_of_mem_take hc)
  have hlen : S.key.length = rsKey := by rw [g1, List.length_take, length_keystream]; decide
  have hhd : ∃ i, Cell.ks x.st.key i ∈ S.key := by
    cases hl : S.key with
    | nil => rw [hl] at hlen; cases hlen
    | cons c _ =>
      obtain ⟨i, rfl⟩ := hkey c (by rw [hl]; simp)
      exact ⟨i, by simp⟩
  obtain ⟨i0, hi0⟩ := hhd
  have hsz : sizeOf x.st.key < sizeOf S.key := by
    have := List.sizeOf_lt_of_mem hi0
    simp only [Cell.ks.sizeOf_spec] at this
    omega
  have hkw : ∀ c ∈ x.st.key, InWorld w c := fun c hc => .inr ⟨p, x, hx, .inr hc⟩
  have hnew : ∀ i, (∀ q y, q ≠ p → own q → w.procs q = some y → ¬ OccIn y.st.key (.ks x.st.key i)) ∧ (∀ m, w.ents ≤ m → ¬ HasEnt m (.ks x.st.key i)) ∧
      ¬ OccIn S.key (.ks x.st.key i) := by
    intro i
    refine ⟨fun q y e hq hy hocc => ?_, fun m hm he => ?_, fun hocc => ?_⟩
    · rcases occ_ks.1 hocc with hh | ⟨c, hc, hh⟩
      · exact h.keys p q x y hx hy ho hq (Ne.symm e) hh
      · exact h.key q y hy hq c (hkw c hc) hh
    · obtain ⟨c, hc, he⟩ := ent_ks he
      exact h.ents c (hkw c hc) m hm he
    · rcases occ_ks.1 hocc with hh | ⟨c, hc, hh⟩
      · rw [hh] at hsz; omega
      · have h1 := occ_size hh
        have h2 := List.sizeOf_lt_of_mem hc
        omega
  have hfresh : ∀ i, ¬ InWorld w (.ks x.st.key i) := fun i hi => h.key p x hx ho _ hi (.here i)
  refine inv_replace h p x hx [] S w.ents (Nat.le_refl _) ?_ ?_ ?_ ?_ ?_ ?_
  · intro c hc
    rcases hc with hc | hc | hc
    · rcases hbuf c hc with rfl | ⟨i, rfl⟩
      · exact ⟨fun q y _ _ _ hh => (by cases hh), fun m _ hh => (by cases hh)⟩
      · exact ⟨(hnew i).1, (hnew i).2.1⟩
    · obtain ⟨i, rfl⟩ := hkey c hc
      exact ⟨(hnew i).1, (hnew i).2.1⟩
    · cases hc
  · intro c hc hocc
    rcases hc with hc | hc | hc | hc
    · exact h.key p x hx ho c hc (occ_trans hocc hi0 (.here i0))
    · rcases hbuf c hc with rfl | ⟨i, rfl⟩
      · cases hocc
      · exact (hnew i).2.2 hocc
    · exact occ_self hc hocc
    · cases hc
  · intro q y e hq hy hh
    exact hfresh i0 (.inr ⟨q, y, hy, .inr (by rw [hh]; exact hi0)⟩)
  · rw [List.nil_append, hu]
    refine ⟨(nodup_keystream x.st rsBufSize).sublist (List.drop_sublist _ _), ?_⟩
    intro c hc
    obtain ⟨i, rfl⟩ := mem_keystream (List.mem_of_mem_drop hc)
    refine ⟨fun q hq => hfresh i (.inl ⟨q, hq⟩), ⟨_, _, rfl⟩, fun q y e hq hy hh => ?_⟩
    exact hfresh i (.inr ⟨q, y, hy, .inl (List.mem_of_mem_drop hh)⟩)
  · refine ⟨?_, hlen, by rw [g3]; decide, by rw [g4]; exact z4⟩
    rw [g2, List.length_append, List.length_drop, length_keystream, List.length_replicate]; decide
  · rw [g5]; exact (h.pids p x hx).2.2.1

/-- bytes are given out -/
theorem inv_take (h : RandInv own pids w) (p : Nat) (x : RProc) (hx : w.procs p = some x) (ho : own p) (m : Nat) (hm : m ≤ x.st.have_) :
    RandInv (fun q => q = p ∨ own q) pids (rStepOut w p x.pid ((rsTake m x.st).1, (rsTake m x.st).2, w.ents)) := by
  obtain ⟨z1, z2, z3, z4⟩ := h.sizes p x hx ho
  obtain ⟨t1, t2, t3, t4, t5, t6, t7, t8, t9⟩ := take_facts m x.st z1 z3 hm
  generalize rsTake m x.st = T at t1 t2 t3 t4 t5 t6 t7 t8 t9
  obtain ⟨O, S⟩ := T
  dsimp only at t1 t2 t3 t4 t5 t6 t7 t8 t9 ⊢
  have hub : ∀ c ∈ usable x.st, c ∈ x.st.buf := fun c hc => List.mem_of_mem_drop hc
  have hOu : ∀ c ∈ O, c ∈ usable x.st := by intro c hc; rw [t1] at hc; exact List.mem_of_mem_take hc
  have hin : ∀ c, c ∈ S.buf ∨ c ∈ S.key ∨ c ∈ O → c = .zero ∨ InWorld w c := by
    intro c hc
    rcases hc with hc | hc | hc
    · rcases t9 c hc with h1 | h1
      · exact .inl h1
      · exact .inr (.inr ⟨p, x, hx, .inl h1⟩)
    · rw [t6] at hc; exact .inr (.inr ⟨p, x, hx, .inr hc⟩)
    · exact .inr (.inr ⟨p, x, hx, .inl (hub c (hOu c hc))⟩)
  have huu : O ++ usable S = usable x.st := by rw [t1, t2, List.take_append_drop]
  refine inv_replace h p x hx O S w.ents (Nat.le_refl _) ?_ ?_ ?_ ?_ ?_ ?_
  · intro c hc
    rcases hin c hc with rfl | hc
    · exact ⟨fun q y _ _ _ hh => (by cases hh), fun m _ hh => (by cases hh)⟩
    · exact ⟨fun q y _ hq hy => h.key q y hy hq c hc, fun m hm => h.ents c hc m hm⟩
  · intro c hc
    rw [t6]
    have : c = .zero ∨ InWorld w c := by
      rcases hc with hc | hc
      · exact .inr hc
      · exact hin c hc
    rcases this with rfl | hc
    · intro hh; cases hh
    · exact h.key p x hx ho c hc
  · intro q y e hq hy
    rw [t6]; exact h.keys q p y x hy hx hq ho e
  · rw [huu]
    obtain ⟨h1, h2⟩ := h.nodup p x hx ho
    exact ⟨h1, fun c hc => ⟨(h2 c hc).1, (h2 c hc).2, fun q y e hq hy => h.apart p q x y hx hy ho hq (Ne.symm e) c hc⟩⟩
  · exact ⟨t4, by rw [t6]; exact z2, by rw [t5]; omega, by rw [t7]; exact z4⟩
  · rw [t8]; exact (h.pids p x hx).2.2.1

theorem stepOut_comp (w : RWorld) (p pid pid' : Nat) (o o' : List Cell) (s s' : RState0) (n n' : Nat) :
    rStepOut (rStepOut w p pid (o, s, n)) p pid' (o', s', n') = rStepOut w p pid' (o ++ o', s', n') := by
  unfold rStepOut
  simp only [List.map_append, List.append_assoc, RWorld.mk.injEq, and_true]
  funext i
  unfold RWorld.put
  dsimp only
  split <;> rfl

theorem stepOut_self (p : Nat) (x : RProc) (hx : w.procs p = some x) : rStepOut w p x.pid ([], x.st, w.ents) = w := by
  unfold rStepOut
  simp only [List.map_nil, List.append_nil]
  have : w.put p (some { pid := x.pid, st := x.st }) = w.procs := by
    funext i
    unfold RWorld.put
    split
    · rename_i e; subst e; exact hx.symm
    · rfl
  rw [this]

theorem stepOut_at (w : RWorld) (p pid : Nat) (r : List Cell × RState0 × Nat) : (rStepOut w p pid r).procs p = some ⟨pid, r.2.1⟩ := by
  simp [rStepOut, RWorld.put]

theorem own_same {own : Nat → Prop} {p : Nat} (h : own p) : (fun q => q = p ∨ own q) = own := by
  funext q
  exact propext ⟨fun e => e.elim (fun e => e ▸ h) id, .inr⟩

theorem inv_loop (f : Nat) : ∀ (w : RWorld) (n p : Nat) (x : RProc), RandInv own pids w → w.procs p = some x → own p →
    RandInv own pids (rStepOut w p x.pid ((rsLoop f n x.st).1, (rsLoop f n x.st).2, w.ents)) := by
  induction f with
  | zero => intro w n p x h hx ho; rw [rsLoop, stepOut_self p x hx]; exact h
  | succ f ih =>
    intro w n p x h hx ho
    cases n with
    | zero => rw [rsLoop, stepOut_self p x hx]; exact h
    | succ n =>
      rw [rsLoop]
      dsimp only
      have h1 := inv_take h p x hx ho (min (n + 1) x.st.have_) (by omega)
      rw [own_same ho] at h1
      generalize rsTake (min (n + 1) x.st.have_) x.st = T at h1
      obtain ⟨O, S⟩ := T
      dsimp only at h1 ⊢
      have h2 : RandInv own pids (rStepOut w p x.pid (O, if S.have_ = 0 then rsRekey none S else S, w.ents)) := by
        split
        · have := inv_rekey h1 p ⟨x.pid, S⟩ (stepOut_at _ _ _ _) ho
          rw [own_same ho, stepOut_comp, List.append_nil] at this
          exact this
        · exact h1
      generalize (if S.have_ = 0 then rsRekey none S else S) = S' at h2
      have h3 := ih _ (n + 1 - min (n + 1) x.st.have_) p ⟨x.pid, S'⟩ h2 (stepOut_at _ _ _ _) ho
      rw [stepOut_comp] at h3
      exact h3

theorem inv_stirIfNeeded (fuzz : List Cell → Nat) (w : RWorld) (p len : Nat) (x : RProc) (h : RandInv own pids w) (hx : w.procs p = some x) :
    RandInv (fun q => q = p ∨ own q) pids (rStepOut w p x.pid ([], (rsStirIfNeeded fuzz x.pid len w.ents x.st).1, (rsStirIfNeeded fuzz x.pid len w.ents x.st).2)) ∧
    (rsStirIfNeeded fuzz x.pid len w.ents x.st).1.pid = x.pid := by
  obtain ⟨p1, p2, p3, p4⟩ := h.pids p x hx
  unfold rsStirIfNeeded
  dsimp only
  by_cases hf : x.st.pid = 0 ∨ x.st.pid = 1 ∨ x.st.pid ≠ x.pid
  · have e : rsForkdetect x.pid x.st = { x.st with pid := x.pid, have_ := 0, count := 0 } := by unfold rsForkdetect; rw [if_pos hf]
    rw [e, if_pos (.inr (Nat.zero_le _))]
    refine ⟨inv_stir h p x hx fuzz { x.st with pid := x.pid, have_ := 0, count := 0 } rfl _ (.inr p1), ?_⟩
    exact (stir_facts fuzz w.ents _).2.2.2.1
  · have e : rsForkdetect x.pid x.st = x.st := by unfold rsForkdetect; rw [if_neg hf]
    have hpid : x.st.pid = x.pid := by
      by_cases hh : x.st.pid = x.pid
      · exact hh
      · exact absurd (.inr (.inr hh)) hf
    rw [e]
    by_cases hc : x.st.ready = false ∨ x.st.count ≤ len
    · rw [if_pos hc]
      refine ⟨inv_stir h p x hx fuzz x.st rfl _ p3, ?_⟩
      exact ((stir_facts fuzz w.ents x.st).2.2.2.1).trans hpid
    · rw [if_neg hc]
      refine ⟨?_, hpid⟩
      have ho := p4 hpid
      have h1 := inv_take h p x hx ho 0 (Nat.zero_le _)
      have e0 : (rsTake 0 x.st) = ([], x.st) := by
        have hl := (h.sizes p x hx ho).1
        unfold rsTake
        simp
      rw [e0] at h1
      dsimp only at h1
      rw [stepOut_self p x hx] at h1
      exact inv_replace h p x hx [] _ w.ents (Nat.le_refl _)
        (fun c hc => by
          have hw : InWorld w c := by
            rcases hc with hc | hc | hc
            · exact .inr ⟨p, x, hx, .inl hc⟩
            · exact .inr ⟨p, x, hx, .inr hc⟩
            · cases hc
          exact ⟨fun q y _ hq hy => h.key q y hy hq c hw, fun m hm => h.ents c hw m hm⟩)
        (fun c hc => by
          have hw : InWorld w c := by
            rcases hc with hc | hc | hc | hc
            · exact hc
            · exact .inr ⟨p, x, hx, .inl hc⟩
            · exact .inr ⟨p, x, hx, .inr hc⟩
            · cases hc
          exact h.key p x hx ho c hw)
        (fun q y e hq hy => h.keys q p y x hy hx hq ho e)
        ⟨(h.nodup p x hx ho).1, fun c hc => ⟨((h.nodup p x hx ho).2 c hc).1, ((h.nodup p x hx ho).2 c hc).2, fun q y e hq hy => h.apart p q x y hx hy ho hq (Ne.symm e) c hc⟩⟩
        (h.sizes p x hx ho) p3

theorem inv_bytes (fuzz : List Cell → Nat) (p len : Nat) (x : RProc) (h : RandInv own pids w) (hx : w.procs p = some x) :
    RandInv (fun q => q = p ∨ own q) pids (rStepOut w p x.pid (rsBuf fuzz x.pid len w.ents x.st)) := by
  obtain ⟨h1, h2⟩ := inv_stirIfNeeded fuzz w p len x h hx
  have h3 := inv_loop (len + 1) _ len p ⟨x.pid, _⟩ h1 (stepOut_at _ _ _ _) (.inl rfl)
  rw [stepOut_comp] at h3
  exact h3

theorem inv_number (fuzz : List Cell → Nat) (p : Nat) (x : RProc) (h : RandInv own pids w) (hx : w.procs p = some x) :
    RandInv (fun q => q = p ∨ own q) pids (rStepOut w p x.pid (rsU32 fuzz x.pid w.ents x.st)) := by
  obtain ⟨h1, h2⟩ := inv_stirIfNeeded fuzz w p 4 x h hx
  unfold rsU32
  dsimp only
  generalize rsStirIfNeeded fuzz x.pid 4 w.ents x.st = R at h1
  obtain ⟨S, n⟩ := R
  dsimp only at h1 ⊢
  have h3 : RandInv (fun q => q = p ∨ own q) pids (rStepOut w p x.pid ([], if S.have_ < 4 then rsRekey none S else S, n)) ∧
      4 ≤ (if S.have_ < 4 then rsRekey none S else S).have_ := by
    split
    · have := inv_rekey h1 p ⟨x.pid, S⟩ (stepOut_at _ _ _ _) (.inl rfl)
      rw [own_same (own := fun q => q = p ∨ own q) (.inl rfl), stepOut_comp] at this
      exact ⟨this, by rw [(rekey_none S).2.2.1]; decide⟩
    · rename_i hlt
      exact ⟨h1, by omega⟩
  generalize (if S.have_ < 4 then rsRekey none S else S) = S' at h3
  have h4 := inv_take h3.1 p ⟨x.pid, S'⟩ (stepOut_at _ _ _ _) (.inl rfl) 4 h3.2
  rw [own_same (own := fun q => q = p ∨ own q) (.inl rfl), stepOut_comp] at h4
  exact h4

theorem inv_fork (p q pid : Nat) (x : RProc) (h : RandInv own pids w) (hx : w.procs p = some x) (hq : w.procs q = none) (hpid : pid ∉ pids) (h0 : pid ≠ 0) :
    RandInv own (pid :: pids) { w with procs := w.put q (some { pid := pid, st := x.st }) } := by
  have hno : ¬ own q := by intro ho; obtain ⟨y, hy⟩ := h.alive q ho; rw [hq] at hy; cases hy
  have hpr : ∀ r y, w.put q (some { pid := pid, st := x.st }) r = some y → own r → w.procs r = some y := by
    intro r y hy ho
    rw [procs_put] at hy
    split at hy
    · rename_i e; subst e; exact absurd ho hno
    · exact hy
  have hw : ∀ c, InWorld { w with procs := w.put q (some { pid := pid, st := x.st }) } c → InWorld w c := by
    intro c hc
    rcases hc with hc | ⟨r, y, hy, hm⟩
    · exact .inl hc
    · have hy : w.put q (some { pid := pid, st := x.st }) r = some y := hy
      rw [procs_put] at hy
      split at hy
      · cases hy; exact .inr ⟨p, x, hx, hm⟩
      · exact .inr ⟨r, y, hy, hm⟩
  constructor
  · intro r hr
    obtain ⟨y, hy⟩ := h.alive r hr
    refine ⟨y, ?_⟩
    have : r ≠ q := by intro e; subst e; exact hno hr
    show w.put q _ r = some y
    rw [procs_put, if_neg this]; exact hy
  · intro r y hy ho c hc
    exact h.key r y (hpr r y hy ho) ho c (hw c hc)
  · intro r t y z hy hz hr ht
    exact h.keys r t y z (hpr r y hy hr) (hpr t z hz ht) hr ht
  · intro r y hy ho
    exact h.nodup r y (hpr r y hy ho) ho
  · intro r t y z hy hz hr ht
    exact h.apart r t y z (hpr r y hy hr) (hpr t z hz ht) hr ht
  · intro c hc
    exact h.ents c (hw c hc)
  · intro r y hy ho
    exact h.sizes r y (hpr r y hy ho) ho
  · exact h.given
  · intro r y hy
    have hy : w.put q (some { pid := pid, st := x.st }) r = some y := hy
    rw [procs_put] at hy
    split at hy
    · cases hy
      obtain ⟨h1, h2, h3, h4⟩ := h.pids p x hx
      refine ⟨by simp, h0, h3.imp id (List.mem_cons_of_mem _), fun e => ?_⟩
      have e : x.st.pid = pid := e
      rcases h3 with h3 | h3
      · rw [h3] at e; exact absurd e.symm h0
      · rw [e] at h3; exact absurd h3 hpid
    · obtain ⟨h1, h2, h3, h4⟩ := h.pids r y hy
      exact ⟨List.mem_cons_of_mem _ h1, h2, h3.imp id (List.mem_cons_of_mem _), h4⟩

theorem inv_exit (p : Nat) (h : RandInv own pids w) : RandInv (fun q => q ≠ p ∧ own q) pids { w with procs := w.put p none } := by
  have hpr : ∀ r y, w.put p none r = some y → w.procs r = some y ∧ r ≠ p := by
    intro r y hy
    rw [procs_put] at hy
    split at hy
    · cases hy
    · rename_i e; exact ⟨hy, e⟩
  have hw : ∀ c, InWorld { w with procs := w.put p none } c → InWorld w c := by
    intro c hc
    rcases hc with hc | ⟨r, y, hy, hm⟩
    · exact .inl hc
    · exact .inr ⟨r, y, (hpr r y hy).1, hm⟩
  constructor
  · intro r hr
    obtain ⟨y, hy⟩ := h.alive r hr.2
    exact ⟨y, by show w.put p none r = some y; rw [procs_put, if_neg hr.1]; exact hy⟩
  · intro r y hy ho c hc
    exact h.key r y (hpr r y hy).1 ho.2 c (hw c hc)
  · intro r t y z hy hz hr ht
    exact h.keys r t y z (hpr r y hy).1 (hpr t z hz).1 hr.2 ht.2
  · intro r y hy ho
    exact h.nodup r y (hpr r y hy).1 ho.2
  · intro r t y z hy hz hr ht
    exact h.apart r t y z (hpr r y hy).1 (hpr t z hz).1 hr.2 ht.2
  · intro c hc
    exact h.ents c (hw c hc)
  · intro r y hy ho
    exact h.sizes r y (hpr r y hy).1 ho.2
  · exact h.given
  · intro r y hy
    obtain ⟨h1, h2⟩ := hpr r y hy
    obtain ⟨p1, p2, p3, p4⟩ := h.pids r y h1
    exact ⟨p1, p2, p3, fun e => ⟨h2, p4 e⟩⟩

end

/-! ## the properties -/

theorem inv_history (fuzz : List Cell → Nat) (evs : List REvent) : ∀ (w : RWorld) (own : Nat → Prop) (pids : List Nat), RandInv own pids w →
    (forkPids evs).Nodup → (∀ q ∈ forkPids evs, q ∉ pids ∧ q ≠ 0) → ∃ own' pids', RandInv own' pids' (rHistory fuzz evs w) := by
  induction evs with
  | nil => intro w own pids h _ _; exact ⟨own, pids, h⟩
  | cons e r ih =>
    intro w own pids h hn hp
    rw [rHistory]
    cases e with
    | bytes p len =>
      unfold rEvent
      dsimp only
      cases hx : w.procs p with
      | none => exact ih w own pids h hn hp
      | some x => exact ih _ _ pids (inv_bytes fuzz p len x h hx) hn hp
    | number p =>
      unfold rEvent
      dsimp only
      cases hx : w.procs p with
      | none => exact ih w own pids h hn hp
      | some x => exact ih _ _ pids (inv_number fuzz p x h hx) hn hp
    | fork p q pid =>
      have hn' := List.nodup_cons.1 hn
      have hp' : ∀ q ∈ forkPids r, q ∉ pids ∧ q ≠ 0 := fun q hq => hp q (List.mem_cons_of_mem _ hq)
      unfold rEvent
      dsimp only
      cases hx : w.procs p with
      | none => exact ih w own pids h hn'.2 hp'
      | some x =>
        dsimp only
        cases hq : w.procs q with
        | some y => exact ih w own pids h hn'.2 hp'
        | none =>
          obtain ⟨h1, h2⟩ := hp pid List.mem_cons_self
          refine ih _ own (pid :: pids) (inv_fork p q pid x h hx hq h1 h2) hn'.2 ?_
          intro q' hq'
          refine ⟨?_, (hp' q' hq').2⟩
          rw [List.mem_cons, not_or]
          exact ⟨fun e => hn'.1 (e ▸ hq'), (hp' q' hq').1⟩
    | exit p =>
      unfold rEvent
      exact ih _ _ pids (inv_exit p h) hn hp

theorem inv_begin (pid : Nat) (h : pid ≠ 0) : RandInv (fun _ => False) [pid] (rBegin pid) := by
  have hpr : ∀ r y, (rBegin pid).procs r = some y → y = ⟨pid, {}⟩ := by
    intro r y hy
    unfold rBegin at hy
    dsimp only at hy
    split at hy
    · cases hy; rfl
    · cases hy
  constructor
  · intro p hp; cases hp
  · intro p x _ hp; cases hp
  · intro p q x y _ _ hp; cases hp
  · intro p x _ hp; cases hp
  · intro p q x y _ _ hp; cases hp
  · intro c hc
    rcases hc with ⟨q, hq⟩ | ⟨q, y, hy, hm⟩
    · cases hq
    · rw [hpr q y hy] at hm
      rcases hm with hm | hm <;> cases hm
  · intro p x _ hp; cases hp
  · exact ⟨List.nodup_nil, by intro g hg; cases hg⟩
  · intro p x hx
    rw [hpr p x hx]
    exact ⟨by simp, h, .inl rfl, fun e => absurd e.symm h⟩

/-- **C134** (partial: not if a pid is used again). No byte is given out twice, to whichever process, and every one is a byte of a keystream: none was erased before. -/
theorem C134_once_partial (fuzz : List Cell → Nat) (pid : Nat) (evs : List REvent) (h0 : 0 ∉ pid :: forkPids evs) (hn : (pid :: forkPids evs).Nodup) :
    ((rHistory fuzz evs (rBegin pid)).given.map (·.2)).Nodup ∧ ∀ g ∈ (rHistory fuzz evs (rBegin pid)).given, ∃ k i, g.2 = .ks k i := by
  rw [List.mem_cons, not_or] at h0
  obtain ⟨hn1, hn2⟩ := List.nodup_cons.1 hn
  obtain ⟨own, pids, h⟩ := inv_history fuzz evs (rBegin pid) _ _ (inv_begin pid (Ne.symm h0.1)) hn2
    (fun q hq => ⟨by rw [List.mem_singleton]; exact fun e => hn1 (e ▸ hq), fun e => h0.2 (e ▸ hq)⟩)
  exact h.given

/-! ## what was given out cannot be found out afterwards -/

/-- the bytes that keys are made of -/
def KeyShape (past : List (List Cell)) (c : Cell) : Prop :=
  (∃ k ∈ past, ∃ i, c = .ks k i) ∨ (∃ n j, c = .ent n j) ∨ ∃ k ∈ past, ∃ i n j, c = .xor (.ks k i) (.ent n j)

def PartsHidden (m : List Cell) (c : Cell) : Prop := ∀ a b, c = .xor a b → a ∉ m ∧ b ∉ m

/-- `past`: the keys that were used before; `g`: what was given out -/
structure SInv (past : List (List Cell)) (s : RState0) (g : List Cell) : Prop where
  fresh : s.ready = false → past = [] ∧ g = [] ∧ s.buf = [] ∧ s.key = [] ∧ s.have_ = 0
  sizes : s.ready = true → s.buf.length = rsBufSize ∧ s.have_ ≤ rsBufSize ∧ s.key ≠ []
  zeros : ∀ c ∈ s.buf.take (rsBufSize - s.have_), c = .zero
  usab : (usable s).Nodup ∧ ∀ c ∈ usable s, (∃ k ∈ past, ∃ i, c = .ks k i) ∧ c ∉ s.key
  key : ∀ c ∈ s.key, KeyShape past c ∧ PartsHidden (memoryOf s) c
  olds : ∀ k ∈ past, k ≠ [] ∧ sizeOf k < sizeOf s.key ∧ ∀ c ∈ k, KeyShape past c ∧ c ∉ (memoryOf s) ∧ PartsHidden (memoryOf s) c
  given : ∀ c ∈ g, (∃ k ∈ past, ∃ i, c = .ks k i) ∧ c ∉ (memoryOf s)

section
variable {past : List (List Cell)} {s : RState0} {g : List Cell}

theorem sinv_buf (h : SInv past s g) {c : Cell} (hc : c ∈ s.buf) : c = .zero ∨ c ∈ usable s := by
  rw [← List.take_append_drop (rsBufSize - s.have_) s.buf, List.mem_append] at hc
  rcases hc with hc | hc
  · exact .inl (h.zeros c hc)
  · exact .inr hc

/-- nobody may find these out -/
inductive Secret (past : List (List Cell)) (m : List Cell) : Cell → Prop where
  | ks (k : List Cell) (i : Nat) : k ∈ past → Secret past m (.ks k i)
  | ent (n j : Nat) : Secret past m (.ent n j)
  | left (a b : Cell) : Secret past m a → a ∉ m → Secret past m (.xor a b)
  | right (a b : Cell) : Secret past m b → b ∉ m → Secret past m (.xor a b)

theorem shape_secret {m : List Cell} {c : Cell} (h : KeyShape past c) (hp : PartsHidden m c) : Secret past m c := by
  rcases h with ⟨k, hk, i, rfl⟩ | ⟨n, j, rfl⟩ | ⟨k, hk, i, n, j, rfl⟩
  · exact .ks k i hk
  · exact .ent n j
  · exact .left _ _ (.ks k i hk) (hp _ _ rfl).1

theorem known_secret (h : SInv past s g) {c : Cell} (hc : Known (memoryOf s) c) : ¬ Secret past (memoryOf s) c ∨ c ∈ (memoryOf s) := by
  have hxor : ∀ a b, Cell.xor a b ∈ (memoryOf s) → (∃ k ∈ past, ∃ i, a = .ks k i) ∧ (∃ n j, b = .ent n j) ∧ a ∉ (memoryOf s) ∧ b ∉ (memoryOf s) := by
    intro a b hab
    have hk : Cell.xor a b ∈ s.key := by
      rcases List.mem_append.1 hab with hb | hb
      · rcases sinv_buf h hb with e | e
        · cases e
        · obtain ⟨⟨k, _, i, e⟩, _⟩ := h.usab.2 _ e; cases e
      · exact hb
    obtain ⟨h1, h2⟩ := h.key _ hk
    obtain ⟨h3, h4⟩ := h2 a b rfl
    rcases h1 with ⟨k, _, i, e⟩ | ⟨n, j, e⟩ | ⟨k, hkp, i, n, j, e⟩
    · cases e
    · cases e
    · cases e; exact ⟨⟨k, hkp, i, rfl⟩, ⟨n, j, rfl⟩, h3, h4⟩
  induction hc with
  | mem c hc => exact .inr hc
  | ks k i hl _ ih =>
    left
    intro hs
    cases hs with
    | ks _ _ hk =>
      obtain ⟨h1, _, h2⟩ := h.olds k hk
      cases k with
      | nil => exact h1 rfl
      | cons c r =>
        obtain ⟨h3, h4, h5⟩ := h2 c List.mem_cons_self
        rcases ih c List.mem_cons_self with h6 | h6
        · exact h6 (shape_secret h3 h5)
        · exact h4 h6
  | xor a b _ _ iha ihb =>
    left
    intro hs
    cases hs with
    | left _ _ h1 h2 => exact iha.elim (· h1) h2
    | right _ _ h1 h2 => exact ihb.elim (· h1) h2
  | left a b _ _ ih ihb =>
    rcases ih with ih | ih
    · by_cases ha : a ∈ (memoryOf s)
      · exact .inr ha
      · exact .inl fun hs => ih (.left _ _ hs ha)
    · obtain ⟨_, ⟨n, j, rfl⟩, _, h4⟩ := hxor a b ih
      exact absurd (ihb.resolve_right h4) (fun hh => hh (.ent n j))
  | right a b _ _ ih iha =>
    rcases ih with ih | ih
    · by_cases hb : b ∈ (memoryOf s)
      · exact .inr hb
      · exact .inl fun hs => ih (.right _ _ hs hb)
    · obtain ⟨⟨k, hk, i, rfl⟩, _, h3, _⟩ := hxor a b ih
      exact absurd (iha.resolve_right h3) (fun hh => hh (.ks k i hk))

theorem sinv_forgotten (h : SInv past s g) : ∀ c ∈ g, ¬ Known (memoryOf s) c := by
  intro c hc hk
  obtain ⟨⟨k, hk', i, rfl⟩, h2⟩ := h.given c hc
  rcases known_secret h hk with h3 | h3
  · exact h3 (.ks k i hk')
  · exact h2 h3

theorem shape_more {k : List Cell} {c : Cell} (h : KeyShape past c) : KeyShape (k :: past) c := by
  rcases h with ⟨k, hk, i, rfl⟩ | h | ⟨k, hk, i, n, j, rfl⟩
  · exact .inl ⟨k, List.mem_cons_of_mem _ hk, i, rfl⟩
  · exact .inr (.inl h)
  · exact .inr (.inr ⟨k, List.mem_cons_of_mem _ hk, i, n, j, rfl⟩)

/-- a new key, of bytes that come from the old one: nothing that was there before is in the memory any more -/
theorem sinv_newkey (h : SInv past s g) (hr : s.ready = true) (S : RState0) (hS : S.ready = true)
    (hm : ∀ c ∈ (memoryOf S), c = .zero ∨ (∃ i, c = .ks s.key i) ∨ ∃ i n j, c = .xor (.ks s.key i) (.ent n j))
    (hk : ∃ c ∈ S.key, c ≠ .zero) (hkz : ∀ c ∈ S.key, c ≠ .zero) (hx : ∀ c ∈ (memoryOf S), PartsHidden (memoryOf S) c)
    (hsz : S.buf.length = rsBufSize ∧ S.have_ ≤ rsBufSize) (hz : ∀ c ∈ S.buf.take (rsBufSize - S.have_), c = .zero)
    (hu : (usable S).Nodup ∧ ∀ c ∈ usable S, (∃ i, c = .ks s.key i) ∧ c ∉ S.key) : SInv (s.key :: past) S g := by
  obtain ⟨_, _, hne⟩ := h.sizes hr
  have hgt : sizeOf s.key < sizeOf S.key := by
    obtain ⟨c, hc, hc0⟩ := hk
    have := List.sizeOf_lt_of_mem hc
    rcases hm c (List.mem_append_right _ hc) with e | ⟨i, e⟩ | ⟨i, n, j, e⟩
    · exact absurd e hc0
    · subst e; simp only [Cell.ks.sizeOf_spec] at this; omega
    · subst e; simp only [Cell.xor.sizeOf_spec, Cell.ks.sizeOf_spec] at this; omega
  -- what is not of the new key is not in the memory
  have hout : ∀ c, (∃ k i, sizeOf k < sizeOf s.key ∧ c = .ks k i) ∨ (∃ n j, c = .ent n j) ∨ (∃ k i n j, sizeOf k < sizeOf s.key ∧ c = .xor (.ks k i) (.ent n j)) →
      c ∉ (memoryOf S) ∧ PartsHidden (memoryOf S) c := by
    have h1 : ∀ k i, sizeOf k < sizeOf s.key → Cell.ks k i ∉ (memoryOf S) := by
      intro k i hlt hin
      rcases hm _ hin with e | ⟨i, e⟩ | ⟨i, n, j, e⟩
      · cases e
      · cases e; omega
      · cases e
    have h2 : ∀ n j, Cell.ent n j ∉ (memoryOf S) := by
      intro n j hin
      rcases hm _ hin with e | ⟨i, e⟩ | ⟨i, n, j, e⟩ <;> cases e
    intro c hc
    rcases hc with ⟨k, i, hlt, rfl⟩ | ⟨n, j, rfl⟩ | ⟨k, i, n, j, hlt, rfl⟩
    · exact ⟨h1 k i hlt, fun a b e => (by cases e)⟩
    · exact ⟨h2 n j, fun a b e => (by cases e)⟩
    · refine ⟨fun hin => ?_, fun a b e => (by cases e; exact ⟨h1 k i hlt, h2 n j⟩)⟩
      rcases hm _ hin with e | ⟨i, e⟩ | ⟨i, n, j, e⟩
      · cases e
      · cases e
      · cases e; omega
  have hshape : ∀ c, KeyShape past c → c ∉ (memoryOf S) ∧ PartsHidden (memoryOf S) c := by
    intro c hc
    apply hout
    rcases hc with ⟨k, hk, i, rfl⟩ | hc | ⟨k, hk, i, n, j, rfl⟩
    · exact .inl ⟨k, i, (h.olds k hk).2.1, rfl⟩
    · exact .inr (.inl hc)
    · exact .inr (.inr ⟨k, i, n, j, (h.olds k hk).2.1, rfl⟩)
  constructor
  · intro e; rw [hS] at e; cases e
  · intro _
    refine ⟨hsz.1, hsz.2, ?_⟩
    obtain ⟨c, hc, _⟩ := hk
    intro e; rw [e] at hc; cases hc
  · exact hz
  · refine ⟨hu.1, fun c hc => ?_⟩
    obtain ⟨⟨i, e⟩, h2⟩ := hu.2 c hc
    exact ⟨⟨s.key, List.mem_cons_self, i, e⟩, h2⟩
  · intro c hc
    have hcm : c ∈ (memoryOf S) := List.mem_append_right _ hc
    refine ⟨?_, hx c hcm⟩
    rcases hm c hcm with e | ⟨i, e⟩ | ⟨i, n, j, e⟩
    · exact absurd e (hkz c hc)
    · exact .inl ⟨s.key, List.mem_cons_self, i, e⟩
    · exact .inr (.inr ⟨s.key, List.mem_cons_self, i, n, j, e⟩)
  · intro k hk
    rcases List.mem_cons.1 hk with rfl | hk
    · exact ⟨hne, hgt, fun c hc => ⟨shape_more (h.key c hc).1, hshape c (h.key c hc).1⟩⟩
    · obtain ⟨h1, h2, h3⟩ := h.olds k hk
      exact ⟨h1, by omega, fun c hc => ⟨shape_more (h3 c hc).1, hshape c (h3 c hc).1⟩⟩
  · intro c hc
    obtain ⟨⟨k, hk, i, rfl⟩, _⟩ := h.given c hc
    exact ⟨⟨k, List.mem_cons_of_mem _ hk, i, rfl⟩, (hshape _ (.inl ⟨k, hk, i, rfl⟩)).1⟩

theorem sinv_rekey (h : SInv past s g) (hr : s.ready = true) : ∃ past', SInv past' (rsRekey none s) g := by
  obtain ⟨g1, g2, g3, g4, g5⟩ := rekey_none s
  have hu := usable_rekey s
  generalize rsRekey none s = S at g1 g2 g3 g4 g5 hu
  have hnd := nodup_keystream s rsBufSize
  have hlen := length_keystream s rsBufSize
  have hks : ∀ c ∈ keystream s rsBufSize, ∃ i, c = .ks s.key i := fun c hc => mem_keystream hc
  generalize keystream s rsBufSize = b at g1 g2 hu hnd hlen hks
  have hkey : ∀ c ∈ S.key, ∃ i, c = .ks s.key i := by intro c hc; rw [g1] at hc; exact hks c (List.mem_of_mem_take hc)
  refine ⟨_, sinv_newkey h hr S (by rw [g4]; exact hr) ?_ ?_ ?_ ?_ ?_ ?_ ?_⟩
  · intro c hc
    rcases List.mem_append.1 hc with hc | hc
    · rw [g2, List.mem_append] at hc
      rcases hc with hc | hc
      · exact .inl (List.eq_of_mem_replicate hc)
      · exact .inr (.inl (hks c (List.mem_of_mem_drop hc)))
    · exact .inr (.inl (hkey c hc))
  · cases hl : S.key with
    | nil =>
      have : S.key.length = rsKey := by rw [g1, List.length_take, hlen]; decide
      rw [hl] at this; cases this
    | cons c r =>
      obtain ⟨i, e⟩ := hkey c (by rw [hl]; simp)
      exact ⟨c, by simp, by rw [e]; intro e; cases e⟩
  · intro c hc e
    obtain ⟨i, e'⟩ := hkey c hc
    rw [e'] at e; cases e
  · intro c hc a b' e
    exfalso
    rcases List.mem_append.1 hc with hc | hc
    · rw [g2, List.mem_append] at hc
      rcases hc with hc | hc
      · rw [List.eq_of_mem_replicate hc] at e; cases e
      · obtain ⟨i, e'⟩ := hks c (List.mem_of_mem_drop hc); rw [e'] at e; cases e
    · obtain ⟨i, e'⟩ := hkey c hc; rw [e'] at e; cases e
  · rw [g2, g3, List.length_append, List.length_drop, hlen, List.length_replicate]
    exact ⟨by decide, by decide⟩
  · intro c hc
    rw [g2, g3, List.take_append_of_le_length (by rw [List.length_replicate]; decide)] at hc
    exact List.eq_of_mem_replicate (List.mem_of_mem_take hc)
  · rw [hu]
    refine ⟨hnd.sublist (List.drop_sublist _ _), fun c hc => ⟨hks c (List.mem_of_mem_drop hc), fun hc' => ?_⟩⟩
    rw [g1] at hc'
    rw [← List.take_append_drop rsKey b] at hnd
    exact (List.nodup_append.1 hnd).2.2 c hc' c hc rfl

theorem sinv_stir (h : SInv past s g) (fuzz : List Cell → Nat) (n pid k : Nat) :
    ∃ past', SInv past' { rsStir fuzz n { s with pid := pid, have_ := 0, count := 0 } with count := k } g := by
  obtain ⟨f1, f2, f3, f4, f5, f6⟩ := stir_facts fuzz n { s with pid := pid, have_ := 0, count := 0 }
  have hseed : s.ready = false → (rsStir fuzz n { s with pid := pid, have_ := 0, count := 0 }).key = entropy n := by
    intro e
    unfold rsStir
    dsimp only
    rw [if_neg (by rw [e]; decide)]
    rfl
  have hmix : s.ready = true → ∀ c ∈ (rsStir fuzz n { s with pid := pid, have_ := 0, count := 0 }).key, ∃ i j, c = .xor (.ks s.key i) (.ent n j) := by
    intro e c hc
    unfold rsStir at hc
    dsimp only at hc
    rw [if_pos e] at hc
    simp only [rsRekey, afterStream] at hc
    have hmem : ∀ c ∈ keystream { s with pid := pid, have_ := 0, count := 0 } rsBufSize, ∃ i, c = .ks s.key i := fun c hc => mem_keystream hc
    generalize keystream { s with pid := pid, have_ := 0, count := 0 } rsBufSize = b at hc hmem
    obtain ⟨a, ha, b', hb, rfl⟩ := mixIn_mem hc (by rw [List.length_take, entropy_length]; decide)
    obtain ⟨i, rfl⟩ := hmem a ha
    obtain ⟨j, rfl⟩ := entropy_mem (List.mem_of_mem_take hb)
    exact ⟨i, j, rfl⟩
  generalize rsStir fuzz n { s with pid := pid, have_ := 0, count := 0 } = S at f1 f2 f3 f4 f5 f6 hseed hmix
  have hub : usable { S with count := k } = [] := by
    show S.buf.drop (rsBufSize - S.have_) = []
    rw [f1, f2]; simp
  have hz : ∀ c ∈ S.buf, c = .zero := by intro c hc; rw [f1] at hc; exact List.eq_of_mem_replicate hc
  have hne : S.key ≠ [] := by intro e; rw [e] at f5; cases f5
  have hlb : S.buf.length = rsBufSize := by rw [f1]; simp
  by_cases hr : s.ready = true
  · refine ⟨_, sinv_newkey h hr { S with count := k } f3 ?_ ?_ ?_ ?_ ⟨hlb, by show S.have_ ≤ _; rw [f2]; exact Nat.zero_le _⟩ ?_ ?_⟩
    · intro c hc
      rcases List.mem_append.1 hc with hc | hc
      · exact .inl (hz c hc)
      · obtain ⟨i, j, e⟩ := hmix hr c hc
        exact .inr (.inr ⟨i, n, j, e⟩)
    · cases hl : S.key with
      | nil => exact absurd hl hne
      | cons c r =>
        obtain ⟨i, j, e⟩ := hmix hr c (by rw [hl]; simp)
        exact ⟨c, by simp, by rw [e]; intro e; cases e⟩
    · intro c hc e
      obtain ⟨i, j, e'⟩ := hmix hr c hc
      rw [e'] at e; cases e
    · intro c hc a b e
      rcases List.mem_append.1 hc with hc | hc
      · rw [hz c hc] at e; cases e
      · obtain ⟨i, j, e'⟩ := hmix hr c hc
        rw [e'] at e
        cases e
        constructor
        · intro hin
          rcases List.mem_append.1 hin with hin | hin
          · cases hz _ hin
          · obtain ⟨i, j, e⟩ := hmix hr _ hin; cases e
        · intro hin
          rcases List.mem_append.1 hin with hin | hin
          · cases hz _ hin
          · obtain ⟨i, j, e⟩ := hmix hr _ hin; cases e
    · intro c hc; exact hz c (List.mem_of_mem_take hc)
    · rw [hub]; exact ⟨List.nodup_nil, by intro c hc; cases hc⟩
  · have hr : s.ready = false := by simpa using hr
    obtain ⟨e1, e2, _⟩ := h.fresh hr
    subst e1 e2
    have hk := hseed hr
    refine ⟨[], ?_, fun _ => ⟨hlb, by show S.have_ ≤ _; rw [f2]; exact Nat.zero_le _, hne⟩, fun c hc => hz c (List.mem_of_mem_take hc), ?_, ?_, ?_, ?_⟩
    · intro e
      have e : S.ready = false := e
      rw [f3] at e; cases e
    · rw [hub]; exact ⟨List.nodup_nil, by intro c hc; cases hc⟩
    · intro c hc
      have hc : c ∈ S.key := hc
      rw [hk] at hc
      obtain ⟨j, rfl⟩ := entropy_mem hc
      exact ⟨.inr (.inl ⟨n, j, rfl⟩), fun a b e => (by cases e)⟩
    · intro k hk; cases hk
    · intro c hc; cases hc

theorem sinv_take (h : SInv past s g) (hr : s.ready = true) (m : Nat) (hm : m ≤ s.have_) : SInv past (rsTake m s).2 (g ++ (rsTake m s).1) := by
  obtain ⟨z1, z2, z3⟩ := h.sizes hr
  obtain ⟨t1, t2, t3, t4, t5, t6, t7, t8, t9⟩ := take_facts m s z1 z2 hm
  have hzero : ∀ c ∈ (rsTake m s).2.buf.take (rsBufSize - (rsTake m s).2.have_), c = .zero := by
    intro c hc
    rw [t5] at hc
    unfold rsTake at hc
    dsimp only at hc
    have e : rsBufSize - (s.have_ - m) = (s.buf.take (rsBufSize - s.have_) ++ List.replicate m Cell.zero).length := by
      simp only [List.length_append, List.length_take, List.length_replicate]; omega
    rw [e, List.take_left, List.mem_append] at hc
    rcases hc with hc | hc
    · exact h.zeros c hc
    · exact List.eq_of_mem_replicate hc
  generalize rsTake m s = T at t1 t2 t3 t4 t5 t6 t7 t8 t9 hzero
  obtain ⟨O, S⟩ := T
  dsimp only at t1 t2 t3 t4 t5 t6 t7 t8 t9 hzero ⊢
  have hmem : ∀ c ∈ (memoryOf S), c = .zero ∨ c ∈ (memoryOf s) := by
    intro c hc
    rcases List.mem_append.1 hc with hc | hc
    · rcases t9 c hc with h1 | h1
      · exact .inl h1
      · exact .inr (List.mem_append_left _ h1)
    · rw [t6] at hc; exact .inr (List.mem_append_right _ hc)
  have hnz : ∀ c, KeyShape past c → c ∉ (memoryOf s) → c ∉ (memoryOf S) := by
    intro c hc hc' hin
    rcases hmem c hin with rfl | h1
    · rcases hc with ⟨_, _, _, e⟩ | ⟨_, _, e⟩ | ⟨_, _, _, _, _, e⟩ <;> cases e
    · exact hc' h1
  have hparts : ∀ c, KeyShape past c → PartsHidden (memoryOf s) c → PartsHidden (memoryOf S) c := by
    intro c hc hp a b e
    obtain ⟨h1, h2⟩ := hp a b e
    rcases hc with ⟨_, _, _, e'⟩ | ⟨_, _, e'⟩ | ⟨k, hk, i, n, j, e'⟩
    · rw [e] at e'; cases e'
    · rw [e] at e'; cases e'
    · rw [e] at e'
      cases e'
      exact ⟨hnz _ (.inl ⟨k, hk, i, rfl⟩) h1, hnz _ (.inr (.inl ⟨n, j, rfl⟩)) h2⟩
  have hsub : ∀ c ∈ usable S, c ∈ usable s := by intro c hc; rw [t2] at hc; exact List.mem_of_mem_drop hc
  constructor
  · intro e; rw [t7, hr] at e; cases e
  · intro _; exact ⟨t4, by rw [t5]; omega, by rw [t6]; exact z3⟩
  · exact hzero
  · rw [t2, t6]
    exact ⟨h.usab.1.sublist (List.drop_sublist _ _), fun c hc => h.usab.2 c (List.mem_of_mem_drop hc)⟩
  · intro c hc
    rw [t6] at hc
    obtain ⟨h1, h2⟩ := h.key c hc
    exact ⟨h1, hparts c h1 h2⟩
  · intro k hk
    obtain ⟨h1, h2, h3⟩ := h.olds k hk
    refine ⟨h1, by rw [t6]; exact h2, fun c hc => ?_⟩
    obtain ⟨h4, h5, h6⟩ := h3 c hc
    exact ⟨h4, hnz c h4 h5, hparts c h4 h6⟩
  · intro c hc
    rcases List.mem_append.1 hc with hc | hc
    · obtain ⟨h1, h2⟩ := h.given c hc
      exact ⟨h1, hnz c (.inl h1) h2⟩
    · have hcu : c ∈ usable s := by rw [t1] at hc; exact List.mem_of_mem_take hc
      obtain ⟨h1, h2⟩ := h.usab.2 c hcu
      refine ⟨h1, fun hin => ?_⟩
      rcases List.mem_append.1 hin with hin | hin
      · rw [← List.take_append_drop (rsBufSize - S.have_) S.buf, List.mem_append] at hin
        rcases hin with hin | hin
        · rw [hzero c hin] at h1
          obtain ⟨_, _, _, e⟩ := h1; cases e
        · have hin : c ∈ usable S := hin
          rw [t2] at hin
          rw [t1] at hc
          have := h.usab.1
          rw [← List.take_append_drop m (usable s)] at this
          exact (List.nodup_append.1 this).2.2 c hc c hin rfl
      · rw [t6] at hin; exact h2 hin

theorem sinv_loop (f : Nat) : ∀ (n : Nat) (past : List (List Cell)) (s : RState0) (g : List Cell), SInv past s g → s.ready = true →
    ∃ past', SInv past' (rsLoop f n s).2 (g ++ (rsLoop f n s).1) ∧ (n < f ∨ n ≤ f ∧ 0 < s.have_ → (rsLoop f n s).1.length = n) := by
  induction f with
  | zero =>
    intro n past s g h _
    refine ⟨past, ?_, fun hn => ?_⟩
    · rw [rsLoop, List.append_nil]; exact h
    · have : n = 0 := by omega
      subst this; rfl
  | succ f ih =>
    intro n past s g h hr
    cases n with
    | zero => refine ⟨past, ?_, fun _ => rfl⟩; rw [rsLoop, List.append_nil]; exact h
    | succ n =>
      rw [rsLoop]
      dsimp only
      obtain ⟨z1, z2, z3⟩ := h.sizes hr
      have h1 := sinv_take h hr (min (n + 1) s.have_) (by omega)
      obtain ⟨-, -, t3, -, t5, -, t7, -⟩ := take_facts (min (n + 1) s.have_) s z1 z2 (by omega)
      generalize rsTake (min (n + 1) s.have_) s = T at h1 t3 t5 t7
      obtain ⟨O, S⟩ := T
      dsimp only at h1 t3 t5 t7 ⊢
      have h2 : ∃ past', SInv past' (if S.have_ = 0 then rsRekey none S else S) (g ++ O) ∧ (if S.have_ = 0 then rsRekey none S else S).ready = true ∧
          0 < (if S.have_ = 0 then rsRekey none S else S).have_ := by
        split
        · obtain ⟨p', hp'⟩ := sinv_rekey h1 (by rw [t7]; exact hr)
          obtain ⟨_, _, r3, r4, _⟩ := rekey_none S
          exact ⟨p', hp', by rw [r4, t7]; exact hr, by rw [r3]; decide⟩
        · exact ⟨past, h1, by rw [t7]; exact hr, by omega⟩
      generalize (if S.have_ = 0 then rsRekey none S else S) = S' at h2
      obtain ⟨p', hp', hr', hh'⟩ := h2
      obtain ⟨p'', h3, h4⟩ := ih (n + 1 - min (n + 1) s.have_) p' S' (g ++ O) hp' hr'
      refine ⟨p'', by rw [← List.append_assoc]; exact h3, fun hn => ?_⟩
      rw [List.length_append, t3, h4 (.inr ⟨by omega, hh'⟩)]
      omega

theorem sinv_stirIfNeeded (fuzz : List Cell → Nat) (pid len n : Nat) (h : SInv past s g) :
    ∃ past', SInv past' (rsStirIfNeeded fuzz pid len n s).1 g ∧ (rsStirIfNeeded fuzz pid len n s).1.ready = true := by
  have hstir : ∀ pid' k, ∃ past', SInv past' { rsStir fuzz n { s with pid := pid', have_ := 0, count := 0 } with count := k } g := fun _ _ => sinv_stir h fuzz n _ _
  have hsame : ∀ t : RState0, rsStir fuzz n { t with have_ := 0, count := 0 } = rsStir fuzz n t := by
    intro t
    obtain ⟨r, h, c, k, b, bf, p⟩ := t
    cases r <;> simp only [rsStir, rsRekey, rsInit, afterStream, keystream, if_true, Bool.false_eq_true, if_false]
  unfold rsStirIfNeeded
  dsimp only
  by_cases hf : s.pid = 0 ∨ s.pid = 1 ∨ s.pid ≠ pid
  · have e : rsForkdetect pid s = { s with pid := pid, have_ := 0, count := 0 } := by unfold rsForkdetect; rw [if_pos hf]
    rw [e, if_pos (.inr (Nat.zero_le _))]
    obtain ⟨p', hp'⟩ := hstir pid _
    exact ⟨p', hp', (stir_facts fuzz n _).2.2.1⟩
  · have e : rsForkdetect pid s = s := by unfold rsForkdetect; rw [if_neg hf]
    rw [e]
    by_cases hc : s.ready = false ∨ s.count ≤ len
    · rw [if_pos hc]
      have e2 : rsStir fuzz n { s with pid := s.pid, have_ := 0, count := 0 } = rsStir fuzz n s := hsame s
      obtain ⟨p', hp'⟩ := hstir s.pid (if (rsStir fuzz n s).count ≤ len then 0 else (rsStir fuzz n s).count - len)
      rw [e2] at hp'
      exact ⟨p', hp', (stir_facts fuzz n s).2.2.1⟩
    · rw [if_neg hc]
      have hr : s.ready = true := by
        cases hr : s.ready with
        | true => rfl
        | false => exact absurd (.inl hr) hc
      refine ⟨past, ⟨fun e => ?_, h.sizes, h.zeros, h.usab, h.key, h.olds, h.given⟩, hr⟩
      have e : s.ready = false := e
      rw [hr] at e; cases e

theorem sinv_bytes (fuzz : List Cell → Nat) (pid len n : Nat) (h : SInv past s g) :
    ∃ past', SInv past' (rsBuf fuzz pid len n s).2.1 (g ++ (rsBuf fuzz pid len n s).1) ∧ (rsBuf fuzz pid len n s).1.length = len := by
  obtain ⟨p1, h1, h2⟩ := sinv_stirIfNeeded fuzz pid len n h
  obtain ⟨p2, h3, h4⟩ := sinv_loop (len + 1) len p1 _ g h1 h2
  exact ⟨p2, h3, h4 (.inl (by omega))⟩

theorem sinv_number (fuzz : List Cell → Nat) (pid n : Nat) (h : SInv past s g) :
    ∃ past', SInv past' (rsU32 fuzz pid n s).2.1 (g ++ (rsU32 fuzz pid n s).1) ∧ (rsU32 fuzz pid n s).1.length = 4 := by
  obtain ⟨p1, h1, h2⟩ := sinv_stirIfNeeded fuzz pid 4 n h
  unfold rsU32
  dsimp only
  generalize (rsStirIfNeeded fuzz pid 4 n s).1 = S at h1 h2
  have h3 : ∃ past', SInv past' (if S.have_ < 4 then rsRekey none S else S) g ∧ (if S.have_ < 4 then rsRekey none S else S).ready = true ∧
      4 ≤ (if S.have_ < 4 then rsRekey none S else S).have_ := by
    split
    · obtain ⟨p', hp'⟩ := sinv_rekey h1 h2
      obtain ⟨_, _, r3, r4, _⟩ := rekey_none S
      exact ⟨p', hp', by rw [r4]; exact h2, by rw [r3]; decide⟩
    · exact ⟨p1, h1, h2, by omega⟩
  generalize (if S.have_ < 4 then rsRekey none S else S) = S' at h3
  obtain ⟨p', hp', hr', hh'⟩ := h3
  obtain ⟨z1, z2, _⟩ := hp'.sizes hr'
  exact ⟨p', sinv_take hp' hr' 4 hh', (take_facts 4 S' z1 z2 hh').2.2.1⟩

end

/-- what was given to the process that is known as `p` -/
def givenTo (w : RWorld) (p : Nat) : List Cell := (w.given.filter (·.1 = p)).map (·.2)

/-- `free`: the names that were not used yet -/
def WInv0 (free : List Nat) (w : RWorld) : Prop :=
  (∀ p x, w.procs p = some x → ∃ past, SInv past x.st (givenTo w p)) ∧ ∀ p ∈ free, givenTo w p = [] ∧ w.procs p = none

theorem givenTo_stepOut (w : RWorld) (p q pid : Nat) (r : List Cell × RState0 × Nat) :
    givenTo (rStepOut w p pid r) q = if q = p then givenTo w p ++ r.1 else givenTo w q := by
  unfold givenTo rStepOut
  simp only [List.filter_append, List.map_append]
  split
  · rename_i e
    subst e
    congr 1
    induction r.1 with
    | nil => rfl
    | cons c t ih => simp only [List.map_cons, List.filter_cons, decide_true, if_true, ih]
  · rename_i e
    have : (r.1.map (p, ·)).filter (fun x => decide (x.1 = q)) = [] := by
      rw [List.filter_eq_nil_iff]
      intro x hx
      rw [List.mem_map] at hx
      obtain ⟨c, _, rfl⟩ := hx
      simp [Ne.symm e]
    rw [this]; simp

theorem winv0_call {free : List Nat} {w : RWorld} (h : WInv0 free w) (p : Nat) (x : RProc) (hx : w.procs p = some x) (r : List Cell × RState0 × Nat)
    (hr : ∃ past', SInv past' r.2.1 (givenTo w p ++ r.1)) : WInv0 free (rStepOut w p x.pid r) := by
  constructor
  · intro q y hy
    rw [givenTo_stepOut]
    have hy : w.put p (some { pid := x.pid, st := r.2.1 }) q = some y := hy
    rw [procs_put] at hy
    by_cases e : q = p
    · rw [if_pos e] at hy; cases hy; rw [if_pos e]; exact hr
    · rw [if_neg e] at hy; rw [if_neg e]; exact h.1 q y hy
  · intro q hq
    obtain ⟨h1, h2⟩ := h.2 q hq
    have e : q ≠ p := by intro e; subst e; rw [hx] at h2; cases h2
    rw [givenTo_stepOut, if_neg e]
    exact ⟨h1, by show w.put p _ q = none; rw [procs_put, if_neg e]; exact h2⟩

theorem sinv_fresh {past : List (List Cell)} {s : RState0} {g : List Cell} (h : SInv past s g) : SInv past s [] :=
  ⟨fun e => ⟨(h.fresh e).1, rfl, (h.fresh e).2.2⟩, h.sizes, h.zeros, h.usab, h.key, h.olds, fun c hc => by cases hc⟩

theorem winv0_history (fuzz : List Cell → Nat) (evs : List REvent) : ∀ (w : RWorld) (free : List Nat), WInv0 free w → (forkNames evs).Nodup →
    (∀ q ∈ forkNames evs, q ∈ free) → ∃ free', WInv0 free' (rHistory fuzz evs w) := by
  induction evs with
  | nil => intro w free h _ _; exact ⟨free, h⟩
  | cons e r ih =>
    intro w free h hn hf
    rw [rHistory]
    cases e with
    | bytes p len =>
      unfold rEvent
      dsimp only
      cases hx : w.procs p with
      | none => exact ih w free h hn hf
      | some x =>
        obtain ⟨past, hp⟩ := h.1 p x hx
        obtain ⟨p', hp', _⟩ := sinv_bytes fuzz x.pid len w.ents hp
        exact ih _ free (winv0_call h p x hx _ ⟨p', hp'⟩) hn hf
    | number p =>
      unfold rEvent
      dsimp only
      cases hx : w.procs p with
      | none => exact ih w free h hn hf
      | some x =>
        obtain ⟨past, hp⟩ := h.1 p x hx
        obtain ⟨p', hp', _⟩ := sinv_number fuzz x.pid w.ents hp
        exact ih _ free (winv0_call h p x hx _ ⟨p', hp'⟩) hn hf
    | exit p =>
      unfold rEvent
      refine ih _ free ⟨fun q y hy => ?_, fun q hq => ⟨(h.2 q hq).1, ?_⟩⟩ hn hf
      · have hy : w.put p none q = some y := hy
        rw [procs_put] at hy
        split at hy
        · cases hy
        · exact h.1 q y hy
      · show w.put p none q = none
        rw [procs_put]
        split
        · rfl
        · exact (h.2 q hq).2
    | fork p q pid =>
      obtain ⟨hn1, hn2⟩ := List.nodup_cons.1 hn
      have hf' : ∀ q' ∈ forkNames r, q' ∈ free.filter (· ≠ q) := by
        intro q' hq'
        rw [List.mem_filter]
        exact ⟨hf q' (List.mem_cons_of_mem _ hq'), by simp; exact fun e => hn1 (e ▸ hq')⟩
      have hsub : WInv0 (free.filter (· ≠ q)) w := ⟨h.1, fun q' hq' => h.2 q' (List.mem_filter.1 hq').1⟩
      obtain ⟨hq1, hq2⟩ := h.2 q (hf q List.mem_cons_self)
      unfold rEvent
      dsimp only
      cases hx : w.procs p with
      | none => exact ih w _ hsub hn2 hf'
      | some x =>
        dsimp only
        rw [hq2]
        refine ih _ (free.filter (· ≠ q)) ⟨fun t y hy => ?_, fun t ht => ⟨(hsub.2 t ht).1, ?_⟩⟩ hn2 hf'
        · have hy : w.put q (some { pid := pid, st := x.st }) t = some y := hy
          rw [procs_put] at hy
          by_cases e : t = q
          · rw [if_pos e] at hy
            cases hy
            obtain ⟨past, hp⟩ := h.1 p x hx
            refine ⟨past, ?_⟩
            show SInv past x.st (givenTo w t)
            rw [e, hq1]
            exact sinv_fresh hp
          · rw [if_neg e] at hy; exact h.1 t y hy
        · have e : t ≠ q := by simpa using (List.mem_filter.1 ht).2
          show w.put q _ t = none
          rw [procs_put, if_neg e]
          exact (hsub.2 t ht).2

theorem winv0_begin (pid : Nat) (evs : List REvent) (h0 : 0 ∉ forkNames evs) : WInv0 (forkNames evs) (rBegin pid) := by
  constructor
  · intro q y hy
    unfold rBegin at hy
    dsimp only at hy
    split at hy
    · cases hy
      exact ⟨[], fun _ => ⟨rfl, rfl, rfl, rfl, rfl⟩, fun e => (by cases e), fun c hc => (by simp at hc), ⟨by simp [usable], fun c hc => by simp [usable] at hc⟩,
        fun c hc => (by cases hc), fun k hk => (by cases hk), fun c hc => (by cases hc)⟩
    · cases hy
  · intro q hq
    refine ⟨rfl, ?_⟩
    unfold rBegin
    dsimp only
    rw [if_neg]
    intro e; subst e; exact h0 hq

/-- **C134.** From the memory of a process nobody can find out what it was given before. (Each process has a name of its own in the history.) -/
theorem C134_forgotten (fuzz : List Cell → Nat) (pid : Nat) (evs : List REvent) (hn : (0 :: forkNames evs).Nodup) (p : Nat) (x : RProc)
    (hx : (rHistory fuzz evs (rBegin pid)).procs p = some x) :
    ∀ c, (p, c) ∈ (rHistory fuzz evs (rBegin pid)).given → ¬ Known (memoryOf x.st) c := by
  obtain ⟨h0, hn'⟩ := List.nodup_cons.1 hn
  have hw := winv0_begin pid evs h0
  obtain ⟨free, h, _⟩ := winv0_history fuzz evs _ _ hw hn' (fun _ hq => hq)
  obtain ⟨past, hp⟩ := h p x hx
  intro c hc
  apply sinv_forgotten hp c
  unfold givenTo
  rw [List.mem_map]
  exact ⟨(p, c), by rw [List.mem_filter]; exact ⟨hc, by simp⟩, rfl⟩

/-! ## each request gets all that it asked for -/

theorem history_append (fuzz : List Cell → Nat) (es fs : List REvent) : ∀ w, rHistory fuzz (es ++ fs) w = rHistory fuzz fs (rHistory fuzz es w) := by
  induction es with
  | nil => intro w; rfl
  | cons e r ih => intro w; exact ih _

/-- **C134.** A process that asks for `len` bytes gets exactly `len` bytes, and one that asks for a number gets 4; nobody else gets something. -/
theorem C134_all (fuzz : List Cell → Nat) (pid : Nat) (evs : List REvent) (hn : (0 :: forkNames evs).Nodup) (p : Nat) (x : RProc)
    (hx : (rHistory fuzz evs (rBegin pid)).procs p = some x) (e : REvent) (he : e = .number p ∨ ∃ len, e = .bytes p len) :
    ∃ o : List Cell, o.length = asked p e ∧ (∀ c ∈ o, ∃ k i, c = .ks k i) ∧ (rHistory fuzz (evs ++ [e]) (rBegin pid)).given = (rHistory fuzz evs (rBegin pid)).given ++ o.map (p, ·) ∧
      ∃ y, (rHistory fuzz (evs ++ [e]) (rBegin pid)).procs p = some y ∧ y.pid = x.pid := by
  obtain ⟨h0, hn'⟩ := List.nodup_cons.1 hn
  obtain ⟨free, h, _⟩ := winv0_history fuzz evs _ _ (winv0_begin pid evs h0) hn' (fun _ hq => hq)
  obtain ⟨past, hp⟩ := h p x hx
  rw [history_append]
  generalize rHistory fuzz evs (rBegin pid) = w at hx hp
  rcases he with rfl | ⟨len, rfl⟩
  · obtain ⟨_, hi, hl⟩ := sinv_number fuzz x.pid w.ents hp
    refine ⟨(rsU32 fuzz x.pid w.ents x.st).1, by rw [hl]; simp [asked], fun c hc => ?_, ?_, ?_⟩
    · obtain ⟨⟨k, _, i, e⟩, _⟩ := hi.given c (List.mem_append_right _ hc)
      exact ⟨k, i, e⟩
    · simp only [rHistory, rEvent, hx, rStepOut]
    · refine ⟨⟨x.pid, (rsU32 fuzz x.pid w.ents x.st).2.1⟩, ?_, rfl⟩
      simp only [rHistory, rEvent, hx, rStepOut, procs_put, if_true]
  · obtain ⟨_, hi, hl⟩ := sinv_bytes fuzz x.pid len w.ents hp
    refine ⟨(rsBuf fuzz x.pid len w.ents x.st).1, by rw [hl]; simp [asked], fun c hc => ?_, ?_, ?_⟩
    · obtain ⟨⟨k, _, i, e⟩, _⟩ := hi.given c (List.mem_append_right _ hc)
      exact ⟨k, i, e⟩
    · simp only [rHistory, rEvent, hx, rStepOut]
    · refine ⟨⟨x.pid, (rsBuf fuzz x.pid len w.ents x.st).2.1⟩, ?_, rfl⟩
      simp only [rHistory, rEvent, hx, rStepOut, procs_put, if_true]

/-! ## the system is asked again -/

theorem take_keeps (m : Nat) (s : RState0) : (rsTake m s).2.count = s.count ∧ (rsTake m s).2.pid = s.pid ∧ (rsTake m s).2.ready = s.ready := ⟨rfl, rfl, rfl⟩

theorem rekey_keeps (s : RState0) : (rsRekey none s).count = s.count ∧ (rsRekey none s).pid = s.pid ∧ (rsRekey none s).ready = s.ready := by
  unfold rsRekey afterStream
  generalize keystream s rsBufSize = b
  exact ⟨rfl, rfl, rfl⟩

theorem loop_keeps (f : Nat) : ∀ (n : Nat) (s : RState0),
    (rsLoop f n s).2.count = s.count ∧ (rsLoop f n s).2.pid = s.pid ∧ (rsLoop f n s).2.ready = s.ready := by
  induction f with
  | zero => intro n s; exact ⟨rfl, rfl, rfl⟩
  | succ f ih =>
    intro n s
    cases n with
    | zero => exact ⟨rfl, rfl, rfl⟩
    | succ n =>
      rw [rsLoop]
      dsimp only
      obtain ⟨t1, t2, t3⟩ := take_keeps (min (n + 1) s.have_) s
      generalize rsTake (min (n + 1) s.have_) s = T at t1 t2 t3
      have hS : (if T.2.have_ = 0 then rsRekey none T.2 else T.2).count = s.count ∧ (if T.2.have_ = 0 then rsRekey none T.2 else T.2).pid = s.pid ∧
          (if T.2.have_ = 0 then rsRekey none T.2 else T.2).ready = s.ready := by
        split
        · obtain ⟨r1, r2, r3⟩ := rekey_keeps T.2
          exact ⟨r1.trans t1, r2.trans t2, r3.trans t3⟩
        · exact ⟨t1, t2, t3⟩
      generalize (if T.2.have_ = 0 then rsRekey none T.2 else T.2) = S at hS
      obtain ⟨i1, i2, i3⟩ := ih (n + 1 - min (n + 1) s.have_) S
      exact ⟨i1.trans hS.1, i2.trans hS.2.1, i3.trans hS.2.2⟩

theorem stir_count (fuzz : List Cell → Nat) (n : Nat) (s : RState0) :
    rekeyBase ≤ (rsStir fuzz n s).count ∧ (rsStir fuzz n s).count < 2 * rekeyBase := by
  have e : ∃ k, (rsStir fuzz n s).count = rekeyBase + k % rekeyBase := by
    unfold rsStir
    exact ⟨_, rfl⟩
  obtain ⟨k, hk⟩ := e
  rw [hk]
  have : k % rekeyBase < rekeyBase := Nat.mod_lt _ (by decide)
  omega

/-- a request that the system is not asked for: the count goes down by the length -/
theorem stirIfNeeded_count (fuzz : List Cell → Nat) (pid len n : Nat) (s : RState0) (hs : s.count < 2 * rekeyBase) :
    (rsStirIfNeeded fuzz pid len n s).1.count < 2 * rekeyBase ∧ n ≤ (rsStirIfNeeded fuzz pid len n s).2 ∧
    ((rsStirIfNeeded fuzz pid len n s).2 = n → (rsStirIfNeeded fuzz pid len n s).1.count + len = s.count ∧ len < s.count) := by
  unfold rsStirIfNeeded
  dsimp only
  have hf : (rsForkdetect pid s).count = s.count ∨ (rsForkdetect pid s).count = 0 := by
    unfold rsForkdetect
    split
    · exact .inr rfl
    · exact .inl rfl
  generalize rsForkdetect pid s = S at hf
  by_cases hc : S.ready = false ∨ S.count ≤ len
  · rw [if_pos hc]
    dsimp only
    have := (stir_count fuzz n S).2
    refine ⟨?_, by omega, fun e => absurd e (by omega)⟩
    split <;> omega
  · rw [if_neg hc]
    dsimp only
    have h2 : ¬ S.count ≤ len := fun e => hc (.inr e)
    rw [if_neg h2]
    refine ⟨by omega, by omega, fun _ => ?_⟩
    rcases hf with hf | hf <;> omega

theorem u32_count (fuzz : List Cell → Nat) (pid n : Nat) (s : RState0) :
    (rsU32 fuzz pid n s).2.1.count = (rsStirIfNeeded fuzz pid 4 n s).1.count ∧ (rsU32 fuzz pid n s).2.2 = (rsStirIfNeeded fuzz pid 4 n s).2 := by
  unfold rsU32
  dsimp only
  refine ⟨?_, rfl⟩
  rw [(take_keeps _ _).1]
  split
  · exact (rekey_keeps _).1
  · rfl

def Counted (w : RWorld) : Prop := ∀ p x, w.procs p = some x → x.st.count < 2 * rekeyBase

theorem counted_event (fuzz : List Cell → Nat) (w : RWorld) (e : REvent) (h : Counted w) : Counted (rEvent fuzz w e) ∧ w.ents ≤ (rEvent fuzz w e).ents := by
  have hout : ∀ p (x : RProc) (r : List Cell × RState0 × Nat), r.2.1.count < 2 * rekeyBase → Counted (rStepOut w p x.pid r) := by
    intro p x r hr q y hy
    have hy : w.put p (some { pid := x.pid, st := r.2.1 }) q = some y := hy
    rw [procs_put] at hy
    by_cases e : q = p
    · rw [if_pos e] at hy; cases hy; exact hr
    · rw [if_neg e] at hy; exact h q y hy
  cases e with
  | bytes p len =>
    unfold rEvent
    dsimp only
    cases hx : w.procs p with
    | none => exact ⟨h, Nat.le_refl _⟩
    | some x =>
      obtain ⟨h1, h2, _⟩ := stirIfNeeded_count fuzz x.pid len w.ents x.st (h p x hx)
      refine ⟨hout p x _ ?_, h2⟩
      unfold rsBuf
      dsimp only
      rw [(loop_keeps _ _ _).1]; exact h1
  | number p =>
    unfold rEvent
    dsimp only
    cases hx : w.procs p with
    | none => exact ⟨h, Nat.le_refl _⟩
    | some x =>
      obtain ⟨h1, h2, _⟩ := stirIfNeeded_count fuzz x.pid 4 w.ents x.st (h p x hx)
      obtain ⟨u1, u2⟩ := u32_count fuzz x.pid w.ents x.st
      refine ⟨hout p x _ ?_, ?_⟩
      · rw [u1]; exact h1
      · show w.ents ≤ (rsU32 fuzz x.pid w.ents x.st).2.2
        rw [u2]; exact h2
  | fork p q pid =>
    unfold rEvent
    dsimp only
    cases hx : w.procs p with
    | none => exact ⟨h, Nat.le_refl _⟩
    | some x =>
      dsimp only
      cases hq : w.procs q with
      | some y => exact ⟨h, Nat.le_refl _⟩
      | none =>
        refine ⟨fun t y hy => ?_, Nat.le_refl _⟩
        have hy : w.put q (some { pid := pid, st := x.st }) t = some y := hy
        rw [procs_put] at hy
        by_cases e : t = q
        · rw [if_pos e] at hy; cases hy; exact h p x hx
        · rw [if_neg e] at hy; exact h t y hy
  | exit p =>
    refine ⟨fun t y hy => ?_, Nat.le_refl _⟩
    have hy : w.put p none t = some y := hy
    rw [procs_put] at hy
    by_cases e : t = p
    · rw [if_pos e] at hy; cases hy
    · rw [if_neg e] at hy; exact h t y hy

theorem counted_history (fuzz : List Cell → Nat) (evs : List REvent) : ∀ w, Counted w → Counted (rHistory fuzz evs w) ∧ w.ents ≤ (rHistory fuzz evs w).ents := by
  induction evs with
  | nil => intro w h; exact ⟨h, Nat.le_refl _⟩
  | cons e r ih =>
    intro w h
    obtain ⟨h1, h2⟩ := counted_event fuzz w e h
    obtain ⟨h3, h4⟩ := ih _ h1
    exact ⟨h3, Nat.le_trans h2 h4⟩

/-- as long as the system is not asked, the count of a process that exists goes down by what it asks for -/
theorem count_down (fuzz : List Cell → Nat) (p : Nat) (reqs : List REvent) : ∀ (w : RWorld), Counted w → (rHistory fuzz reqs w).ents = w.ents →
    (∀ e ∈ reqs, e ≠ .exit p) → ∀ x, w.procs p = some x → (reqs.map (asked p)).sum ≤ x.st.count := by
  induction reqs with
  | nil => intro w _ _ _ x _; exact Nat.zero_le _
  | cons e r ih =>
    intro w hc he hx' x hx
    obtain ⟨h1, h2⟩ := counted_event fuzz w e hc
    rw [rHistory] at he
    have h3 := (counted_history fuzz r _ h1).2
    have e1 : (rEvent fuzz w e).ents = w.ents := by omega
    have ih' := ih _ h1 (by rw [he, e1]) (fun f hf => hx' f (List.mem_cons_of_mem _ hf))
    rw [List.map_cons, List.sum_cons]
    have same : ∀ y, (rEvent fuzz w e).procs p = some y → asked p e + y.st.count ≤ x.st.count → asked p e + (r.map (asked p)).sum ≤ x.st.count := by
      intro y hy hle
      have := ih' y hy
      omega
    have other : ∀ q, q ≠ p → ∀ (z : Option RProc), w.put q z p = some x := by
      intro q hq z
      rw [procs_put, if_neg (Ne.symm hq)]; exact hx
    cases e with
    | bytes q len =>
      by_cases hq : q = p
      · subst hq
        have ev : rEvent fuzz w (.bytes q len) = rStepOut w q x.pid (rsBuf fuzz x.pid len w.ents x.st) := by simp only [rEvent, hx]
        obtain ⟨_, _, s3⟩ := stirIfNeeded_count fuzz x.pid len w.ents x.st (hc q x hx)
        rw [ev] at e1
        obtain ⟨s4, _⟩ := s3 e1
        refine same ⟨x.pid, (rsBuf fuzz x.pid len w.ents x.st).2.1⟩ ?_ ?_
        · rw [ev]; simp only [rStepOut, procs_put, if_true]
        · show asked q (.bytes q len) + (rsBuf fuzz x.pid len w.ents x.st).2.1.count ≤ _
          have : (rsBuf fuzz x.pid len w.ents x.st).2.1.count = (rsStirIfNeeded fuzz x.pid len w.ents x.st).1.count := (loop_keeps _ _ _).1
          rw [this]
          have : asked q (.bytes q len) = len := by simp [asked]
          omega
      · refine same x ?_ (by simp [asked, hq])
        unfold rEvent
        dsimp only
        cases hy : w.procs q with
        | none => exact hx
        | some y => exact other q hq _
    | number q =>
      by_cases hq : q = p
      · subst hq
        have ev : rEvent fuzz w (.number q) = rStepOut w q x.pid (rsU32 fuzz x.pid w.ents x.st) := by simp only [rEvent, hx]
        obtain ⟨_, _, s3⟩ := stirIfNeeded_count fuzz x.pid 4 w.ents x.st (hc q x hx)
        obtain ⟨u1, u2⟩ := u32_count fuzz x.pid w.ents x.st
        rw [ev] at e1
        obtain ⟨s4, _⟩ := s3 (u2.symm.trans e1)
        refine same ⟨x.pid, (rsU32 fuzz x.pid w.ents x.st).2.1⟩ ?_ ?_
        · rw [ev]; simp only [rStepOut, procs_put, if_true]
        · show asked q (.number q) + (rsU32 fuzz x.pid w.ents x.st).2.1.count ≤ _
          rw [u1]
          have : asked q (.number q) = 4 := by simp [asked]
          omega
      · refine same x ?_ (by simp [asked, hq])
        unfold rEvent
        dsimp only
        cases hy : w.procs q with
        | none => exact hx
        | some y => exact other q hq _
    | fork q t pid =>
      refine same x ?_ (by simp [asked])
      unfold rEvent
      dsimp only
      cases hy : w.procs q with
      | none => exact hx
      | some y =>
        dsimp only
        cases ht : w.procs t with
        | some z => exact hx
        | none =>
          refine other t ?_ _
          intro e; subst e; rw [hx] at ht; cases ht
    | exit q =>
      refine same x ?_ (by simp [asked])
      refine other q ?_ none
      intro e; subst e; exact hx' _ List.mem_cons_self rfl

/-- **C134.** A process does not get two megabytes without the system being asked for entropy in between: if it asks for that much, all its
requests after some moment together, and does not exit, then getentropy is called. -/
theorem C134_reseeded (fuzz : List Cell → Nat) (pid : Nat) (evs reqs : List REvent) (p : Nat) (x : RProc)
    (hx : (rHistory fuzz evs (rBegin pid)).procs p = some x) (hne : REvent.exit p ∉ reqs) (hlen : 2 * 1024 * 1024 ≤ (reqs.map (asked p)).sum) :
    (rHistory fuzz evs (rBegin pid)).ents < (rHistory fuzz (evs ++ reqs) (rBegin pid)).ents := by
  have hb : Counted (rBegin pid) := by
    intro q y hy
    unfold rBegin at hy
    dsimp only at hy
    split at hy
    · cases hy; show 0 < 2 * rekeyBase; decide
    · cases hy
  obtain ⟨h1, _⟩ := counted_history fuzz evs _ hb
  rw [history_append]
  generalize rHistory fuzz evs (rBegin pid) = w at hx h1
  have h2 := (counted_history fuzz reqs w h1).2
  rcases Nat.lt_or_ge w.ents (rHistory fuzz reqs w).ents with h | h
  · exact h
  · have := count_down fuzz p reqs w h1 (by omega) (fun e he e' => hne (e' ▸ he)) x hx
    have := h1 p x hx
    have : 2 * rekeyBase = 2 * 1024 * 1024 := by decide
    omega

/-! ## a pid that is used again -/

theorem stirIfNeeded_no (fuzz : List Cell → Nat) (pid len n : Nat) (s : RState0) (hp : s.pid = pid) (h2 : 2 ≤ pid) (hr : s.ready = true) (hc : len < s.count) :
    rsStirIfNeeded fuzz pid len n s = ({ s with count := s.count - len }, n) := by
  have e : rsForkdetect pid s = s := by
    unfold rsForkdetect
    rw [if_neg]
    omega
  unfold rsStirIfNeeded
  dsimp only
  rw [e, if_neg (by rw [hr]; simp; omega)]
  dsimp only
  rw [if_neg (by omega)]

theorem buf_no (fuzz : List Cell → Nat) (pid len n m : Nat) (s : RState0) (hp : s.pid = pid) (h2 : 2 ≤ pid) (hr : s.ready = true) (hc : len < s.count) :
    (rsBuf fuzz pid len n s).1 = (rsBuf fuzz pid len m s).1 := by
  unfold rsBuf
  dsimp only
  rw [stirIfNeeded_no fuzz pid len n s hp h2 hr hc, stirIfNeeded_no fuzz pid len m s hp h2 hr hc]

theorem stirIfNeeded_first (fuzz : List Cell → Nat) (pid n : Nat) (s : RState0) (h0 : s.pid = 0) :
    (rsStirIfNeeded fuzz pid 4 n s).1.pid = pid ∧ (rsStirIfNeeded fuzz pid 4 n s).1.ready = true ∧ 4 < (rsStirIfNeeded fuzz pid 4 n s).1.count := by
  have e : rsForkdetect pid s = { s with pid := pid, have_ := 0, count := 0 } := by unfold rsForkdetect; rw [if_pos (.inl h0)]
  unfold rsStirIfNeeded
  dsimp only
  rw [e, if_pos (.inr (Nat.zero_le _))]
  dsimp only
  obtain ⟨_, _, f3, f4, _⟩ := stir_facts fuzz n { s with pid := pid, have_ := 0, count := 0 }
  have := (stir_count fuzz n { s with pid := pid, have_ := 0, count := 0 }).1
  have hb : rekeyBase = 1048576 := rfl
  refine ⟨f4, f3, ?_⟩
  rw [if_neg (by omega)]
  omega

/-- the history: the process 0, with pid 5, forks 1, with pid 6, and exits; 1, which asks for nothing, forks 2, which gets the pid 5 -/
def reuseHistory : List REvent := [.bytes 0 4, .fork 0 1 6, .bytes 0 4, .exit 0, .fork 1 2 5, .bytes 2 4]

/-- **C134 is false of the code if a pid is used again**: the process 2 gets the bytes that the process 0 got before; `_ARC4_ATFORK` does nothing
(arc4random.h:33), and the pids are all that is compared (arc4random.h:57). -/
theorem C134_repeats (fuzz : List Cell → Nat) :
    ∃ a b, a ≠ [] ∧ b ≠ [] ∧ givenTo (rHistory fuzz reuseHistory (rBegin 5)) 0 = a ++ b ∧ givenTo (rHistory fuzz reuseHistory (rBegin 5)) 2 = b := by
  obtain ⟨f1, f2, f3⟩ := stirIfNeeded_first fuzz 5 0 {} rfl
  obtain ⟨l1, l2, l3⟩ := loop_keeps 5 4 (rsStirIfNeeded fuzz 5 4 0 {}).1
  have S0 : SInv [] ({} : RState0) [] := by
    have := (winv0_begin 5 [] (by simp [forkNames])).1 0 _ rfl
    refine ⟨fun _ => ⟨rfl, rfl, rfl, rfl, rfl⟩, fun e => (by cases e), fun c hc => (by simp at hc), ⟨by simp [usable], fun c hc => by simp [usable] at hc⟩,
          fun c hc => (by cases hc), fun k hk => (by cases hk), fun c hc => (by cases hc)⟩
  obtain ⟨p1, k1, n1⟩ := sinv_bytes fuzz 5 4 0 S0
  -- what the first request leaves
  have hr : rsBuf fuzz 5 4 0 {} = ((rsBuf fuzz 5 4 0 {}).1, (rsBuf fuzz 5 4 0 {}).2.1, (rsBuf fuzz 5 4 0 {}).2.2) := rfl
  have q1 : (rsBuf fuzz 5 4 0 {}).2.1.pid = 5 := l2.trans f1
  have q2 : (rsBuf fuzz 5 4 0 {}).2.1.ready = true := l3.trans f2
  have q3 : 4 < (rsBuf fuzz 5 4 0 {}).2.1.count := by
    have : (rsBuf fuzz 5 4 0 {}).2.1.count = _ := l1
    rw [this]; exact f3
  generalize (rsBuf fuzz 5 4 0 {}).1 = a at hr k1 n1
  generalize (rsBuf fuzz 5 4 0 {}).2.1 = s at hr k1 q1 q2 q3
  generalize (rsBuf fuzz 5 4 0 {}).2.2 = n at hr
  obtain ⟨p2, k2, n2⟩ := sinv_bytes fuzz 5 4 n k1
  have hb := buf_no fuzz 5 4 (rsBuf fuzz 5 4 n s).2.2 n s q1 (by decide) q2 q3
  have fT : ∀ l : List Cell, l.filter (fun _ => true) = l := fun l => List.filter_eq_self.2 (fun _ _ => rfl)
  have fF : ∀ l : List Cell, l.filter (fun _ => false) = [] := fun l => List.filter_eq_nil_iff.2 (fun _ _ => by simp)
  refine ⟨a, (rsBuf fuzz 5 4 n s).1, ?_, ?_, ?_, ?_⟩
  · intro e; rw [e] at n1; cases n1
  · intro e; rw [e] at n2; cases n2
  · simp [reuseHistory, rHistory, rEvent, rBegin, rStepOut, RWorld.put, givenTo, hr, List.filter_append, List.filter_map, Function.comp_def, fT, fF]
  · simp [reuseHistory, rHistory, rEvent, rBegin, rStepOut, RWorld.put, givenTo, hr, List.filter_append, List.filter_map, Function.comp_def, hb, fT, fF]

/-! ## the hypotheses can be met -/

/-- 0 asks, and forks 1; both ask, and 1 forks 2, which asks, and 0 exits -/
def exRandom : List REvent := [.bytes 0 4, .fork 0 1 6, .number 1, .bytes 0 2000, .fork 1 2 7, .bytes 2 1, .exit 0]

example : 0 ∉ 5 :: forkPids exRandom ∧ (5 :: forkPids exRandom).Nodup ∧ (0 :: forkNames exRandom).Nodup := by decide

/-- the processes 1 and 2 are there, and 0 is not -/
example (fuzz : List Cell → Nat) : ((rHistory fuzz exRandom (rBegin 5)).procs 1).isSome ∧ ((rHistory fuzz exRandom (rBegin 5)).procs 2).isSome ∧
    (rHistory fuzz exRandom (rBegin 5)).procs 0 = none := by
  simp [exRandom, rHistory, rEvent, rBegin, rStepOut, RWorld.put]

/-- something is given out: 4 bytes to the first that asks -/
example (fuzz : List Cell → Nat) : ∃ o : List Cell, o.length = 4 ∧ (rHistory fuzz [.bytes 0 4] (rBegin 5)).given = o.map (0, ·) := by
  obtain ⟨o, h1, _, h2, _⟩ := C134_all fuzz 5 [] (by decide) 0 ⟨5, {}⟩ (by simp [rHistory, rBegin]) (.bytes 0 4) (.inr ⟨4, rfl⟩)
  exact ⟨o, h1, by simpa [rHistory, rBegin] using h2⟩

/-- what is still in the memory is known, and what follows from the key as well: `Known` is not empty -/
example (s : RState0) (hk : s.key.length = 40) (i : Nat) : Known (memoryOf s) (.ks s.key i) :=
  .ks _ _ hk (fun c hc => .mem c (List.mem_append_right _ hc))

/-- requests that are long enough for C134_reseeded -/
example : REvent.exit 0 ∉ [REvent.bytes 0 1048576, .number 0, .bytes 0 1048576] ∧
    2 * 1024 * 1024 ≤ ([REvent.bytes 0 1048576, .number 0, .bytes 0 1048576].map (asked 0)).sum := by decide

/-- and the history of C134_repeats uses a pid again, but never for two processes at once: 0 is gone when 2 gets its pid -/
example : ¬ (5 :: forkPids reuseHistory).Nodup ∧ (0 :: forkNames reuseHistory).Nodup := by decide

end Gmid.Props
