import Verif.Spec.Queue

/-!
# C143: lists in memory
-/

set_option autoImplicit false

namespace Gmid.Props

open Spec

theorem leads_frame {m m' : QMem} : ∀ (l : List Nat) (a : Nat), (∀ x ∈ a :: l, m' x = m x) → Leads m a l → Leads m' a l := by
  intro l
  induction l with
  | nil =>
    intro a h
    rintro ⟨p, e⟩
    exact ⟨p, by rw [h a (by simp), e]⟩
  | cons b l ih =>
    intro a h
    rintro ⟨⟨p, e⟩, ⟨n, f⟩, g⟩
    exact ⟨⟨p, by rw [h a (by simp), e]⟩, ⟨n, by rw [h b (by simp), f]⟩, ih b (fun x hx => h x (by simp only [List.mem_cons] at hx ⊢; exact .inr hx)) g⟩

theorem queue_frame {m m' : QMem} {h : Nat} {l : List Nat} (hf : ∀ x ∈ h :: l, m' x = m x) (q : IsQueue m h l) : IsQueue m' h l := by
  obtain ⟨f, e⟩ := q.last
  exact ⟨q.apart, q.notNull, leads_frame l h hf q.leads, ⟨f, by rw [hf h (by simp), e]⟩⟩

theorem leads_first {m : QMem} {a : Nat} {l : List Nat} (h : Leads m a l) : ∃ p, m a = some ⟨l.head?.getD 0, p⟩ := by
  cases l with
  | nil => exact h
  | cons b l => exact h.1

theorem leads_alloc {m : QMem} : ∀ (l : List Nat) (a : Nat), Leads m a l → ∀ x ∈ a :: l, ∃ c, m x = some c := by
  intro l
  induction l with
  | nil =>
    rintro a ⟨p, e⟩ x hx
    simp only [List.mem_singleton] at hx
    subst hx
    exact ⟨_, e⟩
  | cons b l ih =>
    rintro a ⟨⟨p, e⟩, -, g⟩ x hx
    rcases List.mem_cons.mp hx with rfl | hx
    · exact ⟨_, e⟩
    · exact ih b g x hx

theorem endOf_cons (h b : Nat) (l : List Nat) : endOf h (b :: l) = endOf b l := by
  unfold endOf
  cases l with
  | nil => rfl
  | cons c l => simp [List.getLast?_cons_cons, List.getLast?_cons]

theorem endOf_snoc (h b : Nat) (l : List Nat) : endOf h (l ++ [b]) = b := by
  unfold endOf
  simp

theorem endOf_mem (h : Nat) (l : List Nat) : endOf h l ∈ h :: l := by
  induction l generalizing h with
  | nil => simp [endOf]
  | cons b l ih => rw [endOf_cons]; exact List.mem_cons_of_mem _ (ih b)

/-- the cells in the middle: what is before `x :: q`, and the rest -/
theorem leads_append {m : QMem} (q : List Nat) : ∀ (p : List Nat) (a : Nat), Leads m a (p ++ q) → Leads m (endOf a p) q := by
  intro p
  induction p with
  | nil => intro a h; exact h
  | cons b p ih =>
    rintro a ⟨-, -, g⟩
    rw [endOf_cons]
    exact ih b g

/-- a list is what it was up to some element, and goes on otherwise -/
theorem leads_change {m m' : QMem} (q q' : List Nat) : ∀ (p : List Nat) (a : Nat), Leads m a (p ++ q) → (a :: p).Nodup →
    (∀ x ∈ p, (∃ c d, m x = some c ∧ m' x = some d ∧ d.snd = c.snd)) → (∀ x ∈ a :: p, x ≠ endOf a p → ∃ c d, m x = some c ∧ m' x = some d ∧ d.fst = c.fst) →
    Leads m' (endOf a p) q' → Leads m' a (p ++ q') := by
  intro p
  induction p with
  | nil => intro a _ _ _ _ h; exact h
  | cons b p ih =>
    rintro a ⟨⟨x, ea⟩, ⟨y, eb⟩, g⟩ hn hb hf ht
    rw [endOf_cons] at ht hf
    have hab : a ≠ endOf b p := fun e => (List.nodup_cons.mp hn).1 (e ▸ endOf_mem b p)
    refine ⟨?_, ?_, ih b g (List.nodup_cons.mp hn).2 (fun z hz => hb z (List.mem_cons_of_mem _ hz)) (fun z hz => hf z (List.mem_cons_of_mem _ hz)) ht⟩
    · obtain ⟨c, d, h1, h2, h3⟩ := hf a (by simp) hab
      rw [ea] at h1
      cases h1
      exact ⟨d.snd, by rw [h2]; cases d; simp only at h3; rw [h3]⟩
    · obtain ⟨c, d, h1, h2, h3⟩ := hb b (by simp)
      rw [eb] at h1
      cases h1
      exact ⟨d.fst, by rw [h2]; cases d; simp only at h3; rw [h3]⟩

theorem setFst_some {m : QMem} {a v : Nat} {c : QCell} (h : m a = some c) : m.setFst a v = some (m.upd a (some { c with fst := v })) := by
  unfold QMem.setFst
  rw [h]

theorem setSnd_some {m : QMem} {a v : Nat} {c : QCell} (h : m a = some c) : m.setSnd a v = some (m.upd a (some { c with snd := v })) := by
  unfold QMem.setSnd
  rw [h]

theorem upd_same (m : QMem) (a : Nat) (c : Option QCell) : m.upd a c a = c := by simp [QMem.upd]

theorem upd_other (m : QMem) {a x : Nat} (c : Option QCell) (h : x ≠ a) : m.upd a c x = m x := by simp [QMem.upd, h]

/-- C143: TAILQ_INIT makes an empty list of any two words. -/
theorem C143_init (m : QMem) (h : Nat) (c : QCell) (hm : m h = some c) (h0 : h ≠ 0) :
    ∃ m', tailqInit m h = some m' ∧ IsQueue m' h [] ∧ Within [h] m m' := by
  refine ⟨m.upd h (some ⟨0, h⟩), ?_, ⟨by simp, by simpa using fun e => h0 e.symm, ⟨h, upd_same _ _ _⟩, ⟨0, upd_same _ _ _⟩⟩, fun x hx => upd_other _ _ (by simpa using hx)⟩
  unfold tailqInit
  rw [setFst_some hm]
  simp only
  rw [setSnd_some (upd_same _ _ _)]
  simp only [Option.some.injEq]
  funext x
  simp only [QMem.upd]
  split <;> rfl

/-- C143: TAILQ_INSERT_TAIL puts an element at the end. -/
theorem C143_insert_tail (m : QMem) (h e : Nat) (l : List Nat) (c : QCell) (q : IsQueue m h l) (he : m e = some c) (h0 : e ≠ 0) (hn : e ∉ h :: l) :
    ∃ m', tailqInsertTail m h e = some m' ∧ IsQueue m' h (l ++ [e]) ∧ Within (h :: e :: l) m m' := by
  obtain ⟨f, hh⟩ := q.last
  have heh : h ≠ e := fun x => hn (by simp [x])
  obtain ⟨z, hz⟩ := leads_alloc l h q.leads _ (endOf_mem h l)
  have hze : endOf h l ≠ e := fun x => hn (x ▸ endOf_mem h l)
  have hz' : ∃ p, m (endOf h l) = some ⟨0, p⟩ := by
    have := leads_append [] l h (by simpa using q.leads)
    exact this
  obtain ⟨p, hp⟩ := hz'
  -- the memory after the stores
  by_cases hl : l = []
  · subst hl
    have e1 : endOf h [] = h := rfl
    rw [e1] at hh hp
    have hfp : f = 0 ∧ p = h := by rw [hh] at hp; simpa [eq_comm] using hp
    obtain ⟨rfl, rfl⟩ := hfp
    refine ⟨(m.upd e (some ⟨0, p⟩)).upd p (some ⟨e, e⟩), ?_, ?_, ?_⟩
    · unfold tailqInsertTail
      rw [setFst_some he]
      simp only [Option.bind_eq_bind, Option.bind_some]
      rw [upd_other _ _ heh, hh]
      simp only [Option.bind_some]
      rw [setSnd_some (upd_same _ _ _)]
      simp only [Option.bind_some]
      rw [setFst_some (c := ⟨0, p⟩) (by rw [upd_other _ _ heh, upd_other _ _ heh, hh])]
      simp only [Option.bind_some]
      rw [setSnd_some (upd_same _ _ _)]
      simp only [Option.some.injEq]
      funext x
      simp only [QMem.upd]
      split
      · rfl
      · split <;> rfl
    · refine ⟨by simp [heh], by simp [h0.symm, q.notNull]; exact fun e => q.notNull (by simp [← e]), ⟨⟨e, upd_same _ _ _⟩, ⟨0, ?_⟩, ⟨p, ?_⟩⟩, ⟨e, ?_⟩⟩
      · rw [upd_other _ _ heh.symm, upd_same]
      · rw [upd_other _ _ heh.symm, upd_same]
      · rw [upd_same]; rfl
    · intro x hx
      simp only [List.mem_cons, List.not_mem_nil, or_false, not_or] at hx
      rw [upd_other _ _ hx.1, upd_other _ _ hx.2]
  · have hhz : h ≠ endOf h l := by
      cases l with
      | nil => exact absurd rfl hl
      | cons b l =>
        rw [endOf_cons]
        exact fun x => (List.nodup_cons.mp q.apart).1 (x ▸ endOf_mem b l)
    refine ⟨((m.upd e (some ⟨0, endOf h l⟩)).upd (endOf h l) (some ⟨e, p⟩)).upd h (some ⟨f, e⟩), ?_, ?_, ?_⟩
    · unfold tailqInsertTail
      rw [setFst_some he]
      simp only [Option.bind_eq_bind, Option.bind_some]
      rw [upd_other _ _ heh, hh]
      simp only [Option.bind_some]
      rw [setSnd_some (upd_same _ _ _)]
      simp only [Option.bind_some]
      rw [setFst_some (c := ⟨0, p⟩) (by rw [upd_other _ _ hze, upd_other _ _ hze, hp])]
      simp only [Option.bind_some]
      rw [setSnd_some (c := ⟨f, endOf h l⟩) (by rw [upd_other _ _ hhz, upd_other _ _ heh, upd_other _ _ heh, hh])]
      simp only [Option.some.injEq]
      funext x
      simp only [QMem.upd]
      split
      · rfl
      · split
        · rfl
        · split <;> rfl
    · have hcell : ∀ x ∈ l, x ≠ endOf h l → ((((m.upd e (some ⟨0, endOf h l⟩)).upd (endOf h l) (some ⟨e, p⟩)).upd h (some ⟨f, e⟩))) x = m x := by
        intro x hx hxz
        have hxh : x ≠ h := fun y => (List.nodup_cons.mp q.apart).1 (y ▸ hx)
        rw [upd_other _ _ hxh, upd_other _ _ hxz, upd_other _ _ (fun y => hn (by simp [← y, hx]))]
      refine ⟨?_, ?_, ?_, ⟨f, ?_⟩⟩
      · rw [← List.cons_append]
        refine List.nodup_append.mpr ⟨q.apart, by simp, ?_⟩
        intro a ha b hb
        simp only [List.mem_singleton] at hb
        subst hb
        exact fun x => hn (x ▸ ha)
      · have := q.notNull
        simp only [List.mem_cons, List.mem_append, not_or, List.not_mem_nil, or_false] at this ⊢
        exact ⟨this.1, this.2, fun x => h0 x.symm⟩
      · refine leads_change [] [e] l h (by simpa using q.leads) q.apart ?_ ?_ ?_
        · intro x hx
          by_cases hxz : x = endOf h l
          · subst hxz
            exact ⟨_, ⟨e, p⟩, hp, by rw [upd_other _ _ hhz.symm, upd_same], rfl⟩
          · obtain ⟨c', hc'⟩ := leads_alloc l h q.leads x (List.mem_cons_of_mem _ hx)
            exact ⟨c', c', hc', by rw [hcell x hx hxz, hc'], rfl⟩
        · intro x hx hxz
          rcases List.mem_cons.mp hx with rfl | hx
          · exact ⟨_, ⟨f, e⟩, hh, upd_same _ _ _, rfl⟩
          · obtain ⟨c', hc'⟩ := leads_alloc l h q.leads x (List.mem_cons_of_mem _ hx)
            exact ⟨c', c', hc', by rw [hcell x hx hxz, hc'], rfl⟩
        · refine ⟨⟨p, ?_⟩, ⟨0, ?_⟩, ⟨endOf h l, ?_⟩⟩
          · rw [upd_other _ _ hhz.symm, upd_same]
          · rw [upd_other _ _ heh.symm, upd_other _ _ hze.symm, upd_same]
          · rw [upd_other _ _ heh.symm, upd_other _ _ hze.symm, upd_same]
      · rw [upd_same, endOf_snoc]
    · intro x hx
      simp only [List.mem_cons, not_or] at hx
      have : x ≠ endOf h l := fun y => by
        have := endOf_mem h l
        rw [← y] at this
        rcases List.mem_cons.mp this with r | r
        · exact hx.1 r
        · exact hx.2.2 r
      rw [upd_other _ _ hx.1, upd_other _ _ this, upd_other _ _ hx.2.1]

/-- C143: TAILQ_INSERT_HEAD puts an element at the beginning. -/
theorem C143_insert_head (m : QMem) (h e : Nat) (l : List Nat) (c : QCell) (q : IsQueue m h l) (he : m e = some c) (h0 : e ≠ 0) (hn : e ∉ h :: l) :
    ∃ m', tailqInsertHead m h e = some m' ∧ IsQueue m' h (e :: l) ∧ Within (h :: e :: l) m m' := by
  obtain ⟨f, hh⟩ := q.last
  have heh : h ≠ e := fun x => hn (by simp [x])
  have hap : (h :: e :: l).Nodup := by
    have := q.apart
    simp only [List.nodup_cons, List.mem_cons, not_or] at this hn ⊢
    exact ⟨⟨heh, this.1⟩, hn.2, this.2⟩
  have h00 : 0 ∉ h :: e :: l := by
    have := q.notNull
    simp only [List.mem_cons, not_or] at this ⊢
    exact ⟨this.1, fun x => h0 x.symm, this.2⟩
  cases l with
  | nil =>
    have hf : f = 0 := by
      obtain ⟨p, e'⟩ := q.leads
      rw [hh] at e'
      simp at e'
      exact e'.1
    subst hf
    refine ⟨(m.upd e (some ⟨0, h⟩)).upd h (some ⟨e, e⟩), ?_, ⟨hap, h00, ⟨⟨e, upd_same _ _ _⟩, ⟨0, ?_⟩, ⟨h, ?_⟩⟩, ⟨e, upd_same _ _ _⟩⟩, ?_⟩
    · unfold tailqInsertHead
      rw [hh]
      simp only [Option.bind_eq_bind, Option.bind_some]
      rw [setFst_some he]
      simp only [Option.bind_some]
      rw [if_neg (by simp), setSnd_some (c := ⟨0, endOf h []⟩) (by rw [upd_other _ _ heh, hh])]
      simp only [Option.bind_some]
      rw [setFst_some (upd_same _ _ _)]
      simp only [Option.bind_some]
      rw [setSnd_some (c := ⟨0, c.snd⟩) (by rw [upd_other _ _ heh.symm, upd_other _ _ heh.symm, upd_same])]
      simp only [Option.some.injEq]
      funext x
      by_cases x1 : x = h
      · subst x1; rw [upd_other _ _ heh, upd_same, upd_same]
      · by_cases x2 : x = e
        · subst x2; rw [upd_same, upd_other _ _ x1, upd_same]
        · simp only [QMem.upd, x1, x2, if_false]
    · rw [upd_other _ _ heh.symm, upd_same]
    · rw [upd_other _ _ heh.symm, upd_same]
    · intro x hx
      simp only [List.mem_cons, List.not_mem_nil, or_false, not_or] at hx
      rw [upd_other _ _ hx.1, upd_other _ _ hx.2]
  | cons b l =>
    obtain ⟨⟨p, hb1⟩, ⟨n, hb2⟩, g⟩ := q.leads
    have hfb : f = b := by rw [hh] at hb1; simp at hb1; exact hb1.1
    subst hfb
    have hbh : f ≠ h := fun x => (List.nodup_cons.mp q.apart).1 (by simp [x])
    have hbe : f ≠ e := fun x => hn (by simp [x])
    have hb0 : f ≠ 0 := fun x => q.notNull (by simp [x])
    refine ⟨((m.upd e (some ⟨f, h⟩)).upd f (some ⟨n, e⟩)).upd h (some ⟨e, endOf h (f :: l)⟩), ?_, ⟨hap, h00, ⟨⟨_, upd_same _ _ _⟩, ⟨f, ?_⟩, ⟨h, ?_⟩, ⟨n, ?_⟩, ?_⟩, ⟨e, ?_⟩⟩, ?_⟩
    · unfold tailqInsertHead
      rw [hh]
      simp only [Option.bind_eq_bind, Option.bind_some]
      rw [setFst_some he]
      simp only [Option.bind_some]
      rw [if_pos hb0, setSnd_some (c := ⟨n, h⟩) (by rw [upd_other _ _ hbe, hb2])]
      simp only [Option.bind_some]
      rw [setFst_some (c := ⟨f, endOf h (f :: l)⟩) (by rw [upd_other _ _ hbh.symm, upd_other _ _ heh, hh])]
      simp only [Option.bind_some]
      rw [setSnd_some (c := ⟨f, c.snd⟩) (by rw [upd_other _ _ heh.symm, upd_other _ _ hbe.symm, upd_same])]
      simp only [Option.some.injEq]
      funext x
      by_cases x1 : x = h
      · subst x1; rw [upd_other _ _ heh, upd_same, upd_same]
      · by_cases x2 : x = e
        · subst x2; rw [upd_same, upd_other _ _ x1, upd_other _ _ hbe.symm, upd_same]
        · by_cases x3 : x = f
          · subst x3; rw [upd_other _ _ x2, upd_other _ _ x1, upd_same, upd_other _ _ x1, upd_same]
          · simp only [QMem.upd, x1, x2, x3, if_false]
    · rw [upd_other _ _ heh.symm, upd_other _ _ hbe.symm, upd_same]
    · rw [upd_other _ _ heh.symm, upd_other _ _ hbe.symm, upd_same]
    · rw [upd_other _ _ hbh, upd_same]
    · -- the rest
      have hn2 : (f :: l).Nodup := (List.nodup_cons.mp q.apart).2
      have hrest : ∀ x ∈ l, (((m.upd e (some ⟨f, h⟩)).upd f (some ⟨n, e⟩)).upd h (some ⟨e, endOf h (f :: l)⟩)) x = m x := by
        intro x hx
        rw [upd_other _ _ (fun y => (List.nodup_cons.mp q.apart).1 (by simp [← y, hx])), upd_other _ _ (fun y => (List.nodup_cons.mp hn2).1 (by rw [← y]; exact hx)), upd_other _ _ (fun y => hn (by simp [← y, hx]))]
      cases l with
      | nil =>
        obtain ⟨r, er⟩ := g
        rw [hb2] at er
        simp at er
        exact ⟨e, by rw [upd_other _ _ hbh, upd_same, er.1]⟩
      | cons d l =>
        obtain ⟨⟨r, er⟩, ⟨s, es⟩, g⟩ := g
        rw [hb2] at er
        simp at er
        refine ⟨⟨e, by rw [upd_other _ _ hbh, upd_same, er.1]⟩, ⟨s, by rw [hrest d (by simp), es]⟩, leads_frame l d hrest g⟩
    · rw [upd_same, endOf_cons, endOf_cons, endOf_cons]
    · intro x hx
      simp only [List.mem_cons, not_or] at hx
      rw [upd_other _ _ hx.1, upd_other _ _ hx.2.2.1, upd_other _ _ hx.2.1]

/-- C143: a head of zeros, as config_purge leaves that of the addresses, takes an element at the beginning, and is a list then. -/
theorem C143_insert_head_zero (m : QMem) (h e : Nat) (c : QCell) (hh : m h = some ⟨0, 0⟩) (he : m e = some c) (h0 : e ≠ 0) (hh0 : h ≠ 0) (heh : h ≠ e) :
    ∃ m', tailqInsertHead m h e = some m' ∧ IsQueue m' h [e] ∧ Within [h, e] m m' := by
  refine ⟨(m.upd e (some ⟨0, h⟩)).upd h (some ⟨e, e⟩), ?_, ⟨by simp [heh], by simp [h0.symm, hh0.symm], ⟨⟨e, upd_same _ _ _⟩, ⟨0, ?_⟩, ⟨h, ?_⟩⟩, ⟨e, upd_same _ _ _⟩⟩, ?_⟩
  · unfold tailqInsertHead
    rw [hh]
    simp only [Option.bind_eq_bind, Option.bind_some]
    rw [setFst_some he]
    simp only [Option.bind_some]
    rw [if_neg (by simp), setSnd_some (c := ⟨0, 0⟩) (by rw [upd_other _ _ heh, hh])]
    simp only [Option.bind_some]
    rw [setFst_some (upd_same _ _ _)]
    simp only [Option.bind_some]
    rw [setSnd_some (c := ⟨0, c.snd⟩) (by rw [upd_other _ _ heh.symm, upd_other _ _ heh.symm, upd_same])]
    simp only [Option.some.injEq]
    funext x
    by_cases x1 : x = h
    · subst x1; rw [upd_other _ _ heh, upd_same, upd_same]
    · by_cases x2 : x = e
      · subst x2; rw [upd_same, upd_other _ _ x1, upd_same]
      · simp only [QMem.upd, x1, x2, if_false]
  · rw [upd_other _ _ heh.symm, upd_same]
  · rw [upd_other _ _ heh.symm, upd_same]
  · intro x hx
    simp only [List.mem_cons, List.not_mem_nil, or_false, not_or] at hx
    rw [upd_other _ _ hx.1, upd_other _ _ hx.2]

theorem tailqRemove_eq {m : QMem} {h e n y : Nat} (he : m e = some ⟨n, y⟩) {m1 : QMem} (h1 : (if n ≠ 0 then m.setSnd n y else m.setSnd h y) = some m1) :
    tailqRemove m h e = m1.setFst y n := by
  unfold tailqRemove
  rw [he]
  simp only [Option.bind_eq_bind, Option.bind_some]
  by_cases hn : n = 0
  · rw [if_neg (by simp [hn])] at h1 ⊢
    rw [h1]
    rfl
  · rw [if_pos hn] at h1 ⊢
    rw [h1]
    rfl

/-- C143: TAILQ_REMOVE takes an element out, wherever it is; the element stays as it is. -/
theorem C143_remove (m : QMem) (h e : Nat) (p q : List Nat) (hq : IsQueue m h (p ++ e :: q)) :
    ∃ m', tailqRemove m h e = some m' ∧ IsQueue m' h (p ++ q) ∧ Within (h :: (p ++ q)) m m' := by
  obtain ⟨f, hh⟩ := hq.last
  obtain ⟨⟨py, hy⟩, ⟨n, he⟩, hq'⟩ := leads_append (e :: q) p h hq.leads
  have hap := hq.apart
  rw [← List.cons_append] at hap
  obtain ⟨hap1, hap2, hap3⟩ := List.nodup_append.mp hap
  have hym := endOf_mem h p
  have hye : endOf h p ≠ e := fun x => hap3 _ hym e (by simp) x
  have hhe : h ≠ e := fun x => hap3 h (by simp) e (by simp) x
  have hsub : (h :: (p ++ q)).Nodup := by
    rw [← List.cons_append]
    exact List.nodup_append.mpr ⟨hap1, (List.nodup_cons.mp hap2).2, fun a ha b hb => hap3 a ha b (List.mem_cons_of_mem _ hb)⟩
  have hnull : 0 ∉ h :: (p ++ q) := by
    have := hq.notNull
    simp only [List.mem_cons, List.mem_append, not_or] at this ⊢
    exact ⟨this.1, this.2.1, this.2.2.2⟩
  generalize hY : endOf h p = y at *
  cases q with
  | nil =>
    obtain ⟨pe, he'⟩ := hq'
    rw [he] at he'
    simp at he'
    obtain ⟨rfl, rfl⟩ := he'
    -- the head gets a new last cell
    by_cases hyh : y = h
    · -- the only element
      have hp : p = [] := by
        cases p with
        | nil => rfl
        | cons b p =>
          rw [endOf_cons] at hY
          exact absurd (hY ▸ endOf_mem b p) (hyh ▸ (List.nodup_cons.mp hap1).1)
      subst hp
      subst hyh
      refine ⟨m.upd y (some ⟨0, y⟩), ?_, ⟨hsub, hnull, ⟨y, upd_same _ _ _⟩, ⟨0, upd_same _ _ _⟩⟩, fun x hx => upd_other _ _ (by simpa using hx)⟩
      rw [tailqRemove_eq he (m1 := m.upd y (some ⟨f, y⟩)) (by rw [if_neg (by simp), setSnd_some hh]), setFst_some (upd_same _ _ _)]
      simp only [Option.some.injEq]
      funext x
      simp only [QMem.upd]
      split <;> rfl
    · refine ⟨(m.upd h (some ⟨f, y⟩)).upd y (some ⟨0, py⟩), ?_, ⟨hsub, hnull, ?_, ⟨f, ?_⟩⟩, ?_⟩
      · rw [tailqRemove_eq he (m1 := m.upd h (some ⟨f, y⟩)) (by rw [if_neg (by simp), setSnd_some hh]),
          setFst_some (c := ⟨e, py⟩) (by rw [upd_other _ _ hyh, hy])]
      · have hcell : ∀ x, x ≠ h → x ≠ y → ((m.upd h (some ⟨f, y⟩)).upd y (some ⟨0, py⟩)) x = m x := fun x a b => by rw [upd_other _ _ b, upd_other _ _ a]
        refine leads_change [e] [] p h hq.leads hap1 ?_ ?_ (by rw [hY]; exact ⟨py, upd_same _ _ _⟩)
        · intro x hx
          have hxh : x ≠ h := fun z => (List.nodup_cons.mp hap1).1 (z ▸ hx)
          by_cases hxy : x = y
          · subst hxy
            exact ⟨_, _, hy, upd_same _ _ _, rfl⟩
          · obtain ⟨c, hc⟩ := leads_alloc _ h hq.leads x (by simp [hx])
            exact ⟨c, c, hc, by rw [hcell x hxh hxy, hc], rfl⟩
        · intro x hx hxy
          rw [hY] at hxy
          rcases List.mem_cons.mp hx with rfl | hx
          · exact ⟨_, ⟨f, y⟩, hh, by rw [upd_other _ _ hxy, upd_same], rfl⟩
          · have hxh : x ≠ h := fun z => (List.nodup_cons.mp hap1).1 (z ▸ hx)
            obtain ⟨c, hc⟩ := leads_alloc _ h hq.leads x (by simp [hx])
            exact ⟨c, c, hc, by rw [hcell x hxh hxy, hc], rfl⟩
      · rw [upd_other _ _ (fun z => hyh z.symm), upd_same, List.append_nil, hY]
      · intro x hx
        rw [List.append_nil] at hx
        have : x ≠ y := fun z => hx (z ▸ hym)
        simp only [List.mem_cons, not_or] at hx
        rw [upd_other _ _ this, upd_other _ _ hx.1]
  | cons z q =>
    obtain ⟨⟨pe, he'⟩, ⟨nz, hz⟩, hq'⟩ := hq'
    rw [he] at he'
    simp at he'
    obtain ⟨rfl, rfl⟩ := he'
    have hn0 : n ≠ 0 := fun x => hnull (by simp [x])
    have hyn : y ≠ n := fun x => hap3 y hym n (by simp) x
    have hhn : h ≠ n := fun x => hap3 h (by simp) n (by simp) x
    have hne : n ≠ e := fun x => (List.nodup_cons.mp hap2).1 (by simp [x])
    refine ⟨(m.upd n (some ⟨nz, y⟩)).upd y (some ⟨n, py⟩), ?_, ⟨hsub, hnull, ?_, ?_⟩, ?_⟩
    · rw [tailqRemove_eq he (m1 := m.upd n (some ⟨nz, y⟩)) (by rw [if_pos hn0, setSnd_some hz]),
        setFst_some (c := ⟨e, py⟩) (by rw [upd_other _ _ hyn, hy])]
    · have hcell : ∀ x, x ≠ n → x ≠ y → ((m.upd n (some ⟨nz, y⟩)).upd y (some ⟨n, py⟩)) x = m x := fun x a b => by rw [upd_other _ _ b, upd_other _ _ a]
      have hqn := (List.nodup_cons.mp (List.nodup_cons.mp hap2).2)
      have hrest : ∀ x ∈ q, ((m.upd n (some ⟨nz, y⟩)).upd y (some ⟨n, py⟩)) x = m x := fun x hx =>
        hcell x (fun z => hqn.1 (z ▸ hx)) (fun z => hap3 y hym x (by simp [hx]) z.symm)
      refine leads_change (e :: n :: q) (n :: q) p h hq.leads hap1 ?_ ?_ ?_
      · intro x hx
        have hxn : x ≠ n := fun z => hap3 x (by simp [hx]) n (by simp) z
        by_cases hxy : x = y
        · subst hxy
          exact ⟨_, _, hy, upd_same _ _ _, rfl⟩
        · obtain ⟨c, hc⟩ := leads_alloc _ h hq.leads x (by simp [hx])
          exact ⟨c, c, hc, by rw [hcell x hxn hxy, hc], rfl⟩
      · intro x hx hxy
        rw [hY] at hxy
        have hxn : x ≠ n := fun z => hap3 x hx n (by simp) z
        obtain ⟨c, hc⟩ := leads_alloc _ h hq.leads x (by
          rcases List.mem_cons.mp hx with rfl | hx
          · simp
          · simp [hx])
        exact ⟨c, c, hc, by rw [hcell x hxn hxy, hc], rfl⟩
      · rw [hY]
        refine ⟨⟨py, upd_same _ _ _⟩, ⟨nz, by rw [upd_other _ _ hyn.symm, upd_same]⟩, ?_⟩
        cases q with
        | nil =>
          obtain ⟨r, er⟩ := hq'
          rw [hz] at er
          simp at er
          exact ⟨y, by rw [upd_other _ _ hyn.symm, upd_same, er.1]⟩
        | cons d q =>
          obtain ⟨⟨r, er⟩, ⟨s, es⟩, g⟩ := hq'
          rw [hz] at er
          simp at er
          exact ⟨⟨y, by rw [upd_other _ _ hyn.symm, upd_same, er.1]⟩, ⟨s, by rw [hrest d (by simp), es]⟩, leads_frame q d hrest g⟩
    · have e1 : endOf h (p ++ e :: n :: q) = endOf h (p ++ n :: q) := by
        unfold endOf
        simp [List.getLast?_append, List.getLast?_cons_cons]
      rw [e1] at hh
      by_cases hyh : y = h
      · subst hyh
        rw [hh] at hy
        simp only [Option.some.injEq, QCell.mk.injEq] at hy
        exact ⟨n, by rw [upd_same, hy.2]⟩
      · exact ⟨f, by rw [upd_other _ _ (fun z => hyh z.symm), upd_other _ _ hhn, hh]⟩
    · intro x hx
      have h1 : x ≠ y := fun z => hx (by
        rw [z]
        rcases List.mem_cons.mp hym with r | r
        · simp [r]
        · simp [r])
      have h2 : x ≠ n := fun z => hx (by simp [z])
      rw [upd_other _ _ h1, upd_other _ _ h2]

/-- C143: TAILQ_FIRST, TAILQ_EMPTY -/
theorem C143_first (m : QMem) (h : Nat) (l : List Nat) (q : IsQueue m h l) :
    tailqFirst m h = some (l.head?.getD 0) ∧ tailqEmpty m h = some (decide (l = [])) := by
  obtain ⟨p, e⟩ := leads_first q.leads
  have h1 : tailqFirst m h = some (l.head?.getD 0) := by unfold tailqFirst; rw [e]; rfl
  refine ⟨h1, ?_⟩
  unfold tailqEmpty
  rw [h1]
  cases l with
  | nil => rfl
  | cons b l =>
    have : b ≠ 0 := fun x => q.notNull (by simp [x])
    simp [this]

/-- C143: TAILQ_NEXT is the element after, or NULL, and TAILQ_PREV that before, or NULL. -/
theorem C143_next_prev (m : QMem) (h e : Nat) (p r : List Nat) (q : IsQueue m h (p ++ e :: r)) :
    tailqFirst m e = some (r.head?.getD 0) ∧ tailqPrev m e = some (p.getLast?.getD 0) := by
  obtain ⟨⟨py, hy⟩, ⟨n, he⟩, hq'⟩ := leads_append (e :: r) p h q.leads
  refine ⟨?_, ?_⟩
  · obtain ⟨s, e'⟩ := leads_first hq'
    unfold tailqFirst
    rw [e']
    rfl
  · unfold tailqPrev
    rw [he]
    simp only
    rw [hy]
    simp only
    -- the second word of the cell before is the cell before that one, or for the head the last
    rcases List.eq_nil_or_concat p with rfl | ⟨p', b, rfl⟩
    · simp only [List.nil_append] at q hy he
      obtain ⟨f, hh⟩ := q.last
      have e1 : endOf h [] = h := rfl
      rw [e1] at hy
      rw [hh] at hy
      simp only [Option.some.injEq, QCell.mk.injEq] at hy
      rw [← hy.2]
      have := leads_append [] (e :: r) h (by simpa using q.leads)
      obtain ⟨s, es⟩ := this
      rw [es]
      rfl
    · rw [List.concat_eq_append] at q hy he ⊢
      rw [endOf_snoc] at hy
      have q' := q.leads
      rw [List.append_assoc] at q'
      obtain ⟨⟨x, hx⟩, ⟨y, hb⟩, -⟩ := leads_append (b :: ([] ++ e :: r)) p' h q'
      rw [hb] at hy
      simp only [Option.some.injEq, QCell.mk.injEq] at hy
      rw [← hy.2, hx]
      simp

/-- C143: TAILQ_LAST is the last element, or NULL. -/
theorem C143_last (m : QMem) (h : Nat) (l : List Nat) (q : IsQueue m h l) : tailqPrev m h = some (l.getLast?.getD 0) := by
  obtain ⟨f, hh⟩ := q.last
  unfold tailqPrev
  rw [hh]
  simp only
  rcases List.eq_nil_or_concat l with rfl | ⟨p', b, rfl⟩
  · have e1 : endOf h [] = h := rfl
    obtain ⟨p, e⟩ := q.leads
    rw [e1] at hh ⊢
    rw [hh] at e
    simp only [Option.some.injEq, QCell.mk.injEq] at e
    rw [hh]
    simp only
    rw [hh, e.1]
    rfl
  · rw [List.concat_eq_append] at q hh ⊢
    rw [endOf_snoc]
    obtain ⟨⟨x, hx⟩, ⟨y, hb⟩, -⟩ := leads_append [b] p' h q.leads
    rw [hb]
    simp only
    rw [hx]
    simp

theorem foreach_eq {m : QMem} : ∀ (l : List Nat) (a : Nat), Leads m a l → 0 ∉ l → ∀ fuel, l.length ≤ fuel → tailqForeach m fuel (l.head?.getD 0) = some l := by
  intro l
  induction l with
  | nil => intro a _ _ fuel _; cases fuel <;> rfl
  | cons b l ih =>
    rintro a ⟨-, -, g⟩ h0 fuel hf
    obtain ⟨k, rfl⟩ : ∃ k, fuel = k + 1 := ⟨fuel - 1, by simp at hf; omega⟩
    have hb : b ≠ 0 := fun x => h0 (by simp [x])
    obtain ⟨p, e⟩ := leads_first g
    simp only [List.head?_cons, Option.getD_some]
    have : tailqFirst m b = some (l.head?.getD 0) := by unfold tailqFirst; rw [e]; rfl
    obtain ⟨b, rfl⟩ : ∃ c, b = c + 1 := ⟨b - 1, by omega⟩
    simp only [tailqForeach, this]
    rw [ih (b + 1) g (fun x => h0 (List.mem_cons_of_mem _ x)) k (by simp at hf; omega)]
    rfl

/-- C143: TAILQ_FOREACH sees the elements, each once, in their order, and comes to an end. -/
theorem C143_foreach (m : QMem) (h : Nat) (l : List Nat) (q : IsQueue m h l) (fuel : Nat) (hf : l.length ≤ fuel) :
    (tailqFirst m h).bind (tailqForeach m fuel) = some l := by
  rw [(C143_first m h l q).1]
  exact foreach_eq l h q.leads (fun x => q.notNull (List.mem_cons_of_mem _ x)) fuel hf

/-! ## freeing all of it -/

theorem free_ok : ∀ (n a : Nat) (m : QMem), (∀ k, k < n → ∃ c, m (a + k) = some c) →
    ∃ m', m.free a n = some m' ∧ (∀ k, k < n → m' (a + k) = none) ∧ ∀ x, (∀ k, k < n → x ≠ a + k) → m' x = m x := by
  intro n
  induction n with
  | zero => exact fun a m _ => ⟨m, rfl, fun k hk => by omega, fun _ _ => rfl⟩
  | succ n ih =>
    intro a m h
    obtain ⟨c, hc⟩ := h 0 (by omega)
    obtain ⟨m', e, f, g⟩ := ih (a + 1) (m.upd a none) (fun k hk => by
      obtain ⟨d, hd⟩ := h (k + 1) (by omega)
      refine ⟨d, ?_⟩
      rw [upd_other _ _ (by omega), show a + 1 + k = a + (k + 1) by omega]
      exact hd)
    refine ⟨m', ?_, ?_, ?_⟩
    · unfold QMem.free
      rw [Nat.add_zero] at hc
      rw [hc]
      exact e
    · intro k hk
      cases k with
      | zero => rw [Nat.add_zero, g a (fun k _ => by omega)]; exact upd_same _ _ _
      | succ k => rw [show a + (k + 1) = a + 1 + k by omega]; exact f k (by omega)
    · intro x hx
      rw [g x (fun k hk => by have := hx (k + 1) (by omega); omega), upd_other _ _ (by have := hx 0 (by omega); omega)]

/-- what freeing the contents of an element does: `own` are its cells but for the entry, `n` says how many of them go with the element itself -/
structure FreesInner {α : Type} (inner : QMem → Nat → Option QMem) (n : Nat) (at_ : α → Nat) (own : α → List Nat) (P : QMem → α → Prop) : Prop where
  pos : 0 < n
  block : ∀ x k, 0 < k → k < n → at_ x + k ∈ own x
  run : ∀ m x, P m x → ∃ m', inner m (at_ x) = some m' ∧ Within (own x) m m' ∧ (∀ k, 0 < k → k < n → ∃ c, m' (at_ x + k) = some c) ∧
    ∀ c ∈ own x, (∀ k, k < n → c ≠ at_ x + k) → m' c = none
  frame : ∀ m m' x, (∀ c ∈ own x, m' c = m c) → P m x → P m' x

theorem within_trans {S : List Nat} {a b c : QMem} (h1 : Within S a b) (h2 : Within S b c) : Within S a c := fun x hx => by rw [h2 x hx, h1 x hx]

theorem within_mono {S T : List Nat} {a b : QMem} (h : Within S a b) (hs : ∀ x ∈ S, x ∈ T) : Within T a b := fun x hx => h x (fun y => hx (hs x y))

theorem step_first {α : Type} {inner : QMem → Nat → Option QMem} {n : Nat} {at_ : α → Nat} {own : α → List Nat} {P : QMem → α → Prop}
    (F : FreesInner inner n at_ own P) (h : Nat) (m : QMem) (x : α) (r : List Nat) (q : IsQueue m h (at_ x :: r)) (hp : P m x) (hd : ∀ c ∈ own x, c ∉ h :: at_ x :: r) :
    ∃ m', purgeFirst inner n h m (at_ x) = some m' ∧ IsQueue m' h r ∧ (∀ c ∈ at_ x :: own x, m' c = none) ∧ Within (h :: r ++ at_ x :: own x) m m' := by
  obtain ⟨m1, e1, q1, w1⟩ := C143_remove m h (at_ x) [] r q
  simp only [List.nil_append] at q1 w1
  have hd' : ∀ c ∈ own x, c ∉ h :: r := fun c hc y => hd c hc (by simp only [List.mem_cons] at y ⊢; rcases y with y | y <;> simp [y])
  have hex : at_ x ∉ h :: r := fun y => by
    have := q.apart
    simp only [List.nodup_cons, List.mem_cons, not_or] at this y
    rcases y with y | y
    · exact this.1.1 y.symm
    · exact this.2.1 y
  have hox : at_ x ∉ own x := fun y => hd _ y (by simp)
  obtain ⟨m2, e2, w2, a2, n2⟩ := F.run m1 x (F.frame m m1 x (fun c hc => w1 c (hd' c hc)) hp)
  obtain ⟨c0, hc0⟩ := leads_alloc _ h q.leads (at_ x) (by simp)
  obtain ⟨m3, e3, f3, g3⟩ := free_ok n (at_ x) m2 (fun k hk => by
    cases k with
    | zero => exact ⟨c0, by rw [Nat.add_zero, w2 _ hox, w1 _ hex, hc0]⟩
    | succ k => exact a2 (k + 1) (by omega) hk)
  have hblk : ∀ c, c ∈ h :: r → ∀ k, k < n → c ≠ at_ x + k := fun c hc k hk y => by
    cases k with
    | zero => exact hex (by rw [y] at hc; simpa using hc)
    | succ k => exact hd' _ (F.block x (k + 1) (by omega) hk) (y ▸ hc)
  refine ⟨m3, ?_, ?_, ?_, ?_⟩
  · unfold purgeFirst
    simp only [Option.bind_eq_bind, e1, Option.bind_some, e2, e3]
  · exact queue_frame (fun c hc => by rw [g3 c (hblk c hc), w2 c (fun y => hd' c y hc)]) q1
  · intro c hc
    by_cases hk : ∃ k, k < n ∧ c = at_ x + k
    · obtain ⟨k, h1, rfl⟩ := hk
      exact f3 k h1
    · have hk' : ∀ k, k < n → c ≠ at_ x + k := fun k h1 h2 => hk ⟨k, h1, h2⟩
      rcases List.mem_cons.mp hc with rfl | hc
      · exact absurd rfl (hk' 0 F.pos)
      · rw [g3 c hk', n2 c hc hk']
  · intro c hc
    simp only [List.mem_append, not_or, List.mem_cons] at hc
    rw [g3 c (fun k hk y => by
      cases k with
      | zero => exact hc.2.1 y
      | succ k => exact hc.2.2 (y ▸ F.block x (k + 1) (by omega) hk)), w2 c hc.2.2, w1 c (by simp [hc.1.1, hc.1.2])]

theorem step_last {α : Type} {inner : QMem → Nat → Option QMem} {n : Nat} {at_ : α → Nat} {own : α → List Nat} {P : QMem → α → Prop}
    (F : FreesInner inner n at_ own P) (h : Nat) (m : QMem) (x : α) (r : List Nat) (q : IsQueue m h (at_ x :: r)) (hp : P m x) (hd : ∀ c ∈ own x, c ∉ h :: at_ x :: r) :
    ∃ m', purgeLast inner n h m (at_ x) = some m' ∧ IsQueue m' h r ∧ (∀ c ∈ at_ x :: own x, m' c = none) ∧ Within (h :: r ++ at_ x :: own x) m m' := by
  have hd' : ∀ c ∈ own x, c ∉ h :: r := fun c hc y => hd c hc (by simp only [List.mem_cons] at y ⊢; rcases y with y | y <;> simp [y])
  have hex : at_ x ∉ h :: r := fun y => by
    have := q.apart
    simp only [List.nodup_cons, List.mem_cons, not_or] at this y
    rcases y with y | y
    · exact this.1.1 y.symm
    · exact this.2.1 y
  have hox : at_ x ∉ own x := fun y => hd _ y (by simp)
  obtain ⟨m1, e1, w1, a1, n1⟩ := F.run m x hp
  obtain ⟨m2, e2, q2, w2⟩ := C143_remove m1 h (at_ x) [] r (queue_frame (fun c hc => w1 c (fun y => hd c y hc)) q)
  simp only [List.nil_append] at q2 w2
  obtain ⟨c0, hc0⟩ := leads_alloc _ h q.leads (at_ x) (by simp)
  obtain ⟨m3, e3, f3, g3⟩ := free_ok n (at_ x) m2 (fun k hk => by
    cases k with
    | zero => exact ⟨c0, by rw [Nat.add_zero, w2 _ hex, w1 _ hox, hc0]⟩
    | succ k =>
      obtain ⟨c, hc⟩ := a1 (k + 1) (by omega) hk
      exact ⟨c, by rw [w2 _ (hd' _ (F.block x (k + 1) (by omega) hk)), hc]⟩)
  have hblk : ∀ c, c ∈ h :: r → ∀ k, k < n → c ≠ at_ x + k := fun c hc k hk y => by
    cases k with
    | zero => exact hex (by rw [y] at hc; simpa using hc)
    | succ k => exact hd' _ (F.block x (k + 1) (by omega) hk) (y ▸ hc)
  refine ⟨m3, ?_, ?_, ?_, ?_⟩
  · unfold purgeLast
    simp only [Option.bind_eq_bind, e1, Option.bind_some, e2, e3]
  · exact queue_frame (fun c hc => by rw [g3 c (hblk c hc)]) q2
  · intro c hc
    by_cases hk : ∃ k, k < n ∧ c = at_ x + k
    · obtain ⟨k, h1, rfl⟩ := hk
      exact f3 k h1
    · have hk' : ∀ k, k < n → c ≠ at_ x + k := fun k h1 h2 => hk ⟨k, h1, h2⟩
      rcases List.mem_cons.mp hc with rfl | hc
      · exact absurd rfl (hk' 0 F.pos)
      · rw [g3 c hk', w2 c (hd' c hc), n1 c hc hk']
  · intro c hc
    simp only [List.mem_append, not_or, List.mem_cons] at hc
    rw [g3 c (fun k hk y => by
      cases k with
      | zero => exact hc.2.1 y
      | succ k => exact hc.2.2 (y ▸ F.block x (k + 1) (by omega) hk)), w2 c (by simp [hc.1.1, hc.1.2]), w1 c hc.2.2]

theorem own_not_at {α : Type} (at_ : α → Nat) (own : α → List Nat) : ∀ (es : List α), (es.flatMap fun x => at_ x :: own x).Nodup →
    ∀ y ∈ es, ∀ c ∈ own y, c ∉ es.map at_ := by
  intro es
  induction es with
  | nil => intro _ y hy; simp at hy
  | cons x es ih =>
    intro hn y hy c hc hm
    rw [List.flatMap_cons] at hn
    obtain ⟨n1, n2, n3⟩ := List.nodup_append.mp hn
    rw [List.map_cons] at hm
    rcases List.mem_cons.mp hy with rfl | hy
    · rcases List.mem_cons.mp hm with rfl | hm
      · exact (List.nodup_cons.mp n1).1 hc
      · obtain ⟨z, hz, rfl⟩ := List.mem_map.mp hm
        exact n3 _ (List.mem_cons_of_mem _ hc) _ (List.mem_flatMap.mpr ⟨z, hz, by simp⟩) rfl
    · rcases List.mem_cons.mp hm with rfl | hm
      · exact n3 _ (List.mem_cons_self ..) _ (List.mem_flatMap.mpr ⟨y, hy, List.mem_cons_of_mem _ hc⟩) rfl
      · exact ih n2 y hy c hc hm

theorem loop_frees {α : Type} (at_ : α → Nat) (own : α → List Nat) (P : QMem → α → Prop) (body : QMem → Nat → Option QMem) (h : Nat)
    (step : ∀ m x r, IsQueue m h (at_ x :: r) → P m x → (∀ c ∈ own x, c ∉ h :: at_ x :: r) →
      ∃ m', body m (at_ x) = some m' ∧ IsQueue m' h r ∧ (∀ c ∈ at_ x :: own x, m' c = none) ∧ Within (h :: r ++ at_ x :: own x) m m')
    (frame : ∀ m m' x, (∀ c ∈ own x, m' c = m c) → P m x → P m' x) :
    ∀ (es : List α) (m : QMem) (fuel : Nat), IsQueue m h (es.map at_) → (∀ x ∈ es, P m x) → (h :: es.flatMap fun x => at_ x :: own x).Nodup → es.length ≤ fuel →
      ∃ m', tailqForeachSafe body fuel m ((es.map at_).head?.getD 0) = some m' ∧ IsQueue m' h [] ∧ (∀ c ∈ es.flatMap fun x => at_ x :: own x, m' c = none) ∧
        Within (h :: es.flatMap fun x => at_ x :: own x) m m' := by
  intro es
  induction es with
  | nil =>
    intro m fuel q _ _ _
    exact ⟨m, by cases fuel <;> rfl, q, fun c hc => by simp at hc, fun _ _ => rfl⟩
  | cons x es ih =>
    intro m fuel q hp hn hf
    obtain ⟨k, rfl⟩ : ∃ k, fuel = k + 1 := ⟨fuel - 1, by simp at hf; omega⟩
    rw [List.map_cons] at q
    rw [List.flatMap_cons] at hn
    obtain ⟨nh, nt⟩ := List.nodup_cons.mp hn
    obtain ⟨n1, n2, n3⟩ := List.nodup_append.mp nt
    have hat : ∀ z ∈ es.map at_, z ∈ es.flatMap fun x => at_ x :: own x := fun z hz => by
      obtain ⟨w, hw, rfl⟩ := List.mem_map.mp hz
      exact List.mem_flatMap.mpr ⟨w, hw, by simp⟩
    have hdx : ∀ c ∈ own x, c ∉ h :: at_ x :: es.map at_ := by
      intro c hc hm
      rcases List.mem_cons.mp hm with rfl | hm
      · exact nh (List.mem_append_left _ (List.mem_cons_of_mem _ hc))
      · rcases List.mem_cons.mp hm with rfl | hm
        · exact (List.nodup_cons.mp n1).1 hc
        · exact n3 c (List.mem_cons_of_mem _ hc) c (hat c hm) rfl
    obtain ⟨m1, e1, q1, f1, w1⟩ := step m x (es.map at_) q (hp x (by simp)) hdx
    have hp1 : ∀ y ∈ es, P m1 y := fun y hy => frame m m1 y (fun c hc => w1 c (fun hm => by
      have hcf : c ∈ es.flatMap fun x => at_ x :: own x := List.mem_flatMap.mpr ⟨y, hy, List.mem_cons_of_mem _ hc⟩
      rcases List.mem_append.mp hm with hm | hm
      · rcases List.mem_cons.mp hm with rfl | hm
        · exact nh (List.mem_append_right _ hcf)
        · exact own_not_at at_ own es n2 y hy c hc hm
      · exact n3 c hm c hcf rfl)) (hp y (List.mem_cons_of_mem _ hy))
    obtain ⟨m2, e2, q2, f2, w2⟩ := ih m1 k q1 hp1 (List.nodup_cons.mpr ⟨fun y => nh (List.mem_append_right _ y), n2⟩) (by simp at hf; omega)
    refine ⟨m2, ?_, q2, ?_, ?_⟩
    · have ha : at_ x ≠ 0 := fun y => q.notNull (by simp [y])
      have hfst : tailqFirst m (at_ x) = some ((es.map at_).head?.getD 0) := (C143_next_prev m h (at_ x) [] (es.map at_) q).1
      rw [List.map_cons, List.head?_cons, Option.getD_some]
      generalize at_ x = a at *
      obtain ⟨b, rfl⟩ : ∃ b, a = b + 1 := ⟨a - 1, by omega⟩
      simp only [tailqForeachSafe, hfst, e1, e2]
    · intro c hc
      rw [List.flatMap_cons] at hc
      rcases List.mem_append.mp hc with hc | hc
      · rw [w2 c (fun y => by
          rcases List.mem_cons.mp y with rfl | y
          · exact nh (List.mem_append_left _ hc)
          · exact n3 c hc c y rfl), f1 c hc]
      · exact f2 c hc
    · intro c hc
      rw [List.flatMap_cons] at hc
      have hc' : c ≠ h ∧ c ∉ at_ x :: own x ∧ c ∉ es.flatMap fun x => at_ x :: own x := by
        simp only [List.mem_cons, List.mem_append, not_or] at hc ⊢
        exact hc.imp_right fun y => y
      rw [w2 c (fun y => by
          rcases List.mem_cons.mp y with y | y
          · exact hc'.1 y
          · exact hc'.2.2 y), w1 c (fun y => by
          rcases List.mem_append.mp y with y | y
          · rcases List.mem_cons.mp y with y | y
            · exact hc'.1 y
            · exact hc'.2.2 (hat c y)
          · exact hc'.2.1 y)]

theorem first_ok {m : QMem} {h : Nat} {l : List Nat} (q : IsQueue m h l) : tailqFirst m h = some (l.head?.getD 0) := (C143_first m h l q).1

/-- elements without lists -/
theorem plain_frees (m : QMem) (h : Nat) (l : List Nat) (fuel : Nat) (q : IsQueue m h l) (hf : l.length ≤ fuel) :
    ∃ m', purgePlain fuel m h = some m' ∧ IsQueue m' h [] ∧ (∀ c ∈ l, m' c = none) ∧ Within (h :: l) m m' := by
  have F : FreesInner (α := Nat) (fun m _ => some m) 1 id (fun _ => []) (fun _ _ => True) :=
    ⟨by omega, fun x k h1 h2 => by omega, fun m x _ => ⟨m, rfl, fun _ _ => rfl, fun k h1 h2 => by omega, fun c hc => by simp at hc⟩, fun _ _ _ _ _ => trivial⟩
  have hfm : (l.flatMap fun x : Nat => id x :: []) = l := by simp
  obtain ⟨m', e, q', f, w⟩ := loop_frees id (fun _ => []) (fun _ _ => True) (purgeFirst (fun m _ => some m) 1 h) h (fun m x r => step_first F h m x r) F.frame l m fuel
    (by simpa using q) (fun _ _ => trivial) (by rw [hfm]; exact q.apart) hf
  rw [hfm] at f w
  refine ⟨m', ?_, q', f, w⟩
  unfold purgePlain purgeLoop
  rw [first_ok q]
  simpa using e

theorem locations_free (m : QMem) (h : Nat) (ls : List LocShape) (fuel : Nat) (q : IsQueue m h (ls.map (·.at_))) (hq : ∀ l ∈ ls, IsQueue m (l.at_ + 1) l.params)
    (hn : (h :: ls.flatMap LocShape.cells).Nodup) (hf : (ls.flatMap LocShape.cells).length ≤ fuel) :
    ∃ m', purgeLocations fuel m h = some m' ∧ IsQueue m' h [] ∧ (∀ c ∈ ls.flatMap LocShape.cells, m' c = none) ∧ Within (h :: ls.flatMap LocShape.cells) m m' := by
  have F : FreesInner (fun m l => purgePlain fuel m (l + 1)) 2 LocShape.at_ (fun l => (l.at_ + 1) :: l.params) (fun m l => IsQueue m (l.at_ + 1) l.params ∧ l.params.length ≤ fuel) := by
    refine ⟨by omega, fun x k h1 h2 => by have : k = 1 := by omega
                                          simp [this], fun m x hp => ?_, fun m m' x hc hp => ⟨queue_frame hc hp.1, hp.2⟩⟩
    obtain ⟨m', e, q', f, w⟩ := plain_frees m (x.at_ + 1) x.params fuel hp.1 hp.2
    refine ⟨m', e, w, fun k h1 h2 => ?_, fun c hc hk => ?_⟩
    · have : k = 1 := by omega
      subst this
      obtain ⟨s, es⟩ := q'.last
      exact ⟨_, es⟩
    · rcases List.mem_cons.mp hc with rfl | hc
      · exact absurd rfl (hk 1 (by omega))
      · exact f c hc
  have hlen : ∀ l ∈ ls, l.params.length ≤ fuel ∧ ls.length ≤ fuel := by
    intro l hl
    have h1 : l.cells.length ≤ (ls.flatMap LocShape.cells).length := by
      obtain ⟨a, b, rfl⟩ := List.append_of_mem hl
      simp only [List.flatMap_append, List.flatMap_cons, List.length_append]
      omega
    have h2 : ∀ ls : List LocShape, ls.length ≤ (ls.flatMap LocShape.cells).length := by
      intro ls
      induction ls with
      | nil => simp
      | cons a ls ih => simp only [List.flatMap_cons, List.length_append, List.length_cons, LocShape.cells]; omega
    have := h2 ls
    simp only [LocShape.cells, List.length_cons] at h1
    constructor <;> omega
  obtain ⟨m', e, q', f, w⟩ := loop_frees LocShape.at_ (fun l => (l.at_ + 1) :: l.params) _ (purgeFirst (fun m l => purgePlain fuel m (l + 1)) 2 h) h (fun m x r => step_first F h m x r) F.frame
    ls m fuel q (fun l hl => ⟨hq l hl, (hlen l hl).1⟩) hn (by
      cases ls with
      | nil => simp
      | cons l ls => exact (hlen l (by simp)).2)
  refine ⟨m', ?_, q', f, w⟩
  unfold purgeLocations purgeLoop
  rw [first_ok q]
  exact e

theorem nodup_flatMap_mem {α : Type} (f : α → List Nat) : ∀ (es : List α), (es.flatMap f).Nodup → ∀ y ∈ es, (f y).Nodup := by
  intro es
  induction es with
  | nil => intro _ y hy; simp at hy
  | cons x es ih =>
    intro hn y hy
    rw [List.flatMap_cons] at hn
    obtain ⟨n1, n2, -⟩ := List.nodup_append.mp hn
    rcases List.mem_cons.mp hy with rfl | hy
    · exact n1
    · exact ih n2 y hy

theorem flatMap_len {α : Type} (f : α → List Nat) (es : List α) (y : α) (hy : y ∈ es) : (f y).length ≤ (es.flatMap f).length := by
  obtain ⟨a, b, rfl⟩ := List.append_of_mem hy
  simp only [List.flatMap_append, List.flatMap_cons, List.length_append]
  omega

/-- the cells of a host but for its entry -/
def hostOwn (x : HostShape) : List Nat :=
  (x.at_ + 1) :: (x.at_ + 2) :: (x.at_ + 3) :: (x.at_ + 4) :: (x.addrs ++ x.locs.flatMap LocShape.cells ++ x.aliases ++ x.proxies)

/-- the lists of a host -/
structure HostLists (fuel : Nat) (m : QMem) (x : HostShape) : Prop where
  addrs : IsQueue m (x.at_ + 1) x.addrs
  locs : IsQueue m (x.at_ + 2) (x.locs.map (·.at_))
  aliases : IsQueue m (x.at_ + 3) x.aliases
  proxies : IsQueue m (x.at_ + 4) x.proxies
  params : ∀ l ∈ x.locs, IsQueue m (l.at_ + 1) l.params
  apart : (hostOwn x).Nodup
  fuel : (hostOwn x).length ≤ fuel

theorem hostLists_frame {fuel : Nat} {m m' : QMem} {x : HostShape} (hc : ∀ c ∈ hostOwn x, m' c = m c) (p : HostLists fuel m x) : HostLists fuel m' x := by
  refine ⟨queue_frame (fun c h => hc c ?_) p.addrs, queue_frame (fun c h => hc c ?_) p.locs, queue_frame (fun c h => hc c ?_) p.aliases,
    queue_frame (fun c h => hc c ?_) p.proxies, fun l hl => queue_frame (fun c h => hc c ?_) (p.params l hl), p.apart, p.fuel⟩
  · simp only [hostOwn, List.mem_cons, List.mem_append] at h ⊢
    rcases h with h | h <;> simp [h]
  · simp only [hostOwn, List.mem_cons, List.mem_append] at h ⊢
    rcases h with h | h
    · simp [h]
    · obtain ⟨l, hl, rfl⟩ := List.mem_map.mp h
      have : l.at_ ∈ x.locs.flatMap LocShape.cells := List.mem_flatMap.mpr ⟨l, hl, by simp [LocShape.cells]⟩
      simp [this]
  · simp only [hostOwn, List.mem_cons, List.mem_append] at h ⊢
    rcases h with h | h <;> simp [h]
  · simp only [hostOwn, List.mem_cons, List.mem_append] at h ⊢
    rcases h with h | h <;> simp [h]
  · simp only [hostOwn, List.mem_cons, List.mem_append]
    have : c ∈ x.locs.flatMap LocShape.cells := List.mem_flatMap.mpr ⟨l, hl, by
      simp only [LocShape.cells, List.mem_cons] at h ⊢
      rcases h with h | h <;> simp [h]⟩
    simp [this]

theorem hosts_inner (fuel : Nat) : FreesInner (purgeInHost fuel) 5 HostShape.at_ hostOwn (HostLists fuel) := by
  refine ⟨by omega, fun x k h1 h2 => ?_, fun m x p => ?_, fun m m' x hc p => hostLists_frame hc p⟩
  · have : k = 1 ∨ k = 2 ∨ k = 3 ∨ k = 4 := by omega
    rcases this with rfl | rfl | rfl | rfl <;> simp [hostOwn]
  · have hap := p.apart
    have hfu := p.fuel
    simp only [hostOwn, List.nodup_cons, List.nodup_append, List.mem_cons, List.mem_append, not_or] at hap
    simp only [hostOwn, List.length_cons, List.length_append] at hfu
    obtain ⟨⟨a12, a13, a14, ⟨⟨a1a, a1l⟩, a1s⟩, a1p⟩, ⟨a23, a24, ⟨⟨a2a, a2l⟩, a2s⟩, a2p⟩, ⟨a34, ⟨⟨a3a, a3l⟩, a3s⟩, a3p⟩, ⟨⟨⟨a4a, a4l⟩, a4s⟩, a4p⟩,
      ⟨⟨na, nl, dal⟩, ns, dals⟩, np, dalsp⟩ := hap
    have hlc : ∀ l ∈ x.locs, ∀ c ∈ (l.at_ + 1) :: l.params, c ∈ x.locs.flatMap LocShape.cells := fun l hl c hc =>
      List.mem_flatMap.mpr ⟨l, hl, by simp only [LocShape.cells, List.mem_cons] at hc ⊢; rcases hc with h | h <;> simp [h]⟩
    have hla : ∀ c ∈ x.locs.map (·.at_), c ∈ x.locs.flatMap LocShape.cells := fun c hc => by
      obtain ⟨l, hl, rfl⟩ := List.mem_map.mp hc
      exact List.mem_flatMap.mpr ⟨l, hl, by simp [LocShape.cells]⟩
    -- the addresses
    obtain ⟨m1, e1, q1, f1, w1⟩ := plain_frees m _ _ fuel p.addrs (by omega)
    have k1 : ∀ c, c ≠ x.at_ + 1 → c ∉ x.addrs → m1 c = m c := fun c h1 h2 => w1 c (by simp [h1, h2])
    -- the locations
    obtain ⟨m2, e2, q2, f2, w2⟩ := locations_free m1 (x.at_ + 2) x.locs fuel
      (queue_frame (fun c hc => by
        rcases List.mem_cons.mp hc with rfl | hc
        · exact k1 _ (fun y => a12 y.symm) a2a
        · exact k1 _ (fun y => a1l (y ▸ hla c hc)) (fun y => dal c y c (hla c hc) rfl)) p.locs)
      (fun l hl => queue_frame (fun c hc => k1 c (fun y => a1l (y ▸ hlc l hl c hc)) (fun y => dal c y c (hlc l hl c hc) rfl)) (p.params l hl))
      (List.nodup_cons.mpr ⟨a2l, nl⟩) (by omega)
    have k2 : ∀ c, c ≠ x.at_ + 2 → c ∉ x.locs.flatMap LocShape.cells → m2 c = m1 c := fun c h1 h2 => w2 c (by
      intro y
      rcases List.mem_cons.mp y with y | y
      · exact h1 y
      · exact h2 y)
    -- the aliases
    obtain ⟨m3, e3, q3, f3, w3⟩ := plain_frees m2 (x.at_ + 3) x.aliases fuel
      (queue_frame (fun c hc => by
        rcases List.mem_cons.mp hc with rfl | hc
        · rw [k2 _ (fun y => a23 y.symm) a3l, k1 _ (fun y => a13 y.symm) a3a]
        · rw [k2 _ (fun y => a2s (y ▸ hc)) (fun y => dals c (.inr y) c hc rfl), k1 _ (fun y => a1s (y ▸ hc)) (fun y => dals c (.inl y) c hc rfl)]) p.aliases) (by omega)
    have k3 : ∀ c, c ≠ x.at_ + 3 → c ∉ x.aliases → m3 c = m2 c := fun c h1 h2 => w3 c (by simp [h1, h2])
    -- the relays
    obtain ⟨m4, e4, q4, f4, w4⟩ := plain_frees m3 (x.at_ + 4) x.proxies fuel
      (queue_frame (fun c hc => by
        rcases List.mem_cons.mp hc with rfl | hc
        · rw [k3 _ (fun y => a34 y.symm) a4s, k2 _ (fun y => a24 y.symm) a4l, k1 _ (fun y => a14 y.symm) a4a]
        · rw [k3 _ (fun y => a3p (y ▸ hc)) (fun y => dalsp c (.inr y) c hc rfl), k2 _ (fun y => a2p (y ▸ hc)) (fun y => dalsp c (.inl (.inr y)) c hc rfl),
            k1 _ (fun y => a1p (y ▸ hc)) (fun y => dalsp c (.inl (.inl y)) c hc rfl)]) p.proxies) (by omega)
    have k4 : ∀ c, c ≠ x.at_ + 4 → c ∉ x.proxies → m4 c = m3 c := fun c h1 h2 => w4 c (by simp [h1, h2])
    refine ⟨m4, ?_, ?_, ?_, ?_⟩
    · unfold purgeInHost
      simp only [Option.bind_eq_bind, e1, Option.bind_some, e2, e3, e4]
    · intro c hc
      simp only [hostOwn, List.mem_cons, List.mem_append, not_or] at hc
      obtain ⟨c1, c2, c3, c4, ⟨⟨ca, cl⟩, cs⟩, cp⟩ := hc
      rw [k4 c c4 cp, k3 c c3 cs, k2 c c2 cl, k1 c c1 ca]
    · intro k h1 h2
      have : k = 1 ∨ k = 2 ∨ k = 3 ∨ k = 4 := by omega
      rcases this with rfl | rfl | rfl | rfl
      · obtain ⟨s, es⟩ := q1.last
        exact ⟨_, by rw [k4 _ a14 a1p, k3 _ a13 a1s, k2 _ a12 a1l, es]⟩
      · obtain ⟨s, es⟩ := q2.last
        exact ⟨_, by rw [k4 _ a24 a2p, k3 _ a23 a2s, es]⟩
      · obtain ⟨s, es⟩ := q3.last
        exact ⟨_, by rw [k4 _ a34 a3p, es]⟩
      · obtain ⟨s, es⟩ := q4.last
        exact ⟨_, es⟩
    · intro c hc hk
      simp only [hostOwn, List.mem_cons, List.mem_append] at hc
      rcases hc with hc | hc | hc | hc | hc
      · exact absurd hc (hk 1 (by omega))
      · exact absurd hc (hk 2 (by omega))
      · exact absurd hc (hk 3 (by omega))
      · exact absurd hc (hk 4 (by omega))
      · rcases hc with ((hc | hc) | hc) | hc
        · rw [k4 c (hk 4 (by omega)) (fun y => dalsp c (.inl (.inl hc)) c y rfl), k3 c (hk 3 (by omega)) (fun y => dals c (.inl hc) c y rfl),
            k2 c (hk 2 (by omega)) (fun y => dal c hc c y rfl), f1 c hc]
        · rw [k4 c (hk 4 (by omega)) (fun y => dalsp c (.inl (.inr hc)) c y rfl), k3 c (hk 3 (by omega)) (fun y => dals c (.inr hc) c y rfl), f2 c hc]
        · rw [k4 c (hk 4 (by omega)) (fun y => dalsp c (.inr hc) c y rfl), f3 c hc]
        · exact f4 c hc

theorem hosts_free (m : QMem) (h : Nat) (hs : List HostShape) (fuel : Nat) (q : IsQueue m h (hs.map (·.at_))) (hq : ∀ x ∈ hs, HostLists fuel m x)
    (hn : (h :: hs.flatMap HostShape.cells).Nodup) (hf : (hs.flatMap HostShape.cells).length ≤ fuel) :
    ∃ m', purgeHosts fuel m h = some m' ∧ IsQueue m' h [] ∧ (∀ c ∈ hs.flatMap HostShape.cells, m' c = none) ∧ Within (h :: hs.flatMap HostShape.cells) m m' := by
  have F := hosts_inner fuel
  have h2 : ∀ hs : List HostShape, hs.length ≤ (hs.flatMap HostShape.cells).length := by
    intro hs
    induction hs with
    | nil => simp
    | cons a hs ih => simp only [List.flatMap_cons, List.length_append, List.length_cons, HostShape.cells]; omega
  obtain ⟨m', e, q', f, w⟩ := loop_frees HostShape.at_ hostOwn _ (purgeLast (purgeInHost fuel) 5 h) h (fun m x r => step_last F h m x r) F.frame
    hs m fuel q hq hn (Nat.le_trans (h2 hs) hf)
  refine ⟨m', ?_, q', f, w⟩
  unfold purgeHosts purgeLoop
  rw [first_ok q]
  exact e

/-- C143: config_purge takes every element of a configuration out of its list and frees it, each once, with all that is in it; it uses nothing that is freed
and leaves everything else in memory as it is; and what is left is an empty configuration, whose addresses are a head of zeros. -/
theorem C143_purge (m : QMem) (c : Nat) (s : ConfShape) (H : HoldsConf m c s) (fuel : Nat) (hf : s.cells.length ≤ fuel) :
    ∃ m', purgeConf fuel m c = some m' ∧ (∀ x ∈ s.cells, m' x = none) ∧ Within (c :: (c + 1) :: (c + 2) :: (c + 3) :: s.cells) m m' ∧
      IsQueue m' c [] ∧ IsQueue m' (c + 1) [] ∧ IsQueue m' (c + 2) [] ∧ m' (c + 3) = some ⟨0, 0⟩ := by
  have hap := H.apart
  simp only [ConfShape.cells, List.length_append] at hf
  simp only [ConfShape.cells, List.nodup_cons, List.nodup_append, List.mem_cons, List.mem_append, not_or] at hap
  obtain ⟨⟨a12, a13, a14, ⟨⟨a1a, a1l⟩, a1s⟩, a1p⟩, ⟨a23, a24, ⟨⟨a2a, a2l⟩, a2s⟩, a2p⟩, ⟨a34, ⟨⟨a3a, a3l⟩, a3s⟩, a3p⟩, ⟨⟨⟨a4a, a4l⟩, a4s⟩, a4p⟩,
    ⟨⟨na, nl, dal⟩, ns, dals⟩, np, dalsp⟩ := hap
  have hown : ∀ h ∈ s.hosts, ∀ x ∈ hostOwn h, x ∈ s.hosts.flatMap HostShape.cells := fun h hh x hx =>
    List.mem_flatMap.mpr ⟨h, hh, by simp only [hostOwn] at hx; simp only [HostShape.cells]; exact List.mem_cons_of_mem _ hx⟩
  have hat : ∀ x ∈ s.hosts.map (·.at_), x ∈ s.hosts.flatMap HostShape.cells := fun x hx => by
    obtain ⟨l, hl, rfl⟩ := List.mem_map.mp hx
    exact List.mem_flatMap.mpr ⟨l, hl, by simp [HostShape.cells]⟩
  obtain ⟨m1, e1, q1, f1, w1⟩ := plain_frees m _ _ fuel H.fcgi (by omega)
  have k1 : ∀ x, x ≠ c → x ∉ s.fcgi → m1 x = m x := fun x h1 h2 => w1 x (by simp [h1, h2])
  obtain ⟨m2, e2, q2, f2, w2⟩ := hosts_free m1 (c + 1) s.hosts fuel
    (queue_frame (fun x hx => by
      rcases List.mem_cons.mp hx with rfl | hx
      · exact k1 _ (fun y => a12 y.symm) a2a
      · exact k1 _ (fun y => a1l (y ▸ hat x hx)) (fun y => dal x y x (hat x hx) rfl)) H.hosts)
    (fun h hh => by
      obtain ⟨i1, i2, i3, i4, i5⟩ := H.inHosts h hh
      have hcells := nodup_flatMap_mem HostShape.cells s.hosts nl h hh
      have hlen := flatMap_len HostShape.cells s.hosts h hh
      have hce : h.cells = h.at_ :: hostOwn h := rfl
      rw [hce, List.length_cons] at hlen
      exact hostLists_frame (fun x hx => k1 x (fun y => a1l (y ▸ hown h hh x hx)) (fun y => dal x y x (hown h hh x hx) rfl))
        ⟨i1, i2, i3, i4, i5, (List.nodup_cons.mp (hce ▸ hcells)).2, by omega⟩)
    (List.nodup_cons.mpr ⟨a2l, nl⟩) (by omega)
  have k2 : ∀ x, x ≠ c + 1 → x ∉ s.hosts.flatMap HostShape.cells → m2 x = m1 x := fun x h1 h2 => w2 x (by
    intro y
    rcases List.mem_cons.mp y with y | y
    · exact h1 y
    · exact h2 y)
  obtain ⟨m3, e3, q3, f3, w3⟩ := plain_frees m2 (c + 2) s.pkis fuel
    (queue_frame (fun x hx => by
      rcases List.mem_cons.mp hx with rfl | hx
      · rw [k2 _ (fun y => a23 y.symm) a3l, k1 _ (fun y => a13 y.symm) a3a]
      · rw [k2 _ (fun y => a2s (y ▸ hx)) (fun y => dals x (.inr y) x hx rfl), k1 _ (fun y => a1s (y ▸ hx)) (fun y => dals x (.inl y) x hx rfl)]) H.pkis) (by omega)
  have k3 : ∀ x, x ≠ c + 2 → x ∉ s.pkis → m3 x = m2 x := fun x h1 h2 => w3 x (by simp [h1, h2])
  obtain ⟨m4, e4, q4, f4, w4⟩ := plain_frees m3 (c + 3) s.addrs fuel
    (queue_frame (fun x hx => by
      rcases List.mem_cons.mp hx with rfl | hx
      · rw [k3 _ (fun y => a34 y.symm) a4s, k2 _ (fun y => a24 y.symm) a4l, k1 _ (fun y => a14 y.symm) a4a]
      · rw [k3 _ (fun y => a3p (y ▸ hx)) (fun y => dalsp x (.inr y) x hx rfl), k2 _ (fun y => a2p (y ▸ hx)) (fun y => dalsp x (.inl (.inr y)) x hx rfl),
          k1 _ (fun y => a1p (y ▸ hx)) (fun y => dalsp x (.inl (.inl y)) x hx rfl)]) H.addrs) (by omega)
  have k4 : ∀ x, x ≠ c + 3 → x ∉ s.addrs → m4 x = m3 x := fun x h1 h2 => w4 x (by simp [h1, h2])
  -- the reset
  have z1 : c ≠ 0 := fun x => H.fcgi.notNull (by simp [x])
  obtain ⟨m5, e5, q5, w5⟩ := C143_init ((((m4.upd c (some ⟨0, 0⟩)).upd (c + 1) (some ⟨0, 0⟩)).upd (c + 2) (some ⟨0, 0⟩)).upd (c + 3) (some ⟨0, 0⟩)) c ⟨0, 0⟩
    (by rw [upd_other _ _ a14, upd_other _ _ a13, upd_other _ _ a12, upd_same]) z1
  obtain ⟨m6, e6, q6, w6⟩ := C143_init m5 (c + 1) ⟨0, 0⟩
    (by rw [w5 _ (by simp), upd_other _ _ a24, upd_other _ _ a23, upd_same]) (by omega)
  obtain ⟨m7, e7, q7, w7⟩ := C143_init m6 (c + 2) ⟨0, 0⟩
    (by rw [w6 _ (by simp), w5 _ (by simp), upd_other _ _ a34, upd_same]) (by omega)
  have k7 : ∀ x, x ≠ c → x ≠ c + 1 → x ≠ c + 2 → x ≠ c + 3 → m7 x = m4 x := fun x h1 h2 h3 h4 => by
    rw [w7 x (by simpa using h3), w6 x (by simpa using h2), w5 x (by simpa using h1), upd_other _ _ h4, upd_other _ _ h3, upd_other _ _ h2, upd_other _ _ h1]
  refine ⟨m7, ?_, ?_, ?_, ?_, ?_, q7, ?_⟩
  · unfold purgeConf
    simp only [Option.bind_eq_bind, e1, Option.bind_some, e2, e3, e4]
    unfold purgeReset
    simp only [Option.bind_eq_bind, Option.bind_some, e5, e6, e7]
  · intro x hx
    have hne : x ≠ c ∧ x ≠ c + 1 ∧ x ≠ c + 2 ∧ x ≠ c + 3 := by
      have := H.apart
      simp only [List.nodup_cons, List.mem_cons, not_or] at this
      exact ⟨fun y => this.1.2.2.2 (y ▸ hx), fun y => this.2.1.2.2 (y ▸ hx), fun y => this.2.2.1.2 (y ▸ hx), fun y => this.2.2.2.1 (y ▸ hx)⟩
    rw [k7 x hne.1 hne.2.1 hne.2.2.1 hne.2.2.2]
    simp only [ConfShape.cells, List.mem_append] at hx
    rcases hx with ((hx | hx) | hx) | hx
    · rw [k4 x hne.2.2.2 (fun y => dalsp x (.inl (.inl hx)) x y rfl), k3 x hne.2.2.1 (fun y => dals x (.inl hx) x y rfl), k2 x hne.2.1 (fun y => dal x hx x y rfl), f1 x hx]
    · rw [k4 x hne.2.2.2 (fun y => dalsp x (.inl (.inr hx)) x y rfl), k3 x hne.2.2.1 (fun y => dals x (.inr hx) x y rfl), f2 x hx]
    · rw [k4 x hne.2.2.2 (fun y => dalsp x (.inr hx) x y rfl), f3 x hx]
    · exact f4 x hx
  · intro x hx
    simp only [ConfShape.cells, List.mem_cons, List.mem_append, not_or] at hx
    obtain ⟨c1, c2, c3, c4, ⟨⟨ca, cl⟩, cs⟩, cp⟩ := hx
    rw [k7 x c1 c2 c3 c4, k4 x c4 cp, k3 x c3 cs, k2 x c2 (by simpa using cl), k1 x c1 ca]
  · exact queue_frame (fun x hx => by
      simp only [List.mem_singleton] at hx
      subst hx
      rw [w7 _ (by simp), w6 _ (by simp)]) q5
  · exact queue_frame (fun x hx => by
      simp only [List.mem_singleton] at hx
      subst hx
      rw [w7 _ (by simp)]) q6
  · rw [w7 _ (by simp), w6 _ (by simp), w5 _ (by simp), upd_same]

/-- free of one cell -/
theorem free_one {m : QMem} {a : Nat} {c : QCell} (h : m a = some c) : m.free a 1 = some (m.upd a none) := by
  unfold QMem.free
  rw [h]
  rfl

theorem macros_loop (persist : Nat → Bool) (h : Nat) : ∀ (r p : List Nat) (m : QMem) (fuel : Nat), IsQueue m h (p ++ r) → r.length ≤ fuel →
    ∃ m', tailqForeachSafe (fun m e => if persist e then some m else purgeFirst (fun m _ => some m) 1 h m e) fuel m (r.head?.getD 0) = some m' ∧
      IsQueue m' h (p ++ r.filter persist) ∧ (∀ x ∈ r, persist x = false → m' x = none) ∧ Within (h :: (p ++ r)) m m' := by
  intro r
  induction r with
  | nil =>
    intro p m fuel q _
    exact ⟨m, by cases fuel <;> rfl, by simpa using q, fun x hx => by simp at hx, fun _ _ => rfl⟩
  | cons e r ih =>
    intro p m fuel q hf
    obtain ⟨k, rfl⟩ : ∃ k, fuel = k + 1 := ⟨fuel - 1, by simp at hf; omega⟩
    have hfst := (C143_next_prev m h e p r q).1
    have he0 : e ≠ 0 := fun x => q.notNull (by simp [x])
    have hap := q.apart
    rw [← List.cons_append] at hap
    obtain ⟨hap1, hap2, hap3⟩ := List.nodup_append.mp hap
    have hstep : ∀ body : QMem → Nat → Option QMem, ∀ m1, body m e = some m1 → tailqForeachSafe body (k + 1) m ((e :: r).head?.getD 0) = tailqForeachSafe body k m1 (r.head?.getD 0) := by
      intro body m1 hb
      simp only [List.head?_cons, Option.getD_some]
      generalize hE : e = a at *
      obtain ⟨b, rfl⟩ : ∃ b, a = b + 1 := ⟨a - 1, by omega⟩
      simp only [tailqForeachSafe, hfst, hb]
    by_cases hp : persist e = true
    · obtain ⟨m', e1, q1, f1, w1⟩ := ih (p ++ [e]) m k (by simpa using q) (by simp at hf; omega)
      refine ⟨m', ?_, ?_, ?_, ?_⟩
      · rw [hstep _ m (by simp [hp])]
        exact e1
      · rw [List.filter_cons_of_pos hp]
        simpa using q1
      · intro x hx hpx
        rcases List.mem_cons.mp hx with rfl | hx
        · rw [hp] at hpx; cases hpx
        · exact f1 x hx hpx
      · simpa using w1
    · have hp' : persist e = false := by simpa using hp
      obtain ⟨m1, e1, q1, w1⟩ := C143_remove m h e p r q
      have hem : e ∉ h :: (p ++ r) := by
        intro y
        rw [← List.cons_append] at y
        rcases List.mem_append.mp y with y | y
        · exact hap3 e y e (by simp) rfl
        · exact (List.nodup_cons.mp hap2).1 y
      obtain ⟨c, hc⟩ := leads_alloc _ h q.leads e (by simp)
      have hfree := free_one (m := m1) (a := e) (c := c) (by rw [w1 e hem, hc])
      obtain ⟨m', e2, q2, f2, w2⟩ := ih p (m1.upd e none) k (queue_frame (fun x hx => upd_other _ _ (fun y => hem (y ▸ hx))) q1) (by simp at hf; omega)
      refine ⟨m', ?_, ?_, ?_, ?_⟩
      · rw [hstep _ (m1.upd e none) (by
          simp only [hp']
          unfold purgeFirst
          simp only [Option.bind_eq_bind, e1, Option.bind_some, hfree]
          rfl)]
        exact e2
      · rw [List.filter_cons_of_neg hp]
        exact q2
      · intro x hx hpx
        by_cases hxe : x = e
        · subst hxe
          rw [w2 x hem, upd_same]
        · exact f2 x ((List.mem_cons.mp hx).resolve_left hxe) hpx
      · intro x hx
        have hx' : x ∉ h :: (p ++ r) ∧ x ≠ e := by
          simp only [List.mem_cons, List.mem_append, not_or] at hx ⊢
          exact ⟨⟨hx.1, hx.2.1, hx.2.2.2⟩, hx.2.2.1⟩
        rw [w2 x hx'.1, upd_other _ _ hx'.2, w1 x hx'.1]

/-- C143: at the end of the configuration file exactly the macros defined in it are freed; those of the command line stay, in their order. -/
theorem C143_macros (persist : Nat → Bool) (m : QMem) (h : Nat) (l : List Nat) (q : IsQueue m h l) (fuel : Nat) (hf : l.length ≤ fuel) :
    ∃ m', freeMacros persist fuel m h = some m' ∧ IsQueue m' h (l.filter persist) ∧ (∀ x ∈ l, persist x = false → m' x = none) ∧ Within (h :: l) m m' := by
  obtain ⟨m', e, q', f, w⟩ := macros_loop persist h l [] m fuel q hf
  refine ⟨m', ?_, q', f, w⟩
  unfold freeMacros purgeLoop
  rw [first_ok q]
  exact e

/-- C143: the end of a file that was included leads back to the one that includes it, and that of the first file to none. -/
theorem C143_popfile (m : QMem) (h e : Nat) (l : List Nat) (q : IsQueue m h (l ++ [e])) :
    ∃ m', popfileList m h e = some (m', l.getLast?.getD 0) ∧ IsQueue m' h l ∧ m' e = none ∧ Within (h :: e :: l) m m' := by
  obtain ⟨m1, e1, q1, w1⟩ := C143_remove m h e l [] q
  rw [List.append_nil] at q1 w1
  have hem : e ∉ h :: l := by
    have := q.apart
    rw [← List.cons_append] at this
    exact fun y => (List.nodup_append.mp this).2.2 e y e (by simp) rfl
  obtain ⟨c, hc⟩ := leads_alloc _ h q.leads e (by simp)
  refine ⟨m1.upd e none, ?_, queue_frame (fun x hx => upd_other _ _ (fun y => hem (y ▸ hx))) q1, upd_same _ _ _, fun x hx => ?_⟩
  · unfold popfileList
    simp only [Option.bind_eq_bind, (C143_next_prev m h e l [] q).2, Option.bind_some, e1, free_one (show m1 e = some c by rw [w1 e hem, hc])]
  · simp only [List.mem_cons, not_or] at hx
    rw [upd_other _ _ hx.2.1, w1 x (by simp [hx.1, hx.2.2])]

/-! ## a configuration in memory -/

/-- FastCGI 60; a host at 10 with the address 20, the location 30 with the parameters 40 and 41, and the relay 50; the addresses 70 and 80 -/
def someMem : QMem := fun x =>
  (([(1, ⟨60, 60⟩), (60, ⟨0, 1⟩), (2, ⟨10, 10⟩), (10, ⟨0, 2⟩), (3, ⟨0, 3⟩), (4, ⟨70, 80⟩), (70, ⟨80, 4⟩), (80, ⟨0, 70⟩),
    (11, ⟨20, 20⟩), (20, ⟨0, 11⟩), (12, ⟨30, 30⟩), (30, ⟨0, 12⟩), (13, ⟨0, 13⟩), (14, ⟨50, 50⟩), (50, ⟨0, 14⟩), (31, ⟨40, 41⟩), (40, ⟨41, 31⟩), (41, ⟨0, 40⟩),
    (99, ⟨5, 6⟩)] : List (Nat × QCell)).find? fun p => p.1 = x).map (·.2)

def someShape : ConfShape :=
  { fcgi := [60], hosts := [{ at_ := 10, addrs := [20], locs := [{ at_ := 30, params := [40, 41] }], aliases := [], proxies := [50] }], pkis := [], addrs := [70, 80] }

theorem someHolds : HoldsConf someMem 1 someShape := by
  refine ⟨by decide, ⟨by decide, by decide, ⟨⟨_, rfl⟩, ⟨_, rfl⟩, ⟨_, rfl⟩⟩, ⟨_, rfl⟩⟩, ⟨by decide, by decide, ⟨⟨_, rfl⟩, ⟨_, rfl⟩, ⟨_, rfl⟩⟩, ⟨_, rfl⟩⟩,
    ⟨by decide, by decide, ⟨_, rfl⟩, ⟨_, rfl⟩⟩, ⟨by decide, by decide, ⟨⟨_, rfl⟩, ⟨_, rfl⟩, ⟨_, rfl⟩, ⟨_, rfl⟩, ⟨_, rfl⟩⟩, ⟨_, rfl⟩⟩, ?_⟩
  intro h hh
  simp only [someShape, List.mem_singleton] at hh
  subst hh
  refine ⟨⟨by decide, by decide, ⟨⟨_, rfl⟩, ⟨_, rfl⟩, ⟨_, rfl⟩⟩, ⟨_, rfl⟩⟩, ⟨by decide, by decide, ⟨⟨_, rfl⟩, ⟨_, rfl⟩, ⟨_, rfl⟩⟩, ⟨_, rfl⟩⟩, ⟨by decide, by decide, ⟨_, rfl⟩, ⟨_, rfl⟩⟩,
    ⟨by decide, by decide, ⟨⟨_, rfl⟩, ⟨_, rfl⟩, ⟨_, rfl⟩⟩, ⟨_, rfl⟩⟩, ?_⟩
  intro l hl
  simp only [List.mem_singleton] at hl
  subst hl
  exact ⟨by decide, by decide, ⟨⟨_, rfl⟩, ⟨_, rfl⟩, ⟨_, rfl⟩, ⟨_, rfl⟩, ⟨_, rfl⟩⟩, ⟨_, rfl⟩⟩

example : ∃ m', purgeConf 20 someMem 1 = some m' ∧ m' 41 = none ∧ m' 13 = none ∧ m' 99 = some ⟨5, 6⟩ := by
  obtain ⟨m', e, f, w, -⟩ := C143_purge someMem 1 someShape someHolds 20 (by decide)
  exact ⟨m', e, f 41 (by decide), f 13 (by decide), w 99 (by decide)⟩

/-- 99 is put at the end, and 80 is taken out of the middle -/
example : ∃ m1 m2, tailqInsertTail someMem 4 99 = some m1 ∧ IsQueue m1 4 [70, 80, 99] ∧ tailqRemove m1 4 80 = some m2 ∧ IsQueue m2 4 [70, 99] := by
  obtain ⟨m1, e1, q1, -⟩ := C143_insert_tail someMem 4 99 [70, 80] ⟨5, 6⟩ someHolds.addrs rfl (by decide) (by decide)
  obtain ⟨m2, e2, q2, -⟩ := C143_remove m1 4 80 [70] [99] q1
  exact ⟨m1, m2, e1, q1, e2, q2⟩

example : ∃ m1, tailqInsertHead someMem 4 99 = some m1 ∧ IsQueue m1 4 [99, 70, 80] := by
  obtain ⟨m1, e1, q1, -⟩ := C143_insert_head someMem 4 99 [70, 80] ⟨5, 6⟩ someHolds.addrs rfl (by decide) (by decide)
  exact ⟨m1, e1, q1⟩

example : ∃ m', freeMacros (fun x => x == 80) 2 someMem 4 = some m' ∧ IsQueue m' 4 [80] ∧ m' 70 = none := by
  obtain ⟨m', e, q, f, -⟩ := C143_macros (fun x => x == 80) someMem 4 [70, 80] someHolds.addrs 2 (by decide)
  exact ⟨m', e, q, f 70 (by decide) (by decide)⟩

example : ∃ m', popfileList someMem 4 80 = some (m', 70) ∧ IsQueue m' 4 [70] := by
  obtain ⟨m', e, q, -⟩ := C143_popfile someMem 4 80 [70] someHolds.addrs
  exact ⟨m', e, q⟩

end Gmid.Props
