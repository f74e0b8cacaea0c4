import Verif.Spec.Splay
import Verif.Lemmas.Splay

/-!
# C121: the table of open connections
-/

set_option autoImplicit false

namespace Gmid.Props

open Gmid.Spec

/-- a list without repetitions is no longer than one it is part of -/
theorem nodup_length {l : List Nat} (hn : l.Nodup) : ∀ {m : List Nat}, (∀ x ∈ l, x ∈ m) → l.length ≤ m.length := by
  induction l with
  | nil => intro m _; exact Nat.zero_le _
  | cons a l ih =>
    intro m hm
    rw [List.nodup_cons] at hn
    have ha : a ∈ m := hm a List.mem_cons_self
    have h1 := ih hn.2 (m := m.erase a) (by
      intro x hx
      exact (List.mem_erase_of_ne (show x ≠ a from fun e => hn.1 (e ▸ hx))).mpr (hm x (List.mem_cons_of_mem _ hx)))
    have h2 := List.length_erase_of_mem ha
    have h3 : 0 < m.length := List.length_pos_of_mem ha
    simp only [List.length_cons]
    omega

theorem TabInv.length {t : Table} {live all : List Nat} (i : TabInv t live all) : all.length ≤ live.length := by
  obtain ⟨p, T⟩ := i.tree
  exact nodup_length T.nodup i.sub

/-- what is below the root is the tree -/
theorem below_rep {key : Nat → Nat} {h : SHeap} {t : PTree} (h0 : h 0 = none) (hr : RepT key h t) (hge : ∀ a ∈ t.addrs, 2 ≤ a) (p : Nat) :
    TreeBelow h t.root p ↔ p ∈ t.addrs := by
  constructor
  · intro hb
    generalize hq : t.root = q at hb
    induction hb generalizing t with
    | refl p hp =>
      subst hq
      refine PTree.root_mem ?_
      rintro rfl; exact hp rfl
    | left r p n hn _ ih =>
      cases t with
      | nil => rw [← hq, show PTree.nil.root = 0 from rfl, h0] at hn; cases hn
      | node l a r' =>
        have e : r = a := hq.symm
        subst e
        rw [hr.1] at hn
        cases hn
        simp only [PTree.addrs, List.mem_append, List.mem_cons] at hge ⊢
        exact .inl (ih hr.2.1 (fun x hx => hge x (.inl hx)) rfl)
    | right r p n hn _ ih =>
      cases t with
      | nil => rw [← hq, show PTree.nil.root = 0 from rfl, h0] at hn; cases hn
      | node l a r' =>
        have e : r = a := hq.symm
        subst e
        rw [hr.1] at hn
        cases hn
        simp only [PTree.addrs, List.mem_append, List.mem_cons] at hge ⊢
        exact .inr (.inr (ih hr.2.2 (fun x hx => hge x (.inr (.inr hx))) rfl))
  · intro hp
    induction t with
    | nil => cases hp
    | node l a r ihl ihr =>
      simp only [PTree.addrs, List.mem_append, List.mem_cons] at hge hp
      rcases hp with hp | rfl | hp
      · exact .left _ _ _ hr.1 (ihl hr.2.1 (fun x hx => hge x (.inl hx)) hp)
      · have := hge p (.inr (.inl rfl))
        exact .refl p (by omega)
      · exact .right _ _ _ hr.1 (ihr hr.2.2 (fun x hx => hge x (.inr (.inr hx))) hp)

/-- the part of the tree at one of its clients -/
theorem sub_rep {key : Nat → Nat} {h : SHeap} {t : PTree} (hr : RepT key h t) {p : Nat} (hp : p ∈ t.addrs) :
    ∃ l r, h p = some ⟨key p, l.root, r.root⟩ ∧ RepT key h l ∧ RepT key h r ∧ (l.addrs ++ p :: r.addrs).Sublist t.addrs := by
  induction t with
  | nil => cases hp
  | node l a r ihl ihr =>
    simp only [PTree.addrs, List.mem_append, List.mem_cons] at hp
    rcases hp with hp | rfl | hp
    · obtain ⟨l', r', h1, h2, h3, h4⟩ := ihl hr.2.1 hp
      exact ⟨l', r', h1, h2, h3, h4.trans (List.sublist_append_left _ _)⟩
    · exact ⟨l, r, hr.1, hr.2.1, hr.2.2, List.Sublist.refl _⟩
    · obtain ⟨l', r', h1, h2, h3, h4⟩ := ihr hr.2.2 hp
      exact ⟨l', r', h1, h2, h3, h4.trans ((List.sublist_cons_self _ _).trans (List.sublist_append_right _ _))⟩

theorem TabInv.null {t : Table} {live all : List Nat} (i : TabInv t live all) : t.h 0 = none := by
  cases h : t.h 0 with
  | none => rfl
  | some n =>
    have := i.far 0 ((i.mem 0).mp (by rw [h]; rfl))
    omega

theorem TabInv.inTable {t : Table} {live all : List Nat} (i : TabInv t live all) (p : Nat) : InTable t p ↔ p ∈ all := by
  obtain ⟨T, hT⟩ := i.tree
  unfold InTable
  rw [hT.root, below_rep i.null hT.rep (fun a ha => hT.far a (hT.addrs ▸ ha)), hT.addrs]

theorem idOf_eq {h : SHeap} {p : Nat} {n : SNode} (e : h p = some n) : idOf h p = n.id := by simp [idOf, e]

theorem TabInv.search {t : Table} {live all : List Nat} (i : TabInv t live all) : SearchTree t := by
  intro p n q m hp hn hm
  have hp' := (i.inTable p).mp hp
  obtain ⟨T, hT⟩ := i.tree
  rw [← hT.addrs] at hp'
  obtain ⟨l, r, h1, h2, h3, h4⟩ := sub_rep hT.rep hp'
  rw [hn] at h1
  simp only [Option.some.injEq] at h1
  subst h1
  have so := hT.sorted.sublist (hT.addrs ▸ h4)
  simp only [List.pairwise_append, List.pairwise_cons, List.mem_cons] at so
  have hge : ∀ a, a ∈ l.addrs ++ p :: r.addrs → 2 ≤ a := fun a ha => hT.far a (hT.addrs ▸ h4.subset ha)
  constructor
  · intro hb
    have := (below_rep i.null h2 (fun a ha => hge a (by simp [ha])) q).mp hb
    have := so.2.2 q this p (.inl rfl)
    rw [idOf_eq hm] at this; exact this
  · intro hb
    have := (below_rep i.null h3 (fun a ha => hge a (by simp [ha])) q).mp hb
    have := so.2.1.1 q this
    rw [idOf_eq hm] at this; exact this

theorem openThen_length (live : List Nat) (ev : TEv) : (openThen live ev).length ≤ live.length + acceptsIn [ev] := by
  cases ev with
  | accept p => exact Nat.le_refl _
  | close p => exact List.length_filter_le _ _

/-- the invariant holds for ever -/
theorem table_run_inv (evs : List TEv) : ∀ (t : Table) (live all : List Nat) (fuel : Nat), TabInv t live all → CanBe live evs → live.length + acceptsIn evs ≤ fuel →
    ∃ t' all', tableRun fuel evs t = .ok t' ∧ TabInv t' (openAfter live evs) all' := by
  induction evs with
  | nil => intro t live all fuel i _ _; exact ⟨t, all, rfl, i⟩
  | cons ev r ih =>
    intro t live all fuel i hc hf
    have hlen := i.length
    cases ev with
    | accept p =>
      simp only [acceptsIn] at hf
      obtain ⟨t1, all1, e1, i1, -⟩ := accept_inv i hc.1.1 hc.1.2 (fuel := fuel) (by omega)
      obtain ⟨t2, all2, e2, i2⟩ := ih t1 _ all1 fuel i1 hc.2 (by simp only [List.length_cons]; omega)
      exact ⟨t2, all2, by rw [tableRun, e1, bind_ok]; exact e2, i2⟩
    | close p =>
      simp only [acceptsIn] at hf
      obtain ⟨t1, all1, e1, i1, -⟩ := close_inv i hc.1 (fuel := fuel) (by omega)
      have := openThen_length live (.close p)
      simp only [acceptsIn] at this
      obtain ⟨t2, all2, e2, i2⟩ := ih t1 _ all1 fuel i1 hc.2 (by
        have h : (live.filter (· ≠ p)).length ≤ live.length := List.length_filter_le _ _
        omega)
      exact ⟨t2, all2, by rw [tableRun, e1, bind_ok]; exact e2, i2⟩

theorem tableInit_inv : TabInv tableInit [] [] := by
  refine ⟨⟨.nil, trivial, rfl, rfl, .nil, ?_⟩, rfl, ?_, ?_, ?_⟩
  · intro a ha; cases ha
  · intro p; simp [tableInit]
  · intro p hp; cases hp
  · intro p hp; cases hp

/-- C121: whatever connections are accepted and closed, in whatever order, and wherever in memory they are put, maintaining the table never touches memory that is not
there, never goes round for ever, and the table is a search tree of connections that are open: nothing in it was freed. -/
theorem C121_table (evs : List TEv) (hc : CanBe [] evs) (fuel : Nat) (hf : acceptsIn evs ≤ fuel) :
    ∃ t, tableRun fuel evs tableInit = .ok t ∧ (∀ p, (t.h p).isSome = true ↔ p ∈ openAfter [] evs) ∧ (∀ p, InTable t p → p ∈ openAfter [] evs) ∧ SearchTree t := by
  obtain ⟨t, all, h1, h2⟩ := table_run_inv evs tableInit [] [] fuel tableInit_inv hc (by simpa using hf)
  exact ⟨t, h1, h2.mem, fun p hp => h2.sub p ((h2.inTable p).mp hp), h2.search⟩

/-! ## fewer than 2^32 connections -/

/-- the ids are those of the connections accepted so far, and no two are alike -/
structure Fresh (t : Table) (live all : List Nat) : Prop where
  whole : ∀ p ∈ live, p ∈ all
  old : ∀ p ∈ live, idOf t.h p ≤ t.count
  diff : ∀ p ∈ live, ∀ q ∈ live, idOf t.h p = idOf t.h q → p = q

theorem run_fresh (evs : List TEv) : ∀ (t : Table) (live all : List Nat) (fuel : Nat), TabInv t live all → Fresh t live all → CanBe live evs →
    live.length + acceptsIn evs ≤ fuel → t.count + acceptsIn evs < 2 ^ 32 →
    ∃ t' all', tableRun fuel evs t = .ok t' ∧ TabInv t' (openAfter live evs) all' ∧ Fresh t' (openAfter live evs) all' := by
  induction evs with
  | nil => intro t live all fuel i fr _ _ _; exact ⟨t, all, rfl, i, fr⟩
  | cons ev r ih =>
    intro t live all fuel i fr hc hf hw
    have hlen := i.length
    cases ev with
    | accept p =>
      simp only [acceptsIn] at hf hw
      obtain ⟨t1, all1, e1, i1, c1, d1, d2, -, k2⟩ := accept_inv i hc.1.1 hc.1.2 (fuel := fuel) (by omega)
      have hm : (t.count + 1) % 2 ^ 32 = t.count + 1 := Nat.mod_eq_of_lt (by omega)
      rw [hm] at c1 d1 k2
      have hno : ¬ ∃ a ∈ all, idOf t.h a = t.count + 1 := by
        rintro ⟨a, ha, e⟩
        have := fr.old a (i.sub a ha)
        omega
      have hpl := hc.1.2
      have fr1 : Fresh t1 (p :: live) all1 := by
        refine ⟨?_, ?_, ?_⟩
        · intro q hq
          rw [k2 hno]
          rcases List.mem_cons.mp hq with hq | hq
          · exact .inl hq
          · exact .inr (fr.whole q hq)
        · intro q hq
          by_cases e : q = p
          · subst e; rw [d1, c1]; exact Nat.le_refl _
          · have := fr.old q ((List.mem_cons.mp hq).resolve_left e)
            rw [d2 q e, c1]; omega
        · intro q hq w hw' hqw
          by_cases e : q = p <;> by_cases e' : w = p
          · rw [e, e']
          · have := fr.old w ((List.mem_cons.mp hw').resolve_left e')
            rw [e, d1, d2 w e'] at hqw
            omega
          · have := fr.old q ((List.mem_cons.mp hq).resolve_left e)
            rw [e', d1, d2 q e] at hqw
            omega
          · rw [d2 q e, d2 w e'] at hqw
            exact fr.diff q ((List.mem_cons.mp hq).resolve_left e) w ((List.mem_cons.mp hw').resolve_left e') hqw
      obtain ⟨t2, all2, e2, i2, f2⟩ := ih t1 _ all1 fuel i1 fr1 hc.2 (by simp only [List.length_cons]; omega) (by omega)
      exact ⟨t2, all2, by rw [tableRun, e1, bind_ok]; exact e2, i2, f2⟩
    | close p =>
      simp only [acceptsIn] at hf hw
      obtain ⟨t1, all1, e1, i1, c1, d2, k2⟩ := close_inv i hc.1 (fuel := fuel) (by omega)
      have hmem : ∀ q, q ∈ live.filter (· ≠ p) → q ∈ live ∧ q ≠ p := by
        intro q hq
        have := List.mem_filter.mp hq
        simpa using this
      have fr1 : Fresh t1 (live.filter (· ≠ p)) all1 := by
        refine ⟨?_, ?_, ?_⟩
        · intro q hq
          obtain ⟨h1, h2⟩ := hmem q hq
          rw [k2]
          exact ⟨fr.whole q h1, fun e => h2 (fr.diff q h1 p hc.1 e)⟩
        · intro q hq
          obtain ⟨h1, h2⟩ := hmem q hq
          rw [d2 q h2, c1]; exact fr.old q h1
        · intro q hq w hw' hqw
          obtain ⟨h1, h2⟩ := hmem q hq
          obtain ⟨h3, h4⟩ := hmem w hw'
          rw [d2 q h2, d2 w h4] at hqw
          exact fr.diff q h1 w h3 hqw
      obtain ⟨t2, all2, e2, i2, f2⟩ := ih t1 _ all1 fuel i1 fr1 hc.2 (by
        have h : (live.filter (· ≠ p)).length ≤ live.length := List.length_filter_le _ _
        omega) (by omega)
      exact ⟨t2, all2, by rw [tableRun, e1, bind_ok]; exact e2, i2, f2⟩

/-- C121, the other half: the open connections are in the table, and no two of them have the same id.  Partial: only of a server that has accepted fewer than 2^32
connections; see `C121_wrap`. -/
theorem C121_all_partial (evs : List TEv) (hc : CanBe [] evs) (hw : acceptsIn evs < 2 ^ 32) (fuel : Nat) (hf : acceptsIn evs ≤ fuel) :
    ∃ t, tableRun fuel evs tableInit = .ok t ∧ (∀ p, InTable t p ↔ p ∈ openAfter [] evs) ∧
      ∀ p q n m, t.h p = some n → t.h q = some m → n.id = m.id → p = q := by
  obtain ⟨t, all, h1, h2, h3⟩ := run_fresh evs tableInit [] [] fuel tableInit_inv ⟨by simp, by simp, by simp⟩ hc (by simpa using hf) (by simpa [tableInit] using hw)
  refine ⟨t, h1, fun p => ⟨fun hp => h2.sub p ((h2.inTable p).mp hp), fun hp => (h2.inTable p).mpr (h3.whole p hp)⟩, ?_⟩
  intro p q n m hn hm e
  refine h3.diff p ((h2.mem p).mp (by rw [hn]; rfl)) q ((h2.mem q).mp (by rw [hm]; rfl)) ?_
  rw [idOf_eq hn, idOf_eq hm, e]

/-- five connections; the third and the first are closed -/
def exEvs : List TEv := [.accept 40, .accept 24, .accept 88, .close 88, .accept 32, .close 40, .accept 88]

example : CanBe [] exEvs ∧ openAfter [] exEvs = [88, 32, 24] := by
  refine ⟨?_, rfl⟩
  simp [exEvs, CanBe, openThen]

example : acceptsIn exEvs < 2 ^ 32 ∧ acceptsIn exEvs ≤ 5 := by decide

/-! ## afterwards -/

/-- one connection stays; others come and go, each put where the one before it was -/
def comeAndGo : Nat → List TEv
  | 0 => []
  | n + 1 => .accept 3 :: .close 3 :: comeAndGo n

theorem tableRun_append (fuel : Nat) (a b : List TEv) : ∀ t : Table, tableRun fuel (a ++ b) t = (tableRun fuel a t).bind (tableRun fuel b) := by
  induction a with
  | nil => intro t; rfl
  | cons ev r ih =>
    intro t
    rw [List.cons_append, tableRun, tableRun]
    cases tableStep fuel ev t with
    | ok t1 => exact ih t1
    | err => rfl
    | ub => rfl

theorem comeAndGo_run (n : Nat) : ∀ (t : Table), TabInv t [2] [2] → idOf t.h 2 = 1 → 1 ≤ t.count → t.count + n < 2 ^ 32 →
    ∃ t', tableRun 2 (comeAndGo n) t = .ok t' ∧ TabInv t' [2] [2] ∧ idOf t'.h 2 = 1 ∧ t'.count = t.count + n := by
  induction n with
  | zero => intro t i h1 _ _; exact ⟨t, rfl, i, h1, rfl⟩
  | succ n ih =>
    intro t i h1 h2 h3
    obtain ⟨t1, all1, e1, i1, c1, d1, d2, -, k2⟩ := accept_inv i (p := 3) (by decide) (by decide) (fuel := 2) (by decide)
    have hm : (t.count + 1) % 2 ^ 32 = t.count + 1 := Nat.mod_eq_of_lt (by omega)
    rw [hm] at c1 d1 k2
    have hno : ¬ ∃ a ∈ [2], idOf t.h a = t.count + 1 := by
      rintro ⟨a, ha, e⟩
      cases List.mem_singleton.mp ha
      omega
    obtain ⟨t2, all2, e2, i2, c2, g2, k3⟩ := close_inv i1 (p := 3) (by decide) (fuel := 2) (Nat.le_trans i1.length (by decide))
    have h2id : idOf t1.h 2 = 1 := by rw [d2 2 (by decide)]; exact h1
    have hall : all2 = [2] := by
      have hmem : ∀ q, q ∈ all2 ↔ q = 2 := by
        intro q
        rw [k3, k2 hno]
        simp only [List.mem_singleton]
        constructor
        · rintro ⟨rfl | h, h'⟩
          · exact absurd rfl h'
          · exact h
        · rintro rfl
          refine ⟨.inr rfl, ?_⟩
          rw [h2id, d1]; omega
      obtain ⟨T, hT⟩ := i2.tree
      have hnd := hT.nodup
      have hl := nodup_length hnd (m := [2]) (fun x hx => by simp [(hmem x).mp hx])
      have h2m := (hmem 2).mpr rfl
      match all2, hl, h2m with
      | [x], _, h => simpa [eq_comm] using h
    subst hall
    have i2' : TabInv t2 [2] [2] := i2
    obtain ⟨t3, e3, i3, h4, c3⟩ := ih t2 i2' (by rw [g2 2 (by decide)]; exact h2id) (by rw [c2, c1]; omega) (by rw [c2, c1]; omega)
    refine ⟨t3, ?_, i3, h4, (by omega)⟩
    rw [comeAndGo, tableRun, e1, bind_ok, tableRun, e2, bind_ok]
    exact e3

theorem comeAndGo_can (n : Nat) : CanBe [2] (comeAndGo n) := by
  induction n with
  | zero => trivial
  | succ n ih => exact ⟨⟨by decide, by decide⟩, by decide, ih⟩

theorem comeAndGo_open (n : Nat) : openAfter [2] (comeAndGo n) = [2] := by
  induction n with
  | zero => rfl
  | succ n ih => exact ih

theorem canBe_append (a b : List TEv) : ∀ live : List Nat, CanBe live a → CanBe (openAfter live a) b → CanBe live (a ++ b) := by
  induction a with
  | nil => intro live _ h; exact h
  | cons ev r ih =>
    intro live h1 h2
    cases ev with
    | accept p => exact ⟨h1.1, ih _ h1.2 h2⟩
    | close p => exact ⟨h1.1, ih _ h1.2 h2⟩

theorem openAfter_append (a b : List TEv) : ∀ live : List Nat, openAfter live (a ++ b) = openAfter (openAfter live a) b := by
  induction a with
  | nil => intro live; rfl
  | cons ev r ih => intro live; exact ih _

/-- the id wraps around: 4294967296 connections after one that is still open, another gets its id and is not put in the table; when it is closed, the one that is still
open is removed from it -/
def wrapEvs (n : Nat) : List TEv := .accept 2 :: (comeAndGo n ++ [.accept 3, .close 3, .accept 3])

theorem wrapEvs_can (n : Nat) : CanBe [] (wrapEvs n) := by
  refine ⟨⟨by decide, by decide⟩, canBe_append _ _ _ (comeAndGo_can _) ?_⟩
  show CanBe (openAfter [2] (comeAndGo n)) _
  rw [comeAndGo_open]
  simp [CanBe, openThen]

theorem wrapEvs_open (n : Nat) : openAfter [] (wrapEvs n) = [3, 2] := by
  show openAfter [2] _ = _
  rw [openAfter_append, comeAndGo_open]; rfl

theorem wrapEvs_run (n : Nat) (t1 t2 t3 t4 t5 : Table) (e1 : tableStep 2 (.accept 2) tableInit = .ok t1) (e2 : tableRun 2 (comeAndGo n) t1 = .ok t2)
    (e3 : tableStep 2 (.accept 3) t2 = .ok t3) (e4 : tableStep 2 (.close 3) t3 = .ok t4) (e5 : tableStep 2 (.accept 3) t4 = .ok t5) :
    tableRun 2 (wrapEvs n) tableInit = .ok t5 := by
  rw [wrapEvs, tableRun, e1, bind_ok, tableRun_append, e2, bind_ok, tableRun, e3, bind_ok, tableRun, e4, bind_ok, tableRun, e5, bind_ok]
  rfl

theorem C121_wrap : CanBe [] (wrapEvs (2 ^ 32 - 2)) ∧ openAfter [] (wrapEvs (2 ^ 32 - 2)) = [3, 2] ∧ ∃ t, tableRun 2 (wrapEvs (2 ^ 32 - 2)) tableInit = .ok t ∧ InTable t 2 ∧ ¬ InTable t 3 ∧
    ∃ t', tableStep 2 (.close 3) t = .ok t' ∧ openThen (openAfter [] (wrapEvs (2 ^ 32 - 2))) (.close 3) = [2] ∧ ¬ InTable t' 2 := by
  obtain ⟨t1, all1, e1, i1, c1, d1, -, -, k2⟩ := accept_inv tableInit_inv (p := 2) (by decide) (by decide) (fuel := 2) (by decide)
  have hall : all1 = [2] := by
    have hmem := k2 (by simp)
    obtain ⟨T, hT⟩ := i1.tree
    have hl := nodup_length hT.nodup (m := [2]) (fun x hx => by simpa using (hmem x).mp hx)
    have h2m := (hmem 2).mpr (.inl rfl)
    match all1, hl, h2m with
    | [x], _, h => simpa [eq_comm] using h
  subst hall
  have c1' : t1.count = 1 := c1
  have d1' : idOf t1.h 2 = 1 := d1
  obtain ⟨t2, e2, i2, h2, c2⟩ := comeAndGo_run (2 ^ 32 - 2) t1 i1 d1' (by omega) (by rw [c1']; decide)
  have c2' : t2.count = 2 ^ 32 - 1 := by rw [c2, c1']
  -- the one with id 0
  obtain ⟨t3, all3, e3, i3, c3, d3, d4, -, k3⟩ := accept_inv i2 (p := 3) (by decide) (by decide) (fuel := 2) (by decide)
  have hz : (t2.count + 1) % 2 ^ 32 = 0 := by rw [c2']
  rw [hz] at c3 d3 k3
  have k3' := k3 (by
    rintro ⟨a, ha, e⟩
    cases List.mem_singleton.mp ha
    omega)
  have h23 : idOf t3.h 2 = 1 := by rw [d4 2 (by decide)]; exact h2
  obtain ⟨t4, all4, e4, i4, c4, g4, k4⟩ := close_inv i3 (p := 3) (by decide) (fuel := 2) (Nat.le_trans i3.length (by decide))
  have h24 : idOf t4.h 2 = 1 := by rw [g4 2 (by decide)]; exact h23
  have k4' : ∀ q, q ∈ all4 ↔ q = 2 := by
    intro q
    rw [k4, k3']
    constructor
    · rintro ⟨rfl | h, h'⟩
      · exact absurd rfl h'
      · exact List.mem_singleton.mp h
    · rintro rfl
      exact ⟨.inr (by simp), by rw [h23, d3]; decide⟩
  -- the one with id 1
  obtain ⟨t5, all5, e5, i5, c5, d5, d6, k5, -⟩ := accept_inv i4 (p := 3) (by decide) (by decide) (fuel := 2) (Nat.le_trans i4.length (by decide))
  have ho : (t4.count + 1) % 2 ^ 32 = 1 := by rw [c4, c3]
  rw [ho] at c5 d5 k5
  have k5' := k5 ⟨2, (k4' 2).mpr rfl, h24⟩
  subst k5'
  have h25 : idOf t5.h 2 = 1 := by rw [d6 2 (by decide)]; exact h24
  obtain ⟨t6, all6, e6, i6, -, -, k6⟩ := close_inv i5 (p := 3) (by decide) (fuel := 2) (Nat.le_trans i5.length (by decide))
  refine ⟨wrapEvs_can _, wrapEvs_open _, t5, wrapEvs_run _ _ _ _ _ _ e1 e2 e3 e4 e5, ?_, ?_, t6, e6, ?_, ?_⟩
  · rw [i5.inTable]; exact (k4' 2).mpr rfl
  · rw [i5.inTable, k4']; decide
  · rw [wrapEvs_open]; rfl
  · rw [i6.inTable, k6]
    intro h
    exact h.2 (by rw [h25, d5])

end Gmid.Props
