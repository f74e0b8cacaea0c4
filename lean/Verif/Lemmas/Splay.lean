import Verif.Model.Splay

/-!
# The splay tree of compat/tree.h is related to the list of its clients in order (for C121)
-/

set_option autoImplicit false

namespace Gmid.Props

/-- a tree of clients -/
inductive PTree where
  | nil
  | node (l : PTree) (a : Nat) (r : PTree)

/-- the address of its root -/
def PTree.root : PTree → Nat
  | .nil => 0
  | .node _ a _ => a

/-- its clients, in order -/
def PTree.addrs : PTree → List Nat
  | .nil => []
  | .node l a r => l.addrs ++ a :: r.addrs

/-- the tree is in memory -/
def RepT (key : Nat → Nat) (h : SHeap) : PTree → Prop
  | .nil => True
  | .node l a r => h a = some ⟨key a, l.root, r.root⟩ ∧ RepT key h l ∧ RepT key h r

theorem RepT.frame {key : Nat → Nat} {h h' : SHeap} {t : PTree} (hr : RepT key h t) (hf : ∀ a ∈ t.addrs, h' a = h a) : RepT key h' t := by
  induction t with
  | nil => trivial
  | node l a r ihl ihr =>
    simp only [PTree.addrs, List.mem_append, List.mem_cons] at hf
    exact ⟨(hf a (.inr (.inl rfl))).trans hr.1, ihl hr.2.1 (fun x hx => hf x (.inl hx)), ihr hr.2.2 (fun x hx => hf x (.inr (.inr hx)))⟩

theorem PTree.root_mem {t : PTree} (h : t ≠ .nil) : t.root ∈ t.addrs := by
  cases t with
  | nil => exact absurd rfl h
  | node l a r => simp [PTree.root, PTree.addrs]

theorem PTree.root_zero {t : PTree} (h : ∀ a ∈ t.addrs, 2 ≤ a) : t.root = 0 ↔ t = .nil := by
  constructor
  · intro h0
    cases t with
    | nil => rfl
    | node l a r =>
      have := h a (by simp [PTree.addrs])
      simp only [PTree.root] at h0
      omega
  · rintro rfl; rfl

theorem hset_same (h : SHeap) (p : Nat) (n : Option SNode) : hset h p n p = n := by simp [hset]
theorem hset_other (h : SHeap) (p q : Nat) (n : Option SNode) (hq : q ≠ p) : hset h p n q = h q := by simp [hset, hq]

theorem ld_eq {h : SHeap} {p : Nat} {n : SNode} (e : h p = some n) : ld h p = .ok n := by simp [ld, e]
theorem stL_eq {h : SHeap} {p : Nat} {n : SNode} (e : h p = some n) (x : Nat) : stL h p x = .ok (hset h p (some { n with left := x })) := by
  simp [stL, ld_eq e, Res.bind]
theorem stR_eq {h : SHeap} {p : Nat} {n : SNode} (e : h p = some n) (x : Nat) : stR h p x = .ok (hset h p (some { n with right := x })) := by
  simp [stR, ld_eq e, Res.bind]

theorem bind_ok {α β : Type} (a : α) (f : α → Res β) : (Res.ok a).bind f = f a := rfl

/-! ## the tree of smaller clients: a chain of right children that ends at `q`, whose right child is still to be set -/

def SegL (key : Nat → Nat) (h : SHeap) : Nat → List (PTree × Nat) → Prop
  | q, [] => q = 1
  | q, (l, a) :: L => q = a ∧ (∃ x, h a = some ⟨key a, l.root, x⟩) ∧ RepT key h l ∧ ∃ q', SegL key h q' L ∧ ∃ n, h q' = some n ∧ n.right = a

def addrsL : List (PTree × Nat) → List Nat
  | [] => []
  | (l, a) :: L => addrsL L ++ (l.addrs ++ [a])

def buildL : List (PTree × Nat) → PTree → PTree
  | [], x => x
  | (l, a) :: L, x => buildL L (.node l a x)

theorem buildL_addrs (L : List (PTree × Nat)) : ∀ x : PTree, (buildL L x).addrs = addrsL L ++ x.addrs := by
  induction L with
  | nil => intro x; rfl
  | cons e L ih =>
    intro x
    obtain ⟨l, a⟩ := e
    rw [buildL, ih, addrsL]
    simp [PTree.addrs]

theorem SegL.hole {key : Nat → Nat} {h : SHeap} {q : Nat} {L : List (PTree × Nat)} (hs : SegL key h q L) : q = 1 ∨ q ∈ addrsL L := by
  cases L with
  | nil => exact .inl hs
  | cons e L =>
    obtain ⟨l, a⟩ := e
    exact .inr (by rw [hs.1]; simp [addrsL])

theorem SegL.frame {key : Nat → Nat} {h h' : SHeap} {q : Nat} {L : List (PTree × Nat)} (hs : SegL key h q L) (hf : ∀ a ∈ addrsL L, h' a = h a)
    (h1 : ∀ n, h 1 = some n → ∃ n', h' 1 = some n' ∧ n'.right = n.right) : SegL key h' q L := by
  induction L generalizing q with
  | nil => exact hs
  | cons e L ih =>
    obtain ⟨l, a⟩ := e
    obtain ⟨e1, ⟨x, e2⟩, e3, q', e4, n, e5, e6⟩ := hs
    simp only [addrsL, List.mem_append, List.mem_cons, List.not_mem_nil, or_false] at hf
    refine ⟨e1, ⟨x, (hf a (.inr (.inr rfl))).trans e2⟩, e3.frame fun y hy => hf y (.inr (.inl hy)), q', ih e4 (fun y hy => hf y (.inl hy)), ?_⟩
    rcases e4.hole with hq | hq
    · subst hq
      obtain ⟨n', k1, k2⟩ := h1 n e5
      exact ⟨n', k1, k2.trans e6⟩
    · exact ⟨n, (hf q' (.inl hq)).trans e5, e6⟩

/-- closing it -/
theorem SegL.close {key : Nat → Nat} {h : SHeap} {q : Nat} {L : List (PTree × Nat)} (hs : SegL key h q L) : ∀ x : PTree, RepT key h x →
    (∃ n, h q = some n ∧ n.right = x.root) → RepT key h (buildL L x) ∧ ∃ n, h 1 = some n ∧ n.right = (buildL L x).root := by
  induction L generalizing q with
  | nil => intro x hx hq; cases (show q = 1 from hs); exact ⟨hx, hq⟩
  | cons e L ih =>
    intro x hx ⟨n, hn, hr⟩
    obtain ⟨l, a⟩ := e
    obtain ⟨rfl, ⟨y, e2⟩, e3, q', e4, e5⟩ := hs
    rw [hn] at e2
    simp only [Option.some.injEq] at e2
    refine ih e4 (.node l q x) ⟨?_, e3, hx⟩ e5
    rw [hn]
    subst e2
    simp only [Option.some.injEq, SNode.mk.injEq, true_and]
    exact hr

/-! ## the tree of greater clients: a chain of left children that ends at `q`, whose left child is still to be set -/

def SegR (key : Nat → Nat) (h : SHeap) : Nat → List (PTree × Nat) → Prop
  | q, [] => q = 1
  | q, (r, a) :: L => q = a ∧ (∃ x, h a = some ⟨key a, x, r.root⟩) ∧ RepT key h r ∧ ∃ q', SegR key h q' L ∧ ∃ n, h q' = some n ∧ n.left = a

def addrsR : List (PTree × Nat) → List Nat
  | [] => []
  | (r, a) :: L => a :: (r.addrs ++ addrsR L)

def buildR : List (PTree × Nat) → PTree → PTree
  | [], x => x
  | (r, a) :: L, x => buildR L (.node x a r)

theorem buildR_addrs (L : List (PTree × Nat)) : ∀ x : PTree, (buildR L x).addrs = x.addrs ++ addrsR L := by
  induction L with
  | nil => intro x; simp [buildR, addrsR]
  | cons e L ih =>
    intro x
    obtain ⟨r, a⟩ := e
    rw [buildR, ih, addrsR]
    simp [PTree.addrs]

theorem SegR.hole {key : Nat → Nat} {h : SHeap} {q : Nat} {L : List (PTree × Nat)} (hs : SegR key h q L) : q = 1 ∨ q ∈ addrsR L := by
  cases L with
  | nil => exact .inl hs
  | cons e L =>
    obtain ⟨l, a⟩ := e
    exact .inr (by rw [hs.1]; simp [addrsR])

theorem SegR.frame {key : Nat → Nat} {h h' : SHeap} {q : Nat} {L : List (PTree × Nat)} (hs : SegR key h q L) (hf : ∀ a ∈ addrsR L, h' a = h a)
    (h1 : ∀ n, h 1 = some n → ∃ n', h' 1 = some n' ∧ n'.left = n.left) : SegR key h' q L := by
  induction L generalizing q with
  | nil => exact hs
  | cons e L ih =>
    obtain ⟨l, a⟩ := e
    obtain ⟨e1, ⟨x, e2⟩, e3, q', e4, n, e5, e6⟩ := hs
    simp only [addrsR, List.mem_append, List.mem_cons] at hf
    refine ⟨e1, ⟨x, (hf a (.inl rfl)).trans e2⟩, e3.frame fun y hy => hf y (.inr (.inl hy)), q', ih e4 (fun y hy => hf y (.inr (.inr hy))), ?_⟩
    rcases e4.hole with hq | hq
    · subst hq
      obtain ⟨n', k1, k2⟩ := h1 n e5
      exact ⟨n', k1, k2.trans e6⟩
    · exact ⟨n, (hf q' (.inr (.inr hq))).trans e5, e6⟩

/-- closing it -/
theorem SegR.close {key : Nat → Nat} {h : SHeap} {q : Nat} {L : List (PTree × Nat)} (hs : SegR key h q L) : ∀ x : PTree, RepT key h x →
    (∃ n, h q = some n ∧ n.left = x.root) → RepT key h (buildR L x) ∧ ∃ n, h 1 = some n ∧ n.left = (buildR L x).root := by
  induction L generalizing q with
  | nil => intro x hx hq; cases (show q = 1 from hs); exact ⟨hx, hq⟩
  | cons e L ih =>
    intro x hx ⟨n, hn, hr⟩
    obtain ⟨l, a⟩ := e
    obtain ⟨rfl, ⟨y, e2⟩, e3, q', e4, e5⟩ := hs
    rw [hn] at e2
    simp only [Option.some.injEq] at e2
    refine ih e4 (.node x q l) ⟨?_, hx, e3⟩ e5
    rw [hn]
    subst e2
    simp only [Option.some.injEq, SNode.mk.injEq, true_and]
    exact ⟨hr, trivial⟩

/-! ## the loop -/

/-- what is in memory in a round of SPLAY: `h0` is memory at its start and `all` the clients of the tree, in order -/
structure SpInv (key : Nat → Nat) (h0 : SHeap) (all : List Nat) (s : SpSt) (L : List (PTree × Nat)) (t : PTree) (R : List (PTree × Nat)) : Prop where
  rep : RepT key s.h t
  root : s.root = t.root
  segL : SegL key s.h s.left L
  segR : SegR key s.h s.right R
  nd : (s.h 1).isSome = true
  order : addrsL L ++ (t.addrs ++ addrsR R) = all
  frame : ∀ p, p ≠ 1 → p ∉ all → s.h p = h0 p
  ids : ∀ p, p ≠ 1 → (s.h p).map (·.id) = (h0 p).map (·.id)

theorem id_kept {h h0 : SHeap} (hi : ∀ p, p ≠ 1 → (h p).map (·.id) = (h0 p).map (·.id)) (a : Nat) (n n' : SNode) (ha : h a = some n) (hn : n'.id = n.id) :
    ∀ p, p ≠ 1 → (hset h a (some n') p).map (·.id) = (h0 p).map (·.id) := by
  intro p hp
  by_cases e : p = a
  · subst e
    rw [hset_same, ← hi p hp, ha]
    simp [hn]
  · rw [hset_other _ _ _ _ e]; exact hi p hp

section
variable {key : Nat → Nat} {h0 : SHeap} {all : List Nat} (hnd : all.Nodup) (hge : ∀ a ∈ all, 2 ≤ a)

include hnd hge

/-- the addresses involved differ -/
theorem SpInv.nodup {s : SpSt} {L R : List (PTree × Nat)} {t : PTree} (i : SpInv key h0 all s L t R) :
    (addrsL L).Nodup ∧ t.addrs.Nodup ∧ (addrsR R).Nodup ∧ (∀ a ∈ addrsL L, a ∉ t.addrs ∧ a ∉ addrsR R ∧ a ≠ 1) ∧ (∀ a ∈ t.addrs, a ∉ addrsR R ∧ a ∉ addrsL L ∧ a ≠ 1) ∧
      ∀ a ∈ addrsR R, a ∉ addrsL L ∧ a ∉ t.addrs ∧ a ≠ 1 := by
  have h1 := hnd
  rw [← i.order, List.nodup_append, List.nodup_append] at h1
  obtain ⟨a1, ⟨a2, a3, a4⟩, a5⟩ := h1
  have g : ∀ a, a ∈ addrsL L ∨ a ∈ t.addrs ∨ a ∈ addrsR R → a ≠ 1 := by
    intro a ha
    have := hge a (by rw [← i.order]; simpa using ha)
    omega
  refine ⟨a1, a2, a3, fun a ha => ⟨fun hb => ?_, fun hb => ?_, g a (.inl ha)⟩, fun a ha => ⟨fun hb => ?_, fun hb => ?_, g a (.inr (.inl ha))⟩,
    fun a ha => ⟨fun hb => ?_, fun hb => ?_, g a (.inr (.inr ha))⟩⟩
  · exact a5 a ha a (by simp [hb]) rfl
  · exact a5 a ha a (by simp [hb]) rfl
  · exact a4 a ha a hb rfl
  · exact a5 a hb a (by simp [ha]) rfl
  · exact a5 a hb a (by simp [ha]) rfl
  · exact a4 a hb a ha rfl

theorem rotRight_inv {s : SpSt} {L R : List (PTree × Nat)} {ll lr r : PTree} {b a : Nat} (i : SpInv key h0 all s L (.node (.node ll b lr) a r) R) :
    ∃ s', rotRight s b = .ok s' ∧ SpInv key h0 all s' L (.node ll b (.node lr a r)) R := by
  obtain ⟨-, n2, -, n4, n5, n6⟩ := i.nodup hnd hge
  obtain ⟨ha, ⟨hb, hll, hlr⟩, hr⟩ := i.rep
  have hroot : s.root = a := i.root
  simp only [PTree.addrs, List.nodup_append, List.nodup_cons, List.mem_append, List.mem_cons, List.append_assoc, List.cons_append] at n2 n5
  have hba : b ≠ a := by grind
  have hb' : hset s.h a (some ⟨key a, lr.root, r.root⟩) b = some ⟨key b, ll.root, lr.root⟩ := by rw [hset_other _ _ _ _ hba]; exact hb
  generalize hh : hset (hset s.h a (some ⟨key a, lr.root, r.root⟩)) b (some ⟨key b, ll.root, a⟩) = h'
  have hf : ∀ p, p ≠ a → p ≠ b → h' p = s.h p := by
    intro p h1 h2
    rw [← hh, hset_other _ _ _ _ h2, hset_other _ _ _ _ h1]
  refine ⟨{ s with h := h', root := b }, ?_, ?_⟩
  · unfold rotRight
    rw [ld_eq hb, bind_ok, hroot, stL_eq ha, bind_ok, stR_eq hb', bind_ok, ← hh]
  · refine ⟨⟨?_, hll.frame fun x hx => hf x ?_ ?_, ?_, hlr.frame fun x hx => hf x ?_ ?_, hr.frame fun x hx => hf x ?_ ?_⟩, rfl, i.segL.frame (fun x hx => hf x ?_ ?_) ?_,
      i.segR.frame (fun x hx => hf x ?_ ?_) ?_, ?_, ?_, ?_, ?_⟩
    · show h' b = _; rw [← hh, hset_same]; rfl
    · grind
    · grind
    · show h' a = _; rw [← hh, hset_other _ _ _ _ (Ne.symm hba), hset_same]
    · grind
    · grind
    · grind
    · grind
    · intro e; subst e; exact (n4 x hx).1 (by simp [PTree.addrs])
    · intro e; subst e; exact (n4 x hx).1 (by simp [PTree.addrs])
    · intro n hn
      have := (n5 a (by simp)).2.2
      have := (n5 b (by simp)).2.2
      exact ⟨n, (hf 1 (by omega) (by omega)).trans hn, rfl⟩
    · intro e; subst e; exact (n6 x hx).2.1 (by simp [PTree.addrs])
    · intro e; subst e; exact (n6 x hx).2.1 (by simp [PTree.addrs])
    · intro n hn
      have := (n5 a (by simp)).2.2
      have := (n5 b (by simp)).2.2
      exact ⟨n, (hf 1 (by omega) (by omega)).trans hn, rfl⟩
    · have := (n5 a (by simp)).2.2
      have := (n5 b (by simp)).2.2
      show (h' 1).isSome = true
      rw [hf 1 (by omega) (by omega)]; exact i.nd
    · rw [← i.order]; simp [PTree.addrs]
    · intro p h1 h2
      show h' p = h0 p
      rw [hf p (fun e => ?_) (fun e => ?_)]
      · exact i.frame p h1 h2
      · apply h2; rw [← i.order, e]; simp [PTree.addrs]
      · apply h2; rw [← i.order, e]; simp [PTree.addrs]
    · have k1 := id_kept i.ids a _ ⟨key a, lr.root, r.root⟩ ha rfl
      have k2 := id_kept k1 b _ ⟨key b, ll.root, a⟩ hb' rfl
      rw [hh] at k2
      exact k2

theorem linkLeft_inv {s : SpSt} {L R : List (PTree × Nat)} {l r : PTree} {a : Nat} (i : SpInv key h0 all s L (.node l a r) R) :
    ∃ s', linkLeft s = .ok s' ∧ SpInv key h0 all s' L l ((r, a) :: R) := by
  obtain ⟨-, n2, -, n4, n5, n6⟩ := i.nodup hnd hge
  obtain ⟨ha, hl, hr⟩ := i.rep
  have hroot : s.root = a := i.root
  simp only [PTree.addrs, List.nodup_append, List.nodup_cons, List.mem_append, List.mem_cons] at n2 n5
  have hq := i.segR.hole
  have hqa : s.right ≠ a := by
    rcases hq with hq | hq
    · rw [hq]; have := (n5 a (by simp)).2.2; omega
    · intro e; exact (n6 _ hq).2.1 (by rw [e]; simp [PTree.addrs])
  have hqt : ∀ x ∈ l.addrs ++ a :: r.addrs, x ≠ s.right := by
    intro x hx e
    rcases hq with hq | hq
    · rw [hq] at e; exact (n5 x (by simpa using hx)).2.2 e
    · exact (n6 _ hq).2.1 (by rw [← e]; exact hx)
  obtain ⟨n, hn⟩ : ∃ n, s.h s.right = some n := by
    rcases R with _ | ⟨⟨r0, a0⟩, R0⟩
    · have := i.nd
      rw [show s.right = 1 from i.segR]
      exact Option.isSome_iff_exists.mp this
    · obtain ⟨e, ⟨x, hx⟩, -⟩ := i.segR
      exact ⟨_, by rw [e]; exact hx⟩
  generalize hh : hset s.h s.right (some { n with left := a }) = h'
  have hf : ∀ p, p ≠ s.right → h' p = s.h p := by
    intro p h1
    rw [← hh, hset_other _ _ _ _ h1]
  have ha' : h' a = some ⟨key a, l.root, r.root⟩ := by rw [hf a (Ne.symm hqa)]; exact ha
  have hone : ∀ m, s.h 1 = some m → ∃ m', h' 1 = some m' ∧ m'.right = m.right := by
    intro m hm
    by_cases e : s.right = 1
    · rw [e, hm] at hn
      cases hn
      refine ⟨{ n with left := a }, ?_, rfl⟩
      rw [← hh, e]; exact hset_same _ _ _
    · exact ⟨m, by rw [hf 1 (Ne.symm e)]; exact hm, rfl⟩
  refine ⟨{ s with h := h', right := a, root := l.root }, ?_, ?_⟩
  · unfold linkLeft
    rw [hroot, stL_eq hn, bind_ok, hh, ld_eq ha', bind_ok]
  · refine ⟨hl.frame fun x hx => hf x (hqt x (by simp [hx])), rfl, i.segL.frame (fun x hx => hf x ?_) hone, ⟨rfl, ⟨_, ha'⟩, hr.frame fun x hx => hf x (hqt x (by simp [hx])),
      s.right, ?_, ⟨{ n with left := a }, (by rw [← hh]; exact hset_same _ _ _), rfl⟩⟩, ?_, ?_, ?_, ?_⟩
    · intro e
      rcases hq with hq | hq
      · exact (n4 x hx).2.2 (e.trans hq)
      · exact (n4 x hx).2.1 (by rw [e]; exact hq)
    · -- the chain itself, whose last left child changed
      rcases R with _ | ⟨⟨r0, a0⟩, R0⟩
      · exact i.segR
      · have n3 := (i.nodup hnd hge).2.2.1
        obtain ⟨e1, ⟨x, e2⟩, e3, q', e4, m, e5, e6⟩ := i.segR
        simp only [addrsR, List.nodup_cons, List.nodup_append, List.mem_append] at n3
        have h1 : a0 ≠ 1 := (n6 a0 (by simp [addrsR])).2.2
        rw [e1] at hn hf hh
        rw [e1]
        have hq0 : q' ≠ a0 := by
          rcases e4.hole with k | k
          · rw [k]; exact Ne.symm h1
          · intro e; exact n3.1 (.inr (by rw [← e]; exact k))
        rw [hn] at e2
        simp only [Option.some.injEq] at e2
        refine ⟨rfl, ⟨a, ?_⟩, e3.frame fun y hy => hf y ?_, q', e4.frame (fun y hy => hf y ?_) ?_, m, ?_, e6⟩
        · show h' a0 = _
          rw [← hh, hset_same, e2]
        · intro e; exact n3.1 (.inl (by rw [← e]; exact hy))
        · intro e; exact n3.1 (.inr (by rw [← e]; exact hy))
        · intro m hm; exact ⟨m, (hf 1 (Ne.symm h1)).trans hm, rfl⟩
        · exact (hf q' hq0).trans e5
    · show (h' 1).isSome = true
      obtain ⟨m, hm⟩ := Option.isSome_iff_exists.mp i.nd
      obtain ⟨m', hm', -⟩ := hone m hm
      rw [hm']; rfl
    · rw [← i.order]; simp [PTree.addrs, addrsR]
    · intro p h1 h2
      show h' p = h0 p
      rw [hf p (fun e => ?_)]
      · exact i.frame p h1 h2
      · rcases hq with hq | hq
        · exact h1 (e.trans hq)
        · apply h2; rw [← i.order, e]; simp [hq]
    · have k1 := id_kept i.ids s.right _ { n with left := a } hn rfl
      rw [hh] at k1
      exact k1

theorem rotLeft_inv {s : SpSt} {L R : List (PTree × Nat)} {l rl rr : PTree} {b a : Nat} (i : SpInv key h0 all s L (.node l a (.node rl b rr)) R) :
    ∃ s', rotLeft s b = .ok s' ∧ SpInv key h0 all s' L (.node (.node l a rl) b rr) R := by
  obtain ⟨-, n2, -, n4, n5, n6⟩ := i.nodup hnd hge
  obtain ⟨ha, hl, ⟨hb, hrl, hrr⟩⟩ := i.rep
  have hroot : s.root = a := i.root
  simp only [PTree.addrs, List.nodup_append, List.nodup_cons, List.mem_append, List.mem_cons, List.append_assoc, List.cons_append] at n2 n5
  have hba : b ≠ a := by grind
  have hb' : hset s.h a (some ⟨key a, l.root, rl.root⟩) b = some ⟨key b, rl.root, rr.root⟩ := by rw [hset_other _ _ _ _ hba]; exact hb
  generalize hh : hset (hset s.h a (some ⟨key a, l.root, rl.root⟩)) b (some ⟨key b, a, rr.root⟩) = h'
  have hf : ∀ p, p ≠ a → p ≠ b → h' p = s.h p := by
    intro p h1 h2
    rw [← hh, hset_other _ _ _ _ h2, hset_other _ _ _ _ h1]
  refine ⟨{ s with h := h', root := b }, ?_, ?_⟩
  · unfold rotLeft
    rw [ld_eq hb, bind_ok, hroot, stR_eq ha, bind_ok, stL_eq hb', bind_ok, ← hh]
  · refine ⟨⟨?_, ⟨?_, hl.frame fun x hx => hf x ?_ ?_, hrl.frame fun x hx => hf x ?_ ?_⟩, hrr.frame fun x hx => hf x ?_ ?_⟩, rfl, i.segL.frame (fun x hx => hf x ?_ ?_) ?_,
      i.segR.frame (fun x hx => hf x ?_ ?_) ?_, ?_, ?_, ?_, ?_⟩
    · show h' b = _; rw [← hh, hset_same]; rfl
    · show h' a = _; rw [← hh, hset_other _ _ _ _ (Ne.symm hba), hset_same]
    · grind
    · grind
    · grind
    · grind
    · grind
    · grind
    · intro e; subst e; exact (n4 x hx).1 (by simp [PTree.addrs])
    · intro e; subst e; exact (n4 x hx).1 (by simp [PTree.addrs])
    · intro n hn
      have := (n5 a (by simp)).2.2
      have := (n5 b (by simp)).2.2
      exact ⟨n, (hf 1 (by omega) (by omega)).trans hn, rfl⟩
    · intro e; subst e; exact (n6 x hx).2.1 (by simp [PTree.addrs])
    · intro e; subst e; exact (n6 x hx).2.1 (by simp [PTree.addrs])
    · intro n hn
      have := (n5 a (by simp)).2.2
      have := (n5 b (by simp)).2.2
      exact ⟨n, (hf 1 (by omega) (by omega)).trans hn, rfl⟩
    · have := (n5 a (by simp)).2.2
      have := (n5 b (by simp)).2.2
      show (h' 1).isSome = true
      rw [hf 1 (by omega) (by omega)]; exact i.nd
    · rw [← i.order]; simp [PTree.addrs]
    · intro p h1 h2
      show h' p = h0 p
      rw [hf p (fun e => ?_) (fun e => ?_)]
      · exact i.frame p h1 h2
      · apply h2; rw [← i.order, e]; simp [PTree.addrs]
      · apply h2; rw [← i.order, e]; simp [PTree.addrs]
    · have k1 := id_kept i.ids a _ ⟨key a, l.root, rl.root⟩ ha rfl
      have k2 := id_kept k1 b _ ⟨key b, a, rr.root⟩ hb' rfl
      rw [hh] at k2
      exact k2

theorem linkRight_inv {s : SpSt} {L R : List (PTree × Nat)} {l r : PTree} {a : Nat} (i : SpInv key h0 all s L (.node l a r) R) :
    ∃ s', linkRight s = .ok s' ∧ SpInv key h0 all s' ((l, a) :: L) r R := by
  obtain ⟨-, n2, -, n4, n5, n6⟩ := i.nodup hnd hge
  obtain ⟨ha, hl, hr⟩ := i.rep
  have hroot : s.root = a := i.root
  simp only [PTree.addrs, List.nodup_append, List.nodup_cons, List.mem_append, List.mem_cons] at n2 n5
  have hq := i.segL.hole
  have hqa : s.left ≠ a := by
    rcases hq with hq | hq
    · rw [hq]; have := (n5 a (by simp)).2.2; omega
    · intro e; exact (n4 _ hq).1 (by rw [e]; simp [PTree.addrs])
  have hqt : ∀ x ∈ l.addrs ++ a :: r.addrs, x ≠ s.left := by
    intro x hx e
    rcases hq with hq | hq
    · rw [hq] at e; exact (n5 x (by simpa using hx)).2.2 e
    · exact (n4 _ hq).1 (by rw [← e]; exact hx)
  obtain ⟨n, hn⟩ : ∃ n, s.h s.left = some n := by
    rcases L with _ | ⟨⟨l0, a0⟩, L0⟩
    · have := i.nd
      rw [show s.left = 1 from i.segL]
      exact Option.isSome_iff_exists.mp this
    · obtain ⟨e, ⟨x, hx⟩, -⟩ := i.segL
      exact ⟨_, by rw [e]; exact hx⟩
  generalize hh : hset s.h s.left (some { n with right := a }) = h'
  have hf : ∀ p, p ≠ s.left → h' p = s.h p := by
    intro p h1
    rw [← hh, hset_other _ _ _ _ h1]
  have ha' : h' a = some ⟨key a, l.root, r.root⟩ := by rw [hf a (Ne.symm hqa)]; exact ha
  have hone : ∀ m, s.h 1 = some m → ∃ m', h' 1 = some m' ∧ m'.left = m.left := by
    intro m hm
    by_cases e : s.left = 1
    · rw [e, hm] at hn
      cases hn
      refine ⟨{ n with right := a }, ?_, rfl⟩
      rw [← hh, e]; exact hset_same _ _ _
    · exact ⟨m, by rw [hf 1 (Ne.symm e)]; exact hm, rfl⟩
  refine ⟨{ s with h := h', left := a, root := r.root }, ?_, ?_⟩
  · unfold linkRight
    rw [hroot, stR_eq hn, bind_ok, hh, ld_eq ha', bind_ok]
  · refine ⟨hr.frame fun x hx => hf x (hqt x (by simp [hx])), rfl, ⟨rfl, ⟨_, ha'⟩, hl.frame fun x hx => hf x (hqt x (by simp [hx])),
      s.left, ?_, ⟨{ n with right := a }, (by rw [← hh]; exact hset_same _ _ _), rfl⟩⟩, i.segR.frame (fun x hx => hf x ?_) hone, ?_, ?_, ?_, ?_⟩
    · -- the chain itself, whose last right child changed
      rcases L with _ | ⟨⟨l0, a0⟩, L0⟩
      · exact i.segL
      · have n3 := (i.nodup hnd hge).1
        obtain ⟨e1, ⟨x, e2⟩, e3, q', e4, m, e5, e6⟩ := i.segL
        simp only [addrsL, List.nodup_append, List.mem_append, List.mem_singleton] at n3
        have h1 : a0 ≠ 1 := (n4 a0 (by simp [addrsL])).2.2
        rw [e1] at hn hf hh
        rw [e1]
        have hq0 : q' ≠ a0 := by
          rcases e4.hole with k | k
          · rw [k]; exact Ne.symm h1
          · intro e; exact n3.2.2 q' k a0 (.inr rfl) e
        rw [hn] at e2
        simp only [Option.some.injEq] at e2
        refine ⟨rfl, ⟨a, ?_⟩, e3.frame fun y hy => hf y ?_, q', e4.frame (fun y hy => hf y ?_) ?_, m, ?_, e6⟩
        · show h' a0 = _
          rw [← hh, hset_same, e2]
        · intro e; exact n3.2.1.2.2 y hy a0 (by simp) e
        · intro e; exact n3.2.2 y hy a0 (.inr rfl) e
        · intro m hm; exact ⟨m, (hf 1 (Ne.symm h1)).trans hm, rfl⟩
        · exact (hf q' hq0).trans e5
    · intro e
      rcases hq with hq | hq
      · exact (n6 x hx).2.2 (e.trans hq)
      · exact (n6 x hx).1 (by rw [e]; exact hq)
    · show (h' 1).isSome = true
      obtain ⟨m, hm⟩ := Option.isSome_iff_exists.mp i.nd
      obtain ⟨m', hm', -⟩ := hone m hm
      rw [hm']; rfl
    · rw [← i.order]; simp [PTree.addrs, addrsL]
    · intro p h1 h2
      show h' p = h0 p
      rw [hf p (fun e => ?_)]
      · exact i.frame p h1 h2
      · rcases hq with hq | hq
        · exact h1 (e.trans hq)
        · apply h2; rw [← i.order, e]; simp [hq]
    · have k1 := id_kept i.ids s.left _ { n with right := a } hn rfl
      rw [hh] at k1
      exact k1

omit hge in
theorem SpInv.sorted (hso : all.Pairwise (fun a b => key a < key b)) {s : SpSt} {L R : List (PTree × Nat)} {l r : PTree} {a : Nat}
    (i : SpInv key h0 all s L (.node l a r) R) : (∀ x ∈ l.addrs, key x < key a) ∧ ∀ x ∈ r.addrs, key a < key x := by
  have h1 := hso
  rw [← i.order, List.pairwise_append, List.pairwise_append] at h1
  have h2 := h1.2.1.1
  simp only [PTree.addrs, List.pairwise_append, List.pairwise_cons, List.mem_cons] at h2
  exact ⟨fun x hx => h2.2.2 x hx a (.inl rfl), h2.2.1.1⟩

omit hnd hge in
theorem treeCmp_inv {s : SpSt} {L R : List (PTree × Nat)} {t : PTree} (i : SpInv key h0 all s L t R) {elm k : Nat} (he : elm ≠ 1)
    (hk : (h0 elm).map (·.id) = some k) {b : Nat} {x y : Nat} (hb : s.h b = some ⟨key b, x, y⟩) :
    treeCmp s.h elm b = .ok (if k = key b then 0 else if k < key b then -1 else 1) := by
  have h1 := i.ids elm he
  rw [hk, Option.map_eq_some_iff] at h1
  obtain ⟨n, h2, h3⟩ := h1
  unfold treeCmp
  rw [ld_eq h2, bind_ok, ld_eq hb, bind_ok, h3]

theorem spLoop_inv {elm k : Nat} (he : elm ≠ 1) (hk : (h0 elm).map (·.id) = some k) (hso : all.Pairwise (fun a b => key a < key b)) :
    ∀ (fuel : Nat) (s : SpSt) (L R : List (PTree × Nat)) (t : PTree), SpInv key h0 all s L t R → t ≠ .nil → t.addrs.length ≤ fuel →
      (∀ x ∈ addrsL L, key x < k) → (∀ x ∈ addrsR R, k < key x) →
      ∃ s' L' R' l a r, spLoop elm fuel s = .ok s' ∧ SpInv key h0 all s' L' (.node l a r) R' ∧ (∀ x ∈ addrsL L' ++ l.addrs, key x < k) ∧
        ∀ x ∈ r.addrs ++ addrsR R', k < key x := by
  intro fuel
  induction fuel with
  | zero =>
    intro s L R t _ ht hlen
    cases t with
    | nil => exact absurd rfl ht
    | node l a r => simp [PTree.addrs] at hlen
  | succ n ih =>
    intro s L R t i ht hlen hL hR
    cases t with
    | nil => exact absurd rfl ht
    | node l a r =>
      have hroot : s.root = a := i.root
      have ha := i.rep.1
      obtain ⟨s1, s2⟩ := i.sorted hnd hso
      have hge' : ∀ x ∈ l.addrs ++ a :: r.addrs, 2 ≤ x := fun x hx => hge x (by rw [← i.order]; simp only [PTree.addrs, List.mem_append]; exact .inr (.inl (by simpa using hx)))
      simp only [PTree.addrs, List.length_append, List.length_cons] at hlen
      unfold spLoop
      rw [hroot, treeCmp_inv i he hk ha, bind_ok]
      by_cases e0 : k = key a
      · rw [if_pos e0, if_pos rfl]
        refine ⟨s, L, R, l, a, r, rfl, i, ?_, ?_⟩
        · intro x hx
          rcases List.mem_append.mp hx with hx | hx
          · exact hL x hx
          · rw [e0]; exact s1 x hx
        · intro x hx
          rcases List.mem_append.mp hx with hx | hx
          · rw [e0]; exact s2 x hx
          · exact hR x hx
      · rw [if_neg e0]
        by_cases e1 : k < key a
        · rw [if_pos e1, if_neg (by decide), if_pos (by decide)]
          unfold spLess
          rw [hroot, ld_eq ha, bind_ok]
          dsimp only
          have hrk : ∀ x ∈ r.addrs ++ addrsR R, k < key x := by
            intro x hx
            rcases List.mem_append.mp hx with hx | hx
            · exact Nat.lt_trans e1 (s2 x hx)
            · exact hR x hx
          cases l with
          | nil =>
            rw [if_pos (show PTree.nil.root = 0 from rfl), bind_ok]
            refine ⟨s, L, R, .nil, a, r, rfl, i, ?_, hrk⟩
            intro x hx
            exact hL x (by simpa [PTree.addrs] using hx)
          | node ll b lr =>
            have hb := i.rep.2.1.1
            have hb0 : b ≠ 0 := by have := hge' b (by simp [PTree.addrs]); omega
            rw [show (PTree.node ll b lr).root = b from rfl, if_neg hb0, treeCmp_inv i he hk hb, bind_ok]
            simp only [PTree.addrs, List.length_append, List.length_cons] at hlen
            by_cases e2 : k < key b
            · have e3 : (if k = key b then (0 : Int) else if k < key b then -1 else 1) < 0 := by
                rw [if_neg (by omega), if_pos e2]; decide
              rw [if_pos e3]
              obtain ⟨s', r1, i'⟩ := rotRight_inv hnd hge i
              have hroot' : s'.root = b := i'.root
              rw [r1, bind_ok, hroot', ld_eq i'.rep.1, bind_ok]
              dsimp only
              obtain ⟨s3, s4⟩ := i'.sorted hnd hso
              have hrk' : ∀ x ∈ (PTree.node lr a r).addrs ++ addrsR R, k < key x := by
                intro x hx
                rcases List.mem_append.mp hx with hx | hx
                · exact Nat.lt_trans e2 (s4 x hx)
                · exact hR x hx
              by_cases el : ll = .nil
              · subst el
                rw [if_pos (show PTree.nil.root = 0 from rfl), bind_ok]
                refine ⟨s', L, R, .nil, b, .node lr a r, rfl, i', ?_, hrk'⟩
                intro x hx
                exact hL x (by simpa [PTree.addrs] using hx)
              · have hl0 : ll.root ≠ 0 := by
                  have := hge' ll.root (by simp [PTree.addrs, PTree.root_mem el]); omega
                rw [if_neg hl0]
                obtain ⟨s'', r2, i''⟩ := linkLeft_inv hnd hge i'
                rw [r2, bind_ok, bind_ok]
                refine ih s'' L _ ll i'' el (by omega) hL ?_
                intro x hx
                simp only [addrsR, List.mem_cons] at hx
                rcases hx with rfl | hx
                · exact e2
                · exact hrk' x hx
            · have e3 : ¬ (if k = key b then (0 : Int) else if k < key b then -1 else 1) < 0 := by
                split
                · decide
                · decide
              rw [if_neg e3]
              obtain ⟨s'', r2, i''⟩ := linkLeft_inv hnd hge i
              rw [r2, bind_ok, bind_ok]
              refine ih s'' L _ _ i'' (by simp) (by simp [PTree.addrs]; omega) hL ?_
              intro x hx
              simp only [addrsR, List.mem_cons] at hx
              rcases hx with rfl | hx
              · exact e1
              · exact hrk x hx
        · have e1' : key a < k := by omega
          rw [if_neg e1, if_neg (by decide), if_neg (by decide)]
          unfold spGreater
          rw [hroot, ld_eq ha, bind_ok]
          dsimp only
          have hlk : ∀ x ∈ addrsL L ++ l.addrs, key x < k := by
            intro x hx
            rcases List.mem_append.mp hx with hx | hx
            · exact hL x hx
            · exact Nat.lt_trans (s1 x hx) e1'
          cases r with
          | nil =>
            rw [if_pos (show PTree.nil.root = 0 from rfl), bind_ok]
            refine ⟨s, L, R, l, a, .nil, rfl, i, hlk, ?_⟩
            intro x hx
            exact hR x (by simpa [PTree.addrs] using hx)
          | node rl b rr =>
            have hb := i.rep.2.2.1
            have hb0 : b ≠ 0 := by have := hge' b (by simp [PTree.addrs]); omega
            rw [show (PTree.node rl b rr).root = b from rfl, if_neg hb0, treeCmp_inv i he hk hb, bind_ok]
            simp only [PTree.addrs, List.length_append, List.length_cons] at hlen
            by_cases e2 : key b < k
            · have e3 : (if k = key b then (0 : Int) else if k < key b then -1 else 1) > 0 := by
                rw [if_neg (by omega), if_neg (by omega)]; decide
              rw [if_pos e3]
              obtain ⟨s', r1, i'⟩ := rotLeft_inv hnd hge i
              have hroot' : s'.root = b := i'.root
              rw [r1, bind_ok, hroot', ld_eq i'.rep.1, bind_ok]
              dsimp only
              obtain ⟨s3, s4⟩ := i'.sorted hnd hso
              have hlk' : ∀ x ∈ addrsL L ++ (PTree.node l a rl).addrs, key x < k := by
                intro x hx
                rcases List.mem_append.mp hx with hx | hx
                · exact hL x hx
                · exact Nat.lt_trans (s3 x hx) e2
              by_cases el : rr = .nil
              · subst el
                rw [if_pos (show PTree.nil.root = 0 from rfl), bind_ok]
                refine ⟨s', L, R, .node l a rl, b, .nil, rfl, i', hlk', ?_⟩
                intro x hx
                exact hR x (by simpa [PTree.addrs] using hx)
              · have hl0 : rr.root ≠ 0 := by
                  have := hge' rr.root (by simp [PTree.addrs, PTree.root_mem el]); omega
                rw [if_neg hl0]
                obtain ⟨s'', r2, i''⟩ := linkRight_inv hnd hge i'
                rw [r2, bind_ok, bind_ok]
                refine ih s'' _ R rr i'' el (by omega) ?_ hR
                intro x hx
                simp only [addrsL, List.mem_append, List.mem_singleton] at hx
                rcases hx with hx | hx | rfl
                · exact hL x hx
                · exact hlk' x (List.mem_append.mpr (.inr hx))
                · exact e2
            · have e3 : ¬ (if k = key b then (0 : Int) else if k < key b then -1 else 1) > 0 := by
                split
                · decide
                · rw [if_pos (by omega)]; decide
              rw [if_neg e3]
              obtain ⟨s'', r2, i''⟩ := linkRight_inv hnd hge i
              rw [r2, bind_ok, bind_ok]
              refine ih s'' _ R _ i'' (by simp) (by simp [PTree.addrs]; omega) ?_ hR
              intro x hx
              simp only [addrsL, List.mem_append, List.mem_singleton] at hx
              rcases hx with hx | hx | rfl
              · exact hL x hx
              · exact hlk x (List.mem_append.mpr (.inr hx))
              · exact e1'

end

/-! ## putting it together again -/

theorem SegL.set {key : Nat → Nat} {h : SHeap} {q : Nat} {L : List (PTree × Nat)} (hs : SegL key h q L) (hnd : (addrsL L).Nodup) (h1 : 1 ∉ addrsL L) {n : SNode}
    (hn : h q = some n) (y : Nat) : SegL key (hset h q (some { n with right := y })) q L := by
  cases L with
  | nil => exact hs
  | cons e L =>
    obtain ⟨l, a⟩ := e
    obtain ⟨rfl, ⟨x, e2⟩, e3, q', e4, m, e5, e6⟩ := hs
    simp only [addrsL, List.nodup_append, List.mem_append, List.mem_singleton, not_or] at hnd h1
    have hq : q' ≠ q := by
      rcases e4.hole with k | k
      · rw [k]; exact h1.2.2
      · intro e; exact hnd.2.2 q' k q (.inr rfl) e
    rw [hn] at e2
    simp only [Option.some.injEq] at e2
    refine ⟨rfl, ⟨y, ?_⟩, e3.frame fun z hz => hset_other _ _ _ _ ?_, q', e4.frame (fun z hz => hset_other _ _ _ _ ?_) ?_, m, ?_, e6⟩
    · rw [hset_same, e2]
    · intro e; exact hnd.2.1.2.2 z hz q rfl e
    · intro e; exact hnd.2.2 z hz q (.inr rfl) e
    · intro m hm; exact ⟨m, (hset_other _ _ _ _ h1.2.2).trans hm, rfl⟩
    · exact (hset_other _ _ _ _ hq).trans e5

theorem SegR.set {key : Nat → Nat} {h : SHeap} {q : Nat} {L : List (PTree × Nat)} (hs : SegR key h q L) (hnd : (addrsR L).Nodup) (h1 : 1 ∉ addrsR L) {n : SNode}
    (hn : h q = some n) (y : Nat) : SegR key (hset h q (some { n with left := y })) q L := by
  cases L with
  | nil => exact hs
  | cons e L =>
    obtain ⟨l, a⟩ := e
    obtain ⟨rfl, ⟨x, e2⟩, e3, q', e4, m, e5, e6⟩ := hs
    simp only [addrsR, List.nodup_append, List.nodup_cons, List.mem_cons, List.mem_append, not_or] at hnd h1
    have hq : q' ≠ q := by
      rcases e4.hole with k | k
      · rw [k]; exact h1.1
      · intro e; exact hnd.1.2 (e ▸ k)
    rw [hn] at e2
    simp only [Option.some.injEq] at e2
    refine ⟨rfl, ⟨y, ?_⟩, e3.frame fun z hz => hset_other _ _ _ _ ?_, q', e4.frame (fun z hz => hset_other _ _ _ _ ?_) ?_, m, ?_, e6⟩
    · rw [hset_same, e2]
    · intro e; exact hnd.1.1 (e ▸ hz)
    · intro e; exact hnd.1.2 (e ▸ hz)
    · intro m hm; exact ⟨m, (hset_other _ _ _ _ h1.1).trans hm, rfl⟩
    · exact (hset_other _ _ _ _ hq).trans e5

theorem SegL.some {key : Nat → Nat} {h : SHeap} {q : Nat} {L : List (PTree × Nat)} (hs : SegL key h q L) (h1 : (h 1).isSome = true) : ∃ n, h q = some n := by
  cases L with
  | nil => cases (show q = 1 from hs); exact Option.isSome_iff_exists.mp h1
  | cons e L => obtain ⟨e, ⟨x, hx⟩, -⟩ := hs; exact ⟨_, by rw [e]; exact hx⟩

theorem SegR.some {key : Nat → Nat} {h : SHeap} {q : Nat} {L : List (PTree × Nat)} (hs : SegR key h q L) (h1 : (h 1).isSome = true) : ∃ n, h q = some n := by
  cases L with
  | nil => cases (show q = 1 from hs); exact Option.isSome_iff_exists.mp h1
  | cons e L => obtain ⟨e, ⟨x, hx⟩, -⟩ := hs; exact ⟨_, by rw [e]; exact hx⟩

theorem assemble_inv {key : Nat → Nat} {h0 : SHeap} {all : List Nat} (hnd : all.Nodup) (hge : ∀ a ∈ all, 2 ≤ a) {s : SpSt} {L R : List (PTree × Nat)} {l r : PTree}
    {a : Nat} (i : SpInv key h0 all s L (.node l a r) R) :
    ∃ h', assemble s = .ok h' ∧ RepT key h' (.node (buildL L l) a (buildR R r)) ∧ (∀ p, p ≠ 1 → p ∉ all → h' p = h0 p) ∧
      ∀ p, p ≠ 1 → (h' p).map (·.id) = (h0 p).map (·.id) := by
  obtain ⟨n1, n2, n3, n4, n5, n6⟩ := i.nodup hnd hge
  obtain ⟨ha, hl, hr⟩ := i.rep
  have hroot : s.root = a := i.root
  have hat : a ∈ (PTree.node l a r).addrs := by simp [PTree.addrs]
  have hla : ∀ x ∈ l.addrs, x ∈ (PTree.node l a r).addrs := fun x hx => by simp [PTree.addrs, hx]
  have hra : ∀ x ∈ r.addrs, x ∈ (PTree.node l a r).addrs := fun x hx => by simp [PTree.addrs, hx]
  have ha1 : a ≠ 1 := (n5 a hat).2.2
  have hqL := i.segL.hole
  have hqR := i.segR.hole
  -- the holes are not in the tree
  have hLt : ∀ x ∈ (PTree.node l a r).addrs, x ≠ s.left := by
    intro x hx e
    rcases hqL with h | h
    · exact (n5 x hx).2.2 (e.trans h)
    · exact (n4 _ h).1 (e ▸ hx)
  have hRt : ∀ x ∈ (PTree.node l a r).addrs, x ≠ s.right := by
    intro x hx e
    rcases hqR with h | h
    · exact (n5 x hx).2.2 (e.trans h)
    · exact (n6 _ h).2.1 (e ▸ hx)
  -- the first store
  obtain ⟨nl, hnl⟩ := i.segL.some i.nd
  generalize hh1 : hset s.h s.left (some { nl with right := l.root }) = h1
  have f1 : ∀ p, p ≠ s.left → h1 p = s.h p := by intro p hp; rw [← hh1, hset_other _ _ _ _ hp]
  have segL1 : SegL key h1 s.left L := by rw [← hh1]; exact i.segL.set n1 (fun h => (n4 1 h).2.2 rfl) hnl _
  have segR1 : SegR key h1 s.right R := by
    refine i.segR.frame (fun x hx => f1 x ?_) ?_
    · intro e
      rcases hqL with h | h
      · exact (n6 x hx).2.2 (e.trans h)
      · exact (n6 x hx).1 (e ▸ h)
    · intro m hm
      by_cases e : s.left = 1
      · rw [e, hm] at hnl
        cases hnl
        refine ⟨{ nl with right := l.root }, ?_, rfl⟩
        rw [← hh1, e]; exact hset_same _ _ _
      · exact ⟨m, (f1 1 (Ne.symm e)).trans hm, rfl⟩
  have nd1 : (h1 1).isSome = true := by
    by_cases e : s.left = 1
    · rw [← hh1, e, hset_same]; rfl
    · rw [f1 1 (Ne.symm e)]; exact i.nd
  have hole1 : ∃ n, h1 s.left = some n ∧ n.right = l.root := ⟨_, by rw [← hh1]; exact hset_same _ _ _, rfl⟩
  have a1 : h1 a = some ⟨key a, l.root, r.root⟩ := (f1 a (hLt a hat)).trans ha
  have l1 : RepT key h1 l := hl.frame fun x hx => f1 x (hLt x (hla x hx))
  have r1 : RepT key h1 r := hr.frame fun x hx => f1 x (hLt x (hra x hx))
  have ids1 : ∀ p, p ≠ 1 → (h1 p).map (·.id) = (h0 p).map (·.id) := by
    have := id_kept i.ids s.left _ { nl with right := l.root } hnl rfl
    rw [hh1] at this; exact this
  -- the second
  obtain ⟨nr, hnr⟩ := segR1.some nd1
  generalize hh2 : hset h1 s.right (some { nr with left := r.root }) = h2
  have f2 : ∀ p, p ≠ s.right → h2 p = h1 p := by intro p hp; rw [← hh2, hset_other _ _ _ _ hp]
  have segR2 : SegR key h2 s.right R := by rw [← hh2]; exact segR1.set n3 (fun h => (n6 1 h).2.2 rfl) hnr _
  have keepR : ∀ p m, h1 p = Option.some m → ∃ m', h2 p = Option.some m' ∧ m'.right = m.right := by
    intro p m hm
    by_cases e : p = s.right
    · subst e
      rw [hm] at hnr
      cases hnr
      exact ⟨{ nr with left := r.root }, by rw [← hh2]; exact hset_same _ _ _, rfl⟩
    · exact ⟨m, (f2 p e).trans hm, rfl⟩
  have segL2 : SegL key h2 s.left L := by
    refine segL1.frame (fun x hx => f2 x ?_) (keepR 1)
    intro e
    rcases hqR with h | h
    · exact (n4 x hx).2.2 (e.trans h)
    · exact (n4 x hx).2.1 (e ▸ h)
  have holeL : ∃ n, h2 s.left = some n ∧ n.right = l.root := by
    obtain ⟨n, h3, h4⟩ := hole1
    obtain ⟨n', h5, h6⟩ := keepR _ n h3
    exact ⟨n', h5, h6.trans h4⟩
  have holeR : ∃ n, h2 s.right = some n ∧ n.left = r.root := ⟨_, by rw [← hh2]; exact hset_same _ _ _, rfl⟩
  have a2 : h2 a = some ⟨key a, l.root, r.root⟩ := (f2 a (hRt a hat)).trans a1
  have l2 : RepT key h2 l := l1.frame fun x hx => f2 x (hRt x (hla x hx))
  have r2 : RepT key h2 r := r1.frame fun x hx => f2 x (hRt x (hra x hx))
  have ids2 : ∀ p, p ≠ 1 → (h2 p).map (·.id) = (h0 p).map (·.id) := by
    have := id_kept ids1 s.right _ { nr with left := r.root } hnr rfl
    rw [hh2] at this; exact this
  obtain ⟨bl, n, e1, e2⟩ := segL2.close l l2 holeL
  obtain ⟨br, n', e3, e4⟩ := segR2.close r r2 holeR
  rw [e1] at e3
  simp only [Option.some.injEq] at e3
  subst e3
  -- the last two
  generalize hh3 : hset h2 a (some ⟨key a, (buildL L l).root, r.root⟩) = h3
  have a3 : h3 a = some ⟨key a, (buildL L l).root, r.root⟩ := by rw [← hh3, hset_same]
  have one3 : h3 1 = some n := by rw [← hh3, hset_other _ _ _ _ (Ne.symm ha1)]; exact e1
  generalize hh4 : hset h3 a (some ⟨key a, (buildL L l).root, (buildR R r).root⟩) = h4
  have f4 : ∀ p, p ≠ a → h4 p = h2 p := by
    intro p hp
    rw [← hh4, hset_other _ _ _ _ hp, ← hh3, hset_other _ _ _ _ hp]
  have hal : a ∉ l.addrs ∧ a ∉ r.addrs := by
    simp only [PTree.addrs, List.nodup_append, List.nodup_cons, List.mem_cons] at n2
    exact ⟨fun h => n2.2.2 a h a (.inl rfl) rfl, n2.2.1.1⟩
  refine ⟨h4, ?_, ⟨?_, bl.frame fun x hx => f4 x ?_, br.frame fun x hx => f4 x ?_⟩, ?_, ?_⟩
  · unfold assemble
    rw [hroot, ld_eq ha, bind_ok, stR_eq hnl, bind_ok, hh1, ld_eq a1, bind_ok, stL_eq hnr, bind_ok, hh2, ld_eq e1, bind_ok, stL_eq a2, bind_ok]
    dsimp only
    rw [e2, hh3, ld_eq one3, bind_ok, stR_eq a3]
    dsimp only
    rw [e4, hh4]
  · rw [← hh4, hset_same]
  · intro e
    subst e
    rw [buildL_addrs, List.mem_append] at hx
    rcases hx with hx | hx
    · exact (n4 _ hx).1 hat
    · exact hal.1 hx
  · intro e
    subst e
    rw [buildR_addrs, List.mem_append] at hx
    rcases hx with hx | hx
    · exact hal.2 hx
    · exact (n6 _ hx).2.1 hat
  · intro p hp hpa
    have hmem : ∀ x, x ∈ addrsL L ∨ x ∈ (PTree.node l a r).addrs ∨ x ∈ addrsR R → x ∈ all := by
      intro x hx; rw [← i.order]; simpa using hx
    rw [f4 p (fun e => hpa (hmem p (.inr (.inl (e ▸ hat))))), f2 p, f1 p]
    · exact i.frame p hp hpa
    · intro e
      rcases hqL with h | h
      · exact hp (e.trans h)
      · exact hpa (hmem p (.inl (e ▸ h)))
    · intro e
      rcases hqR with h | h
      · exact hp (e.trans h)
      · exact hpa (hmem p (.inr (.inr (e ▸ h))))
  · have k3 := id_kept ids2 a _ ⟨key a, (buildL L l).root, r.root⟩ a2 rfl
    rw [hh3] at k3
    have k4 := id_kept k3 a _ ⟨key a, (buildL L l).root, (buildR R r).root⟩ a3 rfl
    rw [hh4] at k4
    exact k4

/-! ## SPLAY -/

/-- the clients of the tree at `root`, in order, with increasing ids: `t` is it, and `all` are they -/
structure Tree (key : Nat → Nat) (h : SHeap) (root : Nat) (t : PTree) (all : List Nat) : Prop where
  rep : RepT key h t
  root : root = t.root
  addrs : t.addrs = all
  sorted : all.Pairwise (fun a b => key a < key b)
  far : ∀ a ∈ all, 2 ≤ a

theorem Tree.nodup {key : Nat → Nat} {h : SHeap} {root : Nat} {t : PTree} {all : List Nat} (T : Tree key h root t all) : all.Nodup := by
  refine T.sorted.imp ?_
  intro a b hab e
  subst e
  omega

theorem splay_tree {key : Nat → Nat} {h : SHeap} {root : Nat} {t : PTree} {all : List Nat} (T : Tree key h root t all) (hr : root ≠ 0) (hone : h 1 = none) {elm k : Nat}
    (he : elm ≠ 1) (hk : (h elm).map (·.id) = some k) {fuel : Nat} (hf : all.length ≤ fuel) :
    ∃ h' l a r, splay fuel elm h root = .ok (h', a) ∧ Tree key h' a (.node l a r) all ∧ h' 1 = none ∧ (∀ p, p ∉ all → h' p = h p) ∧
      (∀ p, (h' p).map (·.id) = (h p).map (·.id)) ∧ (∀ x ∈ l.addrs, key x < k) ∧ ∀ x ∈ r.addrs, k < key x := by
  have hnd := T.nodup
  have hge := T.far
  have hne : t ≠ .nil := by
    intro e; rw [T.root, e] at hr; exact hr rfl
  have hone' : 1 ∉ all := fun h => by have := hge 1 h; omega
  generalize hh0 : hset h 1 (some { id := 0, left := 0, right := 0 }) = h0
  have f0 : ∀ p, p ≠ 1 → h0 p = h p := by intro p hp; rw [← hh0, hset_other _ _ _ _ hp]
  have i0 : SpInv key h all { h := h0, root := root, left := 1, right := 1 } [] t [] := by
    refine ⟨T.rep.frame fun x hx => f0 x ?_, T.root, rfl, rfl, ?_, ?_, ?_, ?_⟩
    · intro e; subst e; exact hone' (T.addrs ▸ hx)
    · show (h0 1).isSome = true; rw [← hh0, hset_same]; rfl
    · simp [addrsL, addrsR, T.addrs]
    · intro p hp _; exact f0 p hp
    · intro p hp; exact congrArg _ (f0 p hp)
  obtain ⟨s', L', R', l, a, r, e1, i, e2, e3⟩ := spLoop_inv hnd hge he hk T.sorted fuel _ [] [] t i0 hne (by rw [T.addrs]; exact hf) (by simp [addrsL]) (by simp [addrsR])
  obtain ⟨h', e4, e5, e6, e7⟩ := assemble_inv hnd hge i
  have hroot : s'.root = a := i.root
  have ho : (PTree.node (buildL L' l) a (buildR R' r)).addrs = all := by
    rw [PTree.addrs, buildL_addrs, buildR_addrs, ← i.order]
    simp [PTree.addrs]
  refine ⟨hset h' 1 none, buildL L' l, a, buildR R' r, ?_, ⟨e5.frame fun x hx => hset_other _ _ _ _ ?_, rfl, ho, T.sorted, hge⟩, hset_same _ _ _, ?_, ?_, ?_, ?_⟩
  · unfold splay
    rw [hh0, e1, bind_ok, e4, bind_ok, hroot]
  · intro e; subst e; rw [ho] at hx; exact hone' hx
  · intro p hp
    by_cases e : p = 1
    · subst e; rw [hset_same, hone]
    · rw [hset_other _ _ _ _ e]; exact e6 p e hp
  · intro p
    by_cases e : p = 1
    · subst e; rw [hset_same, hone]
    · rw [hset_other _ _ _ _ e]; exact e7 p e
  · intro x hx; rw [buildL_addrs] at hx; exact e2 x hx
  · intro x hx; rw [buildR_addrs] at hx; exact e3 x hx

/-! ## SPLAY_INSERT -/

theorem treeCmp_eq {h : SHeap} {a b : Nat} {x y : SNode} (ha : h a = some x) (hb : h b = some y) :
    treeCmp h a b = .ok (if x.id = y.id then 0 else if x.id < y.id then -1 else 1) := by
  unfold treeCmp
  rw [ld_eq ha, bind_ok, ld_eq hb, bind_ok]

theorem id_some {h : SHeap} {p k : Nat} (hk : (h p).map (·.id) = some k) : ∃ x y, h p = some ⟨k, x, y⟩ := by
  obtain ⟨⟨i, x, y⟩, h1, h2⟩ := Option.map_eq_some_iff.mp hk
  exact ⟨x, y, by rw [h1]; simpa using h2⟩

theorem insert_tree {key : Nat → Nat} {h : SHeap} {root : Nat} {t : PTree} {all : List Nat} (T : Tree key h root t all) (hone : h 1 = none) {elm : Nat} (he : 2 ≤ elm)
    (hn : elm ∉ all) (hk : (h elm).map (·.id) = some (key elm)) {fuel : Nat} (hf : all.length ≤ fuel) :
    ∃ h' root' t' all', splayInsert fuel elm h root = .ok (h', root') ∧ Tree key h' root' t' all' ∧ h' 1 = none ∧ (∀ p, p ∉ elm :: all → h' p = h p) ∧
      (∀ p, (h' p).map (·.id) = (h p).map (·.id)) ∧ ((∃ a ∈ all, key a = key elm) → all' = all) ∧
      ((¬ ∃ a ∈ all, key a = key elm) → ∀ p, p ∈ all' ↔ p = elm ∨ p ∈ all) := by
  have he1 : elm ≠ 1 := by omega
  have tfun : ∀ (f : SHeap) (n n' : SNode), f elm = some n → n'.id = n.id → ∀ p, (hset f elm (some n') p).map (·.id) = (f p).map (·.id) := by
    intro f n n' h1 h2 p
    by_cases e : p = elm
    · subst e; rw [hset_same, h1]; simp [h2]
    · rw [hset_other _ _ _ _ e]
  by_cases hr : root = 0
  · have ht : t = .nil := (PTree.root_zero (fun a ha => T.far a (T.addrs ▸ ha))).mp (by rw [← T.root]; exact hr)
    have hall : all = [] := by rw [← T.addrs, ht]; rfl
    subst ht hall
    obtain ⟨x, y, hx⟩ := id_some hk
    refine ⟨hset (hset h elm (some ⟨key elm, x, 0⟩)) elm (some ⟨key elm, 0, 0⟩), elm, .node .nil elm .nil, [elm], ?_, ⟨⟨hset_same _ _ _, trivial, trivial⟩, rfl, rfl, ?_, ?_⟩, ?_, ?_, ?_,
      ?_, ?_⟩
    · unfold splayInsert
      rw [if_pos hr, stR_eq hx, bind_ok, stL_eq (hset_same _ _ _), bind_ok]
    · simp
    · simp [he]
    · rw [hset_other _ _ _ _ (Ne.symm he1), hset_other _ _ _ _ (Ne.symm he1)]; exact hone
    · intro p hp
      have : p ≠ elm := by simpa using hp
      rw [hset_other _ _ _ _ this, hset_other _ _ _ _ this]
    · intro p
      exact (tfun _ ⟨key elm, x, 0⟩ ⟨key elm, 0, 0⟩ (hset_same _ _ _) rfl p).trans (tfun _ _ ⟨key elm, x, 0⟩ hx rfl p)
    · simp
    · simp
  · obtain ⟨h1, l, a, r, e1, T1, o1, f1, i1, lt, gt⟩ := splay_tree T hr hone he1 hk hf
    have ea : h1 a = some ⟨key a, l.root, r.root⟩ := T1.rep.1
    have haall : a ∈ all := by rw [← T1.addrs]; simp [PTree.addrs]
    have hae : a ≠ elm := fun e => hn (e ▸ haall)
    have hsub : ∀ x, x ∈ l.addrs ∨ x ∈ r.addrs → x ∈ all := by
      intro x hx; rw [← T1.addrs]; simp only [PTree.addrs, List.mem_append, List.mem_cons]; grind
    have hel : ∀ x, x ∈ l.addrs ∨ x ∈ r.addrs → x ≠ elm := fun x hx e => hn (e ▸ hsub x hx)
    have hks : (h1 elm).map (·.id) = some (key elm) := (i1 elm).trans hk
    obtain ⟨x, y, hx⟩ := id_some hks
    have so := T1.sorted
    rw [← T1.addrs] at so
    simp only [PTree.addrs, List.pairwise_append, List.pairwise_cons, List.mem_cons] at so
    have nd := T1.nodup
    rw [← T1.addrs] at nd
    simp only [PTree.addrs, List.nodup_append, List.nodup_cons, List.mem_cons] at nd
    unfold splayInsert
    rw [if_neg hr, e1, bind_ok]
    dsimp only
    rw [treeCmp_eq hx ea, bind_ok]
    dsimp only
    by_cases c0 : key elm = key a
    · rw [if_pos c0, if_neg (by decide), if_neg (by decide)]
      refine ⟨h1, a, _, all, rfl, T1, o1, fun p hp => f1 p fun h => hp (List.mem_cons_of_mem _ h), i1, fun _ => rfl, fun hno => absurd ⟨a, haall, c0.symm⟩ hno⟩
    · rw [if_neg c0]
      have hno : ¬ ∃ b ∈ all, key b = key elm := by
        rintro ⟨b, hb, e⟩
        rw [← T1.addrs] at hb
        simp only [PTree.addrs, List.mem_append, List.mem_cons] at hb
        rcases hb with hb | rfl | hb
        · have := lt b hb; omega
        · exact c0 e.symm
        · have := gt b hb; omega
      by_cases c1 : key elm < key a
      · rw [if_pos c1, if_pos (by decide), ld_eq ea, bind_ok]
        dsimp only
        rw [stL_eq hx, bind_ok, stR_eq (hset_same _ _ _), bind_ok]
        dsimp only
        generalize hh2 : hset (hset h1 elm (some ⟨key elm, l.root, y⟩)) elm (some ⟨key elm, l.root, a⟩) = h2
        have f2 : ∀ p, p ≠ elm → h2 p = h1 p := by
          intro p hp; rw [← hh2, hset_other _ _ _ _ hp, hset_other _ _ _ _ hp]
        have i2 : ∀ p, (h2 p).map (·.id) = (h1 p).map (·.id) := by
          intro p
          rw [← hh2]; exact (tfun _ ⟨key elm, l.root, y⟩ ⟨key elm, l.root, a⟩ (hset_same _ _ _) rfl p).trans (tfun _ _ ⟨key elm, l.root, y⟩ hx rfl p)
        have a2 : h2 a = some ⟨key a, l.root, r.root⟩ := (f2 a hae).trans ea
        rw [stL_eq a2, bind_ok]
        refine ⟨_, elm, .node l elm (.node .nil a r), l.addrs ++ elm :: (a :: r.addrs), rfl, ⟨⟨?_, ?_, ?_, trivial, ?_⟩, rfl, rfl, ?_, ?_⟩, ?_, ?_, ?_, fun h => absurd h hno, fun _ => ?_⟩
        · rw [hset_other _ _ _ _ (Ne.symm hae), ← hh2, hset_same]; rfl
        · refine T1.rep.2.1.frame fun z hz => ?_
          rw [hset_other _ _ _ _ (fun e => nd.2.2 z hz a (.inl rfl) e), f2 z (hel z (.inl hz))]
        · rw [hset_same]; rfl
        · refine T1.rep.2.2.frame fun z hz => ?_
          rw [hset_other _ _ _ _ (show z ≠ a from fun e => nd.2.1.1 (e ▸ hz)), f2 z (hel z (.inr hz))]
        · simp only [List.pairwise_append, List.pairwise_cons, List.mem_cons]
          grind
        · intro z hz
          simp only [List.mem_append, List.mem_cons] at hz
          rcases hz with hz | rfl | rfl | hz
          · exact T.far z (hsub z (.inl hz))
          · exact he
          · exact T.far z haall
          · exact T.far z (hsub z (.inr hz))
        · have := T.far a haall
          rw [hset_other _ _ _ _ (by omega), f2 1 (Ne.symm he1)]; exact o1
        · intro p hp
          simp only [List.mem_cons, not_or] at hp
          rw [hset_other _ _ _ _ (show p ≠ a from fun e => hp.2 (e ▸ haall)), f2 p hp.1]; exact f1 p hp.2
        · intro p
          by_cases e : p = a
          · subst e; rw [hset_same, ← i1 p, ea]; rfl
          · rw [hset_other _ _ _ _ e, i2]; exact i1 p
        · intro p
          rw [← T1.addrs]
          simp only [PTree.addrs, List.mem_append, List.mem_cons]
          grind
      · have c2 : key a < key elm := by omega
        rw [if_neg c1, if_neg (by decide), if_pos (by decide), ld_eq ea, bind_ok]
        dsimp only
        rw [stR_eq hx, bind_ok, stL_eq (hset_same _ _ _), bind_ok]
        dsimp only
        generalize hh2 : hset (hset h1 elm (some ⟨key elm, x, r.root⟩)) elm (some ⟨key elm, a, r.root⟩) = h2
        have f2 : ∀ p, p ≠ elm → h2 p = h1 p := by
          intro p hp; rw [← hh2, hset_other _ _ _ _ hp, hset_other _ _ _ _ hp]
        have i2 : ∀ p, (h2 p).map (·.id) = (h1 p).map (·.id) := by
          intro p
          rw [← hh2]; exact (tfun _ ⟨key elm, x, r.root⟩ ⟨key elm, a, r.root⟩ (hset_same _ _ _) rfl p).trans (tfun _ _ ⟨key elm, x, r.root⟩ hx rfl p)
        have a2 : h2 a = some ⟨key a, l.root, r.root⟩ := (f2 a hae).trans ea
        rw [stR_eq a2, bind_ok]
        refine ⟨_, elm, .node (.node l a .nil) elm r, (l.addrs ++ [a]) ++ elm :: r.addrs, rfl, ⟨⟨?_, ⟨?_, ?_, trivial⟩, ?_⟩, rfl, rfl, ?_, ?_⟩, ?_, ?_, ?_, fun h => absurd h hno, fun _ => ?_⟩
        · rw [hset_other _ _ _ _ (Ne.symm hae), ← hh2, hset_same]; rfl
        · rw [hset_same]; rfl
        · refine T1.rep.2.1.frame fun z hz => ?_
          rw [hset_other _ _ _ _ (fun e => nd.2.2 z hz a (.inl rfl) e), f2 z (hel z (.inl hz))]
        · refine T1.rep.2.2.frame fun z hz => ?_
          rw [hset_other _ _ _ _ (show z ≠ a from fun e => nd.2.1.1 (e ▸ hz)), f2 z (hel z (.inr hz))]
        · simp only [List.pairwise_append, List.pairwise_cons, List.mem_cons, List.mem_append, List.not_mem_nil, or_false]
          refine ⟨⟨so.1, ⟨fun _ h => h.elim, .nil⟩, fun z hz w hw => hw ▸ so.2.2 z hz a (.inl rfl)⟩, ⟨gt, so.2.1.2⟩, ?_⟩
          intro z hz w hw
          rcases hz with hz | rfl <;> rcases hw with rfl | hw
          · exact lt z hz
          · exact so.2.2 z hz w (.inr hw)
          · exact c2
          · exact so.2.1.1 w hw
        · intro z hz
          simp only [List.mem_append, List.mem_cons, List.not_mem_nil, or_false] at hz
          rcases hz with (hz | rfl) | rfl | hz
          · exact T.far z (hsub z (.inl hz))
          · exact T.far z haall
          · exact he
          · exact T.far z (hsub z (.inr hz))
        · have := T.far a haall
          rw [hset_other _ _ _ _ (by omega), f2 1 (Ne.symm he1)]; exact o1
        · intro p hp
          simp only [List.mem_cons, not_or] at hp
          rw [hset_other _ _ _ _ (show p ≠ a from fun e => hp.2 (e ▸ haall)), f2 p hp.1]; exact f1 p hp.2
        · intro p
          by_cases e : p = a
          · subst e; rw [hset_same, ← i1 p, ea]; rfl
          · rw [hset_other _ _ _ _ e, i2]; exact i1 p
        · intro p
          rw [← T1.addrs]
          simp only [PTree.addrs, List.mem_append, List.mem_cons, List.not_mem_nil, or_false]
          grind

/-! ## SPLAY_REMOVE -/

theorem remove_tree {key : Nat → Nat} {h : SHeap} {root : Nat} {t : PTree} {all : List Nat} (T : Tree key h root t all) (hone : h 1 = none) {elm k : Nat} (he : 2 ≤ elm)
    (hk : (h elm).map (·.id) = some k) {fuel : Nat} (hf : all.length ≤ fuel) :
    ∃ h' root' t' all', splayRemove fuel elm h root = .ok (h', root') ∧ Tree key h' root' t' all' ∧ h' 1 = none ∧ (∀ p, p ∉ all → h' p = h p) ∧
      (∀ p, (h' p).map (·.id) = (h p).map (·.id)) ∧ ∀ p, p ∈ all' ↔ p ∈ all ∧ key p ≠ k := by
  have he1 : elm ≠ 1 := by omega
  by_cases hr : root = 0
  · have ht : t = .nil := (PTree.root_zero (fun a ha => T.far a (T.addrs ▸ ha))).mp (by rw [← T.root]; exact hr)
    have hall : all = [] := by rw [← T.addrs, ht]; rfl
    subst hall
    exact ⟨h, root, t, [], by unfold splayRemove; rw [if_pos hr], T, hone, fun _ _ => rfl, fun _ => rfl, by simp⟩
  · obtain ⟨h1, l, a, r, e1, T1, o1, f1, i1, lt, gt⟩ := splay_tree T hr hone he1 hk hf
    have ea : h1 a = some ⟨key a, l.root, r.root⟩ := T1.rep.1
    have haall : a ∈ all := by rw [← T1.addrs]; simp [PTree.addrs]
    have hsub : ∀ x, x ∈ l.addrs ∨ x ∈ r.addrs → x ∈ all := by
      intro x hx; rw [← T1.addrs]; simp only [PTree.addrs, List.mem_append, List.mem_cons]; grind
    have hks : (h1 elm).map (·.id) = some k := (i1 elm).trans hk
    obtain ⟨x, y, hx⟩ := id_some hks
    have so := T1.sorted
    rw [← T1.addrs] at so
    simp only [PTree.addrs, List.pairwise_append, List.pairwise_cons, List.mem_cons] at so
    have nd := T1.nodup
    rw [← T1.addrs] at nd
    simp only [PTree.addrs, List.nodup_append, List.nodup_cons, List.mem_cons] at nd
    unfold splayRemove
    rw [if_neg hr, e1, bind_ok]
    dsimp only
    rw [treeCmp_eq hx ea, bind_ok]
    dsimp only
    by_cases c0 : k = key a
    · rw [if_pos c0, if_pos rfl, ld_eq ea, bind_ok]
      dsimp only
      by_cases cl : l.root = 0
      · have hl : l = .nil := (PTree.root_zero (fun b hb => T.far b (hsub b (.inl hb)))).mp cl
        subst hl
        rw [if_pos cl]
        refine ⟨h1, r.root, r, r.addrs, rfl, ⟨T1.rep.2.2, rfl, rfl, so.2.1.2, fun z hz => T.far z (hsub z (.inr hz))⟩, o1, f1, i1, ?_⟩
        intro p
        rw [← T1.addrs]
        simp only [PTree.addrs, List.nil_append, List.mem_cons]
        grind
      · rw [if_neg cl]
        have Tl : Tree key h1 l.root l l.addrs := ⟨T1.rep.2.1, rfl, rfl, so.1, fun z hz => T.far z (hsub z (.inl hz))⟩
        have hlen : l.addrs.length ≤ fuel := by
          have := congrArg List.length T1.addrs
          simp only [PTree.addrs, List.length_append, List.length_cons] at this
          omega
        obtain ⟨h2, l', b, r', e2, T2, o2, f2, i2, lt2, gt2⟩ := splay_tree Tl cl o1 he1 hks hlen
        have hr' : r' = .nil := by
          cases r' with
          | nil => rfl
          | node rl c rr =>
            have h1 := gt2 c (by simp [PTree.addrs])
            have h2 : c ∈ l.addrs := by rw [← T2.addrs]; simp [PTree.addrs]
            have := lt c h2
            omega
        subst hr'
        have hbl : b ∈ l.addrs := by rw [← T2.addrs]; simp [PTree.addrs]
        have eb : h2 b = some ⟨key b, l'.root, 0⟩ := T2.rep.1
        have hl'l : ∀ z ∈ l'.addrs, z ∈ l.addrs := fun z hz => by rw [← T2.addrs]; simp [PTree.addrs, hz]
        have nd2 := Tree.nodup T2
        rw [← T2.addrs] at nd2
        simp only [PTree.addrs, List.nodup_append, List.mem_cons] at nd2
        rw [e2, bind_ok]
        dsimp only
        rw [stR_eq eb, bind_ok]
        have hla : l.addrs = l'.addrs ++ [b] := by rw [← T2.addrs]; rfl
        refine ⟨_, b, .node l' b r, l.addrs ++ r.addrs, rfl, ⟨⟨?_, ?_, ?_⟩, rfl, ?_, ?_, ?_⟩, ?_, ?_, ?_, ?_⟩
        · rw [hset_same]
        · refine T2.rep.2.1.frame fun z hz => hset_other _ _ _ _ fun e => nd2.2.2 z hz b (.inl rfl) e
        · refine T1.rep.2.2.frame fun z hz => ?_
          have hzl : z ∉ l.addrs := fun h => nd.2.2 z h z (.inr hz) rfl
          rw [hset_other _ _ _ _ (show z ≠ b from fun e => hzl (e ▸ hbl)), f2 z hzl]
        · rw [hla]; simp [PTree.addrs]
        · rw [List.pairwise_append]
          exact ⟨so.1, so.2.1.2, fun z hz w hw => so.2.2 z hz w (.inr hw)⟩
        · intro z hz
          rcases List.mem_append.mp hz with hz | hz
          · exact T.far z (hsub z (.inl hz))
          · exact T.far z (hsub z (.inr hz))
        · have := T.far b (hsub b (.inl hbl))
          rw [hset_other _ _ _ _ (by omega)]; exact o2
        · intro p hp
          have hpl : p ∉ l.addrs := fun h => hp (hsub p (.inl h))
          rw [hset_other _ _ _ _ (show p ≠ b from fun e => hpl (e ▸ hbl)), f2 p hpl]; exact f1 p hp
        · intro p
          by_cases e : p = b
          · subst e
            rw [hset_same, ← i1 p, ← i2 p, eb]; rfl
          · rw [hset_other _ _ _ _ e, i2]; exact i1 p
        · intro p
          rw [← T1.addrs]
          simp only [PTree.addrs, List.mem_append, List.mem_cons]
          grind
    · rw [if_neg c0]
      have hc : ¬ (if k < key a then (-1 : Int) else 1) = 0 := by split <;> decide
      rw [if_neg hc]
      refine ⟨h1, a, _, all, rfl, T1, o1, f1, i1, ?_⟩
      intro p
      refine ⟨fun hp => ⟨hp, ?_⟩, fun hp => hp.1⟩
      rw [← T1.addrs] at hp
      simp only [PTree.addrs, List.mem_append, List.mem_cons] at hp
      rcases hp with hp | rfl | hp
      · have := lt p hp; omega
      · exact Ne.symm c0
      · have := gt p hp; omega

/-! ## the table -/

/-- the id of the client at `p` -/
def idOf (h : SHeap) (p : Nat) : Nat := (h p).elim 0 (·.id)

theorem idOf_some {h : SHeap} {p : Nat} (hp : (h p).isSome = true) : (h p).map (·.id) = some (idOf h p) := by
  unfold idOf
  cases hh : h p with
  | none => rw [hh] at hp; cases hp
  | some n => rfl

theorem idOf_congr {h h' : SHeap} (hi : ∀ p, (h' p).map (·.id) = (h p).map (·.id)) : idOf h' = idOf h := by
  funext p
  have := hi p
  unfold idOf
  cases h1 : h p <;> cases h2 : h' p <;> rw [h1, h2] at this <;> simp_all

theorem RepT.key {key key' : Nat → Nat} {h : SHeap} {t : PTree} (hr : RepT key h t) (hf : ∀ a ∈ t.addrs, key' a = key a) : RepT key' h t := by
  induction t with
  | nil => trivial
  | node l a r ihl ihr =>
    simp only [PTree.addrs, List.mem_append, List.mem_cons] at hf
    refine ⟨?_, ihl hr.2.1 (fun x hx => hf x (.inl hx)), ihr hr.2.2 (fun x hx => hf x (.inr (.inr hx)))⟩
    rw [hf a (.inr (.inl rfl))]; exact hr.1

theorem pairwise_key {key key' : Nat → Nat} {all : List Nat} (h : all.Pairwise (fun a b => key a < key b)) (hf : ∀ a ∈ all, key' a = key a) :
    all.Pairwise (fun a b => key' a < key' b) := by
  refine List.Pairwise.imp_of_mem ?_ h
  intro a b ha hb hab
  rw [hf a ha, hf b hb]; exact hab

theorem Tree.move {key key' : Nat → Nat} {h h' : SHeap} {root : Nat} {t : PTree} {all : List Nat} (T : Tree key h root t all) (hh : ∀ a ∈ all, h' a = h a)
    (hf : ∀ a ∈ all, key' a = key a) : Tree key' h' root t all := by
  refine ⟨?_, T.root, T.addrs, pairwise_key T.sorted hf, T.far⟩
  exact (T.rep.frame fun a ha => hh a (T.addrs ▸ ha)).key fun a ha => hf a (T.addrs ▸ ha)

theorem Tree.some {key : Nat → Nat} {h : SHeap} {root : Nat} {t : PTree} {all : List Nat} (T : Tree key h root t all) : ∀ a ∈ all, (h a).map (·.id) = some (key a) := by
  intro a ha
  have hr := T.rep
  rw [← T.addrs] at ha
  clear T
  induction t with
  | nil => cases ha
  | node l b r ihl ihr =>
    simp only [PTree.addrs, List.mem_append, List.mem_cons] at ha
    rcases ha with ha | rfl | ha
    · exact ihl ha hr.2.1
    · rw [hr.1]; rfl
    · exact ihr ha hr.2.2

/-- between two events: `open'` are the clients in memory, the tree has `all` of them -/
structure TabInv (t : Table) (live : List Nat) (all : List Nat) : Prop where
  tree : ∃ p, Tree (idOf t.h) t.h t.root p all
  one : t.h 1 = none
  mem : ∀ p, (t.h p).isSome = true ↔ p ∈ live
  far : ∀ p ∈ live, 2 ≤ p
  sub : ∀ p ∈ all, p ∈ live

theorem accept_inv {t : Table} {live all : List Nat} (i : TabInv t live all) {p : Nat} (hp : 2 ≤ p) (hn : p ∉ live) {fuel : Nat} (hf : all.length ≤ fuel) :
    ∃ t' all', tableStep fuel (.accept p) t = .ok t' ∧ TabInv t' (p :: live) all' ∧ t'.count = (t.count + 1) % 2 ^ 32 ∧ idOf t'.h p = (t.count + 1) % 2 ^ 32 ∧
      (∀ q, q ≠ p → idOf t'.h q = idOf t.h q) ∧ ((∃ a ∈ all, idOf t.h a = (t.count + 1) % 2 ^ 32) → all' = all) ∧
      ((¬ ∃ a ∈ all, idOf t.h a = (t.count + 1) % 2 ^ 32) → ∀ q, q ∈ all' ↔ q = p ∨ q ∈ all) := by
  obtain ⟨T0, hT⟩ := i.tree
  have hpa : p ∉ all := fun h => hn (i.sub p h)
  generalize hid : (t.count + 1) % 2 ^ 32 = k
  generalize hh : hset t.h p (some { id := k, left := 0, right := 0 }) = h
  have f : ∀ q, q ≠ p → h q = t.h q := by intro q hq; rw [← hh, hset_other _ _ _ _ hq]
  have g : ∀ q, q ≠ p → idOf h q = idOf t.h q := by intro q hq; unfold idOf; rw [f q hq]
  have gp : idOf h p = k := by unfold idOf; rw [← hh, hset_same]; rfl
  have T1 : Tree (idOf h) h t.root T0 all := hT.move (fun a ha => f a fun e => hpa (e ▸ ha)) fun a ha => g a fun e => hpa (e ▸ ha)
  have one1 : h 1 = none := (f 1 (by omega)).trans i.one
  obtain ⟨h', root', t', all', e1, T2, o2, f2, i2, k1, k2⟩ :=
    insert_tree T1 one1 hp hpa (idOf_some (by rw [← hh, hset_same]; rfl)) hf
  have gi : idOf h' = idOf h := idOf_congr i2
  have kk : (∃ a ∈ all, idOf t.h a = k) ↔ ∃ a ∈ all, idOf h a = idOf h p := by
    rw [gp]
    constructor
    · rintro ⟨a, ha, e⟩; exact ⟨a, ha, (g a fun e => hpa (e ▸ ha)).trans e⟩
    · rintro ⟨a, ha, e⟩; exact ⟨a, ha, (g a fun e => hpa (e ▸ ha)).symm.trans e⟩
  refine ⟨{ h := h', root := root', count := k }, all', ?_, ⟨⟨t', ?_⟩, o2, ?_, ?_, ?_⟩, rfl, ?_, ?_, ?_, ?_⟩
  · unfold tableStep
    dsimp only
    rw [hid, hh, e1, bind_ok]
  · show Tree (idOf h') h' root' t' all'
    rw [gi]; exact T2
  · intro q
    have : (h' q).isSome = (h q).isSome := by
      have := congrArg Option.isSome (i2 q)
      simpa using this
    show (h' q).isSome = true ↔ _
    rw [this, List.mem_cons]
    by_cases e : q = p
    · subst e; rw [← hh, hset_same]; simp
    · rw [f q e, i.mem q]; simp [e]
  · intro q hq
    rcases List.mem_cons.mp hq with rfl | hq
    · exact hp
    · exact i.far q hq
  · intro q hq
    by_cases h0 : ∃ a ∈ all, idOf h a = idOf h p
    · rw [k1 h0] at hq; exact List.mem_cons_of_mem _ (i.sub q hq)
    · rcases (k2 h0 q).mp hq with rfl | hq
      · exact List.mem_cons_self
      · exact List.mem_cons_of_mem _ (i.sub q hq)
  · show idOf h' p = k
    rw [gi]; exact gp
  · intro q hq
    show idOf h' q = _
    rw [gi]; exact g q hq
  · intro h0; exact k1 (kk.mp h0)
  · intro h0; exact k2 (fun h => h0 (kk.mpr h))

theorem close_inv {t : Table} {live all : List Nat} (i : TabInv t live all) {p : Nat} (hp : p ∈ live) {fuel : Nat} (hf : all.length ≤ fuel) :
    ∃ t' all', tableStep fuel (.close p) t = .ok t' ∧ TabInv t' (live.filter (· ≠ p)) all' ∧ t'.count = t.count ∧ (∀ q, q ≠ p → idOf t'.h q = idOf t.h q) ∧
      ∀ q, q ∈ all' ↔ q ∈ all ∧ idOf t.h q ≠ idOf t.h p := by
  obtain ⟨T0, hT⟩ := i.tree
  have hp2 := i.far p hp
  obtain ⟨h', root', t', all', e1, T2, o2, f2, i2, k2⟩ := remove_tree hT i.one hp2 (idOf_some ((i.mem p).mpr hp)) hf
  have gi : idOf h' = idOf t.h := idOf_congr i2
  have f : ∀ q, q ≠ p → hset h' p none q = h' q := fun q hq => hset_other _ _ _ _ hq
  have g : ∀ q, q ≠ p → idOf (hset h' p none) q = idOf t.h q := by
    intro q hq
    rw [← gi]; unfold idOf; rw [f q hq]
  have hpa : p ∉ all' := fun h => ((k2 p).mp h).2 rfl
  refine ⟨{ h := hset h' p none, root := root', count := t.count }, all', ?_, ⟨⟨t', ?_⟩, ?_, ?_, ?_, ?_⟩, rfl, g, k2⟩
  · unfold tableStep
    dsimp only
    rw [e1, bind_ok]
  · exact T2.move (fun a ha => f a fun e => hpa (e ▸ ha)) fun a ha => g a fun e => hpa (e ▸ ha)
  · show hset h' p none 1 = none
    rw [f 1 (by omega)]; exact o2
  · intro q
    show (hset h' p none q).isSome = true ↔ _
    by_cases e : q = p
    · subst e; rw [hset_same]; simp
    · have : (h' q).isSome = (t.h q).isSome := by
        have := congrArg Option.isSome (i2 q)
        simpa using this
      rw [f q e, this, i.mem q]; simp [e]
  · intro q hq; exact i.far q (List.mem_filter.mp hq).1
  · intro q hq
    have h1 := (k2 q).mp hq
    simp only [List.mem_filter, decide_eq_true_eq, ne_eq]
    refine ⟨i.sub q h1.1, ?_⟩
    intro e; subst e; exact h1.2 rfl

end Gmid.Props
