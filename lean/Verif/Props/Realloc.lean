import Verif.Model.Realloc
import Verif.Spec.Realloc

/-!
# C102: growing and shrinking arrays
-/

set_option autoImplicit false

namespace Gmid.Props

open Spec

/-- the check refuses exactly the products that do not fit -/
theorem mulOverflows_iff (n size : Nat) : mulOverflows n size = true ↔ 2 ^ 64 ≤ n * size := by
  unfold mulOverflows
  simp only [Bool.and_eq_true, Bool.or_eq_true, decide_eq_true_eq, Nat.shiftLeft_eq, Nat.one_mul]
  have hw : wordSize = 2 ^ 64 := rfl
  rw [hw]
  constructor
  · rintro ⟨⟨_, hn⟩, h⟩
    rw [Nat.div_lt_iff_lt_mul hn, Nat.mul_comm] at h
    omega
  · intro h
    have hn : n > 0 := by
      apply Nat.pos_of_ne_zero; intro e; subst e; simp at h
    refine ⟨⟨?_, hn⟩, ?_⟩
    · apply Decidable.byContradiction
      intro hc
      have h1 : n < 2 ^ 32 := by omega
      have h2 : size < 2 ^ 32 := by omega
      have : n * size < 2 ^ 32 * 2 ^ 32 := Nat.mul_lt_mul_of_lt_of_lt h1 h2
      omega
    · rw [Nat.div_lt_iff_lt_mul hn, Nat.mul_comm]; omega

theorem write_some {h : Heap} {p off : Nat} {b bs : Bytes} (hb : h.blk p = some b) (hl : off + bs.length ≤ b.length) :
    ∃ h' : Heap, h.write p off bs = some h' ∧ h'.blk p = some (b.take off ++ bs ++ b.drop (off + bs.length)) ∧ (∀ x, x ≠ p → h'.blk x = h.blk x) ∧
      h'.freed = h.freed := by
  unfold Heap.write; rw [hb]; simp only [if_pos hl]
  exact ⟨_, rfl, by simp, fun x hx => by simp [hx], rfl⟩

theorem read_some {h : Heap} {p off len : Nat} {b : Bytes} (hb : h.blk p = some b) (hl : off + len ≤ b.length) :
    h.read p off len = some ((b.drop off).take len) := by
  unfold Heap.read; rw [hb]; simp only [if_pos hl]

theorem free_some {h : Heap} {p : Nat} {b : Bytes} (hb : h.blk p = some b) :
    ∃ h' : Heap, h.free p = some h' ∧ h'.blk p = none ∧ (∀ x, x ≠ p → h'.blk x = h.blk x) ∧ h'.freed = b :: h.freed := by
  unfold Heap.free; rw [hb]
  exact ⟨_, rfl, by simp, fun x hx => by simp [hx], rfl⟩

theorem malloc_cases (h : Heap) (al : Alloc) (sz : Nat) :
    (h.malloc al sz = (h, none) ∧ ¬ ∃ a, al.addr = some a ∧ h.blk a = none) ∨
      ∃ (h' : Heap) (q : Nat), h.malloc al sz = (h', some q) ∧ h.blk q = none ∧ h'.blk q = some ((List.range sz).map al.junk) ∧
        (∀ x, x ≠ q → h'.blk x = h.blk x) ∧ h'.freed = h.freed := by
  unfold Heap.malloc
  cases ha : al.addr with
  | none => left; simp
  | some q =>
    simp only
    cases hq : h.blk q with
    | some b => left; simp [hq]
    | none =>
      right
      simp only [Option.isSome_none, Bool.false_eq_true, if_false]
      exact ⟨_, q, rfl, hq, by simp, fun x hx => by simp [hx], rfl⟩

theorem recallocMove_spec (h : Heap) (al : Alloc) (p : Nat) (b : Bytes) (oldsize newsize : Nat) (hb : h.blk p = some b) (hl : oldsize ≤ b.length) :
    (recallocMove h al p oldsize newsize = some (h, none) ∧ ¬ ∃ a, al.addr = some a ∧ h.blk a = none) ∨
      ∃ h' q, recallocMove h al p oldsize newsize = some (h', some q) ∧ Resized h h' p q b oldsize newsize := by
  unfold recallocMove
  rcases malloc_cases h al newsize with ⟨e, hno⟩ | ⟨h1, q, e, hqn, hq1, hx1, hf1⟩
  · left; rw [e]; exact ⟨rfl, hno⟩
  right
  rw [e]
  simp only
  have hqp : q ≠ p := by intro e; subst e; rw [hb] at hqn; exact absurd hqn (by simp)
  have hpq : p ≠ q := fun e => hqp e.symm
  have hb1 : h1.blk p = some b := by rw [hx1 p hpq]; exact hb
  -- the copy
  have copy : ∃ h2 : Heap, (if newsize > oldsize then
        (h1.read p 0 oldsize).bind fun b => (h1.write q 0 b).bind fun h => h.write q oldsize (List.replicate (newsize - oldsize) 0)
      else (h1.read p 0 newsize).bind fun b => h1.write q 0 b) = some h2 ∧ h2.blk q = some (resized (b.take oldsize) newsize) ∧
      (∀ x, x ≠ q → h2.blk x = h1.blk x) ∧ h2.freed = h1.freed := by
    by_cases hc : newsize > oldsize
    · rw [if_pos hc, read_some hb1 (by omega)]
      simp only [Option.bind_some]
      obtain ⟨h2, e2, q2, x2, f2⟩ := write_some (off := 0) (bs := (b.drop 0).take oldsize) hq1 (by simp; omega)
      rw [e2]
      simp only [Option.bind_some]
      obtain ⟨h3, e3, q3, x3, f3⟩ := write_some (off := oldsize) (bs := List.replicate (newsize - oldsize) 0) q2 (by simp; omega)
      refine ⟨h3, e3, ?_, fun x hx => by rw [x3 x hx, x2 x hx], by rw [f3, f2]⟩
      rw [q3]
      congr 1
      have h1 : min oldsize b.length = oldsize := by omega
      have h2 : ((b.take oldsize).take newsize) = b.take oldsize := by rw [List.take_take]; congr 1; omega
      simp only [resized, List.drop_zero, List.take_zero, List.nil_append, List.length_take, h1, h2]
      rw [List.take_left' (by simp; omega), List.drop_eq_nil_of_le (by simp; omega), List.append_nil]
    · rw [if_neg hc, read_some hb1 (by omega)]
      simp only [Option.bind_some]
      obtain ⟨h2, e2, q2, x2, f2⟩ := write_some (off := 0) (bs := (b.drop 0).take newsize) hq1 (by simp; omega)
      refine ⟨h2, e2, ?_, x2, f2⟩
      rw [q2]
      congr 1
      have h1 : min newsize b.length = newsize := by omega
      have h2 : ((b.take oldsize).take newsize) = b.take newsize := by rw [List.take_take]; congr 1; omega
      have h3 : newsize - (b.take oldsize).length = 0 := by simp; omega
      simp only [resized, List.drop_zero, List.take_zero, List.nil_append, List.length_take, h1, h2]
      rw [List.drop_eq_nil_of_le (by simp), List.append_nil]
      simp only [List.length_take] at h3
      rw [h3]; simp
  obtain ⟨h2, e2, q2, x2, f2⟩ := copy
  rw [e2]
  simp only [Option.bind_some]
  obtain ⟨h3, e3, p3, x3, f3⟩ := write_some (h := h2) (p := p) (b := b) (off := 0) (bs := List.replicate oldsize 0) (by rw [x2 p hpq]; exact hb1) (by simp; omega)
  rw [e3]
  simp only [Option.bind_some]
  obtain ⟨h4, e4, p4, x4, f4⟩ := free_some p3
  rw [e4]
  simp only [Option.map_some]
  have hlen : (resized (b.take oldsize) newsize).length = newsize := by simp [resized]; omega
  refine ⟨h4, q, rfl, ⟨⟨_, by rw [x4 q hqp, x3 q hqp]; exact q2, by rw [List.take_of_length_le (by omega)], by omega, Or.inr ⟨hqp, hlen⟩⟩, ?_, ?_⟩⟩
  · intro x hxp hxq
    rw [x4 x hxp, x3 x hxp, x2 x hxq, hx1 x hxq]
  · refine Or.inr ⟨hqp, hqn, p4, ?_⟩
    rw [f4, f3, f2, hf1]; simp

/-- One call on a live array: a size that does not fit is refused, on failure nothing changes, and otherwise
the array is the old one cut or extended with zeroes, no other block is touched, and a block that is
released holds nothing but zeroes where the array was. -/
theorem C102_recallocarray (h : Heap) (al : Alloc) (p : Nat) (b : Bytes) (oldn newn size : Nat) (hb : h.blk p = some b) (hl : oldn * size ≤ b.length)
    (hw : b.length < 2 ^ 64) :
    ∃ h' r, recallocarray h al (some p) oldn newn size = some (h', r) ∧
      (2 ^ 64 ≤ newn * size → r = none) ∧
      (newn * size < 2 ^ 64 → (∃ a, al.addr = some a ∧ h.blk a = none) → r ≠ none) ∧
      (r = none → h' = h) ∧
      ∀ q, r = some q → Resized h h' p q b (oldn * size) (newn * size) := by
  unfold recallocarray
  simp only
  by_cases ho : mulOverflows newn size = true
  · rw [if_pos ho]
    have := (mulOverflows_iff newn size).mp ho
    exact ⟨h, none, rfl, fun _ => rfl, by omega, fun _ => rfl, by simp⟩
  rw [if_neg ho]
  have ho' : newn * size < 2 ^ 64 := by
    apply Nat.lt_of_not_le; intro hc; exact ho ((mulOverflows_iff newn size).mpr hc)
  rw [if_neg (by rw [mulOverflows_iff]; omega)]
  have hm1 : newn * size % wordSize = newn * size := Nat.mod_eq_of_lt ho'
  have hm2 : oldn * size % wordSize = oldn * size := Nat.mod_eq_of_lt (by have : wordSize = 2 ^ 64 := rfl; omega)
  rw [hm1, hm2]
  generalize hN : newn * size = N at *
  generalize hO : oldn * size = O at *
  split
  · rename_i hc
    obtain ⟨h', e, p1, x1, f1⟩ := write_some (off := N) (bs := List.replicate (O - N) 0) hb (by simp; omega)
    rw [e]
    refine ⟨h', some p, rfl, by omega, by simp, by simp, ?_⟩
    intro q hq
    cases hq
    refine ⟨⟨_, p1, ?_, ?_, Or.inl ⟨rfl, ?_, ?_⟩⟩, fun x hx _ => x1 x hx, Or.inl ⟨rfl, f1⟩⟩
    · have h1 : (b.take N).length = N := by simp; omega
      rw [List.append_assoc, List.take_left' h1]
      have h2 : N - (b.take O).length = 0 := by simp; omega
      rw [resized, h2, List.take_take]; simp; omega
    · simp; omega
    · simp; omega
    · have h1 : (b.take N).length = N := by simp; omega
      rw [List.append_assoc, List.drop_left' h1]
      congr 2
      simp; omega
  · rcases recallocMove_spec h al p b O N hb hl with ⟨e, hno⟩ | ⟨h', q, e, hr⟩
    · exact ⟨h, none, e, fun _ => rfl, fun _ hc => absurd hc hno, fun _ => rfl, by simp⟩
    · refine ⟨h', some q, e, by omega, by simp, by simp, ?_⟩
      intro q' hq; cases hq; exact hr

/-- all zeroes -/
theorem replicate_drop_all {n k : Nat} {x : UInt8} : ∀ b ∈ (List.replicate n x).drop k, b = x := by
  intro b hb; rw [List.drop_replicate] at hb; exact List.eq_of_mem_replicate hb

/-- the array and its bytes, the block behind it, everything else -/
structure ArrInv (size : Nat) (h : Heap) (a : Arr) (bs : Bytes) : Prop where
  len : bs.length = a.n * size
  blk : ∀ p, a.ptr = some p → ∃ k, h.blk p = some (bs ++ List.replicate k 0) ∧ bs.length + k < 2 ^ 64
  nul : a.ptr = none → bs = []
  live : ∀ x, (h.blk x).isSome = true ↔ a.ptr = some x
  gone : ∀ f ∈ h.freed, ∀ c ∈ f, c = 0

theorem arrStep_spec (size : Nat) (h : Heap) (a : Arr) (bs : Bytes) (op : ArrOp) (hi : ArrInv size h a bs) :
    ∃ h' a' bs', arrStep size h a op = some (h', a') ∧ ArrSpec size op bs bs' ∧ ArrInv size h' a' bs' := by
  cases op with
  | put off ws =>
    unfold arrStep
    cases hp : a.ptr with
    | none => exact ⟨h, a, bs, rfl, .skip _ _ _ (Or.inr (hi.nul hp)), hi⟩
    | some p =>
      simp only
      obtain ⟨k, hb, hk⟩ := hi.blk p hp
      by_cases hc : off + ws.length ≤ a.n * size
      · rw [if_pos hc]
        rw [← hi.len] at hc
        obtain ⟨h', e, p1, x1, f1⟩ := write_some (off := off) (bs := ws) hb (by simp; omega)
        rw [e]
        have hlen : (bs.take off ++ ws ++ bs.drop (off + ws.length)).length = bs.length := by simp; omega
        refine ⟨h', a, bs.take off ++ ws ++ bs.drop (off + ws.length), rfl, .put _ _ _ hc, ⟨by rw [hlen]; exact hi.len, ?_, ?_, ?_, by rw [f1]; exact hi.gone⟩⟩
        · intro p' hp'
          rw [hp] at hp'; cases hp'
          refine ⟨k, ?_, by omega⟩
          rw [p1, List.take_append_of_le_length (by omega), List.drop_append_of_le_length (by omega)]
          simp
        · intro hn; rw [hp] at hn; exact absurd hn (by simp)
        · intro x
          by_cases hx : x = p
          · subst hx; rw [p1, hp]; simp
          · rw [x1 x hx]; exact hi.live x
      · rw [if_neg hc]
        exact ⟨h, a, bs, rfl, .skip _ _ _ (Or.inl (by rw [hi.len]; omega)), hi⟩
  | resize al n =>
    unfold arrStep
    cases hp : a.ptr with
    | none =>
      have hbs := hi.nul hp
      simp only [recallocarray, Heap.calloc]
      by_cases hc : n * size < wordSize
      · rw [if_pos hc]
        rcases malloc_cases h { al with junk := fun _ => 0 } (n * size) with ⟨e, hno⟩ | ⟨h1, q, e, hqn, hq1, hx1, hf1⟩
        · rw [e]; exact ⟨h, a, bs, rfl, .failed _ _ _, hi⟩
        · rw [e]
          have hz : resized bs (n * size) = List.replicate (n * size) 0 := by simp [resized, hbs]
          refine ⟨h1, _, resized bs (n * size), rfl, .resize _ _ _ hc, ⟨by simp [hz], ?_, by simp, ?_, by rw [hf1]; exact hi.gone⟩⟩
          · intro q' hq'
            cases hq'
            refine ⟨0, ?_, by rw [hz, List.length_replicate]; exact hc⟩
            rw [hq1, hz]
            simp [List.map_const']
          · intro x
            by_cases hx : x = q
            · subst hx; rw [hq1]; simp
            · rw [hx1 x hx, hi.live x, hp]; simp; exact fun e => hx e.symm
      · rw [if_neg hc]; exact ⟨h, a, bs, rfl, .failed _ _ _, hi⟩
    | some p =>
      obtain ⟨k, hb, hk⟩ := hi.blk p hp
      obtain ⟨h', r, e, g1, g2, g3, g4⟩ := C102_recallocarray h al p _ a.n n size hb (by simp [hi.len]) (by simpa using hk)
      simp only [e]
      cases r with
      | none =>
        have := g3 rfl
        subst this
        exact ⟨h', a, bs, rfl, .failed _ _ _, hi⟩
      | some q =>
        simp only
        have hfit : n * size < 2 ^ 64 := by
          apply Nat.lt_of_not_le; intro hc; exact absurd (g1 hc) (by simp)
        obtain ⟨⟨b', hb', ht, hle, hcase⟩, hrest, hold⟩ := g4 q rfl
        rw [← hi.len, List.take_left] at ht
        rw [← hi.len, List.drop_left] at hcase
        rw [← hi.len, List.drop_left] at hold
        have hlen : (resized bs (n * size)).length = n * size := by rw [← ht, List.length_take]; omega
        refine ⟨h', _, resized bs (n * size), rfl, .resize _ _ _ hfit, ⟨hlen, ?_, by simp, ?_, ?_⟩⟩
        · intro q' hq'
          cases hq'
          rw [hb', ← List.take_append_drop (n * size) b', ht]
          rcases hcase with ⟨rfl, hl1, hd⟩ | ⟨-, hl1⟩
          · rw [hd, List.replicate_append_replicate]
            refine ⟨_, rfl, ?_⟩
            have := congrArg List.length hd
            simp only [List.length_append, List.length_replicate, List.length_drop] at this hl1
            omega
          · refine ⟨0, ?_, by omega⟩
            rw [List.drop_eq_nil_of_le (by omega)]; rfl
        · intro x
          simp only [Option.some.injEq]
          by_cases hxq : x = q
          · subst hxq; rw [hb']; simp
          · by_cases hxp : x = p
            · subst hxp
              rcases hold with ⟨h1, -⟩ | ⟨-, -, h1, -⟩
              · exact absurd h1.symm hxq
              · rw [h1]; simp; exact fun e => hxq e.symm
            · rw [hrest x hxp hxq, hi.live x, hp]
              simp only [Option.some.injEq]
              exact ⟨fun e => absurd e.symm hxp, fun e => absurd e.symm hxq⟩
        · rcases hold with ⟨-, h1⟩ | ⟨-, -, -, h1⟩
          · rw [h1]; exact hi.gone
          · rw [h1]
            intro f hf c hcf
            rcases List.mem_cons.mp hf with rfl | hf
            · rcases List.mem_append.mp hcf with h | h <;> exact List.eq_of_mem_replicate h
            · exact hi.gone f hf c hcf

/-- the empty heap -/
def noHeap : Heap := { blk := fun _ => none, freed := [] }

/-- An array kept with recallocarray, whatever sizes are asked for, whatever is written into it and whatever the
allocator does: the memory behind it always holds what its owner expects, the array is the only block alive, and
every block released on the way held nothing but zeroes when it was. -/
theorem C102_array_history (size : Nat) (ops : List ArrOp) :
    ∃ h a bs, arrRun size noHeap { ptr := none, n := 0 } ops = some (h, a) ∧ ArrHistory size ops [] bs ∧ bs.length = a.n * size ∧
      (∀ p, a.ptr = some p → ∃ b, h.blk p = some b ∧ bs <+: b) ∧ (∀ x, (h.blk x).isSome = true ↔ a.ptr = some x) ∧
      ∀ f ∈ h.freed, ∀ c ∈ f, c = 0 := by
  have gen : ∀ (ops : List ArrOp) (h : Heap) (a : Arr) (bs : Bytes), ArrInv size h a bs →
      ∃ h' a' bs', arrRun size h a ops = some (h', a') ∧ ArrHistory size ops bs bs' ∧ ArrInv size h' a' bs' := by
    intro ops
    induction ops with
    | nil => intro h a bs hi; exact ⟨h, a, bs, rfl, .nil _, hi⟩
    | cons op ops ih =>
      intro h a bs hi
      obtain ⟨h1, a1, bs1, e1, s1, i1⟩ := arrStep_spec size h a bs op hi
      obtain ⟨h2, a2, bs2, e2, s2, i2⟩ := ih h1 a1 bs1 i1
      exact ⟨h2, a2, bs2, by rw [arrRun, e1]; exact e2, .cons _ _ _ _ _ s1 s2, i2⟩
  obtain ⟨h, a, bs, e, s, i⟩ := gen ops noHeap { ptr := none, n := 0 } [] ⟨by simp, by simp, fun _ => rfl, by simp [noHeap], by simp [noHeap]⟩
  refine ⟨h, a, bs, e, s, i.len, ?_, i.live, i.gone⟩
  intro p hp
  obtain ⟨k, hb, -⟩ := i.blk p hp
  exact ⟨_, hb, List.prefix_append _ _⟩

/-- reallocarray asks for exactly the product, and for nothing when that does not fit: what it returns holds
`n` elements, the first ones being the old ones. -/
theorem C102_reallocarray (h : Heap) (al : Alloc) (p : Nat) (b : Bytes) (n size : Nat) (hb : h.blk p = some b) :
    ∃ h' r, reallocarray h al (some p) n size = some (h', r) ∧
      (2 ^ 64 ≤ n * size → r = none) ∧ (r = none → h' = h) ∧
      (∀ a, n * size < 2 ^ 64 → al.addr = some a → (a = p ∨ h.blk a = none) → r = some a) ∧
      ∀ q, r = some q → ∃ b', h'.blk q = some b' ∧ b'.length = n * size ∧ b'.take (min b.length (n * size)) = b.take (n * size) ∧
        ∀ x, x ≠ p → x ≠ q → h'.blk x = h.blk x := by
  unfold reallocarray
  by_cases ho : mulOverflows n size = true
  · rw [if_pos ho]
    have := (mulOverflows_iff n size).mp ho
    exact ⟨h, none, rfl, fun _ => rfl, fun _ => rfl, by omega, by simp⟩
  rw [if_neg ho]
  have ho' : n * size < 2 ^ 64 := by
    apply Nat.lt_of_not_le; intro hc; exact ho ((mulOverflows_iff n size).mpr hc)
  have hm : size * n % wordSize = n * size := by rw [Nat.mul_comm]; exact Nat.mod_eq_of_lt ho'
  rw [hm]
  generalize n * size = N at *
  unfold Heap.realloc
  simp only [hb]
  cases ha : al.addr with
  | none => exact ⟨h, none, rfl, fun _ => rfl, fun _ => rfl, by simp, by simp⟩
  | some a =>
    simp only
    by_cases hc : a ≠ p ∧ (h.blk a).isSome = true
    · rw [if_pos hc]
      refine ⟨h, none, rfl, fun _ => rfl, fun _ => rfl, ?_, by simp⟩
      intro a' _ ha' hor
      cases ha'
      rcases hor with h1 | h1
      · exact absurd h1 hc.1
      · rw [h1] at hc; exact absurd hc.2 (by simp)
    · rw [if_neg hc]
      refine ⟨_, some a, rfl, by omega, by simp, ?_, ?_⟩
      · intro a' _ ha' _; exact ha'
      · intro q hq
        cases hq
        refine ⟨b.take N ++ (List.range (N - b.length)).map al.junk, by simp, by simp; omega, ?_, ?_⟩
        · rw [List.take_append_of_le_length (by simp; omega), List.take_take]
          by_cases hN : N ≤ b.length
          · congr 1; omega
          · rw [List.take_of_length_le (by omega), List.take_of_length_le (by omega)]
        · intro x hxp hxq
          simp [hxp, hxq]

/-- freezero releases the block with zeroes in it and touches nothing else; NULL is fine. -/
theorem C102_freezero (h : Heap) (p : Nat) (b : Bytes) (len : Nat) (hb : h.blk p = some b) (hl : len ≤ b.length) :
    freezero h none len = some h ∧
      ∃ h', freezero h (some p) len = some h' ∧ h'.blk p = none ∧ (∀ x, x ≠ p → h'.blk x = h.blk x) ∧
        h'.freed = (List.replicate len 0 ++ b.drop len) :: h.freed := by
  refine ⟨rfl, ?_⟩
  unfold freezero
  obtain ⟨h1, e1, p1, x1, f1⟩ := write_some (off := 0) (bs := List.replicate len 0) hb (by simp; omega)
  simp only [e1, Option.bind_some]
  obtain ⟨h2, e2, p2, x2, f2⟩ := free_some p1
  refine ⟨h2, e2, p2, fun x hx => by rw [x2 x hx, x1 x hx], ?_⟩
  rw [f2, f1]; simp

/-- an allocator that hands out address `a` with rubbish in it -/
def exMalloc (a : Nat) : Alloc := { addr := some a, junk := fun i => UInt8.ofNat (i + 170) }

/-- two elements of two bytes, filled, grown to four, shrunk to one: the block moves twice and both old ones are wiped -/
example : (arrRun 2 noHeap { ptr := none, n := 0 } [.resize (exMalloc 7) 2, .put 0 [1, 2, 3, 4], .resize (exMalloc 8) 4, .put 5 [9], .resize (exMalloc 7) 1]).map
      (fun r => (r.2.n, r.1.blk 7, r.1.blk 8, r.1.freed)) =
    some (1, some [1, 2], none, [[0, 0, 0, 0, 0, 0, 0, 0], [0, 0, 0, 0]]) := by decide +kernel

/-- a product that does not fit is refused although it is small modulo 2^64 -/
example : mulOverflows (2 ^ 63) 2 = true ∧ mulOverflows (2 ^ 63) 1 = false ∧ mulOverflows 0 (2 ^ 63) = false := by decide +kernel

/-- shrinking a little stays in place and wipes the end -/
example : (arrRun 1 noHeap { ptr := none, n := 0 } [.resize (exMalloc 7) 5, .put 0 [1, 2, 3, 4, 5], .resize (exMalloc 8) 4]).map
      (fun r => (r.2.ptr, r.2.n, r.1.blk 7, r.1.blk 8)) = some (some 7, 4, some [1, 2, 3, 4, 0], none) := by decide +kernel

end Gmid.Props
