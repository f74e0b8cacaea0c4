import Verif.Model.CStr

set_option autoImplicit false

namespace Gmid

/-- arithmetic on list lengths -/
macro "lsz" : tactic => `(tactic| first | omega | (simp; done) | (simp; omega) | (simp at *; omega))

/-- `l` stored at offset `d` of the block `m` -/
def put (m : Bytes) (d : Nat) (l : Bytes) : Bytes := m.take d ++ l ++ m.drop (d + l.length)

theorem put_nil (m : Bytes) (d : Nat) : put m d [] = m := by simp [put]

theorem put_length (m l : Bytes) (d : Nat) (h : d + l.length ≤ m.length) :
    (put m d l).length = m.length := by
  simp [put]; omega

theorem wr_put (m : Bytes) (d : Nat) (c : UInt8) (h : d < m.length) : wr m d c = some (put m d [c]) := by
  simp [wr, h, put]
  rw [List.set_eq_take_append_cons_drop, if_pos h]

theorem wr_none (m : Bytes) (d : Nat) (c : UInt8) (h : m.length ≤ d) : wr m d c = none := by
  simp [wr]; omega

theorem put_put (m a b : Bytes) (d : Nat) (h : d + a.length + b.length ≤ m.length) :
    put (put m d a) (d + a.length) b = put m d (a ++ b) := by
  simp only [put]
  have h1 : (List.take d m).length = d := by simp; omega
  rw [List.take_append_of_le_length (by simp; omega)]
  rw [List.take_of_length_le (by lsz)]
  rw [List.drop_append, List.drop_of_length_le (by simp; omega)]
  simp only [List.nil_append, List.drop_drop, List.length_append, List.append_assoc, h1]
  congr 4
  simp; omega

theorem put_get_lt (m l : Bytes) (d i : Nat) (h : i < d) (hd : d ≤ m.length) : (put m d l)[i]? = m[i]? := by
  simp only [put, List.append_assoc]
  rw [List.getElem?_append_left (by simp; omega)]
  simp [h]

theorem put_get_in (m l : Bytes) (d i : Nat) (h : i < l.length) (hd : d ≤ m.length) :
    (put m d l)[d + i]? = l[i]? := by
  simp only [put, List.append_assoc]
  rw [List.getElem?_append_right (by lsz)]
  have : (List.take d m).length = d := by simp; omega
  rw [this, Nat.add_sub_cancel_left, List.getElem?_append_left h]

theorem put_get_gt (m l : Bytes) (d i : Nat) (h : d + l.length ≤ i) (hd : d + l.length ≤ m.length) :
    (put m d l)[i]? = m[i]? := by
  simp only [put]
  rw [List.getElem?_append_right (by simp; omega)]
  simp only [List.length_append, List.length_take, List.getElem?_drop]
  congr 1; omega

theorem put_take (m l : Bytes) (d : Nat) (hd : d ≤ m.length) : (put m d l).take (d + l.length) = m.take d ++ l := by
  have h1 : (List.take d m).length = d := by simp; omega
  simp only [put]
  rw [List.take_append_of_le_length (by simp; omega), List.take_of_length_le (by simp; omega)]

theorem cstr_append (a t : Bytes) (h : (0 : UInt8) ∉ a) : cstr (a ++ 0 :: t) = a := by
  induction a with
  | nil => simp [cstr]
  | cons c r ih =>
    simp at h
    have : c ≠ 0 := fun e => h.1 e.symm
    simp only [cstr] at ih ⊢
    rw [List.cons_append, List.takeWhile_cons, if_pos (by simpa using this), ih h.2]

theorem cstr_nonul (m : Bytes) : (0 : UInt8) ∉ cstr m := by
  intro h
  unfold cstr at h
  induction m with
  | nil => simp at h
  | cons c r ih =>
    rw [List.takeWhile_cons] at h
    split at h
    · rename_i hc
      rcases List.mem_cons.1 h with e | h
      · subst e; simp at hc
      · exact ih h
    · simp at h

/-- a block whose first NUL is at `k` -/
theorem cstr_put (m l : Bytes) (h : (0 : UInt8) ∉ l) :
    cstr (put m 0 (l ++ [0])) = l := by
  simp only [put, List.take_zero, List.nil_append, List.append_assoc, List.singleton_append]
  exact cstr_append _ _ h

theorem strlcpyLoop_fits (src m : Bytes) (n d : Nat) (h : src.length + 1 < n) (hm : d + src.length < m.length) :
    strlcpyLoop n m d src = some (put m d (src ++ [0]), d + src.length + 1, none, n - src.length - 1) := by
  induction src generalizing m n d with
  | nil =>
    obtain ⟨k, rfl⟩ : ∃ k, n = k + 2 := ⟨n - 2, by simp at h; omega⟩
    simp at hm
    simp [strlcpyLoop, wr_put m d 0 hm]
  | cons c r ih =>
    simp at h hm
    obtain ⟨k, rfl⟩ : ∃ k, n = k + 2 := ⟨n - 2, by omega⟩
    rw [strlcpyLoop, wr_put m d c (by omega)]
    simp only [Option.bind_some]
    rw [ih _ _ _ (by omega) (by rw [put_length _ _ _ (by lsz)]; lsz)]
    rw [show d + 1 = d + [c].length from rfl, put_put _ _ _ _ (by simp; omega)]
    simp; omega

theorem strlcpyLoop_cut (src m : Bytes) (n d : Nat) (h : n ≤ src.length + 1) (hn : 0 < n) (hm : d + n ≤ m.length) :
    strlcpyLoop n m d src = some (put m d (src.take (n - 1)), d + (n - 1), some (src.drop (n - 1)), 0) := by
  induction src generalizing m n d with
  | nil =>
    obtain rfl : n = 1 := by simp at h; omega
    simp [strlcpyLoop, put_nil]
  | cons c r ih =>
    simp at h
    by_cases h1 : n = 1
    · subst h1; simp [strlcpyLoop, put_nil]
    · obtain ⟨k, rfl⟩ : ∃ k, n = k + 2 := ⟨n - 2, by omega⟩
      rw [strlcpyLoop, wr_put m d c (by omega)]
      simp only [Option.bind_some]
      rw [ih _ _ _ (by omega) (by omega) (by rw [put_length _ _ _ (by lsz)]; lsz)]
      rw [show d + 1 = d + [c].length from rfl, put_put _ _ _ _ (by simp; omega)]
      simp; omega

theorem strlcpy_eq (m src : Bytes) (n : Nat) (hn : 0 < n) (hm : n ≤ m.length) :
    strlcpy m src n = some (put m 0 (src.take (n - 1) ++ [0]), src.length) := by
  unfold strlcpy
  rw [if_neg (by omega)]
  by_cases h : src.length + 1 < n
  · rw [strlcpyLoop_fits src m n 0 h (by omega)]
    simp only
    rw [if_neg (by omega), List.take_of_length_le (by omega)]
  · rw [strlcpyLoop_cut src m n 0 (by omega) hn (by omega)]
    simp only [if_true, Nat.zero_add, Option.getD_some]
    have hl : (src.take (n - 1)).length = n - 1 := by simp; omega
    rw [wr_put _ _ _ (by rw [put_length _ _ _ (by lsz)]; lsz)]
    simp only [Option.map_some, Option.some.injEq, Prod.mk.injEq]
    refine ⟨?_, by lsz⟩
    have := put_put m (src.take (n - 1)) [0] 0 (by simp; omega)
    rw [hl, Nat.zero_add] at this
    exact this

theorem strnlenMem_eq (n : Nat) (m : Bytes) (d : Nat) (a t : Bytes) (hm : m.drop d = a ++ 0 :: t)
    (h0 : (0 : UInt8) ∉ a) (h : a.length < n) : strnlenMem n m d = some (d + a.length) := by
  induction a generalizing n d with
  | nil =>
    obtain ⟨k, rfl⟩ : ∃ k, n = k + 1 := ⟨n - 1, by simp at h; omega⟩
    have hg : m[d]? = some 0 := by
      have : (m.drop d)[0]? = some 0 := by rw [hm]; rfl
      simpa using this
    simp [strnlenMem, hg]
  | cons c r ih =>
    simp at h h0
    obtain ⟨k, rfl⟩ : ∃ k, n = k + 1 := ⟨n - 1, by omega⟩
    have hg : m[d]? = some c := by
      have : (m.drop d)[0]? = some c := by rw [hm]; rfl
      simpa using this
    have hne : c ≠ 0 := fun e => h0.1 e.symm
    have hm' : m.drop (d + 1) = r ++ 0 :: t := by
      have := congrArg (List.drop 1) hm
      simpa using this
    simp only [strnlenMem, hg]
    rw [if_pos hne, ih k (d + 1) hm' h0.2 (by omega)]
    simp; omega

theorem strnlenMem_full (n : Nat) (m : Bytes) (d : Nat) (h : d + n ≤ m.length)
    (h0 : (0 : UInt8) ∉ (m.drop d).take n) : strnlenMem n m d = some (d + n) := by
  induction n generalizing d with
  | zero => rfl
  | succ n ih =>
    have hd : d < m.length := by omega
    have hg : m[d]? = some m[d] := by simp [hd]
    have hdr : m.drop d = m[d] :: m.drop (d + 1) := List.drop_eq_getElem_cons hd
    rw [hdr, List.take_succ_cons] at h0
    simp only [List.mem_cons, not_or] at h0
    simp only [strnlenMem, hg]
    rw [if_pos (fun e => h0.1 e.symm), ih (d + 1) (by omega) h0.2]
    congr 1; omega

theorem strlcatLoop_eq (src m : Bytes) (d n : Nat) (h : d + min n src.length ≤ m.length) :
    strlcatLoop m d src n = some (put m d (src.take n), d + min n src.length) := by
  induction src generalizing m d n with
  | nil => simp [strlcatLoop, put_nil]
  | cons c r ih =>
    by_cases hn : n = 0
    · subst hn
      rw [strlcatLoop, if_neg (by simp), ih _ _ _ (by simp at h ⊢; omega)]
      simp
    · obtain ⟨k, rfl⟩ : ∃ k, n = k + 1 := ⟨n - 1, by omega⟩
      simp at h
      rw [strlcatLoop, if_pos (by omega), wr_put m d c (by omega)]
      simp only [Option.bind_some, Nat.add_sub_cancel]
      rw [ih _ _ _ (by rw [put_length _ _ _ (by lsz)]; lsz)]
      rw [show d + 1 = d + [c].length from rfl, put_put _ _ _ _ (by simp; omega)]
      simp; omega

/-- strlcat onto a string `a` stored, terminated, within the first `n` bytes -/
theorem strlcat_eq (m src a t : Bytes) (n : Nat) (hm : m = a ++ 0 :: t) (h0 : (0 : UInt8) ∉ a)
    (ha : a.length < n) (hn : n ≤ m.length) :
    strlcat m src n = some (put m a.length (src.take (n - a.length - 1) ++ [0]), a.length + src.length) := by
  unfold strlcat
  rw [strnlenMem_eq n m 0 a t (by simpa using hm) h0 ha]
  simp only [Nat.zero_add]
  rw [if_neg (by omega), strlcatLoop_eq src m _ _ (by omega)]
  simp only
  rw [wr_put _ _ _ (by rw [put_length _ _ _ (by lsz)]; lsz)]
  simp only [Option.map_some, Option.some.injEq, Prod.mk.injEq, and_true]
  have := put_put m (src.take (n - a.length - 1)) [0] a.length (by simp; omega)
  rw [← this]; congr 2; simp

theorem strlcat_full (m src : Bytes) (n : Nat) (hn : n ≤ m.length) (h0 : (0 : UInt8) ∉ m.take n) :
    strlcat m src n = some (m, n + src.length) := by
  unfold strlcat
  rw [strnlenMem_full n m 0 (by omega) (by simpa using h0)]
  simp

/-- the block after the text `t` has been put in a buffer of `n` bytes by strlcpy/strlcat -/
def boxed (m : Bytes) (n : Nat) (t : Bytes) (m' : Bytes) : Prop :=
  ∃ junk, m' = t.take (n - 1) ++ 0 :: (junk ++ m.drop n) ∧ m'.length = m.length

theorem boxed_strlcpy (m src : Bytes) (n : Nat) (hn : 0 < n) (hm : n ≤ m.length) :
    ∃ m', strlcpy m src n = some (m', src.length) ∧ boxed m n src m' := by
  refine ⟨_, strlcpy_eq m src n hn hm, (m.drop ((src.take (n - 1)).length + 1)).take
    (n - ((src.take (n - 1)).length + 1)), ?_, ?_⟩
  · simp only [put, List.take_zero, List.nil_append, List.append_assoc, Nat.zero_add, List.singleton_append,
      List.length_append, List.length_singleton]
    congr 2
    generalize hk : (src.take (n - 1)).length + 1 = k
    have hkn : k ≤ n := by rw [← hk]; lsz
    have := List.take_append_drop (n - k) (List.drop k m)
    rw [List.drop_drop, show k + (n - k) = n by omega] at this
    exact this.symm
  · rw [put_length]; simp; omega

theorem boxed_strlcat (m t src : Bytes) (n : Nat) (hn : 0 < n) (hm : n ≤ m.length) (m1 : Bytes)
    (hb : boxed m n t m1) (h0 : (0 : UInt8) ∉ t) (htrunc : t.length < n) :
    ∃ m', strlcat m1 src n = some (m', t.length + src.length) ∧ boxed m n (t ++ src) m' := by
  obtain ⟨junk, h1, h2⟩ := hb
  have ht : t.take (n - 1) = t := List.take_of_length_le (by omega)
  rw [ht] at h1
  refine ⟨_, strlcat_eq m1 src t _ n h1 h0 htrunc (by omega), ?_⟩
  have hjl : junk.length = n - t.length - 1 := by
    have := congrArg List.length h1
    simp at this; omega
  refine ⟨junk.drop (src.take (n - t.length - 1)).length, ?_, ?_⟩
  · simp only [put]
    rw [h1, List.take_append_of_le_length (Nat.le_refl _), List.take_of_length_le (Nat.le_refl _)]
    have e1 : (t ++ src).take (n - 1) = t ++ src.take (n - t.length - 1) := by
      rw [List.take_append, List.take_of_length_le (by omega)]
      congr 2; omega
    rw [e1, List.drop_append, List.drop_of_length_le (by lsz)]
    simp only [List.nil_append, List.append_assoc, List.singleton_append, List.length_append, List.length_singleton]
    congr 3
    have e2 : t.length + ((src.take (n - t.length - 1)).length + 1) - t.length = (src.take (n - t.length - 1)).length + 1 := by omega
    rw [e2, List.drop_succ_cons, List.drop_append]
    congr 1
    rw [show (src.take (n - t.length - 1)).length - junk.length = 0 by simp; omega]; rfl
  · rw [put_length _ _ _ (by rw [h2]; simp; omega), h2]

/-- once the buffer is full, strlcat changes nothing -/
theorem boxed_strlcat_full (m t src : Bytes) (n : Nat) (hn : 0 < n) (hm : n ≤ m.length) (m1 : Bytes)
    (hb : boxed m n t m1) (h0 : (0 : UInt8) ∉ t) (htrunc : n ≤ t.length) :
    ∃ m', strlcat m1 src n = some (m', n - 1 + src.length) ∧ boxed m n (t ++ src) m' := by
  obtain ⟨junk, h1, h2⟩ := hb
  have hl : (t.take (n - 1)).length = n - 1 := by simp; omega
  have h0' : (0 : UInt8) ∉ t.take (n - 1) := fun h => h0 (List.mem_of_mem_take h)
  refine ⟨_, by rw [strlcat_eq m1 src _ _ n h1 h0' (by omega) (by omega), hl], ?_⟩
  have hjl : junk.length = 0 := by
    have := congrArg List.length h1
    simp at this; omega
  have hj : junk = [] := List.eq_nil_of_length_eq_zero hjl
  subst hj
  refine ⟨[], ?_, ?_⟩
  · rw [show n - (n - 1) - 1 = 0 by omega]
    simp only [put, List.take_zero, List.nil_append, List.length_singleton]
    rw [h1]
    rw [List.take_append_of_le_length (by omega), List.take_of_length_le (by omega),
      List.drop_append, List.drop_of_length_le (by omega), hl,
      List.take_append_of_le_length (by omega)]
    rw [show n - 1 + 1 - (n - 1) = 1 by omega]
    simp
  · rw [put_length _ _ _ (by rw [h2]; simp; omega), h2]

theorem boxed_cstr (m t m' : Bytes) (n : Nat) (hb : boxed m n t m') (h0 : (0 : UInt8) ∉ t) :
    cstr m' = t.take (n - 1) := by
  obtain ⟨junk, h1, -⟩ := hb
  rw [h1]; exact cstr_append _ _ (fun h => h0 (List.mem_of_mem_take h))

end Gmid
