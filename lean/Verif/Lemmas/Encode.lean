import Verif.Spec.Encode
import Verif.Lemmas.CStr
import Verif.Lemmas.Iri2

set_option autoImplicit false

namespace Gmid
open Spec

theorem encByte_lit : ∀ c, encChar c = true → encByte c = [c] := by decide +kernel
theorem encByte_pct : ∀ c, encChar c = false →
    encByte c = [37, hexDigit ((c &&& 0xF0) >>> 4), hexDigit (c &&& 0x0F)] := by decide +kernel

theorem encByte_escape : ∀ c, ¬ PathChar c →
    isXdigit (hexUpper (c.toNat / 16)) = true ∧ isXdigit (hexUpper (c.toNat % 16)) = true ∧
    c = hexVal (hexUpper (c.toNat / 16)) * 16 + hexVal (hexUpper (c.toNat % 16)) := by decide +kernel

theorem encName_cons (c : UInt8) (p : Bytes) : encName (c :: p) = encByte c ++ encName p := by
  simp [encName]

theorem encName_decodes (p : Bytes) (h : (0 : UInt8) ∉ p) : Decodes PathChar (encName p) p := by
  induction p with
  | nil => exact .nil
  | cons c r ih =>
    simp at h
    rw [encName_cons]
    by_cases hc : PathChar c
    · simp only [encByte, if_pos hc]
      exact .lit c _ _ hc (ih h.2)
    · simp only [encByte, if_neg hc]
      exact .pct _ _ c _ _ ((escape_iff _ _ _).2 (encByte_escape c hc)) (fun e => h.1 e.symm) (ih h.2)

theorem encName_chars (p : Bytes) : ∀ c ∈ encName p, PathChar c ∨ c = 37 := by
  intro c hc
  obtain ⟨x, -, hx⟩ := List.mem_flatMap.1 hc
  have hex : ∀ n ∈ List.range 16, PathChar (hexUpper n) := by decide +kernel
  have hlt : x.toNat < 256 := x.toNat_lt
  unfold encByte at hx
  split at hx
  · rename_i hp; simp at hx; subst hx; exact .inl hp
  · simp at hx
    rcases hx with rfl | rfl | rfl
    · exact .inr rfl
    · exact .inl (hex _ (List.mem_range.2 (by omega)))
    · exact .inl (hex _ (List.mem_range.2 (by omega)))

theorem encName_nonul (p : Bytes) : (0 : UInt8) ∉ encName p := by
  intro h
  rcases encName_chars p 0 h with h | h
  · exact absurd h (by decide)
  · exact absurd h (by decide)

/-- the loop, started with `done` already written -/
theorem encodeLoop_eq (path done : Bytes) (N : Nat) (len : Nat) (hl : done.length + len = N) (h1 : 0 < len) :
    ∃ k ok, k ≤ path.length ∧
      encodeLoop (done ++ List.replicate len 0) done.length len path =
        some (done ++ encName (path.take k) ++ List.replicate (len - (encName (path.take k)).length) 0, ok) ∧
      (encName (path.take k)).length < len ∧
      (ok = true ↔ (encName path).length < len) ∧ (ok = true → k = path.length) := by
  induction path generalizing done len with
  | nil =>
    refine ⟨0, true, by simp, ?_, ?_, ?_, by simp⟩
    · simp [encodeLoop, encName]
    · simp [encName]; omega
    · simp [encName]; omega
  | cons c r ih =>
    have hrep : ∀ k, k ≤ len → List.replicate len (0 : UInt8) = List.replicate k 0 ++ List.replicate (len - k) 0 := by
      intro k hk; rw [List.replicate_append_replicate]; congr 1; omega
    have hput : ∀ l : Bytes, l.length ≤ len →
        put (done ++ List.replicate len 0) done.length l = (done ++ l) ++ List.replicate (len - l.length) 0 := by
      intro l hle
      simp only [put]
      rw [List.take_append_of_le_length (Nat.le_refl _), List.take_of_length_le (Nat.le_refl _),
        List.drop_append, List.drop_of_length_le (by omega)]
      simp [List.append_assoc]
    have hfail : ∀ (ok : Bool), ok = false → ¬ (encName (c :: r)).length < len →
      encodeLoop (done ++ List.replicate len 0) done.length len (c :: r) = some (done ++ List.replicate len 0, ok) →
      ∃ k ok, k ≤ (c :: r).length ∧
      encodeLoop (done ++ List.replicate len 0) done.length len (c :: r) =
        some (done ++ encName ((c :: r).take k) ++ List.replicate (len - (encName ((c :: r).take k)).length) 0, ok) ∧
      (encName ((c :: r).take k)).length < len ∧
      (ok = true ↔ (encName (c :: r)).length < len) ∧ (ok = true → k = (c :: r).length) := by
      intro ok hok hn he
      refine ⟨0, false, by simp, ?_, ?_, ?_, by simp⟩
      · rw [he, hok]; simp [encName]
      · simp [encName]; omega
      · simp only [Bool.false_eq_true, false_iff]; exact hn
    by_cases hlen : len = 1
    · subst hlen
      refine hfail false rfl ?_ (by simp [encodeLoop])
      rw [encName_cons]
      have : 0 < (encByte c).length := by unfold encByte; split <;> simp
      rw [List.length_append]; omega
    · by_cases hc : encChar c = true
      · have e := encByte_lit c hc
        obtain ⟨k, ok, i1, i2, i3, i4, i5⟩ := ih (done ++ [c]) (len - 1) (by simp; omega) (by omega)
        refine ⟨k + 1, ok, by simp; omega, ?_, ?_, ?_, ?_⟩
        · rw [encodeLoop, if_neg hlen, if_pos hc, wr_put _ _ _ (by simp; omega), hput [c] (by simp; omega)]
          simp only [Option.bind_some, List.length_singleton, List.take_succ_cons, encName_cons, e]
          simp only [List.length_append, List.length_singleton] at i2
          rw [i2]
          simp [List.append_assoc]; omega
        · simp only [List.take_succ_cons, encName_cons, e]; simp; omega
        · rw [i4, encName_cons, e]; simp; omega
        · intro h; rw [i5 h]; simp
      · have hc : encChar c = false := by simpa using hc
        have e := encByte_pct c hc
        by_cases h4 : len < 4
        · refine hfail false rfl ?_ (by simp [encodeLoop, hlen, hc, h4])
          rw [encName_cons, e]; simp; omega
        · obtain ⟨k, ok, i1, i2, i3, i4, i5⟩ := ih (done ++ encByte c) (len - 3) (by simp [e]; omega) (by omega)
          refine ⟨k + 1, ok, by simp; omega, ?_, ?_, ?_, ?_⟩
          · rw [encodeLoop, if_neg hlen, if_neg (by simp [hc]), if_neg h4]
            have hL : (done ++ List.replicate len (0 : UInt8)).length = done.length + len := by simp
            rw [wr_put _ _ _ (by omega)]
            simp only [Option.bind_some]
            rw [wr_put _ _ _ (by rw [put_length _ _ _ (by simp; omega)]; omega)]
            simp only [Option.bind_some]
            have pp1 := put_put (done ++ List.replicate len 0) [37] [hexDigit ((c &&& 0xF0) >>> 4)] done.length (by simp; omega)
            rw [List.length_singleton] at pp1
            rw [pp1]
            rw [wr_put _ _ _ (by rw [put_length _ _ _ (by simp; omega)]; omega)]
            simp only [Option.bind_some]
            have pp2 := put_put (done ++ List.replicate len 0) ([(37 : UInt8)] ++ [hexDigit ((c &&& 0xF0) >>> 4)]) [hexDigit (c &&& 0x0F)]
              done.length (by simp; omega)
            rw [show ([(37 : UInt8)] ++ [hexDigit ((c &&& 0xF0) >>> 4)] : Bytes).length = 2 from rfl] at pp2
            rw [pp2]
            have e' : [(37 : UInt8)] ++ [hexDigit ((c &&& 0xF0) >>> 4)] ++ [hexDigit (c &&& 0x0F)] = encByte c := by
              rw [e]; rfl
            rw [e', hput _ (by rw [e]; simp; omega)]
            have e3 : (encByte c).length = 3 := by rw [e]; rfl
            simp only [List.length_append, e3] at i2
            rw [e3, i2]
            simp only [List.take_succ_cons, encName_cons, List.length_append, e3]
            simp [List.append_assoc]; omega
          · simp only [List.take_succ_cons, encName_cons, e]; simp; omega
          · rw [i4, encName_cons, e]; simp; omega
          · intro h; rw [i5 h]; simp

theorem encodePath_eq (len : Nat) (h : 0 < len) (path : Bytes) :
    ∃ k ok, k ≤ path.length ∧
      encodePath len path = some (encName (path.take k) ++ List.replicate (len - (encName (path.take k)).length) 0, ok) ∧
      (encName (path.take k)).length < len ∧
      (ok = true ↔ (encName path).length < len) ∧ (ok = true → k = path.length) := by
  have := encodeLoop_eq path [] len len (by simp) h
  simpa [encodePath] using this

end Gmid
