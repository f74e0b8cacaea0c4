import Verif.Model.Utf8
import Verif.Spec.Utf8

set_option autoImplicit false

namespace Gmid
open Spec

theorem UInt8.toNat_eq_iff' (a b : UInt8) : a = b ↔ a.toNat = b.toNat := UInt8.toNat_inj.symm

/-- every access of the table is within its 400 entries -/
theorem utf8d_length : utf8d.length = 400 := by decide +kernel

theorem next0 : ∀ b : UInt8, utf8Next 0 b =
    (if b < 0x80 then 0 else if b < 0xC2 then 1 else if b < 0xE0 then 2 else if b = 0xE0 then 4
     else if b = 0xED then 5 else if b < 0xF0 then 3 else if b = 0xF0 then 6
     else if b < 0xF4 then 7 else if b = 0xF4 then 8 else 1) := by
  decide +kernel

def isTail (b : UInt8) : Prop := 0x80 ≤ b.toNat ∧ b.toNat ≤ 0xBF

theorem next1 : ∀ b : UInt8, utf8Next 1 b = 1 := by decide +kernel
theorem next2 : ∀ b : UInt8, utf8Next 2 b = if 0x80 ≤ b ∧ b ≤ 0xBF then 0 else 1 := by
  decide +kernel
theorem next3 : ∀ b : UInt8, utf8Next 3 b = if 0x80 ≤ b ∧ b ≤ 0xBF then 2 else 1 := by
  decide +kernel
theorem next4 : ∀ b : UInt8, utf8Next 4 b = if 0xA0 ≤ b ∧ b ≤ 0xBF then 2 else 1 := by
  decide +kernel
theorem next5 : ∀ b : UInt8, utf8Next 5 b = if 0x80 ≤ b ∧ b ≤ 0x9F then 2 else 1 := by
  decide +kernel
theorem next6 : ∀ b : UInt8, utf8Next 6 b = if 0x90 ≤ b ∧ b ≤ 0xBF then 3 else 1 := by
  decide +kernel
theorem next7 : ∀ b : UInt8, utf8Next 7 b = if 0x80 ≤ b ∧ b ≤ 0xBF then 3 else 1 := by
  decide +kernel
theorem next8 : ∀ b : UInt8, utf8Next 8 b = if 0x80 ≤ b ∧ b ≤ 0x8F then 3 else 1 := by
  decide +kernel

/-- code point contribution of the first byte -/
theorem cp0 (b : UInt8) (cp : Nat) (h : utf8Next 0 b ≠ 1) : utf8Cp 0 cp b =
    (if b < 0x80 then b.toNat else if b < 0xE0 then b.toNat - 0xC0 else if b < 0xF0 then b.toNat - 0xE0
     else b.toNat - 0xF0) := by
  have := forall_byte_of_all (p := fun b => utf8Next 0 b == 1 || utf8Cp 0 0 b ==
    (if b < 0x80 then b.toNat else if b < 0xE0 then b.toNat - 0xC0 else if b < 0xF0 then b.toNat - 0xE0
     else b.toNat - 0xF0)) (by decide +kernel) b
  simp only [Bool.or_eq_true, beq_iff_eq] at this
  rcases this with h1 | h1
  · exact absurd h1 h
  · rw [← h1]; rfl

theorem cpS (st cp : Nat) (b : UInt8) (hst : st ≠ 0) (hcp : cp < 67108864) :
    utf8Cp st cp b = cp * 64 + b.toNat % 64 := by
  unfold utf8Cp
  rw [if_pos hst]
  have h1 : b.toNat &&& 0x3f = b.toNat % 64 := Nat.and_two_pow_sub_one_eq_mod b.toNat 6
  rw [h1, Nat.or_comm, Nat.shiftLeft_eq]
  have h2 := Nat.two_pow_add_eq_or_of_lt (i := 6) (b := b.toNat % 64) (by omega) cp
  have h3 : cp * 2 ^ 6 = 2 ^ 6 * cp := Nat.mul_comm _ _
  rw [h3, ← h2]
  omega

theorem loop_reject (cp : Nat) (done s : Bytes) : (utf8Loop 1 cp done s).1 = 1 := by
  induction s generalizing cp done with
  | nil => rfl
  | cons b r ih =>
    simp only [utf8Loop, utf8Decode, next1]
    simp [ih]

/-- The automaton consumed exactly `u` and ended in the accepting state with code point `cp`. -/
def Acc (r : Nat × Nat × Bytes × Bytes) (cp : Nat) (u t : Bytes) : Prop :=
  r = (0, cp, u, t)

theorem byte_le_iff (a b : UInt8) : a ≤ b ↔ a.toNat ≤ b.toNat := Iff.rfl
theorem byte_lt_iff (a b : UInt8) : a < b ↔ a.toNat < b.toNat := Iff.rfl

theorem not_zero_of_loop1 {cp done s} : (utf8Loop 1 cp done s).1 ≠ 0 := by
  rw [loop_reject]; decide

/-- tail of the loop, waiting for one more continuation byte -/
theorem loop2 (cp : Nat) (done s : Bytes) (hcp : cp < 67108864) :
    (∃ b t, s = b :: t ∧ isTail b ∧
      utf8Loop 2 cp done s = (0, cp * 64 + (b.toNat - 0x80), (b :: done).reverse, t)) ∨
    ((utf8Loop 2 cp done s).1 ≠ 0 ∧ ∀ b t, s = b :: t → ¬ isTail b) := by
  cases s with
  | nil => right; simp [utf8Loop]
  | cons b t =>
    by_cases h : isTail b
    · left
      refine ⟨b, t, rfl, h, ?_⟩
      have h' : 0x80 ≤ b ∧ b ≤ 0xBF := by
        simp only [byte_le_iff]; exact h
      simp only [utf8Loop, utf8Decode, next2, if_pos h']
      rw [cpS 2 cp b (by decide) hcp]
      unfold isTail at h
      simp; omega
    · right
      have h' : ¬ (0x80 ≤ b ∧ b ≤ 0xBF) := by
        simp only [byte_le_iff]; exact h
      constructor
      · simp only [utf8Loop, utf8Decode, next2, if_neg h']
        simp [loop_reject]
      · intro b' t' he; cases he; exact h

/-- the general step for the other non-initial states -/
theorem loopS {st st' lo hi : Nat} (hst : st ≠ 0) (hst' : st' ≠ 0)
    (hn : ∀ b, utf8Next st b = if lo ≤ b.toNat ∧ b.toNat ≤ hi then st' else 1)
    (hlo : 0x80 ≤ lo) (hhi : hi ≤ 0xBF)
    (cp : Nat) (done s : Bytes) (hcp : cp < 67108864) :
    (∃ b t, s = b :: t ∧ lo ≤ b.toNat ∧ b.toNat ≤ hi ∧
      utf8Loop st cp done s = utf8Loop st' (cp * 64 + (b.toNat - 0x80)) (b :: done) t) ∨
    ((utf8Loop st cp done s).1 ≠ 0 ∧ ∀ b t, s = b :: t → ¬ (lo ≤ b.toNat ∧ b.toNat ≤ hi)) := by
  cases s with
  | nil => right; simp [utf8Loop, hst]
  | cons b t =>
    by_cases h : lo ≤ b.toNat ∧ b.toNat ≤ hi
    · left
      refine ⟨b, t, rfl, h.1, h.2, ?_⟩
      simp only [utf8Loop, utf8Decode, hn, if_pos h, if_neg hst']
      rw [cpS st cp b hst hcp]
      have : b.toNat % 64 = b.toNat - 0x80 := by omega
      rw [this]
    · right
      constructor
      · simp only [utf8Loop, utf8Decode, hn, if_neg h]
        simp [loop_reject]
      · intro b' t' he; cases he; exact h

/-- RFC 3629 ABNF for multibyte characters, with the code point each one denotes. -/
inductive Abnf : Nat → Bytes → Prop where
  | two (a b : UInt8) : 0xC2 ≤ a.toNat → a.toNat ≤ 0xDF → isTail b →
      Abnf ((a.toNat - 0xC0) * 64 + (b.toNat - 0x80)) [a, b]
  | three (a b c : UInt8) : 0xE0 ≤ a.toNat → a.toNat ≤ 0xEF → isTail b → isTail c →
      (a.toNat = 0xE0 → 0xA0 ≤ b.toNat) → (a.toNat = 0xED → b.toNat ≤ 0x9F) →
      Abnf (((a.toNat - 0xE0) * 64 + (b.toNat - 0x80)) * 64 + (c.toNat - 0x80)) [a, b, c]
  | four (a b c d : UInt8) : 0xF0 ≤ a.toNat → a.toNat ≤ 0xF4 → isTail b → isTail c → isTail d →
      (a.toNat = 0xF0 → 0x90 ≤ b.toNat) → (a.toNat = 0xF4 → b.toNat ≤ 0x8F) →
      Abnf ((((a.toNat - 0xF0) * 64 + (b.toNat - 0x80)) * 64 + (c.toNat - 0x80)) * 64 + (d.toNat - 0x80))
        [a, b, c, d]

theorem ofNat_eq (b : UInt8) (n : Nat) (h : b.toNat = n) : UInt8.ofNat n = b := by
  subst h; simp

theorem abnf_iff (cp : Nat) (s : Bytes) : Abnf cp s ↔ Utf8Char cp s := by
  constructor
  · intro h
    cases h with
    | two a b h1 h2 h3 =>
      unfold isTail at h3
      refine ⟨by omega, ⟨by omega, by omega⟩, ?_⟩
      unfold utf8Enc
      rw [if_neg (by omega), if_pos (by omega), ofNat_eq a _ (by omega), ofNat_eq b _ (by omega)]
    | three a b c h1 h2 h3 h4 h5 h6 =>
      unfold isTail at h3 h4
      have hb : a.toNat = 0xE0 ∨ a.toNat = 0xED ∨ (a.toNat ≠ 0xE0 ∧ a.toNat ≠ 0xED) := by omega
      refine ⟨by omega, ⟨by omega, by omega⟩, ?_⟩
      unfold utf8Enc
      rw [if_neg (by omega), if_neg (by omega), if_pos (by omega), ofNat_eq a _ (by omega),
        ofNat_eq b _ (by omega), ofNat_eq c _ (by omega)]
    | four a b c d h1 h2 h3 h4 h5 h6 h7 =>
      unfold isTail at h3 h4 h5
      refine ⟨by omega, ⟨by omega, by omega⟩, ?_⟩
      unfold utf8Enc
      rw [if_neg (by omega), if_neg (by omega), if_neg (by omega), ofNat_eq a _ (by omega),
        ofNat_eq b _ (by omega), ofNat_eq c _ (by omega), ofNat_eq d _ (by omega)]
  · rintro ⟨h0, ⟨h1, h2⟩, rfl⟩
    unfold utf8Enc
    have tn : ∀ n, n < 256 → (UInt8.ofNat n).toNat = n := fun n h => UInt8.toNat_ofNat_of_lt' h
    rw [if_neg (by omega)]
    split
    · have e1 := tn (0xC0 + cp / 64) (by omega)
      have e2 := tn (0x80 + cp % 64) (by omega)
      have := Abnf.two (UInt8.ofNat (0xC0 + cp / 64)) (UInt8.ofNat (0x80 + cp % 64))
        (by omega) (by omega) (by unfold isTail; omega)
      rwa [e1, e2, show (0xC0 + cp / 64 - 0xC0) * 64 + (0x80 + cp % 64 - 0x80) = cp by omega] at this
    · split
      · have e1 := tn (0xE0 + cp / 4096) (by omega)
        have e2 := tn (0x80 + cp / 64 % 64) (by omega)
        have e3 := tn (0x80 + cp % 64) (by omega)
        have := Abnf.three (UInt8.ofNat (0xE0 + cp / 4096)) (UInt8.ofNat (0x80 + cp / 64 % 64))
          (UInt8.ofNat (0x80 + cp % 64)) (by omega) (by omega) (by unfold isTail; omega)
          (by unfold isTail; omega) (by omega) (by omega)
        rwa [e1, e2, e3, show ((0xE0 + cp / 4096 - 0xE0) * 64 + (0x80 + cp / 64 % 64 - 0x80)) * 64
          + (0x80 + cp % 64 - 0x80) = cp by omega] at this
      · have e1 := tn (0xF0 + cp / 262144) (by omega)
        have e2 := tn (0x80 + cp / 4096 % 64) (by omega)
        have e3 := tn (0x80 + cp / 64 % 64) (by omega)
        have e4 := tn (0x80 + cp % 64) (by omega)
        have := Abnf.four (UInt8.ofNat (0xF0 + cp / 262144)) (UInt8.ofNat (0x80 + cp / 4096 % 64))
          (UInt8.ofNat (0x80 + cp / 64 % 64))
          (UInt8.ofNat (0x80 + cp % 64)) (by omega) (by omega) (by unfold isTail; omega)
          (by unfold isTail; omega) (by unfold isTail; omega) (by omega) (by omega)
        rwa [e1, e2, e3, e4, show (((0xF0 + cp / 262144 - 0xF0) * 64 + (0x80 + cp / 4096 % 64 - 0x80)) * 64
          + (0x80 + cp / 64 % 64 - 0x80)) * 64
          + (0x80 + cp % 64 - 0x80) = cp by omega] at this

/-- loop from state 3 (two continuation bytes missing) -/
theorem loop3 (cp : Nat) (done s : Bytes) (hcp : cp < 1000000) :
    (∃ b c t, s = b :: c :: t ∧ isTail b ∧ isTail c ∧
      utf8Loop 3 cp done s = (0, (cp * 64 + (b.toNat - 0x80)) * 64 + (c.toNat - 0x80),
        (c :: b :: done).reverse, t)) ∨
    ((utf8Loop 3 cp done s).1 ≠ 0 ∧ ∀ b c t, s = b :: c :: t → ¬ (isTail b ∧ isTail c)) := by
  rcases loopS (lo := 0x80) (hi := 0xBF) (by decide) (by decide) next3 (by decide) (by decide)
    cp done s (by omega) with ⟨b, t, rfl, h1, h2, h3⟩ | ⟨h1, h2⟩
  · rcases loop2 (cp * 64 + (b.toNat - 0x80)) (b :: done) t (by omega) with
      ⟨c, t', rfl, h4, h5⟩ | ⟨h4, h5⟩
    · left; exact ⟨b, c, t', rfl, ⟨h1, h2⟩, h4, by rw [h3, h5]⟩
    · right; refine ⟨by rw [h3]; exact h4, ?_⟩
      rintro b' c' t' he; cases he; exact fun hh => h5 _ _ rfl hh.2
  · right; exact ⟨h1, fun b c t he hh => h2 b _ he hh.1⟩

/-- Complete characterisation of the loop started on a non-ASCII byte. -/
theorem loop_char (a : UInt8) (s : Bytes) (ha : 0x80 ≤ a.toNat) :
    (∃ cp u t, a :: s = u ++ t ∧ Abnf cp u ∧ utf8Loop 0 0 [] (a :: s) = (0, cp, u, t)) ∨
    ((utf8Loop 0 0 [] (a :: s)).1 ≠ 0 ∧ ∀ cp u t, a :: s = u ++ t → ¬ Abnf cp u) := by
  have key := next0 a
  have hcp := cp0 a 0
  have step : utf8Next 0 a ≠ 0 →
      utf8Loop 0 0 [] (a :: s) = utf8Loop (utf8Next 0 a) (utf8Cp 0 0 a) [a] s := by
    intro h; simp [utf8Loop, utf8Decode, h]
  simp only [byte_lt_iff, UInt8.toNat_eq_iff'] at key hcp
  simp only [show (128 : UInt8).toNat = 128 from rfl, show (0xC2 : UInt8).toNat = 0xC2 from rfl,
    show (0xE0 : UInt8).toNat = 0xE0 from rfl, show (0xED : UInt8).toNat = 0xED from rfl,
    show (0xF0 : UInt8).toNat = 0xF0 from rfl, show (0xF4 : UInt8).toNat = 0xF4 from rfl] at key hcp
  rw [if_neg (by omega)] at key
  -- no sequence starts with this byte
  have bad : utf8Next 0 a = 1 → (a.toNat < 0xC2 ∨ 0xF4 < a.toNat) →
      ((utf8Loop 0 0 [] (a :: s)).1 ≠ 0 ∧ ∀ cp u t, a :: s = u ++ t → ¬ Abnf cp u) := by
    intro h1 h2
    refine ⟨by rw [step (by rw [h1]; decide), h1]; exact not_zero_of_loop1, ?_⟩
    intro cp u t he hu
    cases hu <;> cases he <;> omega
  have a256 := a.toNat_lt
  split at key
  · exact .inr (bad key (.inl (by omega)))
  split at key
  · -- two bytes
    have hc := hcp (by omega)
    rw [if_neg (by omega), if_pos (by omega)] at hc
    rw [step (by omega), key, hc]
    rcases loop2 (a.toNat - 0xC0) [a] s (by omega) with ⟨b, t, rfl, h1, h2⟩ | ⟨h1, h2⟩
    · left; exact ⟨_, [a, b], t, rfl, .two a b (by omega) (by omega) h1, h2⟩
    · right; refine ⟨h1, ?_⟩
      intro cp u t he hu
      cases hu with
      | two x y p q r => cases he; exact h2 _ _ rfl r
      | three x y z p q => cases he; omega
      | four x y z w p q => cases he; omega
  -- three bytes
  have three : ∀ st lo hi, utf8Next 0 a = st → st ≠ 0 → st ≠ 1 →
      (∀ b, utf8Next st b = if lo ≤ b.toNat ∧ b.toNat ≤ hi then 2 else 1) →
      0x80 ≤ lo → hi ≤ 0xBF → 0xE0 ≤ a.toNat → a.toNat ≤ 0xEF →
      (∀ b, isTail b → (lo ≤ b.toNat ∧ b.toNat ≤ hi ↔
        (a.toNat = 0xE0 → 0xA0 ≤ b.toNat) ∧ (a.toNat = 0xED → b.toNat ≤ 0x9F))) →
      (∃ cp u t, a :: s = u ++ t ∧ Abnf cp u ∧ utf8Loop 0 0 [] (a :: s) = (0, cp, u, t)) ∨
      ((utf8Loop 0 0 [] (a :: s)).1 ≠ 0 ∧ ∀ cp u t, a :: s = u ++ t → ¬ Abnf cp u) := by
    intro st lo hi hs h0 h1 hn hlo hhi hx hy hR
    have hc := hcp (by omega)
    rw [if_neg (by omega), if_neg (by omega), if_pos (by omega)] at hc
    rw [step (by omega), hs, hc]
    rcases loopS (st' := 2) h0 (by decide) hn hlo hhi (a.toNat - 0xE0) [a] s (by omega) with
      ⟨b, t, rfl, p1, p2, p3⟩ | ⟨p1, p2⟩
    · rcases loop2 ((a.toNat - 0xE0) * 64 + (b.toNat - 0x80)) [b, a] t (by omega) with
        ⟨c, t', rfl, q1, q2⟩ | ⟨q1, q2⟩
      · left
        have tb : isTail b := by unfold isTail; omega
        have hr := (hR b tb).1 ⟨p1, p2⟩
        exact ⟨_, [a, b, c], t', rfl, .three a b c hx hy tb q1 hr.1 hr.2, by rw [p3, q2]; rfl⟩
      · right
        refine ⟨by rw [p3]; exact q1, ?_⟩
        intro cp u t he hu
        cases hu with
        | two x y p q r => cases he; omega
        | three x y z p q r r' => cases he; exact q2 _ _ rfl r'
        | four x y z w p q => cases he; omega
    · right
      refine ⟨p1, ?_⟩
      intro cp u t he hu
      cases hu with
      | two x y p q r => cases he; omega
      | three x y z p q r r' e e' => cases he; exact p2 _ _ rfl ((hR _ r).2 ⟨e, e'⟩)
      | four x y z w p q => cases he; omega
  split at key
  · exact three 4 0xA0 0xBF key (by decide) (by decide) next4 (by decide) (by decide)
      (by omega) (by omega) (by unfold isTail; intro b hb; omega)
  split at key
  · exact three 5 0x80 0x9F key (by decide) (by decide) next5 (by decide) (by decide)
      (by omega) (by omega) (by unfold isTail; intro b hb; omega)
  split at key
  · exact three 3 0x80 0xBF key (by decide) (by decide) next3 (by decide) (by decide)
      (by omega) (by omega) (by unfold isTail; intro b hb; omega)
  -- four bytes
  have four : ∀ st lo hi, utf8Next 0 a = st → st ≠ 0 → st ≠ 1 →
      (∀ b, utf8Next st b = if lo ≤ b.toNat ∧ b.toNat ≤ hi then 3 else 1) →
      0x80 ≤ lo → hi ≤ 0xBF → 0xF0 ≤ a.toNat → a.toNat ≤ 0xF4 →
      (∀ b, isTail b → (lo ≤ b.toNat ∧ b.toNat ≤ hi ↔
        (a.toNat = 0xF0 → 0x90 ≤ b.toNat) ∧ (a.toNat = 0xF4 → b.toNat ≤ 0x8F))) →
      (∃ cp u t, a :: s = u ++ t ∧ Abnf cp u ∧ utf8Loop 0 0 [] (a :: s) = (0, cp, u, t)) ∨
      ((utf8Loop 0 0 [] (a :: s)).1 ≠ 0 ∧ ∀ cp u t, a :: s = u ++ t → ¬ Abnf cp u) := by
    intro st lo hi hs h0 h1 hn hlo hhi hx hy hR
    have hc := hcp (by omega)
    rw [if_neg (by omega), if_neg (by omega), if_neg (by omega)] at hc
    rw [step (by omega), hs, hc]
    rcases loopS (st' := 3) h0 (by decide) hn hlo hhi (a.toNat - 0xF0) [a] s (by omega) with
      ⟨b, t, rfl, p1, p2, p3⟩ | ⟨p1, p2⟩
    · rcases loop3 ((a.toNat - 0xF0) * 64 + (b.toNat - 0x80)) [b, a] t (by omega) with
        ⟨c, d, t', rfl, q1, q1', q2⟩ | ⟨q1, q2⟩
      · left
        have tb : isTail b := by unfold isTail; omega
        have hr := (hR b tb).1 ⟨p1, p2⟩
        exact ⟨_, [a, b, c, d], t', rfl, .four a b c d hx hy tb q1 q1' hr.1 hr.2, by rw [p3, q2]; rfl⟩
      · right
        refine ⟨by rw [p3]; exact q1, ?_⟩
        intro cp u t he hu
        cases hu with
        | two x y p q r => cases he; omega
        | three x y z p q r r' => cases he; omega
        | four x y z w p q r r' r'' => cases he; exact q2 _ _ _ rfl ⟨r', r''⟩
    · right
      refine ⟨p1, ?_⟩
      intro cp u t he hu
      cases hu with
      | two x y p q r => cases he; omega
      | three x y z p q r r' e e' => cases he; omega
      | four x y z w p q r r' r'' e e' => cases he; exact p2 _ _ rfl ((hR _ r).2 ⟨e, e'⟩)
  split at key
  · exact four 6 0x90 0xBF key (by decide) (by decide) next6 (by decide) (by decide)
      (by omega) (by omega) (by unfold isTail; intro b hb; omega)
  split at key
  · exact four 7 0x80 0xBF key (by decide) (by decide) next7 (by decide) (by decide)
      (by omega) (by omega) (by unfold isTail; intro b hb; omega)
  split at key
  · exact four 8 0x80 0x8F key (by decide) (by decide) next8 (by decide) (by decide)
      (by omega) (by omega) (by unfold isTail; intro b hb; omega)
  · exact .inr (bad key (.inr (by omega)))

theorem validMultibyte_ascii (a : UInt8) (s : Bytes) (ha : a.toNat < 0x80) :
    validMultibyte (a :: s) = .no := by
  have h := next0 a
  rw [if_pos (by rw [byte_lt_iff]; exact ha)] at h
  have hc := cp0 a 0 (by omega)
  rw [if_pos (by rw [byte_lt_iff]; exact ha)] at hc
  have : utf8Loop 0 0 [] (a :: s) = (0, a.toNat, [a], s) := by
    simp [utf8Loop, utf8Decode, h, hc]
  simp only [validMultibyte, this]
  simp; omega

theorem validMultibyte_nil : validMultibyte [] = .no := by decide

/-- The one lemma the IRI parser's proofs use. -/
theorem validMultibyte_cases (s : Bytes) :
    (validMultibyte s = .no ∧ (s = [] ∨ (hd s).toNat < 0x80)) ∨
    (validMultibyte s = .bad ∧ 0x80 ≤ (hd s).toNat ∧ ∀ u t, s = u ++ t → ¬ Utf8Multi u) ∨
    (∃ u t, validMultibyte s = .seq u t ∧ s = u ++ t ∧ Utf8Multi u) := by
  cases s with
  | nil => left; exact ⟨validMultibyte_nil, .inl rfl⟩
  | cons a s =>
    by_cases ha : a.toNat < 0x80
    · left; exact ⟨validMultibyte_ascii a s ha, .inr ha⟩
    · right
      rcases loop_char a s (by omega) with ⟨cp, u, t, h1, h2, h3⟩ | ⟨h1, h2⟩
      · right
        have hu := (abnf_iff cp u).1 h2
        refine ⟨u, t, ?_, h1, cp, hu⟩
        have := hu.1
        simp only [validMultibyte, h3]
        simp; omega
      · left
        refine ⟨?_, by simpa using ha, ?_⟩
        · simp only [validMultibyte]
          simp [h1]
        · rintro u t he ⟨cp, hu⟩
          exact h2 cp u t he ((abnf_iff cp u).2 hu)

end Gmid
