import Verif.Props.SafePrint
import Verif.Props.Fetch
import Verif.Spec.Utf8

/-!
# C129 in a UTF-8 locale
-/

set_option autoImplicit false

namespace Gmid.Props
open Gmid.Spec

/-- two encodings at the beginning of the same text are the same character -/
theorem utf8Enc_prefix {a b : Nat} (ha : IsScalar a) (hb : IsScalar b) {x y : Bytes} (h : utf8Enc a ++ x = utf8Enc b ++ y) : a = b := by
  have ha1 := ha.1
  have hb1 := hb.1
  have key : ∀ m n : Nat, UInt8.ofNat m = UInt8.ofNat n → m % 256 = n % 256 := by
    intro m n h
    have := congrArg UInt8.toNat h
    simpa only [UInt8.toNat_ofNat'] using this
  unfold utf8Enc at h
  split at h <;> split at h <;> (try split at h) <;> (try split at h) <;> (try split at h) <;> (try split at h) <;>
    simp only [List.cons_append, List.nil_append, List.cons.injEq] at h <;>
    (have h0 := key _ _ h.1) <;> (try omega) <;> (have h1 := key _ _ h.2.1) <;> (try omega) <;> (have h2 := key _ _ h.2.2.1) <;> (try omega) <;>
    (have h3 := key _ _ h.2.2.2.1) <;> omega

theorem utf8Enc_clean {cp : Nat} (hc : cp ≤ 0x10FFFF) (h : 32 ≤ cp ∧ cp ≠ 127) : ∀ b ∈ utf8Enc cp, ¬ Control b := by
  have key : ∀ n, (32 ≤ n % 256 ∧ n % 256 ≠ 127) → ¬ Control (UInt8.ofNat n) := by
    intro n hn
    unfold Control
    rw [UInt8.lt_iff_toNat_lt, ← UInt8.toNat_inj, UInt8.toNat_ofNat', show (32 : UInt8).toNat = 32 from rfl, show (127 : UInt8).toNat = 127 from rfl]
    omega
  intro b hb
  unfold utf8Enc at hb
  split at hb
  · simp only [List.mem_singleton] at hb
    subst hb
    exact key _ (by omega)
  · split at hb
    · simp only [List.mem_cons, List.not_mem_nil, or_false] at hb
      rcases hb with rfl | rfl <;> exact key _ (by omega)
    · split at hb
      · simp only [List.mem_cons, List.not_mem_nil, or_false] at hb
        rcases hb with rfl | rfl | rfl <;> exact key _ (by omega)
      · simp only [List.mem_cons, List.not_mem_nil, or_false] at hb
        rcases hb with rfl | rfl | rfl | rfl <;> exact key _ (by omega)

/-- a UTF-8 locale meets the conditions of C129 -/
theorem C129_utf8_locale (loc : Locale) (h : Utf8Locale loc) : LocaleOk loc := by
  refine ⟨?_, ?_, ?_⟩
  · intro s n wc hm
    obtain ⟨_, _, rfl, t, rfl⟩ := (h.mb s n wc).1 hm
    refine ⟨?_, by simp, by rw [List.take_left, h.enc]⟩
    unfold utf8Enc
    split <;> (try split) <;> (try split) <;> simp
  · intro wc hp b hb
    rw [h.enc] at hb
    exact utf8Enc_clean (h.scalar wc hp).1 (h.control wc hp) b hb
  · cases hp : loc.printable 10 with
    | false => rfl
    | true => exact absurd (h.control 10 hp).1 (by decide)

theorem utf8_shown {loc : Locale} (h : Utf8Locale loc) : ∀ cps : List Nat, (∀ c ∈ cps, IsScalar c ∧ c ≠ 0) →
    ShownText loc (cps.flatMap utf8Enc) (cps.flatMap fun c => if loc.printable c = true then utf8Enc c else [c%'?']) := by
  intro cps
  induction cps with
  | nil => intro _; exact .done
  | cons c r ih =>
    intro hc
    have hr := ih fun x hx => hc x (by simp [hx])
    have hm : loc.mbtowc (utf8Enc c ++ r.flatMap utf8Enc) = some ((utf8Enc c).length, c) :=
      (h.mb _ _ _).2 ⟨(hc c (by simp)).1, (hc c (by simp)).2, rfl, List.prefix_append _ _⟩
    rw [List.flatMap_cons, List.flatMap_cons]
    cases hp : loc.printable c with
    | true => rw [if_pos rfl]; exact .char _ c _ _ hm hp hr
    | false => rw [if_neg (by simp)]; exact .hidden _ c _ _ hm hp hr

/-- **C129, in part.** In a UTF-8 locale, when the text of an error is made of the characters `cps`: gg writes the printable ones as they are, and a question mark for each of the
others, and a newline after them.  (In part as C129_says_partial is.) -/
theorem C129_utf8_partial (loc : Locale) (hloc : Utf8Locale loc) (script : List TRead) (r : Reply) (hr : r.WF) (hl : r.header.length + 2 ≤ 2048)
    (h : stream script = (r.bytes, true)) (hs : r.status < 20 ∨ 30 ≤ r.status)
    (cps : List Nat) (hc : ∀ c ∈ cps, IsScalar c ∧ c ≠ 0) (ht : cstr r.text = cps.flatMap utf8Enc) :
    ggStderr loc true (ggReply .none false script) =
      b%"Server says: " ++ (cps.flatMap fun c => if loc.printable c = true then utf8Enc c else [c%'?']) ++ b%"\n" := by
  obtain ⟨t, h1, _, h3, _⟩ := C129_says_partial loc (C129_utf8_locale loc hloc) script r hr hl h hs
  rw [h1, ← h3 _ (by rw [ht]; exact utf8_shown hloc cps hc)]

/-! ## Examples -/

open Classical in
/-- a UTF-8 locale in which everything but the control characters is printable -/
noncomputable def exUtf8 : Locale where
  mbtowc := fun s => if h : ∃ cp, IsScalar cp ∧ cp ≠ 0 ∧ utf8Enc cp <+: s then some ((utf8Enc h.choose).length, h.choose) else none
  printable := fun cp => decide (IsScalar cp ∧ 32 ≤ cp ∧ cp ≠ 127 ∧ ¬ (128 ≤ cp ∧ cp < 160))
  enc := utf8Enc

/-- there is such a locale -/
theorem exUtf8_ok : Utf8Locale exUtf8 := by
  refine ⟨?_, fun _ => rfl, ?_, ?_⟩
  · intro s n cp
    by_cases h : ∃ cp, IsScalar cp ∧ cp ≠ 0 ∧ utf8Enc cp <+: s
    · have hx : exUtf8.mbtowc s = some ((utf8Enc h.choose).length, h.choose) := dif_pos h
      rw [hx, Option.some.injEq, Prod.mk.injEq]
      obtain ⟨g1, g2, t, g3⟩ := h.choose_spec
      constructor
      · rintro ⟨rfl, rfl⟩
        exact ⟨g1, g2, rfl, t, g3⟩
      · rintro ⟨k1, k2, rfl, u, k3⟩
        have := utf8Enc_prefix g1 k1 (g3.trans k3.symm)
        rw [this]
        exact ⟨rfl, rfl⟩
    · have hx : exUtf8.mbtowc s = none := dif_neg h
      rw [hx]
      constructor
      · intro k; cases k
      · rintro ⟨k1, k2, _, k3⟩
        exact absurd ⟨cp, k1, k2, k3⟩ h
  · intro cp hp
    exact (of_decide_eq_true hp).1
  · intro cp hp
    have := of_decide_eq_true hp
    exact ⟨this.2.1, this.2.2.1⟩

/-- "déjà", an escape character, and "[2J" -/
example : ggStderr exUtf8 true (ggReply .none false [.data 53 (b%"1 d" ++ utf8Enc 0xE9 ++ b%"j" ++ utf8Enc 0xE0 ++ b%"\u001b[2J\r\n")]) =
    b%"Server says: d" ++ utf8Enc 0xE9 ++ b%"j" ++ utf8Enc 0xE0 ++ b%"?[2J\n" := by
  let r : Reply := { d1 := 53, d2 := c%'1', text := b%"d" ++ utf8Enc 0xE9 ++ b%"j" ++ utf8Enc 0xE0 ++ b%"\u001b[2J", body := [] }
  have h := C129_utf8_partial exUtf8 exUtf8_ok [.data 53 (b%"1 d" ++ utf8Enc 0xE9 ++ b%"j" ++ utf8Enc 0xE0 ++ b%"\u001b[2J\r\n")] r
    ⟨by show (48 : UInt8) ≤ 53 ∧ (53 : UInt8) ≤ 57; decide, by show (48 : UInt8) ≤ 49 ∧ (49 : UInt8) ≤ 57; decide, fun a b => noCr_crlf _ (by decide +kernel) a b⟩ (by decide +kernel) (by decide +kernel)
    (.inr (by decide +kernel)) [0x64, 0xE9, 0x6A, 0xE0, 27, 0x5B, 0x32, 0x4A] (by decide +kernel) (by decide +kernel)
  have hp : ∀ c, exUtf8.printable c = decide (IsScalar c ∧ 32 ≤ c ∧ c ≠ 127 ∧ ¬ (128 ≤ c ∧ c < 160)) := fun c => by simp only [exUtf8]
  rw [h]
  simp only [hp]
  decide +kernel

end Gmid.Props
