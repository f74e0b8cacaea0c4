import Verif.Lemmas.Puny

/-!
# C12, C13, C14: decoding of host names (puny_decode)

The server calls puny_decode on the SNI name and on the host of the request, both chosen by the
client, with buffers of 254 bytes.
-/

set_option autoImplicit false

namespace Gmid.Props

open Spec

/-- A host name as a list of labels: no label contains a dot or a NUL. -/
def IsLabels (ls : List Bytes) : Prop := ls ≠ [] ∧ ∀ l ∈ ls, (46 : UInt8) ∉ l ∧ (0 : UInt8) ∉ l

/-- Upper bound of the decoded name's length: four bytes for every byte of Punycode, the other labels
as they are, and the dots. -/
def worstLength : List Bytes → Nat
  | [] => 0
  | [l] => one l
  | l :: r => one l + 1 + worstLength r
where one (l : Bytes) : Nat := if l.take 4 = b%"xn--" then 4 * (l.length - 4) else l.length

theorem worst_cost : ∀ ls, worstLength ls = namesCost ls := by
  intro ls
  induction ls with
  | nil => rfl
  | cons l r ih =>
    cases r with
    | nil => rfl
    | cons l2 r => simp only [worstLength, namesCost, ih]; rfl

theorem decode_labels (ls : List Bytes) (h : IsLabels ls) (len : Nat) :
    punyDecode len (joinDots ls) = punyLoop ls (Z [] len) := by
  unfold punyDecode
  rw [splitDot_join ls h.1 (fun l hl => (h.2 l hl).1)]
  simp [Z]

/-! ## C12: the property is false of the code -/

/-- A 13 byte name, in a request or in the SNI, makes the server divide by zero. -/
theorem C12_division_by_zero : punyDecode 254 b%"xn--b9277356v" = .arith := by decide +kernel

/-- it is indeed the division: `delta + SKEW` is 0 -/
example : deltaLoop 72 36 0 1 b%"b9277356v" = some (8589920796, []) ∧
    toInt32 8589920796 = -13796 ∧ ((-13796 : Int).tdiv 700 + ((-13796 : Int).tdiv 700).tdiv 1) + 38 = 0 := by
  decide +kernel

/-- 63 + 63 + 63 + 36 letters, then 10 letters and four characters outside of the BMP -/
def longHost : Bytes :=
  List.replicate 63 97 ++ 46 :: List.replicate 63 97 ++ 46 :: List.replicate 63 97 ++ 46 ::
  List.replicate 36 97 ++ 46 :: (b%"xn--aaaaaaaaaa-bb00eaaa" : Bytes)

/-- A name of 252 bytes makes it write outside of the output buffer. -/
theorem C12_out_of_bounds : longHost.length = 252 ∧ punyDecode 254 longHost = .mem := by decide +kernel

/-- A name of 254 bytes leaves the buffer without a terminating NUL although success is reported. -/
theorem C12_unterminated : ∃ host m : Bytes, host.length = 254 ∧ punyDecode 254 host = .ok m ∧ (0 : UInt8) ∉ m :=
  ⟨List.replicate 63 97 ++ 46 :: List.replicate 63 97 ++ 46 :: List.replicate 63 97 ++ 46 :: List.replicate 62 97,
   List.replicate 63 97 ++ 46 :: List.replicate 63 97 ++ 46 :: List.replicate 63 97 ++ 46 :: List.replicate 62 97,
   by decide +kernel⟩

/-! ## C12: what holds -/

/-- With room for the longest text the name could stand for, nothing outside of the buffer is
accessed, and on success the buffer holds a NUL-terminated string.  Missing from the full property:
names that could be longer, see `C12_out_of_bounds` and `C12_unterminated`. -/
theorem C12_memory_safe_partial (ls : List Bytes) (len : Nat) (hls : IsLabels ls) (hfit : worstLength ls < len) :
    punyDecode len (joinDots ls) ≠ .mem ∧
    ∀ m, punyDecode len (joinDots ls) = .ok m → m.length = len ∧ (0 : UInt8) ∈ m := by
  rw [decode_labels ls hls]
  have := punyLoop_safe ls len hls.1 (fun l hl => (hls.2 l hl).2) (by rw [← worst_cost]; exact hfit)
  refine ⟨this.1, fun m hm => ?_⟩
  obtain ⟨t, rfl, _, hl⟩ := this.2 m hm
  rw [worst_cost] at hfit
  exact ⟨Z_length t len (by omega), zero_mem_Z t len (by omega)⟩

/-- In particular any name of up to 63 bytes, for the server's buffers. -/
theorem C12_short_names_partial (host : Bytes) (h0 : (0 : UInt8) ∉ host) (hl : host.length ≤ 63) :
    punyDecode 254 host ≠ .mem ∧ ∀ m, punyDecode 254 host = .ok m → m.length = 254 ∧ (0 : UInt8) ∈ m := by
  have hex : ∀ host : Bytes, (0 : UInt8) ∉ host → ∃ ls, IsLabels ls ∧ joinDots ls = host ∧ worstLength ls ≤ 4 * host.length := by
    intro host
    induction host with
    | nil => intro _; exact ⟨[[]], ⟨by simp, by simp⟩, rfl, by decide⟩
    | cons c r ih =>
      intro h0
      obtain ⟨ls, ⟨hne, hls⟩, hj, hw⟩ := ih (fun e => h0 (by simp [e]))
      have hc0 : (0 : UInt8) ≠ c := fun e => h0 (by simp [e])
      cases ls with
      | nil => exact absurd rfl hne
      | cons l rest =>
        by_cases hc : c = 46
        · refine ⟨[] :: l :: rest, ⟨by simp, ?_⟩, ?_, ?_⟩
          · intro x hx
            rcases List.mem_cons.1 hx with h | h
            · subst h; simp
            · exact hls x h
          · simp only [joinDots, List.nil_append, hj, hc]
          · simp only [worstLength, List.length_cons]
            have : worstLength.one [] = 0 := by decide
            omega
        · refine ⟨(c :: l) :: rest, ⟨by simp, ?_⟩, ?_, ?_⟩
          · intro x hx
            rcases List.mem_cons.1 hx with h | h
            · subst h
              have := hls l (by simp)
              simp only [List.mem_cons, not_or]
              exact ⟨⟨fun e => hc e.symm, this.1⟩, hc0, this.2⟩
            · exact hls x (by simp [h])
          · cases rest with
            | nil => simp only [joinDots] at hj ⊢; rw [hj]
            | cons l2 rest => simp only [joinDots] at hj ⊢; rw [← hj]; rfl
          · have h1 : worstLength.one (c :: l) ≤ 4 * (l.length + 1) := by
              unfold worstLength.one; split <;> simp only [List.length_cons] <;> omega
            have h2 : ∀ ls, worstLength ls ≤ 4 * (joinDots ls).length := by
              intro ls
              induction ls with
              | nil => simp [worstLength, joinDots]
              | cons x r ih =>
                have : worstLength.one x ≤ 4 * x.length := by unfold worstLength.one; split <;> omega
                cases r with
                | nil => simpa [worstLength, joinDots] using this
                | cons y r =>
                  simp only [worstLength, joinDots, List.length_append, List.length_cons] at ih ⊢
                  omega
            cases rest with
            | nil => simp only [joinDots] at hj; subst hj; simpa [worstLength] using h1
            | cons l2 rest =>
              simp only [joinDots] at hj
              have h3 := h2 (l2 :: rest)
              simp only [worstLength]
              rw [← hj]
              simp only [List.length_cons, List.length_append]
              omega
  obtain ⟨ls, h1, rfl, h3⟩ := hex host h0
  exact C12_memory_safe_partial ls 254 h1 (by omega)

/-- When no label of letters, digits and hyphens has more than six characters after its last hyphen,
the arithmetic is defined too: the outcome is an error or a terminated string.  Missing from the full
property: longer extended strings, see `C12_division_by_zero`. -/
theorem C12_no_undefined_behaviour_partial (ls : List Bytes) (len : Nat) (hls : IsLabels ls)
    (hldh : ∀ l ∈ ls, Ldh l) (hfit : worstLength ls < len)
    (hshort : ∀ l ∈ ls, l.take 4 = b%"xn--" → ∃ a b, l.drop 4 = a ++ b ∧ b.length ≤ 6 ∧ (a = [] ∨ a.getLast? = some 45)) :
    punyDecode len (joinDots ls) = .err ∨
    ∃ m, punyDecode len (joinDots ls) = .ok m ∧ m.length = len ∧ (0 : UInt8) ∈ m := by
  have h1 := C12_memory_safe_partial ls len hls hfit
  have h2 : punyDecode len (joinDots ls) ≠ .arith := by
    rw [decode_labels ls hls]
    refine punyLoop_no_arith ls len (fun l hl => (hls.2 l hl).2) (by rw [← worst_cost]; exact hfit) ?_ ?_
    · intro l hl c hc
      have := forall_byte_of_all (p := fun c => !((65 ≤ c && c ≤ 90) || (97 ≤ c && c ≤ 122) || (48 ≤ c && c ≤ 57)) ||
        decide (digitValue c < 36)) (by decide +kernel) c
      rcases hldh l hl c hc with h | h
      · left
        have h' : ((65 ≤ c && c ≤ 90) || (97 ≤ c && c ≤ 122) || (48 ≤ c && c ≤ 57)) = true := by
          simpa [Ldh.isAlnum', or_assoc] using h
        rw [h'] at this
        simpa using this
      · exact .inr h
    · intro l hl hx
      obtain ⟨a, b, he, hb, ha⟩ := hshort l hl hx
      rw [he, List.reverse_append]
      rcases ha with rfl | ha
      · simp only [List.reverse_nil, List.append_nil]
        have := (List.takeWhile_sublist (fun x : UInt8 => decide (x ≠ 45)) (l := b.reverse)).length_le
        simp only [List.length_reverse] at this
        omega
      · have : a.reverse = 45 :: a.dropLast.reverse := by
          have hne : a ≠ [] := by intro e; subst e; simp at ha
          have h3 := List.dropLast_concat_getLast hne
          have h4 : a.getLast hne = 45 := by rw [List.getLast?_eq_some_getLast hne] at ha; simpa using ha
          rw [h4] at h3
          conv => lhs; rw [← h3]
          simp
        rw [this]
        have key : ∀ (x y : Bytes), ((x ++ 45 :: y).takeWhile (fun z : UInt8 => decide (z ≠ 45))).length ≤ x.length := by
          intro x y
          induction x with
          | nil => simp
          | cons z x ih =>
            simp only [List.cons_append, List.takeWhile_cons]
            split
            · simpa using ih
            · simp
        have := key b.reverse a.dropLast.reverse
        simp only [List.length_reverse] at this
        omega
  cases hd : punyDecode len (joinDots ls) with
  | err => exact .inl rfl
  | mem => exact absurd hd h1.1
  | arith => exact absurd hd h2
  | ok m => exact .inr ⟨m, rfl, h1.2 m hd⟩

/-- the hypotheses are met by a real name -/
example : IsLabels [b%"xn--bcher-kva", b%"ch"] ∧ (∀ l ∈ [b%"xn--bcher-kva", b%"ch"], Ldh l) ∧
    worstLength [b%"xn--bcher-kva", b%"ch"] < 254 ∧
    (∀ l ∈ [b%"xn--bcher-kva", b%"ch"], l.take 4 = b%"xn--" →
      ∃ a b, l.drop 4 = a ++ b ∧ b.length ≤ 6 ∧ (a = [] ∨ a.getLast? = some 45)) := by
  refine ⟨⟨by simp, by decide⟩, ?_, by decide, ?_⟩
  · intro l hl c hc
    have h : ∀ l ∈ [b%"xn--bcher-kva", b%"ch"], ∀ c ∈ l,
      ((65 ≤ c ∧ c ≤ 90) ∨ (97 ≤ c ∧ c ≤ 122) ∨ (48 ≤ c ∧ c ≤ 57)) ∨ c = 45 := by decide +kernel
    exact h l hl c hc
  · intro l hl hx
    simp only [List.mem_cons, List.not_mem_nil, or_false] at hl
    rcases hl with rfl | rfl
    · exact ⟨b%"bcher-", b%"kva", by decide⟩
    · exact absurd hx (by decide)

/-! ## C13 -/

/-- A name without Punycode labels, each shorter than 64 bytes, that fits the buffer together with
its NUL is left as it is, followed by NULs. -/
theorem C13_plain_names (ls : List Bytes) (len : Nat) (hls : IsLabels ls)
    (hplain : ∀ l ∈ ls, l.length < 64 ∧ l.take 4 ≠ b%"xn--") (hfit : (joinDots ls).length < len) :
    punyDecode len (joinDots ls) = .ok (joinDots ls ++ List.replicate (len - (joinDots ls).length) 0) := by
  rw [decode_labels ls hls, punyLoop_plain ls len hls.1 (fun l hl => (hls.2 l hl).2) hplain hfit]
  rfl

/-- the same, in terms of the C string the caller then reads -/
theorem C13_plain_string (ls : List Bytes) (len : Nat) (hls : IsLabels ls)
    (hplain : ∀ l ∈ ls, l.length < 64 ∧ l.take 4 ≠ b%"xn--") (hfit : (joinDots ls).length < len) :
    ∃ m, punyDecode len (joinDots ls) = .ok m ∧ cstr m = joinDots ls ∧ m.length = len := by
  refine ⟨_, C13_plain_names ls len hls hplain hfit, ?_, ?_⟩
  · refine cstr_Z _ _ hfit ?_
    have : ∀ ls : List Bytes, (∀ l ∈ ls, (0 : UInt8) ∉ l) → (0 : UInt8) ∉ joinDots ls := by
      intro ls
      induction ls with
      | nil => intro _; simp [joinDots]
      | cons l r ih =>
        intro h
        have hr := ih (fun x hx => h x (by simp [hx]))
        cases r with
        | nil => exact h l (by simp)
        | cons l2 r =>
          simp only [joinDots, List.mem_append, List.mem_cons, not_or]
          exact ⟨h l (by simp), by decide, hr⟩
    exact this ls (fun l hl => (hls.2 l hl).2)
  · simp; omega

/-- A label of 64 bytes or more is refused. -/
theorem C13_label_too_long (l : Bytes) (rest : List Bytes) (len : Nat) (hls : IsLabels (l :: rest)) (hl : 64 ≤ l.length) :
    punyDecode len (joinDots (l :: rest)) = .err := by
  rw [decode_labels _ hls]
  simp only [punyLoop, if_pos hl]

example : IsLabels [b%"gemini", b%"example", b%"com"] ∧
    (∀ l ∈ [b%"gemini", b%"example", b%"com"], l.length < 64 ∧ l.take 4 ≠ b%"xn--") ∧
    (joinDots [b%"gemini", b%"example", b%"com"]).length < 254 ∧
    joinDots [b%"gemini", b%"example", b%"com"] = b%"gemini.example.com" := by
  refine ⟨⟨by simp, by decide⟩, by decide, by decide, by decide⟩

example : IsLabels [List.replicate 64 97, b%"com"] := ⟨by simp, by decide⟩

/-! ## C14 -/

/-- Every label that stands for a text (Punycode or not) is replaced by the UTF-8 encoding of that
text, provided the decoded name leaves 60 bytes of the buffer unused and no byte of the name is above
'z'.  The decoding is the RFC's, over unbounded integers: overflow cannot occur for labels that stand
for characters.  Partial: names using the last 59 bytes of the buffer are not covered (the code
compares the length of the undecoded label with the room left), and labels that stand for no text
are not always refused, see `C14_accepts_more`. -/
theorem C14_rfc3492_partial (ls ts : List Bytes) (len : Nat) (hls : IsLabels ls) (hlen : ls.length = ts.length)
    (htext : ∀ p ∈ ls.zip ts, labelText p.1 = some p.2)
    (h64 : ∀ l ∈ ls, l.length < 64) (hz : ∀ l ∈ ls, ∀ c ∈ l, c.toNat ≤ 122)
    (hfit : (joinDots ts).length + 59 < len) :
    punyDecode len (joinDots ls) = .ok (joinDots ts ++ List.replicate (len - (joinDots ts).length) 0) := by
  rw [decode_labels ls hls, punyLoop_rfc ls ts len hls.1 hlen htext (fun l hl => (hls.2 l hl).2) h64 hz hfit]
  rfl

/-- RFC 3492, 7.1 (A), Arabic; "bücher.ch" -/
example : labelText b%"xn--egbpdaj6bu4bxfgehfvwxn" = some ([0x0644, 0x064A, 0x0647, 0x0645, 0x0627, 0x0628, 0x062A,
      0x0643, 0x0644, 0x0645, 0x0648, 0x0634, 0x0639, 0x0631, 0x0628, 0x064A, 0x061F].map utf8Enc).flatten ∧
    labelText b%"xn--bcher-kva" = some (b%"b" ++ utf8Enc 0xFC ++ b%"cher") ∧ labelText b%"ch" = some b%"ch" := by
  decide +kernel

/-- RFC 3492, 7.1 (L), (S) "-> $1.00 <-" is ASCII only; (L) 3<nen>B<gumi><kinpachi><sensei> -/
example : rfcDecode b%"3B-ww4c5e180e575a65lsy2b" =
    some [0x0033, 0x5E74, 0x0042, 0x7D44, 0x91D1, 0x516B, 0x5148, 0x751F] ∧
    rfcDecode b%"-> $1.00 <--" = some (b%"-> $1.00 <-".map UInt8.toNat) := by decide +kernel

/-- the hypotheses of `C14_rfc3492_partial` hold for bücher.ch -/
example : IsLabels [b%"xn--bcher-kva", b%"ch"] ∧
    (∀ p ∈ [b%"xn--bcher-kva", b%"ch"].zip [b%"b" ++ utf8Enc 0xFC ++ b%"cher", b%"ch"], labelText p.1 = some p.2) ∧
    (∀ l ∈ [b%"xn--bcher-kva", b%"ch"], l.length < 64) ∧
    (∀ l ∈ [b%"xn--bcher-kva", b%"ch"], ∀ c ∈ l, c.toNat ≤ 122) ∧
    (joinDots [b%"b" ++ utf8Enc 0xFC ++ b%"cher", b%"ch"]).length + 59 < 254 := by
  refine ⟨⟨by simp, by decide⟩, by decide +kernel, by decide, by decide +kernel, by decide⟩

/-- The converse fails: a label with a byte that is no Punycode digit, which the RFC rejects, is
accepted ("_" counts as digit 95). -/
theorem C14_accepts_more : labelText b%"xn--_a" = none ∧ ∃ m, punyDecode 254 b%"xn--_a" = .ok m ∧ cstr m ≠ [] := by
  refine ⟨by decide +kernel, utf8Enc 223 ++ List.replicate 252 0, by decide +kernel, by decide +kernel⟩

end Gmid.Props
