import Verif.Spec.SafePrint
import Verif.Props.Clients

/-!
# C129: what a server can make gg write to the terminal
-/

set_option autoImplicit false

namespace Gmid.Props
open Gmid.Spec

theorem safeLoop_shown {loc : Locale} (hl : LocaleOk loc) : ∀ (n : Nat) (s : Bytes), s.length < n → ShownText loc s (safeLoop loc true n s) := by
  intro n
  induction n with
  | zero => intro s h; omega
  | succ n ih =>
    intro s hn
    cases s with
    | nil => exact .done
    | cons b t =>
      simp only [safeLoop]
      cases hm : loc.mbtowc (b :: t) with
      | none =>
        simp only
        exact .stray b t _ hm (ih t (by simpa using hn))
      | some x =>
        obtain ⟨len, wc⟩ := x
        obtain ⟨h0, h1, h2⟩ := hl.found _ _ _ hm
        have hr := ih ((b :: t).drop len) (by rw [List.length_drop]; omega)
        have hlen : ((b :: t).take len).length = len := by rw [List.length_take]; omega
        have e : (b :: t).take len ++ (b :: t).drop len = b :: t := List.take_append_drop _ _
        simp only
        cases hp : loc.printable wc with
        | false =>
          simp only [if_true, List.singleton_append]
          have := ShownText.hidden (loc := loc) ((b :: t).take len) wc _ _ (by rw [e, hlen]; exact hm) hp hr
          rw [e] at this
          exact this
        | true =>
          have hne : wc ≠ 10 := by rintro rfl; rw [hl.newline] at hp; cases hp
          simp only [Bool.true_eq_false, if_false, if_neg hne, if_true]
          have := ShownText.char (loc := loc) ((b :: t).take len) wc _ _ (by rw [e, hlen]; exact hm) hp hr
          rw [e] at this
          rw [← h2]
          exact this

theorem shown_clean {loc : Locale} (hl : LocaleOk loc) {s o : Bytes} (h : ShownText loc s o) : ∀ b ∈ o, ¬ Control b := by
  induction h with
  | done => simp
  | char e wc s o he hp _ ih =>
    obtain ⟨_, _, h2⟩ := hl.found _ _ _ he
    rw [List.take_left] at h2
    intro b hb
    rcases List.mem_append.1 hb with hb | hb
    · rw [h2] at hb; exact hl.control wc hp b hb
    · exact ih b hb
  | hidden e wc s o he hp _ ih =>
    intro b hb
    rcases List.mem_cons.1 hb with rfl | hb
    · unfold Control; decide
    · exact ih b hb
  | stray b s o he _ ih =>
    intro c hc
    rcases List.mem_cons.1 hc with rfl | hc
    · unfold Control; decide
    · exact ih c hc

theorem shown_unique {loc : Locale} (hl : LocaleOk loc) {s o o' : Bytes} (h : ShownText loc s o) (h' : ShownText loc s o') : o = o' := by
  have key : ∀ {s o}, ShownText loc s o → o = safeLoop loc true (s.length + 1) s ∧ ∀ n, s.length < n → safeLoop loc true n s = o := by
    intro s o h
    suffices ∀ n, s.length < n → safeLoop loc true n s = o from ⟨(this _ (by omega)).symm, this⟩
    induction h with
    | done =>
      intro n hn
      cases n with
      | zero => omega
      | succ n => rfl
    | char e wc s o he hp _ ih =>
      intro n hn
      obtain ⟨h0, _, h2⟩ := hl.found _ _ _ he
      rw [List.take_left] at h2
      obtain ⟨n, rfl⟩ : ∃ m, n = m + 1 := ⟨n - 1, by omega⟩
      cases e with
      | nil => simp at h0
      | cons b t =>
        rw [List.cons_append] at he ⊢
        have hne : wc ≠ 10 := by rintro rfl; rw [hl.newline] at hp; cases hp
        have hd : (b :: (t ++ s)).drop (b :: t).length = s := by simp
        simp only [List.length_append, List.length_cons] at hn
        simp only [safeLoop, he, hp, Bool.true_eq_false, if_false, if_neg hne, if_true, hd]
        rw [← h2, ih n (by omega)]
    | hidden e wc s o he hp _ ih =>
      intro n hn
      obtain ⟨h0, _, h2⟩ := hl.found _ _ _ he
      obtain ⟨n, rfl⟩ : ∃ m, n = m + 1 := ⟨n - 1, by omega⟩
      cases e with
      | nil => simp at h0
      | cons b t =>
        rw [List.cons_append] at he ⊢
        have hd : (b :: (t ++ s)).drop (b :: t).length = s := by simp
        simp only [List.length_append, List.length_cons] at hn
        simp only [safeLoop, he, hp, if_true, hd]
        rw [ih n (by omega)]; rfl
    | stray b s o he _ ih =>
      intro n hn
      obtain ⟨n, rfl⟩ : ∃ m, n = m + 1 := ⟨n - 1, by omega⟩
      simp only [List.length_cons] at hn
      simp only [safeLoop, he]
      rw [ih n (by omega)]
  rw [(key h).1, (key h').1]

theorem gg_says (script : List TRead) (r : Reply) (hr : r.WF) (hl : r.header.length + 2 ≤ 2048) (h : stream script = (r.bytes, true))
    (hs : r.status < 20 ∨ 30 ≤ r.status) : (ggReply .none false script).says = some (cstr r.text) := by
  rw [(C58_gg_reply script r hr hl false h).1]
  simp [hs]

/-- **C129, in part.** When a server sends an error, what gg writes to the standard error is "Server says: ", the text of the server (as far as a NUL in it) with a question
mark for each of its characters that is not printable and each byte that is not part of a character, and a newline; so the text has no control characters, and is on one line.
This is with a C library whose putwc(3) does not care for the orientation of the stream. -/
theorem C129_says_partial (loc : Locale) (hloc : LocaleOk loc) (script : List TRead) (r : Reply) (hr : r.WF) (hl : r.header.length + 2 ≤ 2048)
    (h : stream script = (r.bytes, true)) (hs : r.status < 20 ∨ 30 ≤ r.status) :
    ∃ t, ggStderr loc true (ggReply .none false script) = b%"Server says: " ++ t ++ b%"\n" ∧ ShownText loc (cstr r.text) t ∧
      (∀ t', ShownText loc (cstr r.text) t' → t' = t) ∧ ∀ b ∈ t, ¬ Control b := by
  have hx := safeLoop_shown hloc ((cstr r.text).length + 1) (cstr r.text) (by omega)
  exact ⟨safeLoop loc true ((cstr r.text).length + 1) (cstr r.text), by simp only [ggStderr, gg_says script r hr hl h hs, safeprint]; simp, hx,
    fun t' h' => shown_unique hloc h' hx, shown_clean hloc hx⟩

theorem printable_shown {loc : Locale} {s : Bytes} (hp : PrintableText loc s) : ShownText loc s s := by
  induction hp with
  | nil => exact .done
  | cons e wc s he hp _ ih => exact .char e wc s s he hp ih

/-- **C129.** Text made of printable characters is shown as it is. -/
theorem C129_verbatim_partial (loc : Locale) (hloc : LocaleOk loc) (script : List TRead) (r : Reply) (hr : r.WF) (hl : r.header.length + 2 ≤ 2048)
    (h : stream script = (r.bytes, true)) (hs : r.status < 20 ∨ 30 ≤ r.status) (hp : PrintableText loc (cstr r.text)) :
    ggStderr loc true (ggReply .none false script) = b%"Server says: " ++ cstr r.text ++ b%"\n" := by
  obtain ⟨t, h1, _, h3, _⟩ := C129_says_partial loc hloc script r hr hl h hs
  rw [h1, ← h3 _ (printable_shown hp)]

theorem safeLoop_narrow (loc : Locale) : ∀ (n : Nat) (s : Bytes), ∀ b ∈ safeLoop loc false n s, b = c%'?' := by
  intro n
  induction n with
  | zero => intro s b hb; simp [safeLoop] at hb
  | succ n ih =>
    intro s b hb
    cases s with
    | nil => simp [safeLoop] at hb
    | cons c t =>
      simp only [safeLoop] at hb
      cases hm : loc.mbtowc (c :: t) with
      | none =>
        rw [hm] at hb
        rcases List.mem_cons.1 hb with rfl | hb
        · rfl
        · exact ih _ _ hb
      | some x =>
        obtain ⟨len, wc⟩ := x
        rw [hm] at hb
        simp only [Bool.false_eq_true, if_false, ite_self] at hb
        rcases List.mem_append.1 hb with hb | hb
        · split at hb
          · simpa using hb
          · simp at hb
        · exact ih _ _ hb

/-- **C129, false of the code with glibc.** There putwc(3) fails on stderr, which fprintf has made byte-oriented: whatever the server says, nothing but question marks is shown. -/
theorem C129_nothing_shown (loc : Locale) (script : List TRead) (r : Reply) (hr : r.WF) (hl : r.header.length + 2 ≤ 2048)
    (h : stream script = (r.bytes, true)) (hs : r.status < 20 ∨ 30 ≤ r.status) :
    ∃ k, ggStderr loc false (ggReply .none false script) = b%"Server says: " ++ List.replicate k c%'?' ++ b%"\n" := by
  refine ⟨(safeLoop loc false ((cstr r.text).length + 1) (cstr r.text)).length, ?_⟩
  have := List.eq_replicate_of_mem (safeLoop_narrow loc ((cstr r.text).length + 1) (cstr r.text))
  simp only [ggStderr, gg_says script r hr hl h hs, safeprint]
  rw [← this]
  simp

/-- **C129.** Nothing is said about a reply that is not an error. -/
theorem C129_success (loc : Locale) (wide quiet : Bool) (script : List TRead) (r : Reply) (hr : r.WF) (hl : r.header.length + 2 ≤ 2048)
    (h : stream script = (r.bytes, true)) (hs : 20 ≤ r.status ∧ r.status < 30) : ggStderr loc wide (ggReply .none quiet script) = [] := by
  rw [(C58_gg_reply script r hr hl quiet h).1]
  simp only [ggStderr]
  rw [if_neg (by omega)]

/-- **C129.** Nothing is said with -q, or with -d. -/
theorem C129_quiet (loc : Locale) (wide : Bool) (mode : GgMode) (quiet : Bool) (script : List TRead) (h : quiet = true ∨ mode ≠ .none) :
    ggStderr loc wide (ggReply mode quiet script) = [] := by
  have hb : ∀ (code fuel : Nat) (sc : List TRead) (o : GgOut), (ggBody code fuel sc o).says = o.says := by
    intro code fuel
    induction fuel with
    | zero => intro sc o; rfl
    | succ n ih =>
      intro sc o
      simp only [ggBody]
      split
      · rfl
      · rfl
      · rw [ih]
  suffices (ggReply mode quiet script).says = none by simp only [ggStderr, this]
  unfold ggReply
  split
  · rfl
  · rfl
  · split
    · split
      · split
        · cases mode with
          | none =>
            rcases h with rfl | h
            · simp only [hb]; simp
            · exact absurd rfl h
          | _ => simp only [hb]
        · rfl
      · rfl
    · rfl

/-! ## Examples -/

/-- the C locale: one byte, one character -/
def exLocale : Locale where
  mbtowc := fun s => match s with | [] => none | b :: _ => if b < 128 then some (1, b.toNat) else none
  printable := fun wc => decide (32 ≤ wc ∧ wc < 127)
  enc := fun wc => [UInt8.ofNat wc]

theorem exLocale_ok : LocaleOk exLocale := by
  constructor
  · intro s n wc h
    cases s with
    | nil => simp [exLocale] at h
    | cons b t =>
      simp only [exLocale] at h
      split at h
      · simp only [Option.some.injEq, Prod.mk.injEq] at h
        obtain ⟨rfl, rfl⟩ := h
        simp [exLocale]
      · cases h
  · intro wc h b hb
    simp only [exLocale, decide_eq_true_eq, List.mem_singleton] at h hb
    subst hb
    have hn : (UInt8.ofNat wc).toNat = wc := by rw [UInt8.toNat_ofNat']; exact Nat.mod_eq_of_lt (by omega)
    unfold Control
    rw [UInt8.lt_iff_toNat_lt, ← UInt8.toNat_inj, hn]
    have h1 : (32 : UInt8).toNat = 32 := rfl
    have h2 : (127 : UInt8).toNat = 127 := rfl
    rw [h1, h2]
    omega
  · decide

/-- an escape sequence that would clear the screen -/
example : ggStderr exLocale true (ggReply .none false [.data 53 b%"1 no\u001b[2J way\r\n"]) = b%"Server says: no?[2J way\n" := by decide +kernel

example : ggStderr exLocale false (ggReply .none false [.data 53 b%"1 no\u001b[2J way\r\n"]) = b%"Server says: ?\n" := by decide +kernel

end Gmid.Props
