import Verif.Spec.Log
import Verif.Props.Iri

/-!
# C130: the messages of the program
-/

set_option autoImplicit false

namespace Gmid.Props
open Gmid.Spec

theorem fmtText_char (c : UInt8) (hc : c ≠ c%'%') (f : Bytes) (as : List FmtArg) : fmtText (c :: f) as = (fmtText f as).map (c :: ·) := by
  have : c ≠ 37 := hc
  conv => lhs; unfold fmtText
  split <;> simp_all

/-- printf does what the author of a format expects -/
theorem fmtText_iff (f : Bytes) (as : List FmtArg) (m : Bytes) : fmtText f as = some m ↔ Formats f as m := by
  constructor
  · intro h
    induction f, as using fmtText.induct generalizing m with
    | case1 as => simp [fmtText] at h; subst h; exact .done as
    | case2 r as ih =>
      rw [fmtText, Option.map_eq_some_iff] at h
      obtain ⟨x, h1, rfl⟩ := h
      exact .percent r as x (ih _ h1)
    | case3 r s as ih =>
      rw [fmtText, Option.map_eq_some_iff] at h
      obtain ⟨x, h1, rfl⟩ := h
      exact .str s r as x (ih _ h1)
    | case4 r n as ih =>
      rw [fmtText, Option.map_eq_some_iff] at h
      obtain ⟨x, h1, rfl⟩ := h
      exact .int n r as x (ih _ h1)
    | case5 r n as hn => rw [fmtText, if_pos hn] at h; cases h
    | case6 r n as hn ih =>
      rw [fmtText, if_neg hn, Option.map_eq_some_iff] at h
      obtain ⟨x, h1, rfl⟩ := h
      obtain ⟨k, rfl⟩ : ∃ k : Nat, n = k := ⟨n.toNat, by omega⟩
      have : intDec (k : Int) = natDec k := by unfold intDec; rw [if_neg (by omega)]; rfl
      rw [this]
      exact .nat k r as x (ih _ h1)
    | case7 r n as hn => rw [fmtText, if_pos hn] at h; cases h
    | case8 r n as hn ih =>
      rw [fmtText, if_neg hn, Option.map_eq_some_iff] at h
      obtain ⟨x, h1, rfl⟩ := h
      have : n = ((UInt8.ofNat n.toNat).toNat : Int) := by
        rw [UInt8.toNat_ofNat', Nat.mod_eq_of_lt (by omega)]; omega
      have k := Formats.byte (UInt8.ofNat n.toNat) r as x (ih _ h1)
      rw [← this] at k
      exact k
    | case9 r as h1 h2 h3 h4 h5 =>
      exfalso
      rw [fmtText] at h
      · cases h
      all_goals assumption
    | case10 c r as h1 h2 h3 h4 h5 h6 ih =>
      have hc : c ≠ c%'%' := h6
      rw [fmtText_char c hc, Option.map_eq_some_iff] at h
      obtain ⟨x, k1, rfl⟩ := h
      exact .char c r as x hc (ih _ k1)
  · intro h
    induction h with
    | done as => simp [fmtText]
    | char c f as m hc _ ih => rw [fmtText_char c hc, ih]; rfl
    | percent f as m _ ih => show fmtText (37 :: 37 :: f) as = _; rw [fmtText, ih]; rfl
    | str s f as m _ ih => show fmtText (37 :: 115 :: f) _ = _; rw [fmtText, ih]; rfl
    | int n f as m _ ih => show fmtText (37 :: 100 :: f) _ = _; rw [fmtText, ih]; rfl
    | nat n f as m _ ih =>
      show fmtText (37 :: 117 :: f) _ = _
      rw [fmtText, if_neg (by omega), ih]
      have : intDec (n : Int) = natDec n := by unfold intDec; rw [if_neg (by omega)]; rfl
      simp [this]
    | byte c f as m _ ih =>
      show fmtText (37 :: 99 :: f) _ = _
      have := c.toNat_lt
      rw [fmtText, if_neg (by omega), ih]
      simp

/-- literal text after a format -/
theorem formats_append {f : Bytes} {as : List FmtArg} {m : Bytes} (h : Formats f as m) (g : Bytes) (hg : c%'%' ∉ g) : Formats (f ++ g) as (m ++ g) := by
  induction h with
  | done as =>
    simp only [List.nil_append]
    induction g with
    | nil => exact .done as
    | cons c g ih => exact .char c g as g (fun e => hg (by simp [e])) (ih fun h => hg (by simp [h]))
  | char c f as m hc _ ih => exact .char c _ as _ hc ih
  | percent f as m _ ih => exact .percent _ as _ ih
  | str s f as m _ ih => rw [List.append_assoc, List.append_assoc]; exact .str s _ as _ ih
  | int n f as m _ ih => rw [List.append_assoc, List.append_assoc]; exact .int n _ as _ ih
  | nat n f as m _ ih => rw [List.append_assoc, List.append_assoc]; exact .nat n _ as _ ih
  | byte c f as m _ ih => exact .byte c _ as _ ih

theorem vlog_logs (lib : LogLib) (k pri : Nat) (f : Bytes) (as : List FmtArg) (m : Bytes) (hf : Formats f as m) (st : LogSt) :
    ∃ st', vlogMsg lib k pri f as st = some st' ∧ Logs pri [m] st st' := by
  have h1 := (fmtText_iff f as m).2 hf
  have h2 := (fmtText_iff _ as _).2 (formats_append hf b%"\n" (by decide))
  unfold vlogMsg Logs
  cases st.debug with
  | true =>
    cases lib.alloc k with
    | true => simp [h2]
    | false => simp [h1]
  | false => simp [h1]

/-- **C130.** log_warnx, log_info and, if the program is verbose, log_debug write their message, once, whole, with its level, wherever messages go; otherwise log_debug
does nothing.  errno is as it was. -/
theorem C130_message (lib : LogLib) (f : Bytes) (as : List FmtArg) (m : Bytes) (hf : Formats f as m) (st : LogSt) :
    (∃ st', logWarnx lib f as st = some st' ∧ Logs 3 [m] st st') ∧ (∃ st', logInfoMsg lib f as st = some st' ∧ Logs 6 [m] st st') ∧
    ∃ st', logDebug lib f as st = some st' ∧ if st.verbose then Logs 7 [m] st st' else st' = st := by
  refine ⟨vlog_logs lib 0 3 f as m hf st, vlog_logs lib 0 6 f as m hf st, ?_⟩
  unfold logDebug
  cases st.verbose with
  | true => exact vlog_logs lib 0 7 f as m hf st
  | false => exact ⟨st, rfl, rfl⟩

/-- **C130.** log_warn writes the message, a colon and the text of the error that errno was when it was called, if that text has no percent sign; short of memory it writes
the message and the text one after the other.  errno is as it was. -/
theorem C130_warn (lib : LogLib) (f : Bytes) (as : List FmtArg) (m : Bytes) (hf : Formats f as m) (st : LogSt) (he : c%'%' ∉ lib.strerror st.errno) :
    ∃ st', logWarn lib (some f) as st = some st' ∧
      Logs 3 (if lib.alloc 0 then [m ++ b%": " ++ lib.strerror st.errno] else [m, lib.strerror st.errno]) st st' := by
  unfold logWarn
  simp only
  by_cases ha : lib.alloc 0 = true
  · simp only [ha, if_true]
    have hf2 := formats_append hf (b%": " ++ lib.strerror st.errno) (by
      intro h
      rcases List.mem_append.1 h with h | h
      · revert h; decide
      · exact he h)
    obtain ⟨st', k1, k2⟩ := vlog_logs lib 1 3 _ as _ hf2 { st with errno := lib.clobber st.errno }
    refine ⟨{ st' with errno := st.errno }, ?_, ?_⟩
    · rw [← List.append_assoc] at k1
      show Option.map _ (vlogMsg lib 1 3 _ as _) = _
      rw [k1]; rfl
    · unfold Logs at k2 ⊢
      rw [k2]
      cases st with
      | mk d v p e s er x => cases d <;> simp
  · have ha : lib.alloc 0 = false := by simpa using ha
    simp only [ha, Bool.false_eq_true, if_false]
    obtain ⟨s1, k1, k2⟩ := vlog_logs lib 1 3 f as m hf { st with errno := lib.clobber st.errno }
    have hs : Formats b%"%s" [.str (lib.strerror st.errno)] (lib.strerror st.errno) := by
      have := Formats.str (lib.strerror st.errno) [] [] [] (.done [])
      simpa using this
    obtain ⟨s2, j1, j2⟩ := vlog_logs lib 2 3 _ _ _ hs s1
    refine ⟨{ s2 with errno := st.errno }, ?_, ?_⟩
    · show Option.map _ (match vlogMsg lib 1 3 f as _ with | none => none | some st => vlogMsg lib 2 3 _ _ st) = _
      rw [k1]
      simp only
      rw [j1]; rfl
    · unfold Logs at k2 j2 ⊢
      rw [j2, k2]
      cases st with
      | mk d v p e s er x => cases d <;> simp

/-- **C130.** log_warn without a message writes the text of the error. -/
theorem C130_warn_plain (lib : LogLib) (as : List FmtArg) (st : LogSt) :
    ∃ st', logWarn lib none as st = some st' ∧ Logs 3 [lib.strerror st.errno] st st' := by
  have hs : Formats b%"%s" [.str (lib.strerror st.errno)] (lib.strerror st.errno) := by
    have := Formats.str (lib.strerror st.errno) [] [] [] (.done [])
    simpa using this
  obtain ⟨s1, k1, k2⟩ := vlog_logs lib 0 3 _ _ _ hs { st with errno := lib.clobber st.errno }
  refine ⟨{ s1 with errno := st.errno }, ?_, ?_⟩
  · unfold logWarn
    show Option.map _ (vlogMsg lib 0 3 _ _ _) = _
    rw [k1]; rfl
  · unfold Logs at k2 ⊢
    rw [k2]
    cases st with
    | mk d v p e s er x => cases d <;> simp

/-- **C130.** fatal and fatalx write one message, which names the process, has the message (its first BUFSIZ - 1 bytes) and, with fatal, the error; then the process exits with 1. -/
theorem C130_fatal (lib : LogLib) (bufsiz : Nat) (f : Bytes) (as : List FmtArg) (m : Bytes) (hf : Formats f as m) (st : LogSt) :
    (st.errno ≠ 0 → ∃ st', fatalMsg lib bufsiz (some f) as st = some { st' with exited := some 1 } ∧
      Logs 2 [b%"fatal in " ++ st.procname ++ b%": " ++ m.take (bufsiz - 1) ++ b%": " ++ lib.strerror st.errno] st st') ∧
    ∃ st', fatalxMsg lib bufsiz (some f) as st = some { st' with exited := some 1 } ∧
      Logs 2 [b%"fatal in " ++ st.procname ++ b%": " ++ m.take (bufsiz - 1)] st st' := by
  have h1 := (fmtText_iff f as m).2 hf
  have lit : ∀ (l f : Bytes) (as : List FmtArg) (m : Bytes), c%'%' ∉ l → Formats f as m → Formats (l ++ f) as (l ++ m) := by
    intro l f as m hl h
    induction l with
    | nil => exact h
    | cons c l ih => exact .char c _ as _ (fun e => hl (by simp [e])) (ih fun h => hl (by simp [h]))
  constructor
  · intro hc
    have hs := lit b%"fatal in " _ _ _ (by decide) (.str st.procname b%": %s%s%s" _ _ (lit b%": " _ _ _ (by decide) (.str (m.take (bufsiz - 1)) b%"%s%s" _ _
      (.str b%": " b%"%s" _ _ (.str (lib.strerror st.errno) [] [] [] (.done []))))))
    obtain ⟨st', k1, k2⟩ := vlog_logs lib 0 2 _ _ _ hs st
    refine ⟨st', ?_, ?_⟩
    · unfold fatalMsg vfatalc
      simp only [h1, Option.map_some, Option.isSome_some, if_true, ne_eq, hc, not_false_eq_true]
      show Option.map _ (vlogMsg lib 0 2 b%"fatal in %s: %s%s%s" _ st) = _
      exact (congrArg (Option.map _) k1).trans rfl
    · simpa using k2
  · have hs := lit b%"fatal in " _ _ _ (by decide) (.str st.procname b%"%s%s" _ _ (.str b%": " b%"%s" _ _ (.str (m.take (bufsiz - 1)) [] [] [] (.done []))))
    obtain ⟨st', k1, k2⟩ := vlog_logs lib 0 2 _ _ _ hs st
    refine ⟨st', ?_, ?_⟩
    · unfold fatalxMsg vfatalc
      simp only [h1, Option.map_some, Option.isSome_some, if_true, ne_eq, not_true, if_false]
      show Option.map _ (vlogMsg lib 0 2 b%"fatal in %s%s%s" _ st) = _
      exact (congrArg (Option.map _) k1).trans rfl
    · simpa using k2

/-- a library that names two errors and whose calls overwrite errno -/
def exLogLib : LogLib where
  strerror := fun n => if n = 2 then b%"No such file or directory" else b%"Permission denied"
  clobber := fun _ => 99
  alloc := fun _ => true

/-- the program in the foreground -/
def exLogSt : LogSt := { debug := true, verbose := false, procname := b%"server", errno := 2 }

example : Formats b%"can't find fcgi #%d: 100%%" [.int (-1)] b%"can't find fcgi #-1: 100%" := (fmtText_iff _ _ _).1 (by decide)

example : Formats b%"open %s for domain %s" [.str b%"/www", .str b%"a.org"] b%"open /www for domain a.org" := (fmtText_iff _ _ _).1 (by decide)

example : logWarn exLogLib (some b%"open %s for domain %s") [.str b%"/www", .str b%"a.org"] exLogSt =
    some { exLogSt with err := b%"open /www for domain a.org: No such file or directory\n" } := by decide +kernel

example : (logWarn { exLogLib with alloc := fun _ => false } (some b%"open %s") [.str b%"/www"] { exLogSt with debug := false }).map (·.syslog) =
    some [(3, b%"open /www"), (3, b%"No such file or directory")] := by decide +kernel

example : logWarn exLogLib none [] exLogSt = some { exLogSt with err := b%"No such file or directory\n" } := by decide +kernel

example : fatalMsg exLogLib 8192 (some b%"can't open %s") [.str b%"/www"] exLogSt =
    some { exLogSt with err := b%"fatal in server: can't open /www: No such file or directory\n", exited := some 1 } := by decide +kernel

example : fatalxMsg exLogLib 8192 (some b%"imsg size: %d") [.int 7] exLogSt = some { exLogSt with err := b%"fatal in server: imsg size: 7\n", exited := some 1 } := by
  decide +kernel

example : logDebug exLogLib b%"URL too long" [] exLogSt = some exLogSt ∧
    logDebug exLogLib b%"URL too long" [] (logSetverbose true exLogSt) = some { exLogSt with verbose := true, err := b%"URL too long\n" } := by decide +kernel

/-- **C130.** log_init makes the program verbose exactly when it is in the foreground; log_setverbose and log_procinit change that and the name, and nothing else. -/
theorem C130_settings (d v : Bool) (name name2 : Bytes) (st : LogSt) :
    logProcinit none st = st ∧
    logProcinit (some name2) (logSetverbose v (logInit d name st)) = { st with debug := d, verbose := v, procname := name2 } ∧
    logInit d name st = { st with debug := d, verbose := d, procname := name } := ⟨rfl, rfl, rfl⟩

/-- **C130.** In the foreground a message without a newline takes exactly one line: what was written before stays, and the lines are those of before and the message. -/
theorem C130_one_line (lib : LogLib) (f : Bytes) (as : List FmtArg) (m : Bytes) (hf : Formats f as m) (hm : c%'\n' ∉ m) (st st' : LogSt) (hd : st.debug = true)
    (h : logInfoMsg lib f as st = some st') : st'.err = st.err ++ (m ++ b%"\n") ∧ (m ++ b%"\n").count c%'\n' = 1 ∧ st'.syslog = st.syslog := by
  obtain ⟨s1, k1, k2⟩ := vlog_logs lib 0 6 f as m hf st
  have : logInfoMsg lib f as st = some s1 := k1
  rw [this] at h
  cases h
  unfold Logs at k2
  rw [hd, if_pos rfl] at k2
  subst k2
  refine ⟨by simp, ?_, rfl⟩
  rw [List.count_append, List.count_eq_zero.2 hm]
  decide

/-- the message of client_read (server.c:1043) about a file that may not be read -/
def cantOpen (lib : LogLib) (p : Bytes) (e : Int) (st : LogSt) : Option LogSt := logInfoMsg lib b%"can't open %s: %s" [.str p, .str (lib.strerror e)] st

/-- **C130, what does not hold.** The request for a file below an unreadable directory writes lines of the client's choosing among the messages: a newline may be
sent as %0A, and messages, unlike the lines of the access log, are not encoded. -/
theorem C130_forged :
    ∃ i : Iri, parseIri (fun _ => false) b%"gemini://a.org/priv/x%0Afatal%20in%20server:%20disk%20full%0A" = .ok i ∧
      ∃ st', cantOpen exLogLib i.path 13 exLogSt = some st' ∧
        st'.err = b%"can't open priv/x\n" ++ b%"fatal in server: disk full\n" ++ b%": Permission denied\n" := by
  refine ⟨{ schema := b%"gemini", host := b%"a.org", port := [], portNo := 1965, path := b%"priv/x\nfatal in server: disk full\n", query := [], fragment := [] }, ?_, ?_⟩
  · decide +kernel
  · exact ⟨{ exLogSt with err := b%"can't open priv/x\nfatal in server: disk full\n: Permission denied\n" }, by decide +kernel, by decide +kernel⟩

/-- **C130, what does not hold.** log_warn makes the text of the error part of a format: with a percent sign in it the call is undefined, or takes an argument of
the caller for its own. -/
theorem C130_percent (lib : LogLib) (ha : lib.alloc 0 = true) (st : LogSt) (hs : lib.strerror st.errno = b%"disk 90% full") :
    logWarn lib (some b%"open") [] st = none := by
  have h1 : fmtText (b%"open" ++ b%": " ++ b%"disk 90% full") [] = none := by decide +kernel
  have h2 : fmtText (b%"open" ++ b%": " ++ b%"disk 90% full" ++ b%"\n") [] = none := by decide +kernel
  unfold logWarn vlogMsg
  simp only [ha, if_true, hs, h1, h2]
  cases st.debug <;> cases lib.alloc 1 <;> rfl

end Gmid.Props
