import Verif.Props.Body
import Verif.Model.Dirs

/-! # C52: directory listings -/

set_option autoImplicit false

namespace Gmid.Props
open Spec

/-- what qsort(3) with alphasort(3) does in the C collation order (gmid only sets LC_CTYPE): the
same entries, in ascending order of their names -/
def Sorts (sort : List Dirent → List Dirent) : Prop :=
  ∀ l, (sort l).Perm l ∧ (sort l).Pairwise (fun a b => strcmp a.name b.name ≠ .gt)

/-- the entries a listing shows: all but ".", and but ".." in the listing of the root -/
def Shown (root : Bool) (d : Dirent) : Bool := d.name != b%"." && !(root && d.name == b%"..")

/-- one link line: the target is relative, and is the escaped name -/
def linkLine (d : Dirent) : Bytes := b%"=> ./" ++ encName d.name ++ (if d.isDir then b%"/" else []) ++ b%"\n"

/-- what a file system guarantees of a directory: names are at most 255 bytes long (NAME_MAX), have
no NUL and no slash, and are distinct -/
structure DirOk (entries : List Dirent) : Prop where
  short : ∀ d ∈ entries, d.name.length ≤ 255
  nonul : ∀ d ∈ entries, (0 : UInt8) ∉ d.name
  noslash : ∀ d ∈ entries, c%'/' ∉ d.name
  distinct : (entries.map (·.name)).Nodup

theorem strcmp_bne (a b : Bytes) : (strcmp a b != .eq) = (a != b) := by
  have := strcmp_eq_iff a b
  by_cases h : a = b
  · rw [this.2 h, h]; simp
  · have h' : strcmp a b ≠ .eq := fun k => h (this.1 k)
    rw [bne_iff_ne.2 h', bne_iff_ne.2 h]

theorem selectNonDot_eq (d : Dirent) : selectNonDot d = Shown false d := by
  unfold selectNonDot Shown
  rw [strcmp_bne]; simp

theorem selectNonDotdot_eq (d : Dirent) : selectNonDotdot d = Shown true d := by
  unfold selectNonDotdot Shown
  rw [strcmp_bne, strcmp_bne]; simp [bne]

theorem scandirLoop_spec (alloc : Nat → Bool) (sel : Dirent → Bool) (entries names : List Dirent) (n : Nat)
    (hn : names.length ≤ n) (h0 : 0 < n) :
    scandirLoop alloc sel entries names n ≠ .ub ∧
    ∀ r, scandirLoop alloc sel entries names n = .ok r → r = names ++ entries.filter sel := by
  induction entries generalizing names n with
  | nil => simp [scandirLoop]
  | cons d r ih =>
    unfold scandirLoop
    cases hs : sel d with
    | false => simpa [hs] using ih names n hn h0
    | true =>
      simp only [Bool.not_true, Bool.false_eq_true, if_false]
      split
      · split
        · simp
        · split
          · simp
          · rw [if_pos (by omega)]
            simpa [hs] using ih (names ++ [d]) (n * 2) (by simp; omega) (by omega)
      · simpa [hs] using ih (names ++ [d]) n (by simp; omega) h0

/-- C52: reading a directory never leaves the array, and when it succeeds the result is exactly the
entries to show, each as often as it is in the directory, in ascending order. -/
theorem C52_scandir (alloc : Nat → Bool) (sort : List Dirent → List Dirent) (hs : Sorts sort) (size : Nat)
    (entries : List Dirent) (root : Bool) :
    scandirFd alloc sort size entries (if root then selectNonDotdot else selectNonDot) ≠ .ub ∧
    ∀ l, scandirFd alloc sort size entries (if root then selectNonDotdot else selectNonDot) = .ok l →
      l.Perm (entries.filter (Shown root)) ∧ l.Pairwise (fun a b => strcmp a.name b.name ≠ .gt) := by
  have hsel : (if root then selectNonDotdot else selectNonDot) = Shown root := by
    cases root with
    | false => funext d; exact selectNonDot_eq d
    | true => funext d; exact selectNonDotdot_eq d
  rw [hsel]
  unfold scandirFd
  simp only
  split
  · simp
  · split
    · simp
    · obtain ⟨h1, h2⟩ := scandirLoop_spec alloc (Shown root) entries [] (max (size / 24) 16) (by simp) (by omega)
      split
      · rename_i names hl
        have := h2 names hl
        simp only [List.nil_append] at this
        refine ⟨by simp, fun l h => ?_⟩
        simp only [Res.ok.injEq] at h
        subst h
        split
        · rename_i h; rw [← this, h]; simp
        · rw [← this]; exact hs names
      · simp
      · rename_i hl; exact absurd hl h1

/-- C52: when memory is available the listing succeeds. -/
theorem C52_scandir_succeeds (sort : List Dirent → List Dirent) (size : Nat) (entries : List Dirent) (sel : Dirent → Bool)
    (h1 : size < 2 ^ 61) (h2 : entries.length < 2 ^ 59) :
    ∃ l, scandirFd (fun _ => true) sort size entries sel = .ok l := by
  have loop : ∀ (es names : List Dirent) (n : Nat), names.length + es.length < 2 ^ 59 → 16 ≤ n → names.length ≤ n →
      ∃ l, scandirLoop (fun _ => true) sel es names n = .ok l := by
    intro es
    induction es with
    | nil => intro names n _ _ _; exact ⟨names, rfl⟩
    | cons d r ih =>
      intro names n hl hn hle
      unfold scandirLoop
      simp only [List.length_cons] at hl
      split
      · exact ih names n (by omega) hn hle
      · split
        · rw [if_neg (by omega), if_neg (by simp), if_pos (by omega)]
          exact ih _ _ (by simp; omega) (by omega) (by simp; omega)
        · exact ih _ _ (by simp; omega) hn (by simp; omega)
  unfold scandirFd
  simp only
  rw [if_neg (by omega), if_neg (by simp)]
  obtain ⟨l, hl⟩ := loop entries [] (max (size / 24) 16) (by simpa using h2) (by omega) (by simp)
  rw [hl]
  exact ⟨_, rfl⟩

theorem encName_len (p : Bytes) : (encName p).length ≤ 3 * p.length := by
  induction p with
  | nil => simp [encName]
  | cons c r ih =>
    rw [show encName (c :: r) = encByte c ++ encName r from rfl]
    have : (encByte c).length ≤ 3 := by unfold encByte; split <;> simp
    simp only [List.length_append, List.length_cons]
    omega

theorem dirLines_eq (l : List Dirent) (h : ∀ d ∈ l, d.name.length ≤ 255) :
    dirLines l = .ok (l.flatMap linkLine) := by
  induction l with
  | nil => rfl
  | cons d r ih =>
    obtain ⟨pre, rest, h1, h2, h3⟩ := dirLine_ok d
    have hr := h3 (by have := encName_len d.name; have := h d (by simp); omega)
    rw [hr, List.append_nil] at h2
    rw [← h2] at h1
    simp only [dirLines, h1, ih (fun x hx => h x (by simp [hx]))]
    rfl

/-- C52: a link line is one line, and its target decodes to the name of the entry and to nothing
else. -/
theorem C52_link (d : Dirent) (h0 : (0 : UInt8) ∉ d.name) :
    (∀ x ∈ encName d.name, x ≠ c%'\n' ∧ x ≠ c%'\r' ∧ x ≠ c%' ' ∧ x ≠ c%'?' ∧ x ≠ c%'#') ∧
    Decodes PathChar (encName d.name) d.name ∧ ∀ n, Decodes PathChar (encName d.name) n → n = d.name := by
  obtain ⟨h1, h2, h3⟩ := C08_invertible d.name h0
  refine ⟨fun x hx => ?_, h2, h3⟩
  have key : ∀ x : UInt8, PathChar x ∨ x = c%'%' → x ≠ c%'\n' ∧ x ≠ c%'\r' ∧ x ≠ c%' ' ∧ x ≠ c%'?' ∧ x ≠ c%'#' := by
    decide +kernel
  exact key x (h1 x hx)

/-! ### what is delivered -/

/-- an event in which nothing fails -/
def Smooth : Env × Ev → Prop
  | (_, .failed _) => False
  | _ => True

/-- the number of events in which the connection accepts at least one byte -/
def accepts : List (Env × Ev) → Nat
  | [] => 0
  | (_, .writable (_ + 1) _) :: r => accepts r + 1
  | _ :: r => accepts r

inductive Listing (d : List Dirent) (all : Bytes) : Client → Prop where
  | dir (c : Client) : c.closed = false → c.type = .dir → c.dir = d → c.code ≠ 0 →
      c.sent ++ c.out ++ d.flatMap linkLine = all → Listing d all c
  | done (c : Client) : c.closed = false → c.type = .done → c.code ≠ 0 → c.sent ++ c.out = all → Listing d all c
  | closed (c : Client) : c.closed = true → c.sent = all → c.out = [] → Listing d all c

def listMeasure (d : List Dirent) (c : Client) : Nat :=
  if c.closed then 0
  else c.out.length + 1 + (if c.type = .dir then (d.flatMap linkLine).length + 1 else 0)

theorem listing_step (env : Env) (bufsiz : Nat) (d : List Dirent) (hd : ∀ x ∈ d, x.name.length ≤ 255) (all : Bytes)
    (ev : Ev) (hev : Smooth (env, ev)) (c : Client) (h : Listing d all c) :
    ∃ c', step env bufsiz ev c = .ok c' ∧ Listing d all c' ∧ listMeasure d c' ≤ listMeasure d c ∧
      (∀ n rd, ev = .writable (n + 1) rd → 0 < listMeasure d c → listMeasure d c' < listMeasure d c) := by
  cases h with
  | closed h1 h2 h3 =>
    refine ⟨c, by simp [step, h1], .closed c h1 h2 h3, by simp, ?_⟩
    simp [listMeasure, h1]
  | done h1 h2 h3 h4 =>
    cases ev with
    | failed k => exact absurd hev (by simp [Smooth])
    | read data =>
      refine ⟨{ c with inp := c.inp ++ data }, by simp [step, h1, clientRead, h2],
        .done _ h1 h2 h3 h4, by simp [listMeasure], by simp⟩
    | writable n rd =>
      by_cases hn : c.out.length ≤ n
      · have hd : c.out.drop n = [] := by simpa using hn
        have ht : c.out.take n = c.out := List.take_of_length_le hn
        refine ⟨clientClose { c with sent := c.sent ++ c.out, out := [] }, ?_,
          .closed _ rfl h4 rfl, by simp [listMeasure, clientClose], ?_⟩
        · simp [step, h1, h2, hd, ht, clientWrite]
        · intro m _ _ hm; simpa [listMeasure, clientClose] using hm
      · have hd : c.out.drop n ≠ [] := by simp; omega
        refine ⟨{ c with sent := c.sent ++ c.out.take n, out := c.out.drop n }, ?_,
          .done _ h1 h2 h3 (by simp [h4]), ?_, ?_⟩
        · have : ¬ c.out.length ≤ n := hn
          simp [step, h1, this]
        · simp [listMeasure, h1, h2] <;> omega
        · intro m rd' hm _; cases hm; simp [listMeasure, h1, h2]; omega
  | dir h1 h2 hdir h3 h4 =>
    cases ev with
    | failed k => exact absurd hev (by simp [Smooth])
    | read data =>
      refine ⟨{ c with inp := c.inp ++ data }, by simp [step, h1, clientRead, h2],
        .dir _ h1 h2 hdir h3 h4, by simp [listMeasure], by simp⟩
    | writable n rd =>
      by_cases hn : c.out.length ≤ n
      · have hdr : c.out.drop n = [] := by simpa using hn
        have ht : c.out.take n = c.out := List.take_of_length_le hn
        refine ⟨{ c with sent := c.sent ++ c.out, out := d.flatMap linkLine, dir := [], type := .done }, ?_,
          .done _ h1 rfl h3 h4, ?_, ?_⟩
        · simp only [step, h1, hdr, ht, clientWrite, h2, hdir, dirLines_eq d hd]
          simp
        · simp [listMeasure, h1, h2] <;> omega
        · intro m _ _ hm; simp [listMeasure, h1, h2] <;> omega
      · have hd : c.out.drop n ≠ [] := by simp; omega
        refine ⟨{ c with sent := c.sent ++ c.out.take n, out := c.out.drop n }, ?_,
          .dir _ h1 h2 hdir h3 ?_, ?_, ?_⟩
        · have : ¬ c.out.length ≤ n := hn
          simp [step, h1, this]
        · rw [List.append_assoc c.sent, List.take_append_drop]; exact h4
        · simp [listMeasure, h1, h2] <;> omega
        · intro m rd' hm _; cases hm; simp [listMeasure, h1, h2]; omega

theorem listing_run (bufsiz : Nat) (d : List Dirent) (hd : ∀ x ∈ d, x.name.length ≤ 255) (all : Bytes)
    (evs : List (Env × Ev)) (hev : ∀ e ∈ evs, Smooth e) (c : Client) (h : Listing d all c) :
    ∃ c', runEvents bufsiz evs c = .ok c' ∧ Listing d all c' ∧ listMeasure d c' ≤ listMeasure d c - accepts evs := by
  induction evs generalizing c with
  | nil => exact ⟨c, rfl, h, by simp [accepts]⟩
  | cons p r ih =>
    obtain ⟨env, ev⟩ := p
    obtain ⟨s1, k1, k2, k3, k4⟩ := listing_step env bufsiz d hd all ev (hev _ (by simp)) c h
    obtain ⟨s2, j1, j2, j3⟩ := ih (fun e he => hev e (by simp [he])) s1 k2
    refine ⟨s2, by simp only [runEvents, k1, j1], j2, ?_⟩
    cases ev with
    | failed k => exact absurd (hev _ (List.mem_cons_self ..)) (by simp [Smooth])
    | read d => simp only [accepts]; omega
    | writable n rd =>
      cases n with
      | zero => simp only [accepts]; omega
      | succ n =>
        simp only [accepts]
        have := k4 n rd rfl
        omega

/-- C52: whatever else happens on the connection meanwhile, the bytes sent are a prefix of what was
queued followed by one link line per entry; they are all of it when the connection is closed; and it
is closed after finitely many events in which at least a byte is accepted. -/
theorem C52_listing_delivered (bufsiz : Nat) (d : List Dirent) (hd : ∀ x ∈ d, x.name.length ≤ 255) (c : Client)
    (h1 : c.type = .dir) (h2 : c.dir = d) (h3 : c.code ≠ 0) (h4 : c.closed = false) (h5 : c.sent = [])
    (evs : List (Env × Ev)) (hev : ∀ e ∈ evs, Smooth e) :
    ∃ c', runEvents bufsiz evs c = .ok c' ∧
      (∃ tail, c'.sent ++ tail = c.out ++ d.flatMap linkLine) ∧
      (c'.closed = true → c'.sent = c.out ++ d.flatMap linkLine) ∧
      (c.out.length + (d.flatMap linkLine).length + 2 ≤ accepts evs → c'.closed = true) := by
  obtain ⟨c', k1, k2, k3⟩ := listing_run bufsiz d hd (c.out ++ d.flatMap linkLine) evs hev c
    (.dir c h4 h1 h2 h3 (by rw [h5]; rfl))
  refine ⟨c', k1, ?_, ?_, ?_⟩
  · cases k2 with
    | dir _ _ _ _ h => exact ⟨c'.out ++ d.flatMap linkLine, by rw [← h]; simp⟩
    | done _ _ _ h => exact ⟨c'.out, h⟩
    | closed _ h _ => exact ⟨[], by simpa using h⟩
  · intro hc
    cases k2 with
    | dir h _ _ _ _ => rw [hc] at h; cases h
    | done h _ _ _ => rw [hc] at h; cases h
    | closed _ h _ => exact h
  · intro hp
    cases hc : c'.closed with
    | true => rfl
    | false =>
      simp only [listMeasure, hc, h4, h1] at k3
      simp only [Bool.false_eq_true, if_false, if_true] at k3
      split at k3 <;> omega

section
variable {env : Env} {c : Client} {v : Vhost} {name req rest : Bytes} {i : Iri} {decoded : Bytes}

theorem intDec_20 : intDec 20 = b%"20" := by decide +kernel

/-- C52: a request the file handler gets for a directory with `auto index on`, in which the index file
cannot be opened, leads to that state: the success header and the title are queued, and the entries
to list are those of the directory. -/
theorem C52_listing_started (h : WellFormed env c v name req rest i decoded) (hsent : c.sent = [])
    (hn : NoRelay env.fnm v i.schema name i.port) (hu : ForUs i name decoded) (hc : CertOk env v i.path)
    (hb : NoBlock env.fnm v i.path) (hf : NoFcgi env.fnm v i.path)
    (root : Int) (nm : Bytes) (hroot : RootIs env.fnm v i.path root)
    (hnm : NameFor (vhostStrip env.fnm (some v) (some i.path)) i.path nm)
    (fd : Int) (ho : env.openat root nm = some fd) (hdir : env.fstat fd = some .dir)
    (hslash : i.path = [] ∨ i.path.getLast? = some c%'/')
    (hindex : env.openat fd (vhostIndex env.fnm (some v) (some i.path)) = none)
    (hauto : (∃ l, FirstSet env.fnm (·.autoIndex ≠ 0) v.locs i.path l ∧ l.autoIndex = 1) ∨
      (NoneSet env.fnm (·.autoIndex ≠ 0) v.locs i.path ∧ v.dflt.autoIndex = 1))
    (hlang : ∀ l, vhostLang env.fnm (some v) (some i.path) = some l → l.length ≤ 31)
    (entries d : List Dirent) (alloc : Nat → Bool) (sort : List Dirent → List Dirent) (size : Nat) (hs : Sorts sort)
    (hscan : env.scandir fd (i.path = []) = some d)
    (hd : scandirFd alloc sort size entries (if i.path = [] then selectNonDotdot else selectNonDot) = .ok d) :
    ∃ c' lang, clientRead env c = .ok c' ∧ c'.type = .dir ∧ c'.dir = d ∧ c'.code = 20 ∧ c'.closed = false ∧ c'.sent = [] ∧
      (lang = [] ∨ ∃ l, vhostLang env.fnm (some v) (some i.path) = some l ∧ lang = b%";lang=" ++ l) ∧
      c'.out = b%"20 text/gemini" ++ lang ++ b%"\r\n" ++ b%"# Index of /" ++ i.path ++ b%"\n\n" ∧
      d.Perm (entries.filter (Shown (i.path = []))) ∧ d.Pairwise (fun a b => strcmp a.name b.name ≠ .gt) := by
  have hh : (parsed c rest i).host = some v := h.requested.host
  have hconf := C01_path_confined _ _ _ h.parses
  have hnm' : openName (vhostStrip env.fnm (some v) (some i.path)) i.path = nm := by
    have := (openName_spec (vhostStrip env.fnm (some v) (some i.path)) i.path hconf.1 hconf.2).2
    by_cases hp : vhostStrip env.fnm (some v) (some i.path) ≤ 0
    · rw [this.1 hp, hnm.1 hp]
    · rw [this.2 (by omega), hnm.2 (by omega)]
  have hroot' : (vhostDirfd env.fnm (some v) (some i.path)).1 = root := (rootIs_eq _ _ _ _).1 hroot
  have hslash1 : i.path ≠ b%"/" := by
    intro hp
    exact hconf.1.1 (by rw [hp]; rfl)
  have hauto' : vhostAutoIndex env.fnm (some v) (some i.path) = true := by
    rcases hauto with ⟨l, h1, h2⟩ | ⟨h1, h2⟩
    · exact ((C15_auto_index env.fnm v i.path).1 l h1).2 h2
    · exact ((C15_auto_index env.fnm v i.path).2 h1).2 h2
  have hsd := C52_scandir alloc sort hs size entries (decide (i.path = []))
  have hsel : (if i.path = [] then selectNonDotdot else selectNonDot) =
      (if decide (i.path = []) = true then selectNonDotdot else selectNonDot) := by
    by_cases hp : i.path = [] <;> simp [hp]
  rw [hsel] at hd
  have hperm := hsd.2 d hd
  rw [dispatch_file h hn hu hc hb hf]
  unfold serveFile
  simp only [hh, hnm', hroot', ho, hdir]
  unfold openDir
  simp only
  rw [if_neg (by
    rcases hslash with k | k
    · simp [k]
    · simp [(endsWith_slash _).2 k])]
  simp only [hindex]
  unfold dirListing
  simp only [hauto', Bool.not_true, Bool.false_eq_true, if_false]
  have hroot2 : (decide (i.path = b%"/") || decide (i.path = [])) = decide (i.path = []) := by
    simp [hslash1]
  rw [hroot2, hscan]
  have key : ∀ cc : Client, cc.type = .dir → cc.host = some v → cc.iri = some i → cc.out = [] → cc.sent = [] →
      cc.closed = false → cc.dir = d →
      ∃ c' lang, (Res.ok { startReply env cc 20 b%"text/gemini" with
          out := (startReply env cc 20 b%"text/gemini").out ++ (b%"# Index of /" ++ i.path ++ b%"\n\n") } : Res Client) = .ok c' ∧
        c'.type = .dir ∧ c'.dir = d ∧ c'.code = 20 ∧ c'.closed = false ∧ c'.sent = [] ∧
        (lang = [] ∨ ∃ l, vhostLang env.fnm (some v) (some i.path) = some l ∧ lang = b%";lang=" ++ l) ∧
        c'.out = b%"20 text/gemini" ++ lang ++ b%"\r\n" ++ b%"# Index of /" ++ i.path ++ b%"\n\n" ∧
        d.Perm (entries.filter (Shown (i.path = []))) ∧ d.Pairwise (fun a b => strcmp a.name b.name ≠ .gt) := by
    intro cc t1 t2 t3 t4 t5 t6 t7
    rcases startReply_cases env cc 20 b%"text/gemini" with ⟨hdr, e, hlen, hx⟩ | ⟨e, hx⟩
    · have hr := queueHeader_replied env cc 20 b%"text/gemini" hdr
      have hl : ∃ lang, hdr = b%"20 text/gemini" ++ lang ∧
          (lang = [] ∨ ∃ l, vhostLang env.fnm (some v) (some i.path) = some l ∧ lang = b%";lang=" ++ l) := by
        rcases hx with hx | ⟨l, -, -, -, hl, hx⟩
        · exact ⟨[], by rw [hx, intDec_20]; rfl, .inl rfl⟩
        · refine ⟨b%";lang=" ++ l, by rw [hx, intDec_20]; simp, .inr ⟨l, ?_, rfl⟩⟩
          rw [← hl, t2]; simp [Client.path?, t3]
      obtain ⟨lang, hl1, hl2⟩ := hl
      refine ⟨_, lang, rfl, ?_, ?_, ?_, ?_, ?_, hl2, ?_, hperm⟩
      · simp only [e, hr.type, t1]; rfl
      · simp only [e, queueHeader, t7]
      · simp only [e, hr.rcode]
      · simp only [e, hr.closed, t6]
      · simp only [e, hr.sent, t5]
      · simp only [e, queueHeader, t4, hl1]; simp
    · exfalso
      rcases hx with hx | ⟨l, -, hl, hx⟩
      · rw [intDec_20] at hx; simp at hx
      · have := hlang l (by rw [← hl, t2]; simp [Client.path?, t3])
        rw [intDec_20] at hx; simp at hx; omega
  exact key _ (by rfl) (by rfl) (by rfl) (by exact h.requested.out) (by exact hsent) (by exact h.requested.isOpen) (by rfl)

end

/-! ### examples -/

theorem strcmp_trans (a b c : Bytes) (h1 : strcmp a b ≠ .gt) (h2 : strcmp b c ≠ .gt) : strcmp a c ≠ .gt := by
  induction a generalizing b c with
  | nil => cases c <;> simp [strcmp]
  | cons x a ih =>
    cases b with
    | nil => simp [strcmp] at h1
    | cons y b =>
      cases c with
      | nil => simp [strcmp] at h2
      | cons z c =>
        simp only [strcmp] at h1 h2 ⊢
        by_cases hxy : x = y
        · subst hxy
          simp only [if_true] at h1
          by_cases hxz : x = z
          · subst hxz
            simp only [if_true] at h2 ⊢
            exact ih b c h1 h2
          · simpa [hxz] using h2
        · simp only [hxy, if_false] at h1
          have hlt : x < y := by
            by_cases k : x < y
            · exact k
            · simp [k] at h1
          by_cases hyz : y = z
          · subst hyz
            simp [hxy, hlt]
          · simp only [hyz, if_false] at h2
            have hlt2 : y < z := by
              by_cases k : y < z
              · exact k
              · simp [k] at h2
            have : x < z := UInt8.lt_trans hlt hlt2
            have hne : x ≠ z := by rintro rfl; exact UInt8.lt_irrefl _ this
            simp [hne, this]

def nameLe (a b : Dirent) : Bool := strcmp a.name b.name != .gt

/-- there is such a sort -/
example : Sorts (fun l => l.mergeSort nameLe) := by
  intro l
  refine ⟨List.mergeSort_perm l nameLe, ?_⟩
  have := List.pairwise_mergeSort (le := nameLe)
    (by
      intro a b c h1 h2
      simp only [nameLe, bne_iff_ne] at h1 h2 ⊢
      exact strcmp_trans _ _ _ h1 h2)
    (by
      intro a b
      simp only [nameLe, Bool.or_eq_true, bne_iff_ne]
      by_cases h : strcmp a.name b.name = .gt
      · right; rw [(strcmp_swap b.name a.name).2 h]; simp
      · left; exact h) l
  exact this.imp (by intro a b h; simpa [nameLe] using h)

/-- a directory is listed: "d/" with the file "a b" and the directories "." and "..", served in two
pieces; the entries come from the model of scandir_fd. -/
example :
    let dir : List Dirent := [⟨b%"..", true⟩, ⟨b%"a b", false⟩, ⟨b%".", true⟩]
    scandirFd (fun _ => true) (fun l => l) 0 dir selectNonDot = .ok [⟨b%"..", true⟩, ⟨b%"a b", false⟩] ∧
    (let env : Env := { exEnv2 with
        openat := fun fd n => if fd = 3 ∧ n = b%"d/" then some 10 else none,
        scandir := fun fd root => if fd = 10 ∧ root = false then some [⟨b%"..", true⟩, ⟨b%"a b", false⟩] else none }
     (runEvents 4 [(env, .read b%"gemini://h/d/\r\n"), (env, .writable 5 none), (env, .writable 100 none),
        (env, .writable 100 none)]
        { host := some { exHost2 with dflt := { dirfd := 3, autoIndex := 1, lang := b%"it" } }, domain := b%"h" }).val?.map
        (fun c => (c.sent, c.closed))) =
      some (b%"20 text/gemini;lang=it\r\n# Index of /d/\n\n=> ./../\n=> ./a%20b\n", true) := by
  decide +kernel

/-- the title is not escaped: a directory whose name has a newline puts a line of its choosing in
the listing -/
theorem C52_title_unescaped :
    (let env : Env := { exEnv2 with
        openat := fun fd n => if fd = 3 ∧ n = b%"d\n=> x/" then some 10 else none,
        scandir := fun _ _ => some [] }
     (runEvents 4 [(env, .read b%"gemini://h/d%0A=%3E%20x/\r\n")]
        { host := some { exHost2 with dflt := { dirfd := 3, autoIndex := 1 } }, domain := b%"h" }).val?.map (·.out)) =
      some b%"20 text/gemini\r\n# Index of /d\n=> x/\n\n" := by
  decide +kernel

end Gmid.Props
