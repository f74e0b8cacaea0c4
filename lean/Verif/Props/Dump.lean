import Verif.Spec.Dump
import Verif.Spec.Pki
import Verif.Model.Dump
import Verif.Props.Text
import Verif.Props.Actions
import Verif.Props.Pki

/-!
# C128: gmid -n and the dump of the configuration
-/

set_option autoImplicit false

namespace Gmid.Props
open Gmid.Spec

/-! ## The text of the dump -/

theorem verbatim_between {s : Bytes} (h : Verbatim s) : InQuotes c%'"' s s := by
  obtain ⟨h, hl⟩ := h
  clear hl
  induction s with
  | nil => exact .nil
  | cons c r ih =>
    have hc := h c (by simp)
    exact .char c r r hc.1 hc.2.1 hc.2.2 (ih fun d hd => h d (by simp [hd]))

theorem text_newline {rest : Bytes} {ts : List Tok} (h : Text rest ts) : Text (c%'\n' :: rest) (.chr c%'\n' :: ts) :=
  .tok [] [c%'\n'] rest _ _ (by simp [Blank]) (.symbol _ _ (by decide)) h

theorem text_quoted {s rest : Bytes} {ts : List Tok} (hs : Verbatim s) (h : Text rest ts) :
    Text (c%' ' :: c%'"' :: s ++ c%'"' :: rest) (.str s :: ts) := by
  have := Text.tok [c%' '] (c%'"' :: s ++ [c%'"']) rest _ ts (by simp [Blank]) (.quoted c%'"' s s _ (.inr rfl) (verbatim_between hs) hs.2) h
  simpa using this

theorem text_kw (bs w : Bytes) {t rest : Bytes} {ts : List Tok} (hb : Blank bs) (hk : (w, t) ∈ keywords) (hr : EndsWord (rest.headD c%'\n')) (h : Text rest ts) :
    Text (bs ++ w ++ rest) (.kw t :: ts) := .tok bs w rest _ ts hb (.keyword w t _ hk hr) h

/-- a line with a keyword and a string -/
theorem text_line (bs w : Bytes) {t s rest : Bytes} {ts : List Tok} (hb : Blank bs) (hk : (w, t) ∈ keywords) (hs : Verbatim s) (h : Text rest ts) :
    Text (bs ++ w ++ (c%' ' :: c%'"' :: s ++ c%'"' :: c%'\n' :: rest)) (.kw t :: .str s :: .chr c%'\n' :: ts) :=
  text_kw bs w hb hk (by show EndsWord c%' '; decide) (text_quoted hs (text_newline h))

theorem decValue_snoc (a : Bytes) (c : UInt8) : decValue (a ++ [c]) = decValue a * 10 + (c.toNat - 48) := by
  induction a with
  | nil => simp [decValue]
  | cons d a ih =>
    simp only [List.cons_append, decValue, ih, List.length_append, List.length_cons, List.length_nil, Nat.pow_succ]
    rw [Nat.add_mul]
    have : (d.toNat - 48) * (10 ^ a.length * 10) = (d.toNat - 48) * 10 ^ a.length * 10 := by rw [Nat.mul_assoc]
    omega

theorem decValue_natDec (n : Nat) : decValue (natDec n) = n := by
  induction n using Nat.strongRecOn with
  | _ n ih =>
    by_cases h : n < 10
    · rw [natDec_small n h]
      have hb : (UInt8.ofNat (48 + n)).toNat = 48 + n := by rw [UInt8.toNat_ofNat']; exact Nat.mod_eq_of_lt (by omega)
      simp only [decValue, hb, List.length_nil]
      omega
    · rw [natDec_step n (by omega), decValue_snoc, ih (n / 10) (by omega)]
      have hb : (UInt8.ofNat (48 + n % 10)).toNat = 48 + n % 10 := by rw [UInt8.toNat_ofNat']; exact Nat.mod_eq_of_lt (by omega)
      rw [hb]
      omega

theorem natDec_short (n : Nat) : (natDec n).length ≤ n + 1 := by
  induction n using Nat.strongRecOn with
  | _ n ih =>
    by_cases h : n < 10
    · rw [natDec_small n h]; simp
    · rw [natDec_step n (by omega)]
      have := ih (n / 10) (by omega)
      simp
      omega

theorem natDec_digit (n : Nat) : ∀ c ∈ natDec n, Digit c := by
  induction n using Nat.strongRecOn with
  | _ n ih =>
    have hd : ∀ k, k < 10 → Digit (UInt8.ofNat (48 + k)) := by
      intro k hk
      have hb : (UInt8.ofNat (48 + k)).toNat = 48 + k := by rw [UInt8.toNat_ofNat']; exact Nat.mod_eq_of_lt (by omega)
      have h48 : (48 : UInt8).toNat = 48 := rfl
      have h57 : (57 : UInt8).toNat = 57 := rfl
      constructor
      · rw [UInt8.le_iff_toNat_le, hb, h48]; omega
      · rw [UInt8.le_iff_toNat_le, hb, h57]; omega
    by_cases h : n < 10
    · rw [natDec_small n h]; intro c hc; rw [List.mem_singleton] at hc; subst hc; exact hd n h
    · rw [natDec_step n (by omega)]
      intro c hc
      rcases List.mem_append.1 hc with hc | hc
      · exact ih (n / 10) (by omega) c hc
      · rw [List.mem_singleton] at hc; subst hc; exact hd _ (by omega)

theorem natDec_ne (n : Nat) : natDec n ≠ [] := by
  by_cases h : n < 10
  · rw [natDec_small n h]; simp
  · rw [natDec_step n (by omega)]; simp

theorem text_prefork {n : Int} (h0 : 0 ≤ n) (hn : n ≤ 8000) {rest : Bytes} {ts : List Tok} (h : Text rest ts) :
    Text (b%"prefork " ++ intDec n ++ c%'\n' :: rest) (.kw b%"PREFORK" :: .num n :: .chr c%'\n' :: ts) := by
  obtain ⟨k, rfl⟩ : ∃ k : Nat, n = k := ⟨n.toNat, by omega⟩
  have e : intDec (k : Int) = natDec k := by
    unfold intDec
    rw [if_neg (by omega)]
    rfl
  rw [e]
  have hl := natDec_short k
  have w : Written (natDec k) (.num k) c%'\n' := by
    have := Written.number (natDec k) c%'\n' (natDec_ne k) (fun c hc => natDec_digit k c hc) (by omega) (by rw [decValue_natDec]; omega) (by decide)
    rw [decValue_natDec] at this
    exact this
  have h1 : Text (b%" " ++ natDec k ++ (c%'\n' :: rest)) (.num k :: .chr c%'\n' :: ts) :=
    .tok b%" " (natDec k) (c%'\n' :: rest) _ _ (by simp [Blank]) w (text_newline h)
  have := text_kw [] b%"prefork" (t := b%"PREFORK") (by simp [Blank]) (by decide +kernel) (by show EndsWord c%' '; decide) h1
  simpa using this

/-- the tokens of a server of the dump, with the newline in front of it -/
def hostToks (h : CHost) : Toks :=
  [.chr c%'\n', .kw b%"SERVER", .str h.domain, .chr c%'{', .chr c%'\n', .kw b%"CERT", .str (h.certPath.getD []), .chr c%'\n', .kw b%"KEY",
    .str (h.keyPath.getD []), .chr c%'\n', .chr c%'}', .chr c%'\n']

/-- its directive -/
def hostDir (h : CHost) : Directive := .server h.domain [.cert (h.certPath.getD []), .key (h.keyPath.getD [])]

theorem text_host {h : CHost} (h1 : Verbatim h.domain) (h2 : Verbatim (h.certPath.getD [])) (h3 : Verbatim (h.keyPath.getD [])) {rest : Bytes} {ts : List Tok}
    (ht : Text rest ts) : Text (printHost h ++ rest) (hostToks h ++ ts) := by
  have e1 : Text (c%'}' :: c%'\n' :: rest) (.chr c%'}' :: .chr c%'\n' :: ts) :=
    .tok [] [c%'}'] (c%'\n' :: rest) _ _ (by simp [Blank]) (.symbol _ _ (by decide)) (text_newline ht)
  have e2 := text_line b%"\t" b%"key" (t := b%"KEY") (by simp [Blank]) (by decide +kernel) h3 e1
  have e3 := text_line b%"\t" b%"cert" (t := b%"CERT") (by simp [Blank]) (by decide +kernel) h2 e2
  have e4 := text_newline e3
  have e5 := Text.tok b%" " [c%'{'] _ (.chr c%'{') _ (by simp [Blank]) (.symbol _ _ (by decide)) e4
  have e6 := text_quoted h1 e5
  have e7 := text_kw [] b%"server" (t := b%"SERVER") (by simp [Blank]) (by decide +kernel) (by show EndsWord c%' '; decide) e6
  have e8 := text_newline e7
  simpa [printHost, hostToks] using e8

theorem text_hosts (hs : List CHost) (hv : ∀ h ∈ hs, Verbatim h.domain ∧ Verbatim (h.certPath.getD []) ∧ Verbatim (h.keyPath.getD [])) :
    Text (hs.flatMap printHost) (hs.flatMap hostToks) := by
  induction hs with
  | nil => exact .done [] (by simp [Blank])
  | cons h hs ih =>
    have := hv h (by simp)
    rw [List.flatMap_cons, List.flatMap_cons]
    exact text_host this.1 this.2.1 this.2.2 (ih fun x hx => hv x (by simp [hx]))

/-! ## Its grammar -/

theorem conf_line {ts o : Toks} {is : List Item} {i : Item} (h : GConf ts is) (ho : GItem o i) : GConf (ts ++ o ++ [.chr c%'\n']) (is ++ [i]) :=
  .more ts o _ is i h ho gnl_newline

theorem conf_blank {ts : Toks} {is : List Item} (h : GConf ts is) (hne : is ≠ []) : GConf (ts ++ [.chr c%'\n']) is := by
  cases h with
  | empty => exact absurd rfl hne
  | more ts o n is i h ho hn =>
    have := GConf.more ts o (n ++ [.chr c%'\n']) is i h ho (gnl_snoc hn)
    simpa using this

theorem host_item (h : CHost) : GItem ((hostToks h).tail.dropLast) (.vhost (hostDir h)) := by
  have h1 := GServbody.opt [] [.kw b%"CERT", .str (h.certPath.getD [])] [.chr c%'\n'] [] [.cert (h.certPath.getD [])] .empty
    (.cert _ _ (.one _)) (.nl _ gnl_newline)
  have h2 := GServbody.opt _ [.kw b%"KEY", .str (h.keyPath.getD [])] [.chr c%'\n'] _ [.key (h.keyPath.getD [])] h1
    (.key _ _ (.one _)) (.nl _ gnl_newline)
  have := GItem.vhost _ _ (.mk [.str h.domain] [.chr c%'\n'] _ h.domain _ (.one _) (.nl _ gnl_newline) h2)
  simpa [hostToks, hostDir] using this

theorem conf_hosts (hs : List CHost) : ∀ {ts : Toks} {is : List Item}, GConf ts is → is ≠ [] →
    GConf (ts ++ hs.flatMap hostToks) (is ++ hs.map fun h => .vhost (hostDir h)) := by
  induction hs with
  | nil => intro ts is h _; simpa using h
  | cons h hs ih =>
    intro ts is hc hne
    have h1 := conf_line (conf_blank hc hne) (host_item h)
    have h2 := ih h1 (by simp)
    rw [List.flatMap_cons, List.map_cons]
    have e : hostToks h = .chr c%'\n' :: ((hostToks h).tail.dropLast ++ [.chr c%'\n']) := rfl
    rw [e]
    simpa using h2

/-- the directives of the dump of a configuration -/
def dumpOf (c : CConf) : List Directive :=
  (if c.chroot ≠ [] then [.chroot c.chroot] else []) ++ [.prefork c.prefork] ++ (if c.user ≠ [] then [.user c.user] else []) ++ c.hosts.map hostDir

theorem print_says (c : CConf) (h0 : 0 ≤ c.prefork) (hn : c.prefork ≤ 8000) (hc : Verbatim c.chroot) (hu : Verbatim c.user)
    (hv : ∀ h ∈ c.hosts, Verbatim h.domain ∧ Verbatim (h.certPath.getD []) ∧ Verbatim (h.keyPath.getD [])) : Says (printConf c) (dumpOf c) := by
  have t1 := text_hosts c.hosts hv
  -- the lines before the servers
  have t2 : Text ((if c.user ≠ [] then b%"user \"" ++ c.user ++ b%"\"\n" else []) ++ c.hosts.flatMap printHost)
      ((if c.user ≠ [] then [.kw b%"USER", .str c.user, .chr c%'\n'] else []) ++ c.hosts.flatMap hostToks) := by
    split
    · have := text_line [] b%"user" (t := b%"USER") (by simp [Blank]) (by decide +kernel) hu t1
      simpa using this
    · simpa using t1
  have t3 := text_prefork h0 hn t2
  have t4 : Text (printConf c) ((if c.chroot ≠ [] then [.kw b%"CHROOT", .str c.chroot, .chr c%'\n'] else []) ++
      (.kw b%"PREFORK" :: .num c.prefork :: .chr c%'\n' ::
        ((if c.user ≠ [] then [.kw b%"USER", .str c.user, .chr c%'\n'] else []) ++ c.hosts.flatMap hostToks))) := by
    unfold printConf
    by_cases hx : c.chroot = []
    · simp only [hx, ne_eq, not_true, if_false]
      simpa using t3
    · simp only [hx, ne_eq, not_false_eq_true, if_true]
      have := text_line [] b%"chroot" (t := b%"CHROOT") (by simp [Blank]) (by decide +kernel) hc t3
      simpa using this
  -- and what they are
  have g1 : GConf (if c.chroot ≠ [] then [.kw b%"CHROOT", .str c.chroot, .chr c%'\n'] else [])
      (if c.chroot ≠ [] then [.option [.chroot c.chroot]] else []) := by
    split
    · have := conf_line .empty (.option _ _ (.chroot _ _ (.one c.chroot)))
      simpa using this
    · exact .empty
  have g2 := conf_line g1 (.option _ _ (.prefork c.prefork))
  have g3 : GConf ((if c.chroot ≠ [] then [.kw b%"CHROOT", .str c.chroot, .chr c%'\n'] else []) ++ [.kw b%"PREFORK", .num c.prefork, .chr c%'\n'] ++
      (if c.user ≠ [] then [.kw b%"USER", .str c.user, .chr c%'\n'] else []))
      ((if c.chroot ≠ [] then [.option [.chroot c.chroot]] else []) ++ [.option [.prefork c.prefork]] ++
        (if c.user ≠ [] then [.option [.user c.user]] else [])) := by
    by_cases hx : c.user = []
    · simp only [hx, ne_eq, not_true, if_false]
      simpa using g2
    · simp only [hx, ne_eq, not_false_eq_true, if_true]
      have := conf_line g2 (.option _ _ (.user _ _ (.one c.user)))
      simpa using this
  have g4 := conf_hosts c.hosts g3 (by simp)
  have e : (((if c.chroot ≠ [] then [Item.option [.chroot c.chroot]] else []) ++ [Item.option [.prefork c.prefork]] ++
        (if c.user ≠ [] then [Item.option [.user c.user]] else [])) ++ c.hosts.map fun h => Item.vhost (hostDir h)).flatMap Item.directives = dumpOf c := by
    have hh : ∀ l : List CHost, (l.map fun h => Item.vhost (hostDir h)).flatMap Item.directives = l.map hostDir := by
      intro l
      induction l with
      | nil => rfl
      | cons a l ih => simp only [List.map_cons, List.flatMap_cons, ih]; rfl
    simp only [List.flatMap_append, hh, dumpOf]
    by_cases hx : c.chroot = [] <;> by_cases hy : c.user = [] <;> simp [hx, hy, Item.directives]
  rw [← e]
  exact C104_says _ _ t4 _ (.conf _ _ (by simpa using g4))

/-! ## The dump of a file -/

theorem lastOf_from {α β : Type} {f : α → Option β} {l : List α} {b : β} (h : lastOf f l = some b) : ∃ a ∈ l, f a = some b :=
  List.mem_filterMap.mp (List.mem_of_getLast? h)

theorem started_dump {env : PEnv} (hr : Resolves env) {home : Bytes → Option Bytes} {ds : List Directive} {c : CConf}
    (h : mainStart env home ds = some c) :
    dumpOf c = dumped home ds ∧ c.chroot = chrootDir home ds ∧ c.user = (lastOf userOf ds).getD [] ∧ (0 ≤ c.prefork ∧ c.prefork ≤ 8000) ∧
      c.hosts.map hostDir = (ds.filterMap serverOf).reverse.map fun x =>
        .server x.1 [.cert ((lastOf certOf x.2).getD []), .key ((lastOf keyOf x.2).getD [])] := by
  obtain ⟨p, hp, e, hu⟩ := start_cases h
  have hg := C72_global env hr confNew p fresh_new ds hp
  have hi := parse_inv hr fresh_new hp
  have hok : FileOk env ds := (C69_accepted_partial env hr confNew fresh_new ds p true hp).mp rfl
  have h1 : c.user = (lastOf userOf ds).getD [] := by
    have : c.user = p.user := by rw [← e]
    rw [this, hg.user]; rfl
  have hpc : p.chroot = (lastOf chrootOf ds).getD [] := by rw [hg.chroot]; rfl
  have hpu : p.user = c.user := by rw [← e]
  have h2 : c.prefork = (lastOf preforkOf ds).getD 3 := by
    have : c.prefork = p.prefork := by rw [← e]
    rw [this, hg.prefork]; rfl
  have h3 : c.hosts.map hostDir = (ds.filterMap serverOf).reverse.map fun x =>
        Directive.server x.1 [.cert ((lastOf certOf x.2).getD []), .key ((lastOf keyOf x.2).getD [])] := by
    have e1 : c.hosts = p.hosts := by rw [← e]
    have e2 : c.hosts.map hostDir = (p.hosts.map noAddrs).map hostDir := by
      rw [e1, List.map_map]
      rfl
    rw [e2, hi.hosts, List.map_map]
    rfl
  have h4 : c.chroot = chrootDir home ds := by
    unfold mainStart at h
    rw [hp] at h
    simp only at h
    unfold chrootDir
    rw [← hpc, ← h1, ← hpu]
    by_cases hc : p.chroot = []
    · by_cases hv : p.user = []
      · simp only [hc, hv, ne_eq, not_true, if_false, false_and, if_true, Option.some.injEq] at h ⊢
        rw [← h]; exact hc
      · simp only [hc, hv, ne_eq, not_true, if_false, false_and, not_false_eq_true, if_true] at h ⊢
        cases hh : home p.user with
        | none => rw [hh] at h; cases h
        | some d =>
          rw [hh] at h
          simp only [Option.some.injEq] at h
          rw [← h]; rfl
    · have := hu (.inl hc)
      simp only [hc, ne_eq, not_false_eq_true, if_true]
      rw [this]
  have h5 : 0 ≤ c.prefork ∧ c.prefork ≤ 8000 := by
    rw [h2]
    cases hl : lastOf preforkOf ds with
    | none => simp
    | some n =>
      obtain ⟨d, hd, hf⟩ := lastOf_from hl
      cases d <;> simp [preforkOf] at hf
      subst hf
      have := hok.1 _ hd
      simp only [DirectiveOk] at this
      simp only [Option.getD_some]
      omega
  refine ⟨?_, h4, h1, h5, h3⟩
  unfold dumpOf dumped
  rw [h3, h4, h1, h2]

/-- **C128, in part.** What gmid -nn writes for a file with which it starts is a configuration, and it says: the directory to change root to, the number of processes, the
user, and the name, the certificate and the key of every server; if the strings need no escapes. -/
theorem C128_dump_partial (env : PEnv) (hr : Resolves env) (home : Bytes → Option Bytes) (ds : List Directive) (c : CConf)
    (h : mainStart env home ds = some c) (hv : DumpVerbatim home ds) :
    Says (printConf c) (dumped home ds) ∧ ∀ ds', Says (printConf c) ds' → ds' = dumped home ds := by
  obtain ⟨h1, h2, h3, h4, h5⟩ := started_dump hr h
  obtain ⟨v1, v2, v3⟩ := hv
  have hs : Says (printConf c) (dumped home ds) := by
    rw [← h1]
    refine print_says c h4.1 h4.2 (by rw [h2]; exact v1) (by rw [h3]; exact v2) ?_
    intro x hx
    have : hostDir x ∈ c.hosts.map hostDir := List.mem_map_of_mem hx
    rw [h5, List.mem_map] at this
    obtain ⟨y, hy, e⟩ := this
    have := v3 y (List.mem_reverse.1 hy)
    simp only [hostDir, Directive.server.injEq, List.cons.injEq, SrvOpt.cert.injEq, SrvOpt.key.injEq, and_true] at e
    obtain ⟨e1, e2, e3⟩ := e
    rw [← e1, ← e2, ← e3]
    exact this
  exact ⟨hs, fun ds' h' => C104_one_meaning _ _ _ h' hs⟩

/-- **C128.** gmid -n exits with 0 exactly when the program would start with the file, the certificates and the keys of the servers can be read and match, and
the directories can be opened; it writes the dump exactly then, and only if -n is given more than once. -/
theorem C128_check {X K P : Type} (lib : PkiLib X K P) [DecidableEq P] (hd : Digests lib) (junk : Nat → Bytes) (hj : ∀ n, (junk n).length = n)
    (env : PEnv) (hr : Resolves env) (home files : Bytes → Option Bytes) (dirs : Bytes → Option Int) (n : Nat) (ds : List Directive) :
    ((gmidTest lib env home files junk dirs n ds).1 = 0 ↔
      ∃ c, mainStart env home ds = some c ∧ (∀ h ∈ c.hosts, HostOk lib files h) ∧ RootsOpen dirs c) ∧
    ((gmidTest lib env home files junk dirs n ds).1 = 0 ∨ (gmidTest lib env home files junk dirs n ds).1 = 1) ∧
    (gmidTest lib env home files junk dirs n ds).2 =
      if (gmidTest lib env home files junk dirs n ds).1 = 0 ∧ 2 ≤ n then ((mainStart env home ds).map printConf).getD [] else [] := by
  unfold gmidTest
  cases h : mainStart env home ds with
  | none => simp
  | some c =>
    have hset : ∀ h ∈ c.hosts, h.certPath ≠ none ∧ h.keyPath ≠ none := by
      obtain ⟨p, hp, e, _⟩ := start_cases h
      have e1 : c.hosts = p.hosts := by rw [← e]
      rw [e1]
      intro x hx
      obtain ⟨i, hi⟩ := List.getElem?_of_mem hx
      obtain ⟨k1, k2⟩ := C72_servers env hr confNew p fresh_new ds hp
      have hlt : i < (serversWithPrefix [] ds).reverse.length := by
        rw [List.length_reverse, ← k1]
        exact (List.getElem?_eq_some_iff.1 hi).1
      have := k2 i x _ hi (List.getElem?_eq_getElem hlt)
      exact ⟨this.2.2.1, this.2.2.2.2.1⟩
    have hk := C114_says_ok hd junk hj files dirs c hset
    simp only [Option.some.injEq, exists_eq_left', Option.map_some, Option.getD_some]
    rw [← hk]
    cases ht : configTest lib files junk dirs c with
    | none => simp
    | some b =>
      cases b with
      | false => simp
      | true =>
        simp only [true_or, true_and]
        rfl

/-! ## What the dump does not say -/

/-- **C128, false of the code: the order.** The dump has the servers from the last to the first.  As the last server of a file that is for a name is the one that answers,
a start with the dump puts them in the opposite order. -/
theorem C128_reversed (env : PEnv) (hr : Resolves env) (home home' : Bytes → Option Bytes) (ds : List Directive) (c c' : CConf)
    (h : mainStart env home ds = some c) (h' : mainStart env home' (dumped home ds) = some c') :
    c'.hosts.map (·.domain) = (c.hosts.map (·.domain)).reverse := by
  have key : ∀ {home ds c}, mainStart env home ds = some c → c.hosts.map (·.domain) = ((ds.filterMap serverOf).map (·.1)).reverse := by
    intro home ds c h
    have := (started_dump hr h).2.2.2.2
    have := congrArg (List.map fun d : Directive => match d with | .server n _ => n | _ => []) this
    simp only [List.map_map] at this
    rw [← List.map_reverse]
    exact this
  rw [key h, key h', List.reverse_reverse]
  have : (dumped home ds).filterMap serverOf = (ds.filterMap serverOf).reverse.map fun x =>
      (x.1, [.cert ((lastOf certOf x.2).getD []), .key ((lastOf keyOf x.2).getD [])]) := by
    unfold dumped
    simp only [List.filterMap_append]
    have e : ∀ l : List (Bytes × List SrvOpt), (l.map fun x => Directive.server x.1 [.cert ((lastOf certOf x.2).getD []), .key ((lastOf keyOf x.2).getD [])]).filterMap serverOf =
        l.map fun x => (x.1, [.cert ((lastOf certOf x.2).getD []), .key ((lastOf keyOf x.2).getD [])]) := by
      intro l
      induction l with
      | nil => rfl
      | cons a l ih => simp only [List.map_cons, List.filterMap_cons, serverOf, ih]
    rw [e]
    split <;> split <;> simp [List.filterMap_cons, serverOf]
  rw [this, List.map_map, ← List.map_reverse, List.reverse_reverse]
  rfl

/-! ## Examples and what is lost -/

/-- two servers, the second for every name -/
def exDumpFile : List Directive :=
  [.prefork 2, .user b%"_gmid", .server b%"example.org" [.cert b%"/etc/ssl/a b.pem", .key b%"/etc/ssl/a.key", .opt (.root b%"/var/gemini")],
    .server b%"*" [.cert b%"/etc/ssl/b.pem", .key b%"/etc/ssl/b.key"]]

def exDumpHome : Bytes → Option Bytes := fun u => if u = b%"_gmid" then some b%"/var/gmid" else none

example : (mainStart cfEnv exDumpHome exDumpFile).isSome = true ∧ DumpVerbatim exDumpHome exDumpFile := by
  refine ⟨by decide +kernel, ?_, ?_, ?_⟩
  · exact ⟨by decide +kernel, by decide +kernel⟩
  · exact ⟨by decide +kernel, by decide +kernel⟩
  · have : ∀ x ∈ exDumpFile.filterMap serverOf, ((∀ c ∈ x.1, Quotable c ∧ c ≠ c%'"' ∧ c ≠ c%'\\') ∧ x.1.length ≤ 8094) ∧
      ((∀ c ∈ (lastOf certOf x.2).getD [], Quotable c ∧ c ≠ c%'"' ∧ c ≠ c%'\\') ∧ ((lastOf certOf x.2).getD []).length ≤ 8094) ∧
      ((∀ c ∈ (lastOf keyOf x.2).getD [], Quotable c ∧ c ≠ c%'"' ∧ c ≠ c%'\\') ∧ ((lastOf keyOf x.2).getD []).length ≤ 8094) := by decide +kernel
    exact this

example : (mainStart cfEnv exDumpHome exDumpFile).map printConf = some
    b%"chroot \"/var/gmid\"\nprefork 2\nuser \"_gmid\"\n\nserver \"*\" {\n\tcert \"/etc/ssl/b.pem\"\n\tkey \"/etc/ssl/b.key\"\n}\n\nserver \"example.org\" {\n\tcert \"/etc/ssl/a b.pem\"\n\tkey \"/etc/ssl/a.key\"\n}\n" := by
  decide +kernel

/-- with one -n only the status says something -/
example : gmidTest exLib cfEnv (fun _ => none) (exTFiles 1 1 none) exJunk exDepDir 1 exDepDs = (0, []) ∧
    gmidTest exLib cfEnv (fun _ => none) (exTFiles 1 1 none) exJunk exDepDir 2 exDepDs = (0, b%"prefork 3\n\nserver \"h\" {\n\tcert \"/c\"\n\tkey \"/k\"\n}\n") ∧
    gmidTest exLib cfEnv (fun _ => none) (exTFiles 1 2 none) exJunk exDepDir 2 exDepDs = (1, []) := by decide +kernel

/-- **C128, false of the code.** A start with the dump of a file is not a start with the file: the root directory of a server is not in the dump, and of two servers that are
for a name the other one answers. -/
theorem C128_not_the_same :
    ∃ c c', mainStart cfEnv exDumpHome exDumpFile = some c ∧ mainStart cfEnv exDumpHome (dumped exDumpHome exDumpFile) = some c' ∧
      c.hosts.map (fun h => h.locs.map (·.dir)) = [[[]], [b%"/var/gemini"]] ∧ c'.hosts.map (fun h => h.locs.map (·.dir)) = [[[]], [[]]] ∧
      (findHost exFnm b%"example.org" (c.hosts.map (CHost.toVhost (fun _ => 0) (fun _ => -1)))).map (·.domain) = some b%"*" ∧
      (findHost exFnm b%"example.org" (c'.hosts.map (CHost.toVhost (fun _ => 0) (fun _ => -1)))).map (·.domain) = some b%"example.org" := by
  have h1 : (mainStart cfEnv exDumpHome exDumpFile).isSome = true := by decide +kernel
  have h2 : (mainStart cfEnv exDumpHome (dumped exDumpHome exDumpFile)).isSome = true := by decide +kernel
  obtain ⟨c, h1⟩ := Option.isSome_iff_exists.1 h1
  obtain ⟨c', h2⟩ := Option.isSome_iff_exists.1 h2
  have e1 : c = (mainStart cfEnv exDumpHome exDumpFile).getD confNew := by rw [h1]; rfl
  have e2 : c' = (mainStart cfEnv exDumpHome (dumped exDumpHome exDumpFile)).getD confNew := by rw [h2]; rfl
  refine ⟨c, c', h1, h2, ?_, ?_, ?_, ?_⟩
  · rw [e1]; decide +kernel
  · rw [e2]; decide +kernel
  · rw [e1]; decide +kernel
  · rw [e2]; decide +kernel

/-- **C128, false of the code: quotes.** Quotes are not escaped: the dump of a server whose certificate is in the file `/a" key "/b` is that of a server with two keys. -/
theorem C128_quotes :
    ∃ c, mainStart cfEnv (fun _ => none) [.server b%"x" [.cert b%"/a\" key \"/b", .key b%"/k"]] = some c ∧
      Says (printConf c) [.prefork 3, .server b%"x" [.cert b%"/a", .key b%"/b", .key b%"/k"]] := by
  have h1 : (mainStart cfEnv (fun _ => none) [.server b%"x" [.cert b%"/a\" key \"/b", .key b%"/k"]]).isSome = true := by decide +kernel
  obtain ⟨c, h1⟩ := Option.isSome_iff_exists.1 h1
  have e1 : c = (mainStart cfEnv (fun _ => none) [.server b%"x" [.cert b%"/a\" key \"/b", .key b%"/k"]]).getD confNew := by rw [h1]; rfl
  refine ⟨c, h1, ?_⟩
  have ep : printConf c = b%"prefork 3\n\nserver \"x\" {\n\tcert \"/a\" key \"/b\"\n\tkey \"/k\"\n}\n" := by rw [e1]; decide +kernel
  rw [ep]
  refine ⟨30, [.kw b%"PREFORK", .num 3, .chr c%'\n', .chr c%'\n', .kw b%"SERVER", .str b%"x", .chr c%'{', .chr c%'\n', .kw b%"CERT", .str b%"/a",
    .kw b%"KEY", .str b%"/b", .chr c%'\n', .kw b%"KEY", .str b%"/k", .chr c%'\n', .chr c%'}', .chr c%'\n', .chr c%'\n'],
    [.option [.prefork 3], .vhost (.server b%"x" [.cert b%"/a", .key b%"/b", .key b%"/k"])], by decide +kernel, pGrammar_iff.1 (by decide +kernel), rfl⟩

end Gmid.Props
