import Verif.Spec.DeployCgi
import Verif.Props.Deploy
import Verif.Props.Fcgi
import Verif.Props.FcgiReply

/-!
# C117: what the file says about FastCGI is what the application and the client get
-/

set_option autoImplicit false

namespace Gmid.Props
open Gmid.Spec

/-! ## the options of the file and the location of the process -/

theorem says_iff (fs : List FcgiEp) (pat : Bytes) (os : List LocOpt) :
    ((locValue fs pat os).fcgi ≠ -1 ∨ (locValue fs pat os).nofcgi = true) ↔ SaysCgi os := by
  have h1 : (locValue fs pat os).nofcgi = true ↔ LocOpt.fcgiOff ∈ os := by
    simp only [locValue, List.any_eq_true]
    constructor
    · rintro ⟨o, h, k⟩; cases o <;> simp [isFcgiOff] at k; exact h
    · intro h; exact ⟨_, h, rfl⟩
  have h2 : (locValue fs pat os).fcgi ≠ -1 ↔ ∃ d, lastOf fcgiOf os = some (some d) := by
    simp only [locValue]
    rcases hq : lastOf fcgiOf os with _ | _ | d
    · simp [fcgiIndex]
    · simp [fcgiIndex]
    · simp only [fcgiIndex, Option.some.injEq, exists_eq', iff_true]; omega
  rw [h1, h2, SaysCgi]
  exact Or.comm

theorem workerFcgiLoop_first (fnm : Bytes → Bytes → Bool) (path : Bytes) (before : List WkLoc) (w : WkLoc) (after : List WkLoc)
    (h1 : w.loc.fcgi ≠ -1) (h2 : pmatch fnm w.loc.pat path = true)
    (h3 : ∀ x ∈ before, ¬ ((x.loc.fcgi ≠ -1 ∨ x.loc.nofcgi = true) ∧ pmatch fnm x.loc.pat path = true)) :
    workerFcgiLoop fnm path (before ++ w :: after) = some (some w) := by
  induction before with
  | nil => simp [workerFcgiLoop, h1, h2]
  | cons x r ih =>
    have hx := h3 x (by simp)
    simp only [List.cons_append, workerFcgiLoop]
    rw [if_neg (by simp; intro a; exact Bool.not_eq_true _ ▸ fun b => hx ⟨.inl a, b⟩),
      if_neg (by simp; intro a; exact Bool.not_eq_true _ ▸ fun b => hx ⟨.inr a, b⟩)]
    exact ih (fun y hy => h3 y (by simp [hy]))

theorem workerFcgiLoop_none (fnm : Bytes → Bytes → Bool) (path : Bytes) (l : List WkLoc)
    (h3 : ∀ x ∈ l, ¬ ((x.loc.fcgi ≠ -1 ∨ x.loc.nofcgi = true) ∧ pmatch fnm x.loc.pat path = true)) :
    workerFcgiLoop fnm path l = none := by
  induction l with
  | nil => rfl
  | cons x r ih =>
    have hx := h3 x (by simp)
    simp only [workerFcgiLoop]
    rw [if_neg (by simp; intro a; exact Bool.not_eq_true _ ▸ fun b => hx ⟨.inl a, b⟩),
      if_neg (by simp; intro a; exact Bool.not_eq_true _ ▸ fun b => hx ⟨.inr a, b⟩)]
    exact ih (fun y hy => h3 y (by simp [hy]))

theorem workerHost_first (fnm : Bytes → Bytes → Bool) (name : Bytes) (before : List WkHost) (w : WkHost) (after : List WkHost)
    (h1 : (pmatch fnm w.domain name || matchAliases fnm name w.aliases) = true)
    (h2 : ∀ x ∈ before, (pmatch fnm x.domain name || matchAliases fnm name x.aliases) = false) :
    workerHost fnm name (before ++ w :: after) = some w := by
  induction before with
  | nil => simp [workerHost, h1]
  | cons x r ih =>
    simp only [List.cons_append, workerHost]
    rw [if_neg (by rw [h2 x (by simp)]; decide)]
    exact ih (fun y hy => h2 y (by simp [hy]))

theorem named_iff (fnm : Bytes → Bytes → Bool) (name : Bytes) (x : Bytes × List SrvOpt) :
    (pmatch fnm x.1 name || matchAliases fnm name (x.2.filterMap aliasOf)) = true ↔ NamedBy fnm name x := by
  have ha : ∀ l : List Bytes, matchAliases fnm name l = true ↔ ∃ p ∈ l, pmatch fnm p name = true := by
    intro l
    induction l with
    | nil => simp [matchAliases]
    | cons a r ih =>
      simp only [matchAliases]
      by_cases h : pmatch fnm a name = true
      · simp [h]
      · simp [h, ih]
  rw [Bool.or_eq_true, ha, NamedBy]
  constructor
  · rintro (h | ⟨p, h1, h2⟩)
    · exact ⟨_, .inl rfl, (pmatch_iff _ _ _).1 h⟩
    · exact ⟨p, .inr h1, (pmatch_iff _ _ _).1 h2⟩
  · rintro ⟨p, rfl | h1, h2⟩
    · exact .inl ((pmatch_iff _ _ _).2 h2)
    · exact .inr ⟨p, h1, (pmatch_iff _ _ _).2 h2⟩

section
variable {penv : PEnv} {files : Bytes → Option Bytes} {loadCa : Bytes → Option Nat} {openDir : Bytes → Option Int}
  {txt : Bytes} {ds : List Directive} {c : CConf} {env : Env}

/-- a location as the process has it -/
def wkLoc (files : Bytes → Option Bytes) (loadCa : Bytes → Option Nat) (l : CLoc) : WkLoc :=
  expLoc files loadCa { loc := l.wire, reqca := l.reqcaPath, params := l.params }

/-- the host of a process for a name is that of the file -/
theorem worker_host (h : Serving penv files loadCa openDir txt ds c env) {st : Worker} (hst : HasWorker files loadCa openDir c env st)
    {name : Bytes} {x : Bytes × List SrvOpt} (hx : LastServer env.fnm ds name x) (ho : OptsFirst x.2) :
    st.fcgi = c.fcgi ∧ ∃ w, workerHost env.fnm name st.hosts = some w ∧ w.locs = (serverLocs c.fcgi x.2).map (wkLoc files loadCa) := by
  obtain ⟨privsep, sup, ms, hash, loadKey, st0, h1, h2, h3⟩ := hst
  obtain ⟨hm, hca⟩ := recv_checks files loadCa hash loadKey sup _ ms h1 st0 st h2
  obtain ⟨st', k1, k2, _⟩ := C38_server files loadCa hash loadKey sup _ ms h1 hm hca st0
  rw [h2] at k1
  cases k1
  refine ⟨k2.2.2.2.2.1, ?_⟩
  have hh : st.hosts = c.hosts.map (fun x => expHost files loadCa privsep x.toP) := by
    rw [k2.2.2.2.2.2]; simp [CConf.toP, Function.comp_def]
  obtain ⟨c0, c1, hf, hp, hhc, hfc, _⟩ := runs_parsed h.runs
  have hi := parse_inv h.resolves hf hp
  obtain ⟨before, after, e1, e2, e3⟩ := hx
  have hrev : c.hosts.map noAddrs = after.reverse.map (genHost penv c.fcgi) ++ genHost penv c.fcgi x :: before.reverse.map (genHost penv c.fcgi) := by
    rw [hhc, hi.hosts, e1, hfc]; simp
  obtain ⟨A, R, hA, hA', hR⟩ := List.map_eq_append_iff.1 hrev
  obtain ⟨v, B, rfl, hv, hB⟩ := List.map_eq_cons_iff.1 hR
  have hdom : v.domain = x.1 := congrArg CHost.domain hv
  have hal : v.aliases = x.2.filterMap aliasOf := congrArg CHost.aliases hv
  have hlocs : v.locs = serverLocs c.fcgi x.2 := by
    have : v.locs = (genHost penv c.fcgi x).locs := (show (noAddrs v).locs = _ from congrArg CHost.locs hv)
    rw [this, genHost_first ho]; rfl
  refine ⟨expHost files loadCa privsep v.toP, ?_, ?_⟩
  · rw [hh, hA, List.map_append, List.map_cons]
    refine workerHost_first _ _ _ _ _ ?_ ?_
    · show (pmatch env.fnm v.domain name || matchAliases env.fnm name v.aliases) = true
      rw [hdom, hal]
      exact (named_iff _ _ _).2 e2
    · intro w hw
      obtain ⟨u, hu, rfl⟩ := List.mem_map.1 hw
      have hu' : noAddrs u ∈ after.reverse.map (genHost penv c.fcgi) := by rw [← hA']; exact List.mem_map.2 ⟨u, hu, rfl⟩
      obtain ⟨y, hy, hye⟩ := List.mem_map.1 hu'
      have d1 : u.domain = y.1 := (congrArg CHost.domain hye).symm
      have d2 : u.aliases = y.2.filterMap aliasOf := (congrArg CHost.aliases hye).symm
      show (pmatch env.fnm u.domain name || matchAliases env.fnm name u.aliases) = false
      rw [d1, d2, ← Bool.not_eq_true, named_iff]
      exact e3 y (List.mem_reverse.1 hy)
  · simp only [expHost, CHost.toP, hlocs, List.map_map]
    rfl

/-- the application of a process for a request is that of the file -/
theorem worker_loc (h : Serving penv files loadCa openDir txt ds c env) {st : Worker} (hst : HasWorker files loadCa openDir c env st)
    {name : Bytes} {x : Bytes × List SrvOpt} (hx : LastServer env.fnm ds name x) (ho : OptsFirst x.2) {path : Bytes} {os : List LocOpt} {d : Bytes × Option Bytes}
    (hc : CgiBlock env.fnm x.2 path os d) :
    ∃ w pat n, workerHost env.fnm name st.hosts = some w ∧ workerLoc env.fnm w path = some (wkLoc files loadCa (locValue c.fcgi pat os)) ∧
      w.locs.head? = some (wkLoc files loadCa (locValue c.fcgi b%"*" (x.2.filterMap optOf))) ∧
      (locValue c.fcgi pat os).fcgi = (n : Nat) ∧ st.fcgi[n]? = some (endpoint d) ∧ n < env.nFcgi ∧
      FcgiIs env.fnm (hostIn penv files loadCa openDir c x) path ((locValue c.fcgi pat os).toLocation (caIn files loadCa) (dirIn openDir)) := by
  obtain ⟨hfc, w, hw, hl⟩ := worker_host h hst hx ho
  obtain ⟨hd, hb⟩ := hc
  have hne : ∀ pat, (locValue c.fcgi pat os).fcgi ≠ -1 := by
    intro pat; simp only [locValue, hd, fcgiIndex]; omega
  have hidx : ∃ n : Nat, fcgiIndex c.fcgi (lastOf fcgiOf os) = n ∧ c.fcgi[n]? = some (endpoint d) := by
    obtain ⟨c0, c1, hf, hp, _, hfc1, _⟩ := runs_parsed h.runs
    obtain ⟨bf, af, e, _⟩ := hx
    rw [hfc1]
    refine C70_endpoints_partial penv h.resolves c0 c1 hf ds hp x.1 x.2 (by rw [e]; simp) ho os ?_ d hd
    rcases hb with ⟨b, p, a, e1, _⟩ | ⟨_, e1⟩
    · exact .inr ⟨p, by rw [e1]; simp⟩
    · exact .inl e1
  obtain ⟨n, hn1, hn2⟩ := hidx
  have hn3 : n < env.nFcgi := by
    obtain ⟨_, _, _, _, _, _, _, _, h3⟩ := hst
    rw [h3.fcgi, hfc]
    exact (List.getElem?_eq_some_iff.1 hn2).1
  have htail : w.locs.tail = (x.2.filterMap locationOf).map fun y => wkLoc files loadCa (locValue c.fcgi (noSlash y.1) y.2) := by
    rw [hl]; simp [serverLocs, Function.comp_def]
  have hhead : w.locs.head? = some (wkLoc files loadCa (locValue c.fcgi b%"*" (x.2.filterMap optOf))) := by rw [hl]; rfl
  have hvl : (hostIn penv files loadCa openDir c x).locs =
      (x.2.filterMap locationOf).map fun y => (locValue c.fcgi (noSlash y.1) y.2).toLocation (caIn files loadCa) (dirIn openDir) := by
    simp [hostIn, CHost.toVhost, hostValue, serverLocs, Function.comp_def]
  have hmat : ∀ y : Bytes × List LocOpt, LocMatches env.fnm ((locValue c.fcgi (noSlash y.1) y.2).toLocation (caIn files loadCa) (dirIn openDir)) path ↔ LocFor env.fnm path y :=
    fun _ => Iff.rfl
  rcases hb with ⟨b, p, a, e1, e2, e3⟩ | ⟨e1, e2⟩
  · refine ⟨w, noSlash p, n, hw, ?_, hhead, hn1, by rw [hfc]; exact hn2, hn3, .inl ⟨?_, hne (noSlash p)⟩⟩
    · unfold workerLoc
      rw [htail, e1, List.map_append, List.map_cons, workerFcgiLoop_first]
      · exact hne (noSlash p)
      · exact (pmatch_iff _ _ _).2 e2
      · intro z hz
        obtain ⟨y, hy, rfl⟩ := List.mem_map.1 hz
        rintro ⟨k1, k2⟩
        exact e3 y hy ⟨(says_iff c.fcgi (noSlash y.1) y.2).1 k1, (pmatch_iff _ _ _).1 k2⟩
    · rw [hvl, e1, List.map_append, List.map_cons]
      refine ⟨_, _, rfl, .inl (hne (noSlash p)), e2, ?_⟩
      intro z hz
      obtain ⟨y, hy, rfl⟩ := List.mem_map.1 hz
      rintro ⟨k1, k2⟩
      exact e3 y hy ⟨(says_iff c.fcgi (noSlash y.1) y.2).1 k1, k2⟩
  · subst e2
    refine ⟨w, b%"*", n, hw, ?_, hhead, hn1, by rw [hfc]; exact hn2, hn3, .inr ⟨?_, rfl, hne b%"*"⟩⟩
    · unfold workerLoc
      rw [htail, workerFcgiLoop_none]
      · dsimp only
        rw [hhead, Option.bind_some, if_neg]
        exact hne b%"*"
      · intro z hz
        obtain ⟨y, hy, rfl⟩ := List.mem_map.1 hz
        rintro ⟨k1, k2⟩
        exact e1 y hy ⟨(says_iff c.fcgi (noSlash y.1) y.2).1 k1, (pmatch_iff _ _ _).1 k2⟩
    · rw [hvl]
      intro z hz
      obtain ⟨y, hy, rfl⟩ := List.mem_map.1 hz
      rintro ⟨k1, k2⟩
      exact e1 y hy ⟨(says_iff c.fcgi (noSlash y.1) y.2).1 k1, k2⟩

end

/-! ## what the application is told -/

theorem iri_sizes (isAddr : Bytes → Bool) (s : Bytes) (i : Iri) (h : parseIri isAddr s = .ok i) :
    i.host.length ≤ s.length ∧ i.port.length ≤ s.length ∧ i.path.length ≤ s.length ∧ i.query.length ≤ s.length := by
  have hpath := path_length isAddr s i h
  obtain ⟨sch, auth, pp, tail, hs, _, -, ha, hp, ht⟩ := (parseIri_iff _ _ _).1 h
  have hl : s.length = sch.length + 3 + auth.length + pp.length + tail.length := by rw [hs]; simp; omega
  refine ⟨?_, ?_, ?_, ?_⟩
  · rcases ha with ⟨h1, _⟩ | ⟨d, h1, h2⟩
    · rw [h1] at hl; simp at hl; omega
    · have := decodes_length h1
      rw [h2, List.length_map]; omega
  · rcases hp with ⟨_, h1, _⟩ | ⟨h1, _⟩
    · rw [h1]; simp
    · rw [h1] at hl; simp at hl; omega
  · rcases hpath with h1 | h1
    · omega
    · rw [h1]; simp
  · rcases ht with ⟨_, _, h1, _⟩ | ⟨rp, d, qf, h0, _, _, hq⟩
    · rw [h1]; simp
    · have h1 : tail.length = 1 + rp.length + qf.length := by rw [h0]; simp; omega
      rcases hq with ⟨_, h2, _⟩ | ⟨_, h2⟩ | ⟨h2, _⟩ | ⟨h2, _⟩
      · rw [h2]; simp
      · rw [h2]; simp
      · rw [h2] at h1; simp at h1; omega
      · rw [h2] at h1; simp at h1; omega

theorem stripLoopN_length (n : Nat) : ∀ p : Bytes, (stripLoopN n p).length ≤ p.length := by
  have hs : ∀ p t : Bytes, strchrSlash p = some t → t.length ≤ p.length := by
    intro p
    induction p with
    | nil => intro t h; cases h
    | cons c r ih =>
      intro t h
      simp only [strchrSlash] at h
      split at h
      · cases h; exact Nat.le_refl _
      · have := ih t h; simp; omega
  induction n with
  | zero => intro p; exact Nat.le_refl _
  | succ n ih =>
    intro p
    simp only [stripLoopN]
    split
    · simp
    · rename_i t ht
      exact Nat.le_trans (ih t) (hs p t ht)

theorem scriptName_eq (l : List (Bytes × Bytes)) : scriptName l = ((l.find? fun p => decide (p.1 = b%"SCRIPT_NAME")).map (·.2)).getD [] := by
  induction l with
  | nil => rfl
  | cons p r ih =>
    simp only [scriptName, List.find?_cons]
    by_cases h : p.1 = b%"SCRIPT_NAME"
    · rw [if_pos h]; simp [h]
    · rw [if_neg h, ih]; simp [h]

theorem scriptName_length (l : List (Bytes × Bytes)) (n : Nat) (h : ∀ p ∈ l, p.2.length ≤ n) : (scriptName l).length ≤ n := by
  induction l with
  | nil => exact Nat.zero_le _
  | cons p r ih =>
    simp only [scriptName]
    split
    · exact h p (by simp)
    · exact ih (fun q hq => h q (by simp [hq]))

theorem pathTranslate_length (p a b : Bytes) : (pathTranslate p a b).length ≤ 4095 := by
  unfold pathTranslate
  dsimp only
  split
  · simp [snprintfN]; omega
  · split
    · simp [snprintfN]; omega
    · simp

theorem pctDecodeStr_length (n : Nat) : ∀ s : Bytes, s.length ≤ n → (pctDecodeStr s).length ≤ s.length := by
  induction n with
  | zero =>
    intro s h
    have : s = [] := List.length_eq_zero_iff.1 (by omega)
    subst this; simp [pctDecodeStr]
  | succ n ih =>
    intro s h
    match s with
    | [] => simp [pctDecodeStr]
    | [c] => simp [pctDecodeStr]
    | [c, d] => simp [pctDecodeStr]
    | c :: a :: b :: r =>
      rw [pctDecodeStr]
      have h1 := ih (a :: b :: r) (by simp at h ⊢; omega)
      have h2 := ih r (by simp at h; omega)
      split
      · simp at h1 ⊢; omega
      · split
        · simp at h2 ⊢; omega
        · simp at h1 ⊢; omega

/-- every parameter fits in its record -/
theorem params_fit (x : FcgiIn) (h1 : x.iri.host.length ≤ 1024) (h2 : x.iri.port.length ≤ 1024) (h3 : x.iri.path.length ≤ 1024)
    (h4 : x.iri.query.length ≤ 1024) (h5 : x.rhost.length ≤ 1025) (h6 : x.software.length ≤ 1024)
    (h7 : ∀ p ∈ x.params, p.1.length ≤ 510 ∧ p.2.length ≤ 510)
    (h8 : ∀ t, x.cert = some t → ∀ s ∈ [t.subject, t.issuer, t.hash, t.version, t.cipher, t.strength, t.notBefore, t.notAfter], s.length ≤ 60000) :
    ∀ p ∈ fcgiReqParams x, p.1.length + p.2.length + 8 < 65536 := by
  have hst : (stripPath x.iri.path x.strip).length ≤ 1024 := Nat.le_trans (stripLoopN_length _ _) h3
  have hfp : (fcgiPath (stripPath x.iri.path x.strip)).length ≤ 1026 := by
    unfold fcgiPath
    split
    · simp [snprintfN]; omega
    · simp [fcgiPath.cpy1027]; omega
  have hn : (fcgiNames x).1.length ≤ 1026 ∧ (fcgiNames x).2.1.length ≤ 1026 ∧ (fcgiNames x).2.2.length ≤ 4095 := by
    have hsn := scriptName_length x.params 510 (fun p hp => (h7 p hp).2)
    unfold fcgiNames
    dsimp only
    split
    · refine ⟨?_, ?_, pathTranslate_length _ _ _⟩
      · simp; omega
      · simp; omega
    · exact ⟨by dsimp only; omega, by dsimp only; omega, pathTranslate_length _ _ _⟩
  have hq := pctDecodeStr_length _ x.iri.query (Nat.le_refl _)
  intro p hp
  unfold fcgiReqParams at hp
  simp only [List.mem_append, List.mem_filter] at hp
  rcases hp with ((hp | hp) | hp) | hp
  · simp only [List.mem_cons, List.not_mem_nil, or_false] at hp
    rcases hp with h | h | h | h | h | h | h | h | h | h | h | h | h <;> rw [h] <;> simp only [List.length_cons, List.length_nil] <;> try omega
    split
    · simp
    · omega
  · split at hp
    · simp only [List.mem_singleton] at hp
      rw [hp]; simp; omega
    · cases hp
  · have := h7 p hp.1; omega
  · cases hc : x.cert with
    | none =>
      rw [hc] at hp
      simp only [List.mem_singleton] at hp
      rw [hp]; simp
    | some t =>
      rw [hc] at hp
      have h8 := h8 t hc
      simp only [List.mem_cons, List.not_mem_nil, or_false, forall_eq_or_imp, forall_eq] at h8
      simp only [List.mem_cons, List.not_mem_nil, or_false] at hp
      rcases hp with h | h | h | h | h | h | h | h | h <;> rw [h] <;> simp only [List.length_cons, List.length_nil] <;> omega

theorem trim_script (s slashes : Bytes) (h1 : ∀ x ∈ slashes, x = c%'/') (h2 : s.getLast? ≠ some c%'/') : trimSlashes (s ++ slashes) = s := by
  unfold trimSlashes
  rw [List.reverse_append, List.dropWhile_append_of_pos]
  · cases hs : s.reverse with
    | nil => rw [List.reverse_eq_nil_iff] at hs; subst hs; rfl
    | cons a r =>
      have : s.getLast? = some a := by rw [← List.head?_reverse, hs]; rfl
      rw [this] at h2
      rw [List.dropWhile_cons_of_neg]
      · rw [← hs]; simp
      · simp; simpa using h2
  · intro a ha
    rw [h1 a (List.mem_reverse.1 ha)]
    rfl

/-- the parameters are those of the specification -/
theorem app_gets (isAddr : Bytes → Bool) (req : Bytes) (x : FcgiIn) (hp : parseIri isAddr req = .ok x.iri) (hl : x.iri.path.length ≤ 1024)
    (os srv : List LocOpt) (h1 : x.strip = (lastOf fcgiStripOf os).getD 0) (h2 : x.params = os.filterMap paramOf)
    (h3 : x.locDir = (lastOf rootOf os).getD []) (h4 : x.rootDir = (lastOf rootOf srv).getD []) :
    AppGets os srv x.iri x.rhost x.software x.cert (fcgiReqParams x) where
  server := by unfold fcgiReqParams; simp
  path := by unfold fcgiReqParams; simp
  query := (C30_query isAddr req x hp).1
  search := (C30_query isAddr req x hp).2
  kind := by unfold fcgiReqParams; simp
  client := by unfold fcgiReqParams; simp
  shown := by intro t ht; unfold fcgiReqParams; rw [ht]; simp
  hidden := by
    intro ht
    unfold fcgiReqParams
    rw [ht]
    refine ⟨by simp, ?_⟩
    intro v hv
    simp only [List.mem_append, List.mem_filter] at hv
    rcases hv with ((hv | hv) | hv) | hv
    · simp at hv
    · split at hv
      · simp at hv
      · cases hv
    · rw [h2] at hv; exact hv.1
    · simp at hv
  own := by
    unfold fcgiReqParams
    rw [h2]
    exact ⟨_, _, rfl⟩
  script := by
    intro s rest hs0 hs hpe hb
    obtain ⟨v, sl, rfl, k1, k2, k3⟩ := hs
    have hsc : s = trimSlashes (scriptName x.params) := by
      rw [scriptName_eq, h2, k3, trim_script s sl k1 k2]
    have hsl := (C01_path_confined isAddr req _ hp).1.1
    obtain ⟨r1, r2, r3, r4⟩ := C30_partition_partial x s rest (by rw [h1, hs0]) hl hsl hsc hpe hb
    refine ⟨r1, r2, r4, ?_⟩
    intro root hroot hne hlast hlen
    have hn := fcgiNames_script x s rest (by rw [h1, hs0]) hl hsl hsc hpe hb
    have hpt : pathTranslate rest x.locDir x.rootDir = root ++ c%'/' :: rest.dropWhile (· == c%'/') := by
      have hrl : (rest.dropWhile (· == c%'/')).length ≤ x.iri.path.length := by
        have e : (c%'/' :: x.iri.path).length = (s ++ rest).length := by rw [hpe]
        have e2 := (List.dropWhile_suffix (l := rest) (· == c%'/')).length_le
        rcases hb with rfl | hb
        · simp
        · cases rest with
          | nil => cases hb
          | cons a r =>
            simp at hb
            subst hb
            have := (List.dropWhile_suffix (l := r) (· == c%'/')).length_le
            simp at e ⊢
            omega
      have key : snprintfN 4096 (root ++ (if root.getLast? = some c%'/' then [] else b%"/") ++ rest.dropWhile (· == c%'/')) = root ++ c%'/' :: rest.dropWhile (· == c%'/') := by
        rw [if_neg hlast]
        simp only [snprintfN]
        rw [List.take_of_length_le (by simp; omega)]
        simp
      unfold pathTranslate
      rcases hroot with e | ⟨e, e'⟩
      · have : x.locDir = root := by rw [h3, e]; rfl
        rw [this]
        dsimp only
        rw [if_pos hne]
        exact key
      · have ha : x.locDir = [] := by rw [h3, e]; rfl
        have hb' : x.rootDir = root := by rw [h4, e']; rfl
        rw [ha, hb']
        dsimp only
        rw [if_neg (by simp), if_pos hne]
        exact key
    unfold fcgiReqParams
    rw [hn, hpt]
    simp

/-! ## the claims -/

section
variable {penv : PEnv} {files : Bytes → Option Bytes} {loadCa : Bytes → Option Nat} {openDir : Bytes → Option Int}
  {txt : Bytes} {ds : List Directive} {c : CConf} {env : Env}

/-- the parameters an accepted file gives fit -/
theorem serving_params (h : Serving penv files loadCa openDir txt ds c env) {name : Bytes} {x : Bytes × List SrvOpt} (hx : LastServer env.fnm ds name x)
    {os : List LocOpt} (hos : os = x.2.filterMap optOf ∨ ∃ p, (p, os) ∈ x.2.filterMap locationOf) :
    ∀ p ∈ os.filterMap paramOf, p.1.length ≤ 510 ∧ p.2.length ≤ 510 := by
  obtain ⟨c0, c1, hf, hp, _⟩ := runs_parsed h.runs
  have hok := ((C69_accepted_partial penv h.resolves c0 hf ds c1 true hp).1 rfl).1
  obtain ⟨bf, af, e, _⟩ := hx
  obtain ⟨d, hd, hdx⟩ := List.mem_filterMap.mp (show x ∈ ds.filterMap serverOf by rw [e]; simp)
  have hd' : d = .server x.1 x.2 := by
    cases d <;> simp [serverOf] at hdx
    subst hdx; rfl
  have hbody : ∀ o ∈ x.2, SrvOptOk penv o := by
    have := hok d hd
    rw [hd'] at this
    exact this.2.1
  have hall : ∀ o ∈ os, LocOptOk o := by
    rcases hos with rfl | ⟨p, hp⟩
    · intro o ho
      obtain ⟨s, h1, h2⟩ := List.mem_filterMap.mp ho
      have := hbody s h1
      cases s <;> simp [optOf] at h2
      subst h2; exact this
    · obtain ⟨s, h1, h2⟩ := List.mem_filterMap.mp hp
      have := hbody s h1
      cases s <;> simp [locationOf] at h2
      obtain ⟨rfl, rfl⟩ := h2
      exact this.2
  intro p hp'
  obtain ⟨o, h1, h2⟩ := List.mem_filterMap.mp hp'
  have := hall o h1
  cases o <;> simp [paramOf] at h2
  subst h2; exact this

/-- as serving_asked, and no reply has been started -/
theorem serving_asked_fresh (h : Serving penv files loadCa openDir txt ds c env) {sni : Option Bytes} {name : Bytes} (hneg : Negotiated env sni name)
    {x : Bytes × List SrvOpt} (hx : LastServer env.fnm ds name x) (ho : OptsFirst x.2) {req rest : Bytes} {i : Iri} {decoded : Bytes}
    (ha : Asks env req rest i decoded) (bufsiz : Nat) :
    ∃ c0 : Client, (c0.sent = [] ∧ c0.code = 0) ∧ WellFormed env c0 (hostIn penv files loadCa openDir c x) name req rest i decoded ∧
      step env bufsiz (.read (req ++ b%"\r\n" ++ rest)) (handshakeDone env sni {}) = clientRead env c0 := by
  have hh : handshakeDone env sni {} = { ({} : Client) with domain := name, host := some (hostIn penv files loadCa openDir c x) } := by
    rw [handshake_name env sni name _ hneg, serving_bound h name x hx ho]
  rw [hh]
  refine ⟨{ ({} : Client) with domain := name, host := some (hostIn penv files loadCa openDir c x), inp := req ++ b%"\r\n" ++ rest }, ⟨rfl, rfl⟩, ?_, ?_⟩
  · exact ⟨⟨rfl, rfl, rfl, rfl, rfl, rfl, rfl, ha.line, ha.room⟩, ha.nonul, ha.parses, ha.decodes⟩
  · rfl

/-- **C117, in part.** A server process with the configuration of a file: the client names a server of the file, the last one so named, and sends a
request for a path for which the server has a FastCGI application, by the first location for the path that says something about FastCGI, or by
its own options; no relay, certificate or block rule stands before it.  Then that application, and nobody else, is contacted; what it gets decodes to
one request, that tells it the resource, the client and its certificate, and the parameters of the file.  And whatever it answers, in whatever
records and at whatever pace, the client gets its header, with the language of the file when it is text/gemini, and its body, or 42 when there is no header.
(In part: the options of the server come before its locations (C70); certificate texts of up to 60000 bytes (C28_long_value); replies with codes 21 to 29: C29_code_2x; a header
with a NUL is cut there.) -/
theorem C117_application_partial (h : Serving penv files loadCa openDir txt ds c env) (st : Worker) (hst : HasWorker files loadCa openDir c env st)
    (sni : Option Bytes) (name : Bytes) (hneg : Negotiated env sni name)
    (x : Bytes × List SrvOpt) (hx : LastServer env.fnm ds name x) (ho : OptsFirst x.2)
    (v : Vhost) (hv : v = hostIn penv files loadCa openDir c x)
    (req rest : Bytes) (i : Iri) (decoded : Bytes) (ha : Asks env req rest i decoded) (hu : ForUs i name decoded)
    (hn : NoRelay env.fnm v i.schema name i.port) (hc : CertOk env v i.path) (hb : NoBlock env.fnm v i.path)
    (os : List LocOpt) (d : Bytes × Option Bytes) (hcgi : CgiBlock env.fnm x.2 i.path os d)
    (hup : ∀ k, env.fcgiConnect k = true) (hbev : env.fcgiBev = true)
    (rhost software : Bytes) (cert : Option FcgiCert) (hrh : rhost.length ≤ 1025) (hsw : software.length ≤ 1024)
    (hcert : ∀ t, cert = some t → ∀ s ∈ [t.subject, t.issuer, t.hash, t.version, t.cipher, t.strength, t.notBefore, t.notAfter], s.length ≤ 60000)
    (bufsiz : Nat) :
    ∃ c1 k l stream ps, step env bufsiz (.read (req ++ b%"\r\n" ++ rest)) (handshakeDone env sni {}) = .ok c1 ∧
      c1.effs = [.fastcgi (k : Nat) l] ∧ st.fcgi[k]? = some (endpoint d) ∧
      workerAsks env.fnm st name i rhost software cert = some (endpoint d, stream) ∧
      receivesRequest stream 1 ps ∧ AppGets os (x.2.filterMap optOf) i rhost software cert ps ∧
      ∀ (rs : List FRec), (∀ r ∈ rs, OutputRec r) → (∀ code text body, HasHeader (stdoutOf rs) code text body → code < 21 ∨ 29 < code) →
        ∀ (evs : List FEv) (tail : Bytes) (fin : Bool), evs.foldl fedBy ([], false) = (rs.flatMap FRec.wire ++ tail, fin) →
          ((∃ e junk, EndRec e ∧ tail = e.wire ++ junk) ∨ (tail = [] ∧ fin = true)) →
          ∃ f, fcgiRun env evs { c := c1 } = .ok f ∧
            (∀ code text body, HasHeader (stdoutOf rs) code text body → ∃ suffix, LangSuffix env.fnm v i.path (cstr text) suffix ∧
              f.c.sent ++ f.c.out = intDec code ++ b%" " ++ cstr text ++ suffix ++ b%"\r\n" ++ (if code = 20 then body else [])) ∧
            ((¬ ∃ code text body, HasHeader (stdoutOf rs) code text body) → f.c.sent ++ f.c.out = b%"42 CGI error\r\n") := by
  have hos : os = x.2.filterMap optOf ∨ ∃ p, (p, os) ∈ x.2.filterMap locationOf := by
    rcases hcgi.2 with ⟨b, p, a, e1, _⟩ | ⟨_, e1⟩
    · exact .inr ⟨p, by rw [e1]; simp⟩
    · exact .inl e1
  obtain ⟨w, pat, n, w1, w2, w3, w4, w5, w6, w7⟩ := worker_loc h hst hx ho hcgi
  obtain ⟨c0, ⟨s0, s1⟩, hw, hstep⟩ := serving_asked_fresh h hneg hx ho ha bufsiz
  rw [← hv] at hw w7
  have hh : (parsed c0 rest i).host = some v := hw.requested.host
  have hasks : workerAsks env.fnm st name i rhost software cert =
      some (endpoint d, fcgiStream (fcgiReqParams (workerInput i rhost software cert w (wkLoc files loadCa (locValue c.fcgi pat os))))) := by
    unfold workerAsks
    rw [w1, Option.bind_some, w2, Option.bind_some]
    have e : (wkLoc files loadCa (locValue c.fcgi pat os)).loc.fcgi = (n : Int) := w4
    rw [e, if_neg (by omega), Int.toNat_natCast, w5]
    rfl
  obtain ⟨z1, z2, z3, z4⟩ := iri_sizes _ _ _ ha.parses
  have hreq : req.length ≤ 1024 := by have := ha.room; simp at this; omega
  have hrecv := C28_params_received (fcgiReqParams (workerInput i rhost software cert w (wkLoc files loadCa (locValue c.fcgi pat os))))
    (params_fit _ (Nat.le_trans z1 hreq) (Nat.le_trans z2 hreq) (Nat.le_trans z3 hreq) (Nat.le_trans z4 hreq) hrh hsw (serving_params h hx hos) hcert)
  have hgets := app_gets env.isAddr req (workerInput i rhost software cert w (wkLoc files loadCa (locValue c.fcgi pat os))) ha.parses (Nat.le_trans z3 hreq)
    os (x.2.filterMap optOf) rfl rfl rfl (by show (w.locs.head?.map (·.loc.dir)).getD [] = _; rw [w3]; rfl)
  have hfc : applyFastcgi env (parsed c0 rest i) i =
      ({ parsed c0 rest i with effs := (parsed c0 rest i).effs ++ [.fastcgi (n : Int) ((locValue c.fcgi pat os).toLocation (caIn files loadCa) (dirIn openDir))] }, true) := by
    unfold applyFastcgi
    simp only [hh, fcgiIs_eq _ _ _ _ w7]
    have e : ((locValue c.fcgi pat os).toLocation (caIn files loadCa) (dirIn openDir)).fcgi = (n : Int) := w4
    rw [e, if_neg (fun hk => hk ⟨by omega, by omega⟩)]
    simp [hup, hbev]
  have hbl : applyBlockReturn env (parsed c0 rest i) i = .ok (parsed c0 rest i, false) := by
    simp [applyBlockReturn, hh, noBlock_eq _ _ _ hb]
  have hrun : clientRead env c0 =
      .ok { parsed c0 rest i with effs := (parsed c0 rest i).effs ++ [.fastcgi (n : Int) ((locValue c.fcgi pat os).toLocation (caIn files loadCa) (dirIn openDir))] } := by
    rw [dispatch_checked hw hn hu hc, hbl]
    simp only [hfc]
  generalize hc1 : ({ parsed c0 rest i with effs := (parsed c0 rest i).effs ++ [.fastcgi (n : Int) ((locValue c.fcgi pat os).toLocation (caIn files loadCa) (dirIn openDir))] } : Client) = c1 at hrun
  have hlang : ∀ l, vhostLang env.fnm (some v) (some i.path) = some l → l.length ≤ 31 := by
    intro l hl
    have hfit : ∀ l, (l = v.dflt ∨ l ∈ v.locs) → l.lang.length ≤ 31 := by
      intro l hl; rw [hv] at hl; exact (serving_fits h name x hx l hl).1
    rcases C15_exhaustive env.fnm (·.lang ≠ []) v.locs i.path with ⟨w, hw⟩ | hno
    · rw [(C15_lang env.fnm v i.path).1 w hw] at hl
      cases hl; exact hfit w (.inr (firstSet_mem hw))
    · rw [(C15_lang env.fnm v i.path).2 hno] at hl
      split at hl
      · cases hl
      · cases hl; exact hfit _ (.inl rfl)
  have hwl : ∀ mt, wantedLang env c1 mt = if mt = b%"text/gemini" then vhostLang env.fnm (some v) (some i.path) else none := by
    intro mt
    rw [← hc1]
    unfold wantedLang
    simp only [parsed, hw.requested.type, hw.requested.host]
    by_cases hm : mt = b%"text/gemini" <;> simp [hm]
  have hasked : Asked env c1 := by
    refine ⟨?_, ?_, ?_, ?_, ?_, ?_⟩
    · rw [← hc1]; exact hw.requested.type
    · rw [← hc1]; exact s1
    · rw [← hc1]; exact s0
    · rw [← hc1]; exact hw.requested.out
    · rw [← hc1]; exact hw.requested.isOpen
    · intro mt l hl
      rw [hwl] at hl
      split at hl
      · exact hlang l hl
      · cases hl
  refine ⟨c1, n, (locValue c.fcgi pat os).toLocation (caIn files loadCa) (dirIn openDir), _, _, by rw [hstep, hrun], ?_, w5, hasks, hrecv, hgets, ?_⟩
  · rw [← hc1]; simp [parsed, hw.requested.effs]
  · intro rs hrs hcode evs tail fin hev hend
    obtain ⟨f, f1, f2, f3⟩ := C29_reassembly_partial env c1 hasked rs hrs hcode evs tail fin hev hend
    refine ⟨f, f1, ?_, f3⟩
    intro code text body hh'
    refine ⟨_, langSuffix_of env.fnm v i.path (cstr text), ?_⟩
    rw [f2 code text body hh', hwl]
    congr 2
    unfold wantedHeader langPart
    split <;> split <;> simp_all

/-- **C117.** When the application cannot be reached the client is told so, and gets nothing else. -/
theorem C117_unreachable (h : Serving penv files loadCa openDir txt ds c env) (st : Worker) (hst : HasWorker files loadCa openDir c env st)
    (sni : Option Bytes) (name : Bytes) (hneg : Negotiated env sni name)
    (x : Bytes × List SrvOpt) (hx : LastServer env.fnm ds name x) (ho : OptsFirst x.2)
    (v : Vhost) (hv : v = hostIn penv files loadCa openDir c x)
    (req rest : Bytes) (i : Iri) (decoded : Bytes) (ha : Asks env req rest i decoded) (hu : ForUs i name decoded)
    (hn : NoRelay env.fnm v i.schema name i.port) (hc : CertOk env v i.path) (hb : NoBlock env.fnm v i.path)
    (os : List LocOpt) (d : Bytes × Option Bytes) (hcgi : CgiBlock env.fnm x.2 i.path os d)
    (hup : ∀ k, env.fcgiConnect k = false) (bufsiz : Nat) :
    ∃ c1, step env bufsiz (.read (req ++ b%"\r\n" ++ rest)) (handshakeDone env sni {}) = .ok c1 ∧ headerCodes c1.effs = [42] ∧
      ∀ evs, ∃ c', runEvents bufsiz evs c1 = .ok c' ∧ c'.sent ++ c'.out = b%"42 CGI error\r\n" := by
  obtain ⟨w, pat, n, _, _, _, w4, _, w6, w7⟩ := worker_loc h hst hx ho hcgi
  obtain ⟨c0, s0, hw, hstep⟩ := serving_asked h hneg hx ho ha bufsiz
  rw [← hv] at hw w7
  have hh : (parsed c0 rest i).host = some v := hw.requested.host
  generalize hcc : ({ parsed c0 rest i with effs := (parsed c0 rest i).effs ++ [.fastcgi (n : Int) ((locValue c.fcgi pat os).toLocation (caIn files loadCa) (dirIn openDir))] } : Client) = cc
  have hfc : applyFastcgi env (parsed c0 rest i) i = (startReply env cc 42 b%"CGI error", true) := by
    rw [← hcc]
    unfold applyFastcgi
    simp only [hh, fcgiIs_eq _ _ _ _ w7]
    have e : ((locValue c.fcgi pat os).toLocation (caIn files loadCa) (dirIn openDir)).fcgi = (n : Int) := w4
    rw [e, if_neg (fun hk => hk ⟨by omega, by omega⟩)]
    simp [hup]
  have hbl : applyBlockReturn env (parsed c0 rest i) i = .ok (parsed c0 rest i, false) := by
    simp [applyBlockReturn, hh, noBlock_eq _ _ _ hb]
  have hrun : clientRead env c0 = .ok (startReply env cc 42 b%"CGI error") := by
    rw [dispatch_checked hw hn hu hc, hbl]
    simp only [hfc]
  have hsr := startReply_short env cc 42 b%"CGI error" (by decide) (by decide)
  have hrep := queueHeader_replied env cc 42 b%"CGI error" (intDec 42 ++ c%' ' :: b%"CGI error")
  rw [← hsr] at hrep
  have ht : (startReply env cc 42 b%"CGI error").type = .done := by rw [hrep.type]; rfl
  refine ⟨_, by rw [hstep, hrun], ?_, fun evs => ?_⟩
  · obtain ⟨e, h1, h2⟩ := hrep.effs
    rw [h1, ← hcc]
    simp only [parsed, hw.requested.effs, List.nil_append, List.singleton_append, headerCodes]
    obtain ⟨hdr, h3⟩ := h2
    rcases h3 with rfl | ⟨mt, rfl⟩ <;> rfl
  · obtain ⟨c', e, d1, _, _, d4, _⟩ := done_run bufsiz evs _ ht (by rw [hrep.rcode]; decide)
    refine ⟨c', d1, ?_⟩
    rw [d4, hrep.sent, hsr, ← hcc]
    simp [queueHeader, parsed, s0, hw.requested.out]

/-- **C117.** For a path without an application in the file, or with `fastcgi off`, no application is contacted. -/
theorem C117_off (h : Serving penv files loadCa openDir txt ds c env) (st : Worker) (hst : HasWorker files loadCa openDir c env st)
    (sni : Option Bytes) (name : Bytes) (hneg : Negotiated env sni name)
    (x : Bytes × List SrvOpt) (hx : LastServer env.fnm ds name x) (ho : OptsFirst x.2)
    (v : Vhost) (hv : v = hostIn penv files loadCa openDir c x)
    (req rest : Bytes) (i : Iri) (decoded : Bytes) (ha : Asks env req rest i decoded) (hu : ForUs i name decoded)
    (hn : NoRelay env.fnm v i.schema name i.port) (hc : CertOk env v i.path) (hb : NoBlock env.fnm v i.path)
    (hno : NoCgi env.fnm x.2 i.path) (rhost software : Bytes) (cert : Option FcgiCert) (bufsiz : Nat) :
    workerAsks env.fnm st name i rhost software cert = none ∧ NoFcgi env.fnm v i.path ∧
    ∃ c1, step env bufsiz (.read (req ++ b%"\r\n" ++ rest)) (handshakeDone env sni {}) = .ok c1 ∧ ∀ k l, .fastcgi k l ∉ c1.effs := by
  obtain ⟨hfc, w, hw, hl⟩ := worker_host h hst hx ho
  have hnone : ∀ pat os, (∀ d, lastOf fcgiOf os ≠ some (some d)) → (locValue c.fcgi pat os).fcgi = -1 := by
    intro pat os hd
    simp only [locValue]
    rcases hq : lastOf fcgiOf os with _ | _ | d
    · rfl
    · rfl
    · exact absurd hq (hd d)
  have htail : w.locs.tail = (x.2.filterMap locationOf).map fun y => wkLoc files loadCa (locValue c.fcgi (noSlash y.1) y.2) := by
    rw [hl]; simp [serverLocs, Function.comp_def]
  have hhead : w.locs.head? = some (wkLoc files loadCa (locValue c.fcgi b%"*" (x.2.filterMap optOf))) := by rw [hl]; rfl
  have hvl : v.locs = (x.2.filterMap locationOf).map fun y => (locValue c.fcgi (noSlash y.1) y.2).toLocation (caIn files loadCa) (dirIn openDir) := by
    rw [hv]; simp [hostIn, CHost.toVhost, hostValue, serverLocs, Function.comp_def]
  have hvd : v.dflt = (locValue c.fcgi b%"*" (x.2.filterMap optOf)).toLocation (caIn files loadCa) (dirIn openDir) := by rw [hv]; rfl
  have key : workerLoc env.fnm w i.path = none ∧ NoFcgi env.fnm v i.path := by
    rcases hno with ⟨b, y, a, e1, e2, e3, e4, e5⟩ | ⟨e1, e2⟩
    · have hm : (locValue c.fcgi (noSlash y.1) y.2).fcgi = -1 := hnone _ _ e5
      have hoff : (locValue c.fcgi (noSlash y.1) y.2).nofcgi = true := by
        rcases (says_iff c.fcgi (noSlash y.1) y.2).2 e2 with k | k
        · exact absurd hm k
        · exact k
      constructor
      · unfold workerLoc
        rw [htail, e1, List.map_append, List.map_cons]
        have hloop : ∀ b : List (Bytes × List LocOpt), (∀ z ∈ b, ¬ (SaysCgi z.2 ∧ LocFor env.fnm i.path z)) →
            workerFcgiLoop env.fnm i.path (b.map (fun y => wkLoc files loadCa (locValue c.fcgi (noSlash y.1) y.2)) ++
              wkLoc files loadCa (locValue c.fcgi (noSlash y.1) y.2) :: a.map (fun y => wkLoc files loadCa (locValue c.fcgi (noSlash y.1) y.2))) = some none := by
          intro b
          induction b with
          | nil =>
            intro _
            simp only [List.map_nil, List.nil_append, workerFcgiLoop]
            have hp : pmatch env.fnm (wkLoc files loadCa (locValue c.fcgi (noSlash y.1) y.2)).loc.pat i.path = true := (pmatch_iff _ _ _).2 e3
            have k1 : (wkLoc files loadCa (locValue c.fcgi (noSlash y.1) y.2)).loc.fcgi = -1 := hm
            have k2 : (wkLoc files loadCa (locValue c.fcgi (noSlash y.1) y.2)).loc.nofcgi = true := hoff
            rw [k1, k2, hp]
            rfl
          | cons z r ih =>
            intro hz
            have hx := hz z (by simp)
            have hx' : ¬ (((wkLoc files loadCa (locValue c.fcgi (noSlash z.1) z.2)).loc.fcgi ≠ -1 ∨ (wkLoc files loadCa (locValue c.fcgi (noSlash z.1) z.2)).loc.nofcgi = true) ∧
                pmatch env.fnm (wkLoc files loadCa (locValue c.fcgi (noSlash z.1) z.2)).loc.pat i.path = true) := by
              rintro ⟨k1, k2⟩
              exact hx ⟨(says_iff c.fcgi (noSlash z.1) z.2).1 k1, (pmatch_iff _ _ _).1 k2⟩
            simp only [List.map_cons, List.cons_append, workerFcgiLoop]
            rw [if_neg (by simp only [Bool.and_eq_true, decide_eq_true_eq]; exact fun k => hx' ⟨.inl k.1, k.2⟩),
              if_neg (by simp only [Bool.and_eq_true]; exact fun k => hx' ⟨.inr k.1, k.2⟩)]
            exact ih (fun q hq => hz q (by simp [hq]))
        rw [hloop b e4]
      · refine .inl ⟨(locValue c.fcgi (noSlash y.1) y.2).toLocation (caIn files loadCa) (dirIn openDir), ?_, hm⟩
        rw [hvl, e1, List.map_append, List.map_cons]
        refine ⟨_, _, rfl, .inr hoff, e3, ?_⟩
        intro q hq
        obtain ⟨z, hz, rfl⟩ := List.mem_map.1 hq
        rintro ⟨k1, k2⟩
        exact e4 z hz ⟨(says_iff c.fcgi (noSlash z.1) z.2).1 k1, k2⟩
    · constructor
      · unfold workerLoc
        rw [htail, workerFcgiLoop_none]
        · dsimp only
          rw [hhead, Option.bind_some, if_pos]
          exact hnone b%"*" _ e2
        · intro z hz
          obtain ⟨y, hy, rfl⟩ := List.mem_map.1 hz
          rintro ⟨k1, k2⟩
          exact e1 y hy ⟨(says_iff c.fcgi (noSlash y.1) y.2).1 k1, (pmatch_iff _ _ _).1 k2⟩
      · refine .inr ⟨?_, by rw [hvd]; exact hnone b%"*" _ e2⟩
        rw [hvl]
        intro z hz
        obtain ⟨y, hy, rfl⟩ := List.mem_map.1 hz
        rintro ⟨k1, k2⟩
        exact e1 y hy ⟨(says_iff c.fcgi (noSlash y.1) y.2).1 k1, k2⟩
  refine ⟨by unfold workerAsks; rw [hw, Option.bind_some, key.1]; rfl, key.2, ?_⟩
  obtain ⟨c0, s0, hwf, hstep⟩ := serving_asked h hneg hx ho ha bufsiz
  rw [← hv] at hwf
  obtain ⟨c1, fd, p, e, r1, _, r3, r4⟩ := (C20_precedence hwf hn).2.2.2.2 hu hc hb key.2
  refine ⟨c1, by rw [hstep, r1], ?_⟩
  intro k l hk
  rw [r3] at hk
  rcases List.mem_cons.1 hk with hk | hk
  · cases hk
  · rcases r4 _ hk with hq | ⟨_, _, hq⟩
    · exact hq
    · cases hq

end

/-! ## a concrete case -/

def exCgTxt : Bytes := b%"types {\n text/x-a a\n}\nserver \"h\" {\n cert \"/c\"\n key \"/k\"\n root \"/d\"\n lang \"it\"\n location \"/doc\" {\n fastcgi off\n }\n location \"/app/x\" {\n fastcgi {\n socket \"/run/app\"\n param \"SCRIPT_NAME\" = \"/app/\"\n param \"K\" = \"v\"\n }\n }\n}\n"

def exCgOpts : List LocOpt := [.fcgiSocket b%"/run/app" none, .fcgiParam b%"SCRIPT_NAME" b%"/app/", .fcgiParam b%"K" b%"v"]

def exCgSrv : Bytes × List SrvOpt :=
  (b%"h", [.cert b%"/c", .key b%"/k", .opt (.root b%"/d"), .opt (.lang b%"it"), .location b%"/doc" [.fcgiOff], .location b%"/app/x" exCgOpts])

def exCgDs : List Directive := [.types [(b%"text/x-a", [b%"a"])], .server exCgSrv.1 exCgSrv.2]

def exCgC : CConf := (mainStart cfEnv (fun _ => none) exCgDs).getD confNew

/-- with or without the application -/
def exCgEnv (up : Bool) : Env :=
  { exDepEnv with
    nFcgi := 1
    fcgiConnect := fun _ => up
    fcgiBev := true
    hosts := exCgC.hosts.map (CHost.toVhost (caIn exDepFiles exDepCa) (dirIn exDepDir)) }

def exCgMs : List (Proc × CMsg CLoc (Bytes × Bytes) CProxy LAddr FcgiEp) := (mainConfigure exDepFiles (fun _ => true) (exCgC.toP false)).getD []
def exCgSt : Worker := ((recvAll exDepFiles exDepCa (fun _ => none) (fun _ => none) .server {} (forProc .server exCgMs) : Res Worker).val?).getD {}

theorem exCg_done (up : Bool) : ConfigureDone exDepDir exCgSt (exCgEnv up) :=
  ⟨⟨[⟨b%"text/x-a", b%"a"⟩], by decide +kernel, List.Perm.refl _, by simp [exCgEnv, exDepEnv]⟩, by cases up <;> decide +kernel, by cases up <;> decide +kernel⟩

theorem exCg_serving (up : Bool) : Serving cfEnv exDepFiles exDepCa exDepDir exCgTxt exCgDs exCgC (exCgEnv up) where
  resolves := cfEnv_ok.1
  says := ⟨80, (lexAll 80 (lexStart exCgTxt [])).dropLast,
    [.types [.names b%"text/x-a" [b%"a"]], .vhost (.server exCgSrv.1 exCgSrv.2)],
    by decide +kernel, pGrammar_iff.1 (by decide +kernel), rfl⟩
  runs := .inl ⟨fun _ => none, by decide +kernel⟩
  sent := ⟨false, fun _ => true, exCgMs, fun _ => none, fun _ => none, {}, exCgSt, by decide +kernel, by decide +kernel, exCg_done up⟩

theorem exCg_worker (up : Bool) : HasWorker exDepFiles exDepCa exDepDir exCgC (exCgEnv up) exCgSt :=
  ⟨false, fun _ => true, exCgMs, fun _ => none, fun _ => none, {}, by decide +kernel, by decide +kernel, exCg_done up⟩

theorem exCg_named (up : Bool) : LastServer (exCgEnv up).fnm exCgDs b%"h" exCgSrv ∧ OptsFirst exCgSrv.2 ∧ Negotiated (exCgEnv up) (some b%"h") b%"h" := by
  refine ⟨⟨[], [], rfl, ⟨b%"h", .inl rfl, rfl⟩, by simp⟩, ⟨exCgSrv.2.take 4, exCgSrv.2.drop 4, by decide, by decide, by decide⟩, ?_⟩
  exact .inl ⟨b%"h", b%"h", rfl, rfl, by decide, rfl⟩

def exCgHost : Vhost := hostIn cfEnv exDepFiles exDepCa exDepDir exCgC exCgSrv

/-- the request for /app/x, or for /doc -/
theorem exCg_asks (up : Bool) : Asks (exCgEnv up) b%"gemini://h/app/x" [] (exIriPath b%"app/x") b%"h" ∧ Asks (exCgEnv up) b%"gemini://h/doc" [] (exIriPath b%"doc") b%"h" :=
  ⟨⟨noCrlf_of _ (by decide), by decide, by decide, by
    have : parseIri (fun _ => false) b%"gemini://h/app/x" = .ok (exIriPath b%"app/x") := by decide +kernel
    exact this, rfl⟩, ⟨noCrlf_of _ (by decide), by decide, by decide, by
    have : parseIri (fun _ => false) b%"gemini://h/doc" = .ok (exIriPath b%"doc") := by decide +kernel
    exact this, rfl⟩⟩

/-- nothing stands before the application -/
theorem exCg_free (up : Bool) (path : Bytes) : NoRelay (exCgEnv up).fnm exCgHost b%"gemini" b%"h" [] ∧ CertOk (exCgEnv up) exCgHost path ∧
    NoBlock (exCgEnv up).fnm exCgHost path := by
  have hp : exCgHost.proxies = [] := by decide +kernel
  have hl : ∀ l ∈ exCgHost.locs, l.reqca = none ∧ l.blockCode = 0 := by decide +kernel
  have hd : exCgHost.dflt.reqca = none ∧ exCgHost.dflt.blockCode = 0 := by decide +kernel
  exact ⟨by intro q hq; rw [hp] at hq; simp at hq, .inl ⟨fun l h k => k.1 (hl l h).1, hd.1⟩, ⟨fun l h k => k.1 (hl l h).2, hd.2⟩⟩

theorem exCg_block (up : Bool) : CgiBlock (exCgEnv up).fnm exCgSrv.2 b%"app/x" exCgOpts (b%"/run/app", none) := by
  refine ⟨by decide, .inl ⟨[(b%"/doc", [.fcgiOff])], b%"/app/x", [], by decide, ?_, ?_⟩⟩
  · show ((noSlash b%"/app/x" == b%"*") || (noSlash b%"/app/x" == _)) = true
    decide
  · intro y hy
    simp only [List.mem_singleton] at hy
    subst hy
    rintro ⟨_, h⟩
    have : ((noSlash b%"/doc" == b%"*") || (noSlash b%"/doc" == b%"app/x")) = true := h
    revert this
    decide

/-- C117_application_partial applies: gemini://h/app/x, and the application answers in two records -/
example : ∃ c1 stream ps f, step (exCgEnv true) 4096 (.read b%"gemini://h/app/x\r\n") (handshakeDone (exCgEnv true) (some b%"h") {}) = .ok c1 ∧
    workerAsks (exCgEnv true).fnm exCgSt b%"h" (exIriPath b%"app/x") b%"::1" b%"gmid/2" none = some (endpoint (b%"/run/app", none), stream) ∧
    receivesRequest stream 1 ps ∧ (b%"SCRIPT_NAME", b%"/app") ∈ ps ∧ (b%"PATH_INFO", b%"/x") ∈ ps ∧ (b%"PATH_TRANSLATED", b%"/d/x") ∈ ps ∧ (b%"K", b%"v") ∈ ps ∧
    fcgiRun (exCgEnv true) [.data ((exOut b%"20 text/gemini\r").wire ++ (exOut b%"\n# hi").wire ++ exEndR.wire)] { c := c1 } = .ok f ∧
    ∃ suffix, f.c.sent ++ f.c.out = b%"20 text/gemini" ++ suffix ++ b%"\r\n# hi" := by
  obtain ⟨c1, k, l, stream, ps, h1, _, _, h4, h5, h6, h7⟩ := C117_application_partial (exCg_serving true) exCgSt (exCg_worker true) (some b%"h") b%"h" (exCg_named true).2.2 exCgSrv
    (exCg_named true).1 (exCg_named true).2.1 exCgHost rfl _ _ _ _ (exCg_asks true).1 ⟨rfl, rfl⟩ (exCg_free true []).1 (exCg_free true _).2.1 (exCg_free true _).2.2
    _ _ (exCg_block true) (fun _ => rfl) rfl b%"::1" b%"gmid/2" none (by decide) (by decide) (by simp) 4096
  have hh : HasHeader (stdoutOf [exOut b%"20 text/gemini\r", exOut b%"\n# hi"]) 20 b%"text/gemini" b%"# hi" := by
    refine ⟨c%'2', c%'0', by decide, by decide, by decide, by decide, by decide, by decide, by decide, by decide, ?_, by decide⟩
    exact noCrlf_of _ (by decide)
  obtain ⟨f, f1, f2, _⟩ := h7 [exOut b%"20 text/gemini\r", exOut b%"\n# hi"] (by unfold OutputRec; decide)
    (by
      rintro code text body ⟨d1, d2, _, _, _, _, e, _, _, _, _, e2⟩
      left
      have : d1 = c%'2' ∧ d2 = c%'0' := by
        have e3 : stdoutOf [exOut b%"20 text/gemini\r", exOut b%"\n# hi"] = c%'2' :: c%'0' :: b%" text/gemini\r\n# hi" := by decide
        rw [e3] at e2
        simp only [List.cons_append, List.cons.injEq] at e2
        exact ⟨e2.1.symm, e2.2.1.symm⟩
      rw [e, this.1, this.2]
      decide)
    [.data ((exOut b%"20 text/gemini\r").wire ++ (exOut b%"\n# hi").wire ++ exEndR.wire)] exEndR.wire false (by decide +kernel)
    (.inl ⟨exEndR, [], by unfold EndRec; decide, by simp⟩)
  obtain ⟨suffix, _, f4⟩ := f2 20 b%"text/gemini" b%"# hi" hh
  have hs : ScriptIs exCgOpts b%"/app" := ⟨b%"/app/", b%"/", by decide, by simp, by decide, by decide⟩
  obtain ⟨s1, s2, _, s4⟩ := h6.script b%"/app" b%"/x" (by decide) hs (by decide) (by decide)
  obtain ⟨a, b, e⟩ := h6.own
  refine ⟨c1, stream, ps, f, h1, h4, h5, s1, s2, s4 b%"/d" (.inr ⟨by decide, by decide⟩) (by decide) (by decide) (by decide), ?_, f1, suffix, ?_⟩
  · rw [e]
    exact List.mem_append_left _ (List.mem_append_right _ (by decide))
  · rw [f4]
    have : intDec ((20 : Nat) : Int) ++ b%" " ++ cstr b%"text/gemini" = b%"20 text/gemini" := by decide +kernel
    rw [this]
    simp

/-- C117_unreachable applies -/
example : ∃ c1, step (exCgEnv false) 4096 (.read b%"gemini://h/app/x\r\n") (handshakeDone (exCgEnv false) (some b%"h") {}) = .ok c1 ∧ headerCodes c1.effs = [42] := by
  obtain ⟨c1, h1, h2, _⟩ := C117_unreachable (exCg_serving false) exCgSt (exCg_worker false) (some b%"h") b%"h" (exCg_named false).2.2 exCgSrv
    (exCg_named false).1 (exCg_named false).2.1 exCgHost rfl _ _ _ _ (exCg_asks false).1 ⟨rfl, rfl⟩ (exCg_free false []).1 (exCg_free false _).2.1 (exCg_free false _).2.2
    _ _ (exCg_block false) (fun _ => rfl) 4096
  exact ⟨c1, h1, h2⟩

/-- C117_off applies, to /doc -/
example : ∃ c1, step (exCgEnv true) 4096 (.read b%"gemini://h/doc\r\n") (handshakeDone (exCgEnv true) (some b%"h") {}) = .ok c1 ∧ ∀ k l, .fastcgi k l ∉ c1.effs := by
  refine (C117_off (exCg_serving true) exCgSt (exCg_worker true) (some b%"h") b%"h" (exCg_named true).2.2 exCgSrv
    (exCg_named true).1 (exCg_named true).2.1 exCgHost rfl _ _ _ _ (exCg_asks true).2 ⟨rfl, rfl⟩ (exCg_free true []).1 (exCg_free true _).2.1 (exCg_free true _).2.2
    ?_ b%"::1" b%"gmid/2" none 4096).2.2
  refine .inl ⟨[], (b%"/doc", [.fcgiOff]), [(b%"/app/x", exCgOpts)], by decide, .inl (by decide), ?_, by simp, by simp [lastOf, fcgiOf]⟩
  show ((noSlash b%"/doc" == b%"*") || (noSlash b%"/doc" == _)) = true
  decide

end Gmid.Props
