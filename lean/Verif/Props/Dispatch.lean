import Verif.Lemmas.Server
import Verif.Props.Vhost
import Verif.Props.Reply
import Verif.Props.Iri
import Verif.Props.Mime

/-! # C16, C17, C18, C20, C25, C53: what a request leads to -/

set_option autoImplicit false

namespace Gmid.Props
open Spec

/-! ## the rules in force, and the lookups of the code -/

section
variable (fnm : Bytes → Bytes → Bool) (v : Vhost) (path : Bytes)

theorem relayIs_iff (schema name port : Bytes) (p : Proxy) :
    RelayIs fnm v schema name port p ↔ matchedProxy fnm schema name port v.proxies = some p :=
  ((C32_first_matching_relay fnm schema name port v.proxies).1 p).symm

theorem noRelay_iff (schema name port : Bytes) :
    NoRelay fnm v schema name port ↔ matchedProxy fnm schema name port v.proxies = none :=
  (C32_first_matching_relay fnm schema name port v.proxies).2.symm

theorem caIs_eq (s : Nat) (h : CaIs fnm v path s) : vhostRequireCa fnm (some v) (some path) = some s := by
  rcases h with ⟨l, h1, h2⟩ | ⟨h1, h2⟩
  · rw [(C15_client_ca fnm v path).1 l h1, h2]
  · rw [(C15_client_ca fnm v path).2 h1, h2]

theorem noCa_eq (h : NoCa fnm v path) : vhostRequireCa fnm (some v) (some path) = none := by
  rw [(C15_client_ca fnm v path).2 h.1, h.2]

theorem blockIs_eq (code : Int) (fmt : Bytes) (h : BlockIs fnm v path code fmt) :
    vhostBlockReturn fnm (some v) (some path) = some (code, fmt) := by
  rcases h with ⟨l, h1, h2, h3⟩ | ⟨h1, h2, h3, h4⟩
  · rw [(C15_block_return fnm v path).1 l h1, h2, h3]
  · rw [(C15_block_return fnm v path).2 h1, if_neg h2, h3, h4]

theorem noBlock_eq (h : NoBlock fnm v path) : vhostBlockReturn fnm (some v) (some path) = none := by
  rw [(C15_block_return fnm v path).2 h.1, if_pos h.2]

theorem fcgiIs_eq (l : Location) (h : FcgiIs fnm v path l) : vhostFastcgi fnm (some v) (some path) = some l := by
  rcases h with ⟨h1, h2⟩ | ⟨h1, rfl, h2⟩
  · rw [(C15_fastcgi fnm v path).1 l h1, if_pos h2]
  · rw [(C15_fastcgi fnm v path).2 h1, if_pos h2]

theorem noFcgi_eq (h : NoFcgi fnm v path) : vhostFastcgi fnm (some v) (some path) = none := by
  rcases h with ⟨l, h1, h2⟩ | ⟨h1, h2⟩
  · rw [(C15_fastcgi fnm v path).1 l h1, if_neg (by simp [h2])]
  · rw [(C15_fastcgi fnm v path).2 h1, if_neg (by simp [h2])]

theorem rootIs_eq (fd : Int) : RootIs fnm v path fd ↔ (vhostDirfd fnm (some v) (some path)).1 = fd := by
  have key : ∀ fd, RootIs fnm v path fd → (vhostDirfd fnm (some v) (some path)).1 = fd := by
    intro fd h
    rcases h with ⟨l, ⟨b, a, h1, h2, h3, h4⟩, rfl⟩ | ⟨h1, rfl⟩
    · rw [(C15_root fnm v path).1 b l a h1 h2 h3 h4]
    · rw [(C15_root fnm v path).2 h1]
  refine ⟨key fd, fun h => ?_⟩
  rcases C15_exhaustive fnm (·.dirfd ≠ -1) v.locs path with ⟨l, hl⟩ | hn
  · have := key l.dirfd (.inl ⟨l, hl, rfl⟩)
    rw [← h, this]; exact .inl ⟨l, hl, rfl⟩
  · have := key v.dflt.dirfd (.inr ⟨hn, rfl⟩)
    rw [← h, this]; exact .inr ⟨hn, rfl⟩

end

/-! ## from the request line to the handlers -/

theorem toLower_lower : ∀ c : UInt8, toLower c = lower c := by decide +kernel

theorem eqNoCase_iff (a b : Bytes) : eqNoCase a b = true ↔ a.map lower = b.map lower := by
  have : toLower = lower := funext toLower_lower
  simp [eqNoCase, this]

/-- the connection when the handlers run -/
def parsed (c : Client) (rest : Bytes) (i : Iri) : Client := { c with inp := rest, iri := some i }

theorem clientRead_wellformed {env : Env} {c : Client} {v : Vhost} {name req rest : Bytes} {i : Iri}
    {decoded : Bytes} (h : WellFormed env c v name req rest i decoded) :
    clientRead env c = dispatch env (parsed c rest i) i decoded := by
  obtain ⟨⟨r1, r2, r3, r4, r5, r6, r7, r8, r9⟩, h0, hp, hd⟩ := h
  unfold clientRead
  rw [if_neg (by simp [r1]), if_neg (by omega), r7, readLine_append req rest r8]
  have hlen : ¬ req.length > 1024 + 2 := by rw [r7] at r9; simp at r9; omega
  simp only
  rw [if_neg hlen, if_neg h0]
  simp only [hp, hd]
  rfl

section
variable {env : Env} {c : Client} {v : Vhost} {name req rest : Bytes} {i : Iri} {decoded : Bytes}

theorem dispatch_noRelay (h : WellFormed env c v name req rest i decoded)
    (hn : NoRelay env.fnm v i.schema name i.port) :
    applyReverseProxy env (parsed c rest i) i = (parsed c rest i, false) := by
  have : clientProxy env (parsed c rest i) i = none := by
    simp only [clientProxy, parsed, h.requested.host, h.requested.domain]
    exact (noRelay_iff _ _ _ _ _).1 hn
  simp [applyReverseProxy, this]

theorem checkCert_none (c : Client) (store : Nat) (h : env.certProvided = false) :
    checkCert env c store = (startReply env c 60 b%"client certificate required", true) := by
  simp [checkCert, h]

theorem checkCert_bad (c : Client) (store : Nat) (h : env.certProvided = true) (hv : env.verify store = 0) :
    checkCert env c store = (startReply env c 61 b%"certificate not authorised", true) := by
  simp [checkCert, h, hv]

theorem checkCert_ok (c : Client) (store : Nat) (h : env.certProvided = true) (hv : env.verify store ≠ 0) :
    checkCert env c store = (c, false) := by
  simp [checkCert, h, hv]

/-- a short reply on the fresh connection -/
theorem reply_fresh (h : WellFormed env c v name req rest i decoded) (code : Int) (mt : Bytes)
    (h1 : mt ≠ b%"text/gemini") (h2 : (intDec code).length + 1 + mt.length ≤ 1027) (hc : code ≠ 20) :
    let c' := startReply env (parsed c rest i) code mt
    c'.out = intDec code ++ b%" " ++ mt ++ b%"\r\n" ∧ OnlyReply code c'.effs ∧ c'.type = .done := by
  simp only
  rw [startReply_short env _ code mt h1 h2]
  have hr := queueHeader_replied env (parsed c rest i) code mt (intDec code ++ c%' ' :: mt)
  refine ⟨?_, ?_, ?_⟩
  · simp [queueHeader, parsed, h.requested.out]
  · obtain ⟨e, he1, he2⟩ := hr.effs
    rw [he1]; simpa [parsed, h.requested.effs] using he2
  · rw [hr.type, if_pos hc]

/-- C17 on a relay-to rule: without a certificate the reply is 60, with one that does not verify it
is 61, and nothing else happens (in particular the upstream is not contacted). -/
theorem C17_relay_partial (h : WellFormed env c v name req rest i decoded) (p : Proxy) (store : Nat)
    (hp : RelayIs env.fnm v i.schema name i.port p) (hca : p.reqca = some store) :
    (env.certProvided = false → ∃ c', clientRead env c = .ok c' ∧
      c'.out = b%"60 client certificate required\r\n" ∧ OnlyReply 60 c'.effs ∧ c'.type = .done) ∧
    (env.certProvided = true → env.verify store = 0 → ∃ c', clientRead env c = .ok c' ∧
      c'.out = b%"61 certificate not authorised\r\n" ∧ OnlyReply 61 c'.effs ∧ c'.type = .done) := by
  have hm : clientProxy env (parsed c rest i) i = some p := by
    simp only [clientProxy, parsed, h.requested.host, h.requested.domain]
    exact (relayIs_iff _ _ _ _ _ _).1 hp
  constructor
  · intro hc
    refine ⟨startReply env (parsed c rest i) 60 b%"client certificate required", ?_, ?_⟩
    · rw [clientRead_wellformed h]
      simp only [dispatch, applyReverseProxy, hm, hca, checkCert_none _ store hc]
    · exact reply_fresh h 60 b%"client certificate required" (by decide) (by decide) (by decide)
  · intro hc hv
    refine ⟨startReply env (parsed c rest i) 61 b%"certificate not authorised", ?_, ?_⟩
    · rw [clientRead_wellformed h]
      simp only [dispatch, applyReverseProxy, hm, hca, checkCert_bad _ store hc hv]
    · exact reply_fresh h 61 b%"certificate not authorised" (by decide) (by decide) (by decide)

/-- C17 on a location or server: same, and no file is opened, no FastCGI application contacted, no
block return applied. -/
theorem C17_location_partial (h : WellFormed env c v name req rest i decoded) (store : Nat)
    (hn : NoRelay env.fnm v i.schema name i.port) (hu : ForUs i name decoded)
    (hca : CaIs env.fnm v i.path store) :
    (env.certProvided = false → ∃ c', clientRead env c = .ok c' ∧
      c'.out = b%"60 client certificate required\r\n" ∧ OnlyReply 60 c'.effs ∧ c'.type = .done) ∧
    (env.certProvided = true → env.verify store = 0 → ∃ c', clientRead env c = .ok c' ∧
      c'.out = b%"61 certificate not authorised\r\n" ∧ OnlyReply 61 c'.effs ∧ c'.type = .done) := by
  have hdom : eqNoCase (parsed c rest i).domain decoded = true := by
    rw [eqNoCase_iff]; simp only [parsed, h.requested.domain]; exact hu.2
  have hs : vhostRequireCa env.fnm (parsed c rest i).host (some i.path) = some store := by
    simp only [parsed, h.requested.host]; exact caIs_eq _ _ _ _ hca
  constructor
  · intro hc
    refine ⟨startReply env (parsed c rest i) 60 b%"client certificate required", ?_, ?_⟩
    · rw [clientRead_wellformed h]
      simp only [dispatch, dispatch_noRelay h hn, hdom, hu.1, applyRequireCa, hs, checkCert_none _ store hc]
      rfl
    · exact reply_fresh h 60 b%"client certificate required" (by decide) (by decide) (by decide)
  · intro hc hv
    refine ⟨startReply env (parsed c rest i) 61 b%"certificate not authorised", ?_, ?_⟩
    · rw [clientRead_wellformed h]
      simp only [dispatch, dispatch_noRelay h hn, hdom, hu.1, applyRequireCa, hs, checkCert_bad _ store hc hv]
      rfl
    · exact reply_fresh h 61 b%"certificate not authorised" (by decide) (by decide) (by decide)

/-- C18: with no relay-to rule for it, a request for another scheme or another host than the one
negotiated gets 53 and nothing is opened or contacted. -/
theorem C18_refused (h : WellFormed env c v name req rest i decoded)
    (hn : NoRelay env.fnm v i.schema name i.port) (hu : ¬ ForUs i name decoded) :
    ∃ c', clientRead env c = .ok c' ∧ c'.out = b%"53 won't proxy request\r\n" ∧
      OnlyReply 53 c'.effs ∧ c'.type = .done := by
  refine ⟨startReply env (parsed c rest i) 53 b%"won't proxy request", ?_, ?_⟩
  · rw [clientRead_wellformed h]
    simp only [dispatch, dispatch_noRelay h hn]
    rw [if_pos]
    by_cases hs : i.schema = b%"gemini"
    · have : ¬ eqNoCase (parsed c rest i).domain decoded = true := by
        rw [eqNoCase_iff]; simp only [parsed, h.requested.domain]; exact fun e => hu ⟨hs, e⟩
      simp [this]
    · simp [hs]
  · exact reply_fresh h 53 b%"won't proxy request" (by decide) (by decide) (by decide)

theorem certOk_apply (h : WellFormed env c v name req rest i decoded) (hc : CertOk env v i.path) :
    applyRequireCa env (parsed c rest i) i = (parsed c rest i, false) := by
  have hh : (parsed c rest i).host = some v := h.requested.host
  rcases hc with hn | ⟨store, h1, h2, h3⟩
  · simp [applyRequireCa, hh, noCa_eq _ _ _ hn]
  · simp only [applyRequireCa, hh, caIs_eq _ _ _ _ h1]
    exact checkCert_ok _ _ h2 h3

/-- past the checks: block return, FastCGI or files -/
theorem dispatch_checked (h : WellFormed env c v name req rest i decoded)
    (hn : NoRelay env.fnm v i.schema name i.port) (hu : ForUs i name decoded) (hc : CertOk env v i.path) :
    clientRead env c =
      match applyBlockReturn env (parsed c rest i) i with
      | .err => .err
      | .ub => .ub
      | .ok (c, true) => .ok c
      | .ok (c, false) =>
        match applyFastcgi env c i with
        | (c, true) => .ok c
        | (c, false) => serveFile env c i := by
  have hdom : eqNoCase (parsed c rest i).domain decoded = true := by
    rw [eqNoCase_iff]; simp only [parsed, h.requested.domain]; exact hu.2
  rw [clientRead_wellformed h]
  simp only [dispatch, dispatch_noRelay h hn, hdom, hu.1, certOk_apply h hc]
  rfl

theorem dispatch_file (h : WellFormed env c v name req rest i decoded)
    (hn : NoRelay env.fnm v i.schema name i.port) (hu : ForUs i name decoded) (hc : CertOk env v i.path)
    (hb : NoBlock env.fnm v i.path) (hf : NoFcgi env.fnm v i.path) :
    clientRead env c = serveFile env (parsed c rest i) i := by
  have hh : (parsed c rest i).host = some v := h.requested.host
  rw [dispatch_checked h hn hu hc]
  simp [applyBlockReturn, hh, noBlock_eq _ _ _ hb, applyFastcgi, noFcgi_eq _ _ _ hf]

end

/-! ## the file handler -/

section
variable (env : Env)

theorem vhostIndex_ne (fnm : Bytes → Bytes → Bool) (v : Option Vhost) (path : Option Bytes) :
    vhostIndex fnm v path ≠ [] := by
  have hl : ∀ p locs x, indexLoop fnm p locs = some x → x ≠ [] := by
    intro p locs
    induction locs with
    | nil => simp [indexLoop]
    | cons l r ih =>
      intro x h
      simp only [indexLoop] at h
      split at h
      · split at h
        · cases h; assumption
        · exact ih x h
      · exact ih x h
  unfold vhostIndex
  split
  · split
    · rename_i h; exact hl _ _ _ h
    · split
      · assumption
      · simp
  · simp

theorem mimeType_ok (fnm : Bytes → Bytes → Bool) (t : List Etm) (v : Option Vhost) (p : Bytes) (h : p ≠ []) :
    ∃ m, mimeType fnm t v p = .ok m := by
  obtain ⟨o, ho, -⟩ := pathExt_spec p h
  simp only [mimeType, ho]
  cases o with
  | none => exact ⟨_, rfl⟩
  | some e =>
    simp only
    cases bsearchExt e t with
    | some e => exact ⟨_, rfl⟩
    | none => simp only; split <;> exact ⟨_, rfl⟩

theorem openName_ne (strip : Int) (path : Bytes) : openName strip path ≠ [] := by
  unfold openName
  simp only
  split
  · simp
  · assumption

/-- everything dirListing may do: one reply (51, 40 or 20), more output, and a new type -/
theorem dirListing_effs (c : Client) (i : Iri) :
    ∃ code e, (dirListing env c i).effs = c.effs ++ e ∧ OnlyReply code e ∧
      (code = 51 ∨ code = 40 ∨ code = 20) := by
  unfold dirListing
  split
  · obtain ⟨e, h1, h2⟩ := (startReply_replied_short env c 51 b%"not found" (by decide) (by decide)).effs
    exact ⟨51, e, h1, h2, .inl rfl⟩
  · split
    · obtain ⟨e, h1, h2⟩ := (startReply_replied_short env c 40 b%"internal server error" (by decide) (by decide)).effs
      exact ⟨40, e, h1, h2, .inr (.inl rfl)⟩
    · rename_i d hd
      rcases startReply_replied env { c with dir := d, type := .dir } 20 b%"text/gemini" with h | h
      · obtain ⟨e, h1, h2⟩ := h.effs
        exact ⟨20, e, h1, h2, .inr (.inr rfl)⟩
      · obtain ⟨e, h1, h2⟩ := h.effs
        exact ⟨40, e, h1, h2, .inr (.inl rfl)⟩

theorem openDir_effs (c : Client) (i : Iri) :
    ∃ c' code e, openDir env c i = .ok c' ∧ OnlyReply code e ∧
      ((c'.effs = c.effs ++ e ∧ i.path ≠ [] ∧ endsWith i.path b%"/" = false ∧ (code = 30 ∨ code = 40)) ∨
       (c'.effs = c.effs ++ .openat c.pfd (vhostIndex env.fnm c.host (some i.path)) :: e ∧
        (i.path = [] ∨ endsWith i.path b%"/" = true) ∧ (code = 51 ∨ code = 40 ∨ code = 20))) := by
  unfold openDir
  split
  · rename_i hc
    simp only [ne_eq, Bool.and_eq_true, decide_eq_true_eq, Bool.not_eq_true'] at hc
    unfold redirectDir
    simp only
    split
    · obtain ⟨e, h1, h2⟩ := (startReply_replied_short env c 40 b%"internal server error" (by decide) (by decide)).effs
      exact ⟨_, 40, e, rfl, h2, .inl ⟨h1, hc.1, hc.2, .inr rfl⟩⟩
    · rcases startReply_replied env c 30 (c%'/' :: (i.path ++ b%"/")) with h | h
      · obtain ⟨e, h1, h2⟩ := h.effs
        exact ⟨_, 30, e, rfl, h2, .inl ⟨h1, hc.1, hc.2, .inl rfl⟩⟩
      · obtain ⟨e, h1, h2⟩ := h.effs
        exact ⟨_, 40, e, rfl, h2, .inl ⟨h1, hc.1, hc.2, .inr rfl⟩⟩
  · rename_i hc
    have hc' : i.path = [] ∨ endsWith i.path b%"/" = true := by
      by_cases hp : i.path = []
      · exact .inl hp
      · right
        simpa [hp] using hc
    simp only
    split
    · obtain ⟨code, e, h1, h2, h3⟩ := dirListing_effs env
        { c with effs := c.effs ++ [Eff.openat c.pfd (vhostIndex env.fnm c.host (some i.path))] } i
      exact ⟨_, code, e, rfl, h2, .inr ⟨by rw [h1]; simp, hc', h3⟩⟩
    · rename_i fd hfd
      split
      · obtain ⟨e, h1, h2⟩ := (startReply_replied_short env
          { c with effs := c.effs ++ [Eff.openat c.pfd (vhostIndex env.fnm c.host (some i.path))] }
          40 b%"internal server error" (by decide) (by decide)).effs
        exact ⟨_, 40, e, rfl, h2, .inr ⟨by rw [h1]; simp, hc', .inr (.inl rfl)⟩⟩
      · obtain ⟨m, hm⟩ := mimeType_ok env.fnm env.mimes c.host
          ((i.path ++ vhostIndex env.fnm c.host (some i.path)).take 4095) (by
            intro h
            have := vhostIndex_ne env.fnm c.host (some i.path)
            rw [List.take_eq_nil_iff] at h
            rcases h with h | h
            · omega
            · rw [List.append_eq_nil_iff] at h; exact this h.2)
        rw [hm]
        rcases startReply_replied env
          { c with effs := c.effs ++ [Eff.openat c.pfd (vhostIndex env.fnm c.host (some i.path))], pfd := fd,
                   type := .file } 20 m with h | h
        · obtain ⟨e, h1, h2⟩ := h.effs
          exact ⟨_, 20, e, rfl, h2, .inr ⟨by rw [h1]; simp, hc', .inr (.inr rfl)⟩⟩
        · obtain ⟨e, h1, h2⟩ := h.effs
          exact ⟨_, 40, e, rfl, h2, .inr ⟨by rw [h1]; simp, hc', .inr (.inl rfl)⟩⟩
      · obtain ⟨code, e, h1, h2, h3⟩ := dirListing_effs env
          { c with effs := c.effs ++ [Eff.openat c.pfd (vhostIndex env.fnm c.host (some i.path))] } i
        exact ⟨_, code, e, rfl, h2, .inr ⟨by rw [h1]; simp, hc', h3⟩⟩

/-- everything the file handler may do -/
theorem serveFile_effs (c : Client) (i : Iri) :
    ∃ c' code e, serveFile env c i = .ok c' ∧ OnlyReply code e ∧
      let dirfd := (vhostDirfd env.fnm c.host (some i.path)).1
      let p := openName (vhostStrip env.fnm c.host (some i.path)) i.path
      ((c'.effs = c.effs ++ .openat dirfd p :: e ∧ (code = 51 ∨ code = 40 ∨ code = 20) ∧
          ¬ ∃ fd, env.openat dirfd p = some fd ∧ env.fstat fd = some .dir) ∨
       ∃ fd, env.openat dirfd p = some fd ∧ env.fstat fd = some .dir ∧
        ((c'.effs = c.effs ++ .openat dirfd p :: e ∧ i.path ≠ [] ∧ endsWith i.path b%"/" = false ∧
            (code = 30 ∨ code = 40)) ∨
         (c'.effs = c.effs ++ .openat dirfd p :: .openat fd (vhostIndex env.fnm c.host (some i.path)) :: e ∧
            (i.path = [] ∨ endsWith i.path b%"/" = true) ∧ (code = 51 ∨ code = 40 ∨ code = 20)))) := by
  unfold serveFile
  simp only
  split
  · rename_i ho
    obtain ⟨e, h1, h2⟩ := (startReply_replied_short env
      { c with loc := (vhostDirfd env.fnm c.host (some i.path)).2,
               effs := c.effs ++ [Eff.openat (vhostDirfd env.fnm c.host (some i.path)).1
                (openName (vhostStrip env.fnm c.host (some i.path)) i.path)], pfd := -1 }
      51 b%"not found" (by decide) (by decide)).effs
    exact ⟨_, 51, e, rfl, h2, .inl ⟨by rw [h1]; simp, .inl rfl, by simp [ho]⟩⟩
  · rename_i fd ho
    split
    · rename_i hs
      obtain ⟨e, h1, h2⟩ := (startReply_replied_short env
        { c with loc := (vhostDirfd env.fnm c.host (some i.path)).2,
                 effs := c.effs ++ [Eff.openat (vhostDirfd env.fnm c.host (some i.path)).1
                  (openName (vhostStrip env.fnm c.host (some i.path)) i.path)], pfd := fd }
        40 b%"internal server error" (by decide) (by decide)).effs
      exact ⟨_, 40, e, rfl, h2, .inl ⟨by rw [h1]; simp, .inr (.inl rfl), by simp [ho, hs]⟩⟩
    · rename_i hs
      obtain ⟨c', code, e, h1, h2, h3⟩ := openDir_effs env
        { c with loc := (vhostDirfd env.fnm c.host (some i.path)).2,
                 effs := c.effs ++ [Eff.openat (vhostDirfd env.fnm c.host (some i.path)).1
                  (openName (vhostStrip env.fnm c.host (some i.path)) i.path)], pfd := fd } i
      refine ⟨c', code, e, h1, h2, .inr ⟨fd, ho, hs, ?_⟩⟩
      rcases h3 with ⟨k1, k2, k3, k4⟩ | ⟨k1, k2, k3⟩
      · left; exact ⟨by rw [k1]; simp, k2, k3, k4⟩
      · right; exact ⟨by rw [k1]; simp, k2, k3⟩
    · rename_i k hk hs
      obtain ⟨m, hm⟩ := mimeType_ok env.fnm env.mimes c.host _
        (openName_ne (vhostStrip env.fnm c.host (some i.path)) i.path)
      rw [hm]
      rcases startReply_replied env
        { c with loc := (vhostDirfd env.fnm c.host (some i.path)).2,
                 effs := c.effs ++ [Eff.openat (vhostDirfd env.fnm c.host (some i.path)).1
                  (openName (vhostStrip env.fnm c.host (some i.path)) i.path)], pfd := fd, type := .file } 20 m with h | h
      · obtain ⟨e, h1, h2⟩ := h.effs
        exact ⟨_, 20, e, rfl, h2, .inl ⟨by rw [h1]; simp, .inr (.inr rfl), by simp [ho, hs]; intro e; exact hk e⟩⟩
      · obtain ⟨e, h1, h2⟩ := h.effs
        exact ⟨_, 40, e, rfl, h2, .inl ⟨by rw [h1]; simp, .inr (.inl rfl), by simp [ho, hs]; intro e; exact hk e⟩⟩

end

/-! ## C20 -/

section
variable {env : Env} {c : Client} {v : Vhost} {name req rest : Bytes} {i : Iri} {decoded : Bytes}

theorem onlyReply_quiet {code : Int} {e : List Eff} (h : OnlyReply code e) : ∀ x ∈ e, Quiet x := by
  obtain ⟨t, rfl | ⟨m, rfl⟩⟩ := h
  · simp [Quiet]
  · simp [Quiet]

theorem applyFastcgi_effs (env : Env) (c : Client) (i : Iri) (l : Location)
    (h : vhostFastcgi env.fnm c.host (some i.path) = some l) (h0 : 0 ≤ l.fcgi) (h1 : l.fcgi < env.nFcgi) :
    ∃ c' e, applyFastcgi env c i = (c', true) ∧ c'.effs = c.effs ++ .fastcgi l.fcgi l :: e ∧ ∀ x ∈ e, Quiet x := by
  unfold applyFastcgi
  simp only [h]
  rw [if_neg (fun hx => hx ⟨h0, h1⟩)]
  split
  · obtain ⟨e, k1, k2⟩ := (startReply_replied_short env
      { c with effs := c.effs ++ [Eff.fastcgi l.fcgi l] } 42 b%"CGI error" (by decide) (by decide)).effs
    exact ⟨_, e, rfl, by rw [k1]; simp, onlyReply_quiet k2⟩
  · split
    · obtain ⟨e, k1, k2⟩ := (startReply_replied_short env
        { c with effs := c.effs ++ [Eff.fastcgi l.fcgi l] } 40 b%"internal server error" (by decide) (by decide)).effs
      exact ⟨_, e, rfl, by rw [k1]; simp, onlyReply_quiet k2⟩
    · exact ⟨_, [], rfl, by simp, by simp⟩

/-- C20, the conditions of `C20_precedence` are exhaustive. -/
theorem C20_exhaustive (fnm : Bytes → Bytes → Bool) (v : Vhost) (schema name port path : Bytes) :
    ((∃ p, RelayIs fnm v schema name port p) ∨ NoRelay fnm v schema name port) ∧
    ((∃ s, CaIs fnm v path s) ∨ NoCa fnm v path) ∧
    ((∃ code fmt, BlockIs fnm v path code fmt) ∨ NoBlock fnm v path) ∧
    ((∃ l, FcgiIs fnm v path l) ∨ NoFcgi fnm v path) := by
  refine ⟨?_, ?_, ?_, ?_⟩
  · cases h : matchedProxy fnm schema name port v.proxies with
    | none => right; exact (noRelay_iff _ _ _ _ _).2 h
    | some p => left; exact ⟨p, (relayIs_iff _ _ _ _ _ _).2 h⟩
  · rcases C15_exhaustive fnm (·.reqca ≠ none) v.locs path with ⟨l, hl⟩ | hn
    · left
      have := hl
      obtain ⟨_, _, _, h1, _⟩ := this
      obtain ⟨s, hs⟩ := Option.ne_none_iff_exists'.1 h1
      exact ⟨s, .inl ⟨l, hl, hs⟩⟩
    · cases hd : v.dflt.reqca with
      | none => right; exact ⟨hn, hd⟩
      | some s => left; exact ⟨s, .inr ⟨hn, hd⟩⟩
  · rcases C15_exhaustive fnm (·.blockCode ≠ 0) v.locs path with ⟨l, hl⟩ | hn
    · left; exact ⟨_, _, .inl ⟨l, hl, rfl, rfl⟩⟩
    · by_cases hd : v.dflt.blockCode = 0
      · right; exact ⟨hn, hd⟩
      · left; exact ⟨_, _, .inr ⟨hn, hd, rfl, rfl⟩⟩
  · rcases C15_exhaustive fnm (fun l => l.fcgi ≠ -1 ∨ l.nofcgi = true) v.locs path with ⟨l, hl⟩ | hn
    · by_cases hf : l.fcgi = -1
      · right; exact .inl ⟨l, hl, hf⟩
      · left; exact ⟨l, .inl ⟨hl, hf⟩⟩
    · by_cases hd : v.dflt.fcgi = -1
      · right; exact .inr ⟨hn, hd⟩
      · left; exact ⟨_, .inr ⟨hn, rfl, hd⟩⟩

/-- C20: relay-to first.  Only the upstream of the rule is contacted, exactly when the rule's
certificate requirement is met. -/
theorem C20_relay_first (h : WellFormed env c v name req rest i decoded) (p : Proxy)
    (hp : RelayIs env.fnm v i.schema name i.port p) :
    ∃ c', clientRead env c = .ok c' ∧ (∀ e ∈ c'.effs, Quiet e ∨ e = .relay p) ∧
      (.relay p ∈ c'.effs ↔ ∀ store, p.reqca = some store → env.certProvided = true ∧ env.verify store ≠ 0) := by
  have hm : clientProxy env (parsed c rest i) i = some p := by
    simp only [clientProxy, parsed, h.requested.host, h.requested.domain]
    exact (relayIs_iff _ _ _ _ _ _).1 hp
  have hrelay : (∀ e ∈ (relayTo env (parsed c rest i) p).effs, Quiet e ∨ e = .relay p) ∧
      .relay p ∈ (relayTo env (parsed c rest i) p).effs := by
    have he : (parsed c rest i).effs = [] := h.requested.effs
    unfold relayTo
    simp only
    have hsr := (startReply_replied_short env { parsed c rest i with effs := (parsed c rest i).effs ++ [Eff.relay p] }
      43 b%"proxy error" (by decide) (by decide)).effs
    obtain ⟨e, h1, h2⟩ := hsr
    split
    · rw [h1, he]
      refine ⟨fun x hx => ?_, by simp⟩
      simp at hx
      rcases hx with rfl | hx
      · exact .inr rfl
      · exact .inl (onlyReply_quiet h2 x hx)
    · split
      · rw [h1, he]
        refine ⟨fun x hx => ?_, by simp⟩
        simp at hx
        rcases hx with rfl | hx
        · exact .inr rfl
        · exact .inl (onlyReply_quiet h2 x hx)
      · simp [he]
  have hq : ∀ code e, OnlyReply code e → .relay p ∉ e := by
    intro code e ho hin
    exact onlyReply_quiet ho _ hin
  rw [clientRead_wellformed h]
  cases hca : p.reqca with
  | none =>
    refine ⟨relayTo env (parsed c rest i) p, ?_, hrelay.1, ?_⟩
    · simp only [dispatch, applyReverseProxy, hm, hca]
    · simp [hrelay.2]
  | some store =>
    cases hc : env.certProvided with
    | false =>
      refine ⟨startReply env (parsed c rest i) 60 b%"client certificate required", ?_, ?_, ?_⟩
      · simp only [dispatch, applyReverseProxy, hm, hca, checkCert_none _ store hc]
      · exact fun e he => .inl (onlyReply_quiet (reply_fresh h 60 b%"client certificate required" (by decide) (by decide) (by decide)).2.1 e he)
      · have := hq _ _ (reply_fresh h 60 b%"client certificate required" (by decide) (by decide) (by decide)).2.1
        simp [this]
    | true =>
      by_cases hv : env.verify store = 0
      · refine ⟨startReply env (parsed c rest i) 61 b%"certificate not authorised", ?_, ?_, ?_⟩
        · simp only [dispatch, applyReverseProxy, hm, hca, checkCert_bad _ store hc hv]
        · exact fun e he => .inl (onlyReply_quiet (reply_fresh h 61 b%"certificate not authorised" (by decide) (by decide) (by decide)).2.1 e he)
        · have := hq _ _ (reply_fresh h 61 b%"certificate not authorised" (by decide) (by decide) (by decide)).2.1
          simp [this, hv]
      · refine ⟨relayTo env (parsed c rest i) p, ?_, hrelay.1, ?_⟩
        · simp only [dispatch, applyReverseProxy, hm, hca, checkCert_ok _ store hc hv]
        · simp [hrelay.2, hv]

/-- C20: the rest of the order of precedence, for requests no relay-to rule matches. -/
theorem C20_precedence (h : WellFormed env c v name req rest i decoded)
    (hn : NoRelay env.fnm v i.schema name i.port) :
    -- refused
    (¬ ForUs i name decoded → ∃ c', clientRead env c = .ok c' ∧ OnlyReply 53 c'.effs) ∧
    -- certificate
    (ForUs i name decoded → ¬ CertOk env v i.path →
      ∃ c', clientRead env c = .ok c' ∧ (OnlyReply 60 c'.effs ∨ OnlyReply 61 c'.effs)) ∧
    -- block return (40 when the text makes the header too long)
    (ForUs i name decoded → CertOk env v i.path → ∀ code fmt, BlockIs env.fnm v i.path code fmt →
      checkBlockFmt fmt = .ok true →
      ∃ c', clientRead env c = .ok c' ∧ (OnlyReply code c'.effs ∨ OnlyReply 40 c'.effs)) ∧
    -- FastCGI
    (ForUs i name decoded → CertOk env v i.path → NoBlock env.fnm v i.path →
      ∀ l, FcgiIs env.fnm v i.path l → 0 ≤ l.fcgi → l.fcgi < env.nFcgi →
      ∃ c' e, clientRead env c = .ok c' ∧ c'.effs = .fastcgi l.fcgi l :: e ∧ ∀ x ∈ e, Quiet x) ∧
    -- files
    (ForUs i name decoded → CertOk env v i.path → NoBlock env.fnm v i.path → NoFcgi env.fnm v i.path →
      ∃ c' fd p e, clientRead env c = .ok c' ∧ RootIs env.fnm v i.path fd ∧ c'.effs = .openat fd p :: e ∧
        ∀ x ∈ e, Quiet x ∨ ∃ fd', env.openat fd p = some fd' ∧
          x = .openat fd' (vhostIndex env.fnm (some v) (some i.path))) := by
  have hh : (parsed c rest i).host = some v := h.requested.host
  have he : (parsed c rest i).effs = [] := h.requested.effs
  refine ⟨?_, ?_, ?_, ?_, ?_⟩
  · intro hu
    obtain ⟨c', h1, -, h2, -⟩ := C18_refused h hn hu
    exact ⟨c', h1, h2⟩
  · intro hu hc
    rcases (C20_exhaustive env.fnm v i.schema name i.port i.path).2.1 with ⟨s, hs⟩ | hno
    · have := C17_location_partial h s hn hu hs
      cases hcp : env.certProvided with
      | false => obtain ⟨c', h1, -, h2, -⟩ := this.1 hcp; exact ⟨c', h1, .inl h2⟩
      | true =>
        by_cases hv : env.verify s = 0
        · obtain ⟨c', h1, -, h2, -⟩ := this.2 hcp hv; exact ⟨c', h1, .inr h2⟩
        · exact absurd (.inr ⟨s, hs, hcp, hv⟩) hc
    · exact absurd (.inl hno) hc
  · intro hu hc code fmt hb hfmt
    rw [dispatch_checked h hn hu hc]
    obtain ⟨t, ht⟩ : ∃ t, fmtbuf 1027 fmt (stripPath i.path (vhostStrip env.fnm (some v) (some i.path))) i.query
        (parsed c rest i).domain env.port = .ok t := by
      have key : ∀ (fmt : Bytes), checkBlockFmt fmt = .ok true → ∀ (path query name : Bytes) (port : Int) (buf tmp : Bytes),
          ∃ t, fmtLoop 1027 path query name port buf tmp fmt = .ok t := by
        intro fmt hf path query name port
        obtain ⟨out, ho⟩ := (C23_accepted_formats path query name b%"0" fmt).1 hf
        clear hf
        induction ho with
        | nil => intro buf tmp; exact ⟨_, by rw [fmtLoop]⟩
        | lit x f o hx _ ih =>
          intro buf tmp
          rw [fmtLoop_lit _ _ _ _ _ _ _ _ _ hx]
          split
          · exact ih _ _
          · exact ih _ _
        | pct f o _ ih => intro buf tmp; simp only [List.cons_append, List.nil_append]; rw [fmtLoop]; exact ih _ _
        | path f o _ ih => intro buf tmp; simp only [List.cons_append, List.nil_append]; rw [fmtLoop]; exact ih _ _
        | query f o _ ih => intro buf tmp; simp only [List.cons_append, List.nil_append]; rw [fmtLoop]; exact ih _ _
        | port f o _ ih => intro buf tmp; simp only [List.cons_append, List.nil_append]; rw [fmtLoop]; exact ih _ _
        | name f o _ ih => intro buf tmp; simp only [List.cons_append, List.nil_append]; rw [fmtLoop]; exact ih _ _
      exact key fmt hfmt _ _ _ _ _ _
    refine ⟨startReply env (parsed c rest i) code t, ?_, ?_⟩
    · simp only [applyBlockReturn, hh, blockIs_eq _ _ _ _ _ hb, ht]
    · rcases startReply_replied env (parsed c rest i) code t with hr | hr
      · obtain ⟨e, h1, h2⟩ := hr.effs
        left; rw [h1, he]; exact h2
      · obtain ⟨e, h1, h2⟩ := hr.effs
        right; rw [h1, he]; exact h2
  · intro hu hc hb l hl h0 h1
    rw [dispatch_checked h hn hu hc]
    have hbl : applyBlockReturn env (parsed c rest i) i = .ok (parsed c rest i, false) := by
      simp [applyBlockReturn, hh, noBlock_eq _ _ _ hb]
    obtain ⟨c', e, k1, k2, k3⟩ := applyFastcgi_effs env (parsed c rest i) i l
      (by rw [hh]; exact fcgiIs_eq _ _ _ _ hl) h0 h1
    rw [hbl]
    simp only [k1]
    exact ⟨c', e, rfl, by rw [k2, he]; rfl, k3⟩
  · intro hu hc hb hf
    rw [dispatch_file h hn hu hc hb hf]
    obtain ⟨c', code, e, h1, h2, h3⟩ := serveFile_effs env (parsed c rest i) i
    simp only [hh] at h3
    have hroot : RootIs env.fnm v i.path (vhostDirfd env.fnm (some v) (some i.path)).1 := (rootIs_eq _ _ _ _).2 rfl
    rcases h3 with ⟨k1, -⟩ | ⟨fd, k0, -, (⟨k1, -⟩ | ⟨k1, -⟩)⟩
    · exact ⟨c', _, _, e, h1, hroot, by rw [k1, he]; rfl, fun x hx => .inl (onlyReply_quiet h2 x hx)⟩
    · exact ⟨c', _, _, e, h1, hroot, by rw [k1, he]; rfl, fun x hx => .inl (onlyReply_quiet h2 x hx)⟩
    · refine ⟨c', _, _, _ :: e, h1, hroot, by rw [k1, he]; rfl, fun x hx => ?_⟩
      rcases List.mem_cons.1 hx with rfl | hx
      · exact .inr ⟨fd, k0, rfl⟩
      · exact .inl (onlyReply_quiet h2 x hx)

end

end Gmid.Props
