import Verif.Model.Ge
import Verif.Spec.Ge
import Verif.Props.Conn
import Verif.Props.Body
import Verif.Props.Listing
import Verif.Lemmas.Exec

/-! # C107: gemexp offers the directory it was given, and nothing else -/

set_option autoImplicit false

namespace Gmid.Props
open Spec

section
variable (env : Env)

/-! ## dispatch -/

theorem ge_dispatch (dir : Bytes) (dfd : Int) (c : Client) (i : Iri) (decoded : Bytes) (hv : c.host = some (geHost dir dfd)) :
    dispatch env c i decoded = .ok (startReply env c 53 b%"won't proxy request") ∨ dispatch env c i decoded = serveFile env c i := by
  unfold dispatch
  have e1 : applyReverseProxy env c i = (c, false) := by
    simp [applyReverseProxy, clientProxy, hv, geHost, matchedProxy]
  have e2 : applyRequireCa env c i = (c, false) := by
    simp [applyRequireCa, hv, geHost, vhostRequireCa, caLoop]
  have e3 : applyBlockReturn env c i = .ok (c, false) := by
    simp [applyBlockReturn, hv, geHost, vhostBlockReturn, blockLoop]
  have e4 : applyFastcgi env c i = (c, false) := by
    simp [applyFastcgi, hv, geHost, vhostFastcgi, fcgiLoop]
  rw [e1]
  dsimp only
  split
  · exact .inl rfl
  · rw [e2]; dsimp only; rw [e3]; dsimp only; rw [e4]; exact .inr rfl

theorem ge_dirfd (dir : Bytes) (dfd : Int) (p : Bytes) : (vhostDirfd env.fnm (some (geHost dir dfd)) (some p)).1 = dfd := by
  simp [geHost, vhostDirfd, dirfdLoop]

theorem ge_index (dir : Bytes) (dfd : Int) (p : Bytes) : vhostIndex env.fnm (some (geHost dir dfd)) (some p) = b%"index.gmi" := by
  simp [geHost, vhostIndex, indexLoop]

theorem ge_strip (dir : Bytes) (dfd : Int) (p : Bytes) : vhostStrip env.fnm (some (geHost dir dfd)) (some p) = 0 := by
  simp [geHost, vhostStrip, stripLoop]

theorem serveFile_host (c c' : Client) (i : Iri) (h : serveFile env c i = .ok c') : c'.host = c.host := by
  have sr := startReply_host env
  have dl : ∀ c : Client, (dirListing env c i).host = c.host := by
    intro c
    unfold dirListing
    split
    · exact sr _ _ _
    · split
      · exact sr _ _ _
      · dsimp only; rw [sr]
  have od : ∀ c c' : Client, openDir env c i = .ok c' → c'.host = c.host := by
    intro c c' h
    unfold openDir at h
    split at h
    · cases h
      unfold redirectDir
      dsimp only
      split <;> exact sr _ _ _
    · dsimp only at h
      split at h
      · cases h; rw [dl]
      · split at h
        · cases h; rw [sr]
        · split at h
          · cases h; rw [sr]
          · cases h
          · cases h
        · cases h; rw [dl]
  unfold serveFile at h
  dsimp only at h
  split at h
  · cases h; rw [sr]
  · split at h
    · cases h; rw [sr]
    · rw [od _ _ h]
    · split at h
      · cases h; rw [sr]
      · cases h
      · cases h

end

/-- what gemexp may do on a connection: send a reply of one of these kinds, log it, close, and open a name below the directory, or the index file
of a directory below the directory -/
def GeMay (dfd : Int) (envs : List Env) (effs : List Eff) (x : Eff) : Prop :=
  (∃ code text, x = .header code text ∧ code ∈ [20, 30, 40, 51, 53, 59]) ∨ (∃ code mt, x = .log code mt) ∨ x = .close ∨
  (∃ name, x = .openat dfd name ∧ Below name) ∨
  ∃ env ∈ envs, ∃ fd nm, x = .openat fd b%"index.gmi" ∧ Below nm ∧ Eff.openat dfd nm ∈ effs ∧ env.openat dfd nm = some fd ∧ env.fstat fd = some .dir

theorem GeMay.mono {dfd : Int} {e1 e2 : List Env} {f1 f2 : List Eff} (he : ∀ x ∈ e1, x ∈ e2) (hf : ∀ x ∈ f1, x ∈ f2) {x : Eff}
    (h : GeMay dfd e1 f1 x) : GeMay dfd e2 f2 x := by
  rcases h with h | h | h | h | ⟨env, h1, fd, nm, h2, h3, h4, h5⟩
  · exact .inl h
  · exact .inr (.inl h)
  · exact .inr (.inr (.inl h))
  · exact .inr (.inr (.inr (.inl h)))
  · exact .inr (.inr (.inr (.inr ⟨env, he _ h1, fd, nm, h2, h3, hf _ h4, h5⟩)))

theorem onlyReply_may {dfd : Int} {envs : List Env} {effs : List Eff} {code : Int} {e : List Eff} (h : OnlyReply code e)
    (hc : code ∈ [20, 30, 40, 51, 53, 59]) : ∀ x ∈ e, GeMay dfd envs effs x := by
  obtain ⟨hdr, h⟩ := h
  intro x hx
  rcases h with rfl | ⟨_, rfl⟩
  · simp at hx; exact .inl ⟨code, hdr, hx, hc⟩
  · simp at hx
    rcases hx with hx | hx
    · exact .inl ⟨code, hdr, hx, hc⟩
    · exact .inr (.inl ⟨_, _, hx⟩)

theorem reply_may (env : Env) (dfd : Int) (envs : List Env) (effs : List Eff) (c : Client) (code : Int) (mt : Bytes)
    (hc : code ∈ [20, 30, 40, 51, 53, 59]) : ∃ e, (startReply env c code mt).effs = c.effs ++ e ∧ ∀ x ∈ e, GeMay dfd envs effs x := by
  rcases startReply_replied env c code mt with hr | hr
  · obtain ⟨e, h1, h2⟩ := hr.effs; exact ⟨e, h1, onlyReply_may h2 hc⟩
  · obtain ⟨e, h1, h2⟩ := hr.effs; exact ⟨e, h1, onlyReply_may h2 (by simp)⟩

theorem ge_read (env : Env) (dir : Bytes) (dfd : Int) (c c' : Client) (hv : c.host = some (geHost dir dfd)) (h : clientRead env c = .ok c') :
    c'.host = some (geHost dir dfd) ∧ ∃ e, c'.effs = c.effs ++ e ∧ ∀ x ∈ e, GeMay dfd [env] e x := by
  rcases clientRead_cases c c' h with rfl | ⟨rest, rfl⟩ | ⟨req, rest, i, decoded, -, hin, -, -, hi, hd, hdis⟩
  · exact ⟨hv, [], by simp, by simp⟩
  · refine ⟨by rw [startReply_host]; exact hv, ?_⟩
    have := startReply_replied_short env { c with inp := rest } 59 b%"bad request" (by decide) (by decide)
    obtain ⟨e, h1, h2⟩ := this.effs
    exact ⟨e, h1, onlyReply_may h2 (by simp)⟩
  · have hp : (parsed c rest i).host = some (geHost dir dfd) := hv
    rcases ge_dispatch env dir dfd (parsed c rest i) i decoded hp with e | e
    · rw [e] at hdis
      cases hdis
      refine ⟨by rw [startReply_host]; exact hp, ?_⟩
      have := startReply_replied_short env (parsed c rest i) 53 b%"won't proxy request" (by decide) (by decide)
      obtain ⟨e, h1, h2⟩ := this.effs
      exact ⟨e, h1, onlyReply_may h2 (by simp)⟩
    · rw [e] at hdis
      refine ⟨by rw [serveFile_host env _ _ _ hdis]; exact hp, ?_⟩
      obtain ⟨c2, code, e, h1, h2, h3⟩ := serveFile_effs env (parsed c rest i) i
      rw [hdis] at h1
      cases h1
      simp only [hp, ge_dirfd, ge_index, ge_strip] at h3
      have hnm : Below (openName 0 i.path) :=
        (openName_spec 0 i.path (C01_path_confined _ _ _ hi).1 (C01_path_confined _ _ _ hi).2).1
      rcases h3 with ⟨k1, kc, -⟩ | ⟨fd', k0, kd, (⟨k1, -, -, kc⟩ | ⟨k1, -, kc⟩)⟩
      · refine ⟨_, k1, fun x hx => ?_⟩
        rcases List.mem_cons.1 hx with rfl | hx
        · exact .inr (.inr (.inr (.inl ⟨_, rfl, hnm⟩)))
        · exact onlyReply_may h2 (by rcases kc with rfl | rfl | rfl <;> simp) x hx
      · refine ⟨_, k1, fun x hx => ?_⟩
        rcases List.mem_cons.1 hx with rfl | hx
        · exact .inr (.inr (.inr (.inl ⟨_, rfl, hnm⟩)))
        · exact onlyReply_may h2 (by rcases kc with rfl | rfl <;> simp) x hx
      · refine ⟨_, k1, fun x hx => ?_⟩
        rcases List.mem_cons.1 hx with rfl | hx
        · exact .inr (.inr (.inr (.inl ⟨_, rfl, hnm⟩)))
        · rcases List.mem_cons.1 hx with rfl | hx
          · exact .inr (.inr (.inr (.inr ⟨env, by simp, fd', _, rfl, hnm, by simp, k0, kd⟩)))
          · exact onlyReply_may h2 (by rcases kc with rfl | rfl | rfl <;> simp) x hx

theorem ge_step (env : Env) (bufsiz : Nat) (ev : Ev) (dir : Bytes) (dfd : Int) (c c' : Client) (hv : c.host = some (geHost dir dfd))
    (h : step env bufsiz ev c = .ok c') :
    c'.host = some (geHost dir dfd) ∧ ∃ e, c'.effs = c.effs ++ e ∧ ∀ x ∈ e, GeMay dfd [env] e x := by
  have ce : ∀ (c : Client) k, c.host = some (geHost dir dfd) →
      (clientError env k c).host = some (geHost dir dfd) ∧ ∃ e, (clientError env k c).effs = c.effs ++ e ∧ ∀ x ∈ e, GeMay dfd [env] e x := by
    intro c k hv
    have cl : ∀ c : Client, ∃ e, (clientClose c).effs = c.effs ++ e ∧ ∀ x ∈ e, GeMay dfd [env] e x :=
      fun c => ⟨[.close], rfl, by simp [GeMay]⟩
    unfold clientError
    cases k
    · dsimp only; split
      · refine ⟨by rw [startReply_host]; exact hv, ?_⟩
        obtain ⟨e, h1, h2⟩ := (startReply_replied_short env { c with type := .done } 59 b%"timeout" (by decide) (by decide)).effs
        exact ⟨e, h1, onlyReply_may h2 (by simp)⟩
      · exact ⟨hv, cl _⟩
    · exact ⟨hv, cl _⟩
    · exact ⟨hv, cl _⟩
  unfold step at h
  split at h
  · cases h; exact ⟨hv, [], by simp, by simp⟩
  · cases ev with
    | read data => exact ge_read env dir dfd { c with inp := c.inp ++ data } c' hv h
    | writable n rd =>
      dsimp only at h
      split at h
      · unfold clientWrite at h
        split at h
        · cases h; exact ⟨hv, [], by simp, by simp⟩
        · split at h
          · simp only [Res.ok.injEq] at h; rw [← h]
            exact ce { c with sent := c.sent ++ c.out.take n, out := c.out.drop n } .error hv
          · cases h; exact ⟨hv, [.close], rfl, by simp [GeMay]⟩
          · cases h; exact ⟨hv, [], by simp, by simp⟩
        · split at h
          · cases h; exact ⟨hv, [], by simp, by simp⟩
          · cases h
          · cases h
        · cases h; exact ⟨hv, [], by simp, by simp⟩
        · cases h; exact ⟨hv, [], by simp, by simp⟩
        · split at h
          · cases h; exact ⟨hv, [.close], rfl, by simp [GeMay]⟩
          · rename_i h1 _ _ h2
            exact absurd h1 h2
      · cases h; exact ⟨hv, [], by simp, by simp⟩
    | failed k =>
      simp only [Res.ok.injEq] at h
      rw [← h]; exact ce c k hv

theorem ge_run (bufsiz : Nat) (dir : Bytes) (dfd : Int) (evs : List (Env × Ev)) : ∀ (c c' : Client), c.host = some (geHost dir dfd) →
    runEvents bufsiz evs c = .ok c' → ∃ e, c'.effs = c.effs ++ e ∧ ∀ x ∈ e, GeMay dfd (evs.map (·.1)) e x := by
  induction evs with
  | nil => intro c c' _ h; simp [runEvents] at h; subst h; exact ⟨[], by simp, by simp⟩
  | cons ev r ih =>
    intro c c' hv h
    obtain ⟨env, ev⟩ := ev
    rw [runEvents] at h
    split at h
    · rename_i c1 h1
      obtain ⟨k1, e1, k2, k3⟩ := ge_step env bufsiz ev dir dfd c c1 hv h1
      obtain ⟨e2, k4, k5⟩ := ih c1 c' k1 h
      refine ⟨e1 ++ e2, by rw [k4, k2]; simp, fun x hx => ?_⟩
      rcases List.mem_append.1 hx with hx | hx
      · exact (k3 x hx).mono (by simp) (fun y hy => by simp [hy])
      · exact (k5 x hx).mono (fun y hy => by simp [hy]) (fun y hy => by simp [hy])
    · cases h
    · cases h

/-- C107: on a connection to gemexp, whatever the client sends and whatever happens to the files meanwhile, nothing is opened but names below the
directory and index files of directories below it, nobody else is contacted, and the replies are of the kinds of a plain file server. -/
theorem C107_nothing_else (env : Env) (dir : Bytes) (dfd : Int) (hosts : env.hosts = [geHost dir dfd]) (sni : Option Bytes) (bufsiz : Nat)
    (evs : List (Env × Ev)) (c' : Client) (h : runEvents bufsiz evs (handshakeDone env sni {}) = .ok c') :
    ∀ x ∈ c'.effs, GeMay dfd (evs.map (·.1)) c'.effs x := by
  have hh : (∃ d, handshakeDone env sni {} = { ({} : Client) with domain := d, host := some (geHost dir dfd) }) ∨
      ∃ d, handshakeDone env sni {} = startReply env { ({} : Client) with domain := d } 59 b%"Wrong/malformed host" := by
    unfold handshakeDone
    split
    · exact .inr ⟨[], rfl⟩
    · rename_i d _
      dsimp only
      split
      · rename_i v hf
        rw [hosts] at hf
        have key : ∀ n, findHost env.fnm n [geHost dir dfd] = some v → v = geHost dir dfd := by
          intro n hf
          simp only [findHost] at hf
          by_cases hm : matchHost env.fnm (geHost dir dfd) n = true
          · rw [if_pos hm] at hf; cases hf; rfl
          · rw [if_neg hm] at hf; cases hf
        have : v = geHost dir dfd := key _ hf
        subst this
        exact .inl ⟨_, rfl⟩
      · exact .inr ⟨_, rfl⟩
  rcases hh with ⟨d, e⟩ | ⟨d, e⟩
  · rw [e] at h
    obtain ⟨e, h1, h2⟩ := ge_run bufsiz dir dfd evs _ c' (by rfl) h
    rw [h1]
    exact h2
  · rw [e] at h
    have hr := startReply_replied_short env { ({} : Client) with domain := d } 59 b%"Wrong/malformed host" (by decide) (by decide)
    obtain ⟨c2, e2, k1, -, -, -, k5, k6⟩ := done_run bufsiz evs _ (by rw [hr.type]; rfl) (by rw [hr.rcode]; decide)
    rw [h] at k1
    cases k1
    obtain ⟨e, h1, h2⟩ := hr.effs
    rw [k5, h1]
    intro x hx
    simp only [List.append_assoc, List.nil_append, List.mem_append] at hx
    rcases hx with hx | hx
    · exact onlyReply_may h2 (by simp) x hx
    · exact .inr (.inr (.inl (k6 x hx)))

/-! ## what it does offer -/

section
variable {env : Env} {c : Client} {dir : Bytes} {dfd : Int} {name req rest : Bytes} {i : Iri} {decoded : Bytes}

/-- C107: gemexp takes connections for any name (fnmatch(3) lets `*` match everything). -/
theorem C107_any_name (env : Env) (hstar : ∀ s, env.fnm b%"*" s = true) (hosts : env.hosts = [geHost dir dfd]) (sni : Option Bytes) (name : Bytes)
    (hn : Negotiated env sni name) (c : Client) : handshakeDone env sni c = { c with domain := name, host := some (geHost dir dfd) } :=
  C16_bound_to_first_match env sni name c (geHost dir dfd) [] [] hn hosts ⟨b%"*", .inl rfl, hstar _⟩ (by simp)

theorem ge_noRelay (fnm : Bytes → Bytes → Bool) (a b d : Bytes) : NoRelay fnm (geHost dir dfd) a b d := by simp [NoRelay, geHost]
theorem ge_certOk (env : Env) (p : Bytes) : CertOk env (geHost dir dfd) p := .inl ⟨by simp [NoneSet, geHost], rfl⟩
theorem ge_noBlock (fnm : Bytes → Bytes → Bool) (p : Bytes) : NoBlock fnm (geHost dir dfd) p := ⟨by simp [NoneSet, geHost], rfl⟩
theorem ge_noFcgi (fnm : Bytes → Bytes → Bool) (p : Bytes) : NoFcgi fnm (geHost dir dfd) p := .inr ⟨by simp [NoneSet, geHost], rfl⟩
theorem ge_root (fnm : Bytes → Bytes → Bool) (p : Bytes) : RootIs fnm (geHost dir dfd) p dfd := .inr ⟨by simp [NoneSet, geHost], rfl⟩
theorem ge_name (env : Env) (p : Bytes) :
    NameFor (vhostStrip env.fnm (some (geHost dir dfd)) (some p)) p (if p = [] then b%"." else p) := by
  rw [ge_strip]
  exact ⟨fun _ => rfl, fun h => by omega⟩
theorem ge_lang (fnm : Bytes → Bytes → Bool) (p : Bytes) : vhostLang fnm (some (geHost dir dfd)) (some p) = none := by
  simp [geHost, vhostLang, langLoop]

/-- C107: a well-formed request for the negotiated name is answered from the directory: a file that can be opened is sent with its type... -/
theorem C107_file (h : WellFormed env c (geHost dir dfd) name req rest i decoded) (hsent : c.sent = []) (hu : ForUs i name decoded)
    (fd : Int) (ho : env.openat dfd (if i.path = [] then b%"." else i.path) = some fd) (k : FKind) (hk : env.fstat fd = some k) (hdir : k ≠ .dir)
    (hfit : ∀ m, mimeType env.fnm env.mimes (some (geHost dir dfd)) (if i.path = [] then b%"." else i.path) = .ok m → m.length ≤ 900) :
    ∃ c' m, clientRead env c = .ok c' ∧
      mimeType env.fnm env.mimes (some (geHost dir dfd)) (if i.path = [] then b%"." else i.path) = .ok m ∧
      c'.type = .file ∧ c'.pfd = fd ∧ c'.code = 20 ∧ c'.closed = false ∧ c'.sent = [] ∧ c'.out = b%"20 " ++ m ++ b%"\r\n" := by
  obtain ⟨m, hm⟩ := mimeType_ok env.fnm env.mimes (some (geHost dir dfd)) (if i.path = [] then b%"." else i.path) (by
    split
    · simp
    · assumption)
  have hread := dispatch_file h (ge_noRelay _ _ _ _) hu (ge_certOk _ _) (ge_noBlock _ _) (ge_noFcgi _ _)
  have hh : (parsed c rest i).host = some (geHost dir dfd) := h.requested.host
  have hnm : openName 0 i.path = if i.path = [] then b%"." else i.path :=
    (openName_spec 0 i.path (C01_path_confined _ _ _ h.parses).1 (C01_path_confined _ _ _ h.parses).2).2.1 (by omega)
  have key : ∀ cc : Client, cc.type = .file → cc.host = some (geHost dir dfd) → cc.iri = some i → cc.out = [] → cc.sent = [] → cc.closed = false →
      cc.pfd = fd → ∃ c' m', (Res.ok (startReply env cc 20 m) : Res Client) = .ok c' ∧ (Res.ok m : Res Bytes) = .ok m' ∧
      c'.type = .file ∧ c'.pfd = fd ∧ c'.code = 20 ∧ c'.closed = false ∧ c'.sent = [] ∧ c'.out = b%"20 " ++ m' ++ b%"\r\n" := by
    intro cc t1 t2 t3 t4 t5 t6 t7
    have hl := hfit m hm
    rcases startReply_cases env cc 20 m with ⟨hdr, e, hlen, hd⟩ | ⟨e, hd⟩
    · have hr := queueHeader_replied env cc 20 m hdr
      rcases hd with hd | ⟨l, -, -, -, hl, hd⟩
      · refine ⟨_, m, rfl, rfl, ?_, ?_, ?_, ?_, ?_, ?_⟩
        · rw [e, hr.type, t1]; rfl
        · rw [e, hr.pfd, t7]
        · rw [e, hr.rcode]
        · rw [e, hr.closed, t6]
        · rw [e, hr.sent, t5]
        · rw [e]; simp [queueHeader, t4, hd]
      · rw [t2, Client.path?, t3] at hl
        simp [ge_lang] at hl
    · exfalso
      rcases hd with hd | ⟨l, -, hl, hd⟩
      · simp at hd; omega
      · rw [t2, Client.path?, t3] at hl
        simp [ge_lang] at hl
  rw [hread]
  unfold serveFile
  simp only [hh, ge_strip, hnm, ge_dirfd, ho, hk, hm]
  cases k with
  | dir => exact absurd rfl hdir
  | reg => exact key _ rfl rfl rfl h.requested.out hsent h.requested.isOpen rfl
  | other => exact key _ rfl rfl rfl h.requested.out hsent h.requested.isOpen rfl

/-- C107: ... what cannot be opened is not found... -/
theorem C107_missing (h : WellFormed env c (geHost dir dfd) name req rest i decoded) (hsent : c.sent = []) (hu : ForUs i name decoded)
    (ho : env.openat dfd (if i.path = [] then b%"." else i.path) = none) :
    ∃ c', clientRead env c = .ok c' ∧ c'.type = .done ∧ c'.sent = [] ∧ c'.out = b%"51 not found\r\n" := by
  have hread := dispatch_file h (ge_noRelay _ _ _ _) hu (ge_certOk _ _) (ge_noBlock _ _) (ge_noFcgi _ _)
  have hh : (parsed c rest i).host = some (geHost dir dfd) := h.requested.host
  have hnm : openName 0 i.path = if i.path = [] then b%"." else i.path :=
    (openName_spec 0 i.path (C01_path_confined _ _ _ h.parses).1 (C01_path_confined _ _ _ h.parses).2).2.1 (by omega)
  rw [hread]
  unfold serveFile
  simp only [hh, ge_strip, hnm, ge_dirfd, ho]
  refine ⟨_, rfl, ?_⟩
  rw [startReply_short env _ 51 b%"not found" (by decide) (by decide)]
  refine ⟨rfl, hsent, ?_⟩
  simp only [queueHeader, parsed, h.requested.out]
  decide +kernel

/-- C107: ... and a directory without an index file is listed: its entries, sorted, without the hidden `.` (and without `..` at the top). -/
theorem C107_listing (h : WellFormed env c (geHost dir dfd) name req rest i decoded) (hsent : c.sent = []) (hu : ForUs i name decoded)
    (fd : Int) (ho : env.openat dfd (if i.path = [] then b%"." else i.path) = some fd) (hdir : env.fstat fd = some .dir)
    (hslash : i.path = [] ∨ i.path.getLast? = some c%'/') (hindex : env.openat fd b%"index.gmi" = none)
    (entries d : List Dirent) (alloc : Nat → Bool) (sort : List Dirent → List Dirent) (size : Nat) (hs : Sorts sort)
    (hscan : env.scandir fd (i.path = []) = some d)
    (hd : scandirFd alloc sort size entries (if i.path = [] then selectNonDotdot else selectNonDot) = .ok d) :
    ∃ c', clientRead env c = .ok c' ∧ c'.type = .dir ∧ c'.dir = d ∧ c'.code = 20 ∧ c'.closed = false ∧ c'.sent = [] ∧
      c'.out = b%"20 text/gemini\r\n# Index of /" ++ i.path ++ b%"\n\n" ∧
      d.Perm (entries.filter (Shown (i.path = []))) ∧ d.Pairwise (fun a b => strcmp a.name b.name ≠ .gt) := by
  obtain ⟨c', lang, h1, h2, h3, h4, h5, h6, h7, h8, h9⟩ := C52_listing_started h hsent (ge_noRelay _ _ _ _) hu (ge_certOk _ _) (ge_noBlock _ _)
    (ge_noFcgi _ _) dfd _ (ge_root _ _) (ge_name env i.path) fd ho hdir hslash (by rw [ge_index]; exact hindex)
    (.inr ⟨by simp [NoneSet, geHost], rfl⟩) (by simp [ge_lang]) entries d alloc sort size hs hscan hd
  have hl : lang = [] := by
    rcases h7 with h7 | ⟨l, h7, -⟩
    · exact h7
    · rw [ge_lang] at h7; cases h7
  refine ⟨c', h1, h2, h3, h4, h5, h6, ?_, h9⟩
  rw [h8, hl]
  rfl

end

/-! ## the directory -/

/-- C107, in part: the directory that is opened is the one named on the command line, or the working directory.  What is missing: this holds only when
its absolute name has less than PATH_MAX (4096) bytes. -/
theorem C107_directory_partial (wd a : Bytes) :
    (wd.length < 4096 → geDir (some wd) none = .go wd) ∧
    ((fromDir wd a).length < 4096 → geDir (some wd) (some a) = .go (fromDir wd a)) := by
  constructor
  · intro h
    rw [geDir, List.take_of_length_le (by omega)]
  · intro h
    unfold geDir
    dsimp only
    cases a with
    | nil =>
      rw [if_neg (by decide)]
      have : absolutify wd [] = fromDir wd [] := by simp [absolutify, fromDir]
      rw [this, List.take_of_length_le (by omega)]
    | cons x r =>
      by_cases hx : x = c%'/'
      · subst hx
        rw [if_pos (by rfl)]
        have : fromDir wd (c%'/' :: r) = c%'/' :: r := by simp [fromDir]
        rw [this] at h ⊢
        rw [List.take_of_length_le (by omega)]
      · rw [if_neg (by simpa using hx)]
        have : absolutify wd (x :: r) = fromDir wd (x :: r) := by simp [absolutify, fromDir, hx]
        rw [this, List.take_of_length_le (by omega)]

/-- C107 does not hold in full: with a longer name, another directory is opened, the one with the first 4095 bytes of the name.  With an absolute
name of 4096 bytes or more, gemexp does not offer what it was asked to but some directory whose name is a part of it. -/
theorem C107_another_directory (wd : Option Bytes) (r : Bytes) (h : 4095 ≤ r.length) :
    ∃ d, geDir wd (some (c%'/' :: r)) = .go d ∧ d ≠ c%'/' :: r ∧ d.length = 4095 ∧ d = (c%'/' :: r).take 4095 := by
  refine ⟨(c%'/' :: r).take 4095, by simp [geDir], ?_, by rw [List.length_take, List.length_cons]; omega, rfl⟩
  intro e
  have := congrArg List.length e
  rw [List.length_take, List.length_cons] at this
  omega

/-- in particular: `/srv/////…/private` may stand for `/srv/////…/pri` or `/srv` -/
example : geDir none (some (b%"/srv" ++ List.replicate 4091 c%'/' ++ b%"private")) = .go (b%"/srv" ++ List.replicate 4091 c%'/') := by
  unfold geDir
  dsimp only
  rw [if_pos (by rfl), List.take_append_of_le_length (by rw [List.length_append, List.length_replicate]; decide),
    List.take_of_length_le (by rw [List.length_append, List.length_replicate]; decide)]

/-! ## the command line -/

theorem geFlag_lookup {c : UInt8} (h : c ∈ geFlags) : geOpts.lookup c = some false := by
  simp only [geFlags, List.mem_cons, List.not_mem_nil, or_false] at h
  rcases h with h | h | h | h <;> subst h <;> rfl

theorem geArg_lookup {c : UInt8} (h : c ∈ geWithArg) : geOpts.lookup c = some true := by
  simp only [geWithArg, List.mem_cons, List.not_mem_nil, or_false] at h
  rcases h with h | h | h <;> subst h <;> rfl

theorem geLetter_ne {c : UInt8} (h : c ∈ geFlags ∨ c ∈ geWithArg) : c ≠ c%'-' := by
  intro e; subst e; revert h; decide

theorem geGetopt_letters (c : UInt8) (r : Bytes) (rest : List Bytes) (hc : c ≠ c%'-') :
    geGetopt ((c%'-' :: c :: r) :: rest) =
      match geCluster (c :: r) with
      | (os, none) => (os ++ (geGetopt rest).1, (geGetopt rest).2)
      | (os, some c) =>
        match rest with
        | [] => (os ++ [(c%'?', [])], [])
        | v :: rest => (os ++ (c, v) :: (geGetopt rest).1, (geGetopt rest).2) := by
  rw [geGetopt]
  rw [if_neg (by intro e; simp at e; exact hc e.1), if_neg (by intro e; simp at e; exact hc e), if_pos ⟨rfl, by intro e; simp at e⟩]
  rfl

theorem geLine_getopt {args : List Bytes} {os : List (UInt8 × Bytes)} (h : GeLine args os) (tail : List Bytes) :
    geGetopt (args ++ tail) = (os ++ (geGetopt tail).1, (geGetopt tail).2) := by
  induction h with
  | nil => rfl
  | flag c rest os hc _ ih =>
    rw [List.cons_append, geGetopt_letters c [] _ (geLetter_ne (.inl hc))]
    simp [geCluster, geFlag_lookup hc, ih]
  | apart c v rest os hc _ ih =>
    rw [List.cons_append, List.cons_append, geGetopt_letters c [] _ (geLetter_ne (.inr hc))]
    simp [geCluster, geArg_lookup hc, ih]
  | joined c v rest os hc hv _ ih =>
    rw [List.cons_append, geGetopt_letters c v _ (geLetter_ne (.inr hc))]
    simp [geCluster, geArg_lookup hc, ih, hv]

theorem geRest_getopt {tail : List Bytes} {d : Option Bytes} (h : GeRest tail d) : geGetopt tail = ([], d.toList) := by
  cases h with
  | none => rfl
  | dashes => rfl
  | dashesDir d => rfl
  | dir d h =>
    rw [geGetopt]
    rcases h with h | rfl
    · have h1 : d.take 1 ≠ b%"-" := by
        intro e
        cases d with
        | nil => simp at e
        | cons x r => simp at e; exact h r (by rw [e])
      rw [if_neg (by rintro rfl; exact h1 rfl), if_neg (by
        intro e
        apply h1
        have := congrArg (List.take 1) e
        rwa [List.take_take] at this), if_neg (fun e => h1 e.1)]
      rfl
    · rfl

/-- the settings that the options of a command line ask for -/
def GeSettings (os : List (UInt8 × Bytes)) (o : GeOpts) : Prop :=
  o.certs = lastArg c%'d' os ∧ o.host = (lastArg c%'H' os).getD b%"localhost" ∧
  (lastArg c%'p' os = none → o.port = 1965) ∧ (∀ v, lastArg c%'p' os = some v → GePort v o.port) ∧
  (o.eckey = false ↔ ∃ x ∈ os, x.1 = c%'R')

theorem geOptsGo_spec (os : List (UInt8 × Bytes)) (hl : ∀ x ∈ os, x.1 ∈ geFlags ∨ x.1 ∈ geWithArg) : ∀ o : GeOpts,
    ((∃ x ∈ os, x.1 = c%'h' ∨ x.1 = c%'V' ∨ (x.1 = c%'p' ∧ (strtonum x.2 0 65535).2 ≠ none)) → ∃ n, geOptsGo o os = .exit n) ∧
    ((∀ x ∈ os, x.1 ≠ c%'h' ∧ x.1 ≠ c%'V' ∧ (x.1 = c%'p' → (strtonum x.2 0 65535).2 = none)) →
      ∃ o', geOptsGo o os = .go o' ∧ o'.certs = (lastArg c%'d' os).orElse (fun _ => o.certs) ∧ o'.host = (lastArg c%'H' os).getD o.host ∧
        o'.port = (match lastArg c%'p' os with | none => o.port | some v => (strtonum v 0 65535).1) ∧
        (o'.eckey = false ↔ (∃ x ∈ os, x.1 = c%'R') ∨ o.eckey = false)) := by
  induction os with
  | nil => intro o; exact ⟨by simp, fun _ => ⟨o, rfl, rfl, rfl, rfl, by simp⟩⟩
  | cons x r ih =>
    intro o
    obtain ⟨c, v⟩ := x
    have ih' := ih (fun x hx => hl x (by simp [hx]))
    have hc : c = c%'h' ∨ c = c%'R' ∨ c = c%'V' ∨ c = c%'v' ∨ c = c%'d' ∨ c = c%'H' ∨ c = c%'p' := by
      have := hl (c, v) (by simp)
      simpa [geFlags, geWithArg, or_assoc] using this
    -- an option that only changes the settings
    have go : ∀ o1, geOpt o (c, v) = .go o1 → c ≠ c%'h' → c ≠ c%'V' → (c = c%'p' → (strtonum v 0 65535).2 = none) →
        (o1.certs = if c = c%'d' then some v else o.certs) → (o1.host = if c = c%'H' then v else o.host) →
        (o1.port = if c = c%'p' then (strtonum v 0 65535).1 else o.port) → (o1.eckey = if c = c%'R' then false else o.eckey) →
        ((∃ x ∈ (c, v) :: r, x.1 = c%'h' ∨ x.1 = c%'V' ∨ (x.1 = c%'p' ∧ (strtonum x.2 0 65535).2 ≠ none)) → ∃ n, geOptsGo o ((c, v) :: r) = .exit n) ∧
        ((∀ x ∈ (c, v) :: r, x.1 ≠ c%'h' ∧ x.1 ≠ c%'V' ∧ (x.1 = c%'p' → (strtonum x.2 0 65535).2 = none)) →
          ∃ o', geOptsGo o ((c, v) :: r) = .go o' ∧ o'.certs = (lastArg c%'d' ((c, v) :: r)).orElse (fun _ => o.certs) ∧
            o'.host = (lastArg c%'H' ((c, v) :: r)).getD o.host ∧
            o'.port = (match lastArg c%'p' ((c, v) :: r) with | none => o.port | some v => (strtonum v 0 65535).1) ∧
            (o'.eckey = false ↔ (∃ x ∈ (c, v) :: r, x.1 = c%'R') ∨ o.eckey = false)) := by
      intro o1 e hh hV hp a1 a2 a3 a4
      rw [geOptsGo, e]
      dsimp only
      constructor
      · rintro ⟨x, hx, hx'⟩
        rcases List.mem_cons.1 hx with rfl | hx
        · rcases hx' with k | k | ⟨k1, k2⟩
          · exact absurd k hh
          · exact absurd k hV
          · exact absurd (hp k1) k2
        · exact (ih' o1).1 ⟨x, hx, hx'⟩
      · intro h
        obtain ⟨o', k1, k2, k3, k4, k5⟩ := (ih' o1).2 (fun x hx => h x (by simp [hx]))
        refine ⟨o', k1, ?_, ?_, ?_, ?_⟩
        · rw [k2, a1, lastArg]
          cases lastArg c%'d' r with
          | some w => rfl
          | none => dsimp only; split <;> rfl
        · rw [k3, a2, lastArg]
          cases lastArg c%'H' r with
          | some w => rfl
          | none => dsimp only; split <;> rfl
        · rw [k4, a3, lastArg]
          cases lastArg c%'p' r with
          | some w => rfl
          | none => dsimp only; split <;> rfl
        · rw [k5, a4]
          by_cases hR : c = c%'R'
          · simp [hR]
          · simp [hR]
    rcases hc with rfl | rfl | rfl | rfl | rfl | rfl | rfl
    · exact ⟨fun _ => ⟨1, rfl⟩, fun h => absurd rfl (h _ List.mem_cons_self).1⟩
    · exact go { o with eckey := false } rfl (by decide) (by decide) (fun e => absurd e (by decide)) rfl rfl rfl rfl
    · exact ⟨fun _ => ⟨0, rfl⟩, fun h => absurd rfl (h _ List.mem_cons_self).2.1⟩
    · exact go { o with verbose := true } rfl (by decide) (by decide) (fun e => absurd e (by decide)) rfl rfl rfl rfl
    · exact go { o with certs := some v } rfl (by decide) (by decide) (fun e => absurd e (by decide)) rfl rfl rfl rfl
    · exact go { o with host := v } rfl (by decide) (by decide) (fun e => absurd e (by decide)) rfl rfl rfl rfl
    · rcases hs : strtonum v 0 65535 with ⟨n, m⟩
      have e : geOpt o (c%'p', v) = match strtonum v 0 65535 with | (_, some _) => .exit 1 | (n, none) => .go { o with port := n } := rfl
      cases m with
      | none =>
        rw [hs] at e
        exact go { o with port := n } e (by decide) (by decide) (fun _ => by rw [hs]) rfl rfl (by rw [if_pos rfl, hs]) rfl
      | some m =>
        rw [hs] at e
        refine ⟨fun _ => ⟨1, by rw [geOptsGo, e]⟩, fun h => ?_⟩
        have := (h _ List.mem_cons_self).2.2 rfl
        rw [hs] at this
        cases this

theorem geLine_letters {args : List Bytes} {os : List (UInt8 × Bytes)} (h : GeLine args os) : ∀ x ∈ os, x.1 ∈ geFlags ∨ x.1 ∈ geWithArg := by
  induction h with
  | nil => simp
  | flag c rest os hc _ ih => intro x hx; rcases List.mem_cons.1 hx with rfl | hx; exact .inl hc; exact ih x hx
  | apart c v rest os hc _ ih => intro x hx; rcases List.mem_cons.1 hx with rfl | hx; exact .inr hc; exact ih x hx
  | joined c v rest os hc _ _ ih => intro x hx; rcases List.mem_cons.1 hx with rfl | hx; exact .inr hc; exact ih x hx

theorem lastArg_mem {c : UInt8} {os : List (UInt8 × Bytes)} {v : Bytes} (h : lastArg c os = some v) : (c, v) ∈ os := by
  induction os with
  | nil => cases h
  | cons x r ih =>
    rw [lastArg] at h
    cases hr : lastArg c r with
    | some w =>
      rw [hr] at h
      simp only [Option.some.injEq] at h
      subst h
      exact List.mem_cons_of_mem _ (ih hr)
    | none =>
      rw [hr] at h
      dsimp only at h
      split at h
      · rename_i hc
        simp only [Option.some.injEq] at h
        subst h; subst hc
        exact List.mem_cons_self
      · cases h

/-- C107: the command line: with `-h`, `-V` or a port that is not a number from 0 to 65535, nothing is offered; otherwise the last `-p`, `-H` and `-d` are in force,
1965 and localhost when there is none, and the directory is the argument, if there is one. -/
theorem C107_options (prog : Bytes) (args tail : List Bytes) (os : List (UInt8 × Bytes)) (d : Option Bytes) (h : GeLine args os) (ht : GeRest tail d) :
    ((∃ x ∈ os, x.1 = c%'h' ∨ x.1 = c%'V' ∨ (x.1 = c%'p' ∧ ¬ ∃ n, GePort x.2 n)) →
      ∃ n, geArgs (prog :: (args ++ tail)) = .exit n) ∧
    ((∀ x ∈ os, x.1 ≠ c%'h' ∧ x.1 ≠ c%'V' ∧ (x.1 = c%'p' → ∃ n, GePort x.2 n)) →
      ∃ o, geArgs (prog :: (args ++ tail)) = .go (o, d) ∧ GeSettings os o) := by
  have e : geGetopt ((prog :: (args ++ tail)).drop 1) = (os, d.toList) := by
    rw [List.drop_succ_cons, List.drop_zero, geLine_getopt h, geRest_getopt ht]; simp
  have num1 : ∀ (v : Bytes) (n : Int), GePort v n ↔ strtonum v 0 65535 = (n, none) :=
    fun v n => (C46_strtonum v 0 65535 n (by omega) (by omega)).symm
  have num : ∀ v : Bytes, (∃ n : Int, GePort v n) ↔ (strtonum v 0 65535).2 = none :=
    fun v => ⟨fun ⟨n, h⟩ => by rw [(num1 v n).1 h], fun h => ⟨_, (num1 v _).2 (Prod.ext rfl h)⟩⟩
  have key := geOptsGo_spec os (geLine_letters h) {}
  unfold geArgs
  rw [e]
  dsimp only
  constructor
  · rintro ⟨x, hx, hx'⟩
    obtain ⟨n, hn⟩ := key.1 ⟨x, hx, by rw [num] at hx'; exact hx'⟩
    exact ⟨n, by rw [hn]⟩
  · intro hx
    obtain ⟨o, h1, h2, h3, h4, h5⟩ := key.2 (fun x hx' => by have := hx x hx'; rw [num] at this; exact this)
    rw [h1]
    refine ⟨o, by cases d <;> rfl, ?_, h3, ?_, ?_, by rw [h5]; simp⟩
    · rw [h2]; cases lastArg c%'d' os <;> rfl
    · intro hp; rw [h4, hp]
    · intro v hp
      have hm : (c%'p', v) ∈ os := lastArg_mem hp
      obtain ⟨n, hn⟩ := (hx _ hm).2.2 rfl
      rw [h4, hp]
      dsimp only
      rw [(num1 v n).1 hn]
      exact hn

/-- C107: a second directory is refused, as is an option that there is not. -/
theorem C107_two_directories (prog : Bytes) (args : List Bytes) (os : List (UInt8 × Bytes)) (d1 d2 : Bytes) (more : List Bytes) (h : GeLine args os)
    (hd : ∀ r, d1 ≠ c%'-' :: r) : ∃ n, geArgs (prog :: (args ++ d1 :: d2 :: more)) = .exit n := by
  have h1 : d1.take 1 ≠ b%"-" := by
    intro e
    cases d1 with
    | nil => simp at e
    | cons x r => simp at e; exact hd r (by rw [e])
  have e2 : geGetopt (d1 :: d2 :: more) = ([], d1 :: d2 :: more) := by
    rw [geGetopt, if_neg (by rintro rfl; exact h1 rfl), if_neg (by
        intro e
        apply h1
        have := congrArg (List.take 1) e
        rwa [List.take_take] at this), if_neg (fun e => h1 e.1)]
  have e : geGetopt ((prog :: (args ++ d1 :: d2 :: more)).drop 1) = (os, d1 :: d2 :: more) := by
    rw [List.drop_succ_cons, List.drop_zero, geLine_getopt h, e2]; simp
  unfold geArgs
  rw [e]
  dsimp only
  cases geOptsGo {} os with
  | exit n => exact ⟨n, rfl⟩
  | go o => exact ⟨1, rfl⟩

/-! ## examples -/

example : geArgs [b%"gemexp", b%"-v", b%"-p", b%"1966", b%"-Hexample.com", b%"-p70", b%"docs"] =
    .go ({ host := b%"example.com", port := 70, verbose := true }, some b%"docs") := by decide +kernel

example : GeLine [b%"-v", b%"-p", b%"1966", b%"-Hexample.com"] [(c%'v', []), (c%'p', b%"1966"), (c%'H', b%"example.com")] :=
  .flag c%'v' _ _ (by decide) (.apart c%'p' _ _ _ (by decide) (.joined c%'H' _ _ _ (by decide) (by decide) .nil))

example : geArgs [b%"gemexp", b%"-p", b%"65536"] = .exit 1 ∧ geArgs [b%"gemexp", b%"-p"] = .exit 1 ∧ geArgs [b%"gemexp", b%"a", b%"b"] = .exit 1 ∧
    geArgs [b%"gemexp", b%"-x"] = .exit 1 := by decide +kernel

/-- an environment in which the directory, descriptor 5, has a file and an empty directory -/
def exGeEnv : Env :=
  { exEnv with
    fnm := fun p s => p == b%"*" || p == s
    hosts := [geHost b%"/srv" 5]
    puny := fun s => some s
    openat := fun fd n => if fd = 5 ∧ n = b%"a.txt" then some 7 else if fd = 5 ∧ n = b%"sub/" then some 8 else none
    fstat := fun fd => if fd = 8 then some .dir else some .reg
    scandir := fun _ _ => some [{ name := b%"x", isDir := false }] }

example : ((runEvents 4096 [(exGeEnv, .read b%"gemini://ex/sub/\r\n"), (exGeEnv, .writable 99 none)] (handshakeDone exGeEnv (some b%"ex") {})).val?.map
    (fun c => (c.sent, c.effs.filter (fun x => match x with | .openat _ _ => true | _ => false)))) =
    some (b%"20 text/gemini\r\n# Index of /sub/\n\n", [.openat 5 b%"sub/", .openat 8 b%"index.gmi"]) := by decide +kernel

end Gmid.Props
