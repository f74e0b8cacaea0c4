import Verif.Spec.Protect
import Verif.Props.Body
import Verif.Props.Files

/-!
# C131: a directory that is protected by a location
-/

set_option autoImplicit false

namespace Gmid.Props
open Gmid.Spec

section
variable {env : Env} {c c' : Client} {v : Vhost}

/-- what dispatch opens and whom it contacts: files and applications only past the certificate check and the block return -/
theorem dispatch_guarded (i : Iri) (decoded : Bytes) (hv : c.host = some v) (h : dispatch env c i decoded = .ok c') :
    ∃ e, c'.effs = c.effs ++ e ∧ ∀ x ∈ e, (Quiet x ∨ ∃ p, x = .relay p) ∨
      ((∀ s, vhostRequireCa env.fnm (some v) (some i.path) = some s → env.certProvided = true ∧ env.verify s ≠ 0) ∧
       vhostBlockReturn env.fnm (some v) (some i.path) = none ∧
       ((∃ n l, x = .fastcgi n l) ∨ (∃ fd, x = .openat fd (openName (vhostStrip env.fnm (some v) (some i.path)) i.path)) ∨
        ∃ fd, x = .openat fd (vhostIndex env.fnm (some v) (some i.path)))) := by
  have reply : ∀ (c : Client) (code : Int) (mt : Bytes), ∃ e, (startReply env c code mt).effs = c.effs ++ e ∧ ∀ x ∈ e, Quiet x := by
    intro c code mt
    rcases startReply_replied env c code mt with hr | hr
    all_goals
      obtain ⟨e, h1, h2⟩ := hr.effs
      exact ⟨e, h1, fun x hx => onlyReply_quiet h2 x hx⟩
  have quiet : ∀ c1 : Client, (∃ e, c1.effs = c.effs ++ e ∧ ∀ x ∈ e, Quiet x ∨ ∃ p, x = .relay p) → c' = c1 →
      ∃ e, c'.effs = c.effs ++ e ∧ ∀ x ∈ e, (Quiet x ∨ ∃ p, x = .relay p) ∨
      ((∀ s, vhostRequireCa env.fnm (some v) (some i.path) = some s → env.certProvided = true ∧ env.verify s ≠ 0) ∧
       vhostBlockReturn env.fnm (some v) (some i.path) = none ∧
       ((∃ n l, x = .fastcgi n l) ∨ (∃ fd, x = .openat fd (openName (vhostStrip env.fnm (some v) (some i.path)) i.path)) ∨
        ∃ fd, x = .openat fd (vhostIndex env.fnm (some v) (some i.path)))) := by
    rintro c1 ⟨e, h1, h2⟩ rfl
    exact ⟨e, h1, fun x hx => .inl (h2 x hx)⟩
  have rq : ∀ (code : Int) (mt : Bytes), c' = startReply env c code mt →
      ∃ e, c'.effs = c.effs ++ e ∧ ∀ x ∈ e, (Quiet x ∨ ∃ p, x = .relay p) ∨
      ((∀ s, vhostRequireCa env.fnm (some v) (some i.path) = some s → env.certProvided = true ∧ env.verify s ≠ 0) ∧
       vhostBlockReturn env.fnm (some v) (some i.path) = none ∧
       ((∃ n l, x = .fastcgi n l) ∨ (∃ fd, x = .openat fd (openName (vhostStrip env.fnm (some v) (some i.path)) i.path)) ∨
        ∃ fd, x = .openat fd (vhostIndex env.fnm (some v) (some i.path)))) := by
    intro code mt e1
    obtain ⟨e, h1, h2⟩ := reply c code mt
    exact quiet _ ⟨e, h1, fun x hx => .inl (h2 x hx)⟩ e1
  unfold dispatch at h
  cases hp : clientProxy env c i with
  | some p =>
    have hrel : ∃ e, (relayTo env c p).effs = c.effs ++ e ∧ ∀ x ∈ e, Quiet x ∨ ∃ p, x = .relay p := by
      unfold relayTo
      simp only
      split
      · obtain ⟨e, h1, h2⟩ := reply { c with effs := c.effs ++ [Eff.relay p] } 43 b%"proxy error"
        exact ⟨.relay p :: e, by rw [h1]; simp, fun x hx => (List.mem_cons.1 hx).elim (fun k => .inr ⟨p, k⟩) fun k => .inl (h2 x k)⟩
      · split
        · obtain ⟨e, h1, h2⟩ := reply { c with effs := c.effs ++ [Eff.relay p] } 43 b%"proxy error"
          exact ⟨.relay p :: e, by rw [h1]; simp, fun x hx => (List.mem_cons.1 hx).elim (fun k => .inr ⟨p, k⟩) fun k => .inl (h2 x k)⟩
        · exact ⟨[.relay p], rfl, fun x hx => .inr ⟨p, by simpa using hx⟩⟩
    unfold applyReverseProxy at h
    simp only [hp] at h
    cases hca : p.reqca with
    | none =>
      simp only [hca, Res.ok.injEq] at h
      exact quiet _ hrel h.symm
    | some s =>
      simp only [hca] at h
      unfold checkCert at h
      by_cases h1 : env.certProvided = true
      · by_cases h2 : env.verify s = 0
        · simp [h1, h2] at h
          exact rq _ _ h.symm
        · simp [h1, h2] at h
          exact quiet _ hrel h.symm
      · simp [h1] at h
        exact rq _ _ h.symm
  | none =>
    have e0 : applyReverseProxy env c i = (c, false) := by unfold applyReverseProxy; rw [hp]
    rw [e0] at h
    simp only at h
    split at h
    · simp only [Res.ok.injEq] at h
      exact rq _ _ h.symm
    · have hca : (∀ s, vhostRequireCa env.fnm (some v) (some i.path) = some s → env.certProvided = true ∧ env.verify s ≠ 0) ∨
          ∃ code mt, applyRequireCa env c i = (startReply env c code mt, true) := by
        unfold applyRequireCa checkCert
        rw [hv]
        cases vhostRequireCa env.fnm (some v) (some i.path) with
        | none => left; simp
        | some s =>
          by_cases h1 : env.certProvided = true
          · by_cases h2 : env.verify s = 0
            · right; exact ⟨61, b%"certificate not authorised", by simp [h1, h2]⟩
            · left; intro s' e; cases e; exact ⟨h1, h2⟩
          · right; exact ⟨60, b%"client certificate required", by simp [h1]⟩
      rcases hca with hca | ⟨code, mt, e1⟩
      · have e1 : applyRequireCa env c i = (c, false) := by
          unfold applyRequireCa checkCert
          rw [hv]
          cases hx : vhostRequireCa env.fnm (some v) (some i.path) with
          | none => rfl
          | some s => simp [hca s hx]
        rw [e1] at h
        simp only at h
        cases hb : vhostBlockReturn env.fnm (some v) (some i.path) with
        | some cf =>
          obtain ⟨code, fmt⟩ := cf
          unfold applyBlockReturn at h
          rw [hv, hb] at h
          simp only at h
          cases hm : fmtbuf 1027 fmt (stripPath i.path (vhostStrip env.fnm (some v) (some i.path))) i.query c.domain env.port with
          | err => rw [hm] at h; cases h
          | ub => rw [hm] at h; cases h
          | ok m =>
            rw [hm] at h
            rw [hb] at rq
            simp only [Res.ok.injEq] at h
            exact rq _ _ h.symm
        | none =>
          have e2 : applyBlockReturn env c i = .ok (c, false) := by unfold applyBlockReturn; rw [hv, hb]
          rw [e2] at h
          simp only at h
          cases hf : applyFastcgi env c i with
          | mk c1 b =>
            rw [hf] at h
            have hfe : (b = false ∧ c1 = c) ∨ (b = true ∧ ∃ e, c1.effs = c.effs ++ e ∧ ∀ x ∈ e, Quiet x ∨ ∃ n l, x = .fastcgi n l) := by
              unfold applyFastcgi at hf
              split at hf
              · cases hf; exact .inl ⟨rfl, rfl⟩
              · rename_i loc _
                split at hf
                · cases hf; exact .inl ⟨rfl, rfl⟩
                · right
                  have key : ∀ (code : Int) (mt : Bytes), ∃ e, (startReply env { c with effs := c.effs ++ [Eff.fastcgi loc.fcgi loc] } code mt).effs = c.effs ++ e ∧
                      ∀ x ∈ e, Quiet x ∨ ∃ n l, x = .fastcgi n l := by
                    intro code mt
                    obtain ⟨e, h1, h2⟩ := reply { c with effs := c.effs ++ [Eff.fastcgi loc.fcgi loc] } code mt
                    exact ⟨.fastcgi loc.fcgi loc :: e, by rw [h1]; simp,
                      fun x hx => (List.mem_cons.1 hx).elim (fun k => .inr ⟨_, _, k⟩) fun k => .inl (h2 x k)⟩
                  simp only at hf
                  split at hf
                  · cases hf; exact ⟨rfl, key _ _⟩
                  · split at hf
                    · cases hf; exact ⟨rfl, key _ _⟩
                    · cases hf
                      exact ⟨rfl, [.fastcgi loc.fcgi loc], rfl, fun x hx => .inr ⟨_, _, by simpa using hx⟩⟩
            rcases hfe with ⟨rfl, rfl⟩ | ⟨rfl, e, k1, k2⟩
            · simp only at h
              obtain ⟨c2, code, e, h1, h2, h3⟩ := serveFile_effs env c1 i
              rw [h] at h1
              cases h1
              rw [hv] at h3
              have hq := fun x hx => onlyReply_quiet h2 x hx
              rcases h3 with ⟨k1, -⟩ | ⟨fd', -, -, (⟨k1, -⟩ | ⟨k1, -⟩)⟩
              · refine ⟨_, k1, fun x hx => ?_⟩
                rcases List.mem_cons.1 hx with rfl | hx
                · exact .inr ⟨hca, rfl, .inr (.inl ⟨_, rfl⟩)⟩
                · exact .inl (.inl (hq x hx))
              · refine ⟨_, k1, fun x hx => ?_⟩
                rcases List.mem_cons.1 hx with rfl | hx
                · exact .inr ⟨hca, rfl, .inr (.inl ⟨_, rfl⟩)⟩
                · exact .inl (.inl (hq x hx))
              · refine ⟨_, k1, fun x hx => ?_⟩
                rcases List.mem_cons.1 hx with rfl | hx
                · exact .inr ⟨hca, rfl, .inr (.inl ⟨_, rfl⟩)⟩
                · rcases List.mem_cons.1 hx with rfl | hx
                  · exact .inr ⟨hca, rfl, .inr (.inr ⟨_, rfl⟩)⟩
                  · exact .inl (.inl (hq x hx))
            · simp only [Res.ok.injEq] at h
              subst h
              refine ⟨e, k1, fun x hx => ?_⟩
              rcases k2 x hx with k | k
              · exact .inl (.inl k)
              · exact .inr ⟨hca, rfl, .inl k⟩
      · rw [e1] at h
        simp only [Res.ok.injEq] at h
        exact rq _ _ h.symm

/-- what an event opens -/
theorem step_guarded (bufsiz : Nat) (ev : Ev) (hv : c.host = some v) (h : step env bufsiz ev c = .ok c') :
    ∃ e, c'.effs = c.effs ++ e ∧ ∀ fd nm, Eff.openat fd nm ∈ e →
      ∃ req i, parseIri env.isAddr req = .ok i ∧
      (∀ s, vhostRequireCa env.fnm (some v) (some i.path) = some s → env.certProvided = true ∧ env.verify s ≠ 0) ∧
      vhostBlockReturn env.fnm (some v) (some i.path) = none ∧
      (nm = openName (vhostStrip env.fnm (some v) (some i.path)) i.path ∨ nm = vhostIndex env.fnm (some v) (some i.path)) := by
  have none_ : ∀ (c1 : Client) (e : List Eff), c1.effs = c.effs ++ e → (∀ x ∈ e, ∀ fd nm, x ≠ .openat fd nm) → c' = c1 →
      ∃ e, c'.effs = c.effs ++ e ∧ ∀ fd nm, Eff.openat fd nm ∈ e →
      ∃ req i, parseIri env.isAddr req = .ok i ∧
      (∀ s, vhostRequireCa env.fnm (some v) (some i.path) = some s → env.certProvided = true ∧ env.verify s ≠ 0) ∧
      vhostBlockReturn env.fnm (some v) (some i.path) = none ∧
      (nm = openName (vhostStrip env.fnm (some v) (some i.path)) i.path ∨ nm = vhostIndex env.fnm (some v) (some i.path)) := by
    rintro c1 e h1 h2 rfl
    exact ⟨e, h1, fun fd nm hm => absurd rfl (h2 _ hm fd nm)⟩
  have hq : ∀ x : Eff, Quiet x → ∀ fd nm, x ≠ .openat fd nm := by rintro x hx fd nm rfl; exact hx
  have err : ∀ (k : ErrKind) (c0 : Client), c0.effs = c.effs → c' = clientError env k c0 →
      ∃ e, c'.effs = c.effs ++ e ∧ ∀ fd nm, Eff.openat fd nm ∈ e →
      ∃ req i, parseIri env.isAddr req = .ok i ∧
      (∀ s, vhostRequireCa env.fnm (some v) (some i.path) = some s → env.certProvided = true ∧ env.verify s ≠ 0) ∧
      vhostBlockReturn env.fnm (some v) (some i.path) = none ∧
      (nm = openName (vhostStrip env.fnm (some v) (some i.path)) i.path ∨ nm = vhostIndex env.fnm (some v) (some i.path)) := by
    intro k c0 h0 h1
    cases k with
    | timeout =>
      unfold clientError at h1
      simp only at h1
      split at h1
      · obtain ⟨e, k1, k2⟩ := (startReply_replied_short env { c0 with type := .done } 59 b%"timeout" (by decide) (by decide)).effs
        exact none_ _ e (by rw [k1, ← h0]) (fun x hx => hq x (onlyReply_quiet k2 x hx)) h1
      · exact none_ _ [.close] (by simp [clientClose, h0]) (by simp) h1
    | eof => exact none_ _ [.close] (by simp [clientError, clientClose, h0]) (by simp) h1
    | error => exact none_ _ [.close] (by simp [clientError, clientClose, h0]) (by simp) h1
  unfold step at h
  split at h
  · cases h; exact none_ c [] (by simp) (by simp) rfl
  · cases ev with
    | read data =>
      rcases clientRead_cases _ _ h with rfl | ⟨rest, rfl⟩ | ⟨req, rest, i, decoded, -, -, -, -, hi, -, hdis⟩
      · exact ⟨[], by simp, by simp⟩
      · obtain ⟨e, h1, h2⟩ := (startReply_replied_short env { c with inp := rest } 59 b%"bad request" (by decide) (by decide)).effs
        exact none_ _ e h1 (fun x hx => hq x (onlyReply_quiet h2 x hx)) rfl
      · obtain ⟨e, h1, h2⟩ := dispatch_guarded (v := v) i decoded (by exact hv) hdis
        refine ⟨e, h1, fun fd nm hm => ?_⟩
        rcases h2 _ hm with k | ⟨k1, k2, k3⟩
        · rcases k with k | ⟨p, k⟩
          · exact absurd k (by simp [Quiet])
          · cases k
        · refine ⟨req, i, hi, k1, k2, ?_⟩
          rcases k3 with ⟨_, _, k⟩ | ⟨_, k⟩ | ⟨_, k⟩
          · cases k
          · cases k; exact .inl rfl
          · cases k; exact .inr rfl
    | failed k =>
      simp only [Res.ok.injEq] at h
      exact err k c rfl h.symm
    | writable n rd =>
      simp only at h
      split at h
      · unfold clientWrite at h
        split at h
        · cases h; exact none_ _ [] (by simp) (by simp) rfl
        · split at h
          · simp only [Res.ok.injEq] at h
            exact err .error { c with sent := c.sent ++ c.out.take n, out := c.out.drop n } rfl h.symm
          · cases h; exact none_ _ [.close] (by simp [clientClose]) (by simp) rfl
          · cases h; exact none_ _ [] (by simp) (by simp) rfl
        · split at h
          · cases h; exact none_ _ [] (by simp) (by simp) rfl
          · cases h
          · cases h
        · cases h; exact none_ _ [] (by simp) (by simp) rfl
        · cases h; exact none_ _ [] (by simp) (by simp) rfl
        · simp only [Res.ok.injEq] at h
          rename_i hout _ _
          rw [if_pos hout] at h
          refine none_ _ [.close] ?_ (by simp) h.symm
          simp [clientClose]
      · cases h; exact none_ _ [] (by simp) (by simp) rfl

/-- with plain names the name that is opened is the path -/
theorem plain_open (fnm : Bytes → Bytes → Bool) (hp : PlainNames v) (path d nm : Bytes) (hs : StaysBelow path) (h0 : (0 : UInt8) ∉ path)
    (hn : nm = openName (vhostStrip fnm (some v) (some path)) path ∨ nm = vhostIndex fnm (some v) (some path)) (hd : InDir d nm) :
    InDir d path := by
  have hslash : c%'/' ∈ nm := by
    obtain ⟨t, rfl⟩ := hd
    simp
  rcases hn with rfl | rfl
  · have hz : vhostStrip fnm (some v) (some path) = 0 := by
      rcases C15_exhaustive fnm (·.strip ≠ 0) v.locs path with ⟨l, hl⟩ | hn
      · obtain ⟨b, a, e, k, -⟩ := hl
        exact absurd (hp.2.2 l (by rw [e]; simp)).1 k
      · rw [(C15_strip fnm v path).2 hn, hp.1]
    have := (openName_spec (vhostStrip fnm (some v) (some path)) path hs h0).2.1 (by omega)
    rw [this] at hd hslash
    split at hd
    · rename_i hpath
      rw [if_pos hpath] at hslash
      exact absurd hslash (by decide)
    · exact hd
  · exfalso
    rcases C15_exhaustive fnm (·.index ≠ []) v.locs path with ⟨l, hl⟩ | hn
    · rw [(C15_index fnm v path).1 l hl] at hslash
      obtain ⟨b, a, e, k, -⟩ := hl
      exact (hp.2.2 l (by rw [e]; simp)).2 hslash
    · rw [(C15_index fnm v path).2 hn] at hslash
      split at hslash
      · exact absurd hslash (by decide)
      · exact hp.2.1 hslash

/-- the block of the directory applies to what is in it -/
theorem dirBlock_first (fnm : Bytes → Bytes → Bool) (hg : GlobLaw fnm) (set : Location → Prop) (d : Bytes) (l : Location) (hl : DirBlock set v d l) (path : Bytes)
    (hs : StaysBelow path) (hd : InDir d path) : FirstSet fnm set v.locs path l := by
  obtain ⟨k1, k2, k3, b, a, e, k4⟩ := hl
  refine ⟨b, a, e, k3, ?_, fun x hx => fun k => k4 x hx k.1⟩
  unfold LocMatches
  rw [if_neg hs.1, k2]
  have : d ++ b%"/*" = (d ++ b%"/") ++ b%"*" := by simp
  rw [this, hg]
  · exact hd
  · intro c hc
    rcases List.mem_append.1 hc with hc | hc
    · exact k1 c hc
    · simp at hc; subst hc; decide

end

/-- a run: what is opened, each time under which conditions -/
theorem run_guarded (v : Vhost) (hv : FmtsOk v) (bufsiz : Nat) (evs : List (Env × Ev)) (c c' : Client) (hc : c.host = some v)
    (h : runEvents bufsiz evs c = .ok c') :
    ∃ e, c'.effs = c.effs ++ e ∧ ∀ fd nm, Eff.openat fd nm ∈ e → ∃ p ∈ evs,
      ∃ req i, parseIri p.1.isAddr req = .ok i ∧
      (∀ s, vhostRequireCa p.1.fnm (some v) (some i.path) = some s → p.1.certProvided = true ∧ p.1.verify s ≠ 0) ∧
      vhostBlockReturn p.1.fnm (some v) (some i.path) = none ∧
      (nm = openName (vhostStrip p.1.fnm (some v) (some i.path)) i.path ∨ nm = vhostIndex p.1.fnm (some v) (some i.path)) := by
  induction evs generalizing c with
  | nil => cases h; exact ⟨[], by simp, by simp⟩
  | cons p r ih =>
    obtain ⟨env, ev⟩ := p
    obtain ⟨c1, h1, h2⟩ := step_total env bufsiz ev c (by intro w hw; rw [hc] at hw; cases hw; exact hv)
    rw [runEvents, h1] at h
    obtain ⟨e2, k1, k2⟩ := ih c1 (by rw [h2, hc]) h
    obtain ⟨e1, j1, j2⟩ := step_guarded bufsiz ev hc h1
    refine ⟨e1 ++ e2, by rw [k1, j1, List.append_assoc], fun fd nm hm => ?_⟩
    rcases List.mem_append.1 hm with hm | hm
    · exact ⟨(env, ev), by simp, j2 fd nm hm⟩
    · obtain ⟨p, hp, x⟩ := k2 fd nm hm
      exact ⟨p, List.mem_cons_of_mem _ hp, x⟩

/-- **C131.** A directory with a block `location "/d/*" { require client ca ... }` (no location before it requires another CA): on no connection, whatever is sent on it, is
a file of the directory opened, or the directory listed, unless the client has a certificate that passes the verification against that CA. -/
theorem C131_certificate (v : Vhost) (hv : FmtsOk v) (hp : PlainNames v) (d : Bytes) (l : Location) (store : Nat)
    (hl : DirBlock (·.reqca ≠ none) v d l) (hs : l.reqca = some store) (name : Bytes) (bufsiz : Nat) (evs : List (Env × Ev)) (c' : Client)
    (hg : ∀ p ∈ evs, GlobLaw p.1.fnm) (h : runEvents bufsiz evs { host := some v, domain := name } = .ok c')
    (fd : Int) (nm : Bytes) (ho : Eff.openat fd nm ∈ c'.effs) (hd : InDir d nm) : ∃ p ∈ evs, p.1.certProvided = true ∧ p.1.verify store ≠ 0 := by
  obtain ⟨e, h1, h2⟩ := run_guarded v hv bufsiz evs _ c' rfl h
  rw [h1] at ho
  obtain ⟨p, k0, req, i, k1, k2, -, k4⟩ := h2 fd nm (by simpa using ho)
  have hb := C01_path_confined _ _ _ k1
  have hi := plain_open p.1.fnm hp i.path d nm hb.1 hb.2 k4 hd
  have hf := dirBlock_first p.1.fnm (hg p k0) _ d l hl i.path hb.1 hi
  exact ⟨p, k0, k2 store (by rw [(C15_client_ca p.1.fnm v i.path).1 l hf, hs])⟩

/-- **C131.** A directory with a block `location "/d/*" { block return ... }`: on no connection, whatever is sent on it, is a file of the directory opened, or the directory listed. -/
theorem C131_blocked (v : Vhost) (hv : FmtsOk v) (hp : PlainNames v) (d : Bytes) (l : Location) (hl : DirBlock (·.blockCode ≠ 0) v d l)
    (name : Bytes) (bufsiz : Nat) (evs : List (Env × Ev)) (c' : Client)
    (hg : ∀ p ∈ evs, GlobLaw p.1.fnm) (h : runEvents bufsiz evs { host := some v, domain := name } = .ok c')
    (fd : Int) (nm : Bytes) (hd : InDir d nm) : Eff.openat fd nm ∉ c'.effs := by
  intro ho
  obtain ⟨e, h1, h2⟩ := run_guarded v hv bufsiz evs _ c' rfl h
  rw [h1] at ho
  obtain ⟨p, k0, req, i, k1, -, k3, k4⟩ := h2 fd nm (by simpa using ho)
  have hb := C01_path_confined _ _ _ k1
  have hi := plain_open p.1.fnm hp i.path d nm hb.1 hb.2 k4 hd
  have hf := dirBlock_first p.1.fnm (hg p k0) _ d l hl i.path hb.1 hi
  rw [(C15_block_return p.1.fnm v i.path).1 l hf] at k3
  cases k3

/-- **C131.** A request for something in the directory, whatever its spelling, by a client without a certificate that passes is answered with 60 or 61; no file is opened and no
application is contacted. -/
theorem C131_refused {env : Env} {c : Client} {v : Vhost} {name req rest : Bytes} {i : Iri} {decoded : Bytes}
    (h : WellFormed env c v name req rest i decoded) (hn : NoRelay env.fnm v i.schema name i.port) (hu : ForUs i name decoded) (hg : GlobLaw env.fnm)
    (d : Bytes) (l : Location) (store : Nat) (hl : DirBlock (·.reqca ≠ none) v d l) (hs : l.reqca = some store) (hd : InDir d i.path)
    (hc : ¬ (env.certProvided = true ∧ env.verify store ≠ 0)) :
    ∃ c', clientRead env c = .ok c' ∧ (OnlyReply 60 c'.effs ∨ OnlyReply 61 c'.effs) := by
  have hf := dirBlock_first env.fnm hg _ d l hl i.path (C01_path_confined _ _ _ h.parses).1 hd
  refine (C20_precedence h hn).2.1 hu ?_
  have key := (C15_client_ca env.fnm v i.path).1 l hf
  rintro (k | ⟨s, k1, k2, k3⟩)
  · rw [noCa_eq _ _ _ k, hs] at key; cases key
  · rw [caIs_eq _ _ _ _ k1, hs] at key
    cases key
    exact hc ⟨k2, k3⟩

/-- a matcher that knows plain text and an asterisk at the end -/
def exGlob (p s : Bytes) : Bool :=
  if p.getLast? = some c%'*' ∧ (∀ c ∈ p.dropLast, c ∉ b%"*?[\\") then p.dropLast.isPrefixOf s else p == s

theorem exGlob_law : GlobLaw exGlob := by
  intro d s hd
  unfold exGlob
  have h2 : (d ++ b%"*").dropLast = d := by simp
  rw [if_pos ⟨by simp, by rw [h2]; exact hd⟩, h2]
  exact List.isPrefixOf_iff_prefix

/-- a server whose directory priv is protected, before a location for everything -/
def exPrivLoc : Location := { pat := b%"priv/*", reqca := some 7 }
def exPrivHost : Vhost := { domain := b%"h", locs := [{ pat := b%"*", lang := b%"it" }, exPrivLoc, { pat := b%"gone/*", blockCode := 52, blockFmt := b%"gone" }], dflt := { dirfd := 3 } }
def exPrivEnv : Env := { exEnv2 with fnm := exGlob }

example : FmtsOk exPrivHost ∧ PlainNames exPrivHost ∧ DirBlock (·.reqca ≠ none) exPrivHost b%"priv" exPrivLoc ∧ exPrivLoc.reqca = some 7 ∧ GlobLaw exPrivEnv.fnm := by
  refine ⟨?_, ?_, ⟨?_, rfl, by simp [exPrivLoc], [{ pat := b%"*", lang := b%"it" }], [{ pat := b%"gone/*", blockCode := 52, blockFmt := b%"gone" }], rfl, by simp⟩,
    rfl, exGlob_law⟩
  · intro l hl
    simp [exPrivHost] at hl
    rcases hl with rfl | rfl | rfl | rfl <;> decide +kernel
  · unfold PlainNames; decide +kernel
  · unfold GlobPlain; decide +kernel

example : DirBlock (·.blockCode ≠ 0) exPrivHost b%"gone" { pat := b%"gone/*", blockCode := 52, blockFmt := b%"gone" } :=
  ⟨by unfold GlobPlain; decide +kernel, rfl, by simp, [{ pat := b%"*", lang := b%"it" }, exPrivLoc], [], rfl, by simp [exPrivLoc]⟩

/-- without a certificate: whatever the spelling -/
example : ∀ r ∈ [b%"gemini://h/priv/x\r\n", b%"gemini://h/a/..//priv/%78\r\n", b%"gemini://h/%70riv/\r\n", b%"gemini://h/./priv%2fx\r\n"],
    ((runEvents 4 [({ exPrivEnv with certProvided := false }, .read r)] { host := some exPrivHost, domain := b%"h" }).val?.map (·.effs)) =
      some [.header 60 b%"60 client certificate required", .log 60 b%"client certificate required"] := by decide +kernel

/-- with one -/
example : ((runEvents 4 [({ exPrivEnv with certProvided := true, verify := fun _ => 1 }, .read b%"gemini://h/priv/x\r\n")]
      { host := some exPrivHost, domain := b%"h" }).val?.map (·.effs.head?)) = some (some (.openat 3 b%"priv/x")) := by decide +kernel

/-- **C131.** What the conditions are for: with `strip`, other paths lead to the same files, and the block of the directory does not apply to them. -/
theorem C131_strip_bypass :
    ((runEvents 4 [({ exPrivEnv with certProvided := false }, .read b%"gemini://h/a/priv/x\r\n")]
      { host := some { exPrivHost with dflt := { dirfd := 3, strip := 1 } }, domain := b%"h" }).val?.map (·.effs.head?)) = some (some (.openat 3 b%"priv/x")) := by
  decide +kernel

/-- **C131.** The directory itself can be asked about without its slash: the reply is a redirect, so a client without a certificate learns that it is there, but not what is in it. -/
theorem C131_existence :
    ((runEvents 4 [({ exPrivEnv with certProvided := false, openat := (fun fd n => if fd = 3 ∧ n = b%"priv" then some 9 else none), fstat := (fun _ => some .dir) }, .read b%"gemini://h/priv\r\n")] { host := some exPrivHost, domain := b%"h" }).val?.map (·.effs)) =
      some [.openat 3 b%"priv", .header 30 b%"30 /priv/", .log 30 b%"/priv/"] := by decide +kernel

example : WellFormed { exPrivEnv with certProvided := false } { host := some exPrivHost, domain := b%"h", inp := b%"gemini://h/priv/x\r\n" } exPrivHost b%"h"
    b%"gemini://h/priv/x" [] (exI b%"priv/x") b%"h" ∧ NoRelay exPrivEnv.fnm exPrivHost b%"gemini" b%"h" [] ∧ ForUs (exI b%"priv/x") b%"h" b%"h" ∧
    InDir b%"priv" (exI b%"priv/x").path :=
  ⟨⟨⟨rfl, rfl, rfl, rfl, rfl, rfl, rfl, (readLine_some b%"gemini://h/priv/x\r\n" b%"gemini://h/priv/x" [] (by decide +kernel)).2, by decide⟩, by decide, by decide +kernel,
    by decide +kernel⟩, (fun q hq => by cases hq), ⟨rfl, rfl⟩, ⟨b%"x", rfl⟩⟩

/-! ## C60 -/

/-- **C60, in part.** A rule `proxy for-host "h"` with a plain name applies to exactly those gemini requests on connections for the server name h whose port is written out as 1965.
(In part: those without a port should be among them, C60_for_host_default_port.) -/
theorem C60_for_host_partial (fnm : Bytes → Bytes → Bool) (hg : GlobExact fnm) (isAddr : Bytes → Bool) (req : Bytes) (i : Iri) (hi : parseIri isAddr req = .ok i)
    (p : Proxy) (host name : Bytes) (hh : GlobPlain host) (hne : host ≠ []) (hname : name.head? ≠ some c%'/')
    (h1 : p.matchProto = []) (h2 : p.matchHost = host) (h3 : p.matchPort = b%"1965") :
    RelayMatches fnm p i.schema name i.port ↔ i.schema = b%"gemini" ∧ name = host ∧ i.port = b%"1965" := by
  have hport : i.port.head? ≠ some c%'/' := by
    obtain ⟨-, sch, auth, tail, -, -, ⟨-, e, -⟩ | ⟨-, hd, -⟩⟩ := C06_port_exact isAddr req i hi
    · simp [e]
    · intro hx
      cases hp : i.port with
      | nil => rw [hp] at hx; cases hx
      | cons a r =>
        rw [hp] at hx hd
        simp at hx
        have := hd a (by simp)
        rw [hx] at this
        revert this
        decide
  have hsch : i.schema.head? ≠ some c%'/' := by
    obtain ⟨sch, auth, pp, tail, rfl, k1, k2, -⟩ := (parseIri_iff _ _ _).1 hi
    obtain ⟨x, r, rfl, k3, -⟩ := k1
    intro hx
    rw [k2] at hx
    simp at hx
    have key : ∀ y : UInt8, y ∈ b%"ABCDEFGHIJKLMNOPQRSTUVWXYZabcdefghijklmnopqrstuvwxyz" → lower y ≠ 47 := by decide +kernel
    exact key x k3 hx
  unfold RelayMatches
  rw [h1, h2, h3]
  simp only [if_neg hport, if_neg hname, if_neg hsch, if_neg hne, if_true]
  have e1 : ¬ (b%"1965" : Bytes) = [] := by decide
  rw [if_neg e1, hg _ _ hh, hg _ _ (by unfold GlobPlain; decide +kernel), hg _ _ (by unfold GlobPlain; decide +kernel)]
  constructor
  · rintro ⟨a, b, c⟩; exact ⟨a.symm, b.symm, c.symm⟩
  · rintro ⟨a, b, c⟩; exact ⟨a.symm, b.symm, c.symm⟩

example : GlobExact (fun p s => p == s) ∧ GlobPlain b%"h.org" ∧ (parseIri (fun _ => false) b%"gemini://h.org:1965/x").val?.map (·.port) = some b%"1965" :=
  ⟨fun d s _ => by simp, by unfold GlobPlain; decide +kernel, by decide +kernel⟩

end Gmid.Props
