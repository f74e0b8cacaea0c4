import Verif.Props.Live
import Verif.Props.Conn
import Verif.Props.Encode

/-!
# C119: how much a connection can make a server process keep in memory

The two buffers of a connection: what the client has sent and the server has not looked at yet, and what is queued for the client.
-/

set_option autoImplicit false

namespace Gmid.Spec

/-- read(2) gives no more than was asked for -/
def ReadsFit (bufsiz : Nat) (evs : List (Env × ConnEv)) : Prop := ∀ e ∈ evs, ∀ r d, e.2 = .writable r (some d) → d.length ≤ bufsiz

/-- no directory that is listed has more than `n` entries -/
def SmallDirs (n : Nat) (evs : List (Env × ConnEv)) : Prop := ∀ e ∈ evs, ∀ fd b l, e.1.scandir fd b = some l → l.length ≤ n

/-- only the client's own socket is involved: no application and no upstream server sends anything -/
def OwnSocket (evs : List (Env × ConnEv)) : Prop := ∀ e ∈ evs, (∃ r, e.2 = .readable r) ∨ ∃ r rd, e.2 = .writable r rd

end Gmid.Spec

namespace Gmid.Props
open Gmid.Spec

section
variable {env : Env}

theorem startReply_length (c : Client) (code : Int) (mt : Bytes) : (startReply env c code mt).out.length ≤ c.out.length + 1029 := by
  rcases startReply_cases env c code mt with ⟨hdr, h, hl, -⟩ | ⟨h, -⟩
  · rw [h]
    simp only [queueHeader, List.length_append, List.length_cons, List.length_nil]
    omega
  · rw [h]
    simp only [replyOverflow, queueHeader, List.length_append, List.length_cons, List.length_nil]
    omega

/-- what a request may do to the buffers -/
structure Rep (n : List Dirent → Prop) (c c' : Client) : Prop where
  inp : c'.inp = c.inp
  host : c'.host = c.host
  rep : (c'.code = c.code ∧ c'.out = c.out ∧ c'.dir = c.dir ∧ (c'.type = c.type ∨ c'.type = .proxy)) ∨
    (c'.code ≠ 0 ∧ c'.type ≠ .undecided ∧ c'.out.length ≤ c.out.length + 2062 ∧ (c'.dir = c.dir ∨ n c'.dir))

theorem startReply_rep (n : List Dirent → Prop) (c : Client) (code : Int) (mt : Bytes) (h0 : code ≠ 0) (ht : code = 20 → c.type ≠ .undecided) : Rep n c (startReply env c code mt) := by
  have hlen := startReply_length (env := env) c code mt
  rcases startReply_replied env c code mt with h | h
  · refine ⟨h.inp, h.host, .inr ⟨by rw [h.rcode]; exact h0, ?_, by omega, .inl h.dir⟩⟩
    rw [h.type]
    split
    · decide
    · rename_i hh; exact ht (Decidable.not_not.mp hh)
  · refine ⟨h.inp, h.host, .inr ⟨by rw [h.rcode]; decide, ?_, by omega, .inl h.dir⟩⟩
    rw [h.type]
    simp

theorem Rep.of {n : List Dirent → Prop} {c c1 c' : Client} (h : Rep n c1 c') (h1 : c1.inp = c.inp) (h2 : c1.host = c.host) (h3 : c1.out = c.out) (h4 : c1.code = c.code)
    (h5 : c1.type = c.type) (h6 : c1.dir = c.dir) : Rep n c c' := by
  refine ⟨by rw [h.inp, h1], by rw [h.host, h2], ?_⟩
  have := h.rep
  rw [h3, h4, h5, h6] at this
  exact this

theorem checkCert_rep (n : List Dirent → Prop) (c : Client) (store : Nat) (c' : Client) (b : Bool) (h : checkCert env c store = (c', b)) : (b = true ∧ Rep n c c') ∨ (b = false ∧ c' = c) := by
  unfold checkCert at h
  split at h
  · cases h; exact .inl ⟨rfl, startReply_rep _ _ _ _ (by decide) (by simp)⟩
  · split at h
    · cases h; exact .inl ⟨rfl, startReply_rep _ _ _ _ (by decide) (by simp)⟩
    · cases h; exact .inr ⟨rfl, rfl⟩

theorem relayTo_rep (n : List Dirent → Prop) (c : Client) (p : Proxy) : Rep n c (relayTo env c p) := by
  unfold relayTo
  dsimp only
  split
  · exact (startReply_rep n { c with effs := c.effs ++ [.relay p] } 43 b%"proxy error" (by decide) (by simp)).of rfl rfl rfl rfl rfl rfl
  · split
    · exact (startReply_rep n { c with effs := c.effs ++ [.relay p] } 43 b%"proxy error" (by decide) (by simp)).of rfl rfl rfl rfl rfl rfl
    · exact ⟨rfl, rfl, .inl ⟨rfl, rfl, rfl, .inr rfl⟩⟩

theorem dirListing_rep (n : List Dirent → Prop) (hn : ∀ fd b l, env.scandir fd b = some l → n l) (c : Client) (i : Iri) (hp : i.path.length ≤ 1019) :
    Rep n c (dirListing env c i) := by
  unfold dirListing
  split
  · exact startReply_rep _ _ _ _ (by decide) (by simp)
  · split
    · exact startReply_rep _ _ _ _ (by decide) (by simp)
    · rename_i d hd
      dsimp only
      have hlen := startReply_length (env := env) { c with dir := d, type := .dir } 20 b%"text/gemini"
      have h := startReply_rep (env := env) n { c with dir := d, type := .dir } 20 b%"text/gemini" (by decide) (by simp)
      refine ⟨h.inp, h.host, .inr ⟨?_, ?_, ?_, ?_⟩⟩
      · rcases h.rep with h | h
        · rcases startReply_replied env { c with dir := d, type := .dir } 20 b%"text/gemini" with k | k
          · show (startReply env _ _ _).code ≠ 0
            rw [k.rcode]; decide
          · show (startReply env _ _ _).code ≠ 0
            rw [k.rcode]; decide
        · exact h.1
      · rcases h.rep with h | h
        · show (startReply env _ _ _).type ≠ .undecided
          rcases h.2.2.2 with k | k
          · rw [k]; simp
          · rw [k]; simp
        · exact h.2.1
      · simp only [List.length_append, List.length_cons, List.length_nil] at hlen ⊢
        omega
      · right
        rcases startReply_replied env { c with dir := d, type := .dir } 20 b%"text/gemini" with k | k
        · show n (startReply env _ _ _).dir
          rw [k.dir]; exact hn _ _ _ hd
        · show n (startReply env _ _ _).dir
          rw [k.dir]; exact hn _ _ _ hd

theorem openDir_rep (n : List Dirent → Prop) (hn : ∀ fd b l, env.scandir fd b = some l → n l) (c c' : Client) (i : Iri) (hp : i.path.length ≤ 1019)
    (h : openDir env c i = .ok c') : Rep n c c' := by
  unfold openDir at h
  split at h
  · cases h
    unfold redirectDir
    dsimp only
    split <;> exact startReply_rep _ _ _ _ (by decide) (by simp)
  · dsimp only at h
    split at h
    · cases h
      exact (dirListing_rep n hn _ i hp).of rfl rfl rfl rfl rfl rfl
    · split at h
      · cases h; exact (startReply_rep n _ _ _ (by decide) (by simp)).of rfl rfl rfl rfl rfl rfl
      · split at h
        · rename_i m _
          cases h
          generalize hcc : ({ c with effs := _, pfd := _, type := RType.file } : Client) = cc
          have e1 : cc.inp = c.inp ∧ cc.host = c.host ∧ cc.out = c.out ∧ cc.dir = c.dir ∧ cc.type = .file := by subst hcc; exact ⟨rfl, rfl, rfl, rfl, rfl⟩
          have hl := startReply_length (env := env) cc 20 m
          rcases startReply_replied env cc 20 m with q | q
          · refine ⟨by rw [q.inp, e1.1], by rw [q.host, e1.2.1], .inr ⟨by rw [q.rcode]; decide, by rw [q.type, e1.2.2.2.2]; simp, ?_, .inl (by rw [q.dir, e1.2.2.2.1])⟩⟩
            rw [e1.2.2.1] at hl; omega
          · refine ⟨by rw [q.inp, e1.1], by rw [q.host, e1.2.1], .inr ⟨by rw [q.rcode]; decide, by rw [q.type]; simp, ?_, .inl (by rw [q.dir, e1.2.2.2.1])⟩⟩
            rw [e1.2.2.1] at hl; omega
        · cases h
        · cases h
      · cases h
        exact (dirListing_rep n hn _ i hp).of rfl rfl rfl rfl rfl rfl

theorem serveFile_rep (n : List Dirent → Prop) (hn : ∀ fd b l, env.scandir fd b = some l → n l) (c c' : Client) (i : Iri) (hp : i.path.length ≤ 1019)
    (h : serveFile env c i = .ok c') : Rep n c c' := by
  unfold serveFile at h
  dsimp only at h
  split at h
  · cases h; exact (startReply_rep n _ _ _ (by decide) (by simp)).of rfl rfl rfl rfl rfl rfl
  · split at h
    · cases h; exact (startReply_rep n _ _ _ (by decide) (by simp)).of rfl rfl rfl rfl rfl rfl
    · exact (openDir_rep n hn _ _ i hp h).of rfl rfl rfl rfl rfl rfl
    · split at h
      · rename_i m _
        cases h
        generalize hcc : ({ c with loc := _, effs := _, pfd := _, type := RType.file } : Client) = cc
        have e1 : cc.inp = c.inp ∧ cc.host = c.host ∧ cc.out = c.out ∧ cc.dir = c.dir ∧ cc.type = .file := by subst hcc; exact ⟨rfl, rfl, rfl, rfl, rfl⟩
        have hl := startReply_length (env := env) cc 20 m
        rcases startReply_replied env cc 20 m with q | q
        · refine ⟨by rw [q.inp, e1.1], by rw [q.host, e1.2.1], .inr ⟨by rw [q.rcode]; decide, by rw [q.type, e1.2.2.2.2]; simp, ?_, .inl (by rw [q.dir, e1.2.2.2.1])⟩⟩
          rw [e1.2.2.1] at hl; omega
        · refine ⟨by rw [q.inp, e1.1], by rw [q.host, e1.2.1], .inr ⟨by rw [q.rcode]; decide, by rw [q.type]; simp, ?_, .inl (by rw [q.dir, e1.2.2.2.1])⟩⟩
          rw [e1.2.2.1] at hl; omega
      · cases h
      · cases h


theorem applyFastcgi_rep (n : List Dirent → Prop) (c c' : Client) (i : Iri) (b : Bool) (h : applyFastcgi env c i = (c', b)) : (b = true ∧ Rep n c c') ∨ (b = false ∧ c' = c) := by
  unfold applyFastcgi at h
  split at h
  · cases h; exact .inr ⟨rfl, rfl⟩
  · split at h
    · cases h; exact .inr ⟨rfl, rfl⟩
    · dsimp only at h
      split at h
      · cases h; exact .inl ⟨rfl, (startReply_rep n _ _ _ (by decide) (by simp)).of rfl rfl rfl rfl rfl rfl⟩
      · split at h
        · cases h; exact .inl ⟨rfl, (startReply_rep n _ _ _ (by decide) (by simp)).of rfl rfl rfl rfl rfl rfl⟩
        · cases h; exact .inl ⟨rfl, rfl, rfl, .inl ⟨rfl, rfl, rfl, .inl rfl⟩⟩

theorem dispatch_rep (n : List Dirent → Prop) (hn : ∀ fd b l, env.scandir fd b = some l → n l) (c c' : Client) (i : Iri) (d : Bytes) (hp : i.path.length ≤ 1019)
    (hv : ∀ v, c.host = some v → ConfOk v) (h : dispatch env c i d = .ok c') : Rep n c c' := by
  unfold dispatch at h
  have h1 : ∀ c1 b, applyReverseProxy env c i = (c1, b) → (b = true ∧ Rep n c c1) ∨ (b = false ∧ c1 = c) := by
    intro c1 b h
    unfold applyReverseProxy at h
    split at h
    · cases h; exact .inr ⟨rfl, rfl⟩
    · split at h
      · split at h
        · rename_i hc
          cases h
          rcases checkCert_rep n _ _ _ _ hc with k | k
          · exact .inl k
          · exact absurd k.1 (by simp)
        · rename_i hc
          cases h
          rcases checkCert_rep n _ _ _ _ hc with k | k
          · exact absurd k.1 (by simp)
          · rw [k.2]; exact .inl ⟨rfl, relayTo_rep n _ _⟩
      · cases h; exact .inl ⟨rfl, relayTo_rep n _ _⟩
  split at h
  · rename_i hr
    cases h
    rcases h1 _ _ hr with k | k
    · exact k.2
    · exact absurd k.1 (by simp)
  · rename_i hr
    rcases h1 _ _ hr with k | k
    · exact absurd k.1 (by simp)
    · rw [k.2] at h
      split at h
      · cases h; exact startReply_rep _ _ _ _ (by decide) (by simp)
      · have h2 : ∀ c1 b, applyRequireCa env c i = (c1, b) → (b = true ∧ Rep n c c1) ∨ (b = false ∧ c1 = c) := by
          intro c1 b h
          unfold applyRequireCa at h
          split at h
          · cases h; exact .inr ⟨rfl, rfl⟩
          · exact checkCert_rep n _ _ _ _ h
        split at h
        · rename_i hr2
          cases h
          rcases h2 _ _ hr2 with k | k
          · exact k.2
          · exact absurd k.1 (by simp)
        · rename_i hr2
          rcases h2 _ _ hr2 with k | k
          · exact absurd k.1 (by simp)
          · rw [k.2] at h
            have h3 : ∀ c1 b, applyBlockReturn env c i = .ok (c1, b) → (b = true ∧ Rep n c c1) ∨ (b = false ∧ c1 = c) := by
              intro c1 b h
              unfold applyBlockReturn at h
              split at h
              · cases h; exact .inr ⟨rfl, rfl⟩
              · rename_i code fmt hb
                split at h
                · cases h
                  cases hh : c.host with
                  | none => rw [hh] at hb; simp [vhostBlockReturn] at hb
                  | some v =>
                    rw [hh] at hb
                    have := block_code _ v (hv v hh) _ _ _ hb
                    exact .inl ⟨rfl, startReply_rep _ _ _ _ this.1 (fun e => absurd e this.2)⟩
                · cases h
                · cases h
            split at h
            · cases h
            · cases h
            · rename_i hr3
              cases h
              rcases h3 _ _ hr3 with k | k
              · exact k.2
              · exact absurd k.1 (by simp)
            · rename_i hr3
              rcases h3 _ _ hr3 with k | k
              · exact absurd k.1 (by simp)
              · rw [k.2] at h
                split at h
                · rename_i hr4
                  cases h
                  rcases applyFastcgi_rep n _ _ _ _ hr4 with k | k
                  · exact k.2
                  · exact absurd k.1 (by simp)
                · rename_i hr4
                  rcases applyFastcgi_rep n _ _ _ _ hr4 with k | k
                  · exact absurd k.1 (by simp)
                  · rw [k.2] at h
                    exact serveFile_rep n hn _ _ i hp h


/-! ## what does not touch the input -/

/-- the input and the host stay, an answered client stays answered, and nothing makes its type undecided again -/
structure Mild (c c' : Client) : Prop where
  inp : c'.inp = c.inp
  host : c'.host = c.host
  code : c'.code = 0 → c.code = 0
  type : c'.type = .undecided → c.type = .undecided

theorem Mild.refl (c : Client) : Mild c c := ⟨rfl, rfl, id, id⟩

theorem Mild.trans {a b c : Client} (h : Mild a b) (k : Mild b c) : Mild a c :=
  ⟨k.inp.trans h.inp, k.host.trans h.host, fun e => h.code (k.code e), fun e => h.type (k.type e)⟩

theorem startReply_mild (c : Client) (code : Int) (mt : Bytes) (h0 : code ≠ 0) : Mild c (startReply env c code mt) := by
  rcases startReply_replied env c code mt with h | h
  · refine ⟨h.inp, h.host, fun e => absurd e (by rw [h.rcode]; exact h0), fun e => ?_⟩
    rw [h.type] at e
    split at e
    · cases e
    · exact e
  · refine ⟨h.inp, h.host, fun e => absurd e (by rw [h.rcode]; decide), fun e => ?_⟩
    rw [h.type] at e
    simp at e

theorem clientWrite_mild (bufsiz : Nat) (rd : Option Bytes) (c c' : Client) (h : clientWrite env bufsiz rd c = .ok c') : Mild c c' := by
  unfold clientWrite at h
  cases e : c.type
  all_goals rw [e] at h
  all_goals dsimp only at h
  · cases h; exact Mild.refl _
  · rcases rd with _ | _ | ⟨a, r⟩
    · cases h; exact ⟨rfl, rfl, id, fun k => by cases k⟩
    · cases h; exact ⟨rfl, rfl, id, fun k => k⟩
    · cases h; exact ⟨rfl, rfl, id, fun k => by dsimp only at k; split at k <;> cases k⟩
  · cases hd : dirLines c.dir with
    | ok t => rw [hd] at h; cases h; exact ⟨rfl, rfl, id, fun k => by cases k⟩
    | err => rw [hd] at h; cases h
    | ub => rw [hd] at h; cases h
  · cases h; exact Mild.refl _
  · cases h; exact Mild.refl _
  · cases h
    split
    · exact ⟨rfl, rfl, id, fun k => k⟩
    · exact Mild.refl _

theorem fcgiError_mild (f : FClient) (c : Client) (hc : f.c = c) : Mild c (fcgiError env f).c := by
  subst hc
  unfold fcgiError
  split
  · exact Mild.trans (b := { f.c with pfd := -1 }) ⟨rfl, rfl, id, id⟩ (startReply_mild (env := env) { f.c with pfd := -1 } 42 b%"CGI error" (by decide))
  · exact ⟨rfl, rfl, id, fun e => by cases e⟩

theorem fcgiStop_mild (f g : FClient) (hs : fcgiStop env f = .ok g) : Mild f.c g.c := by
  unfold fcgiStop at hs
  dsimp only at hs
  cases hw : clientWrite env 0 none (fcgiError env f).c with
  | ok c =>
    rw [hw] at hs
    cases hs
    exact (fcgiError_mild f _ rfl).trans (clientWrite_mild _ _ _ _ hw)
  | err => rw [hw] at hs; cases hs
  | ub => rw [hw] at hs; cases hs

theorem fcgiHeaderLine_mild (f : FClient) (t : Nat) (c : Client) (hc : f.c = c) : Mild c (fcgiHeaderLine env f t).1.c := by
  subst hc
  unfold fcgiHeaderLine
  dsimp only
  split
  · split
    · split
      · exact fcgiError_mild f f.c rfl
      · rename_i hcode
        simp only [Bool.or_eq_true, decide_eq_true_eq, not_or, Int.not_lt, Int.not_le] at hcode
        have h1 : ∀ code : Int, 10 ≤ code → ∀ mt, Mild f.c (startReply env f.c code mt) := fun code hc mt => startReply_mild f.c code mt (by omega)
        split
        · exact (h1 _ hcode.1 _).trans (fcgiError_mild _ _ rfl)
        · exact (h1 _ hcode.1 _).trans ⟨rfl, rfl, id, id⟩
    · exact fcgiError_mild f f.c rfl
  · exact fcgiError_mild f f.c rfl

theorem fcgiStdout_mild (f : FClient) (len : Nat) : Mild f.c (fcgiStdout env f len).c := by
  unfold fcgiStdout
  split
  · dsimp only
    split
    · split
      · have h := fcgiHeaderLine_mild (env := env) { f with sbuf := f.sbuf ++ f.src.take (min len (1029 - f.sbuf.length)), src := f.src.drop (min len (1029 - f.sbuf.length)) } (by assumption) _ rfl
        exact ⟨h.inp, h.host, h.code, h.type⟩
      · exact fcgiHeaderLine_mild _ _ _ rfl
    · split
      · exact fcgiError_mild _ _ rfl
      · exact Mild.refl _
  · exact ⟨rfl, rfl, id, id⟩

theorem fcgiLoop_mild (n : Nat) : ∀ (f g : FClient), fcgiLoop' env n f = .ok g → Mild f.c g.c := by
  induction n with
  | zero =>
    intro f g hl
    unfold fcgiLoop' at hl
    split at hl
    · have := fcgiStop_mild _ g hl; exact this
    · split at hl
      · split at hl
        · have := fcgiStop_mild _ g hl; exact this
        · dsimp only at hl
          split at hl
          · cases hl; exact Mild.refl _
          · cases hl
      · cases hl; exact Mild.refl _
  | succ n ih =>
    intro f g hl
    unfold fcgiLoop' at hl
    split at hl
    · have := fcgiStop_mild _ g hl; exact this
    · split at hl
      · split at hl
        · have := fcgiStop_mild _ g hl; exact this
        · dsimp only at hl
          split at hl
          · cases hl; exact Mild.refl _
          · split at hl
            · split at hl
              · have := fcgiStop_mild _ g hl; exact this
              · exact Mild.trans (b := { f.c with type := .done }) ⟨rfl, rfl, id, fun e => by cases e⟩ (ih _ g hl)
            · split at hl
              · have := ih _ g hl; exact this
              · split at hl
                · rename_i b0 ty i1 i0 l1 l0 pad b7 rest heq g1 g2 g3 g4 g5
                  have := ih _ g hl
                  exact (fcgiStdout_mild (env := env) { f with src := rest } (l0.toNat + l1.toNat * 256)).trans (this)
                · have := fcgiStop_mild _ g hl; exact this
      · cases hl; exact Mild.refl _

theorem proxyError_mild (f g : PClient) (he : proxyError env f = .ok g) : Mild f.c g.c := by
  unfold proxyError at he
  dsimp only at he
  split at he
  · cases he
    exact Mild.trans (b := { f.c with pfd := -1 }) ⟨rfl, rfl, id, id⟩ (startReply_mild (env := env) { f.c with pfd := -1 } 43 b%"protocol error" (by decide))
  · cases hw : clientWrite env 0 none { f.c with pfd := -1, type := .done } with
    | ok c =>
      rw [hw] at he
      cases he
      exact Mild.trans (b := { f.c with pfd := -1, type := .done }) ⟨rfl, rfl, id, fun e => by cases e⟩ (clientWrite_mild _ _ _ _ hw)
    | err => rw [hw] at he; cases he
    | ub => rw [hw] at he; cases he

theorem proxyRead_mild (f g : PClient) (d : Bytes) (he : proxyRead env f d = .ok g) : Mild f.c g.c := by
  unfold proxyRead at he
  dsimp only at he
  split at he
  · split at he
    · split at he
      · have := proxyError_mild _ _ he; exact this
      · cases he; exact Mild.refl _
    · split at he
      · split at he
        · have := proxyError_mild _ _ he; exact this
        · split at he
          · have := proxyError_mild _ _ he; exact this
          · rename_i hcode
            simp only [Bool.or_eq_true, decide_eq_true_eq, not_or, Int.not_lt, Int.not_le] at hcode
            have h1 : ∀ code : Int, 10 ≤ code → ∀ mt, Mild f.c (startReply env f.c code mt) := fun code hc mt => startReply_mild f.c code mt (by omega)
            split at he
            · exact (h1 _ hcode.1 _).trans (proxyError_mild _ _ he)
            · cases he
              exact (h1 _ hcode.1 _).trans ⟨rfl, rfl, id, id⟩
      · have := proxyError_mild _ _ he; exact this
  · cases he; exact ⟨rfl, rfl, id, id⟩

theorem proxyStep_mild (ev : PEv) (f g : PClient) (hs : proxyStep env ev f = .ok g) (hf : ∀ n, ev ≠ .flush n) : Mild f.c g.c := by
  unfold proxyStep at hs
  split at hs
  · cases hs; exact Mild.refl _
  · split at hs
    · cases hs; exact Mild.refl _
    · cases hs; exact startReply_mild (env := env) f.c 43 b%"handshake failed" (by decide)
    · cases hs; exact startReply_mild (env := env) f.c 43 b%"timeout" (by decide)
    · exact proxyRead_mild _ _ _ hs
    · exact proxyError_mild _ _ hs
    · exact absurd rfl (hf _)
    · cases hs; exact Mild.refl _

theorem connWritable_mild (bufsiz : Nat) (r : TlsRes Nat) (rd : Option Bytes) (k k' : Conn) (h : connWritable env bufsiz r rd k = .ok k') : Mild k.c k'.c := by
  have fin : ∀ (k1 k' : Conn), k1.after (clientWrite env bufsiz rd k1.c) = .ok k' → Mild k1.c k'.c := by
    intro k1 k' h
    cases hw : clientWrite env bufsiz rd k1.c with
    | ok c => rw [hw] at h; cases h; exact clientWrite_mild _ _ _ _ hw
    | err => rw [hw] at h; cases h
    | ub => rw [hw] at h; cases h
  unfold connWritable at h
  dsimp only at h
  split at h
  · exact fin { k with wr := decide (k.c.type = RType.dir) } k' h
  · split at h
    · cases h; exact Mild.refl _
    · cases h; exact ⟨rfl, rfl, id, fun e => by cases e⟩
    · rename_i n
      split at h
      · exact Mild.trans (b := { k.c with sent := k.c.sent ++ k.c.out.take n, out := k.c.out.drop n }) ⟨rfl, rfl, id, id⟩
          (fin { k with wr := decide (k.c.type = RType.dir), c := { k.c with sent := k.c.sent ++ k.c.out.take n, out := k.c.out.drop n } } k' h)
      · cases h; exact ⟨rfl, rfl, id, id⟩

end

/-! ## the request -/

/-- the input of a connection that is still waiting for a request -/
def Waits (c : Client) : Prop := c.type = .undecided → c.code = 0 → c.inp.length ≤ 1026

theorem Waits.mild {c c' : Client} (h : Waits c) (m : Mild c c') : Waits c' := by
  intro ht h0
  rw [m.inp]
  exact h (m.type ht) (m.code h0)

theorem clientRead_waits (env : Env) (c c' : Client) (h : clientRead env c = .ok c') (hv : ∀ v, c.host = some v → ConfOk v) : Waits c' ∧ c'.host = c.host := by
  by_cases hu : c.type = .undecided
  · by_cases hlen : c.inp.length > 1024 + 2
    · unfold clientRead at h
      rw [if_neg (by simp [hu]), if_pos hlen] at h
      simp only [Res.ok.injEq] at h
      rw [← h]
      exact ⟨fun _ h0 => absurd h0 (startReply_code env _ _ _ (by decide)), (startReply_mild (env := env) c 59 b%"bad request" (by decide)).host⟩
    · rcases clientRead_cases c c' h with rfl | ⟨rest, rfl⟩ | ⟨req, rest, i, d, -, hin, hreq, -, hi, -, hd⟩
      · exact ⟨fun _ _ => by omega, rfl⟩
      · exact ⟨fun _ h0 => absurd h0 (startReply_code env _ _ _ (by decide)), (startReply_mild (env := env) { c with inp := rest } 59 b%"bad request" (by decide)).host⟩
      · have hp : i.path.length ≤ 1019 := by
          rcases path_length _ _ _ hi with k | k
          · omega
          · rw [k]; simp
        have k := dispatch_rep (fun _ => True) (fun _ _ _ _ => trivial) (parsed c rest i) c' i d hp hv hd
        refine ⟨fun _ _ => ?_, k.host⟩
        rw [k.inp]
        show rest.length ≤ 1026
        rw [hin] at hlen
        simp only [List.length_append] at hlen
        omega
  · unfold clientRead at h
    rw [if_pos hu] at h
    cases h
    exact ⟨fun e => absurd e hu, rfl⟩

theorem connStep_waits (env : Env) (bufsiz : Nat) (ev : ConnEv) (k k' : Conn) (hw : Waits k.c) (hv : ∀ v, k.c.host = some v → ConfOk v)
    (h : connStep env bufsiz ev k = .ok k') : Waits k'.c ∧ k'.c.host = k.c.host := by
  have fin : Mild k.c k'.c → Waits k'.c ∧ k'.c.host = k.c.host := fun m => ⟨hw.mild m, m.host⟩
  unfold connStep at h
  split at h
  · cases h; exact ⟨hw, rfl⟩
  · cases ev with
    | readable r =>
      dsimp only at h
      split at h
      · unfold connReadable at h
        dsimp only at h
        rcases r with (_ | ⟨a, b⟩) | _ | _
        · cases h; exact fin ⟨rfl, rfl, id, fun e => by cases e⟩
        · dsimp only at h
          cases hr : clientRead env { k.c with inp := k.c.inp ++ (a :: b) } with
          | ok c =>
            rw [hr] at h
            cases h
            have := clientRead_waits env _ c hr hv
            exact this
          | err => rw [hr] at h; cases h
          | ub => rw [hr] at h; cases h
        · cases h; exact ⟨hw, rfl⟩
        · cases h; exact fin ⟨rfl, rfl, id, fun e => by cases e⟩
      · cases h; exact ⟨hw, rfl⟩
    | writable r rd =>
      dsimp only at h
      split at h
      · exact fin (connWritable_mild _ _ _ _ _ h)
      · cases h; exact ⟨hw, rfl⟩
    | fcgiData b =>
      dsimp only at h
      split at h
      · rename_i f hf
        cases h
        exact fin (fcgiLoop_mild _ _ _ hf)
      · cases h
      · cases h
    | fcgiEnd =>
      cases h
      exact fin (fcgiError_mild (env := env) { c := k.c, sbuf := k.sbuf, src := k.fsrc } _ rfl)
    | proxy ev =>
      have pf : (∀ n, ev ≠ .flush n) → ∀ g, proxyStep env ev { c := k.c, phase := k.phase, src := k.psrc } = .ok g → Mild k.c g.c :=
        fun hf g hg => proxyStep_mild ev _ g hg hf
      cases ev
      all_goals dsimp only at h
      case flush => cases h; exact ⟨hw, rfl⟩
      all_goals
        split at h
        · rename_i g hg
          cases h
          exact fin (pf (by simp) g hg)
        · cases h
        · cases h

/-! ## the reply -/

/-- the reply to a request the server answers itself -/
structure Own (n : Nat) (bufsiz : Nat) (c : Client) : Prop where
  none : c.code = 0 → c.out = [] ∧ c.type ≠ .file ∧ c.type ≠ .dir
  some : c.code ≠ 0 → c.type ≠ .undecided
  dir : c.dir.length ≤ n
  out : c.out.length ≤ 2062 ∨ c.out.length ≤ bufsiz ∨ c.out.length ≤ 4103 * n

theorem dirLines_length : ∀ (l : List Dirent) (t : Bytes), dirLines l = .ok t → t.length ≤ 4103 * l.length := by
  intro l
  induction l with
  | nil => intro t h; cases h; simp
  | cons d r ih =>
    intro t h
    unfold dirLines at h
    cases hd : dirLine d with
    | ok x =>
      rw [hd] at h
      dsimp only at h
      cases hr : dirLines r with
      | ok y =>
        rw [hr] at h
        simp only [Res.ok.injEq] at h
        have h1 := ih y hr
        have h2 : x.length ≤ 4103 := by
          unfold dirLine at hd
          obtain ⟨buf, ok, e, hl, -⟩ := C08_encode_path 4096 (by decide) d.name
          rw [e] at hd
          simp only [Res.ok.injEq] at hd
          have : (cstr buf).length ≤ 4096 := by
            rw [← hl]; exact cstr_length_le _
          rw [← hd]
          simp only [List.length_append, List.length_cons, List.length_nil]
          split
          · simp only [List.length_cons, List.length_nil]; omega
          · simp only [List.length_nil]; omega
        rw [← h]
        simp only [List.length_append, List.length_cons]
        omega
      | err => rw [hr] at h; cases h
      | ub => rw [hr] at h; cases h
    | err => rw [hd] at h; cases h
    | ub => rw [hd] at h; cases h

theorem Own.rep {n bufsiz : Nat} {c c' : Client} (h : Own n bufsiz c) (hu : c.type = .undecided) (k : Rep (fun l => l.length ≤ n) c c') : Own n bufsiz c' := by
  have h0 : c.code = 0 := by
    apply Decidable.byContradiction
    intro hc
    exact h.some hc hu
  obtain ⟨ho, -, -⟩ := h.none h0
  rcases k.rep with ⟨k1, k2, k3, k4⟩ | ⟨k1, k2, k3, k4⟩
  · refine ⟨fun _ => ⟨by rw [k2, ho], ?_, ?_⟩, fun hc => absurd (k1.trans h0) hc, by rw [k3]; exact h.dir, by rw [k2, ho]; simp⟩
    · rcases k4 with k4 | k4 <;> rw [k4] <;> simp [hu]
    · rcases k4 with k4 | k4 <;> rw [k4] <;> simp [hu]
  · refine ⟨fun hc => absurd hc k1, fun _ => k2, ?_, .inl (by rw [ho] at k3; simpa using k3)⟩
    rcases k4 with k4 | k4
    · rw [k4]; exact h.dir
    · exact k4

theorem Own.sameBut {n bufsiz : Nat} {c c' : Client} (h : Own n bufsiz c) (h1 : c'.code = c.code) (h2 : c'.out = c.out) (h3 : c'.type = c.type) (h4 : c'.dir = c.dir) :
    Own n bufsiz c' := by
  refine ⟨?_, ?_, ?_, ?_⟩
  · rw [h1, h2, h3]; exact h.none
  · rw [h1, h3]; exact h.some
  · rw [h4]; exact h.dir
  · rw [h2]; exact h.out

theorem Own.error {n bufsiz : Nat} {env : Env} {c : Client} (k : ErrKind) (hk : k ≠ .timeout) (h : Own n bufsiz c) : Own n bufsiz (clientError env k c) := by
  cases k with
  | timeout => exact absurd rfl hk
  | eof => exact ⟨fun h0 => ⟨(h.none h0).1, by simp [clientError, clientClose], by simp [clientError, clientClose]⟩, fun _ => by simp [clientError, clientClose], h.dir, h.out⟩
  | error => exact ⟨fun h0 => ⟨(h.none h0).1, by simp [clientError, clientClose], by simp [clientError, clientClose]⟩, fun _ => by simp [clientError, clientClose], h.dir, h.out⟩

theorem clientRead_own (env : Env) (n bufsiz : Nat) (hn : ∀ fd b l, env.scandir fd b = some l → l.length ≤ n) (c c' : Client) (h : clientRead env c = .ok c')
    (hv : ∀ v, c.host = some v → ConfOk v) (ho : Own n bufsiz c) : Own n bufsiz c' := by
  by_cases hu : c.type = .undecided
  · rcases clientRead_cases c c' h with rfl | ⟨rest, rfl⟩ | ⟨req, rest, i, d, -, hin, hreq, -, hi, -, hd⟩
    · exact ho
    · exact Own.rep (c := { c with inp := rest }) (ho.sameBut rfl rfl rfl rfl) hu (startReply_rep _ _ _ _ (by decide) (by simp))
    · have hp : i.path.length ≤ 1019 := by
        rcases path_length _ _ _ hi with k | k
        · omega
        · rw [k]; simp
      exact Own.rep (c := parsed c rest i) (ho.sameBut rfl rfl rfl rfl) hu (dispatch_rep _ hn (parsed c rest i) c' i d hp hv hd)
  · unfold clientRead at h
    rw [if_pos hu] at h
    cases h
    exact ho

theorem clientWrite_own (env : Env) (n bufsiz : Nat) (rd : Option Bytes) (c c' : Client) (h : clientWrite env bufsiz rd c = .ok c') (he : c.out = [])
    (hrd : ∀ d, rd = some d → d.length ≤ bufsiz) (ho : Own n bufsiz c) : Own n bufsiz c' := by
  unfold clientWrite at h
  cases e : c.type
  all_goals rw [e] at h
  all_goals dsimp only at h
  · cases h; exact ho
  · have hc : c.code ≠ 0 := fun h0 => (ho.none h0).2.1 e
    rcases rd with _ | _ | ⟨a, r⟩
    · cases h; exact ho.error (env := env) .error (by decide)
    · cases h; exact ho.sameBut rfl rfl rfl rfl
    · cases h
      refine ⟨fun h0 => absurd h0 hc, fun _ => ?_, ho.dir, .inr (.inl ?_)⟩
      · dsimp only; split <;> simp
      · rw [he]; exact hrd _ rfl
  · have hc : c.code ≠ 0 := fun h0 => (ho.none h0).2.2 e
    cases hd : dirLines c.dir with
    | ok t =>
      rw [hd] at h
      cases h
      refine ⟨fun h0 => absurd h0 hc, fun _ => by simp, Nat.zero_le _, .inr (.inr ?_)⟩
      rw [he]
      exact Nat.le_trans (dirLines_length _ _ hd) (Nat.mul_le_mul_left _ ho.dir)
    | err => rw [hd] at h; cases h
    | ub => rw [hd] at h; cases h
  · cases h; exact ho
  · cases h; exact ho
  · cases h
    rw [if_pos he]
    exact ho.sameBut rfl rfl rfl rfl

theorem connStep_own (env : Env) (n bufsiz : Nat) (hn : ∀ fd b l, env.scandir fd b = some l → l.length ≤ n) (ev : ConnEv) (k k' : Conn) (h : connStep env bufsiz ev k = .ok k')
    (hown : (∃ r, ev = .readable r) ∨ ∃ r rd, ev = .writable r rd) (hrd : ∀ r d, ev = .writable r (some d) → d.length ≤ bufsiz) (hv : ∀ v, k.c.host = some v → ConfOk v)
    (ho : Own n bufsiz k.c) : Own n bufsiz k'.c := by
  unfold connStep at h
  split at h
  · cases h; exact ho
  · rcases hown with ⟨r, rfl⟩ | ⟨r, rd, rfl⟩
    · dsimp only at h
      split at h
      · unfold connReadable at h
        dsimp only at h
        rcases r with (_ | ⟨a, b⟩) | _ | _
        · cases h; exact ho.error (env := env) .eof (by decide)
        · dsimp only at h
          cases hr : clientRead env { k.c with inp := k.c.inp ++ (a :: b) } with
          | ok c =>
            rw [hr] at h
            cases h
            have := clientRead_own env n bufsiz hn _ c hr hv
            exact this (ho.sameBut rfl rfl rfl rfl)
          | err => rw [hr] at h; cases h
          | ub => rw [hr] at h; cases h
        · cases h; exact ho
        · cases h; exact ho.error (env := env) .error (by decide)
      · cases h; exact ho
    · dsimp only at h
      have hrd' : ∀ d, rd = some d → d.length ≤ bufsiz := fun d hd => hrd r d (by rw [hd])
      have fin : ∀ (k1 k' : Conn), k1.after (clientWrite env bufsiz rd k1.c) = .ok k' → k1.c.out = [] → Own n bufsiz k1.c → Own n bufsiz k'.c := by
        intro k1 k' h he ho
        cases hw : clientWrite env bufsiz rd k1.c with
        | ok c => rw [hw] at h; cases h; exact clientWrite_own env n bufsiz rd _ _ hw he hrd' ho
        | err => rw [hw] at h; cases h
        | ub => rw [hw] at h; cases h
      split at h
      · unfold connWritable at h
        dsimp only at h
        split at h
        · rename_i he
          exact fin { k with wr := decide (k.c.type = RType.dir) } k' h he ho
        · split at h
          · cases h; exact ho
          · cases h; exact ho.error (env := env) .error (by decide)
          · rename_i hne _ m
            have hc : k.c.code ≠ 0 := fun h0 => hne (ho.none h0).1
            have ho' : Own n bufsiz { k.c with sent := k.c.sent ++ k.c.out.take m, out := k.c.out.drop m } := by
              refine ⟨fun h0 => absurd h0 hc, fun h0 => ho.some h0, ho.dir, ?_⟩
              have := ho.out
              simp only [List.length_drop]
              omega
            split at h
            · rename_i he
              exact fin { k with wr := decide (k.c.type = RType.dir), c := { k.c with sent := k.c.sent ++ k.c.out.take m, out := k.c.out.drop m } } k' h he ho'
            · cases h; exact ho'
      · cases h; exact ho

/-! ## the connection -/

theorem findHost_known (fnm : Bytes → Bytes → Bool) (d : Bytes) (l : List Vhost) (v : Vhost) (h : findHost fnm d l = some v) : v ∈ l := by
  induction l with
  | nil => cases h
  | cons x r ih =>
    rw [findHost] at h
    split at h
    · cases h; simp
    · simp [ih h]

theorem start_own (env : Env) (sni : Option Bytes) (hconf : ∀ v ∈ env.hosts, ConfOk v) (n bufsiz : Nat) :
    Own n bufsiz (connStart env sni {}).c ∧ Waits (connStart env sni {}).c ∧ ∀ v, (connStart env sni {}).c.host = some v → ConfOk v := by
  have wrong : ∀ c : Client, c.inp = [] → c.host = none → c.out = [] → c.dir = [] → Own n bufsiz (startReply env c 59 b%"Wrong/malformed host") ∧
      Waits (startReply env c 59 b%"Wrong/malformed host") ∧ ∀ v, (startReply env c 59 b%"Wrong/malformed host").host = some v → ConfOk v := by
    intro c hi hh hou hd
    have m := startReply_mild (env := env) c 59 b%"Wrong/malformed host" (by decide)
    have hl := startReply_length (env := env) c 59 b%"Wrong/malformed host"
    rw [hou] at hl
    refine ⟨⟨fun h0 => absurd h0 (startReply_code env _ _ _ (by decide)), fun _ => ?_, ?_, .inl (by simp only [List.length_nil] at hl; omega)⟩, fun _ _ => ?_, fun v hv => ?_⟩
    · rcases startReply_replied env c 59 b%"Wrong/malformed host" with k | k <;> rw [k.type] <;> simp
    · rcases startReply_replied env c 59 b%"Wrong/malformed host" with k | k <;> rw [k.dir, hd] <;> simp
    · rw [m.inp, hi]; simp
    · rw [m.host, hh] at hv; cases hv
  unfold connStart handshakeDone
  dsimp only
  split
  · exact wrong _ rfl rfl rfl rfl
  · split
    · rename_i v hf
      refine ⟨⟨fun _ => ⟨rfl, by simp, by simp⟩, fun h0 => absurd rfl h0, Nat.zero_le _, .inl (Nat.zero_le _)⟩, fun _ _ => Nat.zero_le _, fun w hw => ?_⟩
      cases hw
      exact hconf _ (findHost_known _ _ _ _ hf)
    · exact wrong _ rfl rfl rfl rfl

/-- **C119, first part.**  Until a client's request is complete, however it sends it and however long it takes, no more than 1026 bytes of it are
kept. -/
theorem C119_request_bounded (env : Env) (sni : Option Bytes) (hconf : ∀ v ∈ env.hosts, ConfOk v) (bufsiz : Nat) (evs : List (Env × ConnEv)) (k : Conn)
    (h : connRun bufsiz evs (connStart env sni {}) = .ok k) (ht : k.c.type = .undecided) (h0 : k.c.code = 0) : k.c.inp.length ≤ 1026 := by
  obtain ⟨-, hw, hv⟩ := start_own env sni hconf 0 bufsiz
  generalize connStart env sni {} = k0 at h hw hv
  induction evs generalizing k0 with
  | nil => cases h; exact hw ht h0
  | cons e r ih =>
    obtain ⟨e1, ev⟩ := e
    unfold connRun at h
    split at h
    · rename_i k1 h1
      obtain ⟨h2, h3⟩ := connStep_waits e1 bufsiz ev k0 k1 hw hv h1
      exact ih k1 h h2 (by rw [h3]; exact hv)
    · cases h
    · cases h

/-- **C119, second part.**  What is queued for a client of the replies the server makes itself is bounded by the longest header and title, one
read(2) of a file, or the lines of one directory, whatever the client does and however slowly it takes them. -/
theorem C119_reply_bounded_partial (env : Env) (sni : Option Bytes) (hconf : ∀ v ∈ env.hosts, ConfOk v) (n bufsiz : Nat) (evs : List (Env × ConnEv)) (k : Conn)
    (hown : OwnSocket evs) (hfit : ReadsFit bufsiz evs) (hdir : SmallDirs n evs) (h : connRun bufsiz evs (connStart env sni {}) = .ok k) :
    k.c.out.length ≤ 2062 ∨ k.c.out.length ≤ bufsiz ∨ k.c.out.length ≤ 4103 * n := by
  obtain ⟨ho, hw, hv⟩ := start_own env sni hconf n bufsiz
  generalize connStart env sni {} = k0 at h ho hw hv
  induction evs generalizing k0 with
  | nil => cases h; exact ho.out
  | cons e r ih =>
    obtain ⟨e1, ev⟩ := e
    unfold connRun at h
    split at h
    · rename_i k1 h1
      obtain ⟨h2, h3⟩ := connStep_waits e1 bufsiz ev k0 k1 hw hv h1
      have h4 := connStep_own e1 n bufsiz (hdir _ (List.mem_cons_self)) ev k0 k1 h1 (hown _ (List.mem_cons_self)) (hfit _ (List.mem_cons_self)) hv ho
      exact ih (fun e he => hown e (List.mem_cons_of_mem _ he)) (fun e he => hfit e (List.mem_cons_of_mem _ he)) (fun e he => hdir e (List.mem_cons_of_mem _ he)) k1 h h4 h2
        (by rw [h3]; exact hv)
    · cases h
    · cases h

/-- **C119 is false** of what a client sends after its request: nothing stops the server from reading it, so the input of a connection whose
reply is under way grows by all that is sent. -/
theorem C119_input_grows (env : Env) (bufsiz : Nat) (k : Conn) (chunks : List Bytes) (hc : k.c.closed = false) (hr : k.rd = true) (ht : k.c.type ≠ .undecided)
    (hne : ∀ d ∈ chunks, d ≠ []) :
    ∃ k', connRun bufsiz (chunks.map fun d => (env, .readable (.got d))) k = .ok k' ∧ k'.c.inp = k.c.inp ++ chunks.flatten ∧ k'.c.closed = false := by
  induction chunks generalizing k with
  | nil => exact ⟨k, rfl, by simp, hc⟩
  | cons d r ih =>
    obtain ⟨a, b, rfl⟩ : ∃ a b, d = a :: b := by
      cases d with
      | nil => exact absurd rfl (hne [] (List.mem_cons_self))
      | cons a b => exact ⟨a, b, rfl⟩
    have h1 : ∃ k1, connStep env bufsiz (.readable (.got (a :: b))) k = .ok k1 ∧ k1.c.closed = false ∧ k1.rd = true ∧ k1.c.type ≠ .undecided ∧ k1.c.inp = k.c.inp ++ (a :: b) := by
      have e1 : connStep env bufsiz (.readable (.got (a :: b))) k = connReadable env (.got (a :: b)) k := by
        unfold connStep
        rw [if_neg (by simp [hc])]
        dsimp only
        rw [if_pos hr]
      have e2 : clientRead env { k.c with inp := k.c.inp ++ (a :: b) } = .ok { k.c with inp := k.c.inp ++ (a :: b) } := by
        unfold clientRead
        rw [if_pos ht]
      rw [e1]
      unfold connReadable
      dsimp only
      rw [e2]
      exact ⟨_, rfl, hc, rfl, ht, rfl⟩
    obtain ⟨k1, h1, h2, h3, h4, h5⟩ := h1
    obtain ⟨k', h6, h7, h8⟩ := ih k1 h2 h3 h4 (fun d hd => hne d (List.mem_cons_of_mem _ hd))
    refine ⟨k', ?_, by rw [h7, h5]; simp, h8⟩
    rw [List.map_cons, connRun, h1]
    exact h6

/-- **C119 is false** of relayed replies: whatever the upstream server sends is queued at once, whether the client takes it or not. -/
theorem C119_relay_grows (env : Env) (bufsiz : Nat) (k : Conn) (chunks : List Bytes) (hc : k.c.closed = false) (hp : k.phase = .relaying) (hs : k.psrc = [])
    (h0 : k.c.code ≠ 0) : ∃ k', connRun bufsiz (chunks.map fun d => (env, .proxy (.data d))) k = .ok k' ∧ k'.c.out = k.c.out ++ chunks.flatten ∧ k'.c.closed = false := by
  induction chunks generalizing k with
  | nil => exact ⟨k, rfl, by simp, hc⟩
  | cons d r ih =>
    have h1 : ∃ k1, connStep env bufsiz (.proxy (.data d)) k = .ok k1 ∧ k1.c.closed = false ∧ k1.phase = .relaying ∧ k1.psrc = [] ∧ k1.c.code ≠ 0 ∧ k1.c.out = k.c.out ++ d := by
      have e2 : proxyStep env (.data d) { c := k.c, phase := k.phase, src := k.psrc } = .ok { c := { k.c with out := k.c.out ++ d }, phase := k.phase, src := [] } := by
        unfold proxyStep
        rw [if_neg (by simp [hc])]
        rw [hp]
        dsimp only
        unfold proxyRead
        dsimp only
        rw [if_neg h0, hs]
        rfl
      unfold connStep
      rw [if_neg (by simp [hc])]
      dsimp only
      rw [e2]
      exact ⟨_, rfl, hc, hp, rfl, h0, rfl⟩
    obtain ⟨k1, h1, h2, h3, h4, h5, h6⟩ := h1
    obtain ⟨k', h7, h8, h9⟩ := ih k1 h2 h3 h4 h5
    refine ⟨k', ?_, by rw [h8, h6]; simp, h9⟩
    rw [List.map_cons, connRun, h1]
    exact h7

/-- **C119**, refuted: for every `m` there is a client that sends one request and then goes on sending, without ever reading, of which the server
keeps more than `m` bytes. -/
theorem C119_not_always (m : Nat) : ∃ evs : List (Env × ConnEv), ∃ k, OwnSocket evs ∧ connRun 4 evs (connStart exAppEnv (some b%"h") {}) = .ok k ∧ m < k.c.inp.length ∧
    k.c.closed = false := by
  have h0 : ∃ k0, connRun 4 [(exAppEnv, .readable (.got b%"gemini://x/\r\n"))] (connStart exAppEnv (some b%"h") {}) = .ok k0 ∧ k0.c.closed = false ∧ k0.rd = true ∧
      k0.c.type ≠ .undecided := by
    have h1 : ((connRun 4 [(exAppEnv, .readable (.got b%"gemini://x/\r\n"))] (connStart exAppEnv (some b%"h") {})).val?.map fun k => (k.c.closed, k.rd, decide (k.c.type = .undecided))) = some (false, true, false) := by decide +kernel
    cases h : connRun 4 [(exAppEnv, .readable (.got b%"gemini://x/\r\n"))] (connStart exAppEnv (some b%"h") {}) with
    | ok k0 =>
      rw [h] at h1
      simp only [Res.val?, Option.map_some, Option.some.injEq, Prod.mk.injEq, decide_eq_false_iff_not] at h1
      exact ⟨k0, rfl, h1.1, h1.2.1, h1.2.2⟩
    | err => rw [h] at h1; cases h1
    | ub => rw [h] at h1; cases h1
  obtain ⟨k0, e0, h1, h2, h3⟩ := h0
  obtain ⟨k, e1, h4, h5⟩ := C119_input_grows exAppEnv 4 k0 (List.replicate (m + 1) [c%'a']) h1 h2 h3 (by intro d hd; rw [List.eq_of_mem_replicate hd]; simp)
  refine ⟨(exAppEnv, .readable (.got b%"gemini://x/\r\n")) :: (List.replicate (m + 1) [c%'a']).map (fun d => (exAppEnv, .readable (.got d))), k, ?_, ?_, ?_, h5⟩
  · intro e he
    rcases List.mem_cons.mp he with rfl | he
    · exact .inl ⟨_, rfl⟩
    · obtain ⟨d, -, rfl⟩ := List.mem_map.mp he
      exact .inl ⟨_, rfl⟩
  · rw [connRun] at e0 ⊢
    cases hs : connStep exAppEnv 4 (.readable (.got b%"gemini://x/\r\n")) (connStart exAppEnv (some b%"h") {}) with
    | ok k1 => rw [hs] at e0; cases e0; exact e1
    | err => rw [hs] at e0; cases e0
    | ub => rw [hs] at e0; cases e0
  · rw [h4]
    simp only [List.length_append, List.length_flatten, List.map_replicate, List.sum_replicate_nat, List.length_cons, List.length_nil]
    omega

/-! ## the hypotheses are met -/

theorem exApp_conf : ∀ v ∈ exAppEnv.hosts, ConfOk v := by
  intro v hv
  have hv : v ∈ [exAppHost] := hv
  simp only [List.mem_cons, List.not_mem_nil, or_false] at hv
  subst hv
  intro l hl
  have : l ∈ [exAppHost.dflt] ++ exAppHost.locs := by
    rcases hl with rfl | hl
    · exact List.mem_append_left _ (List.mem_cons_self)
    · exact List.mem_append_right _ hl
  have key : ∀ l ∈ [exAppHost.dflt] ++ exAppHost.locs, l.lang.length ≤ 31 ∧ l.blockCode ≠ 20 := by decide +kernel
  exact key l this

/-- half of a request has come, of which 600 bytes are kept; and one of 1027 bytes, which is answered -/
example : ((connRun 4 [(exAppEnv, .readable (.got (List.replicate 600 97)))] (connStart exAppEnv (some b%"h") {})).val?.map
    fun k => (decide (k.c.type = .undecided), k.c.code, k.c.inp.length)) = some (true, 0, 600) := by decide +kernel
example : ((connRun 4 [(exAppEnv, .readable (.got (List.replicate 600 97))), (exAppEnv, .readable (.got (List.replicate 427 97)))] (connStart exAppEnv (some b%"h") {})).val?.map
    fun k => (decide (k.c.type = .undecided), k.c.code, k.c.inp.length)) = some (false, 59, 1027) := by decide +kernel

/-- that of `C119_reply_bounded_partial`: a request that is refused, of whose reply 3 bytes are taken -/
example : let evs : List (Env × ConnEv) := [(exAppEnv, .readable (.got b%"gemini://x/\r\n")), (exAppEnv, .writable (.got 3) none)]
    OwnSocket evs ∧ ReadsFit 4 evs ∧ SmallDirs 9 evs ∧ ((connRun 4 evs (connStart exAppEnv (some b%"h") {})).val?.map fun k => k.c.out) = some b%"won't proxy request\r\n" := by
  refine ⟨?_, ?_, ?_, by decide +kernel⟩
  · intro e he
    simp only [List.mem_cons, List.not_mem_nil, or_false] at he
    rcases he with rfl | rfl
    · exact .inl ⟨_, rfl⟩
    · exact .inr ⟨_, _, rfl⟩
  · intro e he r d hd
    simp only [List.mem_cons, List.not_mem_nil, or_false] at he
    rcases he with rfl | rfl <;> cases hd
  · intro e he fd b l hl
    simp only [List.mem_cons, List.not_mem_nil, or_false] at he
    rcases he with rfl | rfl <;> simp [exAppEnv, exEnv] at hl

/-- that of `C119_relay_grows` -/
example : (lrun 4 [.conf [exRelayHost], .accept, .shaken 0 exRelayEnv (some b%"h"), .conn 0 exRelayEnv (.readable (.got b%"gemini://h/a\r\n")),
      .conn 0 exRelayEnv (.proxy (.handshake true)), .conn 0 exRelayEnv (.proxy (.data b%"20 a\r\nx"))] {}).val?.bind
    (fun p => p.conns[0]?.map fun l => (l.k.c.closed, l.k.phase, l.k.psrc, l.k.c.code)) = some (false, .relaying, [], 20) := by
  decide +kernel

end Gmid.Props
