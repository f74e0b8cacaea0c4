import Verif.Model.TlsIo
import Verif.Lemmas.Server
import Verif.Props.Files
import Verif.Props.FcgiReply

/-!
# C105: a reply in progress is carried on to its end

A connection is *waiting for its client's socket* when bytes are queued for it, or when the file, the listing or the end of the connection is
still to come.  The event loop only calls back for events that are pending: the claim is that such a connection always has its write event
pending, and every open one its read event.
-/

set_option autoImplicit false

namespace Gmid.Spec

/-- bytes are queued for the client, or it is up to the server to produce the rest of the reply or to close the connection -/
def InProgress (c : Client) : Prop := c.out ≠ [] ∨ c.type = .file ∨ c.type = .dir ∨ c.type = .done

/-- the event loop will call back: when the socket can be written to, and when something arrives -/
structure WillGoOn (k : Conn) : Prop where
  write : InProgress k.c → k.wr = true
  read : k.rd = true

/-- the FastCGI application going away without having ended its answer -/
def NoAppEnd (ev : ConnEv) : Prop := ev ≠ .fcgiEnd

end Gmid.Spec

namespace Gmid.Props

open Gmid.Spec

section
variable {env : Env}

theorem startReply_out (c : Client) (code : Int) (mt : Bytes) : (startReply env c code mt).out ≠ [] := by
  rcases startReply_cases env c code mt with ⟨hdr, h, -⟩ | ⟨h, -⟩
  · rw [h]; simp [queueHeader]
  · rw [h]; simp [replyOverflow, queueHeader]

/-- what a callback may do to the client, as far as its events go -/
def Arms (c c' : Client) : Prop :=
  c'.closed = true ∨ c'.out ≠ [] ∨ c'.type = c.type ∨ c'.type = .undecided ∨ c'.type = .fcgi ∨ c'.type = .proxy

theorem checkCert_arms (c : Client) (store : Nat) (c' : Client) (b : Bool) (h : checkCert env c store = (c', b)) :
    (b = true ∧ c'.out ≠ []) ∨ (b = false ∧ c' = c) := by
  unfold checkCert at h
  split at h
  · cases h; exact .inl ⟨rfl, startReply_out _ _ _⟩
  · split at h
    · cases h; exact .inl ⟨rfl, startReply_out _ _ _⟩
    · cases h; exact .inr ⟨rfl, rfl⟩

theorem relayTo_arms (c : Client) (p : Proxy) : (relayTo env c p).out ≠ [] ∨ (relayTo env c p).type = .proxy := by
  unfold relayTo
  dsimp only
  split
  · exact .inl (startReply_out _ _ _)
  · split
    · exact .inl (startReply_out _ _ _)
    · exact .inr rfl

theorem dirListing_out (c : Client) (i : Iri) : (dirListing env c i).out ≠ [] := by
  unfold dirListing
  split
  · exact startReply_out _ _ _
  · split
    · exact startReply_out _ _ _
    · simp

theorem openDir_out (c c' : Client) (i : Iri) (h : openDir env c i = .ok c') : c'.out ≠ [] := by
  unfold openDir at h
  split at h
  · cases h; unfold redirectDir; dsimp only; split <;> exact startReply_out _ _ _
  · dsimp only at h
    split at h
    · cases h; exact dirListing_out _ _
    · split at h
      · cases h; exact startReply_out _ _ _
      · split at h
        · cases h; exact startReply_out _ _ _
        · cases h
        · cases h
      · cases h; exact dirListing_out _ _

theorem serveFile_out (c c' : Client) (i : Iri) (h : serveFile env c i = .ok c') : c'.out ≠ [] := by
  unfold serveFile at h
  dsimp only at h
  split at h
  · cases h; exact startReply_out _ _ _
  · split at h
    · cases h; exact startReply_out _ _ _
    · exact openDir_out _ _ _ h
    · split at h
      · cases h; exact startReply_out _ _ _
      · cases h
      · cases h

theorem dispatch_arms (c c' : Client) (i : Iri) (d : Bytes) (h : dispatch env c i d = .ok c') : Arms c c' := by
  unfold dispatch at h
  have hp : ∀ q, applyReverseProxy env c i = q → (q.2 = true ∧ Arms c q.1) ∨ (q.2 = false ∧ q.1 = c) := by
    intro q hq
    unfold applyReverseProxy at hq
    split at hq
    · subst hq; exact .inr ⟨rfl, rfl⟩
    · rename_i p _
      split at hq
      · split at hq
        · rename_i c1 he
          subst hq
          rcases checkCert_arms _ _ _ _ he with ⟨-, h1⟩ | ⟨h1, -⟩
          · exact .inl ⟨rfl, .inr (.inl h1)⟩
          · cases h1
        · rename_i c1 he
          subst hq
          refine .inl ⟨rfl, ?_⟩
          rcases relayTo_arms (env := env) c1 p with h1 | h1
          · exact .inr (.inl h1)
          · exact .inr (.inr (.inr (.inr (.inr h1))))
      · subst hq
        refine .inl ⟨rfl, ?_⟩
        rcases relayTo_arms (env := env) c p with h1 | h1
        · exact .inr (.inl h1)
        · exact .inr (.inr (.inr (.inr (.inr h1))))
  split at h
  · rename_i c1 he
    cases h
    rcases hp _ he with ⟨-, h1⟩ | ⟨h1, -⟩
    · exact h1
    · cases h1
  · rename_i c1 he
    have e1 : c1 = c := by
      rcases hp _ he with ⟨h1, -⟩ | ⟨-, h1⟩
      · cases h1
      · exact h1
    subst e1
    split at h
    · cases h; exact .inr (.inl (startReply_out _ _ _))
    · split at h
      · rename_i c2 he2
        cases h
        unfold applyRequireCa at he2
        split at he2
        · cases he2
        · rcases checkCert_arms _ _ _ _ he2 with ⟨-, h1⟩ | ⟨h1, -⟩
          · exact .inr (.inl h1)
          · cases h1
      · rename_i c2 he2
        have e2 : c2 = c1 := by
          unfold applyRequireCa at he2
          split at he2
          · cases he2; rfl
          · rcases checkCert_arms _ _ _ _ he2 with ⟨h1, -⟩ | ⟨-, h1⟩
            · cases h1
            · exact h1
        subst e2
        split at h
        · cases h
        · cases h
        · rename_i c3 he3
          cases h
          unfold applyBlockReturn at he3
          split at he3
          · cases he3
          · split at he3
            · cases he3; exact .inr (.inl (startReply_out _ _ _))
            · cases he3
            · cases he3
        · rename_i c3 he3
          have e3 : c3 = c2 := by
            unfold applyBlockReturn at he3
            split at he3
            · cases he3; rfl
            · split at he3
              · cases he3
              · cases he3
              · cases he3
          subst e3
          split at h
          · rename_i c4 he4
            cases h
            unfold applyFastcgi at he4
            split at he4
            · cases he4
            · split at he4
              · cases he4
              · dsimp only at he4
                split at he4
                · cases he4; exact .inr (.inl (startReply_out _ _ _))
                · split at he4
                  · cases he4; exact .inr (.inl (startReply_out _ _ _))
                  · cases he4; exact .inr (.inr (.inl rfl))
          · exact .inr (.inl (serveFile_out _ _ _ h))

theorem clientRead_arms (c c' : Client) (h : clientRead env c = .ok c') : Arms c c' := by
  rcases clientRead_cases c c' h with h | ⟨rest, h⟩ | ⟨req, rest, i, d, h1, -, -, -, -, -, h⟩
  · subst h; exact .inr (.inr (.inl rfl))
  · subst h; exact .inr (.inl (startReply_out _ _ _))
  · exact dispatch_arms (parsed c rest i) _ _ _ h

theorem clientError_closed (k : ErrKind) (c : Client) (h : k ≠ .timeout) : (clientError env k c).closed = true := by
  cases k
  · exact absurd rfl h
  · rfl
  · rfl

theorem write_done (c c' : Client) (h : c.type = .done) (hw : clientWrite env 0 none c = .ok c') : c'.closed = true ∨ c'.out ≠ [] := by
  unfold clientWrite at hw
  rw [h] at hw
  simp only [Res.ok.injEq] at hw
  subst hw
  split
  · exact .inl rfl
  · rename_i h'; exact .inr h'

theorem fcgiStop_arms (f g : FClient) (h : fcgiStop env f = .ok g) : g.c.closed = true ∨ g.c.out ≠ [] := by
  unfold fcgiStop at h
  dsimp only at h
  split at h
  · rename_i c' hw
    cases h
    refine write_done _ _ ?_ hw
    unfold fcgiError
    split
    · rcases startReply_replied env { f.c with pfd := -1 } 42 b%"CGI error" with r | r <;> (dsimp only; rw [r.type]; rfl)
    · rfl
  · cases h
  · cases h

theorem fcgiError_type (f : FClient) : (fcgiError env f).c.type = .done := by
  unfold fcgiError
  split
  · rcases startReply_replied env { f.c with pfd := -1 } 42 b%"CGI error" with r | r <;> (dsimp only; rw [r.type]; rfl)
  · rfl

theorem startReply_kind (c : Client) (code : Int) (mt : Bytes) :
    (startReply env c code mt).type = c.type ∨ (startReply env c code mt).type = .done := by
  rcases startReply_replied env c code mt with r | r
  · rw [r.type]; split
    · exact .inr rfl
    · exact .inl rfl
  · rw [r.type]; exact .inr rfl

theorem fcgiHeaderLine_type (f : FClient) (t : Nat) :
    (fcgiHeaderLine env f t).1.c.type = f.c.type ∨ (fcgiHeaderLine env f t).1.c.type = .done := by
  unfold fcgiHeaderLine
  dsimp only
  split
  · split
    · split
      · exact .inr (fcgiError_type _)
      · split
        · exact .inr (fcgiError_type _)
        · exact startReply_kind _ _ _
    · exact .inr (fcgiError_type _)
  · exact .inr (fcgiError_type _)

theorem fcgiStdout_type (f : FClient) (len : Nat) :
    (fcgiStdout env f len).c.type = f.c.type ∨ (fcgiStdout env f len).c.type = .done := by
  unfold fcgiStdout
  split
  · dsimp only
    split
    · rename_i t _
      split
      · exact fcgiHeaderLine_type _ _
      · exact fcgiHeaderLine_type _ _
    · split
      · exact .inr (fcgiError_type _)
      · exact .inl rfl
  · exact .inl rfl

theorem fcgiLoop_arms (n : Nat) : ∀ (f g : FClient), fcgiLoop' env n f = .ok g →
    g.c.closed = true ∨ g.c.out ≠ [] ∨ g.c.type = f.c.type := by
  induction n with
  | zero =>
    intro f g h
    unfold fcgiLoop' at h
    split at h
    · rcases fcgiStop_arms _ _ h with h | h
      · exact .inl h
      · exact .inr (.inl h)
    · split at h
      · split at h
        · rcases fcgiStop_arms _ _ h with h | h
          · exact .inl h
          · exact .inr (.inl h)
        · dsimp only at h
          split at h
          · cases h; exact .inr (.inr rfl)
          · cases h
      · cases h; exact .inr (.inr rfl)
  | succ n ih =>
    intro f g h
    have stop : ∀ f', fcgiStop env f' = .ok g → g.c.closed = true ∨ g.c.out ≠ [] ∨ g.c.type = f.c.type := by
      intro f' h
      rcases fcgiStop_arms _ _ h with h | h
      · exact .inl h
      · exact .inr (.inl h)
    -- a round that ends with the type done is followed by fcgi_error and client_write
    have dn : ∀ f', f'.c.type = .done → fcgiLoop' env n f' = .ok g → g.c.closed = true ∨ g.c.out ≠ [] ∨ g.c.type = f.c.type := by
      intro f' ht h
      unfold fcgiLoop' at h
      rw [if_pos ht] at h
      exact stop _ h
    unfold fcgiLoop' at h
    split at h
    · exact stop _ h
    · split at h
      · split at h
        · exact stop _ h
        · dsimp only at h
          split at h
          · cases h; exact .inr (.inr rfl)
          · split at h
            · split at h
              · exact stop _ h
              · exact dn _ (by rfl) h
            · split at h
              · have := ih _ _ h
                exact this
              · split at h
                · generalize hg : fcgiStdout env _ _ = g1 at h
                  have ht : g1.c.type = f.c.type ∨ g1.c.type = .done := by
                    rw [← hg]
                    exact fcgiStdout_type { f with src := _ } _
                  rcases ht with e | e
                  · rcases ih _ _ h with h | h | h
                    · exact .inl h
                    · exact .inr (.inl h)
                    · refine .inr (.inr (h.trans e))
                  · refine dn _ ?_ h
                    exact e
                · exact stop _ h
      · cases h; exact .inr (.inr rfl)

theorem proxyError_arms (f g : PClient) (h : proxyError env f = .ok g) : g.c.closed = true ∨ g.c.out ≠ [] := by
  unfold proxyError at h
  dsimp only at h
  split at h
  · cases h; exact .inr (startReply_out _ _ _)
  · split at h
    · rename_i c' hw
      cases h
      exact write_done (env := env) _ _ (by rfl) hw
    · cases h
    · cases h

theorem proxyRead_arms (f g : PClient) (data : Bytes) (h : proxyRead env f data = .ok g) :
    g.c.closed = true ∨ g.c.out ≠ [] ∨ g.c.type = f.c.type := by
  have er : ∀ f', proxyError env f' = .ok g → g.c.closed = true ∨ g.c.out ≠ [] ∨ g.c.type = f.c.type := by
    intro f' h
    rcases proxyError_arms _ _ h with h | h
    · exact .inl h
    · exact .inr (.inl h)
  unfold proxyRead at h
  dsimp only at h
  split at h
  · split at h
    · split at h
      · exact er _ h
      · cases h; exact .inr (.inr rfl)
    · split at h
      · split at h
        · exact er _ h
        · split at h
          · exact er _ h
          · split at h
            · exact er _ h
            · cases h
              refine .inr (.inl ?_)
              intro h0
              exact startReply_out (env := env) _ _ _ (List.append_eq_nil_iff.1 h0).1
      · exact er _ h
  · cases h; exact .inr (.inr rfl)

theorem proxyStep_arms (f g : PClient) (ev : PEv) (hev : ∀ n, ev ≠ .flush n) (h : proxyStep env ev f = .ok g) :
    g.c.closed = true ∨ g.c.out ≠ [] ∨ g.c.type = f.c.type := by
  unfold proxyStep at h
  split at h
  · cases h; exact .inr (.inr rfl)
  · split at h
    · cases h; exact .inr (.inr rfl)
    · cases h; exact .inr (.inl (startReply_out _ _ _))
    · cases h; exact .inr (.inl (startReply_out _ _ _))
    · exact proxyRead_arms _ _ _ h
    · rcases proxyError_arms _ _ h with h | h
      · exact .inl h
      · exact .inr (.inl h)
    · exact absurd rfl (hev _)
    · cases h; exact .inr (.inr rfl)

/-! ## the invariant -/

def GoesOn (k : Conn) : Prop := k.c.closed = true ∨ WillGoOn k

theorem after_goes (k k' : Conn) (c' : Client) (hk : InProgress k.c → k.wr = true) (hrd : c'.closed = true ∨ k.rd = true) (ha : Arms k.c c')
    (h : k.after (.ok c') = .ok k') : GoesOn k' := by
  unfold Conn.after at h
  cases h
  by_cases hc : c'.closed = true
  · exact .inl hc
  refine .inr ⟨?_, hrd.resolve_left hc⟩
  intro hp
  dsimp only at hp ⊢
  unfold added
  by_cases he : c'.out = k.c.out
  · by_cases hn : c'.out = []
    · rcases hp with h | h
      · exact absurd hn h
      · rcases ha with a | a | a | a | a | a
        · exact absurd a hc
        · exact absurd hn a
        · rw [hk (.inr (by rw [← a]; exact h))]; rfl
        · rw [a] at h; rcases h with h | h | h <;> cases h
        · rw [a] at h; rcases h with h | h | h <;> cases h
        · rw [a] at h; rcases h with h | h | h <;> cases h
    · rw [hk (.inl (by rw [← he]; exact hn))]; rfl
  · simp [he]

theorem flushed_goes (bufsiz : Nat) (rd : Option Bytes) (k k' : Conn) (hrd : k.rd = true) (ho : k.c.out = [])
    (h : ({ k with wr := decide (k.c.type = RType.dir) } : Conn).after (clientWrite env bufsiz rd k.c) = .ok k') : GoesOn k' := by
  unfold clientWrite at h
  have hin : ∀ w, ({ k with wr := w } : Conn).after (.ok k.c) = .ok k' →
      k.c.type = .undecided ∨ k.c.type = .fcgi ∨ k.c.type = .proxy → GoesOn k' := by
    intro w h ht
    unfold Conn.after at h
    cases h
    refine .inr ⟨?_, hrd⟩
    rintro (h | h)
    · exact absurd ho h
    · dsimp only at h
      rcases ht with ht | ht | ht <;> (rw [ht] at h; rcases h with h | h | h <;> cases h)
  split at h
  · rename_i ht; exact hin _ h (.inl ht)
  · split at h
    · unfold Conn.after at h; cases h; exact .inl (clientError_closed _ _ (by intro h; cases h))
    · unfold Conn.after at h; cases h; exact .inl rfl
    · rename_i data hd
      unfold Conn.after at h; cases h
      refine .inr ⟨?_, hrd⟩
      intro _
      have hd' : data ≠ [] := by intro e; subst e; exact hd rfl
      simp [added, hd']
  · rename_i ht
    split at h
    · unfold Conn.after at h; cases h
      refine .inr ⟨?_, hrd⟩
      intro _
      simp [added, ht]
    · cases h
    · cases h
  · rename_i ht; exact hin _ h (.inr (.inl ht))
  · rename_i ht; exact hin _ h (.inr (.inr ht))
  · rw [if_pos ho] at h
    unfold Conn.after at h; cases h; exact .inl rfl

theorem connStep_goes (bufsiz : Nat) (ev : ConnEv) (hev : NoAppEnd ev) (k k' : Conn) (hk : GoesOn k) (h : connStep env bufsiz ev k = .ok k') :
    GoesOn k' := by
  unfold connStep at h
  split at h
  · cases h; exact hk
  · rename_i hc
    have hw := hk.resolve_left hc
    split at h
    · rename_i r
      split at h
      · unfold connReadable at h
        dsimp only at h
        split at h
        · cases h; exact .inr ⟨hw.write, rfl⟩
        · unfold Conn.after at h; cases h; exact .inl rfl
        · unfold Conn.after at h; cases h; exact .inl rfl
        · cases hr : clientRead env { k.c with inp := k.c.inp ++ _ } with
          | ok c' => rw [hr] at h; exact after_goes { k with rd := true } _ _ hw.write (.inr rfl) (by have := clientRead_arms _ _ hr; exact this) h
          | err => rw [hr] at h; cases h
          | ub => rw [hr] at h; cases h
      · cases h; exact .inr hw
    · rename_i r rd
      split at h
      · unfold connWritable at h
        dsimp only at h
        split at h
        · rename_i ho
          exact flushed_goes bufsiz rd { k with wr := false } _ hw.read ho h
        · split at h
          · cases h; exact .inr ⟨fun _ => rfl, hw.read⟩
          · unfold Conn.after at h; cases h; exact .inl (clientError_closed _ _ (by intro h; cases h))
          · split at h
            · rename_i n ho
              exact flushed_goes bufsiz rd { k with wr := false, c := { k.c with sent := k.c.sent ++ k.c.out.take n, out := k.c.out.drop n } } _ hw.read ho h
            · cases h; exact .inr ⟨fun _ => rfl, hw.read⟩
      · cases h; exact .inr hw
    · split at h
      · rename_i f hf
        refine after_goes { k with sbuf := f.sbuf, fsrc := f.src } _ _ hw.write (.inr hw.read) ?_ h
        rcases fcgiLoop_arms _ _ _ hf with h | h | h
        · exact .inl h
        · exact .inr (.inl h)
        · exact .inr (.inr (.inl h))
      · cases h
      · cases h
    · exact absurd rfl hev
    · cases h; exact .inr hw
    · rename_i ev hfl
      split at h
      · rename_i f hf
        refine after_goes { k with phase := f.phase, psrc := f.src } _ _ hw.write (.inr hw.read) ?_ h
        rcases proxyStep_arms _ _ _ (by intro n e; exact hfl n e) hf with h | h | h
        · exact .inl h
        · exact .inr (.inl h)
        · exact .inr (.inr (.inl h))
      · cases h
      · cases h

end

theorem connRun_goes (bufsiz : Nat) (evs : List (Env × ConnEv)) : ∀ k k' : Conn, (∀ e ∈ evs, NoAppEnd e.2) → GoesOn k →
    connRun bufsiz evs k = .ok k' → GoesOn k' := by
  induction evs with
  | nil => intro k k' _ hk h; cases h; exact hk
  | cons e r ih =>
    obtain ⟨env, ev⟩ := e
    intro k k' hne hk h
    unfold connRun at h
    split at h
    · rename_i k1 h1
      exact ih k1 k' (fun e he => hne e (List.mem_cons_of_mem _ he)) (connStep_goes bufsiz ev (hne _ (List.mem_cons_self ..)) _ _ hk h1) h
    · cases h
    · cases h

end Gmid.Props

namespace Gmid.Spec

/-- a connection whose TLS handshake has just ended: nothing received, nothing to send -/
structure FreshConn (c : Client) : Prop where
  type : c.type = .undecided
  out : c.out = []
  openc : c.closed = false

/-- the full claim: whatever happens, an open connection will go on -/
def NeverStalls : Prop :=
  ∀ (env : Env) (sni : Option Bytes) (c : Client) (bufsiz : Nat) (evs : List (Env × ConnEv)) (k : Conn), FreshConn c →
    connRun bufsiz evs (connStart env sni c) = .ok k → k.c.closed = true ∨ WillGoOn k

/-- nothing queued or already sent is lost, repeated or reordered: the bytes handed to TLS so far followed by those queued only grow at
their end, and so do the bytes handed to TLS -/
structure OnlyGrows (c c' : Client) : Prop where
  all : c.sent ++ c.out <+: c'.sent ++ c'.out
  sent : c.sent <+: c'.sent

end Gmid.Spec

namespace Gmid.Props

open Gmid.Spec

/-- C105: an open connection whose reply is in progress has its write event pending, and its read event is pending, at any point of any
history (partial: of those in which no FastCGI application goes away without ending its answer). -/
theorem C105_no_stall_partial (env : Env) (sni : Option Bytes) (c : Client) (bufsiz : Nat) (evs : List (Env × ConnEv)) (k : Conn)
    (hc : FreshConn c) (hne : ∀ e ∈ evs, NoAppEnd e.2) (h : connRun bufsiz evs (connStart env sni c) = .ok k) :
    k.c.closed = true ∨ WillGoOn k := by
  refine connRun_goes bufsiz evs _ k hne ?_ h
  refine .inr ⟨?_, rfl⟩
  have key : (handshakeDone env sni c).out ≠ [] ∨ ((handshakeDone env sni c).out = [] ∧ (handshakeDone env sni c).type = .undecided) := by
    unfold handshakeDone
    split
    · exact .inl (startReply_out _ _ _)
    · dsimp only
      split
      · exact .inr ⟨hc.out, hc.type⟩
      · exact .inl (startReply_out _ _ _)
  intro hp
  unfold connStart at hp ⊢
  dsimp only at hp ⊢
  unfold added
  rw [hc.out]
  rcases key with h | ⟨h1, h2⟩
  · simp [h]
  · rcases hp with h | h
    · exact absurd h1 h
    · rw [h2] at h; rcases h with h | h | h <;> cases h

section
variable {env : Env}

theorem grows_refl (c : Client) : OnlyGrows c c := ⟨List.prefix_refl _, List.prefix_refl _⟩

theorem grows_out (c c' : Client) (s : Bytes) (h1 : c'.sent = c.sent) (h2 : c'.out = c.out ++ s) : OnlyGrows c c' :=
  ⟨by rw [h1, h2, ← List.append_assoc]; exact List.prefix_append _ _, by rw [h1]; exact List.prefix_refl _⟩

theorem _root_.Gmid.Spec.OnlyGrows.trans {a b c : Client} (h1 : OnlyGrows a b) (h2 : OnlyGrows b c) : OnlyGrows a c :=
  ⟨h1.all.trans h2.all, h1.sent.trans h2.sent⟩

theorem clientWrite_grows (bufsiz : Nat) (rd : Option Bytes) (c c' : Client) (h : clientWrite env bufsiz rd c = .ok c') : OnlyGrows c c' := by
  unfold clientWrite at h
  split at h
  · cases h; exact grows_refl _
  · split at h
    · cases h; exact ⟨List.prefix_refl _, List.prefix_refl _⟩
    · cases h; exact ⟨List.prefix_refl _, List.prefix_refl _⟩
    · cases h; exact grows_out _ _ _ rfl rfl
  · split at h
    · cases h; exact grows_out _ _ _ rfl rfl
    · cases h
    · cases h
  · cases h; exact grows_refl _
  · cases h; exact grows_refl _
  · cases h
    split
    · exact ⟨List.prefix_refl _, List.prefix_refl _⟩
    · exact grows_refl _

theorem fcgiError_grows (f : FClient) (hc : f.c.code ≠ 0) : OnlyGrows f.c (fcgiError env f).c ∧ (fcgiError env f).c.code ≠ 0 := by
  unfold fcgiError
  rw [if_neg hc]
  exact ⟨⟨List.prefix_refl _, List.prefix_refl _⟩, hc⟩

theorem fcgiStop_grows (f g : FClient) (hc : f.c.code ≠ 0) (h : fcgiStop env f = .ok g) : OnlyGrows f.c g.c := by
  unfold fcgiStop at h
  dsimp only at h
  split at h
  · rename_i c' hw
    cases h
    exact (fcgiError_grows f hc).1.trans (clientWrite_grows _ _ _ _ hw)
  · cases h
  · cases h

theorem fcgiLoop_grows (n : Nat) : ∀ (f g : FClient), f.c.code ≠ 0 → fcgiLoop' env n f = .ok g → OnlyGrows f.c g.c := by
  induction n with
  | zero =>
    intro f g hc h
    unfold fcgiLoop' at h
    split at h
    · exact fcgiStop_grows _ _ hc h
    · split at h
      · split at h
        · exact fcgiStop_grows _ _ hc h
        · dsimp only at h
          split at h
          · cases h; exact grows_refl _
          · cases h
      · cases h; exact grows_refl _
  | succ n ih =>
    intro f g hc h
    unfold fcgiLoop' at h
    split at h
    · exact fcgiStop_grows _ _ hc h
    · split at h
      · split at h
        · exact fcgiStop_grows _ _ hc h
        · dsimp only at h
          split at h
          · cases h; exact grows_refl _
          · split at h
            · split at h
              · have := fcgiStop_grows _ _ (by exact hc) h
                exact this
              · have := ih _ _ (by exact hc) h
                exact ⟨this.all, this.sent⟩
            · split at h
              · have := ih _ _ (by exact hc) h
                exact this
              · split at h
                · unfold fcgiStdout at h
                  dsimp only at h
                  rw [if_neg hc] at h
                  have := ih _ _ (by exact hc) h
                  refine OnlyGrows.trans ?_ this
                  exact grows_out _ _ _ rfl rfl
                · have := fcgiStop_grows _ _ (by exact hc) h
                  exact this
      · cases h; exact grows_refl _

theorem proxyStep_grows (ev : PEv) (f g : PClient) (hev : ∀ n, ev ≠ .flush n) (hc : f.c.code ≠ 0) (hp : f.phase ≠ .connecting)
    (h : proxyStep env ev f = .ok g) : OnlyGrows f.c g.c := by
  have er : proxyError env f = .ok g → OnlyGrows f.c g.c := by
    intro h
    unfold proxyError at h
    dsimp only at h
    rw [if_neg hc] at h
    split at h
    · rename_i c' hw
      cases h
      have := clientWrite_grows _ _ _ _ hw
      exact ⟨this.all, this.sent⟩
    · cases h
    · cases h
  unfold proxyStep at h
  split at h
  · cases h; exact grows_refl _
  · split at h
    · cases h; exact grows_refl _
    · rename_i e; exact absurd e hp
    · rename_i e; exact absurd e hp
    · unfold proxyRead at h
      dsimp only at h
      rw [if_neg hc] at h
      cases h
      exact grows_out _ _ _ rfl rfl
    · exact er h
    · exact absurd rfl (hev _)
    · cases h; exact grows_refl _

end

/-- C105: once a reply was started nothing of it is lost, repeated or sent in another order, whatever tls_write returns — in particular when
it wants to be called again, which it must be with the same bytes — and whatever else happens (partial: but for a further request, arriving
while a FastCGI application answers the first, see `C62`). -/
theorem C105_no_loss_partial (env : Env) (bufsiz : Nat) (ev : ConnEv) (k k' : Conn) (hcode : k.c.code ≠ 0) (hph : k.phase ≠ .connecting)
    (hev : k.c.type ≠ .undecided ∨ ∀ r, ev ≠ .readable r) (h : connStep env bufsiz ev k = .ok k') : OnlyGrows k.c k'.c := by
  have aft : ∀ (k0 : Conn) (r : Res Client), (∀ c', r = .ok c' → OnlyGrows k.c c') → k0.after r = .ok k' → OnlyGrows k.c k'.c := by
    intro k0 r hr h
    unfold Conn.after at h
    split at h
    · cases h; exact hr _ rfl
    · cases h
    · cases h
  have cls : ∀ c', (.ok (clientError env .error k.c) : Res Client) = .ok c' → OnlyGrows k.c c' := by
    intro c' e; cases e; exact ⟨List.prefix_refl _, List.prefix_refl _⟩
  have cls' : ∀ c', (.ok (clientError env .eof k.c) : Res Client) = .ok c' → OnlyGrows k.c c' := by
    intro c' e; cases e; exact ⟨List.prefix_refl _, List.prefix_refl _⟩
  unfold connStep at h
  split at h
  · cases h; exact grows_refl _
  · split at h
    · split at h
      · unfold connReadable at h
        dsimp only at h
        split at h
        · cases h; exact grows_refl _
        · exact aft _ _ cls h
        · exact aft _ _ cls' h
        · refine aft _ _ ?_ h
          intro c' hr
          have ht : k.c.type ≠ .undecided := by
            rcases hev with h | h
            · exact h
            · exact absurd rfl (h _)
          unfold clientRead at hr
          rw [if_pos ht] at hr
          cases hr
          exact ⟨List.prefix_refl _, List.prefix_refl _⟩
      · cases h; exact grows_refl _
    · split at h
      · unfold connWritable at h
        dsimp only at h
        split at h
        · refine aft _ _ ?_ h
          intro c' hr
          exact clientWrite_grows _ _ _ _ hr
        · split at h
          · cases h; exact grows_refl _
          · exact aft _ _ cls h
          · rename_i n
            have hb : OnlyGrows k.c { k.c with sent := k.c.sent ++ k.c.out.take n, out := k.c.out.drop n } := by
              refine ⟨?_, List.prefix_append _ _⟩
              dsimp only
              rw [List.append_assoc, List.take_append_drop]
              exact List.prefix_refl _
            split at h
            · refine aft _ _ ?_ h
              intro c' hr
              exact hb.trans (clientWrite_grows _ _ _ _ hr)
            · cases h; exact hb
      · cases h; exact grows_refl _
    · split at h
      · rename_i f hf
        refine aft _ _ ?_ h
        intro c' e; cases e
        have := fcgiLoop_grows _ _ _ (by exact hcode) hf
        exact this
      · cases h
      · cases h
    · refine aft _ _ ?_ h
      intro c' e; cases e
      exact (fcgiError_grows { c := k.c, sbuf := k.sbuf, src := k.fsrc } hcode).1
    · cases h; exact grows_refl _
    · rename_i ev hfl
      split at h
      · rename_i f hf
        refine aft _ _ ?_ h
        intro c' e; cases e
        exact proxyStep_grows _ { c := k.c, phase := k.phase, src := k.psrc } f (by intro n e; exact hfl n e) hcode hph hf
      · cases h
      · cases h


/-! ### cases -/

/-- a host with a FastCGI application for everything -/
def exAppHost : Vhost := { domain := b%"h", locs := [{ pat := [] }, { pat := b%"*", fcgi := 0 }] }

def exAppEnv : Env := { exEnv with nFcgi := 1, fcgiConnect := fun _ => true, fcgiBev := true, hosts := [exAppHost] }

/-- a request for a FastCGI application, which answers and goes away without FCGI_END_REQUEST once everything was sent -/
def exGone : List (Env × ConnEv) :=
  [(exAppEnv, .readable .want), (exAppEnv, .readable (.got b%"gemini://h/a\r\n")), (exAppEnv, .fcgiData (exOut b%"20 a\r\nhello").wire),
   (exAppEnv, .writable .want none), (exAppEnv, .writable (.got 4) none), (exAppEnv, .writable (.got 7) none), (exAppEnv, .fcgiEnd)]

/-- the hypotheses of `C105_no_stall_partial` hold of the history without its last event; the reply is complete then, and nothing is left to do
for the event loop but to wait -/
example : FreshConn {} ∧ (∀ e ∈ exGone.dropLast, NoAppEnd e.2) ∧
    (connRun 4 exGone.dropLast (connStart exAppEnv (some b%"h") {})).val?.map (fun k => (k.c.sent, k.c.out, k.wr, k.rd, k.c.closed)) =
      some (b%"20 a\r\nhello", [], false, true, false) := by
  refine ⟨⟨rfl, rfl, rfl⟩, ?_, by decide +kernel⟩
  intro e he
  simp only [exGone, List.dropLast, List.mem_cons, List.not_mem_nil, or_false] at he
  unfold NoAppEnd
  rcases he with h | h | h | h | h | h <;> (subst h; intro e; cases e)

/-- a reply on its way, written piecemeal: the hypotheses of `C105_no_loss_partial` hold and the connection goes on -/
example : (connRun 4 (exGone.take 5) (connStart exAppEnv (some b%"h") {})).val?.map (fun k => (k.c.code, k.phase, k.c.sent, k.c.out, k.wr)) =
    some (20, .over, b%"20 a", b%"\r\nhello", true) := by decide +kernel

/-- a file of six bytes, BUFSIZ being 4: the connection is closed after its last byte -/
example : (connRun 4 [(exEnv, .writable (.got 100) (some b%"abcd")), (exEnv, .writable .want none), (exEnv, .writable (.got 2) none),
      (exEnv, .writable (.got 2) (some b%"ef")), (exEnv, .writable (.got 2) none)]
    { c := { type := .file, code := 20, out := b%"20 a\r\n" }, rd := true, wr := true }).val?.map (fun k => (k.c.sent, k.c.closed)) =
    some (b%"20 a\r\nabcdef", true) := by decide +kernel

/-- Nothing moves when only the client's socket is writable and no write event is pending. -/
theorem unarmed_run (bufsiz : Nat) (evs : List (Env × ConnEv)) (k : Conn) (hw : k.wr = false)
    (h : ∀ e ∈ evs, ∃ r rd, e.2 = .writable r rd) : connRun bufsiz evs k = .ok k := by
  induction evs with
  | nil => rfl
  | cons e r ih =>
    obtain ⟨env, ev⟩ := e
    obtain ⟨x, rd, hx⟩ := h _ (List.mem_cons_self ..)
    dsimp only at hx
    subst hx
    have hs : connStep env bufsiz (.writable x rd) k = .ok k := by
      unfold connStep
      split
      · rfl
      · rw [hw]; rfl
    unfold connRun
    rw [hs]
    exact ih (fun e he => h e (List.mem_cons_of_mem _ he))

/-- C105 is false of the code: when a FastCGI application closes its side without FCGI_END_REQUEST after all it wrote was sent, fcgi_error marks
the request done but nobody closes the connection: no write event is pending, so however often the client's socket becomes writable the
connection stays as it is, and a client that waits for the end of the page waits forever. -/
theorem C105_app_gone_stalls :
    ∃ k, connRun 4 exGone (connStart exAppEnv (some b%"h") {}) = .ok k ∧ k.c.sent = b%"20 a\r\nhello" ∧ k.c.out = [] ∧ k.c.type = .done ∧
      k.c.closed = false ∧ ∀ evs, (∀ e ∈ evs, ∃ r rd, e.2 = ConnEv.writable r rd) → connRun 4 evs k = .ok k := by
  cases h : connRun 4 exGone (connStart exAppEnv (some b%"h") {}) with
  | ok k =>
    have hv : (connRun 4 exGone (connStart exAppEnv (some b%"h") {})).val?.map (fun k => (k.c.sent, k.c.out, k.c.type, k.c.closed, k.wr)) =
        some (b%"20 a\r\nhello", [], .done, false, false) := by decide +kernel
    rw [h] at hv
    simp only [Res.val?, Option.map_some, Option.some.injEq, Prod.mk.injEq] at hv
    exact ⟨k, rfl, hv.1, hv.2.1, hv.2.2.1, hv.2.2.2.1, fun evs he => unarmed_run 4 evs k hv.2.2.2.2 he⟩
  | err => have : (connRun 4 exGone (connStart exAppEnv (some b%"h") {})).val?.isSome = true := by decide +kernel
           rw [h] at this; cases this
  | ub => have : (connRun 4 exGone (connStart exAppEnv (some b%"h") {})).val?.isSome = true := by decide +kernel
          rw [h] at this; cases this

theorem C105_not_always : ¬ NeverStalls := by
  intro hn
  obtain ⟨k, h1, -, h3, h4, h5, h6⟩ := C105_app_gone_stalls
  rcases hn exAppEnv (some b%"h") {} 4 exGone k ⟨rfl, rfl, rfl⟩ h1 with h | h
  · rw [h5] at h; cases h
  · have hw := h.write (.inr (.inr (.inr h4)))
    -- a write event would close the connection
    have := h6 [(exAppEnv, .writable .want none)] (by intro e he; simp only [List.mem_singleton] at he; subst he; exact ⟨_, _, rfl⟩)
    unfold connRun connStep at this
    rw [h5] at this
    simp only [hw, Bool.false_eq_true, if_false, if_true] at this
    unfold connWritable clientWrite at this
    dsimp only at this
    rw [if_pos h3, if_pos h3, h4] at this
    unfold Conn.after at this
    simp only [h3, if_true, connRun, Res.ok.injEq] at this
    have hc := congrArg (fun k : Conn => k.c.closed) this
    dsimp only at hc
    rw [h5] at hc
    cases hc

end Gmid.Props
