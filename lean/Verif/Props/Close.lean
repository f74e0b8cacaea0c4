import Verif.Spec.Close

/-!
# C55: connection resources are released exactly once
-/
set_option autoImplicit false

namespace Gmid.Props

open Spec

/-- the connection record is there -/
def RConn.here (c : RConn) : Prop := c.life = .live ∨ c.life = .closing

/-- what a record holds -/
def RConn.holdsFd (c : RConn) (n : Nat) : Prop := RConn.here c ∧ (c.fd = n ∨ c.pfd = some n)
def RConn.holdsCtx (c : RConn) (k : Nat) : Prop := (RConn.here c ∧ c.ctx = k) ∨ (c.life = .live ∧ c.pctx = some k)

structure ConnOk (c : RConn) : Prop where
  fdne : RConn.here c → c.pfd ≠ some c.fd
  ctxne : c.life = .live → c.pctx ≠ some c.ctx
  ppfd : c.life = .live → c.pctx ≠ none → c.pfd ≠ none
  cgi : c.life = .live → c.cgibev = true → c.pctx = none
  und : c.life = .live → c.decided = false → c.cgibev = false → c.pfd = none ∧ c.pctx = none

structure WInv (w : World) : Prop where
  fault : w.fault = false
  fds : ∀ n i, w.fds n = some i ↔ RConn.holdsFd (w.conns i) n
  ctxs : ∀ k i, w.ctxs k = some i ↔ RConn.holdsCtx (w.conns i) k
  conn : ∀ i, ConnOk (w.conns i)
  evs : ∀ e, e ∈ w.evs ↔ ∃ i, e = .closeEv i ∧ (w.conns i).life = .closing
  nodup : w.evs.Nodup

/-- only the table entries of connection `i` and free ones may change, and only to such -/
def Local (i : Nat) (t t' : Nat → Option Nat) : Prop :=
  ∀ n, t' n = t n ∨ ((t n = none ∨ t n = some i) ∧ (t' n = none ∨ t' n = some i))

theorem Local.other {i : Nat} {t t' : Nat → Option Nat} (h : Local i t t') (j : Nat) (hj : j ≠ i) (n : Nat) :
    t' n = some j ↔ t n = some j := by
  have hj' : i ≠ j := fun h => hj h.symm
  rcases h n with h | ⟨h1, h2⟩
  · rw [h]
  · rcases h1 with h1 | h1 <;> rcases h2 with h2 | h2 <;> simp [h1, h2, hj']

theorem winv_update (w w' : World) (i : Nat) (h : WInv w) (hf : w'.fault = false)
    (hc : ∀ j, j ≠ i → w'.conns j = w.conns j)
    (hfd : Local i w.fds w'.fds) (hcx : Local i w.ctxs w'.ctxs)
    (hfi : ∀ n, w'.fds n = some i ↔ RConn.holdsFd (w'.conns i) n)
    (hci : ∀ k, w'.ctxs k = some i ↔ RConn.holdsCtx (w'.conns i) k)
    (hok : ConnOk (w'.conns i))
    (hev : ∀ e, e ∈ w'.evs ↔ ((e ∈ w.evs ∧ e ≠ .closeEv i) ∨ (e = .closeEv i ∧ (w'.conns i).life = .closing)))
    (hn : w'.evs.Nodup) : WInv w' := by
  refine ⟨hf, ?_, ?_, ?_, ?_, hn⟩
  · intro n j
    by_cases hj : j = i
    · subst hj; exact hfi n
    · rw [hfd.other j hj n, hc j hj]; exact h.fds n j
  · intro n j
    by_cases hj : j = i
    · subst hj; exact hci n
    · rw [hcx.other j hj n, hc j hj]; exact h.ctxs n j
  · intro j
    by_cases hj : j = i
    · subst hj; exact hok
    · rw [hc j hj]; exact h.conn j
  · intro e
    rw [hev e, h.evs e]
    constructor
    · rintro (⟨⟨j, rfl, hl⟩, hne⟩ | ⟨rfl, hl⟩)
      · have : j ≠ i := fun hh => hne (by rw [hh])
        exact ⟨j, rfl, by rw [hc j this]; exact hl⟩
      · exact ⟨i, rfl, hl⟩
    · rintro ⟨j, rfl, hl⟩
      by_cases hj : j = i
      · subst hj; exact .inr ⟨rfl, hl⟩
      · rw [hc j hj] at hl
        exact .inl ⟨⟨j, rfl, hl⟩, fun hh => hj (by injection hh)⟩

/-- nothing changes in the events when connection `i` was and is not closing -/
theorem evs_same (w : World) (h : WInv w) (i : Nat) (c : RConn) (h0 : (w.conns i).life ≠ .closing) (h1 : c.life ≠ .closing) (e : Once) :
    e ∈ w.evs ↔ ((e ∈ w.evs ∧ e ≠ .closeEv i) ∨ (e = .closeEv i ∧ c.life = .closing)) := by
  constructor
  · intro he
    refine .inl ⟨he, ?_⟩
    rintro rfl
    obtain ⟨j, hj, hl⟩ := (h.evs _).1 he
    injection hj with hj
    subst hj
    exact h0 hl
  · rintro (⟨h, -⟩ | ⟨-, h⟩)
    · exact h
    · exact absurd h h1

/-- a step that leaves connection `i` not closing, and the events alone -/
theorem winv_plain (w w' : World) (i : Nat) (h : WInv w) (h0 : (w.conns i).life ≠ .closing)
    (he : w'.evs = w.evs) (h1 : (w'.conns i).life ≠ .closing) (hf : w'.fault = false)
    (hc : ∀ j, j ≠ i → w'.conns j = w.conns j)
    (hfd : Local i w.fds w'.fds) (hcx : Local i w.ctxs w'.ctxs)
    (hfi : ∀ n, w'.fds n = some i ↔ RConn.holdsFd (w'.conns i) n)
    (hci : ∀ k, w'.ctxs k = some i ↔ RConn.holdsCtx (w'.conns i) k)
    (hok : ConnOk (w'.conns i)) : WInv w' :=
  winv_update w w' i h hf hc hfd hcx hfi hci hok (by rw [he]; exact evs_same w h i _ h0 h1) (by rw [he]; exact h.nodup)

/-- closes the obligations of `winv_plain` -/
local macro "conn_tac" w:ident h:ident i:ident : tactic => `(tactic|
  (have hf := ($h).fds; have hcx := ($h).ctxs; have hfa := ($h).fault
   obtain ⟨k1, k2, k3, k4, k5⟩ := ($h).conn $i
   simp only [RConn.holdsFd, RConn.holdsCtx, RConn.here] at hf hcx k1
   have hs1 := hf (($w).conns $i).fd $i
   have hs2 := hcx (($w).conns $i).ctx $i
   apply winv_plain _ _ $i $h
   · grind
   · rfl
   · simp [World.set, World.openFd, World.closeFd, World.newCtx, World.freeCtx, World.useCtx, World.closePfd, World.freePctx, upd]; try grind
   · simp [World.set, World.openFd, World.closeFd, World.newCtx, World.freeCtx, World.useCtx, World.closePfd, World.freePctx, upd]; try grind
   · intro j hj; simp [World.set, World.openFd, World.closeFd, World.newCtx, World.freeCtx, World.useCtx, World.closePfd, World.freePctx, upd, hj]; try grind
   · intro m; simp [World.set, World.openFd, World.closeFd, World.newCtx, World.freeCtx, World.useCtx, World.closePfd, World.freePctx, upd]; try grind
   · intro m; simp [World.set, World.openFd, World.closeFd, World.newCtx, World.freeCtx, World.useCtx, World.closePfd, World.freePctx, upd]; try grind
   · intro m; simp [World.set, World.openFd, World.closeFd, World.newCtx, World.freeCtx, World.useCtx, World.closePfd, World.freePctx, upd, RConn.holdsFd, RConn.here] at *; try grind
   · intro m; simp [World.set, World.openFd, World.closeFd, World.newCtx, World.freeCtx, World.useCtx, World.closePfd, World.freePctx, upd, RConn.holdsCtx, RConn.here] at *; try grind
   · constructor <;> simp [World.set, World.openFd, World.closeFd, World.newCtx, World.freeCtx, World.useCtx, World.closePfd, World.freePctx, upd, RConn.here] at * <;> try grind))

theorem winv_file (w w' : World) (i n : Nat) (h : WInv w) (ho : (w.conns i).cgibev = false)
    (hs : w.step (.file i n) = some w') : WInv w' := by
  simp only [World.step, Option.ite_none_right_eq_some] at hs
  obtain ⟨hg, hs⟩ := hs
  simp only [RConn.reads, Bool.and_eq_true, beq_iff_eq, Bool.not_eq_true'] at hg
  injection hs with hs
  subst hs
  conn_tac w h i

theorem winv_handshake (w w' : World) (i : Nat) (h : WInv w)
    (hs : w.step (.handshake i) = some w') : WInv w' := by
  simp only [World.step, Option.ite_none_right_eq_some] at hs
  obtain ⟨hg, hs⟩ := hs
  injection hs with hs
  subst hs
  conn_tac w h i

theorem winv_decide (w w' : World) (i : Nat) (h : WInv w)
    (hs : w.step (.decide i) = some w') : WInv w' := by
  simp only [World.step, Option.ite_none_right_eq_some] at hs
  obtain ⟨hg, hs⟩ := hs
  injection hs with hs
  subst hs
  conn_tac w h i

theorem winv_fastcgi (w w' : World) (i n : Nat) (b : Bool) (h : WInv w) (ho : (w.conns i).cgibev = false)
    (hs : w.step (.fastcgi i n b) = some w') : WInv w' := by
  simp only [World.step, Option.ite_none_right_eq_some] at hs
  obtain ⟨hg, hs⟩ := hs
  simp only [RConn.reads, Bool.and_eq_true, beq_iff_eq, Bool.not_eq_true'] at hg
  injection hs with hs
  subst hs
  conn_tac w h i

theorem winv_fcgiError (w w' : World) (i : Nat) (h : WInv w)
    (hs : w.step (.fcgiError i) = some w') : WInv w' := by
  simp only [World.step, Option.ite_none_right_eq_some] at hs
  obtain ⟨hg, hs⟩ := hs
  injection hs with hs
  subst hs
  cases hp : (w.conns i).pfd <;> conn_tac w h i

theorem winv_proxyReady (w w' : World) (i : Nat) (h : WInv w)
    (hs : w.step (.proxyReady i) = some w') : WInv w' := by
  simp only [World.step, Option.ite_none_right_eq_some] at hs
  obtain ⟨hg, hs⟩ := hs
  injection hs with hs
  subst hs
  cases hp : (w.conns i).pctx <;> conn_tac w h i

theorem winv_proxyError (w w' : World) (i : Nat) (h : WInv w)
    (hs : w.step (.proxyError i) = some w') : WInv w' := by
  simp only [World.step, Option.ite_none_right_eq_some] at hs
  obtain ⟨hg, hs⟩ := hs
  injection hs with hs
  subst hs
  cases hp : (w.conns i).pctx <;> cases hq : (w.conns i).pfd <;> conn_tac w h i

theorem winv_proxy (w w' : World) (i n : Nat) (p : PInit) (h : WInv w) (ho : (w.conns i).cgibev = false)
    (hs : w.step (.proxy i n p) = some w') : WInv w' := by
  simp only [World.step, Option.ite_none_right_eq_some] at hs
  obtain ⟨hg, hs⟩ := hs
  simp only [RConn.reads, Bool.and_eq_true, beq_iff_eq, Bool.not_eq_true'] at hg
  cases p with
  | notls =>
    injection hs with hs
    subst hs
    conn_tac w h i
  | failEarly =>
    injection hs with hs
    subst hs
    conn_tac w h i
  | failLate k =>
    simp only [Option.ite_none_right_eq_some] at hs
    obtain ⟨hk, hs⟩ := hs
    try simp only [World.openFd] at hk
    injection hs with hs
    subst hs
    conn_tac w h i
  | tls k =>
    simp only [Option.ite_none_right_eq_some] at hs
    obtain ⟨hk, hs⟩ := hs
    try simp only [World.openFd] at hk
    injection hs with hs
    subst hs
    conn_tac w h i

theorem winv_accept (w w' : World) (i fd : Nat) (k : Option Nat) (h : WInv w)
    (hs : w.step (.accept i fd k) = some w') : WInv w' := by
  simp only [World.step, Option.ite_none_right_eq_some] at hs
  obtain ⟨hg, hs⟩ := hs
  cases k with
  | none =>
    injection hs with hs
    subst hs
    conn_tac w h i
  | some k =>
    simp only [Option.ite_none_right_eq_some] at hs
    obtain ⟨hk, hs⟩ := hs
    try simp only [World.openFd] at hk
    injection hs with hs
    subst hs
    conn_tac w h i

theorem winv_dir (w w' : World) (i n : Nat) (r : DirRes) (h : WInv w) (ho : (∀ m, r ≠ .list m .scanned) ∧ (w.conns i).cgibev = false)
    (hs : w.step (.dir i n r) = some w') : WInv w' := by
  simp only [World.step, Option.ite_none_right_eq_some] at hs
  obtain ⟨hg, hs⟩ := hs
  simp only [RConn.reads, Bool.and_eq_true, beq_iff_eq, Bool.not_eq_true'] at hg
  obtain ⟨ho1, ho⟩ := ho
  cases r with
  | redirect =>
    simp only [openDirFds, Option.map_some] at hs
    injection hs with hs
    subst hs
    conn_tac w h i
  | index m =>
    simp only [openDirFds] at hs
    split at hs
    case isFalse => cases hs
    rename_i hk
    simp only [World.openFd, upd] at hk
    injection hs with hs
    subst hs
    conn_tac w h i
  | indexStat m =>
    simp only [openDirFds] at hs
    split at hs
    case isFalse => cases hs
    rename_i hk
    simp only [World.openFd, upd] at hk
    injection hs with hs
    subst hs
    conn_tac w h i
  | list m l =>
    cases l with
    | scanned => exact absurd rfl (ho1 m)
    | forbidden =>
      cases m with
      | none =>
        simp only [openDirFds, dirListingFds, Option.map_some] at hs
        injection hs with hs
        subst hs
        conn_tac w h i
      | some m =>
        simp only [openDirFds, dirListingFds] at hs
        split at hs
        case isFalse => cases hs
        rename_i hk
        simp only [World.openFd, upd] at hk
        injection hs with hs
        subst hs
        conn_tac w h i
    | noDir =>
      cases m with
      | none =>
        simp only [openDirFds, dirListingFds, Option.map_some] at hs
        injection hs with hs
        subst hs
        conn_tac w h i
      | some m =>
        simp only [openDirFds, dirListingFds] at hs
        split at hs
        case isFalse => cases hs
        rename_i hk
        simp only [World.openFd, upd] at hk
        injection hs with hs
        subst hs
        conn_tac w h i

/-- closes the obligations of `winv_update` for the closing steps; the one-shot events apart -/
local macro "close_tac" w:ident h:ident i:ident : tactic => `(tactic|
  (have hf := ($h).fds; have hcx := ($h).ctxs; have hfa := ($h).fault
   obtain ⟨k1, k2, k3, k4, k5⟩ := ($h).conn $i
   simp only [RConn.holdsFd, RConn.holdsCtx, RConn.here] at hf hcx k1
   have hs1 := hf (($w).conns $i).fd $i
   have hs2 := hcx (($w).conns $i).ctx $i
   have hs3 := fun n => hf n $i
   have hs4 := fun n => hcx n $i
   have hev := ($h).evs
   have hnd := ($h).nodup
   apply winv_update _ _ $i $h
   · simp [World.set, World.openFd, World.closeFd, World.newCtx, World.freeCtx, World.useCtx, World.closePfd, World.freePctx, upd]; try grind
   · intro j hj; simp [World.set, World.openFd, World.closeFd, World.newCtx, World.freeCtx, World.useCtx, World.closePfd, World.freePctx, upd, hj]; try grind
   · intro m; simp [World.set, World.openFd, World.closeFd, World.newCtx, World.freeCtx, World.useCtx, World.closePfd, World.freePctx, upd]; try grind
   · intro m; simp [World.set, World.openFd, World.closeFd, World.newCtx, World.freeCtx, World.useCtx, World.closePfd, World.freePctx, upd]; try grind
   · intro m; simp [World.set, World.openFd, World.closeFd, World.newCtx, World.freeCtx, World.useCtx, World.closePfd, World.freePctx, upd, RConn.holdsFd, RConn.here] at *; try grind
   · intro m; simp [World.set, World.openFd, World.closeFd, World.newCtx, World.freeCtx, World.useCtx, World.closePfd, World.freePctx, upd, RConn.holdsCtx, RConn.here] at *; try grind
   · constructor <;> simp [World.set, World.openFd, World.closeFd, World.newCtx, World.freeCtx, World.useCtx, World.closePfd, World.freePctx, upd, RConn.here] at * <;> try grind
   · intro e; simp [World.set, World.openFd, World.closeFd, World.newCtx, World.freeCtx, World.useCtx, World.closePfd, World.freePctx, upd] at *; try grind
   · simp [World.set, World.openFd, World.closeFd, World.newCtx, World.freeCtx, World.useCtx, World.closePfd, World.freePctx, upd, List.nodup_append] at *; try grind))

theorem winv_close (w w' : World) (i : Nat) (pr r : TlsClose) (h : WInv w) (ho : (w.conns i).pctx = none ∨ pr = .done)
    (hs : w.step (.close i pr r) = some w') : WInv w' := by
  simp only [World.step, Option.ite_none_right_eq_some] at hs
  obtain ⟨hg, hs⟩ := hs
  injection hs with hs
  subst hs
  have hcgi := (h.conn i).cgi hg
  cases hb : (w.conns i).cgibev <;> cases hp : (w.conns i).pfd <;> cases hq : (w.conns i).pctx <;> cases r <;>
    simp only [hq, reduceCtorEq, false_or] at ho <;>
    simp [hb, hq] at hcgi <;> try subst ho
  all_goals simp only [closeConn, hb, hp, hq, if_true, Bool.false_eq_true, if_false, clientCloseEv, clientProxyClose, World.closePfd]
  all_goals simp only [World.set, World.useCtx, World.freeCtx, World.closeFd, upd, if_true, hp]
  all_goals close_tac w h i

theorem winv_fire (w w' : World) (e : Once) (r : TlsClose) (h : WInv w)
    (hs : w.step (.fire e r) = some w') : WInv w' := by
  cases e with
  | proxyEv j fd ctx =>
    simp only [World.step, Option.ite_none_right_eq_some] at hs
    obtain ⟨j, hj, -⟩ := (h.evs _).1 hs.1
    cases hj
  | closeEv i =>
    simp only [World.step, Option.ite_none_right_eq_some] at hs
    obtain ⟨hg, hs⟩ := hs
    obtain ⟨j, hj, hl⟩ := (h.evs _).1 hg
    injection hj with hj
    subst hj
    injection hs with hs
    subst hs
    have hm : ∀ e, e ∈ w.evs.erase (.closeEv i) ↔ e ≠ .closeEv i ∧ e ∈ w.evs := fun e => h.nodup.mem_erase_iff
    have hn : (w.evs.erase (.closeEv i)).Nodup := h.nodup.erase _
    cases hp : (w.conns i).pfd <;> cases r <;>
      simp only [clientCloseEv, hp, World.closePfd] <;>
      simp only [World.set, World.useCtx, World.freeCtx, World.closeFd, upd, if_true, hp]
    all_goals close_tac w h i

theorem winv_start : WInv {} := by
  refine ⟨rfl, ?_, ?_, ?_, ?_, .nil⟩
  · intro n i; simp [RConn.holdsFd, RConn.here]
  · intro n i; simp [RConn.holdsCtx, RConn.here]
  · intro i; constructor <;> simp [RConn.here]
  · intro e; simp

theorem winv_run (w : World) (h : OrdinaryRun w) : WInv w := by
  induction h with
  | start => exact winv_start
  | next w w' e _ ho hs ih =>
    cases e with
    | accept i fd k => exact winv_accept w w' i fd k ih hs
    | handshake i => exact winv_handshake w w' i ih hs
    | decide i => exact winv_decide w w' i ih hs
    | file i n => exact winv_file w w' i n ih ho hs
    | dir i n r => exact winv_dir w w' i n r ih ho hs
    | fastcgi i n b => exact winv_fastcgi w w' i n b ih ho hs
    | fcgiError i => exact winv_fcgiError w w' i ih hs
    | proxy i n p => exact winv_proxy w w' i n p ih ho hs
    | proxyReady i => exact winv_proxyReady w w' i ih hs
    | proxyError i => exact winv_proxyError w w' i ih hs
    | close i pr r => exact winv_close w w' i pr r ih ho hs
    | fire e r => exact winv_fire w w' e r ih hs

/-- C55: in every history of a server process in which no directory is scanned for a listing, no
second request is acted on while a FastCGI application is answering, and the TLS closing of an
upstream connection is never left unfinished, for any number of connections, any reuse of descriptor
numbers and context addresses and any order of events: nothing is released or used that is not the
connection's own, live, resource; a connection that is given back leaves nothing behind; and a
connection in use still has its socket and TLS context.  Missing for the full property: the three
excluded cases, for which it is false (the theorems below). -/
theorem C55_released_once_partial (w : World) (h : OrdinaryRun w) :
    w.fault = false ∧
    (∀ i, (w.conns i).life = .freed → Released w i) ∧
    (∀ i, (w.conns i).life = .live ∨ (w.conns i).life = .closing → Live w i) := by
  have hi := winv_run w h
  refine ⟨hi.fault, ?_, ?_⟩
  · intro i hl
    constructor
    · intro n hn
      have := ((hi.fds n i).1 hn).1
      simp [RConn.here, hl] at this
    · intro n hn
      have := (hi.ctxs n i).1 hn
      simp [RConn.holdsCtx, RConn.here, hl] at this
  · intro i hl
    exact ⟨(hi.fds _ i).2 ⟨hl, .inl rfl⟩, (hi.ctxs _ i).2 (.inl ⟨hl, rfl⟩)⟩

/-- C55: closing gets to its end: at any time of such a history, closing a connection whose TLS
closing does not ask to be called again gives the record back; and when it does ask, the record is
waiting for exactly one callback, which can come, and gives it back when `tls_close` is done. -/
theorem C55_closing_finishes_partial (w : World) (h : OrdinaryRun w) (i : Nat) :
    ((w.conns i).life = .live → ∃ w', w.step (.close i .done .done) = some w' ∧ (w'.conns i).life = .freed) ∧
    ((w.conns i).life = .closing → w.evs.count (.closeEv i) = 1 ∧
      ∃ w', w.step (.fire (.closeEv i) .done) = some w' ∧ (w'.conns i).life = .freed) := by
  have hi := winv_run w h
  constructor
  · intro hl
    refine ⟨closeConn w i .done .done, ?_, ?_⟩
    · simp [World.step, hl]
    · simp only [closeConn, clientCloseEv]
      simp [World.set, upd]
  · intro hl
    have hm : Once.closeEv i ∈ w.evs := (hi.evs _).2 ⟨i, rfl, hl⟩
    refine ⟨?_, ?_⟩
    · rw [hi.nodup.count, if_pos hm]
    · refine ⟨clientCloseEv { w with evs := w.evs.erase (.closeEv i) } i .done, ?_, ?_⟩
      · simp [World.step, hm]
      · simp [clientCloseEv, World.set, upd]

/-- the hypotheses are met by a history with two connections, one of them proxied and closed in two
goes, the other one served a file under the descriptor number the first one had -/
example : ∃ w, OrdinaryRun w ∧ (w.conns 0).life = .freed ∧ (w.conns 1).life = .closing ∧ (w.conns 1).pfd = some 6 := by
  refine ⟨_, .next _ _ (.close 1 .done .again) (.next _ _ (.file 1 6) (.next _ _ (.handshake 1) (.next _ _ (.accept 1 5 (some 102))
    (.next _ _ (.fire (.closeEv 0) .done) (.next _ _ (.close 0 .done .again) (.next _ _ (.proxyReady 0) (.next _ _ (.proxy 0 6 (.tls 101))
    (.next _ _ (.handshake 0) (.next _ _ (.accept 0 5 (some 100)) .start trivial rfl) trivial rfl) rfl rfl) trivial rfl) (.inr rfl) rfl)
    trivial rfl) trivial rfl) trivial rfl) rfl rfl) (.inr rfl) rfl, ?_, ?_, ?_⟩ <;> rfl

/-- C55, false of the code: after a directory listing the directory's descriptor, already closed with
the directory stream, is closed again at the end of the connection.  Here a second client was given
the number in between: its socket is closed under it. -/
theorem C55_listing_closes_other_socket :
    ∃ w, ({} : World).run [.accept 0 5 (some 100), .handshake 0, .dir 0 6 (.list none .scanned), .accept 1 6 (some 101), .close 0 .done .done] = some w ∧
      w.fault = true ∧ (w.conns 1).life = .live ∧ (w.conns 1).fd = 6 ∧ w.fds 6 = none := by
  refine ⟨_, rfl, ?_, ?_, ?_, ?_⟩ <;> decide

/-- C55, false of the code: when `tls_close` on the upstream connection asks to be called again, the
callback is registered and the context freed and the descriptor closed nevertheless; the callback
then uses the freed context, and closes the descriptor number a second time, which another
connection may have by then. -/
theorem C55_upstream_close_use_after_free :
    ∃ w, ({} : World).run [.accept 0 5 (some 100), .handshake 0, .proxy 0 6 (.tls 101), .proxyReady 0, .close 0 .again .done] = some w ∧
      w.fault = false ∧ (w.conns 0).life = .freed ∧ w.evs = [.proxyEv 0 6 101] ∧ w.ctxs 101 = none ∧
    ∃ w', w.run [.accept 1 6 (some 102), .fire (.proxyEv 0 6 101) .done] = some w' ∧
      w'.fault = true ∧ (w'.conns 1).life = .live ∧ (w'.conns 1).fd = 6 ∧ w'.fds 6 = none := by
  refine ⟨_, rfl, ?_, ?_, ?_, ?_, _, rfl, ?_, ?_, ?_, ?_⟩ <;> decide

/-- the requests of the next theorem: `m` requests for a FastCGI location on one connection, each
given the next free descriptor number -/
def fcgiRequests : Nat → List RelEv
  | 0 => []
  | m + 1 => fcgiRequests m ++ [.fastcgi 0 (10 + m) true]

theorem run_append (w : World) (a b : List RelEv) : w.run (a ++ b) = (w.run a).bind (·.run b) := by
  induction a generalizing w with
  | nil => rfl
  | cons e es ih =>
    simp only [List.cons_append, World.run]
    cases w.step e with
    | none => rfl
    | some w1 => simp [ih]

/-- C55, false of the code: a request read while a FastCGI application has not answered yet is acted
on as well, and the descriptor of the first one is forgotten.  For every `m`, one client that sends
`m + 1` such requests leaves `m` descriptors open for good: its connection is over, and they are
still there. -/
theorem C55_second_request_leaks (m : Nat) :
    ∃ w, ({} : World).run (.accept 0 5 (some 100) :: .handshake 0 :: fcgiRequests (m + 1) ++ [.close 0 .done .done]) = some w ∧
      (w.conns 0).life = .freed ∧ ∀ n, 10 ≤ n → n < 10 + m → w.fds n = some 0 := by
  have key : ∀ m, ∃ w, ({} : World).run (.accept 0 5 (some 100) :: .handshake 0 :: fcgiRequests (m + 1)) = some w ∧
      w.conns 0 = { life := .live, fd := 5, ctx := 100, pfd := some (10 + m), bev := true, cgibev := true } ∧
      ∀ n, 10 ≤ n → w.fds n = if n ≤ 10 + m then some 0 else none := by
    intro m
    induction m with
    | zero =>
      refine ⟨_, rfl, by decide, ?_⟩
      intro n hn
      simp only [World.set, World.openFd, World.newCtx, World.useCtx, upd]
      grind
    | succ m ih =>
      obtain ⟨w, h1, h2, h3⟩ := ih
      have e : (RelEv.accept 0 5 (some 100) :: .handshake 0 :: fcgiRequests (m + 1 + 1)) =
          (.accept 0 5 (some 100) :: .handshake 0 :: fcgiRequests (m + 1)) ++ [.fastcgi 0 (10 + (m + 1)) true] := rfl
      have h4 := h3 (10 + (m + 1)) (by omega)
      rw [if_neg (by omega)] at h4
      refine ⟨(w.openFd 0 (10 + (m + 1))).set 0 { w.conns 0 with pfd := some (10 + (m + 1)), cgibev := true, decided := false }, ?_, ?_, ?_⟩
      · rw [e, run_append, h1]
        simp [World.run, World.step, h4, h2, RConn.reads]
      · simp [World.set, upd, h2]
      · intro n hn
        have := h3 n hn
        simp only [World.set, World.openFd, upd]
        grind
  obtain ⟨w, h1, h2, h3⟩ := key m
  refine ⟨closeConn w 0 .done .done, ?_, ?_, ?_⟩
  · rw [run_append, h1]
    simp [World.run, World.step, h2]
  · simp only [closeConn, clientCloseEv]
    simp [World.set, upd]
  · intro n hn hm
    have := h3 n hn
    simp [closeConn, clientCloseEv, h2, World.set, World.closePfd, World.closeFd, World.useCtx, World.freeCtx, upd]
    grind

end Gmid.Props
