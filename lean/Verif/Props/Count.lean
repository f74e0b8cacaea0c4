import Verif.Model.Count
import Verif.Spec.Count
import Verif.Props.Close
import Verif.Props.Log

/-!
# C140: how many clients are connected
-/

set_option autoImplicit false

namespace Gmid.Props

open Spec

/-- how the connections change in a step -/
inductive LifeStep (w w' : World) : RelEv → Prop
  | accepted (i fd k : Nat) : (w.conns i).life = .idle → (w'.conns i).life = .live → (∀ j, j ≠ i → (w'.conns j).life = (w.conns j).life) →
      (∀ j, w'.evs.count (.closeEv j) = w.evs.count (.closeEv j)) → LifeStep w w' (.accept i fd (some k))
  | closed (i : Nat) (pr r : TlsClose) : (w.conns i).life = .live → (w'.conns i).life = (if r = .done then .freed else .closing) →
      (∀ j, j ≠ i → (w'.conns j).life = (w.conns j).life) →
      (∀ j, w'.evs.count (.closeEv j) = w.evs.count (.closeEv j) + (if j = i ∧ r = .again then 1 else 0)) → LifeStep w w' (.close i pr r)
  | again (i : Nat) (r : TlsClose) : 0 < w.evs.count (.closeEv i) → (w'.conns i).life = (if r = .done then .freed else .closing) →
      (∀ j, j ≠ i → (w'.conns j).life = (w.conns j).life) →
      (∀ j, w'.evs.count (.closeEv j) = w.evs.count (.closeEv j) - (if j = i ∧ r = .done then 1 else 0)) → LifeStep w w' (.fire (.closeEv i) r)
  | other (e : RelEv) : (∀ n, countStep n e = n) → (∀ i fd k, e ≠ .accept i fd (some k)) → (∀ j, (w'.conns j).life = (w.conns j).life) →
      (∀ j, w'.evs.count (.closeEv j) = w.evs.count (.closeEv j)) → LifeStep w w' e

theorem closeFd_conns (w : World) (i n : Nat) : (w.closeFd i n).conns = w.conns ∧ (w.closeFd i n).evs = w.evs := ⟨rfl, rfl⟩

theorem closePfd_conns (w : World) (i : Nat) (p : Option Nat) : (w.closePfd i p).conns = w.conns ∧ (w.closePfd i p).evs = w.evs := by
  cases p <;> exact ⟨rfl, rfl⟩

theorem freePctx_conns (w : World) (i : Nat) (p : Option Nat) : (w.freePctx i p).conns = w.conns ∧ (w.freePctx i p).evs = w.evs := by
  cases p <;> exact ⟨rfl, rfl⟩

theorem life_set (w : World) (i : Nat) (c : RConn) (j : Nat) : ((w.set i c).conns j).life = if j = i then c.life else (w.conns j).life := by
  unfold World.set upd
  by_cases h : j = i
  · simp [h]
  · simp [h]

theorem life_same (w : World) (i : Nat) (c : RConn) (h : c.life = (w.conns i).life) (j : Nat) : ((w.set i c).conns j).life = (w.conns j).life := by
  rw [life_set]
  by_cases hj : j = i
  · rw [if_pos hj, hj, h]
  · rw [if_neg hj]

theorem clientCloseEv_life (w : World) (i : Nat) (r : TlsClose) :
    ((clientCloseEv w i r).conns i).life = (if r = .done then .freed else .closing) ∧
    (∀ j, j ≠ i → ((clientCloseEv w i r).conns j).life = (w.conns j).life) ∧
    ∀ j, (clientCloseEv w i r).evs.count (.closeEv j) = w.evs.count (.closeEv j) + (if j = i ∧ r = .again then 1 else 0) := by
  cases r with
  | again =>
    refine ⟨by simp [clientCloseEv, World.set, upd], fun j hj => by simp [clientCloseEv, World.set, upd, hj, World.useCtx], fun j => ?_⟩
    by_cases hj : j = i
    · subst hj
      simp [clientCloseEv, World.set, World.useCtx]
    · have : ¬ Once.closeEv i = Once.closeEv j := by simp; omega
      simp [clientCloseEv, World.set, World.useCtx, hj, List.count_cons, this]
  | done =>
    have e : ∀ w : World, ∀ c, ((w.set i c).evs) = w.evs := fun _ _ => rfl
    refine ⟨by simp [clientCloseEv, World.set, upd], fun j hj => ?_, fun j => ?_⟩
    · simp [clientCloseEv, World.set, upd, hj, World.useCtx, (closeFd_conns _ _ _).1, (closePfd_conns _ _ _).1, World.freeCtx]
    · simp [clientCloseEv, e, (closeFd_conns _ _ _).2, (closePfd_conns _ _ _).2, World.freeCtx, World.useCtx]

theorem clientProxyClose_life (w : World) (i fd ctx : Nat) (r : TlsClose) :
    (clientProxyClose w i fd ctx r).conns = w.conns ∧ ∀ j, (clientProxyClose w i fd ctx r).evs.count (.closeEv j) = w.evs.count (.closeEv j) := by
  cases r with
  | done => exact ⟨rfl, fun _ => rfl⟩
  | again =>
    refine ⟨rfl, fun j => ?_⟩
    simp [clientProxyClose, World.freeCtx, World.closeFd, World.useCtx, List.count_cons]

theorem openDirFds_life (w w' : World) (i n p : Nat) (r : DirRes) (h : openDirFds w i n r = some (w', p)) : w'.conns = w.conns ∧ w'.evs = w.evs := by
  have dl : ∀ (w : World) (l : ListRes), (dirListingFds w i n l).conns = w.conns ∧ (dirListingFds w i n l).evs = w.evs := by
    intro w l
    cases l <;> exact ⟨rfl, rfl⟩
  cases r with
  | redirect => simp only [openDirFds, Option.some.injEq, Prod.mk.injEq] at h; rw [← h.1]; exact ⟨rfl, rfl⟩
  | index m =>
    simp only [openDirFds] at h
    by_cases hm : w.fds m = none
    · rw [if_pos hm] at h
      simp only [Option.some.injEq, Prod.mk.injEq] at h; rw [← h.1]; exact ⟨rfl, rfl⟩
    · rw [if_neg hm] at h
      cases h
  | indexStat m =>
    simp only [openDirFds] at h
    by_cases hm : w.fds m = none
    · rw [if_pos hm] at h
      simp only [Option.some.injEq, Prod.mk.injEq] at h; rw [← h.1]; exact ⟨rfl, rfl⟩
    · rw [if_neg hm] at h
      cases h
  | list m l =>
    cases m with
    | none => simp only [openDirFds, Option.some.injEq, Prod.mk.injEq] at h; rw [← h.1]; exact dl w l
    | some m =>
      simp only [openDirFds] at h
      by_cases hm : w.fds m = none
      · rw [if_pos hm] at h
        simp only [Option.some.injEq, Prod.mk.injEq] at h; rw [← h.1]
        exact dl ((w.openFd i m).closeFd i m) l
      · rw [if_neg hm] at h
        cases h

theorem step_life (w w' : World) (e : RelEv) (h : w.step e = some w') : LifeStep w w' e := by
  cases e with
  | accept i fd k =>
    unfold World.step at h
    dsimp only at h
    by_cases hc : (w.conns i).life = .idle ∧ w.fds fd = none
    · rw [if_pos hc] at h
      cases k with
      | none =>
        simp only [Option.some.injEq] at h
        subst h
        exact .other _ (fun _ => rfl) (by simp) (fun _ => rfl) fun _ => rfl
      | some k =>
        dsimp only at h
        split at h
        · simp only [Option.some.injEq] at h
          subst h
          refine .accepted i fd k hc.1 (by rw [life_set, if_pos rfl]) (fun j hj => by rw [life_set, if_neg hj]; rfl) fun _ => rfl
        · cases h
    · rw [if_neg hc] at h
      cases h
  | handshake i =>
    simp only [World.step] at h
    split at h
    · simp only [Option.some.injEq] at h
      subst h
      exact .other _ (fun _ => rfl) (by simp) (fun j => life_same _ _ _ (by rfl) j) fun _ => rfl
    · cases h
  | decide i =>
    simp only [World.step] at h
    split at h
    · simp only [Option.some.injEq] at h
      subst h
      exact .other _ (fun _ => rfl) (by simp) (fun j => life_same _ _ _ (by rfl) j) fun _ => rfl
    · cases h
  | file i n =>
    simp only [World.step] at h
    split at h
    · simp only [Option.some.injEq] at h
      subst h
      exact .other _ (fun _ => rfl) (by simp) (fun j => life_same _ _ _ (by rfl) j) fun _ => rfl
    · cases h
  | dir i n r =>
    simp only [World.step] at h
    split at h
    · cases ho : openDirFds (w.openFd i n) i n r with
      | none => rw [ho] at h; cases h
      | some q =>
        obtain ⟨w2, p⟩ := q
        rw [ho] at h
        simp only [Option.map_some, Option.some.injEq] at h
        obtain ⟨e1, e2⟩ := openDirFds_life _ _ _ _ _ _ ho
        subst h
        refine .other _ (fun _ => rfl) (by simp) (fun j => ?_) fun j => ?_
        · rw [life_same _ _ _ (by rw [e1]; rfl), e1]
          rfl
        · show w2.evs.count _ = _
          rw [e2]
          rfl
    · cases h
  | fastcgi i n b =>
    simp only [World.step] at h
    split at h
    · simp only [Option.some.injEq] at h
      subst h
      exact .other _ (fun _ => rfl) (by simp) (fun j => life_same _ _ _ (by rfl) j) fun _ => rfl
    · cases h
  | fcgiError i =>
    simp only [World.step] at h
    split at h
    · simp only [Option.some.injEq] at h
      subst h
      refine .other _ (fun _ => rfl) (by simp) (fun j => ?_) fun j => ?_
      · rw [life_same _ _ _ (by rw [(closePfd_conns _ _ _).1]), (closePfd_conns _ _ _).1]
      · show ((w.closePfd i _).evs).count _ = _
        rw [(closePfd_conns _ _ _).2]
    · cases h
  | proxy i n p =>
    simp only [World.step] at h
    split at h
    · cases p with
      | notls =>
        simp only [Option.some.injEq] at h
        subst h
        exact .other _ (fun _ => rfl) (by simp) (fun j => life_same _ _ _ (by rfl) j) fun _ => rfl
      | failEarly =>
        simp only [Option.some.injEq] at h
        subst h
        exact .other _ (fun _ => rfl) (by simp) (fun j => life_same _ _ _ (by rfl) j) fun _ => rfl
      | failLate k =>
        dsimp only at h
        split at h
        · simp only [Option.some.injEq] at h
          subst h
          exact .other _ (fun _ => rfl) (by simp) (fun j => life_same _ _ _ (by rfl) j) fun _ => rfl
        · cases h
      | tls k =>
        dsimp only at h
        split at h
        · simp only [Option.some.injEq] at h
          subst h
          exact .other _ (fun _ => rfl) (by simp) (fun j => life_same _ _ _ (by rfl) j) fun _ => rfl
        · cases h
    · cases h
  | proxyReady i =>
    simp only [World.step] at h
    split at h
    · simp only [Option.some.injEq] at h
      subst h
      cases hc : (w.conns i).pctx with
      | none => exact .other _ (fun _ => rfl) (by simp) (fun j => life_same _ _ _ (by rfl) j) fun _ => rfl
      | some k => exact .other _ (fun _ => rfl) (by simp) (fun j => life_same _ _ _ (by rfl) j) fun _ => rfl
    · cases h
  | proxyError i =>
    simp only [World.step] at h
    split at h
    · simp only [Option.some.injEq] at h
      subst h
      refine .other _ (fun _ => rfl) (by simp) (fun j => ?_) fun j => ?_
      · rw [life_same _ _ _ (by rw [(closePfd_conns _ _ _).1, (freePctx_conns _ _ _).1]), (closePfd_conns _ _ _).1, (freePctx_conns _ _ _).1]
      · show (((w.freePctx i _).closePfd i _).evs).count _ = _
        rw [(closePfd_conns _ _ _).2, (freePctx_conns _ _ _).2]
    · cases h
  | close i pr r =>
    simp only [World.step] at h
    by_cases hl : (w.conns i).life = .live
    · rw [if_pos hl] at h
      simp only [Option.some.injEq] at h
      subst h
      have : ∃ w1 : World, closeConn w i pr r = clientCloseEv w1 i r ∧ (∀ j, (w1.conns j).life = (w.conns j).life) ∧ ∀ j, w1.evs.count (.closeEv j) = w.evs.count (.closeEv j) := by
        cases hcg : (w.conns i).cgibev with
        | true =>
          refine ⟨(w.closePfd i (w.conns i).pfd).set i { w.conns i with cgibev := false, pfd := none }, by simp [closeConn, hcg], fun j => ?_, fun j => ?_⟩
          · have e := (closePfd_conns w i (w.conns i).pfd).1
            exact (life_same _ i _ (by rw [e]) j).trans (by rw [e])
          · show ((w.closePfd i _).evs).count _ = _
            rw [(closePfd_conns _ _ _).2]
        | false =>
          cases hp : (w.conns i).pfd with
          | none => exact ⟨w.set i (w.conns i), by simp [closeConn, hcg, hp], fun j => life_same _ _ _ (by rfl) j, fun _ => rfl⟩
          | some n =>
            cases hx : (w.conns i).pctx with
            | none => exact ⟨w.set i (w.conns i), by simp [closeConn, hcg, hp, hx], fun j => life_same _ _ _ (by rfl) j, fun _ => rfl⟩
            | some k =>
              obtain ⟨q1, q2⟩ := clientProxyClose_life w i n k pr
              refine ⟨(clientProxyClose w i n k pr).set i { w.conns i with pfd := none }, by simp [closeConn, hcg, hp, hx], fun j => ?_, fun j => ?_⟩
              · exact (life_same _ i _ (by rw [q1]) j).trans (by rw [q1])
              · exact q2 j
      obtain ⟨w1, e, a, b⟩ := this
      obtain ⟨c1, c2, c3⟩ := clientCloseEv_life w1 i r
      rw [e]
      exact .closed i pr r hl c1 (fun j hj => by rw [c2 j hj, a]) fun j => by rw [c3, b]
    · rw [if_neg hl] at h
      cases h
  | fire o r =>
    cases o with
    | closeEv i =>
      simp only [World.step] at h
      by_cases hm : Once.closeEv i ∈ w.evs
      · rw [if_pos hm] at h
        simp only [Option.some.injEq] at h
        subst h
        have hpos : 0 < w.evs.count (.closeEv i) := List.count_pos_iff.2 hm
        obtain ⟨c1, c2, c3⟩ := clientCloseEv_life { w with evs := w.evs.erase (.closeEv i) } i r
        refine .again i r hpos c1 (fun j hj => c2 j hj) fun j => ?_
        rw [c3, List.count_erase]
        by_cases hj : j = i
        · subst hj
          cases r <;> simp
          omega
        · have : ¬ Once.closeEv j = Once.closeEv i := by simpa using hj
          have : ¬ Once.closeEv i = Once.closeEv j := fun e => this e.symm
          simp [hj, this]
      · rw [if_neg hm] at h
        cases h
    | proxyEv i fd ctx =>
      simp only [World.step] at h
      by_cases hm : Once.proxyEv i fd ctx ∈ w.evs
      · rw [if_pos hm] at h
        simp only [Option.some.injEq] at h
        subst h
        obtain ⟨q1, q2⟩ := clientProxyClose_life { w with evs := w.evs.erase (.proxyEv i fd ctx) } i fd ctx r
        refine .other _ (fun n => by cases r <;> rfl) (by simp) (fun j => by rw [q1]) fun j => ?_
        rw [q2, List.count_erase]
        simp
      · rw [if_neg hm] at h
        cases h

/-- the number, against the connections -/
structure ClientsCounted (es : List RelEv) (w : World) (n : Int) : Prop where
  num : ∃ l : List Nat, l.Nodup ∧ (∀ i, i ∈ l ↔ Connected es i) ∧ n = l.length
  idle : ∀ i, (w.conns i).life ≠ .idle ↔ Accepted es i
  freed : ∀ i, (w.conns i).life = .freed ↔ Finished es i
  evs : ∀ i, w.evs.count (.closeEv i) = if (w.conns i).life = .closing then 1 else 0

theorem accepted_snoc (es : List RelEv) (e : RelEv) (i : Nat) : Accepted (es ++ [e]) i ↔ Accepted es i ∨ ∃ fd k, e = .accept i fd (some k) := by
  unfold Accepted
  constructor
  · rintro ⟨fd, k, h⟩
    rcases List.mem_append.1 h with h | h
    · exact .inl ⟨fd, k, h⟩
    · exact .inr ⟨fd, k, (List.mem_singleton.1 h).symm⟩
  · rintro (⟨fd, k, h⟩ | ⟨fd, k, h⟩)
    · exact ⟨fd, k, List.mem_append_left _ h⟩
    · exact ⟨fd, k, List.mem_append_right _ (List.mem_singleton.2 h.symm)⟩

theorem finished_snoc (es : List RelEv) (e : RelEv) (i : Nat) :
    Finished (es ++ [e]) i ↔ Finished es i ∨ (∃ pr, e = .close i pr .done) ∨ e = .fire (.closeEv i) .done := by
  unfold Finished
  constructor
  · rintro (⟨pr, h⟩ | h)
    · rcases List.mem_append.1 h with h | h
      · exact .inl (.inl ⟨pr, h⟩)
      · exact .inr (.inl ⟨pr, (List.mem_singleton.1 h).symm⟩)
    · rcases List.mem_append.1 h with h | h
      · exact .inl (.inr h)
      · exact .inr (.inr (List.mem_singleton.1 h).symm)
  · rintro ((⟨pr, h⟩ | h) | ⟨pr, h⟩ | h)
    · exact .inl ⟨pr, List.mem_append_left _ h⟩
    · exact .inr (List.mem_append_left _ h)
    · exact .inl ⟨pr, List.mem_append_right _ (List.mem_singleton.2 h.symm)⟩
    · exact .inr (List.mem_append_right _ (List.mem_singleton.2 h.symm))

/-- a connection that there is: closing it asks to be called again, or finishes -/
theorem counted_close (es : List RelEv) (w w' : World) (n : Int) (e : RelEv) (i : Nat) (r : TlsClose) (h : ClientsCounted es w n)
    (hl : (w.conns i).life = .live ∨ (w.conns i).life = .closing)
    (hi : (w'.conns i).life = if r = .done then .freed else .closing) (ho : ∀ j, j ≠ i → (w'.conns j).life = (w.conns j).life)
    (hev : ∀ j, w'.evs.count (.closeEv j) = if (w'.conns j).life = .closing then 1 else 0)
    (ha : ∀ j fd k, e ≠ .accept j fd (some k))
    (hf : ∀ j, ((∃ pr, e = .close j pr .done) ∨ e = .fire (.closeEv j) .done) ↔ j = i ∧ r = .done) :
    ClientsCounted (es ++ [e]) w' (if r = .done then n - 1 else n) := by
  have hacc : ∀ j, Accepted (es ++ [e]) j ↔ Accepted es j := fun j => (accepted_snoc es e j).trans ⟨fun q => q.elim id fun ⟨fd, k, q⟩ => absurd q (ha j fd k), .inl⟩
  have hfin : ∀ j, Finished (es ++ [e]) j ↔ Finished es j ∨ (j = i ∧ r = .done) := fun j => (finished_snoc es e j).trans (by rw [hf])
  have hai : Accepted es i := (h.idle i).1 (by rcases hl with q | q <;> rw [q] <;> simp)
  have hni : ¬ Finished es i := fun q => by
    have := (h.freed i).2 q
    rcases hl with p | p <;> rw [p] at this <;> cases this
  refine ⟨?_, fun j => ?_, fun j => ?_, hev⟩
  · obtain ⟨l, nd, hm, hn⟩ := h.num
    cases r with
    | again => exact ⟨l, nd, fun j => (hm j).trans (by unfold Connected; rw [hacc, hfin]; simp), by simpa using hn⟩
    | done =>
      have il : i ∈ l := (hm i).2 ⟨hai, hni⟩
      refine ⟨l.erase i, nd.erase i, fun j => ?_, ?_⟩
      · rw [nd.mem_erase_iff, hm j]
        unfold Connected
        rw [hacc, hfin]
        constructor
        · rintro ⟨a, b, c⟩
          exact ⟨b, fun q => q.elim c fun q => a q.1⟩
        · rintro ⟨b, c⟩
          exact ⟨fun q => c (.inr ⟨q, rfl⟩), b, fun q => c (.inl q)⟩
      · rw [List.length_erase_of_mem il]
        have : 0 < l.length := List.length_pos_of_mem il
        simp only [if_true]
        omega
  · rw [hacc, ← h.idle j]
    by_cases hj : j = i
    · subst hj
      rw [hi]
      refine ⟨fun _ => by rcases hl with q | q <;> rw [q] <;> simp, fun _ => by cases r <;> simp⟩
    · rw [ho j hj]
  · rw [hfin, ← h.freed j]
    by_cases hj : j = i
    · subst hj
      rw [hi]
      have : (w.conns j).life ≠ .freed := by rcases hl with q | q <;> rw [q] <;> simp
      cases r <;> simp [this]
    · rw [ho j hj]
      simp [hj]

theorem counted_step (es : List RelEv) (w w' : World) (n : Int) (e : RelEv) (h : ClientsCounted es w n) (hs : LifeStep w w' e) : ClientsCounted (es ++ [e]) w' (countStep n e) := by
  cases hs with
  | accepted i fd k hi hl ho hev =>
    have hna : ¬ Accepted es i := fun q => (h.idle i).2 q hi
    have hnf : ¬ Finished es i := fun q => by have := (h.freed i).2 q; rw [hi] at this; cases this
    have hacc : ∀ j, Accepted (es ++ [.accept i fd (some k)]) j ↔ Accepted es j ∨ j = i := fun j => (accepted_snoc es _ j).trans (by
      constructor
      · rintro (q | ⟨fd', k', q⟩)
        · exact .inl q
        · cases q; exact .inr rfl
      · rintro (q | q)
        · exact .inl q
        · subst q; exact .inr ⟨fd, k, rfl⟩)
    have hfin : ∀ j, Finished (es ++ [.accept i fd (some k)]) j ↔ Finished es j := fun j => (finished_snoc es _ j).trans (by simp)
    refine ⟨?_, fun j => ?_, fun j => ?_, fun j => ?_⟩
    · obtain ⟨l, nd, hm, hn⟩ := h.num
      refine ⟨i :: l, List.nodup_cons.2 ⟨fun q => hna ((hm i).1 q).1, nd⟩, fun j => ?_, ?_⟩
      · unfold Connected
        rw [List.mem_cons, hm j, hacc, hfin]
        unfold Connected
        constructor
        · rintro (q | ⟨a, b⟩)
          · subst q; exact ⟨.inr rfl, hnf⟩
          · exact ⟨.inl a, b⟩
        · rintro ⟨a | a, b⟩
          · exact .inr ⟨a, b⟩
          · exact .inl a
      · show n + 1 = _
        rw [List.length_cons]
        omega
    · rw [hacc, ← h.idle j]
      by_cases hj : j = i
      · subst hj
        rw [hl]
        simp
      · rw [ho j hj]
        simp [hj]
    · rw [hfin, ← h.freed j]
      by_cases hj : j = i
      · subst hj
        rw [hl, hi]
        simp
      · rw [ho j hj]
    · rw [hev, h.evs]
      by_cases hj : j = i
      · subst hj
        rw [hl, hi]
        simp
      · rw [ho j hj]
  | closed i pr r hl hi ho hev =>
    have e : countStep n (.close i pr r) = if r = .done then n - 1 else n := by cases r <;> rfl
    rw [e]
    refine counted_close es w w' n _ i r h (.inl hl) hi ho (fun j => ?_) (by simp) fun j => ?_
    · rw [hev, h.evs]
      by_cases hj : j = i
      · subst hj
        rw [hl, hi]
        cases r <;> simp
      · rw [ho j hj]
        simp [hj]
    · constructor
      · rintro (⟨pr', q⟩ | q)
        · cases q; exact ⟨rfl, rfl⟩
        · cases q
      · rintro ⟨rfl, rfl⟩
        exact .inl ⟨pr, rfl⟩
  | again i r hp hi ho hev =>
    have hl : (w.conns i).life = .closing := by
      rw [h.evs] at hp
      by_cases q : (w.conns i).life = .closing
      · exact q
      · rw [if_neg q] at hp
        omega
    have e : countStep n (.fire (.closeEv i) r) = if r = .done then n - 1 else n := by cases r <;> rfl
    rw [e]
    refine counted_close es w w' n _ i r h (.inr hl) hi ho (fun j => ?_) (by simp) fun j => ?_
    · rw [hev, h.evs]
      by_cases hj : j = i
      · subst hj
        rw [hl, hi]
        cases r <;> simp
      · rw [ho j hj]
        simp [hj]
    · constructor
      · rintro (⟨pr', q⟩ | q)
        · cases q
        · cases q; exact ⟨rfl, rfl⟩
      · rintro ⟨rfl, rfl⟩
        exact .inr rfl
  | other e hc ha ho hev =>
    have hacc : ∀ j, Accepted (es ++ [e]) j ↔ Accepted es j := fun j => (accepted_snoc es e j).trans ⟨fun q => q.elim id fun ⟨fd, k, q⟩ => absurd q (ha j fd k), .inl⟩
    have hfin : ∀ j, Finished (es ++ [e]) j ↔ Finished es j := fun j => (finished_snoc es e j).trans ⟨fun q => q.elim id fun q => by
      rcases q with ⟨pr, q⟩ | q
      · subst q
        have := hc 0
        simp [countStep] at this
      · subst q
        have := hc 0
        simp [countStep] at this, .inl⟩
    rw [hc]
    obtain ⟨l, nd, hm, hn⟩ := h.num
    exact ⟨⟨l, nd, fun j => (hm j).trans (by unfold Connected; rw [hacc, hfin]), hn⟩, fun j => by rw [ho, hacc, h.idle], fun j => by rw [ho, hfin, h.freed],
      fun j => by rw [hev, ho, h.evs]⟩

theorem counted_run : ∀ (es pre : List RelEv) (w w' : World) (n n' : Int), ClientsCounted pre w n → runCount w n es = some (w', n') → ClientsCounted (pre ++ es) w' n'
  | [], pre, w, w', n, n', h, hr => by
    simp only [runCount, Option.some.injEq, Prod.mk.injEq] at hr
    rw [← hr.1, ← hr.2, List.append_nil]
    exact h
  | e :: es, pre, w, w', n, n', h, hr => by
    simp only [runCount] at hr
    cases hs : w.step e with
    | none => rw [hs] at hr; cases hr
    | some w1 =>
      rw [hs] at hr
      have := counted_run es (pre ++ [e]) w1 w' _ n' (counted_step pre w w1 n e h (step_life w w1 e hs)) hr
      simpa using this

theorem counted_start : ClientsCounted [] {} 0 :=
  ⟨⟨[], List.nodup_nil, fun i => by simp [Connected, Accepted], rfl⟩, fun i => by simp [Accepted], fun i => by simp [Finished], fun i => by simp⟩

theorem runCount_run : ∀ (es : List RelEv) (w : World) (n : Int), (runCount w n es).map (·.1) = w.run es
  | [], _, _ => rfl
  | e :: es, w, n => by
    simp only [runCount, World.run]
    cases w.step e with
    | none => rfl
    | some w1 => exact runCount_run es w1 _

/-- C140: after every history of the process, the number gmid keeps is the number of the connections
that were accepted and whose closing has not finished; it is never negative, and goes back to 0 -/
theorem C140_connected (es : List RelEv) (w : World) (n : Int) (h : runCount {} 0 es = some (w, n)) :
    (∃ l : List Nat, l.Nodup ∧ (∀ i, i ∈ l ↔ Connected es i) ∧ n = l.length) ∧ 0 ≤ n ∧ (n = 0 ↔ ∀ i, ¬ Connected es i) := by
  have hc := counted_run es [] {} w 0 n counted_start h
  rw [List.nil_append] at hc
  obtain ⟨l, nd, hm, hn⟩ := hc.num
  refine ⟨⟨l, nd, hm, hn⟩, by omega, ?_⟩
  constructor
  · intro hz i hi
    have : l = [] := List.eq_nil_of_length_eq_zero (by omega)
    rw [this] at hm
    exact absurd ((hm i).2 hi) (by simp)
  · intro hz
    have : l = [] := List.eq_nil_iff_forall_not_mem.2 fun i q => hz i ((hm i).1 q)
    rw [hn, this]
    rfl

/-- C140: at SIGUSR2, one line with that number in decimal, at the level of information -/
theorem C140_logged (lib : LogLib) (es : List RelEv) (w : World) (n : Int) (h : runCount {} 0 es = some (w, n)) (st : LogSt) :
    ∃ l : List Nat, l.Nodup ∧ (∀ i, i ∈ l ↔ Connected es i) ∧
      ∃ st', handleSiginfo lib n st = some st' ∧ Logs 6 [intDec l.length ++ b%" connected clients"] st st' := by
  obtain ⟨l, nd, hm, hn⟩ := (C140_connected es w n h).1
  refine ⟨l, nd, hm, ?_⟩
  rw [← hn]
  have hf : Formats b%"%d connected clients" [.int n] (intDec n ++ b%" connected clients") := by
    have := formats_append (Formats.int n [] [] [] (.done [])) b%" connected clients" (by decide)
    rw [List.append_nil (intDec n)] at this
    exact this
  exact (C130_message lib _ _ _ hf st).2.1

/-- C140: the connections the number counts are, in an ordinary history (C55), those with their
socket and their TLS context -/
theorem C140_open (es : List RelEv) (w : World) (n : Int) (h : runCount {} 0 es = some (w, n)) (ho : OrdinaryRun w) (i : Nat) :
    (Connected es i → Live w i) ∧ (Finished es i → Released w i) := by
  have hc := counted_run es [] {} w 0 n counted_start h
  rw [List.nil_append] at hc
  obtain ⟨_, a, b⟩ := C55_released_once_partial w ho
  refine ⟨fun ⟨q1, q2⟩ => b i ?_, fun q => a i ((hc.freed i).2 q)⟩
  have h1 := (hc.idle i).2 q1
  have h2 : (w.conns i).life ≠ .freed := fun q => q2 ((hc.freed i).1 q)
  cases hl : (w.conns i).life <;> simp_all

/-- three clients: one refused, one gone, one whose closing was asked to be called again -/
example : ∃ w, runCount {} 0 [.accept 0 5 none, .accept 0 5 (some 100), .accept 1 6 (some 101), .handshake 0, .close 0 .done .again, .close 1 .done .done] = some (w, 1) := ⟨_, rfl⟩

example : ∃ w, runCount {} 0 [.accept 0 5 (some 100), .handshake 0, .close 0 .done .again, .fire (.closeEv 0) .again, .fire (.closeEv 0) .done] = some (w, 0) := ⟨_, rfl⟩

end Gmid.Props
