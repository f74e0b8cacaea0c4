import Verif.Spec.TlsLib
import Verif.Props.Clients
import Verif.Props.Proxy
import Verif.Model.Upstream

/-!
# C141: the end of a reply and the end of the connection
-/

set_option autoImplicit false

namespace Gmid.Props

open Spec

/-- tls_ssl_error, case by case -/
theorem sslError_cases (c : LibConn) (f : SslFail) (pre : Bytes) (hm : c.msg = none) :
    (Wanted f → tlsSslError c f pre = (c, .pollIn) ∨ tlsSslError c f pre = (c, .pollOut)) ∧
    (Notified f → tlsSslError c f pre = (c, .zero)) ∧
    (CutOff f → c.complete = true → tlsSslError c f pre = ({ c with eof := true }, .zero)) ∧
    (¬ Wanted f → ¬ Notified f → ¬ (CutOff f ∧ c.complete = true) → ∃ m, tlsSslError c f pre = ({ c with msg := some (pre ++ b%" failed" ++ m) }, .fail)) := by
  have hs : ∀ x, c.sslMsg x = { c with msg := some x } := fun x => by
    unfold LibConn.sslMsg
    rw [hm]
    rfl
  obtain ⟨ret, err, queue, errno⟩ := f
  cases err with
  | none => exact ⟨by simp [Wanted], fun _ => rfl, by simp [CutOff], by simp [Notified]⟩
  | zeroReturn => exact ⟨by simp [Wanted], fun _ => rfl, by simp [CutOff], by simp [Notified]⟩
  | wantRead => exact ⟨fun _ => .inl rfl, by simp [Notified], by simp [CutOff], by simp [Wanted]⟩
  | wantWrite => exact ⟨fun _ => .inr rfl, by simp [Notified], by simp [CutOff], by simp [Wanted]⟩
  | syscall =>
    refine ⟨by simp [Wanted], by simp [Notified], ?_, ?_⟩
    · rintro ⟨-, h2, h3⟩ hc
      simp only at h2 h3
      subst h2
      subst h3
      simp [tlsSslError, hc]
    · intro _ _ h
      cases queue with
      | some q => exact ⟨b%": " ++ q, by simp [tlsSslError, hs]⟩
      | none =>
        simp only [tlsSslError, hs]
        by_cases h0 : ret = 0
        · rw [if_pos h0, if_neg (fun hc => h ⟨⟨rfl, rfl, h0⟩, hc⟩)]
          exact ⟨b%": unexpected EOF", by simp⟩
        · rw [if_neg h0]
          by_cases h1 : ret = -1
          · rw [if_pos h1]
            exact ⟨b%": " ++ errno, by simp⟩
          · rw [if_neg h1]
            exact ⟨b%": unknown error", by simp⟩
  | ssl =>
    refine ⟨by simp [Wanted], by simp [Notified], by simp [CutOff], fun _ _ _ => ?_⟩
    cases queue with
    | some q => exact ⟨b%": " ++ q, by simp [tlsSslError, hs]⟩
    | none => exact ⟨b%": unknown error", by simp [tlsSslError, hs]⟩
  | other n => exact ⟨by simp [Wanted], by simp [Notified], by simp [CutOff], fun _ _ _ => ⟨b%" (" ++ intDec n ++ b%")", by simp [tlsSslError, hs]⟩⟩

/-- C141: what tls_read says: the bytes SSL_read has found; "try again"; 0 when the peer has ended the connection, but also when the
connection was cut off, which only the context remembers; otherwise -1, with a message -/
theorem C141_read (c : LibConn) (hc : c.complete = true) :
    (∀ b t, tlsRead c (.data b t) = ({ c with msg := none }, .got (b :: t))) ∧
    ∀ f, (Wanted f → tlsRead c (.no f) = ({ c with msg := none }, .want)) ∧
      (Notified f → tlsRead c (.no f) = ({ c with msg := none }, .got [])) ∧
      (CutOff f → tlsRead c (.no f) = ({ c with msg := none, eof := true }, .got [])) ∧
      (¬ Wanted f → ¬ Notified f → ¬ CutOff f → ∃ m, tlsRead c (.no f) = ({ c with msg := some (b%"read failed" ++ m) }, .failed)) := by
  refine ⟨fun _ _ => rfl, fun f => ?_⟩
  obtain ⟨h1, h2, h3, h4⟩ := sslError_cases { c with msg := none } f b%"read" rfl
  refine ⟨fun h => ?_, fun h => ?_, fun h => ?_, fun a b d => ?_⟩
  · rcases h1 h with e | e <;> simp only [tlsRead, e] <;> rfl
  · simp only [tlsRead, h2 h]; rfl
  · simp only [tlsRead, h3 h hc]; rfl
  · obtain ⟨m, e⟩ := h4 a b (fun q => d q.1)
    exact ⟨m, by simp only [tlsRead, e]; rfl⟩

/-- tls_close, case by case -/
theorem close_cases (c : LibConn) (r : SslFail) :
    (c.needsShut = true → r.ret < 0 → Wanted r → (tlsClose c r = ({ c with msg := none }, .pollIn) ∨ tlsClose c r = ({ c with msg := none }, .pollOut))) ∧
    (¬ (c.needsShut = true ∧ r.ret < 0 ∧ Wanted r) →
      (c.eof = true → tlsClose c r = ({ c with needsShut := false, msg := some b%"EOF without close notify" }, .fail)) ∧
      (c.eof = false → (c.needsShut = true → r.ret < 0 → Notified r) → tlsClose c r = ({ c with needsShut := false, msg := none }, .zero)) ∧
      (c.eof = false → ¬ (c.needsShut = true → r.ret < 0 → Notified r) → ∃ m, tlsClose c r = ({ c with needsShut := false, msg := some (b%"shutdown failed" ++ m) }, .fail))) := by
  have hcut : r.ret < 0 → ¬ CutOff r := fun h q => by have := q.2.2; omega
  obtain ⟨complete, eof, shut, msg⟩ := c
  obtain ⟨h1, h2, -, h4⟩ := sslError_cases { complete := complete, eof := eof, needsShut := shut, msg := none } r b%"shutdown" rfl
  cases shut with
  | false =>
    refine ⟨by simp, fun _ => ⟨fun he => ?_, fun he _ => ?_, fun he hN => absurd (fun q => by cases q) hN⟩⟩
    · simp only at he
      subst he
      rfl
    · simp only at he
      subst he
      rfl
  | true =>
    by_cases hr : r.ret < 0
    · have e0 : ∀ msg, tlsClose { complete := complete, eof := eof, needsShut := true, msg := msg } r =
          match tlsSslError { complete := complete, eof := eof, needsShut := true, msg := none } r b%"shutdown" with
          | (c, .pollIn) => (c, .pollIn)
          | (c, .pollOut) => (c, .pollOut)
          | (c, rv) => tlsCloseEnd { c with needsShut := false } rv := fun msg => by
        unfold tlsClose
        simp only [if_true]
        rw [if_pos hr]
        rfl
      refine ⟨fun _ _ hw => ?_, fun hw => ?_⟩
      · rcases h1 hw with e | e
        · exact .inl (by rw [e0, e])
        · exact .inr (by rw [e0, e])
      · have hw' : ¬ Wanted r := fun q => hw ⟨rfl, hr, q⟩
        refine ⟨fun he => ?_, fun he hN => ?_, fun he hN => ?_⟩
        · simp only at he
          subst he
          by_cases hN : Notified r
          · rw [e0, h2 hN]
            rfl
          · obtain ⟨m, e⟩ := h4 hw' hN (fun q => hcut hr q.1)
            rw [e0, e]
            rfl
        · simp only at he
          subst he
          rw [e0, h2 (hN rfl hr)]
          rfl
        · simp only at he
          subst he
          obtain ⟨m, e⟩ := h4 hw' (fun q => hN fun _ _ => q) (fun q => hcut hr q.1)
          refine ⟨m, ?_⟩
          rw [e0, e]
          rfl
    · have e0 : ∀ msg, tlsClose { complete := complete, eof := eof, needsShut := true, msg := msg } r =
          tlsCloseEnd { complete := complete, eof := eof, needsShut := false, msg := none } .zero := fun msg => by
        unfold tlsClose
        simp only [if_true]
        rw [if_neg hr]
      refine ⟨fun _ h => absurd h hr, fun _ => ⟨fun he => ?_, fun he _ => ?_, fun he hN => absurd (fun _ h => absurd h hr) hN⟩⟩
      · simp only at he
        subst he
        rw [e0]
        rfl
      · simp only at he
        subst he
        rw [e0]
        rfl

theorem write_cases (c : LibConn) (hc : c.complete = true) (f : SslFail) :
    (Wanted f → tlsWrite c (.no f) = ({ c with msg := none }, .want)) ∧
      (Notified f → tlsWrite c (.no f) = ({ c with msg := none }, .got 0)) ∧
      (CutOff f → tlsWrite c (.no f) = ({ c with msg := none, eof := true }, .got 0)) ∧
      (¬ Wanted f → ¬ Notified f → ¬ CutOff f → ∃ m, tlsWrite c (.no f) = ({ c with msg := some (b%"write failed" ++ m) }, .failed)) := by
  obtain ⟨h1, h2, h3, h4⟩ := sslError_cases { c with msg := none } f b%"write" rfl
  refine ⟨fun h => ?_, fun h => ?_, fun h => ?_, fun a b d => ?_⟩
  · rcases h1 h with e | e <;> simp only [tlsWrite, e] <;> rfl
  · simp only [tlsWrite, h2 h]; rfl
  · simp only [tlsWrite, h3 h hc]; rfl
  · obtain ⟨m, e⟩ := h4 a b (fun q => d q.1)
    exact ⟨m, by simp only [tlsWrite, e]; rfl⟩

/-- what the context remembers -/
theorem op_eof (c : LibConn) (hc : c.complete = true) (o : LibOp) : (c.op o).complete = true ∧ ((c.op o).eof = true ↔ c.eof = true ∨ CutOp o) := by
  have cutW : ∀ f, CutOff f → ¬ Wanted f ∧ ¬ Notified f := fun f h => by simp [Wanted, Notified, h.1]
  cases o with
  | read r =>
    cases r with
    | data b t => exact ⟨hc, by simp [LibConn.op, tlsRead, CutOp]⟩
    | no f =>
      obtain ⟨h1, h2, h3, h4⟩ := (C141_read c hc).2 f
      simp only [LibConn.op, CutOp]
      by_cases q3 : CutOff f
      · rw [h3 q3]; simp [hc, q3]
      · by_cases q1 : Wanted f
        · rw [h1 q1]; simp [hc, q3]
        · by_cases q2 : Notified f
          · rw [h2 q2]; simp [hc, q3]
          · obtain ⟨m, e⟩ := h4 q1 q2 q3
            rw [e]; simp [hc, q3]
  | write r =>
    cases r with
    | took n => exact ⟨hc, by simp [LibConn.op, tlsWrite, CutOp]⟩
    | no f =>
      obtain ⟨h1, h2, h3, h4⟩ := write_cases c hc f
      simp only [LibConn.op, CutOp]
      by_cases q3 : CutOff f
      · rw [h3 q3]; simp [hc, q3]
      · by_cases q1 : Wanted f
        · rw [h1 q1]; simp [hc, q3]
        · by_cases q2 : Notified f
          · rw [h2 q2]; simp [hc, q3]
          · obtain ⟨m, e⟩ := h4 q1 q2 q3
            rw [e]; simp [hc, q3]
  | close r =>
    obtain ⟨h1, h2⟩ := close_cases c r
    simp only [LibConn.op, CutOp, or_false]
    by_cases hw : c.needsShut = true ∧ r.ret < 0 ∧ Wanted r
    · rcases h1 hw.1 hw.2.1 hw.2.2 with e | e <;> rw [e] <;> exact ⟨hc, Iff.rfl⟩
    · obtain ⟨a, b, d⟩ := h2 hw
      cases he : c.eof with
      | true => rw [a he]; exact ⟨hc, by simp [he]⟩
      | false =>
        by_cases hN : c.needsShut = true → r.ret < 0 → Notified r
        · rw [b he hN]; exact ⟨hc, by simp [he]⟩
        · obtain ⟨m, e⟩ := d he hN
          rw [e]; exact ⟨hc, by simp [he]⟩

theorem ops_eof : ∀ (ops : List LibOp) (c : LibConn), c.complete = true →
    (ops.foldl LibConn.op c).complete = true ∧ ((ops.foldl LibConn.op c).eof = true ↔ c.eof = true ∨ ∃ o ∈ ops, CutOp o)
  | [], c, hc => ⟨hc, by simp⟩
  | o :: ops, c, hc => by
    obtain ⟨a, b⟩ := op_eof c hc o
    obtain ⟨a', b'⟩ := ops_eof ops (c.op o) a
    refine ⟨a', b'.trans ?_⟩
    rw [b]
    simp [or_assoc]

/-- C141: whatever was done on a connection since the handshake, tls_close tells at the end whether it was cut off: if it was, it says -1 with that
message, and otherwise not; if it was not and SSL_shutdown does not fail it says 0 -/
theorem C141_close_tells (ops : List LibOp) (r : SslFail) (c' : LibConn) (v : LibRet)
    (h : tlsClose (ops.foldl LibConn.op { complete := true, needsShut := true }) r = (c', v)) (hv : v ≠ .pollIn ∧ v ≠ .pollOut) :
    ((∃ o ∈ ops, CutOp o) ↔ v = .fail ∧ c'.msg = some b%"EOF without close notify") ∧
    ((∀ o ∈ ops, ¬ CutOp o) → 0 ≤ r.ret → v = .zero) := by
  obtain ⟨hc, he⟩ := ops_eof ops { complete := true, needsShut := true } rfl
  generalize ops.foldl LibConn.op { complete := true, needsShut := true } = c at *
  obtain ⟨h1, h2⟩ := close_cases c r
  have hw : ¬ (c.needsShut = true ∧ r.ret < 0 ∧ Wanted r) := fun q => by
    rcases h1 q.1 q.2.1 q.2.2 with e | e <;> rw [e] at h <;> cases h
    · exact hv.1 rfl
    · exact hv.2 rfl
  obtain ⟨a, b, d⟩ := h2 hw
  have he' : c.eof = true ↔ ∃ o ∈ ops, CutOp o := he.trans (by simp)
  rw [← he']
  cases hq : c.eof with
  | true =>
    rw [a hq] at h
    cases h
    refine ⟨by simp, fun hno => ?_⟩
    obtain ⟨o, ho, hx⟩ := he'.1 hq
    exact absurd hx (hno o ho)
  | false =>
    by_cases hN : c.needsShut = true → r.ret < 0 → Notified r
    · rw [b hq hN] at h
      cases h
      simp
    · obtain ⟨m, e⟩ := d hq hN
      rw [e] at h
      cases h
      refine ⟨?_, fun _ hr => absurd (fun _ q => by omega) hN⟩
      constructor
      · intro q; cases q
      · rintro ⟨-, q⟩
        simp only [Option.some.injEq] at q
        have := congrArg List.head? q
        simp at this

/-- C141: when tls_close has come to an end, SSL_shutdown is not called any more -/
theorem C141_close_once (c c' : LibConn) (r : SslFail) (v : LibRet) (h : tlsClose c r = (c', v)) (hv : v ≠ .pollIn ∧ v ≠ .pollOut) (r1 r2 : SslFail) :
    tlsClose c' r1 = tlsClose c' r2 := by
  obtain ⟨h1, h2⟩ := close_cases c r
  have hn : c'.needsShut = false := by
    have hw : ¬ (c.needsShut = true ∧ r.ret < 0 ∧ Wanted r) := fun q => by
      rcases h1 q.1 q.2.1 q.2.2 with e | e <;> rw [e] at h <;> cases h
      · exact hv.1 rfl
      · exact hv.2 rfl
    obtain ⟨a, b, d⟩ := h2 hw
    cases hq : c.eof with
    | true => rw [a hq] at h; cases h; rfl
    | false =>
      by_cases hN : c.needsShut = true → r.ret < 0 → Notified r
      · rw [b hq hN] at h; cases h; rfl
      · obtain ⟨m, e⟩ := d hq hN
        rw [e] at h; cases h; rfl
  unfold tlsClose
  simp only [hn, Bool.false_eq_true, if_false]

/-- C141: tls_handshake says that it is done when SSL_connect or SSL_accept is and the name is the one wanted, and also when the peer has ended the
connection instead, when nothing was checked and the handshake is not complete; a connection cut off before that is a failure -/
theorem C141_handshake (c : LibConn) (hc : c.complete = false) (r : Option SslFail) (bad : Option Bytes) (c' : LibConn) (v : LibRet)
    (h : tlsHandshake c r bad = (c', v)) :
    (v = .zero ↔ (r = none ∧ bad = none) ∨ ∃ f, r = some f ∧ Notified f) ∧ (c'.complete = true ↔ r = none ∧ bad = none) ∧
    (v = .fail → c'.msg.isSome = true) ∧ (∀ f, r = some f → CutOff f → v = .fail) ∧ c'.needsShut = true := by
  unfold tlsHandshake at h
  simp only [hc, Bool.false_eq_true, if_false] at h
  cases r with
  | none =>
    cases bad with
    | none => cases h; simp
    | some m => cases h; simp
  | some f =>
    simp only at h
    obtain ⟨h1, h2, -, h4⟩ := sslError_cases { complete := c.complete, eof := c.eof, needsShut := true, msg := none } f b%"handshake" rfl
    rw [hc] at h1 h2 h4
    have wn : Wanted f → ¬ Notified f ∧ ¬ CutOff f := by
      intro q
      rcases q with q | q <;> simp [Notified, CutOff, q]
    have nc : Notified f → ¬ CutOff f := by
      intro q
      rcases q with q | q <;> simp [CutOff, q]
    by_cases q1 : Wanted f
    · obtain ⟨x1, x2⟩ := wn q1
      rcases h1 q1 with e | e <;> (rw [e] at h; cases h; simp [x1, x2])
    · by_cases q2 : Notified f
      · rw [h2 q2] at h
        cases h
        simp [q2, nc q2]
      · obtain ⟨m, e⟩ := h4 q1 q2 (by simp)
        rw [e] at h
        cases h
        simp [q2]

/-- the reads of gg, by what arrives and how the connection ends -/
theorem libReads_arrives : ∀ (rs : List SslRd) (c : LibConn) (f : SslFail), c.complete = true → (arrives rs).2 = some f →
    ∃ script c', libReads c rs = some (script, c') ∧ stream script = ((arrives rs).1, decide (Notified f ∨ CutOff f)) ∧
      (c'.eof = true ↔ c.eof = true ∨ CutOff f) ∧ c'.needsShut = c.needsShut
  | [], _, _, _, h => by cases h
  | .data b t :: rs, c, f, hc, h => by
    obtain ⟨script, c', e1, e2, e3, e4⟩ := libReads_arrives rs { c with msg := none } f hc h
    refine ⟨.data b t :: script, c', by simp only [libReads, (C141_read c hc).1, e1]; rfl, ?_, e3, e4⟩
    simp only [stream, e2, arrives]
  | .no g :: rs, c, f, hc, h => by
    obtain ⟨h1, h2, h3, h4⟩ := (C141_read c hc).2 g
    have cutW : CutOff g → ¬ Wanted g ∧ ¬ Notified g := fun h => by simp [Wanted, Notified, h.1]
    by_cases q1 : Wanted g
    · have ha : arrives (.no g :: rs) = arrives rs := by simp only [arrives, if_pos q1]
      rw [ha] at h ⊢
      obtain ⟨script, c', e1, e2, e3, e4⟩ := libReads_arrives rs { c with msg := none } f hc h
      exact ⟨.want :: script, c', by simp only [libReads, h1 q1, e1]; rfl, by simp only [stream, e2], e3, e4⟩
    · have ha : arrives (.no g :: rs) = ([], some g) := by simp only [arrives, if_neg q1]
      rw [ha] at h ⊢
      simp only [Option.some.injEq] at h
      subst h
      by_cases q3 : CutOff g
      · exact ⟨[], { c with msg := none, eof := true }, by simp only [libReads]; rw [h3 q3], by simp [stream, q3], by simp [q3], rfl⟩
      · by_cases q2 : Notified g
        · exact ⟨[], { c with msg := none }, by simp only [libReads]; rw [h2 q2], by simp [stream, q2], by simp [q3], rfl⟩
        · obtain ⟨m, e⟩ := h4 q1 q2 q3
          exact ⟨[.fail], { c with msg := some (b%"read failed" ++ m) }, by simp only [libReads]; rw [e], by simp [stream, q2, q3], by simp [q3], rfl⟩

/-- gg waits as long as the connection has not ended -/
theorem libReads_waits : ∀ (rs : List SslRd) (c : LibConn), c.complete = true → (arrives rs).2 = none → libReads c rs = none
  | [], _, _, _ => rfl
  | .data b t :: rs, c, hc, h => by
    simp only [libReads, (C141_read c hc).1, libReads_waits rs { c with msg := none } hc h]
    rfl
  | .no g :: rs, c, hc, h => by
    have q1 : Wanted g := by
      by_cases q : Wanted g
      · exact q
      · simp [arrives, q] at h
    have ha : arrives (.no g :: rs) = arrives rs := by simp only [arrives, if_pos q1]
    rw [ha] at h
    simp only [libReads, ((C141_read c hc).2 g).1 q1, libReads_waits rs { c with msg := none } hc h]
    rfl

theorem ggTail_ok (code : Nat) (s : Bytes × Bool) (o : GgOut) (h : (ggTail code s o).status = 0) : s.2 = true := by
  unfold ggTail at h
  by_cases hs : s.2 = true
  · exact hs
  · rw [if_neg hs] at h
    cases h

/-- gg's exit status is 0 only when it got to what tls_read calls the end -/
theorem gg_ok_end (quiet : Bool) (s : Bytes × Bool) (mode : GgMode) (hm : mode = .none ∨ mode = .all) (h : (ggOf mode quiet s).status = 0) : s.2 = true := by
  unfold ggOf at h
  split at h
  · cases h
  · split at h
    · rename_i h1 h2
      by_cases hs : s.2 = true
      · exact hs
      · exact absurd ⟨by rw [h2]; simp, by simpa using hs⟩ h1
    · split at h
      · split at h
        · split at h
          · rcases hm with hm | hm
            · rw [hm] at h
              exact ggTail_ok _ (s.1.drop 2048, s.2) _ h
            · rw [hm] at h
              exact ggTail_ok _ (s.1.drop 2048, s.2) _ h
          · cases h
        · cases h
      · cases h

/-- C141 (partial: the connection is not cut off without OpenSSL having an error for it, as OpenSSL 3 has): gg exits with 0 only if the peer has
ended the reply; and then what it has written is the whole body -/
theorem C141_gg_whole_partial (rs : List SslRd) (D : Bytes) (f : SslFail) (ha : arrives rs = (D, some f)) (hcut : ¬ CutOff f) (quiet : Bool) :
    ∃ script c', libReads { complete := true, needsShut := true } rs = some (script, c') ∧
      (∀ mode, mode = .none ∨ mode = .all → (ggReply mode quiet script).status = 0 → Notified f) ∧
      ∀ r : Reply, r.WF → r.header.length + 2 ≤ 2048 → D = r.bytes → ggExit r.status = 0 → Notified f →
        (ggReply .none quiet script).status = 0 ∧ (ggReply .none quiet script).out = r.body := by
  obtain ⟨script, c', e1, e2, -, -⟩ := libReads_arrives rs { complete := true, needsShut := true } f rfl (by rw [ha])
  rw [ha] at e2
  refine ⟨script, c', e1, fun mode hm hs => ?_, fun r hr hl hD hx hn => ?_⟩
  · rw [ggReply_of, e2] at hs
    have := gg_ok_end quiet _ mode hm hs
    simp only [decide_eq_true_eq] at this
    exact this.elim id fun q => absurd q hcut
  · have := (C58_gg_reply script r hr hl quiet (by rw [e2, hD]; simp [hn])).1
    rw [this]
    exact ⟨hx, rfl⟩

theorem closes_eof : ∀ (ss : List SslFail) (c : LibConn) (o : Option Bytes), c.eof = true → libCloses c ss = some o → o = some b%"tls_close: EOF without close notify"
  | [], _, _, _, h => by cases h
  | r :: ss, c, o, he, h => by
    obtain ⟨h1, h2⟩ := close_cases c r
    by_cases hw : c.needsShut = true ∧ r.ret < 0 ∧ Wanted r
    · rcases h1 hw.1 hw.2.1 hw.2.2 with e | e <;> simp only [libCloses, e] at h <;> exact closes_eof ss { c with msg := none } o he h
    · have e := (h2 hw).1 he
      simp only [libCloses, e] at h
      cases h
      rfl

/-- C141, false of the code: whoever can cut the connection of gg decides how much of the reply it writes: after any part of the body, with
OpenSSL having no error for it, gg exits with 0 as if that were all; only a warning that the connection was not ended says otherwise -/
theorem C141_gg_cut (r : Reply) (hr : r.WF) (hl : r.header.length + 2 ≤ 2048) (hx : ggExit r.status = 0) (part : Bytes) (_hp : part <+: r.body)
    (rs : List SslRd) (f : SslFail) (ha : arrives rs = (r.header ++ b%"\r\n" ++ part, some f)) (hf : CutOff f) (quiet : Bool) :
    ∃ script c', libReads { complete := true, needsShut := true } rs = some (script, c') ∧
      (ggReply .none quiet script).out = part ∧ (ggReply .none quiet script).status = 0 ∧
      ∀ ss o, libCloses c' ss = some o → o = some b%"tls_close: EOF without close notify" := by
  obtain ⟨script, c', e1, e2, e3, -⟩ := libReads_arrives rs { complete := true, needsShut := true } f rfl (by rw [ha])
  rw [ha] at e2
  have hr' : ({ r with body := part } : Reply).WF := ⟨hr.digit1, hr.digit2, hr.crlf⟩
  have := (C58_gg_reply script { r with body := part } hr' hl quiet (by rw [e2]; simp [hf, Reply.bytes, Reply.header])).1
  refine ⟨script, c', e1, by rw [this], by rw [this]; exact hx, fun ss o h => closes_eof ss c' o (e3.2 (.inr hf)) h⟩

/-- the events of the upstream connection: all but those of the client -/
def ofUpstream : PEv → Bool
  | .data _ => true
  | .eof => true
  | _ => false

theorem relayed_filter : ∀ (evs : List PEv) (p : Bytes × Bool), (evs.filter ofUpstream).foldl relayed p = evs.foldl relayed p
  | [], _ => rfl
  | ev :: evs, p => by
    cases ev with
    | data b => exact relayed_filter evs _
    | eof => exact relayed_filter evs _
    | handshake ok => exact (relayed_filter evs p)
    | timeout => exact (relayed_filter evs p)
    | flush n => exact (relayed_filter evs p)

theorem upEvs_relayed : ∀ (rs : List SslRd) (c : LibConn) (D : Bytes) (f : SslFail) (pre : Bytes), c.complete = true → arrives rs = (D, some f) →
    (upEvs c rs).foldl relayed (pre, false) = (pre ++ D, true)
  | [], _, _, _, _, _, h => by cases h
  | .data b t :: rs, c, D, f, pre, hc, h => by
    simp only [arrives, Prod.mk.injEq] at h
    obtain ⟨hD, h2⟩ := h
    have := upEvs_relayed rs { c with msg := none } _ f (pre ++ (b :: t)) hc (by rw [← h2])
    simp only [upEvs, (C141_read c hc).1, List.foldl_cons]
    rw [← hD]
    refine Eq.trans ?_ (this.trans (by simp))
    rfl
  | .no g :: rs, c, D, f, pre, hc, h => by
    obtain ⟨h1, h2, h3, h4⟩ := (C141_read c hc).2 g
    by_cases q1 : Wanted g
    · have ha : arrives (.no g :: rs) = arrives rs := by simp only [arrives, if_pos q1]
      rw [ha] at h
      simp only [upEvs, h1 q1]
      exact upEvs_relayed rs { c with msg := none } D f pre hc h
    · have ha : arrives (.no g :: rs) = ([], some g) := by simp only [arrives, if_neg q1]
      rw [ha] at h
      simp only [Prod.mk.injEq] at h
      rw [← h.1, List.append_nil]
      by_cases q3 : CutOff g
      · simp only [upEvs, h3 q3]; rfl
      · by_cases q2 : Notified g
        · simp only [upEvs, h2 q2]; rfl
        · obtain ⟨m, e⟩ := h4 q1 q2 q3
          simp only [upEvs, e]; rfl

/-- C141, false of the code: a relay hands on whatever part of a reply it got as if that were all: however the connection to the upstream server
ends (`f`), also with an error, the client gets that part, an end in order, and gg exits with 0 -/
theorem C141_relay_cut (env : Env) (c : Client) (h : Relaying c) (r : Reply) (hr : r.WF) (hlen : r.text.length ≤ 1024) (h20 : r.status = 20)
    (part : Bytes) (_hp : part <+: r.body) (rs : List SslRd) (f : SslFail) (ha : arrives rs = (r.header ++ b%"\r\n" ++ part, some f))
    (hpl : Plain (r.header ++ b%"\r\n" ++ part)) (evs : List PEv) (hev : evs.filter ofUpstream = upEvs { complete := true, needsShut := true } rs) :
    ∃ g, proxyRun env evs { c := c } = .ok g ∧ g.c.sent ++ g.c.out = r.header ++ b%"\r\n" ++ part ∧
      ∀ (rs' : List SslRd) (f' : SslFail), arrives rs' = (g.c.sent ++ g.c.out, some f') → Notified f' → ∀ quiet,
        ∃ script c', libReads { complete := true, needsShut := true } rs' = some (script, c') ∧ ggReply .none quiet script = { out := part, status := 0 } := by
  have hr' : ({ r with body := part } : Reply).WF := ⟨hr.digit1, hr.digit2, hr.crlf⟩
  have hfold : evs.foldl relayed ([], false) = (r.header ++ b%"\r\n" ++ part, true) := by
    rw [← relayed_filter, hev]
    exact upEvs_relayed rs _ _ f [] rfl ha
  have hno : NoCrlf (r.d1 :: r.d2 :: 32 :: r.text) := by
    intro a b e
    -- a CR LF at the end of the line with a CR behind it cannot be: the meta has none, and what comes before it is digits and a space
    cases a with
    | nil => simp only [List.nil_append, List.cons_append, List.cons.injEq] at e; have := hr.digit1.1; rw [e.1] at this; exact absurd this (by decide)
    | cons a1 a =>
      cases a with
      | nil => simp only [List.nil_append, List.cons_append, List.cons.injEq] at e; have := hr.digit2.1; rw [e.2.1] at this; exact absurd this (by decide)
      | cons a2 a =>
        cases a with
        | nil => simp at e
        | cons a3 a =>
          simp only [List.cons_append, List.cons.injEq] at e
          rcases List.eq_nil_or_concat b with rfl | ⟨b', x, rfl⟩
          · have := congrArg List.getLast? e.2.2.2
            simp at this
          · have e' : r.text ++ [13] = (a ++ [13, 10] ++ b') ++ [x] := by rw [e.2.2.2]; simp
            exact hr.crlf a b' (List.append_inj_left' e' rfl)
  have hh : HasHeader (r.header ++ b%"\r\n" ++ part) 20 r.text part := by
    refine ⟨r.d1, r.d2, hr.digit1.1, hr.digit1.2, hr.digit2.1, hr.digit2.2, h20.symm, by omega, by omega, hlen, hno, rfl⟩
  obtain ⟨g, e1, e2, -⟩ := C31_relayed_partial env c h evs _ hfold hpl 20 r.text part hh
  refine ⟨g, e1, e2 rfl, fun rs' f' ha' hn quiet => ?_⟩
  obtain ⟨script, c', k1, k2, -, -⟩ := libReads_arrives rs' { complete := true, needsShut := true } f' rfl (by rw [ha'])
  rw [ha', e2 rfl] at k2
  have := (C58_gg_reply script { r with body := part } hr' (by simp [Reply.header]; omega) quiet (by rw [k2]; simp [hn, Reply.bytes, Reply.header])).1
  refine ⟨script, c', k1, ?_⟩
  rw [this]
  have hs : ({ r with body := part } : Reply).status = 20 := h20
  simp [hs, ggExit]

/-- whatever a relay is told of the end of the upstream connection, it does the same -/
def asEof : UpEv → UpEv
  | .readable .failed => .readable (.got [])
  | ev => ev

theorem C141_relay_blind (env : Env) : ∀ (evs : List UpEv) (u : Up), upRun env (evs.map asEof) u = upRun env evs u
  | [], _ => rfl
  | ev :: evs, u => by
    have e : upStep env (asEof ev) u = upStep env ev u := by
      cases ev with
      | readable r => cases r <;> rfl
      | writable r => rfl
      | client n => rfl
    simp only [List.map_cons, upRun, e]
    cases upStep env ev u with
    | ok u => exact C141_relay_blind env evs u
    | err => rfl
    | ub => rfl

/-- a reply cut off in its body -/
example : ∃ r : Reply, r.WF ∧ r.header.length + 2 ≤ 2048 ∧ ggExit r.status = 0 ∧ r.body = b%"all of it" ∧ b%"all" <+: r.body ∧
    arrives [.data 50 b%"0 te", .no { ret := -1, err := .wantRead }, .data 120 b%"t\r\nall", .no { ret := 0, err := .syscall }] =
      (r.header ++ b%"\r\n" ++ b%"all", some { ret := 0, err := .syscall }) ∧ CutOff { ret := 0, err := .syscall } := by
  refine ⟨{ d1 := 50, d2 := 48, text := b%"text", body := b%"all of it" }, ⟨by decide, by decide, ?_⟩, by decide, rfl, rfl, ⟨b%" of it", rfl⟩, rfl, rfl, rfl, rfl⟩
  intro a b e
  have : (13 : UInt8) ∈ b%"text" := by rw [show b%"text" = _ from e]; simp
  exact absurd this (by decide)

/-- a reply of which the relay got a part before an error -/
example : Relaying exRel ∧ Plain (b%"20 a/b" ++ [13, 10] ++ b%"hi") ∧
    [PEv.data b%"20 a/b\r", .flush 3, .data b%"\nhi", .eof, .flush 99].filter ofUpstream =
      upEvs { complete := true, needsShut := true } [.data 50 b%"0 a/b\r", .no { ret := -1, err := .wantRead }, .data 10 b%"hi",
        .no { ret := -1, err := .ssl, queue := some b%"unexpected eof while reading" }] ∧
    arrives [.data 50 b%"0 a/b\r", .no { ret := -1, err := .wantRead }, .data 10 b%"hi",
      .no { ret := -1, err := .ssl, queue := some b%"unexpected eof while reading" }] =
      (b%"20 a/b" ++ [13, 10] ++ b%"hi", some { ret := -1, err := .ssl, queue := some b%"unexpected eof while reading" }) := by
  refine ⟨⟨rfl, rfl, rfl, rfl, rfl⟩, plain_ex b%"20 a/b" b%"hi" (by decide) ((readLine_none b%"20 a/b\r").1 (by decide)) ?_, rfl, rfl⟩
  intro code mt h
  have : relayHdr b%"20 a/b" = some (20, b%"a/b") := by decide
  rw [this] at h
  simp only [Option.some.injEq, Prod.mk.injEq] at h
  omega

/-- a connection that was cut off is closed -/
example : tlsClose ([LibOp.read (.data 50 b%"0"), .write (.took 3), .read (.no { ret := 0, err := .syscall })].foldl LibConn.op { complete := true, needsShut := true })
    { ret := 1, err := .none } = ({ complete := true, eof := true, msg := some b%"EOF without close notify" }, .fail) := rfl

/-- a peer that ends the connection instead of the handshake -/
example : tlsHandshake {} (some { ret := 0, err := .zeroReturn }) (some b%"name not present") = ({ needsShut := true }, .zero) := rfl

/-- a shutdown that is to be tried again, then fails -/
example : libCloses { complete := true, needsShut := true } [{ ret := -1, err := .wantWrite }, { ret := -1, err := .ssl, queue := some b%"bad" }] =
    some (some b%"tls_close: shutdown failed: bad") := rfl

end Gmid.Props
