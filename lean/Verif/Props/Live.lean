import Verif.Spec.Live
import Verif.Props.TlsIo

/-!
# C118: connections and reloads
-/

set_option autoImplicit false

namespace Gmid.Props
open Gmid.Spec

/-- another host -/
def setH (h : Option Vhost) (c : Client) : Client := { c with host := h }
def setHk (h : Option Vhost) (k : Conn) : Conn := { k with c := setH h k.c }
def setHf (h : Option Vhost) (f : FClient) : FClient := { f with c := setH h f.c }
def setHp (h : Option Vhost) (f : PClient) : PClient := { f with c := setH h f.c }

section
variable (env : Env)

/-- clientError without a timeout does not look at the host -/
theorem clientError_setH (h : Option Vhost) (c : Client) (k : ErrKind) (hk : k ≠ .timeout) :
    clientError env k (setH h c) = setH h (clientError env k c) := by
  cases k <;> first | exact absurd rfl hk | rfl

theorem clientWrite_setH (h : Option Vhost) (bufsiz : Nat) (rd : Option Bytes) (c c' : Client) (hw : clientWrite env bufsiz rd c = .ok c') :
    clientWrite env bufsiz rd (setH h c) = .ok (setH h c') := by
  unfold clientWrite at hw ⊢
  have ht : (setH h c).type = c.type := rfl
  rw [ht]
  cases e : c.type
  all_goals rw [e] at hw
  all_goals dsimp only at hw ⊢
  · cases hw; rfl
  · rcases rd with _ | _ | ⟨a, r⟩
    · cases hw; rfl
    · cases hw; rfl
    · cases hw; rfl
  · have hd : (setH h c).dir = c.dir := rfl
    rw [hd]
    cases e2 : dirLines c.dir
    all_goals rw [e2] at hw
    · cases hw; rfl
    · cases hw
    · cases hw
  · cases hw; rfl
  · cases hw; rfl
  · have ho : (setH h c).out = c.out := rfl
    rw [ho]
    by_cases hq : c.out = []
    · rw [if_pos hq] at hw ⊢
      cases hw; rfl
    · rw [if_neg hq] at hw ⊢
      cases hw; rfl

/-- client_write leaves the code -/
theorem clientWrite_keeps (bufsiz : Nat) (rd : Option Bytes) (c c' : Client) (hw : clientWrite env bufsiz rd c = .ok c') :
    c'.code = c.code ∧ (c.type ≠ .undecided → c'.type ≠ .undecided) := by
  unfold clientWrite at hw
  cases e : c.type
  all_goals rw [e] at hw
  all_goals dsimp only at hw
  · cases hw; exact ⟨rfl, fun _ => by simp_all⟩
  · rcases rd with _ | _ | ⟨a, r⟩
    · cases hw; exact ⟨rfl, fun _ => by simp [clientError, clientClose]⟩
    · cases hw; exact ⟨rfl, fun _ => by simp [clientClose, e]⟩
    · cases hw; exact ⟨rfl, fun _ => by dsimp only; split <;> simp⟩
  · cases e2 : dirLines c.dir
    all_goals rw [e2] at hw
    · cases hw; exact ⟨rfl, fun _ => by simp⟩
    · cases hw
    · cases hw
  · cases hw; exact ⟨rfl, fun _ => by simp_all⟩
  · cases hw; exact ⟨rfl, fun _ => by simp_all⟩
  · by_cases hq : c.out = []
    · rw [if_pos hq] at hw
      cases hw; exact ⟨rfl, fun _ => by simp [clientClose, e]⟩
    · rw [if_neg hq] at hw
      cases hw; exact ⟨rfl, fun _ => by simp [e]⟩

theorem startReply_code (c : Client) (code : Int) (mt : Bytes) (hc : code ≠ 0) : (startReply env c code mt).code ≠ 0 := by
  rcases startReply_replied env c code mt with h | h
  · rw [h.rcode]; exact hc
  · rw [h.rcode]; decide

/-! ## the application -/

theorem fcgiError_code (f : FClient) : (fcgiError env f).c.code ≠ 0 := by
  unfold fcgiError
  split
  · exact startReply_code env _ _ _ (by decide)
  · assumption

theorem fcgiError_setH (h : Option Vhost) (f : FClient) (hc : f.c.code ≠ 0) : fcgiError env (setHf h f) = setHf h (fcgiError env f) := by
  unfold fcgiError
  rw [if_neg hc, if_neg (show (setHf h f).c.code ≠ 0 from hc)]
  rfl

theorem fcgiHeaderLine_code (f : FClient) (t : Nat) : (fcgiHeaderLine env f t).1.c.code ≠ 0 := by
  unfold fcgiHeaderLine
  dsimp only
  split
  · split
    · split
      · exact fcgiError_code env f
      · rename_i hcode
        simp only [Bool.or_eq_true, decide_eq_true_eq, not_or, Int.not_lt, Int.not_le] at hcode
        split
        · exact fcgiError_code env _
        · exact startReply_code env _ _ _ (by omega)
    · exact fcgiError_code env f
  · exact fcgiError_code env f

/-- either the header came, or the host was not looked at -/
theorem fcgiStdout_setH (h : Option Vhost) (f : FClient) (len : Nat) :
    (f.c.code ≠ 0 → (fcgiStdout env f len).c.code ≠ 0) ∧
    ((f.c.code = 0 → (fcgiStdout env f len).c.code = 0) → fcgiStdout env (setHf h f) len = setHf h (fcgiStdout env f len)) := by
  unfold fcgiStdout
  by_cases hc : f.c.code = 0
  · rw [if_pos hc, if_pos (show (setHf h f).c.code = 0 from hc)]
    refine ⟨fun k => absurd hc k, fun k => ?_⟩
    replace k := k hc
    dsimp only at k ⊢
    have e1 : (setHf h f).sbuf = f.sbuf := rfl
    have e2 : (setHf h f).src = f.src := rfl
    rw [e1, e2]
    rcases hm : memmem (f.sbuf ++ f.src.take (min len (1029 - f.sbuf.length))) b%"\r\n" with _ | _ | t
    · rw [hm] at k
      dsimp only at k ⊢
      by_cases hl : (f.sbuf ++ f.src.take (min len (1029 - f.sbuf.length))).length = 1029
      · rw [if_pos hl] at k
        exact absurd k (fcgiError_code env _)
      · rw [if_neg hl, if_neg hl]
        rfl
    · rw [hm] at k
      dsimp only at k ⊢
      by_cases hl : (f.sbuf ++ f.src.take (min len (1029 - f.sbuf.length))).length = 1029
      · rw [if_pos hl] at k
        exact absurd k (fcgiError_code env _)
      · rw [if_neg hl, if_neg hl]
        rfl
    · rw [hm] at k
      dsimp only at k
      exfalso
      split at k
      · exact fcgiHeaderLine_code env _ t k
      · exact fcgiHeaderLine_code env _ t k
  · rw [if_neg hc, if_neg (show ¬ (setHf h f).c.code = 0 from hc)]
    exact ⟨fun _ => hc, fun _ => rfl⟩

theorem fcgiStop_setH (h : Option Vhost) (f g : FClient) (hs : fcgiStop env f = .ok g) :
    g.c.code ≠ 0 ∧ (f.c.code ≠ 0 → fcgiStop env (setHf h f) = .ok (setHf h g)) := by
  unfold fcgiStop at hs ⊢
  dsimp only at hs ⊢
  cases hw : clientWrite env 0 none (fcgiError env f).c with
  | ok c =>
    rw [hw] at hs
    cases hs
    refine ⟨?_, fun hc => ?_⟩
    · show c.code ≠ 0
      rw [(clientWrite_keeps env _ _ _ _ hw).1]
      exact fcgiError_code env f
    · rw [fcgiError_setH env h f hc]
      have := clientWrite_setH env h _ _ _ _ hw
      rw [show (setHf h (fcgiError env f)).c = setH h (fcgiError env f).c from rfl, this]
      rfl
  | err => rw [hw] at hs; cases hs
  | ub => rw [hw] at hs; cases hs

theorem fcgiLoop_setH (h : Option Vhost) (n : Nat) : ∀ (f g : FClient), fcgiLoop' env n f = .ok g →
    (f.c.code ≠ 0 → g.c.code ≠ 0) ∧ ((f.c.code = 0 → g.c.code = 0) → fcgiLoop' env n (setHf h f) = .ok (setHf h g)) := by
  have stop : ∀ f g : FClient, fcgiStop env f = .ok g →
      (f.c.code ≠ 0 → g.c.code ≠ 0) ∧ ((f.c.code = 0 → g.c.code = 0) → fcgiStop env (setHf h f) = .ok (setHf h g)) := by
    intro f g hs
    obtain ⟨h1, h2⟩ := fcgiStop_setH env h f g hs
    exact ⟨fun _ => h1, fun k => h2 (fun e => h1 (k e))⟩
  induction n with
  | zero =>
    intro f g hl
    unfold fcgiLoop' at hl ⊢
    have e1 : (setHf h f).c.type = f.c.type := rfl
    have e2 : (setHf h f).src = f.src := rfl
    rw [e1, e2]
    by_cases ht : f.c.type = .done
    · rw [if_pos ht] at hl ⊢
      exact stop f g hl
    · rw [if_neg ht] at hl ⊢
      split at hl
      · rename_i b0 ty i1 i0 l1 l0 pad b7 rest heq
        by_cases hi : i0.toNat + i1.toNat * 256 ≠ 1
        · rw [if_pos hi] at hl ⊢
          exact stop f g hl
        · rw [if_neg hi] at hl ⊢
          dsimp only at hl ⊢
          by_cases hr : rest.length < l0.toNat + l1.toNat * 256 + pad.toNat
          · rw [if_pos hr] at hl ⊢
            cases hl
            exact ⟨fun k => k, fun _ => rfl⟩
          · rw [if_neg hr] at hl
            cases hl
      · cases hl
        exact ⟨fun k => k, fun _ => rfl⟩
  | succ n ih =>
    intro f g hl
    unfold fcgiLoop' at hl ⊢
    have e1 : (setHf h f).c.type = f.c.type := rfl
    have e2 : (setHf h f).src = f.src := rfl
    rw [e1, e2]
    by_cases ht : f.c.type = .done
    · rw [if_pos ht] at hl ⊢
      exact stop f g hl
    · rw [if_neg ht] at hl ⊢
      split at hl
      · rename_i b0 ty i1 i0 l1 l0 pad b7 rest heq
        by_cases hi : i0.toNat + i1.toNat * 256 ≠ 1
        · rw [if_pos hi] at hl ⊢
          exact stop f g hl
        · rw [if_neg hi] at hl ⊢
          dsimp only at hl ⊢
          by_cases hr : rest.length < l0.toNat + l1.toNat * 256 + pad.toNat
          · rw [if_pos hr] at hl ⊢
            cases hl
            exact ⟨fun k => k, fun _ => rfl⟩
          · rw [if_neg hr] at hl ⊢
            by_cases h3 : ty = 3
            · rw [if_pos h3] at hl ⊢
              by_cases h8 : l0.toNat + l1.toNat * 256 ≠ 8
              · rw [if_pos h8] at hl ⊢
                exact stop _ g hl
              · rw [if_neg h8] at hl ⊢
                exact ih _ g hl
            · rw [if_neg h3] at hl ⊢
              by_cases h7 : ty = 7
              · rw [if_pos h7] at hl ⊢
                exact ih _ g hl
              · rw [if_neg h7] at hl ⊢
                by_cases h6 : ty = 6
                · rw [if_pos h6] at hl ⊢
                  obtain ⟨k1, k2⟩ := ih _ g hl
                  obtain ⟨s1, s2⟩ := fcgiStdout_setH env h { f with src := rest } (l0.toNat + l1.toNat * 256)
                  refine ⟨fun hc => k1 (s1 hc), fun hc => ?_⟩
                  have s3 := s2 (fun hz => Decidable.byContradiction fun hn => absurd (hc hz) (k1 hn))
                  have s4 := k2 (fun hz => by
                    by_cases hq : f.c.code = 0
                    · exact hc hq
                    · exact absurd hz (s1 hq))
                  have e3 : ({ setHf h f with src := rest } : FClient) = setHf h { f with src := rest } := rfl
                  rw [e3, s3]
                  exact s4
                · rw [if_neg h6] at hl ⊢
                  exact stop _ g hl
      · cases hl
        exact ⟨fun k => k, fun _ => rfl⟩

/-! ## the upstream server -/

theorem proxyError_setH (h : Option Vhost) (f g : PClient) (he : proxyError env f = .ok g) :
    g.c.code ≠ 0 ∧ g.phase = .over ∧ (f.c.code ≠ 0 → proxyError env (setHp h f) = .ok (setHp h g)) ∧ (f.c.code ≠ 0 → g.c.type ≠ .undecided) := by
  unfold proxyError at he ⊢
  dsimp only at he ⊢
  by_cases hc : f.c.code = 0
  · rw [if_pos hc] at he
    cases he
    exact ⟨startReply_code env _ _ _ (by decide), rfl, fun k => absurd hc k, fun k => absurd hc k⟩
  · rw [if_neg hc] at he
    rw [if_neg (show ¬ (setHp h f).c.code = 0 from hc)]
    cases hw : clientWrite env 0 none { f.c with pfd := -1, type := .done } with
    | ok c =>
      rw [hw] at he
      cases he
      have hk := clientWrite_keeps env _ _ _ _ hw
      refine ⟨by show c.code ≠ 0; rw [hk.1]; exact hc, rfl, fun _ => ?_, fun _ => hk.2 (by simp)⟩
      have := clientWrite_setH env h _ _ _ _ hw
      rw [show ({ (setHp h f).c with pfd := -1, type := .done } : Client) = setH h { f.c with pfd := -1, type := .done } from rfl, this]
      rfl
    | err => rw [hw] at he; cases he
    | ub => rw [hw] at he; cases he

theorem proxyRead_setH (h : Option Vhost) (f g : PClient) (data : Bytes) (hr : proxyRead env f data = .ok g) :
    (f.c.code ≠ 0 → g.c.code ≠ 0) ∧ (f.phase ≠ .connecting → g.phase ≠ .connecting) ∧ (f.c.code ≠ 0 → f.c.type ≠ .undecided → g.c.type ≠ .undecided) ∧
    ((f.c.code = 0 → g.c.code = 0) → proxyRead env (setHp h f) data = .ok (setHp h g)) := by
  have err : ∀ f' : PClient, f.c.code = 0 → proxyError env f' = .ok g → (f.c.code ≠ 0 → g.c.code ≠ 0) ∧ (f.phase ≠ .connecting → g.phase ≠ .connecting) ∧ (f.c.code ≠ 0 → f.c.type ≠ .undecided → g.c.type ≠ .undecided) ∧
      ((f.c.code = 0 → g.c.code = 0) → proxyRead env (setHp h f) data = .ok (setHp h g)) := by
    intro f' h0 he
    obtain ⟨e1, e2, -, -⟩ := proxyError_setH env h f' g he
    exact ⟨fun k => absurd h0 k, fun _ => by rw [e2]; decide, fun k => absurd h0 k, fun k => absurd (k h0) e1⟩
  by_cases hc : f.c.code = 0
  · have hr' := hr
    unfold proxyRead at hr
    dsimp only at hr
    rw [if_pos hc] at hr
    split at hr
    · rename_i hline
      split at hr
      · exact err _ hc hr
      · rename_i hl
        cases hr
        refine ⟨fun k => k, fun k => k, fun _ k => k, fun _ => ?_⟩
        unfold proxyRead
        dsimp only
        rw [if_pos (show (setHp h f).c.code = 0 from hc), show (setHp h f).src = f.src from rfl, hline]
        dsimp only
        rw [if_neg hl]
        rfl
    · split at hr
      · split at hr
        · exact err _ hc hr
        · split at hr
          · exact err _ hc hr
          · rename_i hcode
            split at hr
            · exact err _ hc hr
            · cases hr
              refine ⟨fun k => absurd hc k, fun k => k, fun k => absurd hc k, fun k => ?_⟩
              refine absurd (k hc) (startReply_code env _ _ _ ?_)
              simp only [Bool.or_eq_true, decide_eq_true_eq, not_or, Int.not_lt, Int.not_le] at hcode
              omega
      · exact err _ hc hr
  · unfold proxyRead at hr ⊢
    dsimp only at hr ⊢
    rw [if_neg hc] at hr
    rw [if_neg (show ¬ (setHp h f).c.code = 0 from hc)]
    cases hr
    exact ⟨fun k => k, fun k => k, fun _ k => k, fun _ => rfl⟩

theorem added_setH (h : Option Vhost) (c c' : Client) (wr : Bool) : added (setH h c) (setH h c') wr = added c c' wr := rfl

/-- a callback that does not read the host does the same whatever it is -/
theorem connStep_setH (h : Option Vhost) (bufsiz : Nat) (ev : ConnEv) (k k' : Conn) (hs : connStep env bufsiz ev k = .ok k') (hu : usesHost ev k k' = false) :
    connStep env bufsiz ev (setHk h k) = .ok (setHk h k') := by
  unfold connStep at hs ⊢
  have hcl : (setHk h k).c.closed = k.c.closed := rfl
  rw [hcl]
  by_cases hc : k.c.closed = true
  · rw [if_pos hc] at hs ⊢
    cases hs; rfl
  · rw [if_neg hc] at hs ⊢
    have hc' : k.c.closed = false := by simpa using hc
    cases ev with
    | readable r =>
      dsimp only at hs ⊢
      rw [show (setHk h k).rd = k.rd from rfl]
      by_cases hrd : k.rd = true
      · rw [if_pos hrd] at hs ⊢
        unfold connReadable at hs ⊢
        dsimp only at hs ⊢
        rcases r with (_ | ⟨a, b⟩) | _ | _
        · cases hs; rfl
        · dsimp only at hs ⊢
          have ht : takesUp { k.c with inp := k.c.inp ++ (a :: b) } = false := by
            simpa [usesHost, hc', hrd] using hu
          have cr : ∀ c : Client, takesUp c = false → clientRead env c = .ok c := by
            intro c ht
            unfold takesUp at ht
            unfold clientRead
            by_cases hty : c.type = .undecided
            · have h1 : ¬ c.type ≠ .undecided := by simp [hty]
              rw [if_neg h1]
              simp only [hty, decide_true, Bool.true_and, Bool.or_eq_false_iff, decide_eq_false_iff_not] at ht
              rw [if_neg ht.1]
              cases hl : readLine c.inp with
              | none => rfl
              | some x => rw [hl] at ht; simp at ht
            · rw [if_pos hty]
          rw [cr _ ht] at hs
          have e : ({ (setHk h k).c with inp := (setHk h k).c.inp ++ a :: b } : Client) = setH h { k.c with inp := k.c.inp ++ a :: b } := rfl
          rw [e, cr _ (show takesUp (setH h { k.c with inp := k.c.inp ++ a :: b }) = false from ht)]
          cases hs; rfl
        · cases hs; rfl
        · cases hs; rfl
      · rw [if_neg hrd] at hs ⊢
        cases hs; rfl
    | writable r rd =>
      dsimp only at hs ⊢
      rw [show (setHk h k).wr = k.wr from rfl]
      by_cases hw : k.wr = true
      · rw [if_pos hw] at hs ⊢
        unfold connWritable at hs ⊢
        dsimp only at hs ⊢
        have fl : ∀ (c : Client) (k : Conn) (k' : Conn), k.after (clientWrite env bufsiz rd c) = .ok k' → (setHk h k).after (clientWrite env bufsiz rd (setH h c)) = .ok (setHk h k') := by
          intro c k k' ha
          cases hcw : clientWrite env bufsiz rd c with
          | ok c'' =>
            rw [hcw] at ha
            rw [clientWrite_setH env h _ _ _ _ hcw]
            cases ha; rfl
          | err => rw [hcw] at ha; cases ha
          | ub => rw [hcw] at ha; cases ha
        rw [show (setHk h k).c.out = k.c.out from rfl]
        by_cases ho : k.c.out = []
        · simp only [if_pos ho] at hs ⊢
          exact fl _ { k with wr := decide (k.c.type = RType.dir) } _ hs
        · simp only [if_neg ho] at hs ⊢
          rcases r with n | _ | _
          · dsimp only at hs ⊢
            by_cases hd : k.c.out.drop n = []
            · simp only [if_pos hd] at hs ⊢
              exact fl _ { k with c := { k.c with sent := k.c.sent ++ k.c.out.take n, out := k.c.out.drop n }, wr := decide (k.c.type = RType.dir) } _ hs
            · simp only [if_neg hd] at hs ⊢
              cases hs; rfl
          · cases hs; rfl
          · cases hs; rfl
      · rw [if_neg hw] at hs ⊢
        cases hs; rfl
    | fcgiData b =>
      dsimp only at hs ⊢
      cases hf : fcgiRead env { c := k.c, sbuf := k.sbuf, src := k.fsrc } b with
      | ok f =>
        rw [hf] at hs
        unfold fcgiRead at hf
        cases hs
        have := (fcgiLoop_setH env h _ _ _ hf).2 (fun hz => by
          simp only [usesHost, hc', Bool.not_false, Bool.true_and, Bool.and_eq_false_iff, decide_eq_false_iff_not] at hu
          rcases hu with hu | hu
          · exact absurd hz hu
          · exact Decidable.not_not.mp hu)
        have e : fcgiRead env { c := (setHk h k).c, sbuf := (setHk h k).sbuf, src := (setHk h k).fsrc } b = .ok (setHf h f) := this
        rw [e]
        rfl
      | err => rw [hf] at hs; cases hs
      | ub => rw [hf] at hs; cases hs
    | fcgiEnd =>
      dsimp only at hs ⊢
      cases hs
      simp only [usesHost, hc', Bool.not_false, Bool.true_and, Bool.and_eq_false_iff, decide_eq_false_iff_not] at hu
      have hcode : k.c.code ≠ 0 := by
        rcases hu with hu | hu
        · exact hu
        · exact absurd (fcgiError_code env { c := k.c, sbuf := k.sbuf, src := k.fsrc }) hu
      have := fcgiError_setH env h { c := k.c, sbuf := k.sbuf, src := k.fsrc } hcode
      have e : (fcgiError env { c := (setHk h k).c, sbuf := (setHk h k).sbuf, src := (setHk h k).fsrc }) = setHf h (fcgiError env { c := k.c, sbuf := k.sbuf, src := k.fsrc }) := this
      rw [e]
      rfl
    | proxy pe =>
      have key : (∀ n, pe ≠ .flush n) → ∀ g, proxyStep env pe { c := k.c, phase := k.phase, src := k.psrc } = .ok g →
          (∀ h' : k.c.code = 0, g.c.code = 0 ∨ k.phase = .connecting) →
          ((∃ b, pe = .handshake b) ∨ pe = .timeout → k.phase ≠ .connecting) →
          proxyStep env pe { c := (setHk h k).c, phase := (setHk h k).phase, src := (setHk h k).psrc } = .ok (setHp h g) := by
        intro hnf g hg hz hph
        unfold proxyStep at hg ⊢
        dsimp only at hg ⊢
        rw [show (setHk h k).c.closed = k.c.closed from rfl, show (setHk h k).phase = k.phase from rfl]
        rw [if_neg hc] at hg ⊢
        cases pe with
        | handshake b =>
          have := hph (.inl ⟨b, rfl⟩)
          cases hp : k.phase
          · exact absurd hp this
          all_goals rw [hp] at hg; cases b <;> (cases hg; simp only [hp]; rfl)
        | timeout =>
          have := hph (.inr rfl)
          cases hp : k.phase
          · exact absurd hp this
          all_goals rw [hp] at hg; cases hg; rfl
        | data d =>
          cases hp : k.phase
          all_goals rw [hp] at hg
          · cases hg; rfl
          · refine (proxyRead_setH env h _ _ _ hg).2.2.2 (fun h0 => ?_)
            rcases hz h0 with h1 | h1
            · exact h1
            · rw [hp] at h1; cases h1
          · cases hg; rfl
        | eof =>
          cases hp : k.phase
          all_goals rw [hp] at hg
          · cases hg; rfl
          · obtain ⟨e1, e2, e3, -⟩ := proxyError_setH env h _ _ hg
            refine e3 (fun h0 => ?_)
            rcases hz h0 with h1 | h1
            · exact e1 h1
            · rw [hp] at h1; cases h1
          · cases hg; rfl
        | flush n => exact absurd rfl (hnf n)
      cases pe with
      | flush n => cases hs; rfl
      | handshake b =>
        dsimp only at hs ⊢
        cases hg : proxyStep env (.handshake b) { c := k.c, phase := k.phase, src := k.psrc } with
        | ok g =>
          rw [hg] at hs; cases hs
          have hu' : k.phase ≠ .connecting := by simpa [usesHost, hc'] using hu
          rw [key (by simp) g hg (fun h0 => by
            unfold proxyStep at hg
            dsimp only at hg
            rw [if_neg hc] at hg
            cases hp : k.phase
            · exact absurd hp hu'
            all_goals rw [hp] at hg; cases b <;> (cases hg; exact .inl h0)) (fun _ => hu')]
          rfl
        | err => rw [hg] at hs; cases hs
        | ub => rw [hg] at hs; cases hs
      | timeout =>
        dsimp only at hs ⊢
        cases hg : proxyStep env .timeout { c := k.c, phase := k.phase, src := k.psrc } with
        | ok g =>
          rw [hg] at hs; cases hs
          have hu' : k.phase ≠ .connecting := by simpa [usesHost, hc'] using hu
          rw [key (by simp) g hg (fun h0 => by
            unfold proxyStep at hg
            dsimp only at hg
            rw [if_neg hc] at hg
            cases hp : k.phase
            · exact absurd hp hu'
            all_goals rw [hp] at hg; cases hg; exact .inl h0) (fun _ => hu')]
          rfl
        | err => rw [hg] at hs; cases hs
        | ub => rw [hg] at hs; cases hs
      | data d =>
        dsimp only at hs ⊢
        cases hg : proxyStep env (.data d) { c := k.c, phase := k.phase, src := k.psrc } with
        | ok g =>
          rw [hg] at hs; cases hs
          simp only [usesHost, hc', Bool.not_false, Bool.true_and, Bool.and_eq_false_iff, decide_eq_false_iff_not] at hu
          rw [key (by simp) g hg (fun h0 => .inl (by
            rcases hu with hu | hu
            · exact absurd h0 hu
            · exact Decidable.not_not.mp hu)) (fun hh => by rcases hh with ⟨_, hh⟩ | hh <;> cases hh)]
          rfl
        | err => rw [hg] at hs; cases hs
        | ub => rw [hg] at hs; cases hs
      | eof =>
        dsimp only at hs ⊢
        cases hg : proxyStep env .eof { c := k.c, phase := k.phase, src := k.psrc } with
        | ok g =>
          rw [hg] at hs; cases hs
          simp only [usesHost, hc', Bool.not_false, Bool.true_and, Bool.and_eq_false_iff, decide_eq_false_iff_not] at hu
          rw [key (by simp) g hg (fun h0 => .inl (by
            rcases hu with hu | hu
            · exact absurd h0 hu
            · exact Decidable.not_not.mp hu)) (fun hh => by rcases hh with ⟨_, hh⟩ | hh <;> cases hh)]
          rfl
        | err => rw [hg] at hs; cases hs
        | ub => rw [hg] at hs; cases hs

/-! ## a reply whose header is on its way -/

/-- the code stays, and the reply is the same or done -/
def Kept (c c' : Client) : Prop := c'.code = c.code ∧ (c'.type = c.type ∨ c'.type = .done)

theorem Kept.rfl' (c : Client) : Kept c c := ⟨rfl, .inl rfl⟩

theorem Kept.trans {a b c : Client} (h : Kept a b) (h' : Kept b c) : Kept a c := by
  refine ⟨h'.1.trans h.1, ?_⟩
  rcases h'.2 with e | e
  · rw [e]; exact h.2
  · exact .inr e

theorem clientWrite_kept (bufsiz : Nat) (rd : Option Bytes) (c c' : Client) (hw : clientWrite env bufsiz rd c = .ok c') : Kept c c' := by
  refine ⟨(clientWrite_keeps env _ _ _ _ hw).1, ?_⟩
  unfold clientWrite at hw
  cases e : c.type
  all_goals rw [e] at hw
  all_goals dsimp only at hw
  · cases hw; exact .inl e
  · rcases rd with _ | _ | ⟨a, r⟩
    · cases hw; exact .inr rfl
    · cases hw; exact .inl e
    · cases hw; dsimp only; split
      · exact .inr rfl
      · exact .inl rfl
  · cases e2 : dirLines c.dir
    all_goals rw [e2] at hw
    · cases hw; exact .inr rfl
    · cases hw
    · cases hw
  · cases hw; exact .inl e
  · cases hw; exact .inl e
  · by_cases hq : c.out = []
    · rw [if_pos hq] at hw
      cases hw; exact .inl e
    · rw [if_neg hq] at hw
      cases hw; exact .inl e

theorem fcgiError_kept (f : FClient) (hc : f.c.code ≠ 0) : Kept f.c (fcgiError env f).c := by
  refine ⟨?_, .inr (fcgiError_type f)⟩
  unfold fcgiError
  rw [if_neg hc]

theorem fcgiStop_kept (f g : FClient) (hs : fcgiStop env f = .ok g) (hc : f.c.code ≠ 0) : Kept f.c g.c := by
  unfold fcgiStop at hs
  dsimp only at hs
  cases hw : clientWrite env 0 none (fcgiError env f).c with
  | ok c =>
    rw [hw] at hs
    cases hs
    exact (fcgiError_kept env f hc).trans (clientWrite_kept env _ _ _ _ hw)
  | err => rw [hw] at hs; cases hs
  | ub => rw [hw] at hs; cases hs

theorem fcgiStdout_kept (f : FClient) (len : Nat) (hc : f.c.code ≠ 0) : Kept f.c (fcgiStdout env f len).c := by
  unfold fcgiStdout
  rw [if_neg hc]
  exact Kept.rfl' _

theorem fcgiLoop_kept (n : Nat) : ∀ (f g : FClient), fcgiLoop' env n f = .ok g → f.c.code ≠ 0 → Kept f.c g.c := by
  induction n with
  | zero =>
    intro f g hl hc
    unfold fcgiLoop' at hl
    split at hl
    · have := fcgiStop_kept env _ g hl; exact this hc
    · split at hl
      · split at hl
        · have := fcgiStop_kept env _ g hl; exact this hc
        · dsimp only at hl
          split at hl
          · cases hl; exact Kept.rfl' _
          · cases hl
      · cases hl; exact Kept.rfl' _
  | succ n ih =>
    intro f g hl hc
    unfold fcgiLoop' at hl
    split at hl
    · have := fcgiStop_kept env _ g hl; exact this hc
    · split at hl
      · split at hl
        · have := fcgiStop_kept env _ g hl; exact this hc
        · dsimp only at hl
          split at hl
          · cases hl; exact Kept.rfl' _
          · split at hl
            · split at hl
              · have := fcgiStop_kept env _ g hl; exact this hc
              · exact Kept.trans (b := { f.c with type := .done }) ⟨rfl, .inr rfl⟩ (ih _ g hl hc)
            · split at hl
              · have := ih _ g hl; exact this hc
              · split at hl
                · have h1 := ih _ g hl
                  dsimp only at h1
                  rename_i b0 ty i1 i0 l1 l0 pad b7 rest heq g1 g2 g3 g4 g5
                  have h2 := fcgiStdout_kept env { f with src := rest } (l0.toNat + l1.toNat * 256) hc
                  exact h2.trans (h1 (by rw [h2.1]; exact hc))
                · have := fcgiStop_kept env _ g hl; exact this hc
      · cases hl; exact Kept.rfl' _

theorem proxyError_kept (f g : PClient) (he : proxyError env f = .ok g) (hc : f.c.code ≠ 0) : Kept f.c g.c ∧ g.phase = .over := by
  refine ⟨?_, (proxyError_setH env none f g he).2.1⟩
  unfold proxyError at he
  dsimp only at he
  rw [if_neg hc] at he
  cases hw : clientWrite env 0 none { f.c with pfd := -1, type := .done } with
  | ok c =>
    rw [hw] at he
    cases he
    exact Kept.trans (b := { f.c with pfd := -1, type := .done }) ⟨rfl, .inr rfl⟩ (clientWrite_kept env _ _ _ _ hw)
  | err => rw [hw] at he; cases he
  | ub => rw [hw] at he; cases he

theorem proxyStep_kept (ev : PEv) (f g : PClient) (hs : proxyStep env ev f = .ok g) (hc : f.c.code ≠ 0) (hp : f.phase ≠ .connecting) (hf : ∀ n, ev ≠ .flush n) :
    Kept f.c g.c ∧ g.phase ≠ .connecting := by
  have same : f = g → Kept f.c g.c ∧ g.phase ≠ .connecting := by
    rintro rfl; exact ⟨Kept.rfl' _, hp⟩
  unfold proxyStep at hs
  split at hs
  · exact same (by cases hs; rfl)
  · split at hs
    · rename_i h; exact absurd h hp
    · rename_i h; exact absurd h hp
    · rename_i h; exact absurd h hp
    · refine ⟨?_, (proxyRead_setH env none _ _ _ hs).2.1 hp⟩
      unfold proxyRead at hs
      dsimp only at hs
      rw [if_neg hc] at hs
      cases hs
      exact Kept.rfl' _
    · obtain ⟨h1, h2⟩ := proxyError_kept env _ _ hs hc
      exact ⟨h1, by rw [h2]; decide⟩
    · exact absurd rfl (hf _)
    · exact same (by cases hs; rfl)

/-- a settled connection stays settled, and neither the host nor the address is looked at -/
theorem connStep_kept (bufsiz : Nat) (ev : ConnEv) (k k' : Conn) (hs : connStep env bufsiz ev k = .ok k') (hc : k.c.code ≠ 0) (hp : k.phase ≠ .connecting)
    (hr : k.c.type ≠ .undecided ∨ ∀ d, ev = .readable (.got d) → d = []) :
    Kept k.c k'.c ∧ k'.phase ≠ .connecting ∧ usesHost ev k k' = false ∧ usesAddr ev k = false := by
  have hup : ∀ d, ev = .readable (.got d) → takesUp { k.c with inp := k.c.inp ++ d } = false ∨ d = [] := by
    intro d hd
    rcases hr with hr | hr
    · left; simp [takesUp, hr]
    · exact .inr (hr d hd)
  unfold connStep at hs
  by_cases hcl : k.c.closed = true
  · rw [if_pos hcl] at hs
    cases hs
    exact ⟨Kept.rfl' _, hp, by simp [usesHost, hcl], by simp [usesAddr, hcl]⟩
  · rw [if_neg hcl] at hs
    cases ev with
    | readable r =>
      have hu : usesHost (.readable r) k k' = false ∧ usesAddr (.readable r) k = false := by
        rcases r with d | _ | _
        · rcases hup d rfl with h | h
          · simp [usesHost, usesAddr, h]
          · simp [usesHost, usesAddr, h]
        · simp [usesHost, usesAddr]
        · simp [usesHost, usesAddr]
      refine and_assoc.mp ⟨?_, hu⟩
      dsimp only at hs
      split at hs
      · unfold connReadable at hs
        dsimp only at hs
        rcases r with (_ | ⟨a, b⟩) | _ | _
        · cases hs; exact ⟨⟨rfl, .inr rfl⟩, hp⟩
        · rcases hup _ rfl with h | h
          · dsimp only at hs
            have : clientRead env { k.c with inp := k.c.inp ++ (a :: b) } = .ok { k.c with inp := k.c.inp ++ (a :: b) } := by
              generalize ({ k.c with inp := k.c.inp ++ (a :: b) } : Client) = c at h ⊢
              unfold takesUp at h
              unfold clientRead
              by_cases hty : c.type = .undecided
              · have h1 : ¬ c.type ≠ .undecided := by simp [hty]
                rw [if_neg h1]
                simp only [hty, decide_true, Bool.true_and, Bool.or_eq_false_iff, decide_eq_false_iff_not] at h
                rw [if_neg h.1]
                cases hl : readLine c.inp with
                | none => rfl
                | some x => rw [hl] at h; simp at h
              · rw [if_pos hty]
            rw [this] at hs
            cases hs; exact ⟨⟨rfl, .inl rfl⟩, hp⟩
          · cases h
        · cases hs; exact ⟨⟨rfl, .inl rfl⟩, hp⟩
        · cases hs; exact ⟨⟨rfl, .inr rfl⟩, hp⟩
      · cases hs; exact ⟨Kept.rfl' _, hp⟩
    | writable r rd =>
      refine and_assoc.mp ⟨?_, by simp [usesHost], by simp [usesAddr]⟩
      dsimp only at hs
      split at hs
      · unfold connWritable at hs
        dsimp only at hs
        have fl : ∀ (c : Client) (k₁ k₂ : Conn), k₁.after (clientWrite env bufsiz rd c) = .ok k₂ → Kept c k₂.c ∧ k₂.phase = k₁.phase := by
          intro c k₁ k₂ ha
          cases hcw : clientWrite env bufsiz rd c with
          | ok c'' =>
            rw [hcw] at ha
            cases ha; exact ⟨clientWrite_kept env _ _ _ _ hcw, rfl⟩
          | err => rw [hcw] at ha; cases ha
          | ub => rw [hcw] at ha; cases ha
        by_cases ho : k.c.out = []
        · simp only [if_pos ho] at hs
          obtain ⟨h1, h2⟩ := fl _ _ _ hs
          exact ⟨h1, by rw [h2]; exact hp⟩
        · simp only [if_neg ho] at hs
          rcases r with n | _ | _
          · dsimp only at hs
            split at hs
            · obtain ⟨h1, h2⟩ := fl _ _ _ hs
              exact ⟨h1, by rw [h2]; exact hp⟩
            · cases hs; exact ⟨⟨rfl, .inl rfl⟩, hp⟩
          · cases hs; exact ⟨⟨rfl, .inl rfl⟩, hp⟩
          · cases hs; exact ⟨⟨rfl, .inr rfl⟩, hp⟩
      · cases hs; exact ⟨Kept.rfl' _, hp⟩
    | fcgiData b =>
      refine and_assoc.mp ⟨?_, by simp [usesHost, hc], by simp [usesAddr]⟩
      dsimp only at hs
      cases hf : fcgiRead env { c := k.c, sbuf := k.sbuf, src := k.fsrc } b with
      | ok f =>
        rw [hf] at hs
        unfold fcgiRead at hf
        cases hs
        exact ⟨fcgiLoop_kept env _ _ _ hf hc, hp⟩
      | err => rw [hf] at hs; cases hs
      | ub => rw [hf] at hs; cases hs
    | fcgiEnd =>
      refine and_assoc.mp ⟨?_, by simp [usesHost, hc], by simp [usesAddr]⟩
      cases hs
      exact ⟨fcgiError_kept env { c := k.c, sbuf := k.sbuf, src := k.fsrc } hc, hp⟩
    | proxy pe =>
      refine and_assoc.mp ⟨?_, by cases pe <;> simp [usesHost, hc, hp], by simp [usesAddr]⟩
      have fin : (∀ n, pe ≠ .flush n) → ∀ g, proxyStep env pe { c := k.c, phase := k.phase, src := k.psrc } = .ok g → Kept k.c g.c ∧ g.phase ≠ .connecting :=
        fun hn g hg => proxyStep_kept env pe _ g hg hc hp hn
      cases pe with
      | flush n => cases hs; exact ⟨Kept.rfl' _, hp⟩
      | handshake b =>
        dsimp only at hs
        cases hg : proxyStep env (.handshake b) { c := k.c, phase := k.phase, src := k.psrc } with
        | ok g => rw [hg] at hs; cases hs; exact fin (by simp) g hg
        | err => rw [hg] at hs; cases hs
        | ub => rw [hg] at hs; cases hs
      | timeout =>
        dsimp only at hs
        cases hg : proxyStep env .timeout { c := k.c, phase := k.phase, src := k.psrc } with
        | ok g => rw [hg] at hs; cases hs; exact fin (by simp) g hg
        | err => rw [hg] at hs; cases hs
        | ub => rw [hg] at hs; cases hs
      | data d =>
        dsimp only at hs
        cases hg : proxyStep env (.data d) { c := k.c, phase := k.phase, src := k.psrc } with
        | ok g => rw [hg] at hs; cases hs; exact fin (by simp) g hg
        | err => rw [hg] at hs; cases hs
        | ub => rw [hg] at hs; cases hs
      | eof =>
        dsimp only at hs
        cases hg : proxyStep env .eof { c := k.c, phase := k.phase, src := k.psrc } with
        | ok g => rw [hg] at hs; cases hs; exact fin (by simp) g hg
        | err => rw [hg] at hs; cases hs
        | ub => rw [hg] at hs; cases hs

end

/-! ## the process -/

theorem now_code (p : LProc) (l : LConn) : (l.now p).c.code = l.k.c.code ∧ (l.now p).c.type = l.k.c.type ∧ (l.now p).phase = l.k.phase ∧ (l.now p).c.closed = l.k.c.closed ∧
    (l.now p).rd = l.k.rd ∧ (l.now p).c.inp = l.k.c.inp ∧ ∃ h, l.now p = setHk h l.k := by
  unfold LConn.now
  split
  · exact ⟨rfl, rfl, rfl, rfl, rfl, rfl, l.k.c.host, rfl⟩
  · split
    · exact ⟨rfl, rfl, rfl, rfl, rfl, rfl, _, rfl⟩
    · exact ⟨rfl, rfl, rfl, rfl, rfl, rfl, l.k.c.host, rfl⟩

/-- nothing is looked at for a settled connection, whatever the outcome -/
theorem settled_unused (ev : ConnEv) (k k' : Conn) (hc : k.c.code ≠ 0) (hp : k.phase ≠ .connecting) (hr : k.c.type ≠ .undecided ∨ ∀ d, ev = .readable (.got d) → d = []) :
    usesHost ev k k' = false ∧ usesAddr ev k = false := by
  have hup : ∀ d, ev = .readable (.got d) → takesUp { k.c with inp := k.c.inp ++ d } = false ∨ d = [] := by
    intro d hd
    rcases hr with hr | hr
    · left; simp [takesUp, hr]
    · exact .inr (hr d hd)
  cases ev with
  | readable r =>
    rcases r with d | _ | _
    · rcases hup d rfl with h | h
      · simp [usesHost, usesAddr, h]
      · simp [usesHost, usesAddr, h]
    · simp [usesHost, usesAddr]
    · simp [usesHost, usesAddr]
  | writable r rd => simp [usesHost, usesAddr]
  | fcgiData b => simp [usesHost, usesAddr, hc]
  | fcgiEnd => simp [usesHost, usesAddr, hc]
  | proxy pe => cases pe <;> simp [usesHost, usesAddr, hc, hp]

theorem closed_unused (ev : ConnEv) (k k' : Conn) (hc : k.c.closed = true) : usesHost ev k k' = false ∧ usesAddr ev k = false := by
  constructor
  · simp [usesHost, hc]
  · simp [usesAddr, hc]

theorem relayBegins_kept (k k' : Conn) (h : Kept k.c k'.c) : relayBegins k k' = k' := by
  unfold relayBegins
  split
  · rename_i hh
    simp only [Bool.and_eq_true, decide_eq_true_eq] at hh
    rcases h.2 with e | e
    · rw [e] at hh; exact absurd hh.1 hh.2
    · rw [e] at hh; cases hh.1
  · rfl

/-- a step of a settled connection -/
theorem liveStep_settled (bufsiz : Nat) (env : Env) (ev : ConnEv) (p : LProc) (l : LConn) (hc : l.k.c.code ≠ 0) (hp : l.k.phase ≠ .connecting)
    (hr : l.k.c.type ≠ .undecided ∨ ∀ d, ev = .readable (.got d) → d = []) :
    liveStep bufsiz env ev p l = .other ∨
    ∃ l' k', connStep env bufsiz ev (l.now p) = .ok k' ∧ liveStep bufsiz env ev p l = .ok l' ∧ l' = { l with k := k' } ∧ Kept l.k.c k'.c ∧ k'.phase ≠ .connecting := by
  obtain ⟨n1, n2, n3, n4, n5, n6, n7⟩ := now_code p l
  have hu := fun k' => settled_unused ev (l.now p) k' (by rw [n1]; exact hc) (by rw [n3]; exact hp) (by rw [n2]; exact hr)
  have hrf : ∀ k', readsFreed p l ev (l.now p) k' = false := by
    intro k'
    unfold readsFreed
    rw [(hu k').1, (hu k').2]
    simp
  unfold liveStep
  cases hs : connStep env bufsiz ev (l.now p) with
  | ok k' =>
    right
    obtain ⟨e1, e2, -, -⟩ := connStep_kept env bufsiz ev _ _ hs (by rw [n1]; exact hc) (by rw [n3]; exact hp) (by rw [n2]; exact hr)
    refine ⟨_, k', rfl, ?_, rfl, ⟨by rw [e1.1, n1], by rw [← n2]; exact e1.2⟩, e2⟩
    dsimp only
    rw [hrf k', relayBegins_kept _ _ e1]
    rfl
  | err => left; dsimp only; rw [hrf]; rfl
  | ub => left; dsimp only; rw [hrf]; rfl

theorem liveStep_closed (bufsiz : Nat) (env : Env) (ev : ConnEv) (p : LProc) (l : LConn) (hc : l.k.c.closed = true) :
    ∃ l', liveStep bufsiz env ev p l = .ok l' ∧ l'.k.c.closed = true := by
  obtain ⟨n1, n2, n3, n4, n5, n6, n7⟩ := now_code p l
  have hcl : (l.now p).c.closed = true := by rw [n4]; exact hc
  have hs : connStep env bufsiz ev (l.now p) = .ok (l.now p) := by
    unfold connStep
    rw [if_pos hcl]
  have hu := closed_unused ev (l.now p) (l.now p) hcl
  refine ⟨{ l with k := l.now p }, ?_, hcl⟩
  unfold liveStep
  rw [hs]
  dsimp only
  rw [relayBegins_kept _ _ (Kept.rfl' _)]
  unfold readsFreed
  rw [hu.1, hu.2]
  simp

/-- the pointers of the connection are those of the configuration there is -/
def Valid (p : LProc) (l : LConn) : Prop := addrStale p l = false ∧ hostStale p l = false

theorem liveStep_valid (bufsiz : Nat) (env : Env) (ev : ConnEv) (p : LProc) (l : LConn) (hv : Valid p l) :
    liveStep bufsiz env ev p l ≠ .stale ∧ ∀ l', liveStep bufsiz env ev p l = .ok l' → Valid p l' := by
  have hrf : ∀ k k', readsFreed p l ev k k' = false := by
    intro k k'
    unfold readsFreed
    rw [hv.1, hv.2]
    simp
  unfold liveStep
  cases hs : connStep env bufsiz ev (l.now p) with
  | ok k' =>
    dsimp only
    rw [hrf]
    exact ⟨by simp, fun l' h => by cases h; exact hv⟩
  | err =>
    dsimp only
    rw [hrf]
    exact ⟨by simp, fun l' h => by cases h⟩
  | ub =>
    dsimp only
    rw [hrf]
    exact ⟨by simp, fun l' h => by cases h⟩

theorem liveShaken_valid (env : Env) (sni : Option Bytes) (p : LProc) (l : LConn) (hv : Valid p l) : ∃ l', liveShaken env sni p l = .ok l' ∧ Valid p l' := by
  unfold liveShaken
  rw [hv.1]
  refine ⟨_, rfl, hv.1, ?_⟩
  unfold hostStale
  dsimp only
  split
  · rfl
  · rename_i hh
    split at hh
    · cases hf : List.findIdx? (fun h => matchHost env.fnm h (connStart { env with hosts := p.hosts } sni {}).c.domain) p.hosts with
      | none => rw [hf] at hh; cases hh
      | some j => rw [hf] at hh; cases hh; simp
    · cases hh

theorem sendsNothing_tail {i : Nat} {e : LEv} {evs : List LEv} (h : SendsNothing i (e :: evs)) : SendsNothing i evs :=
  fun env data hm => h env data (List.mem_cons_of_mem _ hm)

theorem underWay_tail {i : Nat} {l : LConn} {e : LEv} {evs : List LEv} (h : ReplyUnderWay i l (e :: evs)) : ReplyUnderWay i l evs :=
  ⟨h.1, h.2.1, h.2.2.1, h.2.2.2.imp id sendsNothing_tail⟩

theorem underWay_step {i : Nat} {l : LConn} {evs : List LEv} {k' : Conn} (h : ReplyUnderWay i l evs) (hk : Kept l.k.c k'.c) (hp : k'.phase ≠ .connecting) :
    ReplyUnderWay i { l with k := k' } evs := by
  refine ⟨h.1, ?_, hp, ?_⟩
  · show k'.c.code ≠ 0
    rw [hk.1]; exact h.2.1
  · rcases h.2.2.2 with e | e
    · left
      show k'.c.type ≠ .undecided
      rcases hk.2 with e' | e'
      · rw [e']; exact e
      · rw [e']; decide
    · exact .inr e

/-- closed, up to date, or under way -/
def Safe (p : LProc) (i : Nat) (l : LConn) (evs : List LEv) : Prop := l.k.c.closed = true ∨ Valid p l ∨ ReplyUnderWay i l evs

def AllSafe (p : LProc) (evs : List LEv) : Prop := ∀ (i : Nat) (l : LConn), p.conns[i]? = some l → Safe p i l evs

theorem safe_tail {p : LProc} {i : Nat} {l : LConn} {e : LEv} {evs : List LEv} (h : Safe p i l (e :: evs)) : Safe p i l evs :=
  h.imp id (Or.imp id underWay_tail)

theorem put_safe {p : LProc} {i : Nat} {l l' : LConn} {evs : List LEv} (h : AllSafe p evs) (hl : p.conns[i]? = some l) (h' : Safe p i l' evs) :
    AllSafe { p with conns := p.conns.set i l' } evs := by
  intro j m hm
  show Safe p j m evs
  dsimp only at hm
  by_cases hij : i = j
  · subst hij
    rw [List.getElem?_set_self (by
      rcases List.getElem?_eq_some_iff.mp hl with ⟨w, -⟩; exact w)] at hm
    cases hm
    exact h'
  · rw [List.getElem?_set_ne hij] at hm
    exact h j m hm

theorem lstep_safe (bufsiz : Nat) (ev : LEv) (evs : List LEv) (p : LProc) (h : AllSafe p (ev :: evs))
    (hpurge : ev = .purge → ∀ (i : Nat) (l : LConn), p.conns[i]? = some l → l.k.c.closed = true ∨ ReplyUnderWay i l evs) :
    lstep bufsiz ev p ≠ .stale ∧ ∀ p', lstep bufsiz ev p = .ok p' → AllSafe p' evs := by
  have ht : AllSafe p evs := fun i l hl => safe_tail (h i l hl)
  have same : ∀ o, o = LOut.ok p → o ≠ .stale ∧ ∀ p', o = .ok p' → AllSafe p' evs := by
    rintro o rfl
    exact ⟨by simp, fun p' hp => by cases hp; exact ht⟩
  cases ev with
  | accept =>
    refine ⟨by simp [lstep], fun p' hp => ?_⟩
    cases hp
    intro j m hm
    dsimp only at hm
    rcases Nat.lt_or_ge j p.conns.length with hlt | hge
    · rw [List.getElem?_append_left hlt] at hm
      exact ht j m hm
    · rw [List.getElem?_append_right hge] at hm
      cases hd : j - p.conns.length with
      | zero =>
        rw [hd] at hm
        cases hm
        right; left
        exact ⟨by simp [addrStale], rfl⟩
      | succ n => rw [hd] at hm; simp at hm
  | hello i name =>
    unfold lstep
    dsimp only
    split
    · rename_i l hl
      split
      · rename_i hc
        simp only [Bool.and_eq_true, Bool.not_eq_true'] at hc
        rcases h i l hl with hx | hx | hx
        · rw [hx] at hc; simp at hc
        · rw [hx.1] at hc; simp at hc
        · rw [hx.1] at hc; simp at hc
      · exact same _ rfl
    · exact same _ rfl
  | shaken i env sni =>
    unfold lstep
    dsimp only
    split
    · rename_i l hl
      split
      · rename_i hc
        simp only [Bool.and_eq_true, Bool.not_eq_true'] at hc
        rcases h i l hl with hx | hx | hx
        · rw [hx] at hc; simp at hc
        · obtain ⟨l', e, v⟩ := liveShaken_valid env sni p l hx
          rw [e]
          exact ⟨by simp [LProc.put], fun p' hp => by cases hp; exact put_safe ht hl (.inr (.inl v))⟩
        · rw [hx.1] at hc; simp at hc
      · exact same _ rfl
    · exact same _ rfl
  | shakeFailed i =>
    unfold lstep
    dsimp only
    split
    · rename_i l hl
      split
      · exact ⟨by simp [LProc.put], fun p' hp => by cases hp; exact put_safe ht hl (.inl rfl)⟩
      · exact same _ rfl
    · exact same _ rfl
  | conn i env e =>
    unfold lstep
    dsimp only
    split
    · rename_i l hl
      split
      · exact same _ rfl
      · rcases h i l hl with hx | hx | hx
        · obtain ⟨l', e1, e2⟩ := liveStep_closed bufsiz env e p l hx
          rw [e1]
          exact ⟨by simp [LProc.put], fun p' hp => by cases hp; exact put_safe ht hl (.inl e2)⟩
        · obtain ⟨e1, e2⟩ := liveStep_valid bufsiz env e p l hx
          cases hls : liveStep bufsiz env e p l with
          | ok l' =>
            exact ⟨by simp [LProc.put], fun p' hp => by cases hp; exact put_safe ht hl (.inr (.inl (e2 l' hls)))⟩
          | stale => exact absurd hls e1
          | other => exact ⟨by simp [LProc.put], fun p' hp => by cases hp⟩
        · have hr : l.k.c.type ≠ .undecided ∨ ∀ d, e = .readable (.got d) → d = [] := by
            rcases hx.2.2.2 with hy | hy
            · exact .inl hy
            · right
              intro d hd
              subst hd
              exact hy env d (by simp)
          rcases liveStep_settled bufsiz env e p l hx.2.1 hx.2.2.1 hr with e1 | ⟨l', k', -, e1, e2, e3, e4⟩
          · rw [e1]
            exact ⟨by simp [LProc.put], fun p' hp => by cases hp⟩
          · rw [e1]
            refine ⟨by simp [LProc.put], fun p' hp => ?_⟩
            cases hp
            refine put_safe ht hl (.inr (.inr ?_))
            rw [e2]
            exact underWay_step (underWay_tail hx) e3 e4
    · exact same _ rfl
  | purge =>
    refine ⟨by simp [lstep], fun p' hp => ?_⟩
    cases hp
    intro j m hm
    exact (hpurge rfl j m hm).imp id .inr
  | conf hs =>
    refine ⟨by simp [lstep], fun p' hp => ?_⟩
    cases hp
    exact ht

theorem lrun_append (bufsiz : Nat) (a b : List LEv) : ∀ p p', lrun bufsiz a p = .ok p' → lrun bufsiz (a ++ b) p = lrun bufsiz b p' := by
  induction a with
  | nil => intro p p' h; cases h; rfl
  | cons e r ih =>
    intro p p' h
    rw [List.cons_append, lrun]
    rw [lrun] at h
    cases hs : lstep bufsiz e p with
    | ok q =>
      rw [hs] at h
      dsimp only at h ⊢
      exact ih q p' h
    | stale => rw [hs] at h; cases h
    | other => rw [hs] at h; cases h

theorem lrun_safe (bufsiz : Nat) (evs : List LEv) : ∀ (pre : List LEv) (p : LProc), lrun bufsiz pre {} = .ok p → ReloadsBetweenRequests bufsiz (pre ++ evs) →
    AllSafe p evs → lrun bufsiz evs p ≠ .stale := by
  induction evs with
  | nil => intro pre p _ _ _; simp [lrun]
  | cons e r ih =>
    intro pre p hp hb hs
    obtain ⟨h1, h2⟩ := lstep_safe bufsiz e r p hs (fun he i l hl => hb pre r p (by rw [he]) hp i l hl)
    rw [lrun]
    cases hst : lstep bufsiz e p with
    | ok q =>
      dsimp only
      refine ih (pre ++ [e]) q ?_ ?_ (h2 q hst)
      · rw [lrun_append bufsiz pre [e] _ _ hp, lrun, hst]
        rfl
      · rw [List.append_assoc]; exact hb
    | stale => exact absurd hst h1
    | other => simp

/-! ## the theorems -/

/-- **C118** (partial: the reload has to find every open connection with its reply under way; without that it is false, see below).  Whatever happens before, between and
after the reloads, memory of a configuration that was replaced is never read. -/
theorem C118_no_stale_partial (bufsiz : Nat) (evs : List LEv) (h : ReloadsBetweenRequests bufsiz evs) : lrun bufsiz evs {} ≠ .stale :=
  lrun_safe bufsiz evs [] {} rfl h (fun i l hl => by simp at hl)

/-- **C118** (partial, as above).  A connection whose reply is under way gets, in a process with any number of other connections and reloads, exactly what it would get if
there were nothing else. -/
theorem C118_carried_partial (bufsiz : Nat) (evs : List LEv) : ∀ (p p' : LProc) (i : Nat) (l : LConn), lrun bufsiz evs p = .ok p' → p.conns[i]? = some l → ReplyUnderWay i l evs →
    ∃ l' k', p'.conns[i]? = some l' ∧ connRun bufsiz (eventsOf i evs) l.k = .ok k' ∧ SameBut k' l'.k := by
  have gen : ∀ (p p' : LProc) (i : Nat) (l : LConn) (k : Conn), lrun bufsiz evs p = .ok p' → p.conns[i]? = some l → ReplyUnderWay i l evs → SameBut k l.k →
      ∃ l' k', p'.conns[i]? = some l' ∧ connRun bufsiz (eventsOf i evs) k = .ok k' ∧ SameBut k' l'.k := by
    induction evs with
    | nil =>
      intro p p' i l k h hl _ hk
      cases h
      exact ⟨l, k, hl, rfl, hk⟩
    | cons e r ih =>
      intro p p' i l k h hl hu hk
      rw [lrun] at h
      cases hst : lstep bufsiz e p with
      | stale => rw [hst] at h; cases h
      | other => rw [hst] at h; cases h
      | ok q =>
        rw [hst] at h
        dsimp only at h
        -- the connection is left alone
        have alone : q.conns[i]? = some l → eventsOf i (e :: r) = eventsOf i r →
            ∃ l' k', p'.conns[i]? = some l' ∧ connRun bufsiz (eventsOf i (e :: r)) k = .ok k' ∧ SameBut k' l'.k := by
          intro hq he
          rw [he]
          exact ih q p' i l k h hq (underWay_tail hu) hk
        have other : ∀ (j : Nat) (m : LConn), j ≠ i → q = { p with conns := p.conns.set j m } → q.conns[i]? = some l := by
          rintro j m hji rfl
          show (p.conns.set j m)[i]? = some l
          rw [List.getElem?_set_ne hji]; exact hl
        cases e with
        | accept =>
          cases hst
          refine alone ?_ rfl
          show (p.conns ++ _)[i]? = some l
          rw [List.getElem?_append_left (by rcases List.getElem?_eq_some_iff.mp hl with ⟨w, -⟩; exact w)]
          exact hl
        | hello j name =>
          refine alone ?_ rfl
          unfold lstep at hst
          dsimp only at hst
          split at hst
          · split at hst
            · cases hst
            · cases hst; exact hl
          · cases hst; exact hl
        | shaken j env sni =>
          refine alone ?_ rfl
          unfold lstep at hst
          dsimp only at hst
          split at hst
          · rename_i m hm
            split at hst
            · rename_i hc
              have hji : j ≠ i := by
                rintro rfl
                rw [hl] at hm
                cases hm
                rw [hu.1] at hc
                simp at hc
              cases hls : liveShaken env sni p m with
              | ok m' => rw [hls] at hst; cases hst; exact other j m' hji rfl
              | stale => rw [hls] at hst; cases hst
              | other => rw [hls] at hst; cases hst
            · cases hst; exact hl
          · cases hst; exact hl
        | shakeFailed j =>
          refine alone ?_ rfl
          unfold lstep at hst
          dsimp only at hst
          split at hst
          · rename_i m hm
            split at hst
            · rename_i hc
              have hji : j ≠ i := by
                rintro rfl
                rw [hl] at hm
                cases hm
                rw [hu.1] at hc
                simp at hc
              cases hst
              exact other j _ hji rfl
            · cases hst; exact hl
          · cases hst; exact hl
        | purge => cases hst; exact alone hl rfl
        | conf hs => cases hst; exact alone hl rfl
        | conn j env ev =>
          by_cases hji : j = i
          · subst hji
            unfold lstep at hst
            dsimp only at hst
            rw [hl] at hst
            dsimp only at hst
            rw [hu.1] at hst
            have hr : l.k.c.type ≠ .undecided ∨ ∀ d, ev = .readable (.got d) → d = [] := by
              rcases hu.2.2.2 with hy | hy
              · exact .inl hy
              · right
                intro d hd
                subst hd
                exact hy env d (by simp)
            rcases liveStep_settled bufsiz env ev p l hu.2.1 hu.2.2.1 hr with e1 | ⟨l', kn, e0, e1, e2, e3, e4⟩
            · rw [e1] at hst; cases hst
            · rw [e1] at hst
              cases hst
              obtain ⟨n1, n2, n3, n4, n5, n6, hh, n7⟩ := now_code p l
              obtain ⟨h0, hk0⟩ := hk
              -- back to the host it has alone
              have hback : setHk k.c.host (l.now p) = k := by
                rw [n7, hk0]; rfl
              have huse := settled_unused ev (l.now p) kn (by rw [n1]; exact hu.2.1) (by rw [n3]; exact hu.2.2.1) (by rw [n2]; exact hr)
              have hstep := connStep_setH env k.c.host bufsiz ev (l.now p) kn e0 huse.1
              rw [hback] at hstep
              have hev : eventsOf j (.conn j env ev :: r) = (env, ev) :: eventsOf j r := by
                simp [eventsOf]
              rw [hev, connRun, hstep]
              dsimp only
              refine ih _ p' j l' (setHk k.c.host kn) h ?_ ?_ ?_
              · dsimp only
                rw [List.getElem?_set_self (by rcases List.getElem?_eq_some_iff.mp hl with ⟨w, -⟩; exact w)]
              · rw [e2]
                exact underWay_step (underWay_tail hu) e3 e4
              · rw [e2]
                exact ⟨kn.c.host, rfl⟩
          · refine alone ?_ (by simp [eventsOf, hji])
            unfold lstep at hst
            dsimp only at hst
            split at hst
            · rename_i m hm
              split at hst
              · cases hst; exact hl
              · cases hls : liveStep bufsiz env ev p m with
                | ok m' => rw [hls] at hst; cases hst; exact other j m' hji rfl
                | stale => rw [hls] at hst; cases hst
                | other => rw [hls] at hst; cases hst
            · cases hst; exact hl
  intro p p' i l h hl hu
  exact gen p p' i l l.k h hl hu ⟨l.k.c.host, rfl⟩

/-! ### the requests a reload comes in between of -/

/-- no pointer is newer than the configuration -/
def Old (p : LProc) : Prop := ∀ l ∈ p.conns, l.addrAt ≤ p.purges ∧ ∀ g j, l.host = some (g, j) → g ≤ p.purges

theorem old_set {p : LProc} {i : Nat} {l : LConn} (h : Old p) (hl : l.addrAt ≤ p.purges ∧ ∀ g j, l.host = some (g, j) → g ≤ p.purges) :
    Old { p with conns := p.conns.set i l } := by
  intro m hm
  rcases List.mem_or_eq_of_mem_set hm with h' | h'
  · exact h m h'
  · subst h'; exact hl

theorem lstep_old (bufsiz : Nat) (ev : LEv) (p p' : LProc) (h : Old p) (hs : lstep bufsiz ev p = .ok p') : Old p' := by
  cases ev with
  | accept =>
    cases hs
    intro l hl
    rw [List.mem_append, List.mem_singleton] at hl
    rcases hl with hl | hl
    · exact h l hl
    · subst hl; exact ⟨Nat.le_refl _, fun _ _ e => by cases e⟩
  | hello i name =>
    unfold lstep at hs
    dsimp only at hs
    split at hs
    · split at hs
      · cases hs
      · cases hs; exact h
    · cases hs; exact h
  | shaken i env sni =>
    unfold lstep at hs
    dsimp only at hs
    split at hs
    · rename_i l hl
      have hm := h l (List.mem_of_getElem? hl)
      split at hs
      · unfold liveShaken at hs
        split at hs
        · cases hs
        · cases hs
          refine old_set h ⟨hm.1, ?_⟩
          intro g j e
          dsimp only at e
          split at e
          · cases hf : List.findIdx? (fun h => matchHost env.fnm h (connStart { env with hosts := p.hosts } sni {}).c.domain) p.hosts with
            | none => rw [hf] at e; cases e
            | some j' => rw [hf] at e; cases e; exact Nat.le_refl _
          · cases e
      · cases hs; exact h
    · cases hs; exact h
  | shakeFailed i =>
    unfold lstep at hs
    dsimp only at hs
    split at hs
    · rename_i l hl
      split at hs
      · cases hs; exact old_set h (h l (List.mem_of_getElem? hl))
      · cases hs; exact h
    · cases hs; exact h
  | conn i env ev =>
    unfold lstep at hs
    dsimp only at hs
    split at hs
    · rename_i l hl
      split at hs
      · cases hs; exact h
      · cases hls : liveStep bufsiz env ev p l with
        | ok l' =>
          rw [hls] at hs
          cases hs
          unfold liveStep at hls
          split at hls
          · split at hls
            · cases hls
            · cases hls; exact old_set h (h l (List.mem_of_getElem? hl))
          · split at hls
            · cases hls
            · cases hls
        | stale => rw [hls] at hs; cases hs
        | other => rw [hls] at hs; cases hs
    · cases hs; exact h
  | purge =>
    cases hs
    intro l hl
    exact ⟨Nat.le_succ_of_le (h l hl).1, fun g j e => Nat.le_succ_of_le ((h l hl).2 g j e)⟩
  | conf hs' => cases hs; exact h

theorem lrun_old (bufsiz : Nat) (evs : List LEv) : ∀ p p', Old p → lrun bufsiz evs p = .ok p' → Old p' := by
  induction evs with
  | nil => intro p p' h hr; cases hr; exact h
  | cons e r ih =>
    intro p p' h hr
    rw [lrun] at hr
    cases hs : lstep bufsiz e p with
    | ok q => rw [hs] at hr; exact ih q p' (lstep_old bufsiz e p q h hs) hr
    | stale => rw [hs] at hr; cases hr
    | other => rw [hs] at hr; cases hr

/-- a reload, then an event -/
theorem after_reload (bufsiz : Nat) (pre : List LEv) (hs : List Vhost) (e : LEv) (p : LProc) (h : lrun bufsiz pre {} = .ok p) :
    lrun bufsiz (pre ++ [.purge, .conf hs, e]) {} = lrun bufsiz [e] { p with purges := p.purges + 1, hosts := hs } ∧ Old p := by
  refine ⟨?_, lrun_old bufsiz pre {} p (fun l hl => by simp at hl) h⟩
  rw [lrun_append bufsiz pre _ _ _ h]
  rfl

theorem stale_now {p : LProc} {l : LConn} {hs : List Vhost} (ho : Old p) (hm : l ∈ p.conns) (hh : l.host ≠ none) :
    hostStale { p with purges := p.purges + 1, hosts := hs } l = true ∧ l.now { p with purges := p.purges + 1, hosts := hs } = l.k := by
  unfold hostStale LConn.now
  cases e : l.host with
  | none => exact absurd e hh
  | some x =>
    obtain ⟨g, j⟩ := x
    have := (ho l hm).2 g j e
    have hne : g ≠ p.purges + 1 := by omega
    simp [hne]

/-- an event of an established connection after a reload, if it reads the host -/
theorem conn_stale (bufsiz : Nat) (pre : List LEv) (hs : List Vhost) (p : LProc) (i : Nat) (l : LConn) (env : Env) (ev : ConnEv) (h : lrun bufsiz pre {} = .ok p)
    (hl : p.conns[i]? = some l) (hsh : l.shaking = false) (hh : l.host ≠ none) (hu : ∀ k', connStep env bufsiz ev l.k = .ok k' → usesHost ev l.k k' = true)
    (hu' : usesHost ev l.k l.k = true ∨ ∃ k', connStep env bufsiz ev l.k = .ok k') :
    lrun bufsiz (pre ++ [.purge, .conf hs, .conn i env ev]) {} = .stale := by
  obtain ⟨e, ho⟩ := after_reload bufsiz pre hs (.conn i env ev) p h
  rw [e, lrun]
  obtain ⟨e1, e2⟩ := stale_now (hs := hs) ho (List.mem_of_getElem? hl) hh
  have : lstep bufsiz (.conn i env ev) { p with purges := p.purges + 1, hosts := hs } = .stale := by
    unfold lstep
    dsimp only
    rw [hl]
    dsimp only
    rw [hsh]
    have : liveStep bufsiz env ev { p with purges := p.purges + 1, hosts := hs } l = .stale := by
      unfold liveStep
      rw [e2]
      cases hc : connStep env bufsiz ev l.k with
      | ok k' =>
        dsimp only
        unfold readsFreed
        rw [e1, hu k' hc]
        rfl
      | err =>
        dsimp only
        rcases hu' with hu' | ⟨k', hu'⟩
        · unfold readsFreed
          rw [e1, hu']
          rfl
        · rw [hc] at hu'; cases hu'
      | ub =>
        dsimp only
        rcases hu' with hu' | ⟨k', hu'⟩
        · unfold readsFreed
          rw [e1, hu']
          rfl
        · rw [hc] at hu'; cases hu'
    rw [this]
    rfl
  rw [this]

/-- **C118**, where it is false: a client that is connected and has not sent its request when the configuration is replaced.  Taking up its request reads the server it was
a client of, which is gone. -/
theorem C118_request_stale (bufsiz : Nat) (pre : List LEv) (hs : List Vhost) (p : LProc) (i : Nat) (l : LConn) (env : Env) (data a b : Bytes) (h : lrun bufsiz pre {} = .ok p)
    (hl : p.conns[i]? = some l) (hsh : l.shaking = false) (hcl : l.k.c.closed = false) (hh : l.host ≠ none) (hty : l.k.c.type = .undecided) (hrd : l.k.rd = true)
    (hd : data ≠ []) (hline : l.k.c.inp ++ data = a ++ b%"\r\n" ++ b) :
    lrun bufsiz (pre ++ [.purge, .conf hs, .conn i env (.readable (.got data))]) {} = .stale := by
  have hu : ∀ k', usesHost (.readable (.got data)) l.k k' = true := by
    intro k'
    have : readLine (l.k.c.inp ++ data) ≠ none := fun hn => (readLine_none _).1 hn a b hline
    have hs : (readLine (l.k.c.inp ++ data)).isSome = true := Option.isSome_iff_ne_none.mpr this
    simp [usesHost, takesUp, hcl, hrd, hd, hty, hs]
  exact conn_stale bufsiz pre hs p i l env _ h hl hsh hh (fun k' _ => hu k') (.inl (hu _))

/-- **C118**, where it is false: a relayed request whose upstream server has not finished its handshake when the configuration is replaced -/
theorem C118_upstream_stale (bufsiz : Nat) (pre : List LEv) (hs : List Vhost) (p : LProc) (i : Nat) (l : LConn) (env : Env) (good : Bool) (h : lrun bufsiz pre {} = .ok p)
    (hl : p.conns[i]? = some l) (hsh : l.shaking = false) (hcl : l.k.c.closed = false) (hh : l.host ≠ none) (hph : l.k.phase = .connecting) :
    lrun bufsiz (pre ++ [.purge, .conf hs, .conn i env (.proxy (.handshake good))]) {} = .stale := by
  have hu : ∀ k', usesHost (.proxy (.handshake good)) l.k k' = true := by
    intro k'
    simp [usesHost, hcl, hph]
  exact conn_stale bufsiz pre hs p i l env _ h hl hsh hh (fun k' _ => hu k') (.inl (hu _))

/-- **C118.** This is how every relay with TLS begins: with the handshake still to come. -/
theorem C118_relay_begins (bufsiz : Nat) (env : Env) (ev : ConnEv) (p : LProc) (l l' : LConn) (h : liveStep bufsiz env ev p l = .ok l')
    (h1 : l.k.c.type ≠ .proxy) (h2 : l'.k.c.type = .proxy) (x : Proxy) (hx : l'.k.c.effs.getLast? = some (.relay x)) :
    l'.k.phase = if x.notls then .relaying else .connecting := by
  unfold liveStep at h
  split at h
  · split at h
    · cases h
    · rename_i k' _ _
      cases h
      have hk : (relayBegins (l.now p) k').c = k'.c := by
        unfold relayBegins
        split
        · split <;> rfl
        · rfl
      dsimp only at h2 hx ⊢
      rw [hk] at h2 hx
      unfold relayBegins
      rw [if_pos (by rw [(now_code p l).2.1, h2]; simpa using h1), hx]
  · split at h
    · cases h
    · cases h

/-- **C118**, where it is false: a request whose application goes away after the configuration was replaced, without having sent a header -/
theorem C118_application_stale (bufsiz : Nat) (pre : List LEv) (hs : List Vhost) (p : LProc) (i : Nat) (l : LConn) (env : Env) (h : lrun bufsiz pre {} = .ok p)
    (hl : p.conns[i]? = some l) (hsh : l.shaking = false) (hcl : l.k.c.closed = false) (hh : l.host ≠ none) (hcode : l.k.c.code = 0) :
    lrun bufsiz (pre ++ [.purge, .conf hs, .conn i env .fcgiEnd]) {} = .stale := by
  have hstep : connStep env bufsiz .fcgiEnd l.k = l.k.after (.ok (fcgiError env { c := l.k.c, sbuf := l.k.sbuf, src := l.k.fsrc }).c) := by
    unfold connStep
    rw [if_neg (by rw [hcl]; decide)]
  refine conn_stale bufsiz pre hs p i l env _ h hl hsh hh (fun k' hk => ?_) (.inr ⟨_, hstep⟩)
  rw [hstep] at hk
  cases hk
  simp [usesHost, hcl, hcode, fcgiError_code]

/-- **C118**, where it is false: a client that has not finished its handshake when the configuration is replaced, and that names a server in its ClientHello -/
theorem C118_hello_stale (bufsiz : Nat) (pre : List LEv) (hs : List Vhost) (p : LProc) (i : Nat) (l : LConn) (name : Bytes) (h : lrun bufsiz pre {} = .ok p)
    (hl : p.conns[i]? = some l) (hsh : l.shaking = true) (hcl : l.k.c.closed = false) :
    lrun bufsiz (pre ++ [.purge, .conf hs, .hello i (some name)]) {} = .stale := by
  obtain ⟨e, ho⟩ := after_reload bufsiz pre hs (.hello i (some name)) p h
  rw [e, lrun]
  have := (ho l (List.mem_of_getElem? hl)).1
  have hst : addrStale { p with purges := p.purges + 1, hosts := hs } l = true := by
    unfold addrStale
    simp only [decide_eq_true_eq]
    omega
  unfold lstep
  dsimp only
  rw [hl]
  dsimp only
  rw [hsh, hcl, hst]
  rfl

/-- **C118**, where it is false: the same, for one that names none -/
theorem C118_noname_stale (bufsiz : Nat) (pre : List LEv) (hs : List Vhost) (p : LProc) (i : Nat) (l : LConn) (env : Env) (h : lrun bufsiz pre {} = .ok p)
    (hl : p.conns[i]? = some l) (hsh : l.shaking = true) (hcl : l.k.c.closed = false) :
    lrun bufsiz (pre ++ [.purge, .conf hs, .shaken i env none]) {} = .stale := by
  obtain ⟨e, ho⟩ := after_reload bufsiz pre hs (.shaken i env none) p h
  rw [e, lrun]
  have := (ho l (List.mem_of_getElem? hl)).1
  have hst : addrStale { p with purges := p.purges + 1, hosts := hs } l = true := by
    unfold addrStale
    simp only [decide_eq_true_eq]
    omega
  unfold lstep
  dsimp only
  rw [hl]
  dsimp only
  rw [hsh, hcl]
  unfold liveShaken
  rw [hst]
  rfl

/-- **C118**: a handshake that ends while the configuration is being replaced finds no server at all, whatever the old and the new configuration say -/
theorem C118_unknown_server (bufsiz : Nat) (pre : List LEv) (p : LProc) (i : Nat) (l : LConn) (env : Env) (name d : Bytes) (h : lrun bufsiz pre {} = .ok p)
    (hl : p.conns[i]? = some l) (hsh : l.shaking = true) (hcl : l.k.c.closed = false) (hn : env.puny name = some d) (hd : d ≠ []) :
    ∃ p' l', lrun bufsiz (pre ++ [.purge, .shaken i env (some name)]) {} = .ok p' ∧ p'.conns[i]? = some l' ∧ l'.k.c.code = 59 ∧
      l'.k.c.out = b%"59 Wrong/malformed host\r\n" ∧ l'.host = none := by
  rw [lrun_append bufsiz pre _ _ _ h]
  show ∃ p' l', lrun bufsiz [.shaken i env (some name)] { p with purges := p.purges + 1, hosts := [] } = .ok p' ∧ _
  rw [lrun]
  unfold lstep
  dsimp only
  rw [hl]
  dsimp only
  rw [hsh, hcl]
  have hnp : needsPp env (some name) = false := by
    show decide (env.puny name = some []) = false
    rw [hn]
    simp [hd]
  unfold liveShaken
  rw [hnp, Bool.and_false]
  have hk : (connStart { env with hosts := [] } (some name) {}).c = queueHeader { env with hosts := [] } { domain := d } 59 b%"Wrong/malformed host" (intDec 59 ++ c%' ' :: b%"Wrong/malformed host") := by
    show handshakeDone { env with hosts := [] } (some name) {} = _
    unfold handshakeDone
    dsimp only
    rw [hn]
    dsimp only
    rw [if_neg hd]
    exact startReply_short _ _ 59 b%"Wrong/malformed host" (by decide) (by decide)
  have hout : (connStart { env with hosts := [] } (some name) {}).c.out = b%"59 Wrong/malformed host\r\n" ∧ (connStart { env with hosts := [] } (some name) {}).c.code = 59 ∧
      (connStart { env with hosts := [] } (some name) {}).c.host = none := by
    rw [hk]
    exact ⟨rfl, rfl, rfl⟩
  refine ⟨_, { l with shaking := false, k := connStart { env with hosts := [] } (some name) {}, host := none }, rfl, ?_, hout.2.1, hout.1, rfl⟩
  dsimp only
  rw [hout.2.2]
  exact List.getElem?_set_self (by rcases List.getElem?_eq_some_iff.mp hl with ⟨w, -⟩; exact w)

/-! ### there are such histories -/

def exServed : List LEv := [.conf [exAppHost], .accept, .hello 0 (some b%"h"), .shaken 0 exAppEnv (some b%"h")]

def exAsks : LEv := .conn 0 exAppEnv (.readable (.got b%"gemini://h/a\r\n"))

/-- **C118**, refuted: one client connects, the very same configuration is loaded again, the client sends its request -/
theorem C118_not_always : ∃ evs : List LEv, ∃ hs : List Vhost, lrun 4 (evs ++ [.purge, .conf hs, exAsks]) {} = .stale ∧ (∃ p, lrun 4 (evs ++ [exAsks]) {} = .ok p) := by
  refine ⟨exServed, [exAppHost], ?_, ?_⟩
  · have : (lrun 4 (exServed ++ [.purge, .conf [exAppHost], exAsks]) {}).stale? = true := by decide +kernel
    cases h : lrun 4 (exServed ++ [.purge, .conf [exAppHost], exAsks]) {} with
    | stale => rfl
    | ok a => rw [h] at this; cases this
    | other => rw [h] at this; cases this
  · have : (lrun 4 (exServed ++ [exAsks]) {}).val?.isSome = true := by decide +kernel
    cases h : lrun 4 (exServed ++ [exAsks]) {} with
    | ok a => exact ⟨a, rfl⟩
    | stale => rw [h] at this; cases this
    | other => rw [h] at this; cases this

/-- the application has sent the header and half of the reply when the configuration is replaced; meanwhile somebody else connects and asks -/
def exCarried : List LEv :=
  exServed ++ [exAsks, .conn 0 exAppEnv (.fcgiData (exOut b%"20 a\r\nhello").wire)]

def exRest : List LEv :=
  [.purge, .conn 0 exAppEnv (.writable (.got 4) none), .conf [exAppHost], .accept, .shaken 1 exAppEnv (some b%"h"), .conn 0 exAppEnv (.fcgiData (exOut b%" there").wire),
   .conn 1 exAppEnv (.readable (.got b%"gemini://h/b\r\n")), .conn 0 exAppEnv (.writable (.got 20) none)]

example : (lrun 4 exCarried {}).val?.bind (fun p => p.conns[0]?.map fun l => (l.shaking, l.k.c.code, l.k.phase, l.k.c.closed)) = some (false, 20, .over, false) := by
  decide +kernel

example : (lrun 4 (exCarried ++ exRest) {}).val?.bind (fun p => p.conns[0]?.map fun l => (l.k.c.sent, l.k.c.out)) = some (b%"20 a\r\nhello there", []) := by
  decide +kernel

example : (lrun 4 (exCarried ++ exRest) {}).val?.bind (fun p => p.conns[1]?.map fun l => (l.k.c.iri.isSome, l.k.c.code, l.k.rd, l.host)) = some (true, 0, true, some (1, 0)) := by
  decide +kernel

theorem exCarried_ok : ReloadsBetweenRequests 4 (exCarried ++ exRest) := by
  intro pre post p he hp i l hl
  have hlen : pre = exCarried ∧ post = exRest.tail := by
    have hx : ∀ e ∈ exCarried, e ≠ .purge := by
      intro e he
      simp only [exCarried, exServed, exAsks, List.cons_append, List.nil_append, List.mem_cons, List.not_mem_nil, or_false] at he
      rcases he with h | h | h | h | h | h <;> (subst h; intro e; cases e)
    have hy : ∀ e ∈ exRest.tail, e ≠ .purge := by
      intro e he
      simp only [exRest, List.tail_cons, List.mem_cons, List.not_mem_nil, or_false] at he
      rcases he with h | h | h | h | h | h | h <;> (subst h; intro e; cases e)
    have he' : exCarried ++ .purge :: exRest.tail = pre ++ .purge :: post := he
    rcases List.append_eq_append_iff.mp he' with ⟨a, h1, h2⟩ | ⟨a, h1, h2⟩
    · cases a with
      | nil => simp at h1 h2; exact ⟨h1, h2.symm⟩
      | cons x a =>
        simp only [List.cons_append, List.cons.injEq] at h2
        exact absurd rfl (hy .purge (by rw [h2.2]; simp))
    · cases a with
      | nil => simp at h1 h2; exact ⟨h1.symm, h2⟩
      | cons x a =>
        simp only [List.cons_append, List.cons.injEq] at h2
        exact absurd rfl (hx .purge (by rw [h1, ← h2.1]; simp))
  obtain ⟨rfl, rfl⟩ := hlen
  have hv : (lrun 4 exCarried {}).val? = some p := by rw [hp]; rfl
  have hn : (lrun 4 exCarried {}).val?.map (fun p => p.conns.length) = some 1 := by decide +kernel
  have h0 : (lrun 4 exCarried {}).val?.bind (fun p => p.conns[0]?.map fun l => (l.shaking, l.k.c.code, l.k.phase)) = some (false, 20, .over) := by
    decide +kernel
  rw [hv] at hn h0
  simp only [Option.map_some, Option.some.injEq] at hn
  have hi : i = 0 := by
    rcases List.getElem?_eq_some_iff.mp hl with ⟨w, -⟩
    omega
  subst hi
  rw [Option.bind_some, hl] at h0
  simp only [Option.map_some, Option.some.injEq, Prod.mk.injEq] at h0
  right
  exact ⟨h0.1, by rw [h0.2.1]; decide, by rw [h0.2.2]; decide, .inr (fun env data hm => by
    simp [exRest] at hm)⟩

/-- the hypothesis of `C118_no_stale_partial` holds of it -/
example : lrun 4 (exCarried ++ exRest) {} ≠ .stale := C118_no_stale_partial 4 _ exCarried_ok

/-- the states `C118_request_stale`, `C118_hello_stale`, `C118_noname_stale`, `C118_unknown_server` and `C118_application_stale` are about -/
example : (lrun 4 exServed {}).val?.bind (fun p => p.conns[0]?.map fun l => (l.shaking, l.k.c.closed, l.host, l.k.c.type, l.k.rd)) = some (false, false, some (0, 0), .undecided, true) := by
  decide +kernel
example : (lrun 4 (exServed.take 2) {}).val?.bind (fun p => p.conns[0]?.map fun l => (l.shaking, l.k.c.closed)) = some (true, false) := by decide +kernel
example : (lrun 4 (exServed ++ [exAsks]) {}).val?.bind (fun p => p.conns[0]?.map fun l => (l.shaking, l.k.c.closed, l.host, l.k.c.code)) = some (false, false, some (0, 0), 0) := by
  decide +kernel

def exRelayHost : Vhost := { domain := b%"h", locs := [{ pat := [] }], proxies := [{ host := b%"up" }] }
def exRelayEnv : Env := { exEnv with relayConnect := fun _ => true, relayInit := fun _ => true, hosts := [exRelayHost] }

/-- that of `C118_upstream_stale` -/
example : (lrun 4 [.conf [exRelayHost], .accept, .shaken 0 exRelayEnv (some b%"h"), .conn 0 exRelayEnv (.readable (.got b%"gemini://h/a\r\n"))] {}).val?.bind
    (fun p => p.conns[0]?.map fun l => (l.shaking, l.k.c.closed, l.host, l.k.phase, l.k.c.type)) = some (false, false, some (0, 0), .connecting, .proxy) := by
  decide +kernel

end Gmid.Props
