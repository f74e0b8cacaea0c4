import Verif.Model.ProxyWait
import Verif.Props.ProxyProto

/-!
# C132: a connection with a PROXY header goes on as its bytes come
-/

set_option autoImplicit false

namespace Gmid.Props
open Gmid.Spec

variable {A : Type}

/-- how many bytes of the stream `S` have come -/
def cameOf (S : Bytes) (w : PWait) : Nat := S.length - w.st.sock.length + w.avail

/-- the server waits for the socket to become readable, and there is nothing in the socket: nothing happens until the client sends something -/
def Idle (w : PWait) : Prop := w.waiting = true ∧ w.avail = 0

/-- a call that gave the TLS layer nothing although the header has been read: it was the one that read the header -/
theorem readCb_want (num : Option Nat → Bytes → Option A) (name : A → Option Bytes) (line tail host : Bytes) (port : Nat)
    (hg : GoodHeader num name line host port) (b n : Nat) (hb : 1 ≤ b) (st g : RState) (h : GInv line tail host port st)
    (hr : readCb num name b n st = .ok g) (ho : g.out.length = st.out.length) (ht : g.hasTail = true) :
    g.out = [] ∧ g.data.length ≤ 107 ∧ g.data.length + g.sock.length = (line ++ tail).length := by
  obtain ⟨proto, data, readPos, hasTail, rhost, rserv, sock, out, failed⟩ := st
  obtain ⟨hf, h⟩ := h
  simp only at hf h ho
  subst hf
  unfold readCb at hr
  simp only [Bool.false_eq_true, if_false] at hr
  have hs107 := hg.ok_short
  rcases h with ⟨rfl, rfl, rfl, h5, h6⟩ | ⟨rfl, rfl, ⟨rfl, rfl, h3, h4⟩ | ⟨rfl, rfl, h4⟩⟩
  · simp only [Bool.not_true, Bool.false_eq_true, if_false] at hr
    rw [if_neg (by omega)] at hr
    generalize hkk : min n (108 - data.length - 1) = k at hr
    by_cases hnil : sock.take k = []
    · rw [if_pos hnil] at hr
      cases hr
      cases ht
    · rw [if_neg hnil] at hr
      have hS : (data ++ sock.take k) ++ sock.drop k = line ++ tail := by
        rw [List.append_assoc, List.take_append_drop, h5]
      have hDl : (data ++ sock.take k).length ≤ 107 := by simp; omega
      generalize hD : data ++ sock.take k = D at *
      cases hm : memmem D b%"\r\n" with
      | none => simp only [hm] at hr; cases hr; cases ht
      | some o =>
        cases o with
        | none => simp only [hm] at hr; cases hr; cases ht
        | some t =>
          simp only [hm] at hr
          cases hpp : ppParse num D with
          | reject => simp only [hpp] at hr; cases hr; cases ht
          | unknown => simp only [hpp] at hr; cases hr
          | accept pp c buf =>
            simp only [hpp] at hr
            have hbl : buf.length = D.length := by
              obtain ⟨-, t1, t2, t3, t4, line', tail', kk1, kk2, kk3, kk4, rfl, kk6⟩ := (ppParse_iff num D pp c buf).1 hpp
              obtain ⟨s1, s2, -, -, hline⟩ := kk1.shape
              have hh11 : D.take 11 = [80, 82, 79, 88, 89, 32, 84, 67, 80, if pp.fam = 4 then 52 else 54, 32] := by
                rw [kk4, hline]; simp
              have hl : line'.length = ([80, 82, 79, 88, 89, 32, 84, 67, 80, if pp.fam = 4 then 52 else 54, 32] ++ t1 ++ [0] ++ t2 ++ [0] ++ t3 ++ [0] ++ t4 ++ [0] ++ [c%'\n'] : Bytes).length := by
                rw [hline]; simp
              rw [kk6, hh11, List.length_append, ← hl, kk4, List.length_append]
            cases hn : name pp.src with
            | none => simp only [hn] at hr; cases hr; cases ht
            | some hh =>
              simp only [hn] at hr
              split at hr
              · cases hr
                refine ⟨rfl, by simp only; omega, ?_⟩
                rw [← hS]
                simp only [List.length_append]
                omega
              · cases hr; cases ht
  · simp only [Bool.not_true, Bool.false_eq_true, if_false, if_true] at hr
    exfalso
    have hl : 1 ≤ min b (data.length - readPos) := by omega
    split at hr <;> cases hr <;> simp at ho <;> omega
  · simp only [Bool.not_false, if_true] at hr
    cases hr
    cases ht

/-- what holds of a client that is connecting -/
def PWInv (line tail host : Bytes) (port : Nat) (w : PWait) : Prop :=
  GInv line tail host port w.st ∧ w.avail ≤ w.st.sock.length ∧ w.st.sock.length ≤ (line ++ tail).length ∧
  (w.waiting = true → w.st.hasTail = true → w.st.out = [] ∧ w.st.data.length ≤ 107 ∧ w.st.data.length + w.st.sock.length = (line ++ tail).length)

theorem readCb_sock (num : Option Nat → Bytes → Option A) (name : A → Option Bytes) (b n : Nat) (st g : RState) (h : readCb num name b n st = .ok g) :
    ∃ k, k ≤ n ∧ g.sock = st.sock.drop k := by
  unfold readCb at h
  by_cases h1 : st.failed = true
  · rw [if_pos h1] at h; cases h; exact ⟨0, by omega, rfl⟩
  rw [if_neg h1] at h
  by_cases h2 : (!st.proto) = true
  · rw [if_pos h2] at h; cases h; exact ⟨min n b, by omega, rfl⟩
  rw [if_neg h2] at h
  by_cases h3 : st.hasTail = true
  · rw [if_pos h3] at h
    simp only at h
    split at h <;> cases h <;> exact ⟨0, by omega, rfl⟩
  rw [if_neg h3] at h
  simp only at h
  split at h
  · cases h; exact ⟨0, by omega, rfl⟩
  generalize hkk : min n (108 - st.data.length - 1) = k at h
  split at h
  · cases h; exact ⟨0, by omega, rfl⟩
  repeat' split at h
  all_goals first | (cases h; exact ⟨k, by omega, rfl⟩) | cases h

theorem askOnce_inv (num : Option Nat → Bytes → Option A) (name : A → Option Bytes) (line tail host : Bytes) (port : Nat)
    (hg : GoodHeader num name line host port) (b : Nat) (hb : 1 ≤ b) (w : PWait) (h : PWInv line tail host port w) :
    ∃ w', askOnce num name b w = .ok w' ∧ PWInv line tail host port w' ∧ cameOf (line ++ tail) w' = cameOf (line ++ tail) w := by
  obtain ⟨h1, h2, h3, -⟩ := h
  obtain ⟨g, e, hi, -⟩ := readCb_good num name line tail host port hg b w.avail w.st h1
  obtain ⟨k, k1, k2⟩ := readCb_sock num name b w.avail w.st g e
  have k3 : g.sock.length = w.st.sock.length - k := by rw [k2, List.length_drop]
  refine ⟨_, by unfold askOnce; rw [e], ⟨hi, ?_, ?_, ?_⟩, ?_⟩
  · simp only; omega
  · simp only; omega
  · intro hw ht
    simp only [decide_eq_true_eq] at hw
    exact readCb_want num name line tail host port hg b w.avail hb w.st g h1 e hw ht
  · simp only [cameOf]; omega

theorem askLoop_inv (num : Option Nat → Bytes → Option A) (name : A → Option Bytes) (line tail host : Bytes) (port : Nat)
    (hg : GoodHeader num name line host port) (bs : List Nat) : ∀ w, (∀ b ∈ bs, 1 ≤ b) → PWInv line tail host port w →
    ∃ w', askLoop num name bs w = .ok w' ∧ PWInv line tail host port w' ∧ cameOf (line ++ tail) w' = cameOf (line ++ tail) w := by
  induction bs with
  | nil =>
    intro w _ h
    exact ⟨_, rfl, ⟨h.1, h.2.1, h.2.2.1, by simp⟩, rfl⟩
  | cons b bs ih =>
    intro w hb h
    obtain ⟨w1, e1, i1, c1⟩ := askOnce_inv num name line tail host port hg b (hb b (by simp)) w h
    rw [askLoop, e1]
    simp only
    by_cases hw : (w1.waiting || w1.st.failed) = true
    · rw [if_pos hw]; exact ⟨w1, rfl, i1, c1⟩
    · rw [if_neg hw]
      obtain ⟨w2, e2, i2, c2⟩ := ih w1 (fun x hx => hb x (by simp [hx])) i1
      exact ⟨w2, e2, i2, c2.trans c1⟩

/-- the number of bytes that have come with an event -/
def arrives : PWEv → Nat | .arrive n => n | .wake _ => 0

/-- the TLS layer asks for at least a byte -/
def AsksSome : PWEv → Prop | .arrive _ => True | .wake bs => ∀ b ∈ bs, 1 ≤ b

theorem pwStep_inv (num : Option Nat → Bytes → Option A) (name : A → Option Bytes) (line tail host : Bytes) (port : Nat)
    (hg : GoodHeader num name line host port) (e : PWEv) (he : AsksSome e) (w : PWait) (h : PWInv line tail host port w) :
    ∃ w', pwStep num name w e = .ok w' ∧ PWInv line tail host port w' ∧
      cameOf (line ++ tail) w' = min (cameOf (line ++ tail) w + arrives e) (line ++ tail).length := by
  have hlen := h.2.2.1
  have hav := h.2.1
  cases e with
  | arrive n =>
    refine ⟨_, rfl, ⟨h.1, by simp only; omega, h.2.2.1, h.2.2.2⟩, ?_⟩
    simp only [cameOf, arrives]; omega
  | wake bs =>
    unfold pwStep
    simp only
    split
    · refine ⟨w, rfl, h, ?_⟩
      simp only [cameOf, arrives]; omega
    · obtain ⟨w', e1, i1, c1⟩ := askLoop_inv num name line tail host port hg bs w he h
      refine ⟨w', e1, i1, ?_⟩
      rw [c1]
      simp only [cameOf, arrives]; omega

theorem pwRun_inv (num : Option Nat → Bytes → Option A) (name : A → Option Bytes) (line tail host : Bytes) (port : Nat)
    (hg : GoodHeader num name line host port) (es : List PWEv) : ∀ w, (∀ e ∈ es, AsksSome e) → PWInv line tail host port w →
    ∃ w', pwRun num name es w = .ok w' ∧ PWInv line tail host port w' ∧
      cameOf (line ++ tail) w' = min (cameOf (line ++ tail) w + (es.map arrives).sum) (line ++ tail).length := by
  induction es with
  | nil =>
    intro w _ h
    have := h.2.1
    have := h.2.2.1
    exact ⟨w, rfl, h, by simp only [cameOf, List.map_nil, List.sum_nil]; omega⟩
  | cons e es ih =>
    intro w he h
    obtain ⟨w1, e1, i1, c1⟩ := pwStep_inv num name line tail host port hg e (he e (by simp)) w h
    obtain ⟨w2, e2, i2, c2⟩ := ih w1 (fun x hx => he x (by simp [hx])) i1
    refine ⟨w2, by simp only [pwRun, e1]; exact e2, i2, ?_⟩
    rw [c2, c1]
    simp only [List.map_cons, List.sum_cons]
    omega

/-- **C132, in part.** A client behind a proxy sends a header and then `tail`.  However the bytes come, and however many the TLS layer asks for each time: if the server
waits for more and there is nothing in the socket, then the TLS layer has been given everything that has come after the header; or it has been given nothing, and no
more than 107 bytes have come.  (In part: it should have been given everything in any case, see C132_stall.) -/
theorem C132_given_partial (num : Option Nat → Bytes → Option A) (name : A → Option Bytes) (line tail host : Bytes) (port : Nat)
    (hg : GoodHeader num name line host port) (es : List PWEv) (he : ∀ e ∈ es, AsksSome e) (hs : (es.map arrives).sum ≤ (line ++ tail).length) :
    ∃ w, pwRun num name es { st := { proto := true, sock := line ++ tail } } = .ok w ∧ w.st.failed = false ∧
      (Idle w → w.st.out = tail.take ((es.map arrives).sum - line.length) ∨ (w.st.out = [] ∧ (es.map arrives).sum ≤ 107)) := by
  have h0 : PWInv line tail host port { st := { proto := true, sock := line ++ tail } } := by
    refine ⟨⟨rfl, Or.inl ⟨rfl, rfl, rfl, rfl, ?_⟩⟩, by simp, by simp, by simp⟩
    obtain ⟨l0, e, -⟩ := good_crlf num name line host port hg
    rw [e]; simp
  obtain ⟨w, e, i, c⟩ := pwRun_inv num name line tail host port hg es _ he h0
  refine ⟨w, e, i.1.1, ?_⟩
  rintro ⟨k1, k2⟩
  obtain ⟨⟨-, i1⟩, i2, i3, i4⟩ := i
  simp only [cameOf, k2] at c
  simp only [List.length_append] at c i3 i4
  rcases i1 with ⟨-, -, j1, j2, j3⟩ | ⟨-, -, ⟨-, j1, j2, j3⟩ | ⟨-, -, j1⟩⟩
  · left
    have := congrArg List.length j2
    simp only [List.length_append] at this
    rw [j1, show (es.map arrives).sum - line.length = 0 by omega]
    rfl
  · obtain ⟨m1, m2, m3⟩ := i4 k1 j1
    refine .inr ⟨m1, ?_⟩
    simp only [List.length_append] at hs
    simp only [List.length_append, Nat.sub_self, Nat.add_zero, Nat.zero_add] at c
    omega
  · left
    have := congrArg List.length j1
    simp only [List.length_append] at this hs
    simp only [List.length_append, Nat.sub_self, Nat.add_zero, Nat.zero_add] at c
    rw [← j1, List.take_left' (by omega)]

/-- **C132.** So if more than 107 bytes have come, the header among them, it has been given everything that has come after the header. -/
theorem C132_long_partial (num : Option Nat → Bytes → Option A) (name : A → Option Bytes) (line tail host : Bytes) (port : Nat)
    (hg : GoodHeader num name line host port) (es : List PWEv) (he : ∀ e ∈ es, AsksSome e) (hs : (es.map arrives).sum ≤ (line ++ tail).length)
    (hl : 107 < (es.map arrives).sum) :
    ∃ w, pwRun num name es { st := { proto := true, sock := line ++ tail } } = .ok w ∧ w.st.failed = false ∧
      (Idle w → w.st.out = tail.take ((es.map arrives).sum - line.length)) := by
  obtain ⟨w, h1, h2, h3⟩ := C132_given_partial num name line tail host port hg es he hs
  exact ⟨w, h1, h2, fun hi => (h3 hi).resolve_right (by omega)⟩

theorem pwRun_append (num : Option Nat → Bytes → Option A) (name : A → Option Bytes) (es es' : List PWEv) : ∀ w w', pwRun num name es w = .ok w' →
    pwRun num name (es ++ es') w = pwRun num name es' w' := by
  induction es with
  | nil => intro w w' h; cases h; rfl
  | cons e es ih =>
    intro w w' h
    simp only [pwRun, List.cons_append] at h ⊢
    cases hq : pwStep num name w e with
    | ok w1 => rw [hq] at h; exact ih w1 w' h
    | err => rw [hq] at h; cases h
    | ub => rw [hq] at h; cases h

/-- a plain connection stays one, and what is read goes to the TLS layer -/
theorem askLoop_plain (num : Option Nat → Bytes → Option A) (name : A → Option Bytes) (bs : List Nat) : ∀ w w', w.st.proto = false → askLoop num name bs w = .ok w' →
    w'.st.proto = false := by
  induction bs with
  | nil => intro w w' h1 h2; cases h2; exact h1
  | cons b bs ih =>
    intro w w' h1 h2
    have : ∀ g, readCb num name b w.avail w.st = .ok g → g.proto = false := by
      intro g hr
      unfold readCb at hr
      by_cases hf : w.st.failed = true
      · rw [if_pos hf] at hr; cases hr; exact h1
      · rw [if_neg hf, if_pos (by rw [h1]; rfl)] at hr; cases hr; exact h1
    simp only [askLoop, askOnce] at h2
    cases hq : readCb num name b w.avail w.st with
    | ok g =>
      rw [hq] at h2
      simp only at h2
      split at h2
      · cases h2; exact this g hq
      · exact ih _ w' (this g hq) h2
    | err => rw [hq] at h2; cases h2
    | ub => rw [hq] at h2; cases h2

theorem pwRun_plain (num : Option Nat → Bytes → Option A) (name : A → Option Bytes) (es : List PWEv) : ∀ w w', w.st.proto = false → pwRun num name es w = .ok w' →
    w'.st.proto = false := by
  induction es with
  | nil => intro w w' h1 h2; cases h2; exact h1
  | cons e es ih =>
    intro w w' h1 h2
    simp only [pwRun] at h2
    cases hq : pwStep num name w e with
    | ok w1 =>
      rw [hq] at h2
      refine ih w1 w' ?_ h2
      cases e with
      | arrive n => cases hq; exact h1
      | wake bs =>
        simp only [pwStep] at hq
        split at hq
        · cases hq; exact h1
        · exact askLoop_plain num name bs w w1 h1 hq
    | err => rw [hq] at h2; cases h2
    | ub => rw [hq] at h2; cases h2

/-- **C132.** If the server has read the header before anything after it has come (`es`; the event loop is then at rest), everything that comes later (`es'`) is given to the
TLS layer. -/
theorem C132_apart_partial (num : Option Nat → Bytes → Option A) (name : A → Option Bytes) (line tail host : Bytes) (port : Nat)
    (hg : GoodHeader num name line host port) (es es' : List PWEv) (he : ∀ e ∈ es ++ es', AsksSome e) (hs : ((es ++ es').map arrives).sum ≤ (line ++ tail).length)
    (w : PWait) (hw : pwRun num name es { st := { proto := true, sock := line ++ tail } } = .ok w) (hi : Idle w) (hh : (es.map arrives).sum = line.length) :
    ∃ w', pwRun num name es' w = .ok w' ∧ w'.st.failed = false ∧ (Idle w' → w'.st.out = tail.take (es'.map arrives).sum) := by
  have h0 : PWInv line tail host port { st := { proto := true, sock := line ++ tail } } := by
    refine ⟨⟨rfl, Or.inl ⟨rfl, rfl, rfl, rfl, ?_⟩⟩, by simp, by simp, by simp⟩
    obtain ⟨l0, e, -⟩ := good_crlf num name line host port hg
    rw [e]; simp
  obtain ⟨w1, e, i, c⟩ := pwRun_inv num name line tail host port hg es _ (fun e he' => he e (by simp [he'])) h0
  rw [hw] at e; cases e
  obtain ⟨w', e', i', c'⟩ := pwRun_inv num name line tail host port hg es' w (fun e he' => he e (by simp [he'])) i
  refine ⟨w', e', i'.1.1, ?_⟩
  have hp : w.st.proto = false := by
    obtain ⟨⟨-, i1⟩, i2, i3, i4⟩ := i
    obtain ⟨k1, k2⟩ := hi
    simp only [cameOf, k2, List.length_append, Nat.sub_self, Nat.add_zero, Nat.zero_add] at c i3 i4
    rcases i1 with ⟨-, -, j1, j2, j3⟩ | ⟨-, -, ⟨-, j1, j2, j3⟩ | ⟨j0, -, j1⟩⟩
    · have := congrArg List.length j2
      simp only [List.length_append] at this
      omega
    · obtain ⟨m1, m2, m3⟩ := i4 k1 j1
      have := congrArg List.length j3
      simp [m1] at this
      omega
    · exact j0
  rintro ⟨k1, k2⟩
  have hp' := pwRun_plain num name es' w w' hp e'
  obtain ⟨⟨-, i1⟩, i2, i3, -⟩ := i'
  rcases i1 with ⟨j0, -⟩ | ⟨-, -, ⟨j0, -⟩ | ⟨-, -, j1⟩⟩
  · rw [hp'] at j0; cases j0
  · rw [hp'] at j0; cases j0
  · have := congrArg List.length j1
    rw [c] at c'
    simp only [cameOf, k2, List.length_append, Nat.sub_self, Nat.add_zero, Nat.zero_add, List.map_append, List.sum_append] at this c' hs
    rw [← j1, List.take_left' (by omega)]

/-- a header, and 50 bytes that might be the first message of a TLS client -/
def exStallLine : Bytes := b%"PROXY TCP4 1.2.3.4 5.6.7.8 65535 80\r\n"
def exHello (n : Nat) : Bytes := [0x16, 3, 1, 0, 45, 1, 0, 0, 41] ++ List.replicate n 3

/-- **C132.** What is missing: a header and a short message that come together.  The server has read them, waits for the socket to become readable, and the TLS layer has
been given nothing; whatever the event loop does, this stays so until the client sends something, which waits for the answer. -/
theorem C132_stall : ∃ w, pwRun exNum exName [.wake [5], .arrive (exStallLine ++ exHello 41).length, .wake [5, 45]] { st := { proto := true, sock := exStallLine ++ exHello 41 } } = .ok w ∧
    Idle w ∧ w.st.out = [] ∧ w.st.sock = [] ∧ ∀ (bss : List (List Nat)), pwRun exNum exName (bss.map .wake) w = .ok w := by
  refine ⟨_, rfl, ⟨by decide +kernel, by decide +kernel⟩, by decide +kernel, by decide +kernel, ?_⟩
  intro bss
  induction bss with
  | nil => rfl
  | cons bs bss ih => exact ih

/-- with a longer message, or in two pieces -/
example : ((pwRun exNum exName [.wake [5], .arrive (exStallLine ++ exHello 141).length, .wake [5, 45], .wake [5, 45, 100, 100, 5]]
      { st := { proto := true, sock := exStallLine ++ exHello 141 } }).val?.map fun w => (w.st.out, w.avail)) = some (exHello 141, 0) ∧
    ((pwRun exNum exName [.arrive exStallLine.length, .wake [5], .arrive 50, .wake [5, 45, 5]]
      { st := { proto := true, sock := exStallLine ++ exHello 41 } }).val?.map fun w => (w.st.out, w.avail, w.waiting)) = some (exHello 41, 0, true) := by decide +kernel

example : GoodHeader exNum exName exStallLine b%"1.2.3.4" 65535 := exHeader

end Gmid.Props
