import Verif.Spec.Server

set_option autoImplicit false

namespace Gmid
open Spec

/-! ## decimal numerals -/

theorem natDecAux_acc (f n : Nat) (acc : Bytes) : natDecAux f n acc = natDecAux f n [] ++ acc := by
  induction f generalizing n acc with
  | zero => simp [natDecAux]
  | succ f ih =>
    simp only [natDecAux]
    split
    · simp
    · rw [ih, ih (n / 10) [_]]; simp

theorem natDecAux_fuel (f g n : Nat) (hf : n < f) (hg : n < g) : natDecAux f n [] = natDecAux g n [] := by
  induction f generalizing n g with
  | zero => omega
  | succ f ih =>
    obtain ⟨g, rfl⟩ : ∃ k, g = k + 1 := ⟨g - 1, by omega⟩
    simp only [natDecAux]
    split
    · rfl
    · rw [natDecAux_acc, natDecAux_acc g, ih g (n / 10) (by omega) (by omega)]

theorem natDec_small (n : Nat) (h : n < 10) : natDec n = [UInt8.ofNat (48 + n)] := by
  have h1 : n / 10 = 0 := by omega
  have h2 : n % 10 = n := by omega
  simp [natDec, natDecAux, h1, h2]

theorem natDec_step (n : Nat) (h : 10 ≤ n) : natDec n = natDec (n / 10) ++ [UInt8.ofNat (48 + n % 10)] := by
  have h1 : n / 10 ≠ 0 := by omega
  simp only [natDec, natDecAux]
  rw [if_neg h1, natDecAux_acc, natDecAux_fuel n (n / 10 + 1) (n / 10) (by omega) (by omega)]
  rfl

theorem natDec_numeral (n : Nat) : Numeral n (natDec n) := by
  have hdig : ∀ d, d < 10 → UInt8.ofNat (48 + d) ∈ b%"0123456789" ∧ (UInt8.ofNat (48 + d)).toNat - 48 = d ∧
      (UInt8.ofNat (48 + d) = 48 → d = 0) := by
    intro d hd
    have : ∀ x ∈ List.range 10, UInt8.ofNat (48 + x) ∈ b%"0123456789" ∧ (UInt8.ofNat (48 + x)).toNat - 48 = x ∧
      (UInt8.ofNat (48 + x) = 48 → x = 0) := by decide
    exact this d (List.mem_range.2 hd)
  induction n using Nat.strongRecOn with
  | ind n ih =>
    by_cases h : n < 10
    · rw [natDec_small n h]
      obtain ⟨h1, h2, h3⟩ := hdig n h
      refine ⟨by simp, fun x hx => ?_, ?_, ?_⟩
      · rw [List.mem_singleton] at hx; rw [hx]; exact h1
      · simp only [decimal, List.foldl_cons, List.foldl_nil, Nat.zero_mul, Nat.zero_add]; exact h2
      · intro he; simp only [List.head?_cons, Option.some.injEq] at he
        rw [he]
    · rw [natDec_step n (by omega)]
      obtain ⟨i1, i2, i3, i4⟩ := ih (n / 10) (by omega)
      obtain ⟨h1, h2, -⟩ := hdig (n % 10) (by omega)
      refine ⟨by simp, fun x hx => ?_, ?_, ?_⟩
      · rcases List.mem_append.1 hx with hx | hx
        · exact i2 x hx
        · rw [List.mem_singleton] at hx; rw [hx]; exact h1
      · simp only [decimal, List.foldl_append, List.foldl_cons, List.foldl_nil] at i3 ⊢
        rw [i3, h2]; omega
      · intro he
        have he' : (natDec (n / 10)).head? = some 48 := by
          cases hx : natDec (n / 10) with
          | nil => exact absurd hx i1
          | cons y ys => rw [hx] at he; simpa using he
        have := i4 he'
        rw [this] at i3
        simp [decimal] at i3; omega

theorem foldl_dec_ge (l : Bytes) (k : Nat) : k ≤ l.foldl (fun n d => n * 10 + (d.toNat - 48)) k := by
  induction l generalizing k with
  | nil => simp
  | cons x r ih => simp only [List.foldl_cons]; exact Nat.le_trans (by omega) (ih _)

theorem numeral_unique (n : Nat) (ds : Bytes) (h : Numeral n ds) : ds = natDec n := by
  induction n using Nat.strongRecOn generalizing ds with
  | ind n ih =>
    obtain ⟨h1, h2, h3, h4⟩ := h
    have hsp : ds = ds.dropLast ++ [ds.getLast h1] := (List.dropLast_concat_getLast h1).symm
    generalize hi : ds.dropLast = init at hsp
    generalize hl : ds.getLast h1 = d at hsp
    subst hsp
    have hdig : ∀ d : UInt8, d ∈ b%"0123456789" → d.toNat - 48 < 10 ∧ UInt8.ofNat (48 + (d.toNat - 48)) = d ∧
        (d ≠ 48 → 1 ≤ d.toNat - 48) := by decide +kernel
    obtain ⟨k1, k2, -⟩ := hdig d (h2 d (by simp))
    simp only [decimal, List.foldl_append, List.foldl_cons, List.foldl_nil] at h3
    cases hin : init with
    | nil =>
      subst hin
      simp only [List.foldl_nil, Nat.zero_mul, Nat.zero_add] at h3
      subst h3
      rw [natDec_small _ k1, k2]; rfl
    | cons x xs =>
      have hx : x ≠ 48 := by
        intro e
        have := h4 (by simp [hin, e])
        have := congrArg List.length this
        simp [hin] at this
      have hpos : 1 ≤ init.foldl (fun n d => n * 10 + (d.toNat - 48)) 0 := by
        rw [hin]; simp only [List.foldl_cons]
        have := foldl_dec_ge xs (0 * 10 + (x.toNat - 48))
        have := (hdig x (h2 x (by simp [hin]))).2.2 hx
        omega
      have hv : init.foldl (fun n d => n * 10 + (d.toNat - 48)) 0 = n / 10 := by omega
      have hm : d.toNat - 48 = n % 10 := by omega
      have := ih (n / 10) (by omega) init ⟨by simp [hin], fun y hy => h2 y (by simp [hy]), hv, by
        intro e; rw [hin] at e; simp at e; exact absurd e hx⟩
      rw [← hin, natDec_step n (by omega), ← this, ← hm, k2]

/-! ## start_reply -/

section
variable (env : Env)

theorem intDec_pos (n : Nat) : intDec n = natDec n := by
  have : ¬ (n : Int) < 0 := by omega
  simp [intDec, this]

@[simp] theorem intDec_20 : intDec 20 = b%"20" := by decide
@[simp] theorem intDec_30 : intDec 30 = b%"30" := by decide
@[simp] theorem intDec_40 : intDec 40 = b%"40" := by decide
@[simp] theorem intDec_42 : intDec 42 = b%"42" := by decide
@[simp] theorem intDec_43 : intDec 43 = b%"43" := by decide
@[simp] theorem intDec_51 : intDec 51 = b%"51" := by decide
@[simp] theorem intDec_53 : intDec 53 = b%"53" := by decide
@[simp] theorem intDec_59 : intDec 59 = b%"59" := by decide
@[simp] theorem intDec_60 : intDec 60 = b%"60" := by decide
@[simp] theorem intDec_61 : intDec 61 = b%"61" := by decide

/-- every outcome of start_reply -/
theorem startReply_cases (c : Client) (code : Int) (mt : Bytes) :
    (∃ hdr, startReply env c code mt = queueHeader env c code mt hdr ∧ hdr.length ≤ 1027 ∧
      (hdr = intDec code ++ c%' ' :: mt ∨
        ∃ lang, mt = b%"text/gemini" ∧ c.type ≠ .fcgi ∧ c.type ≠ .proxy ∧
          vhostLang env.fnm c.host c.path? = some lang ∧
          hdr = intDec code ++ c%' ' :: mt ++ b%";lang=" ++ lang)) ∨
    (startReply env c code mt = replyOverflow env c ∧
      (1027 < (intDec code ++ c%' ' :: mt).length ∨
        ∃ lang, mt = b%"text/gemini" ∧ vhostLang env.fnm c.host c.path? = some lang ∧
          1027 < (intDec code ++ c%' ' :: mt ++ b%";lang=" ++ lang).length)) := by
  unfold startReply
  simp only
  split
  · rename_i h; right; exact ⟨rfl, .inl h⟩
  · rename_i h
    split
    · rename_i lang hl
      split at hl
      · rename_i hc
        simp only [Bool.and_eq_true, decide_eq_true_eq] at hc
        split
        · rename_i h'
          right; exact ⟨rfl, .inr ⟨lang, hc.2, hl, h'⟩⟩
        · rename_i h'
          left; exact ⟨_, rfl, by omega, .inr ⟨lang, hc.2, hc.1.1, hc.1.2, hl, rfl⟩⟩
      · cases hl
    · left; exact ⟨_, rfl, by omega, .inl rfl⟩

theorem startReply_short (c : Client) (code : Int) (mt : Bytes) (h1 : mt ≠ b%"text/gemini")
    (h2 : (intDec code).length + 1 + mt.length ≤ 1027) :
    startReply env c code mt = queueHeader env c code mt (intDec code ++ c%' ' :: mt) := by
  unfold startReply
  simp only
  rw [if_neg (by simp; omega)]
  simp [h1]

/-- how a reply changes a connection -/
structure Replied (c c' : Client) (code : Int) : Prop where
  host : c'.host = c.host
  domain : c'.domain = c.domain
  iri : c'.iri = c.iri
  inp : c'.inp = c.inp
  sent : c'.sent = c.sent
  pfd : c'.pfd = c.pfd
  dir : c'.dir = c.dir
  closed : c'.closed = c.closed
  rcode : c'.code = code
  type : c'.type = if code ≠ 20 then .done else c.type
  effs : ∃ e, c'.effs = c.effs ++ e ∧ OnlyReply code e

theorem queueHeader_replied (c : Client) (code : Int) (mt hdr : Bytes) :
    Replied c (queueHeader env c code mt hdr) code := by
  refine ⟨rfl, rfl, rfl, rfl, rfl, rfl, rfl, rfl, rfl, rfl, ?_⟩
  refine ⟨[.header code hdr] ++ (if vhostDisableLog env.fnm c.host c.path? = true then [] else [.log code mt]),
    by simp only [queueHeader, List.append_assoc], hdr, ?_⟩
  split
  · left; rfl
  · right; exact ⟨mt, rfl⟩

theorem replyOverflow_replied (c : Client) : Replied c (replyOverflow env c) 40 := by
  have := queueHeader_replied env { c with out := [] } 40 b%"internal error" b%"40 internal error"
  obtain ⟨h1, h2, h3, h4, h5, h6, h7, h8, h9, h10, h11⟩ := this
  exact ⟨h1, h2, h3, h4, h5, h6, h7, h8, h9, h10, h11⟩

theorem startReply_replied (c : Client) (code : Int) (mt : Bytes) :
    Replied c (startReply env c code mt) code ∨ Replied c (startReply env c code mt) 40 := by
  rcases startReply_cases env c code mt with ⟨hdr, h, -⟩ | ⟨h, -⟩
  · left; rw [h]; exact queueHeader_replied _ _ _ _ _
  · right; rw [h]; exact replyOverflow_replied _ _

theorem startReply_replied_short (c : Client) (code : Int) (mt : Bytes) (h1 : mt ≠ b%"text/gemini")
    (h2 : (intDec code).length + 1 + mt.length ≤ 1027) :
    Replied c (startReply env c code mt) code := by
  rw [startReply_short env c code mt h1 h2]; exact queueHeader_replied _ _ _ _ _

end

/-! ## reading a line -/

theorem readLine_some (s l t : Bytes) : readLine s = some (l, t) →
    s = l ++ b%"\r\n" ++ t ∧ ∀ a b, l ++ b%"\r" = a ++ b%"\r\n" ++ b → False := by
  induction s generalizing l with
  | nil => simp [readLine]
  | cons c r ih =>
    intro h
    unfold readLine at h
    split at h
    · cases h
    · rename_i r' heq
      cases heq
      simp only [Option.some.injEq, Prod.mk.injEq] at h
      obtain ⟨rfl, rfl⟩ := h
      refine ⟨rfl, fun a b e => ?_⟩
      have := congrArg List.length e
      simp at this; omega
    · rename_i c' r' hne heq
      cases heq
      cases hr : readLine r with
      | none => simp [hr] at h
      | some p =>
        obtain ⟨l', t'⟩ := p
        simp [hr] at h
        obtain ⟨rfl, rfl⟩ := h
        obtain ⟨h1, h2⟩ := ih l' hr
        refine ⟨by simp [h1], fun a b e => ?_⟩
        cases a with
        | nil =>
          simp at e
          obtain ⟨rfl, e⟩ := e
          cases l' with
          | nil => simp at e
          | cons x l' =>
            simp at e
            exact hne (l' ++ [13, 10] ++ t') rfl (by rw [h1]; simp [e.1])
        | cons x a =>
          simp at e
          exact h2 a b (by simpa using e.2)

theorem readLine_append (l t : Bytes) (h : ∀ a b, l ++ b%"\r" = a ++ b%"\r\n" ++ b → False) :
    readLine (l ++ b%"\r\n" ++ t) = some (l, t) := by
  induction l with
  | nil => simp [readLine]
  | cons c r ih =>
    have hr : ∀ a b, r ++ b%"\r" = a ++ b%"\r\n" ++ b → False := by
      intro a b e
      exact h (c :: a) b (by simpa using e)
    have hi := ih hr
    simp only [List.cons_append] at hi ⊢
    unfold readLine
    split
    · rename_i heq; cases heq
    · rename_i r' heq
      exfalso
      simp only [List.cons.injEq] at heq
      obtain ⟨rfl, e⟩ := heq
      cases r with
      | nil => simp at e
      | cons x r =>
        simp at e
        exact h [] (r ++ [13]) (by simp [e.1])
    · rename_i c' r' _ heq
      cases heq
      simp at hi ⊢
      simp [hi]

theorem readLine_none (s : Bytes) : readLine s = none ↔ ∀ a b, s = a ++ b%"\r\n" ++ b → False := by
  induction s with
  | nil => simp [readLine]
  | cons c r ih =>
    constructor
    · intro h a b e
      unfold readLine at h
      split at h
      · rename_i heq; cases heq
      · cases h
      · rename_i c' r' hne heq
        cases heq
        have hr : readLine r = none := by
          cases hr : readLine r with
          | none => rfl
          | some p => simp [hr] at h
        cases a with
        | nil => simp at e; exact hne b (by simp [e.1]) (by simp [e.2])
        | cons x a => simp at e; exact ih.1 hr a b (by simpa using e.2)
    · intro h
      unfold readLine
      split
      · rfl
      · rename_i r' heq; cases heq; exact (h [] r' (by simp)).elim
      · rename_i c' r' hne heq
        cases heq
        have : readLine r = none := ih.2 (fun a b e => h (c :: a) b (by simp [e]))
        simp [this]

end Gmid
