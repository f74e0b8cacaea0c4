import Verif.Model.Exec
import Verif.Spec.Exec
import Verif.Props.Compat
import Verif.Lemmas.Server
set_option autoImplicit false
namespace Gmid
open Gmid.Spec

theorem cmdline_head {args : List Bytes} {os : List (UInt8 × Bytes)} (h : CmdLine args os) (a : Bytes) (rest : List Bytes) (he : args = a :: rest) :
    ∃ c r, a = c%'-' :: c :: r ∧ c ∈ flagLetters ++ argLetters := by
  cases h with
  | nil => cases he
  | flag c rest os hc _ => cases he; exact ⟨c, [], rfl, by simp [hc]⟩
  | apart c v rest os hc _ => cases he; exact ⟨c, [], rfl, by simp [hc]⟩
  | joined c v rest os hc _ _ => cases he; exact ⟨c, v, rfl, by simp [hc]⟩
  | cluster c r rest os hc _ _ => cases he; exact ⟨c, r, rfl, by simp [hc]⟩

theorem letter_ne {c : UInt8} (h : c ∈ flagLetters ++ argLetters) : c ≠ c%'-' := by
  intro e; subst e; revert h; decide

theorem flag_lookup {c : UInt8} (h : c ∈ flagLetters) : gmidOpts.lookup c = some false := by
  simp only [flagLetters, List.mem_cons, List.not_mem_nil, or_false] at h
  rcases h with h | h | h | h | h <;> subst h <;> rfl

theorem arg_lookup {c : UInt8} (h : c ∈ argLetters) : gmidOpts.lookup c = some true := by
  simp only [argLetters, List.mem_cons, List.not_mem_nil, or_false] at h
  rcases h with h | h | h <;> subst h <;> rfl

/-- an argument with letters -/
theorem getopt_letters (c : UInt8) (r : Bytes) (rest : List Bytes) (hc : c ≠ c%'-') :
    getopt ((c%'-' :: c :: r) :: rest) =
      match optCluster (c :: r) with
      | (os, none) => (os ++ (getopt rest).1, (getopt rest).2)
      | (os, some c) =>
        match rest with
        | [] => (os ++ [(c%'?', [])], [])
        | v :: rest => (os ++ (c, v) :: (getopt rest).1, (getopt rest).2) := by
  rw [getopt]
  rw [if_neg (by intro e; simp at e; exact hc e.1), if_neg (by intro e; simp at e; exact hc e), if_pos ⟨rfl, by intro e; simp at e⟩]
  rfl

theorem cmdline_getopt {args : List Bytes} {os : List (UInt8 × Bytes)} (h : CmdLine args os) (tail : List Bytes) :
    getopt (args ++ tail) = (os ++ (getopt tail).1, (getopt tail).2) := by
  induction h with
  | nil => rfl
  | flag c rest os hc _ ih =>
    rw [List.cons_append, getopt_letters c [] _ (letter_ne (by simp [hc]))]
    simp [optCluster, flag_lookup hc, ih]
  | apart c v rest os hc _ ih =>
    rw [List.cons_append, List.cons_append, getopt_letters c [] _ (letter_ne (by simp [hc]))]
    simp [optCluster, arg_lookup hc, ih]
  | joined c v rest os hc hv _ ih =>
    rw [List.cons_append, getopt_letters c v _ (letter_ne (by simp [hc]))]
    simp [optCluster, arg_lookup hc, ih, hv]
  | cluster c r rest os hc h' hr ih =>
    rw [List.cons_append, getopt_letters c r _ (letter_ne (by simp [hc]))]
    obtain ⟨c', r', e, hc'⟩ := cmdline_head h' _ _ rfl
    have e : r = c' :: r' := by simpa using e
    subst e
    rw [List.cons_append, getopt_letters c' r' _ (letter_ne hc')] at ih
    rw [optCluster, flag_lookup hc]
    dsimp only
    rcases hx : optCluster (c' :: r') with ⟨o, m⟩
    rw [hx] at ih
    cases m with
    | none => dsimp only at ih ⊢; rw [Prod.mk.injEq] at ih ⊢; exact ⟨by rw [List.cons_append, ih.1]; rfl, ih.2⟩
    | some m =>
      dsimp only at ih ⊢
      split at ih <;> rw [Prod.mk.injEq] at ih <;> simp only [Prod.mk.injEq, List.cons_append] <;> exact ⟨by rw [ih.1], ih.2⟩

/-- the fields the undocumented options set -/
def MainOpts.childPart (o : MainOpts) : Nat × Int × Int × Option Bytes × Option Bytes × Option Bytes :=
  (o.procId, o.inst, o.nprocs, o.title, o.user, o.chroot)

def Documented (os : List (UInt8 × Bytes)) : Prop := ∀ x ∈ os, x.1 ∈ flagLetters ++ argLetters

theorem cmdline_documented {args : List Bytes} {os : List (UInt8 × Bytes)} (h : CmdLine args os) : Documented os := by
  induction h with
  | nil => intro x hx; cases hx
  | flag c rest os hc _ ih | apart c v rest os hc _ ih | joined c v rest os hc _ _ ih | cluster c r rest os hc _ _ ih =>
    intro x hx
    rcases List.mem_cons.mp hx with e | hx
    · subst e; simp [hc]
    · exact ih x hx

theorem mainOpt_doc (wd : Bytes) (o : MainOpts) (x : UInt8 × Bytes) (hx : x.1 ∈ flagLetters ++ argLetters) (o' : MainOpts)
    (h : mainOpt wd o x = .go o') :
    o'.childPart = o.childPart ∧ o'.conftest = o.conftest + (if x.1 = c%'n' then 1 else 0) ∧
      o'.config = (if x.1 = c%'c' then absolutify wd x.2 else o.config) ∧
      o'.pidfile = (if x.1 = c%'P' then some (absolutify wd x.2) else o.pidfile) ∧ x.1 ≠ c%'h' ∧ x.1 ≠ c%'V' := by
  obtain ⟨c, v⟩ := x
  simp only [flagLetters, argLetters, List.mem_cons, List.not_mem_nil, or_false, List.mem_append] at hx
  rcases hx with (hx | hx | hx | hx | hx) | (hx | hx | hx) <;> subst hx <;> simp [mainOpt] at h
  case inr.inr.inl => 
    split at h
    · cases h
    · cases h; simp [MainOpts.childPart]
  all_goals subst h; simp [MainOpts.childPart]

theorem mainOpt_sim (wd wd' : Bytes) (o p : MainOpts) (x : UInt8 × Bytes) (hx : x.1 ∈ flagLetters ++ argLetters) (o' : MainOpts)
    (hs : p.syms = o.syms) (h : mainOpt wd o x = .go o') : ∃ p', mainOpt wd' p x = .go p' ∧ p'.syms = o'.syms := by
  obtain ⟨c, v⟩ := x
  simp only [flagLetters, argLetters, List.mem_cons, List.not_mem_nil, or_false, List.mem_append] at hx
  rcases hx with (hx | hx | hx | hx | hx) | (hx | hx | hx) <;> subst hx <;> simp [mainOpt, hs] at h ⊢
  case inr.inr.inl => 
    split at h
    · cases h
    · cases h; exact ⟨_, rfl, rfl⟩
  all_goals subst h; simp [hs]

theorem mainOptsGo_doc (wd : Bytes) (os : List (UInt8 × Bytes)) (hd : Documented os) : ∀ (o o' : MainOpts), mainOptsGo wd o os = .go o' →
    o'.childPart = o.childPart ∧ o'.conftest = o.conftest + os.countP (fun x => x.1 = c%'n') ∧
      o'.config = (match lastArg c%'c' os with | some v => absolutify wd v | none => o.config) ∧
      o'.pidfile = (match lastArg c%'P' os with | some v => some (absolutify wd v) | none => o.pidfile) ∧
      ∀ x ∈ os, x.1 ≠ c%'h' ∧ x.1 ≠ c%'V' := by
  induction os with
  | nil => intro o o' h; simp [mainOptsGo] at h; subst h; simp [lastArg]
  | cons x r ih =>
    intro o o' h
    rw [mainOptsGo] at h
    split at h
    · cases h
    · rename_i o1 h1
      have a := mainOpt_doc wd o x (hd x (by simp)) o1 h1
      have b := ih (fun y hy => hd y (by simp [hy])) o1 o' h
      refine ⟨b.1.trans a.1, ?_, ?_, ?_, ?_⟩
      · rw [b.2.1, a.2.1, List.countP_cons]; simp only [decide_eq_true_eq]; omega
      · rw [b.2.2.1, a.2.2.1, lastArg]
        cases lastArg c%'c' r <;> simp <;> split <;> simp_all
      · rw [b.2.2.2.1, a.2.2.2.1, lastArg]
        cases lastArg c%'P' r <;> simp <;> split <;> simp_all
      · intro y hy
        rcases List.mem_cons.mp hy with e | hy
        · subst e; exact a.2.2.2.2
        · exact b.2.2.2.2 y hy

theorem mainOptsGo_sim (wd wd' : Bytes) (os : List (UInt8 × Bytes)) (hd : Documented os) : ∀ (o p o' : MainOpts), p.syms = o.syms →
    mainOptsGo wd o os = .go o' → ∃ p', mainOptsGo wd' p os = .go p' ∧ p'.syms = o'.syms := by
  induction os with
  | nil => intro o p o' hs h; simp [mainOptsGo] at h; subst h; exact ⟨p, rfl, hs⟩
  | cons x r ih =>
    intro o p o' hs h
    rw [mainOptsGo] at h
    split at h
    · cases h
    · rename_i o1 h1
      obtain ⟨p1, e1, hs1⟩ := mainOpt_sim wd wd' o p x (hd x (by simp)) o1 hs h1
      rw [mainOptsGo, e1]
      exact ih (fun y hy => hd y (by simp [hy])) o1 p1 o' hs1 h

theorem strtonum_dec (i : Nat) (h : i ≤ 16) : strtonum (natDec i) 0 16 = ((i : Int), none) := by
  have : ∀ i : Fin 17, strtonum (natDec i.val) 0 16 = ((i.val : Int), none) := by decide +kernel
  exact this ⟨i, by omega⟩

/-- the prefix of the arguments of a child -/
def childPre (title : Bytes) (u : Option (Bytes × Bytes)) (n i : Nat) : List Bytes :=
  [b%"-T", title] ++ (match u with | some (a, b) => [b%"-U", a, b%"-X", b] | none => []) ++ [b%"-J", natDec n, b%"-I", natDec i]

theorem getopt_pair (c : UInt8) (v : Bytes) (rest : List Bytes) (h : gmidOpts.lookup c = some true) (hc : c ≠ c%'-') :
    getopt ([c%'-', c] :: v :: rest) = ((c, v) :: (getopt rest).1, (getopt rest).2) := by
  rw [getopt_letters c [] _ hc]
  simp [optCluster, h]

theorem getopt_childPre (title : Bytes) (u : Option (Bytes × Bytes)) (n i : Nat) (rest : List Bytes) :
    (getopt (childPre title u n i ++ rest)).1 =
      [(c%'T', title)] ++ (match u with | some (a, b) => [(c%'U', a), (c%'X', b)] | none => []) ++ [(c%'J', natDec n), (c%'I', natDec i)] ++ (getopt rest).1 := by
  unfold childPre
  cases u with
  | none =>
    simp only [List.cons_append, List.nil_append]
    rw [show b%"-T" = [c%'-', c%'T'] from rfl, show b%"-J" = [c%'-', c%'J'] from rfl, show b%"-I" = [c%'-', c%'I'] from rfl]
    rw [getopt_pair _ _ _ rfl (by decide), getopt_pair _ _ _ rfl (by decide), getopt_pair _ _ _ rfl (by decide)]
  | some u =>
    obtain ⟨a, b⟩ := u
    simp only [List.cons_append, List.nil_append]
    rw [show b%"-T" = [c%'-', c%'T'] from rfl, show b%"-J" = [c%'-', c%'J'] from rfl, show b%"-I" = [c%'-', c%'I'] from rfl, show b%"-U" = [c%'-', c%'U'] from rfl, show b%"-X" = [c%'-', c%'X'] from rfl]
    rw [getopt_pair _ _ _ rfl (by decide), getopt_pair _ _ _ rfl (by decide), getopt_pair _ _ _ rfl (by decide), getopt_pair _ _ _ rfl (by decide), getopt_pair _ _ _ rfl (by decide)]

/-- the options before those of the parent -/
theorem mainArgs_childPre (wd dflt a0 title : Bytes) (u : Option (Bytes × Bytes)) (n i : Nat) (rest : List Bytes) (ht : procGetid title ≠ procMax)
    (hn : n ≤ 16) (hi : i ≤ 16) :
    mainArgs wd dflt (a0 :: (childPre title u n i ++ rest)) =
      mainOptsGo wd { config := dflt, title := some title, procId := procGetid title, nprocs := n, inst := i, user := u.map (·.1), chroot := u.map (·.2) }
        (getopt rest).1 := by
  unfold mainArgs
  rw [List.drop_succ_cons, List.drop_zero, getopt_childPre]
  cases u with
  | none => simp [mainOptsGo, mainOpt, ht, strtonum_dec n hn, strtonum_dec i hi]
  | some u => simp [mainOptsGo, mainOpt, ht, strtonum_dec n hn, strtonum_dec i hi]

end Gmid
