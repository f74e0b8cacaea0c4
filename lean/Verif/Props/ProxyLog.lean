import Verif.Spec.ProxyLog
import Verif.Model.ProxyLog
import Verif.Props.ProxyProto
import Verif.Props.Dump
import Verif.Lemmas.Server

/-!
# C146: the log says who connected through which proxy
-/

set_option autoImplicit false

namespace Gmid.Props
open Gmid.Spec

section
variable {A : Type}

/-- **C146**, for the addresses that have a name: the line of the log names the addresses and the ports that are in the header, and it is not cut off. -/
theorem C146_logged_partial (num : Option Nat → Bytes → Option A) (name : A → Option Bytes) (hn : NumericNames name) (buf : Bytes) (pp : PP1 A) (n : Nat) (b' : Bytes)
    (h : ppParse num buf = .accept pp n b') (a d : Bytes) (ha : name pp.src = some a) (hd : name pp.dst = some d) :
    ∃ line, ppLogged num name buf = .ok (some line) ∧ LogLine line a pp.sport d pp.dport := by
  obtain ⟨_, _, _, _, _, line, _, hl, _⟩ := (ppParse_iff num buf pp n b').1 h
  have l1 := natDec_len 4 pp.sport (by have := hl.ok_sport.2.2; omega)
  have l2 := natDec_len 4 pp.dport (by have := hl.ok_dport.2.2; omega)
  have l3 := hn.short _ _ ha
  have l4 := hn.short _ _ hd
  refine ⟨b%"proxy-protocol v1: " ++ (b%"from " ++ a ++ b%" port " ++ natDec pp.sport ++ b%" via " ++ d ++ b%" port " ++ natDec pp.dport), ?_,
    natDec pp.sport, natDec pp.dport, natDec_numeral _, natDec_numeral _, by simp⟩
  unfold ppLogged
  rw [h]
  simp only [ha]
  unfold ppString
  simp only [ha, hd]
  rw [List.take_of_length_le]
  simp only [List.length_append, List.length_cons, List.length_nil]
  omega

theorem digits_no_space (n : Nat) : (32 : UInt8) ∉ natDec n := by
  intro h
  have := natDec_digit n 32 h
  revert this
  decide

theorem one_word {x y r s : Bytes} (h : x ++ 32 :: r = y ++ 32 :: s) (hx : (32 : UInt8) ∉ x) (hy : (32 : UInt8) ∉ y) : x = y ∧ r = s := by
  have e1 := (cutAt_iff 32 (x ++ 32 :: r) x r).2 ⟨rfl, hx⟩
  have e2 := (cutAt_iff 32 (x ++ 32 :: r) y s).2 ⟨h, hy⟩
  rw [e1] at e2
  simpa using e2

/-- **C146.** Who reads such a line can tell the client and the proxy, and their ports. -/
theorem C146_read (line a d a' d' : Bytes) (p q p' q' : Nat) (h : LogLine line a p d q) (h' : LogLine line a' p' d' q')
    (ha : (32 : UInt8) ∉ a) (hd : (32 : UInt8) ∉ d) (ha' : (32 : UInt8) ∉ a') (hd' : (32 : UInt8) ∉ d') : a = a' ∧ p = p' ∧ d = d' ∧ q = q' := by
  obtain ⟨ps, qs, n1, n2, e⟩ := h
  obtain ⟨ps', qs', n1', n2', e'⟩ := h'
  have := numeral_unique _ _ n1
  have := numeral_unique _ _ n2
  have := numeral_unique _ _ n1'
  have := numeral_unique _ _ n2'
  subst_vars
  have x : a ++ 32 :: (b%"port " ++ (natDec p ++ 32 :: (b%"via " ++ (d ++ 32 :: (b%"port " ++ natDec q))))) =
      a' ++ 32 :: (b%"port " ++ (natDec p' ++ 32 :: (b%"via " ++ (d' ++ 32 :: (b%"port " ++ natDec q'))))) := by
    simpa using e'
  obtain ⟨e1, x⟩ := one_word x ha ha'
  obtain ⟨e2, x⟩ := one_word (List.append_cancel_left x) (digits_no_space _) (digits_no_space _)
  obtain ⟨e3, x⟩ := one_word (List.append_cancel_left x) hd hd'
  have e4 := List.append_cancel_left x
  exact ⟨e1, by rw [← decValue_natDec p, e2, decValue_natDec], e3, by rw [← decValue_natDec q, e4, decValue_natDec]⟩

/-- **C146.** Two connections of which the log says the same are from the same address and port, through the same ones. -/
theorem C146_told_apart (num : Option Nat → Bytes → Option A) (name : A → Option Bytes) (hn : NumericNames name) (buf buf' : Bytes) (pp pp' : PP1 A) (n n' : Nat)
    (b b' : Bytes) (h : ppParse num buf = .accept pp n b) (h' : ppParse num buf' = .accept pp' n' b') (named : (name pp.src).isSome ∧ (name pp.dst).isSome)
    (named' : (name pp'.src).isSome ∧ (name pp'.dst).isSome) (same : ppLogged num name buf = ppLogged num name buf') :
    pp.src = pp'.src ∧ pp.sport = pp'.sport ∧ pp.dst = pp'.dst ∧ pp.dport = pp'.dport := by
  obtain ⟨a, ha⟩ := Option.isSome_iff_exists.1 named.1
  obtain ⟨d, hd⟩ := Option.isSome_iff_exists.1 named.2
  obtain ⟨a', ha'⟩ := Option.isSome_iff_exists.1 named'.1
  obtain ⟨d', hd'⟩ := Option.isSome_iff_exists.1 named'.2
  obtain ⟨l, e, hl⟩ := C146_logged_partial num name hn buf pp n b h a d ha hd
  obtain ⟨l', e', hl'⟩ := C146_logged_partial num name hn buf' pp' n' b' h' a' d' ha' hd'
  rw [e, e'] at same
  cases same
  obtain ⟨rfl, h2, rfl, h4⟩ := C146_read _ _ _ _ _ _ _ _ _ hl hl' (hn.word _ _ ha) (hn.word _ _ hd) (hn.word _ _ ha') (hn.word _ _ hd')
  exact ⟨hn.inj _ _ _ ha ha', h2, hn.inj _ _ _ hd hd', h4⟩

/-- **C146.** Of a header that is not accepted nothing of this is logged. -/
theorem C146_rejected (num : Option Nat → Bytes → Option A) (name : A → Option Bytes) (buf : Bytes) (h : ppParse num buf = .reject) :
    ppLogged num name buf = .ok none := by
  unfold ppLogged; rw [h]

/-- C146 is false of the code when there is no name for the address of the proxy (getnameinfo(3) can run out of memory): a buffer that was not initialised is logged -/
theorem C146_no_name_undefined (num : Option Nat → Bytes → Option A) (name : A → Option Bytes) (buf : Bytes) (pp : PP1 A) (n : Nat) (b : Bytes)
    (h : ppParse num buf = .accept pp n b) (hs : (name pp.src).isSome) (hd : name pp.dst = none) : ppLogged num name buf = .ub := by
  obtain ⟨a, ha⟩ := Option.isSome_iff_exists.1 hs
  unfold ppLogged
  rw [h]
  simp only [ha]
  unfold ppString
  simp only [ha, hd]

end

/-! ## a concrete case -/

/-- the addresses are their texts -/
def textNum : Option Nat → Bytes → Option Bytes := fun _ t => some t

/-- names of short words -/
def textName : Bytes → Option Bytes := fun t => if t.length ≤ 64 ∧ (32 : UInt8) ∉ t then some t else none

theorem textName_ok : NumericNames textName := by
  have key : ∀ a t, textName a = some t → a = t ∧ t.length ≤ 64 ∧ (32 : UInt8) ∉ t := by
    intro a t h
    unfold textName at h
    by_cases hc : a.length ≤ 64 ∧ (32 : UInt8) ∉ a
    · rw [if_pos hc] at h; cases h; exact ⟨rfl, hc⟩
    · rw [if_neg hc] at h; cases h
  exact ⟨fun a t h => (key a t h).2.1, fun a t h => (key a t h).2.2, fun a b t h h' => (key a t h).1.trans (key b t h').1.symm⟩

def aHeader : Bytes := b%"PROXY TCP4 192.0.2.7 198.51.100.1 40000 1965\r\n"

example : ∃ pp n b, ppParse textNum aHeader = .accept pp n b ∧ textName pp.src = some b%"192.0.2.7" ∧ textName pp.dst = some b%"198.51.100.1" :=
  ⟨{ fam := 4, src := b%"192.0.2.7", dst := b%"198.51.100.1", sport := 40000, dport := 1965 }, aHeader.length,
    b%"PROXY TCP4 192.0.2.7" ++ [0] ++ b%"198.51.100.1" ++ [0] ++ b%"40000" ++ [0] ++ b%"1965" ++ [0] ++ b%"\n", by decide +kernel, by decide +kernel, by decide +kernel⟩

example : ppLogged textNum textName aHeader = .ok (some b%"proxy-protocol v1: from 192.0.2.7 port 40000 via 198.51.100.1 port 1965") := by decide +kernel

example : ppLogged textNum textName b%"PROXY TCP5 a b 1 2\r\n" = .ok none := C146_rejected _ _ _ (by decide +kernel)

/-- the proxy has no name -/
example : ppLogged textNum (fun t => if t = b%"192.0.2.7" then some t else none) aHeader = .ub := by decide +kernel

end Gmid.Props
