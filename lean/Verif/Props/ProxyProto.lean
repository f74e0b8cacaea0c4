import Verif.Model.ProxyProto
import Verif.Spec.ProxyProto
import Verif.Spec.Fcgi
import Verif.Props.Compat
import Verif.Props.Proxy

/-!
# C33, C34, C35: the PROXY protocol
-/

set_option autoImplicit false

namespace Gmid.Props

open Spec

variable {A : Type}

theorem cutAt_iff (c : UInt8) (s t r : Bytes) : cutAt c s = some (t, r) ↔ s = t ++ c :: r ∧ c ∉ t := by
  induction s generalizing t with
  | nil => simp [cutAt]
  | cons x s ih =>
    unfold cutAt
    by_cases hx : x = c
    · subst hx
      simp only [if_true, Option.some.injEq, Prod.mk.injEq]
      constructor
      · rintro ⟨rfl, rfl⟩; simp
      · rintro ⟨h1, h2⟩
        cases t with
        | nil => simpa using h1
        | cons y t =>
          simp only [List.cons_append, List.cons.injEq] at h1
          rw [← h1.1] at h2
          simp at h2
    · rw [if_neg hx, Option.map_eq_some_iff]
      constructor
      · rintro ⟨p, hp, e⟩
        simp only [Prod.mk.injEq] at e
        obtain ⟨rfl, rfl⟩ := e
        obtain ⟨h1, h2⟩ := (ih p.1).1 (by simpa using hp)
        exact ⟨by rw [h1]; rfl, by simp [h2]; exact fun e => hx e.symm⟩
      · rintro ⟨h1, h2⟩
        cases t with
        | nil => simp at h1; exact absurd h1.1 hx
        | cons y t =>
          simp only [List.cons_append, List.cons.injEq] at h1
          simp only [List.mem_cons, not_or] at h2
          obtain ⟨rfl, h1⟩ := h1
          exact ⟨(t, r), (ih t).2 ⟨h1, h2.2⟩, rfl⟩

theorem checkIp_iff (num : Option Nat → Bytes → Option A) (af : Option Nat) (s t : Bytes) (a : A) (r : Bytes) :
    checkIp num af s = some (t, a, r) ↔ s = t ++ 32 :: r ∧ (32 : UInt8) ∉ t ∧ num af t = some a := by
  unfold checkIp
  constructor
  · intro h
    split at h
    · cases h
    · rename_i t' r' hc
      split at h
      · cases h
      · rename_i a' hn
        simp only [Option.some.injEq, Prod.mk.injEq] at h
        obtain ⟨rfl, rfl, rfl⟩ := h
        obtain ⟨h1, h2⟩ := (cutAt_iff _ _ _ _).1 hc
        exact ⟨h1, h2, hn⟩
  · rintro ⟨h1, h2, h3⟩
    rw [(cutAt_iff c%' ' s t r).2 ⟨h1, h2⟩]
    simp only [h3]

theorem takeWhile_split (p : UInt8 → Bool) (t : Bytes) (x : UInt8) (r : Bytes) (h1 : ∀ c ∈ t, p c = true) (h2 : p x = false) :
    (t ++ x :: r).takeWhile p = t := by
  induction t with
  | nil => simp [h2]
  | cons a t ih =>
    simp only [List.cons_append]
    rw [List.takeWhile_cons_of_pos (h1 a (by simp)), ih (fun c hc => h1 c (by simp [hc]))]

theorem checkPort_iff (s t : Bytes) (p : Nat) (r : Bytes) : checkPort s = some (t, p, r) ↔
    ∃ x : UInt8, (x = 32 ∨ x = 13) ∧ s = t ++ x :: r ∧ (∀ c ∈ t, c ≠ 32 ∧ c ≠ 13) ∧ StrtonumForm t p ∧ p < 65536 := by
  unfold checkPort
  simp only
  generalize htw : (s.takeWhile fun c => c != c%' ' && c != c%'\r') = tw
  constructor
  · intro h
    split at h
    · cases h
    · rename_i x r' hd
      split at h
      · rename_i v hs
        simp only [Option.some.injEq, Prod.mk.injEq] at h
        obtain ⟨rfl, rfl, rfl⟩ := h
        obtain ⟨k1, k2, k3⟩ := (C46_strtonum tw 0 65535 v (by decide) (by decide)).1 hs
        have hsplit : s = tw ++ x :: r' := by
          have h1 : tw = s.take tw.length := by
            have := List.takeWhile_prefix (l := s) (fun c => c != c%' ' && c != c%'\r')
            rw [htw] at this
            exact List.prefix_iff_eq_take.1 this
          conv => lhs; rw [← List.take_append_drop tw.length s, ← h1, hd]
        have hall : ∀ c ∈ tw, c ≠ 32 ∧ c ≠ 13 := by
          intro c hc
          have := List.all_takeWhile (l := s) (p := fun c => c != c%' ' && c != c%'\r')
          rw [htw] at this
          have := List.all_eq_true.1 this c hc
          simpa using this
        refine ⟨x, ?_, hsplit, hall, by rw [Int.toNat_of_nonneg k2]; exact k1, by omega⟩
        have hx : ¬ (fun c => c != c%' ' && c != c%'\r') x = true := by
          intro hx
          have hlen : (List.takeWhile (fun c => c != c%' ' && c != c%'\r') (tw ++ x :: r')).length ≥ tw.length + 1 := by
            rw [List.takeWhile_append_of_pos (by
              intro c hc
              have := hall c hc
              simpa using this)]
            rw [List.takeWhile_cons_of_pos (p := fun c => c != c%' ' && c != c%'\r') hx]
            simp
          rw [← hsplit, htw] at hlen
          omega
        simp only [Bool.and_eq_true, bne_iff_ne, ne_eq, Decidable.not_and_iff_or_not, Decidable.not_not] at hx
        exact hx
      · cases h
  · rintro ⟨x, hx, rfl, hall, hf, hp⟩
    have : tw = t := by
      rw [← htw]
      refine takeWhile_split _ t x r ?_ ?_
      · intro c hc
        have := hall c hc
        simpa using this
      · rcases hx with rfl | rfl <;> decide
    subst this
    rw [List.drop_left]
    simp only
    rw [(C46_strtonum tw 0 65535 p (by decide) (by decide)).2 ⟨hf, by omega, by omega⟩]
    simp

theorem checkProto_iff (s : Bytes) (fam : Nat) (r : Bytes) : checkProto s = (some fam, r) ↔
    (fam = 4 ∨ fam = 6) ∧ s = [84, 67, 80, if fam = 4 then 52 else 54, 32] ++ r := by
  unfold checkProto
  by_cases hp : b%"TCP".isPrefixOf s = true
  · rw [if_pos hp]
    obtain ⟨u, rfl⟩ := List.isPrefixOf_iff_prefix.1 hp
    simp only [List.cons_append, List.nil_append, List.drop_succ_cons, List.drop_zero]
    have two : ∀ x y : UInt8, x ≠ 0 → y ≠ 0 → (hd u = x ∧ hd (u.drop 1) = y ↔ u = x :: y :: u.drop 2) := by
      intro x y hx hy
      match u with
      | [] => simp [hd]; intro e; exact absurd e.symm hx
      | [a] => simp [hd]; intro _ e; exact absurd e.symm hy
      | a :: b :: v => simp [hd]
    by_cases h4 : hd u = c%'4'
    · rw [if_pos h4]
      by_cases hs : hd (u.drop 1) = c%' '
      · rw [if_pos hs]
        have e := (two 52 32 (by decide) (by decide)).1 ⟨h4, hs⟩
        constructor
        · intro h
          simp only [Prod.mk.injEq, Option.some.injEq] at h
          refine ⟨Or.inl h.1.symm, ?_⟩
          rw [← h.1, ← h.2]
          simpa using e
        · rintro ⟨hf, e'⟩
          simp only [List.cons.injEq, true_and] at e'
          rcases hf with rfl | rfl
          · simp only [if_true] at e'
            rw [e']; simp
          · rw [e] at e'
            simp at e'
      · rw [if_neg hs]
        constructor
        · intro h; simp at h
        · rintro ⟨hf, e'⟩
          simp only [List.cons.injEq, true_and] at e'
          rw [e'] at hs
          simp [hd] at hs
    · rw [if_neg h4]
      by_cases h6 : hd u = c%'6'
      · rw [if_pos h6]
        by_cases hs : hd (u.drop 1) = c%' '
        · rw [if_pos hs]
          have e := (two 54 32 (by decide) (by decide)).1 ⟨h6, hs⟩
          constructor
          · intro h
            simp only [Prod.mk.injEq, Option.some.injEq] at h
            refine ⟨Or.inr h.1.symm, ?_⟩
            rw [← h.1, ← h.2]
            simpa using e
          · rintro ⟨hf, e'⟩
            simp only [List.cons.injEq, true_and] at e'
            rcases hf with rfl | rfl
            · rw [e] at e'
              simp at e'
            · rw [e']; simp
        · rw [if_neg hs]
          constructor
          · intro h; simp at h
          · rintro ⟨hf, e'⟩
            simp only [List.cons.injEq, true_and] at e'
            rw [e'] at hs
            simp [hd] at hs
      · rw [if_neg h6]
        constructor
        · intro h; simp at h
        · rintro ⟨hf, e'⟩
          simp only [List.cons.injEq, true_and] at e'
          rcases hf with rfl | rfl
          · rw [e'] at h4; simp [hd] at h4
          · rw [e'] at h6; simp [hd] at h6
  · rw [if_neg hp]
    constructor
    · intro h; simp at h
    · rintro ⟨hf, e'⟩
      rw [e'] at hp
      simp [List.isPrefixOf] at hp

/-- the parser, unfolded on strings -/
theorem ppParse_iff (num : Option Nat → Bytes → Option A) (buf : Bytes) (pp : PP1 A) (n : Nat) (b' : Bytes) :
    ppParse num buf = .accept pp n b' ↔
    (∃ a b, buf = a ++ [13, 10] ++ b) ∧ ∃ t1 t2 t3 t4 line tail, LooseV1 pp.fam t1 t2 t3 t4 pp.sport pp.dport line ∧
      num (some pp.fam) t1 = some pp.src ∧ num none t2 = some pp.dst ∧ buf = line ++ tail ∧ n = line.length ∧
      b' = buf.take 11 ++ t1 ++ [0] ++ t2 ++ [0] ++ t3 ++ [0] ++ t4 ++ [0] ++ [c%'\n'] ++ tail := by
  have hcr : (∃ a b, buf = a ++ [13, 10] ++ b) ↔ ∃ t, memmem buf b%"\r\n" = some (some t) := by
    rcases memmem_crlf buf with ⟨t, h1, h2, -⟩ | ⟨h1, h2⟩
    · obtain ⟨e, -⟩ := readLine_some _ _ _ h2
      exact ⟨fun _ => ⟨t, h1⟩, fun _ => ⟨_, _, e⟩⟩
    · have := (readLine_none buf).1 h2
      refine ⟨fun ⟨a, b, e⟩ => absurd e (fun e => this a b e), ?_⟩
      rintro ⟨t, e⟩
      rw [h1] at e; simp at e
  rw [hcr]
  have hsplit : ∀ x y z : Bytes, x <+: cstr (x ++ y) ↔ (0 : UInt8) ∉ x := by
    intro x y z
    induction x with
    | nil => simp
    | cons a x ih =>
      unfold cstr at ih ⊢
      by_cases ha : a = 0
      · subst ha; simp
      · rw [List.cons_append, List.takeWhile_cons_of_pos (by simpa using ha), List.cons_prefix_cons]
        simp only [true_and, List.mem_cons, not_or]
        rw [ih]
        exact ⟨fun h => ⟨fun e => ha e.symm, h⟩, fun h => h.2⟩
  have hpre : cstr buf <+: buf := List.takeWhile_prefix _
  unfold ppParse
  constructor
  · intro h
    split at h
    · rename_i t hm
      refine ⟨⟨t, hm⟩, ?_⟩
      simp only at h
      split at h
      · rename_i hp
        obtain ⟨u, hu⟩ := List.isPrefixOf_iff_prefix.1 hp
        split at h
        · split at h <;> cases h
        · rename_i fam r hproto
          split at h
          · cases h
          · rename_i t1 a1 r1 h1
            split at h
            · cases h
            · rename_i t2 a2 r2 h2
              split at h
              · cases h
              · rename_i t3 p1 r3 h3
                split at h
                · cases h
                · rename_i t4 p2 r4 h4
                  split at h
                  · rename_i hlf
                    simp only [PPRes.accept.injEq] at h
                    obtain ⟨rfl, rfl, rfl⟩ := h
                    obtain ⟨hf, e0⟩ := (checkProto_iff _ _ _).1 hproto
                    obtain ⟨e1, n1, m1⟩ := (checkIp_iff _ _ _ _ _ _).1 h1
                    obtain ⟨e2, n2, m2⟩ := (checkIp_iff _ _ _ _ _ _).1 h2
                    obtain ⟨x3, hx3, e3, n3, f3, g3⟩ := (checkPort_iff _ _ _ _).1 h3
                    obtain ⟨x4, hx4, e4, n4, f4, g4⟩ := (checkPort_iff _ _ _ _).1 h4
                    have e5 : r4 = 10 :: r4.drop 1 := by
                      cases r4 with
                      | nil => simp [hd] at hlf
                      | cons a v => simp [hd] at hlf; simp [hlf]
                    have hs : cstr buf = ([80, 82, 79, 88, 89, 32, 84, 67, 80, if fam = 4 then 52 else 54, 32] ++ t1 ++ [32] ++ t2 ++ [32] ++ t3 ++ [x3] ++ t4 ++ [x4, 10]) ++ r4.drop 1 := by
                      rw [← hu]
                      have e0' : u = [84, 67, 80, if fam = 4 then 52 else 54, 32] ++ r := by
                        rw [← e0, ← hu]; rfl
                      rw [e0', e1, e2, e3, e4]
                      conv => lhs; rw [e5]
                      simp
                    generalize hline : ([80, 82, 79, 88, 89, 32, 84, 67, 80, if fam = 4 then 52 else 54, 32] ++ t1 ++ [32] ++ t2 ++ [32] ++ t3 ++ [x3] ++ t4 ++ [x4, 10] : Bytes) = line at hs
                    obtain ⟨v, hv⟩ := hpre
                    have hbuf : buf = line ++ (r4.drop 1 ++ v) := by
                      rw [← List.append_assoc, ← hs, hv]
                    have hlen : (cstr buf).length - r4.length + 1 = line.length := by
                      have e6 : r4.length = (r4.drop 1).length + 1 := by
                        conv => lhs; rw [e5]
                        simp
                      have hl9 : 1 ≤ line.length := by rw [← hline]; simp
                      rw [hs, List.length_append]
                      omega
                    refine ⟨t1, t2, t3, t4, line, r4.drop 1 ++ v, ⟨hf, n1, n2, ⟨n3, f3, g3⟩, ⟨n4, f4, g4⟩, ?_,
                      ⟨x3, x4, hx3, hx4, hline.symm⟩⟩, m1, m2, hbuf, hlen, ?_⟩
                    · have := (hsplit line (r4.drop 1 ++ v) []).1 (by rw [← hbuf, hs]; exact List.prefix_append _ _)
                      exact this
                    · rw [hlen]
                      have e7 : buf.drop line.length = r4.drop 1 ++ v := by
                        conv => lhs; rw [hbuf]
                        exact List.drop_left
                      have h11 : 11 ≤ line.length := by rw [← hline]; simp
                      have e8 : (cstr buf).take 11 = buf.take 11 := by
                        rw [hs, List.take_append_of_le_length h11]
                        conv => rhs; rw [hbuf, List.take_append_of_le_length h11]
                      rw [e7, e8]
                  · cases h
      · cases h
    · cases h
  · rintro ⟨⟨t, hm⟩, t1, t2, t3, t4, line, tail, ⟨hf, n1, n2, ⟨n3, f3, g3⟩, ⟨n4, f4, g4⟩, hz, ⟨x3, x4, hx3, hx4, hline⟩⟩, m1, m2, hbuf, rfl, rfl⟩
    rw [hm]
    simp only
    obtain ⟨r, hr⟩ := (hsplit line tail []).2 hz
    rw [← hbuf] at hr
    have hs : cstr buf = [80, 82, 79, 88, 89, 32, 84, 67, 80, if pp.fam = 4 then 52 else 54, 32] ++ t1 ++ [32] ++ t2 ++ [32] ++ t3 ++ [x3] ++ t4 ++ [x4, 10] ++ r := by
      rw [← hr, hline]
    have e0 : (cstr buf).drop 6 = [84, 67, 80, if pp.fam = 4 then 52 else 54, 32] ++ (t1 ++ 32 :: (t2 ++ 32 :: (t3 ++ x3 :: (t4 ++ x4 :: 10 :: r)))) := by
      rw [hs]; simp
    rw [if_pos (by rw [hs]; simp [List.isPrefixOf])]
    rw [(checkProto_iff _ pp.fam _).2 ⟨hf, e0⟩]
    simp only
    rw [(checkIp_iff num (some pp.fam) _ t1 pp.src _).2 ⟨rfl, n1, m1⟩]
    simp only
    rw [(checkIp_iff num none _ t2 pp.dst _).2 ⟨rfl, n2, m2⟩]
    simp only
    rw [(checkPort_iff _ t3 pp.sport _).2 ⟨x3, hx3, rfl, n3, f3, g3⟩]
    simp only
    rw [(checkPort_iff _ t4 pp.dport _).2 ⟨x4, hx4, rfl, n4, f4, g4⟩]
    simp only
    rw [if_pos (by simp [hd])]
    have hlen : (cstr buf).length - (10 :: r).length + 1 = line.length := by
      rw [← hr, List.length_append]
      have : 1 ≤ line.length := by rw [hline]; simp
      simp
      omega
    have h11 : 11 ≤ line.length := by rw [hline]; simp
    have e8 : (cstr buf).take 11 = buf.take 11 := by
      rw [← hr, List.take_append_of_le_length h11, hbuf, List.take_append_of_le_length h11]
    have e7 : buf.drop line.length = tail := by rw [hbuf]; exact List.drop_left
    rw [hlen, e7, e8]

theorem portText_form (t : Bytes) (p : Nat) (h : PortText t p) : (∀ c ∈ t, c ≠ 32 ∧ c ≠ 13) ∧ StrtonumForm t p ∧ p < 65536 := by
  obtain ⟨h1, h2, h3, h4⟩ := h
  refine ⟨?_, ⟨[], [], t, rfl, by simp, h1, h2, Or.inl ⟨Or.inl rfl, by rw [h3]⟩⟩, h4⟩
  intro c hc
  have := h2 c hc
  constructor
  · rintro rfl; exact absurd this.1 (by decide)
  · rintro rfl; exact absurd this.1 (by decide)

theorem portText_nul (t : Bytes) (p : Nat) (h : PortText t p) : (0 : UInt8) ∉ t := by
  intro hx
  exact absurd (h.2.1 0 hx).1 (by decide)

theorem v1line_loose (fam : Nat) (src dst sp dp : Bytes) (p q : Nat) (hf : fam = 4 ∨ fam = 6)
    (h1 : AddrText src) (h2 : AddrText dst) (h3 : PortText sp p) (h4 : PortText dp q) :
    LooseV1 fam src dst sp dp p q (v1line fam src dst sp dp) := by
  refine ⟨hf, fun hx => (h1 32 hx).1 rfl, fun hx => (h2 32 hx).1 rfl, portText_form sp p h3, portText_form dp q h4, ?_,
    ⟨32, 13, Or.inl rfl, Or.inr rfl, by simp [v1line]⟩⟩
  have z1 : (0 : UInt8) ∉ src := fun hx => (h1 0 hx).2.2.2 rfl
  have z2 : (0 : UInt8) ∉ dst := fun hx => (h2 0 hx).2.2.2 rfl
  have z3 := portText_nul sp p h3
  have z4 := portText_nul dp q h4
  have z5 : (0 : UInt8) ≠ if fam = 4 then 52 else 54 := by split <;> decide
  simp only [v1line, List.mem_append, List.mem_cons, List.not_mem_nil, or_false, z1, z2, z3, z4, z5]
  decide

/-- C33, what is accepted: the parser reports success with addresses and ports iff the buffer has a CRLF somewhere and starts
with a line of the (loose) form, whose addresses and ports it reports and whose exact length it consumes. (Partial: the
form is more liberal than the protocol's, see `C33_lenient`.) -/
theorem C33_accepts_partial (num : Option Nat → Bytes → Option A) (buf : Bytes) (pp : PP1 A) (n : Nat) :
    (∃ b', ppParse num buf = .accept pp n b') ↔
    (∃ a b, buf = a ++ [13, 10] ++ b) ∧ ∃ src dst sport dport line tail, LooseV1 pp.fam src dst sport dport pp.sport pp.dport line ∧
      num (some pp.fam) src = some pp.src ∧ num none dst = some pp.dst ∧ buf = line ++ tail ∧ n = line.length := by
  constructor
  · rintro ⟨b', h⟩
    obtain ⟨h1, t1, t2, t3, t4, line, tail, k1, k2, k3, k4, k5, -⟩ := (ppParse_iff num buf pp n b').1 h
    exact ⟨h1, t1, t2, t3, t4, line, tail, k1, k2, k3, k4, k5⟩
  · rintro ⟨h1, t1, t2, t3, t4, line, tail, k1, k2, k3, k4, k5⟩
    exact ⟨_, (ppParse_iff num buf pp n _).2 ⟨h1, t1, t2, t3, t4, line, tail, k1, k2, k3, k4, k5, rfl⟩⟩

/-- C33: every well-formed header is accepted, whatever follows it; the addresses and ports written there
are reported and exactly the line is consumed.  (The rest of the buffer is left alone.) -/
theorem C33_wellformed (num : Option Nat → Bytes → Option A) (fam : Nat) (src dst sp dp tail : Bytes) (p q : Nat) (a b : A)
    (hf : fam = 4 ∨ fam = 6) (h1 : AddrText src) (h2 : AddrText dst) (h3 : PortText sp p) (h4 : PortText dp q)
    (hs : num (some fam) src = some a) (hd : num none dst = some b) :
    ∃ b', ppParse num (v1line fam src dst sp dp ++ tail) =
      .accept { fam := fam, src := a, dst := b, sport := p, dport := q } (v1line fam src dst sp dp).length b' ∧
      b'.length = (v1line fam src dst sp dp ++ tail).length ∧ b'.drop (v1line fam src dst sp dp).length = tail := by
  have hcr : ∃ a b, v1line fam src dst sp dp ++ tail = a ++ [13, 10] ++ b := ⟨_, tail, by unfold v1line; rfl⟩
  have hL := v1line_loose fam src dst sp dp p q hf h1 h2 h3 h4
  refine ⟨_, (ppParse_iff num _ ⟨fam, a, b, p, q⟩ _ _).2 ⟨hcr, src, dst, sp, dp, _, tail, hL, hs, hd, rfl, rfl, rfl⟩, ?_, ?_⟩
  · simp [v1line]
  · have h11 : (v1line fam src dst sp dp ++ tail).take 11 = [80, 82, 79, 88, 89, 32, 84, 67, 80, if fam = 4 then 52 else 54, 32] := by
      simp [v1line]
    rw [h11]
    have hl : (v1line fam src dst sp dp).length = ([80, 82, 79, 88, 89, 32, 84, 67, 80, if fam = 4 then 52 else 54, 32] ++ src ++ [0] ++ dst ++ [0] ++ sp ++ [0] ++ dp ++ [0] ++ [c%'\n'] : Bytes).length := by
      simp [v1line]
    rw [hl, List.drop_left]

/-- a getaddrinfo that knows "1.2.3.4" (4), "5.6.7.8" (5) and "::1" (6) -/
def exNum : Option Nat → Bytes → Option Nat := fun af t =>
  if t = b%"1.2.3.4" && af ≠ some 6 then some 4
  else if t = b%"5.6.7.8" && af ≠ some 6 then some 5
  else if t = b%"::1" && af ≠ some 4 then some 6 else none

/-- and its inverse -/
def exName : Nat → Option Bytes := fun n =>
  if n = 4 then some b%"1.2.3.4" else if n = 5 then some b%"5.6.7.8" else if n = 6 then some b%"::1" else none

theorem exPort (t : Bytes) (p : Nat) (h1 : t ≠ []) (h2 : (t.all fun c => decide (48 ≤ c) && decide (c ≤ 57)) = true) (h3 : decValue t = p)
    (h4 : p < 65536) : PortText t p :=
  ⟨h1, fun c hc => by simpa using List.all_eq_true.1 h2 c hc, h3, h4⟩

theorem exAddr (t : Bytes) (h2 : (t.all fun c => decide (c ≠ 32 ∧ c ≠ 13 ∧ c ≠ 10 ∧ c ≠ 0)) = true) : AddrText t :=
  fun c hc => by simpa using List.all_eq_true.1 h2 c hc

example : AddrText b%"1.2.3.4" ∧ PortText b%"65535" 65535 ∧ PortText b%"80" 80 ∧ exNum (some 4) b%"1.2.3.4" = some 4 ∧
    v1line 4 b%"1.2.3.4" b%"5.6.7.8" b%"65535" b%"80" = b%"PROXY TCP4 1.2.3.4 5.6.7.8 65535 80\r\n" :=
  ⟨exAddr _ (by decide), exPort _ _ (by decide) (by decide) (by decide) (by decide), exPort _ _ (by decide) (by decide) (by decide) (by decide), by decide, by decide⟩

/-- C33 fails: lines that are not PROXY headers are accepted as such: a sign, a tab, separators of the wrong kind, no CRLF at the
end of the line. -/
theorem C33_lenient :
    (∃ b, ppParse exNum b%"PROXY TCP4 1.2.3.4 5.6.7.8 +1\r\t2 \nxyz\r\n" = .accept ⟨4, 4, 5, 1, 2⟩ 34 b) ∧
    ppParse exNum b%"PROXY TCPUNKNOWNxyz\r\n" = .unknown ∧ ppParse exNum b%"PROXY UNKNOWNxyz\nw\r\n" = .unknown :=
  ⟨⟨b%"PROXY TCP4 1.2.3.4" ++ [0] ++ b%"5.6.7.8" ++ [0] ++ b%"+1" ++ [0] ++ b%"\t2" ++ [0] ++ b%"\nxyz\r\n", by decide +kernel⟩, by decide, by decide⟩

/-- C33 fails for `UNKNOWN`: for every such line the parser succeeds without saying how much it consumed (`*consumed` is
not assigned). -/
theorem C33_unknown (num : Option Nat → Bytes → Option A) (x tail : Bytes) :
    ppParse num (b%"PROXY UNKNOWN" ++ x ++ b%"\r\n" ++ tail) = .unknown := by
  unfold ppParse
  have hm : ∃ t, memmem (b%"PROXY UNKNOWN" ++ x ++ b%"\r\n" ++ tail) b%"\r\n" = some (some t) := by
    rcases memmem_crlf (b%"PROXY UNKNOWN" ++ x ++ b%"\r\n" ++ tail) with ⟨t, h1, -⟩ | ⟨-, h2⟩
    · exact ⟨t, h1⟩
    · exact absurd rfl (fun e => (readLine_none _).1 h2 (b%"PROXY UNKNOWN" ++ x) tail e)
  obtain ⟨t, hm⟩ := hm
  rw [hm]
  simp only
  have hc : cstr (b%"PROXY UNKNOWN" ++ x ++ b%"\r\n" ++ tail) = b%"PROXY UNKNOWN" ++ cstr (x ++ b%"\r\n" ++ tail) := by
    simp [cstr]
  rw [hc]
  simp [List.isPrefixOf, checkProto]

/-! ### C34 -/

section
variable (num : Option Nat → Bytes → Option A) (name : A → Option Bytes)

/-- what holds for any stream -/
def RInv (S : Bytes) (st : RState) : Prop :=
  (st.out = [] ∧ (st.failed = true ∨ (st.proto = true ∧ st.hasTail = false ∧ st.failed = false ∧ st.data ++ st.sock = S ∧ st.data.length ≤ 107))) ∨
  ∃ k pp n b', k ≤ 107 ∧ ppParse num (S.take k) = .accept pp n b' ∧ n ≤ S.length ∧ st.failed = false ∧
    ((st.proto = true ∧ st.hasTail = true ∧ st.readPos ≤ st.data.length ∧ st.out ++ st.data.drop st.readPos ++ st.sock = S.drop n) ∨
     (st.proto = false ∧ st.out ++ st.sock = S.drop n))

theorem readCb_inv (S : Bytes) (hu : ∀ k, ppParse num (S.take k) ≠ .unknown) (b n : Nat) (st : RState) (h : RInv num S st) :
    ∃ g, readCb num name b n st = .ok g ∧ RInv num S g := by
  unfold readCb
  rcases h with ⟨h1, h2⟩ | ⟨k, pp, m, b', hk, hp, hm, hf, h⟩
  · by_cases hfl : st.failed = true
    · rw [if_pos hfl]; exact ⟨st, rfl, Or.inl ⟨h1, Or.inl hfl⟩⟩
    · rw [if_neg hfl]
      rcases h2 with h2 | ⟨h2, h3, h4, h5, h6⟩
      · exact absurd h2 hfl
      · rw [h2, h3]
        simp only [Bool.not_true, Bool.false_eq_true, if_false]
        by_cases hav : 108 - st.data.length - 1 = 0
        · rw [if_pos hav]; exact ⟨_, rfl, Or.inl ⟨h1, Or.inl rfl⟩⟩
        · rw [if_neg hav]
          generalize hkk : min n (108 - st.data.length - 1) = k
          by_cases hnil : st.sock.take k = []
          · rw [if_pos hnil]; exact ⟨st, rfl, Or.inl ⟨h1, Or.inr ⟨h2, h3, h4, h5, h6⟩⟩⟩
          · rw [if_neg hnil]
            have hlen : (st.data ++ st.sock.take k).length ≤ 107 := by simp; omega
            have hdat : st.data ++ st.sock.take k = S.take (st.data ++ st.sock.take k).length := by
              have : S = (st.data ++ st.sock.take k) ++ st.sock.drop k := by
                rw [List.append_assoc, List.take_append_drop, h5]
              conv => rhs; rw [this]
              rw [List.take_left]
            have hS : (st.data ++ st.sock.take k) ++ st.sock.drop k = S := by
              rw [List.append_assoc, List.take_append_drop, h5]
            generalize hD : st.data ++ st.sock.take k = D at *
            rcases memmem_crlf D with ⟨t, m1, -⟩ | ⟨m1, -⟩
            · simp only [m1]
              cases hpp : ppParse num D with
              | reject => exact ⟨_, rfl, Or.inl ⟨h1, Or.inl rfl⟩⟩
              | unknown =>
                exact absurd (hdat ▸ hpp) (hu _)
              | accept pp c buf =>
                simp only
                cases hn : name pp.src with
                | none => exact ⟨_, rfl, Or.inl ⟨h1, Or.inl rfl⟩⟩
                | some hh =>
                  simp only
                  obtain ⟨-, t1, t2, t3, t4, line, tail, kk1, kk2, kk3, kk4, rfl, kk6⟩ := (ppParse_iff num D pp c buf).1 hpp
                  obtain ⟨s1, s2, -, -, hline⟩ := kk1.shape
                  have hh11 : D.take 11 = [80, 82, 79, 88, 89, 32, 84, 67, 80, if pp.fam = 4 then 52 else 54, 32] := by
                    rw [kk4, hline]; simp
                  have hl : line.length = ([80, 82, 79, 88, 89, 32, 84, 67, 80, if pp.fam = 4 then 52 else 54, 32] ++ t1 ++ [0] ++ t2 ++ [0] ++ t3 ++ [0] ++ t4 ++ [0] ++ [c%'\n'] : Bytes).length := by
                    rw [hline]; simp
                  have hbl : buf.length = line.length + tail.length := by
                    rw [kk6, hh11, List.length_append, ← hl]
                  have hbd : buf.drop line.length = tail := by
                    rw [kk6, hh11, hl, List.drop_left]
                  have hSl : S = line ++ (tail ++ st.sock.drop k) := by rw [← List.append_assoc, ← kk4, hS]
                  have hSd : S.drop line.length = tail ++ st.sock.drop k := by rw [hSl, List.drop_left]
                  have hnle : line.length ≤ S.length := by rw [hSl]; simp
                  have hpp' : ppParse num (S.take D.length) = .accept pp line.length buf := by rw [← hdat]; exact hpp
                  by_cases hcl : line.length < buf.length
                  · rw [if_pos hcl]
                    refine ⟨_, rfl, Or.inr ⟨D.length, pp, line.length, buf, hlen, hpp', hnle, h4, Or.inl ⟨rfl, rfl, by show line.length ≤ buf.length; omega, ?_⟩⟩⟩
                    simp only [hbd, h1, hSd, List.nil_append]
                  · rw [if_neg hcl]
                    refine ⟨_, rfl, Or.inr ⟨D.length, pp, line.length, buf, hlen, hpp', hnle, h4, Or.inr ⟨rfl, ?_⟩⟩⟩
                    have : tail = [] := List.eq_nil_of_length_eq_zero (by omega)
                    simp only [h1, hSd, this, List.nil_append]
            · simp only [m1]
              exact ⟨_, rfl, Or.inl ⟨h1, Or.inr ⟨rfl, rfl, h4, hS, hlen⟩⟩⟩
  · rw [if_neg (by rw [hf]; decide)]
    rcases h with ⟨h1, h2, h3, h4⟩ | ⟨h1, h2⟩
    · rw [h1, h2]
      simp only [Bool.not_true, Bool.false_eq_true, if_false, if_true]
      generalize hc : min b (st.data.length - st.readPos) = c
      have hcl : c ≤ st.data.length - st.readPos := by omega
      have hsp : (st.data.drop st.readPos).take c ++ st.data.drop (st.readPos + c) = st.data.drop st.readPos := by
        rw [← List.drop_drop, List.take_append_drop]
      by_cases he : st.data.length - st.readPos = c
      · rw [if_pos he]
        refine ⟨_, rfl, Or.inr ⟨k, pp, m, b', hk, hp, hm, hf, Or.inr ⟨rfl, ?_⟩⟩⟩
        rw [← h4]
        simp only
        rw [List.take_of_length_le (by simp; omega)]
      · rw [if_neg he]
        refine ⟨_, rfl, Or.inr ⟨k, pp, m, b', hk, hp, hm, hf, Or.inl ⟨rfl, rfl, by show st.readPos + c ≤ st.data.length; omega, ?_⟩⟩⟩
        rw [← h4]
        simp only
        rw [List.append_assoc st.out, hsp]
    · rw [h1]
      simp only [Bool.not_false, if_true]
      refine ⟨_, rfl, Or.inr ⟨k, pp, m, b', hk, hp, hm, hf, Or.inr ⟨rfl, ?_⟩⟩⟩
      simp only
      rw [List.append_assoc, List.take_append_drop, h2]

end

/-- C34, safety, for every stream on which the parser does not answer PROTO_UNKNOWN, every segmentation and every TLS read size: nothing
undefined happens, and TLS has received nothing, or a prefix of what follows the accepted header at the
front of the stream. -/
theorem C34_only_what_follows_partial (num : Option Nat → Bytes → Option A) (name : A → Option Bytes) (S : Bytes)
    (hu : ∀ k, ppParse num (S.take k) ≠ .unknown) (calls : List (Nat × Nat)) :
    ∃ st, readRun num name calls { proto := true, sock := S } = .ok st ∧
      (st.out = [] ∨ ∃ k pp n b', k ≤ 107 ∧ ppParse num (S.take k) = .accept pp n b' ∧ st.out <+: S.drop n) := by
  have run : ∀ (calls : List (Nat × Nat)) (st : RState), RInv num S st → ∃ g, readRun num name calls st = .ok g ∧ RInv num S g := by
    intro calls
    induction calls with
    | nil => intro st h; exact ⟨st, rfl, h⟩
    | cons c r ih =>
      intro st h
      obtain ⟨g, e, hg⟩ := readCb_inv num name S hu c.1 c.2 st h
      obtain ⟨g', e', hg'⟩ := ih g hg
      exact ⟨g', by simp only [readRun, e]; exact e', hg'⟩
  obtain ⟨st, e, h⟩ := run calls { proto := true, sock := S } (Or.inl ⟨rfl, Or.inr ⟨rfl, rfl, rfl, rfl, by simp⟩⟩)
  refine ⟨st, e, ?_⟩
  rcases h with ⟨h1, -⟩ | ⟨k, pp, n, b', hk, hp, hn, -, ⟨-, -, -, h4⟩ | ⟨-, h4⟩⟩
  · exact Or.inl h1
  · refine Or.inr ⟨k, pp, n, b', hk, hp, ?_⟩
    rw [← h4, List.append_assoc]; exact List.prefix_append _ _
  · refine Or.inr ⟨k, pp, n, b', hk, hp, ?_⟩
    rw [← h4]; exact List.prefix_append _ _


/-- the well-formed headers of C34: a line of at most 107 bytes, addresses getaddrinfo knows, a source with a name -/
structure GoodHeader (num : Option Nat → Bytes → Option A) (name : A → Option Bytes) (line : Bytes) (host : Bytes) (port : Nat) : Prop where
  ok_short : line.length ≤ 107
  ok_line : ∃ fam src dst sp dp q a b, (fam = 4 ∨ fam = 6) ∧ AddrText src ∧ AddrText dst ∧ PortText sp port ∧ PortText dp q ∧
    num (some fam) src = some a ∧ num none dst = some b ∧ name a = some host ∧ line = v1line fam src dst sp dp

theorem good_parse (num : Option Nat → Bytes → Option A) (name : A → Option Bytes) (line host : Bytes) (port : Nat)
    (h : GoodHeader num name line host port) (tail : Bytes) :
    ∃ pp b', ppParse num (line ++ tail) = .accept pp line.length b' ∧ name pp.src = some host ∧ pp.sport = port ∧
      b'.length = (line ++ tail).length ∧ b'.drop line.length = tail := by
  obtain ⟨fam, src, dst, sp, dp, q, a, b, hf, h1, h2, h3, h4, hs, hd, hn, rfl⟩ := h.ok_line
  obtain ⟨b', e1, e2, e3⟩ := C33_wellformed num fam src dst sp dp tail port q a b hf h1 h2 h3 h4 hs hd
  exact ⟨_, b', e1, hn, rfl, e2, e3⟩

theorem good_crlf (num : Option Nat → Bytes → Option A) (name : A → Option Bytes) (line host : Bytes) (port : Nat)
    (h : GoodHeader num name line host port) :
    ∃ l0, line = l0 ++ [13, 10] ∧ (10 : UInt8) ∉ l0 := by
  obtain ⟨fam, src, dst, sp, dp, q, a, b, hf, h1, h2, h3, h4, hs, hd, hn, rfl⟩ := h.ok_line
  refine ⟨_, by unfold v1line; rfl, ?_⟩
  have z1 : (10 : UInt8) ∉ src := fun hx => (h1 10 hx).2.2.1 rfl
  have z2 : (10 : UInt8) ∉ dst := fun hx => (h2 10 hx).2.2.1 rfl
  have z3 : (10 : UInt8) ∉ sp := fun hx => absurd (h3.2.1 10 hx).1 (by decide)
  have z4 : (10 : UInt8) ∉ dp := fun hx => absurd (h4.2.1 10 hx).1 (by decide)
  have z5 : (10 : UInt8) ≠ if fam = 4 then 52 else 54 := by split <;> decide
  simp only [List.mem_append, List.mem_cons, List.not_mem_nil, or_false, z1, z2, z3, z4, z5]
  decide

/-- what holds while a good header and then `tail` are read -/
def GInv (line tail host : Bytes) (port : Nat) (st : RState) : Prop :=
  st.failed = false ∧
  ((st.proto = true ∧ st.hasTail = false ∧ st.out = [] ∧ st.data ++ st.sock = line ++ tail ∧ st.data.length < line.length) ∨
   (st.rhost = host ∧ st.rserv = natDec port ∧
    ((st.proto = true ∧ st.hasTail = true ∧ st.readPos < st.data.length ∧ st.out ++ st.data.drop st.readPos ++ st.sock = tail) ∨
     (st.proto = false ∧ st.hasTail = false ∧ st.out ++ st.sock = tail))))

/-- how much is still to be done -/
def rMeasure (st : RState) : Nat := 2 * st.sock.length + (if st.hasTail then st.data.length - st.readPos else 0)

theorem readCb_good (num : Option Nat → Bytes → Option A) (name : A → Option Bytes) (line tail host : Bytes) (port : Nat)
    (hg : GoodHeader num name line host port) (b n : Nat) (st : RState) (h : GInv line tail host port st) :
    ∃ g, readCb num name b n st = .ok g ∧ GInv line tail host port g ∧
      (1 ≤ b → 1 ≤ n → rMeasure g < rMeasure st ∨ rMeasure g = 0) := by
  obtain ⟨proto, data, readPos, hasTail, rhost, rserv, sock, out, failed⟩ := st
  obtain ⟨hf, h⟩ := h
  simp only at hf h
  subst hf
  unfold readCb
  simp only [Bool.false_eq_true, if_false]
  have hs107 := hg.ok_short
  rcases h with ⟨rfl, rfl, rfl, h5, h6⟩ | ⟨rfl, rfl, ⟨rfl, rfl, h3, h4⟩ | ⟨rfl, rfl, h4⟩⟩
  · simp only [Bool.not_true, Bool.false_eq_true, if_false]
    rw [if_neg (by omega)]
    generalize hkk : min n (108 - data.length - 1) = k
    have hsock : 1 ≤ sock.length := by
      have := congrArg List.length h5
      simp at this
      omega
    by_cases hnil : sock.take k = []
    · rw [if_pos hnil]
      refine ⟨_, rfl, ⟨rfl, Or.inl ⟨rfl, rfl, rfl, h5, h6⟩⟩, ?_⟩
      intro hb hn
      have := congrArg List.length hnil
      simp at this
      have hk0 : k ≠ 0 := by omega
      rcases this with h | h
      · exact absurd h hk0
      · subst h; simp at hsock
    · rw [if_neg hnil]
      have hk : 1 ≤ k := by
        rcases Nat.eq_zero_or_pos k with h | h
        · subst h; simp at hnil
        · exact h
      have hS : (data ++ sock.take k) ++ sock.drop k = line ++ tail := by
        rw [List.append_assoc, List.take_append_drop, h5]
      have hDl : (data ++ sock.take k).length = data.length + min k sock.length := by simp
      generalize hD : data ++ sock.take k = D at *
      by_cases hlt : D.length < line.length
      · -- the line is not complete
        have hnone : memmem D b%"\r\n" = some none := by
          rcases memmem_crlf D with ⟨t, -, m2⟩ | ⟨m1, -⟩
          · exfalso
            obtain ⟨l0, hl0, hno⟩ := good_crlf num name line host port hg
            have e := readLine_some _ _ _ m2.1
            have hDl0 : D = line.take D.length := by
              have := congrArg (List.take D.length) hS
              rw [List.take_left, List.take_append_of_le_length (by omega)] at this
              exact this
            have h10 : (10 : UInt8) ∈ D.take (D.length) := by
              rw [List.take_length, e.1]; simp
            have : (10 : UInt8) ∈ l0 := by
              rw [List.take_length, hDl0, hl0] at h10
              rw [hl0] at hlt
              simp at hlt
              rw [List.take_append] at h10
              rcases List.mem_append.1 h10 with h | h
              · exact List.mem_of_mem_take h
              · have : D.length - l0.length ≤ 1 := by omega
                have h' : (10 : UInt8) ∈ ([13, 10] : Bytes).take 1 := by
                  exact (List.take_sublist_take_left (l := [13, 10]) this).subset h
                simp at h'
            exact hno this
          · exact m1
        simp only [hnone]
        refine ⟨_, rfl, ⟨rfl, Or.inl ⟨rfl, rfl, rfl, hS, hlt⟩⟩, ?_⟩
        intro _ _
        left
        simp [rMeasure]
        omega
      · -- the line is complete
        obtain ⟨t', ht'⟩ : ∃ t', D = line ++ t' := by
          refine ⟨D.drop line.length, ?_⟩
          have : D.take line.length = line := by
            have := congrArg (List.take line.length) hS
            rw [List.take_left, List.take_append_of_le_length (by omega)] at this
            exact this
          conv => lhs; rw [← List.take_append_drop line.length D, this]
        have htl : t' ++ sock.drop k = tail := by
          rw [ht', List.append_assoc] at hS
          exact List.append_cancel_left hS
        obtain ⟨pp, b', p1, p2, p3, p4, p5⟩ := good_parse num name line host port hg t'
        rw [← ht'] at p1 p4
        obtain ⟨l0, hl0, -⟩ := good_crlf num name line host port hg
        have hsome : ∃ t, memmem D b%"\r\n" = some (some t) := by
          rcases memmem_crlf D with ⟨t, h1, -⟩ | ⟨-, h2⟩
          · exact ⟨t, h1⟩
          · exact absurd (by rw [ht', hl0]) (fun e => (readLine_none _).1 h2 l0 t' e)
        obtain ⟨t, ht⟩ := hsome
        simp only [ht, p1, p2]
        by_cases hc : line.length < b'.length
        · rw [if_pos hc]
          refine ⟨_, rfl, ⟨rfl, Or.inr ⟨rfl, by rw [p3], Or.inl ⟨rfl, rfl, hc, ?_⟩⟩⟩, ?_⟩
          · simp only [p5, List.nil_append, htl]
          · intro _ _
            left
            simp [rMeasure]
            omega
        · rw [if_neg hc]
          have : t' = [] := List.eq_nil_of_length_eq_zero (by rw [ht'] at p4; simp at p4; omega)
          subst this
          refine ⟨_, rfl, ⟨rfl, Or.inr ⟨rfl, by rw [p3], Or.inr ⟨rfl, rfl, ?_⟩⟩⟩, ?_⟩
          · simpa using htl
          · intro _ _
            left
            simp [rMeasure]
            omega
  · simp only [Bool.not_true, Bool.false_eq_true, if_false, if_true]
    generalize hc : min b (data.length - readPos) = c
    have hsp : (data.drop readPos).take c ++ data.drop (readPos + c) = data.drop readPos := by
      rw [← List.drop_drop, List.take_append_drop]
    by_cases he : data.length - readPos = c
    · rw [if_pos he]
      refine ⟨_, rfl, ⟨rfl, Or.inr ⟨rfl, rfl, Or.inr ⟨rfl, rfl, ?_⟩⟩⟩, ?_⟩
      · rw [← h4]
        simp only
        rw [List.take_of_length_le (by simp; omega)]
      · intro _ _
        left
        simp [rMeasure]
        omega
    · rw [if_neg he]
      refine ⟨_, rfl, ⟨rfl, Or.inr ⟨rfl, rfl, Or.inl ⟨rfl, rfl, by show readPos + c < data.length; omega, ?_⟩⟩⟩, ?_⟩
      · rw [← h4]
        simp only
        rw [List.append_assoc out, hsp]
      · intro _ _
        left
        simp [rMeasure]
        omega
  · simp only [Bool.not_false, if_true]
    refine ⟨_, rfl, ⟨rfl, Or.inr ⟨rfl, rfl, Or.inr ⟨rfl, rfl, ?_⟩⟩⟩, ?_⟩
    · simp only
      rw [List.append_assoc, List.take_append_drop, h4]
    · intro _ _
      simp [rMeasure]
      omega

theorem readRun_good (num : Option Nat → Bytes → Option A) (name : A → Option Bytes) (line tail host : Bytes) (port : Nat)
    (hg : GoodHeader num name line host port) : ∀ (calls : List (Nat × Nat)) (st : RState), GInv line tail host port st →
    ∃ g, readRun num name calls st = .ok g ∧ GInv line tail host port g ∧
      ((∀ c ∈ calls, 1 ≤ c.1 ∧ 1 ≤ c.2) → rMeasure st ≤ calls.length → rMeasure g = 0) := by
  intro calls
  induction calls with
  | nil => intro st h; exact ⟨st, rfl, h, fun _ hm => by simpa using hm⟩
  | cons c r ih =>
    intro st h
    obtain ⟨g, e, h', hd⟩ := readCb_good num name line tail host port hg c.1 c.2 st h
    obtain ⟨g', e', h'', hd'⟩ := ih g h'
    refine ⟨g', by simp only [readRun, e]; exact e', h'', ?_⟩
    intro hc hm
    have h1 := hc c (by simp)
    apply hd' (fun x hx => hc x (by simp [hx]))
    rcases hd h1.1 h1.2 with h | h
    · simp at hm; omega
    · omega

/-- C34: a well-formed header of at most 107 bytes followed by any bytes, for every segmentation of the stream and every TLS read size: the
read callback never fails nor does anything undefined; TLS always has a prefix of what follows the header; once it has
something, the client's address and port are those of the header; and when the calls have been enough (each asking for and
getting at least a byte) it has everything.  (Partial: header lines longer than 107 bytes are refused, see
`C34_overlong`, and `PROXY UNKNOWN` is mishandled, see `C34_unknown_undefined`.) -/
theorem C34_all_delivered_partial (num : Option Nat → Bytes → Option A) (name : A → Option Bytes) (line tail host : Bytes) (port : Nat)
    (hg : GoodHeader num name line host port) (calls : List (Nat × Nat)) :
    ∃ st, readRun num name calls { proto := true, sock := line ++ tail } = .ok st ∧ st.failed = false ∧ st.out <+: tail ∧
      (st.out ≠ [] → st.rhost = host ∧ st.rserv = natDec port) ∧
      ((∀ c ∈ calls, 1 ≤ c.1 ∧ 1 ≤ c.2) → 2 * (line ++ tail).length ≤ calls.length →
        st.out = tail ∧ st.sock = [] ∧ st.proto = false ∧ st.rhost = host ∧ st.rserv = natDec port) := by
  have hl : 0 < line.length := by
    obtain ⟨l0, e, -⟩ := good_crlf num name line host port hg
    rw [e]; simp
  obtain ⟨st, e, h, hm⟩ := readRun_good num name line tail host port hg calls { proto := true, sock := line ++ tail }
    ⟨rfl, Or.inl ⟨rfl, rfl, rfl, rfl, hl⟩⟩
  refine ⟨st, e, h.1, ?_, ?_, ?_⟩
  · rcases h.2 with ⟨-, -, h3, -, -⟩ | ⟨-, -, ⟨-, -, -, h4⟩ | ⟨-, -, h4⟩⟩
    · rw [h3]; exact List.nil_prefix
    · rw [← h4, List.append_assoc]; exact List.prefix_append _ _
    · rw [← h4]; exact List.prefix_append _ _
  · intro hne
    rcases h.2 with ⟨-, -, h3, -, -⟩ | ⟨h1, h2, -⟩
    · exact absurd h3 hne
    · exact ⟨h1, h2⟩
  · intro hc hlen
    have := hm hc (by simpa [rMeasure] using hlen)
    simp only [rMeasure] at this
    have hsock : st.sock = [] := List.eq_nil_of_length_eq_zero (by omega)
    rcases h.2 with ⟨-, -, h3, h4, h5⟩ | ⟨h1, h2, ⟨-, h3, h4, -⟩ | ⟨h3, -, h4⟩⟩
    · exfalso
      have := congrArg List.length h4
      rw [hsock] at this
      simp at this
      omega
    · exfalso
      rw [h3] at this
      simp at this
      omega
    · rw [hsock, List.append_nil] at h4
      exact ⟨h4, hsock, h3, h1, h2⟩

/-- the example's header is good -/
theorem exHeader : GoodHeader exNum exName b%"PROXY TCP4 1.2.3.4 5.6.7.8 65535 80\r\n" b%"1.2.3.4" 65535 :=
  ⟨by decide, 4, b%"1.2.3.4", b%"5.6.7.8", b%"65535", b%"80", 80, 4, 5, Or.inl rfl, exAddr _ (by decide), exAddr _ (by decide),
    exPort _ _ (by decide) (by decide) (by decide) (by decide), exPort _ _ (by decide) (by decide) (by decide) (by decide), by decide, by decide, by decide, by decide⟩

/-- a run with some of the header's bytes in each read, and the tail in pieces -/
example : ∃ st, readRun exNum exName [(5, 20), (5, 19), (2, 1), (1, 9), (5, 9)] { proto := true, sock := b%"PROXY TCP4 1.2.3.4 5.6.7.8 65535 80\r\nabcdef" } = .ok st ∧
    st.out = b%"abcdef" ∧ st.rhost = b%"1.2.3.4" ∧ st.rserv = b%"65535" := by
  refine ⟨{ proto := false, data := b%"PROXY TCP4 1.2.3.4" ++ [0] ++ b%"5.6.7.8" ++ [0] ++ b%"65535" ++ [0] ++ b%"80" ++ [0] ++ b%"\nab", readPos := 39, hasTail := false, rhost := b%"1.2.3.4", rserv := b%"65535", sock := [], out := b%"abcdef" }, ?_⟩
  decide +kernel

/-- C34: a stream without CRLF among its first 107 bytes is never passed to TLS, and once those have been read the connection
fails. -/
theorem C34_overlong (num : Option Nat → Bytes → Option A) (name : A → Option Bytes) (S : Bytes)
    (hno : ∀ a b, S.take 107 ≠ a ++ [13, 10] ++ b) (calls : List (Nat × Nat)) :
    ∃ st, readRun num name calls { proto := true, sock := S } = .ok st ∧ st.out = [] ∧
      (st.failed = true ∨ (st.data = S.take st.data.length ∧ st.data.length ≤ 107)) := by
  have hrej : ∀ k, k ≤ 107 → memmem (S.take k) b%"\r\n" = some none := by
    intro k hk
    rcases memmem_crlf (S.take k) with ⟨t, -, h2, -⟩ | ⟨h1, -⟩
    · exfalso
      have e := (readLine_some _ _ _ h2).1
      refine hno ((S.take k).take t) ((S.take k).drop (t + 2) ++ (S.take 107).drop k) ?_
      rw [← List.append_assoc, ← e]
      have : S.take k = (S.take 107).take k := by rw [List.take_take]; congr 1; omega
      rw [this, List.take_append_drop]
    · exact h1
  suffices H : ∀ (calls : List (Nat × Nat)) (st : RState),
      (st.out = [] ∧ (st.failed = true ∨ (st.proto = true ∧ st.hasTail = false ∧ st.data ++ st.sock = S ∧ st.data.length ≤ 107))) →
      ∃ g, readRun num name calls st = .ok g ∧ (g.out = [] ∧ (g.failed = true ∨ (g.proto = true ∧ g.hasTail = false ∧ g.data ++ g.sock = S ∧ g.data.length ≤ 107))) by
    obtain ⟨st, e, h1, h2⟩ := H calls { proto := true, sock := S } ⟨rfl, Or.inr ⟨rfl, rfl, rfl, by simp⟩⟩
    refine ⟨st, e, h1, ?_⟩
    rcases h2 with h | ⟨-, -, h, h'⟩
    · exact Or.inl h
    · exact Or.inr ⟨by rw [← h, List.take_left], h'⟩
  intro calls
  induction calls with
  | nil => intro st h; exact ⟨st, rfl, h⟩
  | cons c r ih =>
    rintro st ⟨h1, h2⟩
    suffices ∃ g, readCb num name c.1 c.2 st = .ok g ∧ (g.out = [] ∧ (g.failed = true ∨ (g.proto = true ∧ g.hasTail = false ∧ g.data ++ g.sock = S ∧ g.data.length ≤ 107))) by
      obtain ⟨g, e, hg⟩ := this
      obtain ⟨g', e', hg'⟩ := ih g hg
      exact ⟨g', by simp only [readRun, e]; exact e', hg'⟩
    unfold readCb
    by_cases hfl : st.failed = true
    · rw [if_pos hfl]; exact ⟨st, rfl, h1, Or.inl hfl⟩
    · rw [if_neg hfl]
      rcases h2 with h2 | ⟨h2, h3, h5, h6⟩
      · exact absurd h2 hfl
      · rw [h2, h3]
        simp only [Bool.not_true, Bool.false_eq_true, if_false]
        by_cases hav : 108 - st.data.length - 1 = 0
        · rw [if_pos hav]; exact ⟨_, rfl, h1, Or.inl rfl⟩
        · rw [if_neg hav]
          generalize hkk : min c.2 (108 - st.data.length - 1) = k
          by_cases hnil : st.sock.take k = []
          · rw [if_pos hnil]; exact ⟨st, rfl, h1, Or.inr ⟨h2, h3, h5, h6⟩⟩
          · rw [if_neg hnil]
            have hlen : (st.data ++ st.sock.take k).length ≤ 107 := by simp; omega
            have hS : (st.data ++ st.sock.take k) ++ st.sock.drop k = S := by
              rw [List.append_assoc, List.take_append_drop, h5]
            have hdat : st.data ++ st.sock.take k = S.take (st.data ++ st.sock.take k).length := by
              conv => rhs; rw [← hS]
              rw [List.take_left]
            generalize hD : st.data ++ st.sock.take k = D at *
            have := hrej D.length hlen
            rw [← hdat] at this
            simp only [this]
            exact ⟨_, rfl, h1, Or.inr ⟨rfl, rfl, hS, hlen⟩⟩

example : ∀ a b, (List.replicate 200 65 : Bytes).take 107 ≠ a ++ [13, 10] ++ b := by
  intro a b e
  have : (13 : UInt8) ∈ (List.replicate 200 65 : Bytes).take 107 := by rw [e]; simp
  exact absurd (List.eq_of_mem_replicate (List.mem_of_mem_take this)) (by decide)

/-- C34 fails for every `PROXY UNKNOWN` line that is read at once: the count of consumed bytes is used uninitialised. -/
theorem C34_unknown_undefined (num : Option Nat → Bytes → Option A) (name : A → Option Bytes) (x tail : Bytes) (b n : Nat)
    (hx : x.length ≤ 90) (hn : 15 + x.length ≤ n) :
    readCb num name b n { proto := true, sock := b%"PROXY UNKNOWN" ++ x ++ b%"\r\n" ++ tail } = .ub := by
  unfold readCb
  simp only [Bool.false_eq_true, if_false, Bool.not_true, List.length_nil, List.nil_append]
  rw [if_neg (by decide)]
  have hT : (b%"PROXY UNKNOWN" ++ x ++ b%"\r\n" ++ tail).take (min n (108 - 0 - 1)) =
      b%"PROXY UNKNOWN" ++ x ++ b%"\r\n" ++ tail.take (min n (108 - 0 - 1) - (15 + x.length)) := by
    rw [List.take_append]
    congr 1
    · rw [List.take_of_length_le]
      simp; omega
    · congr 1
      simp; omega
  rw [hT]
  have hm : ∃ t, memmem (b%"PROXY UNKNOWN" ++ x ++ b%"\r\n" ++ tail.take (min n (108 - 0 - 1) - (15 + x.length))) b%"\r\n" = some (some t) := by
    rcases memmem_crlf (b%"PROXY UNKNOWN" ++ x ++ b%"\r\n" ++ tail.take (min n (108 - 0 - 1) - (15 + x.length))) with ⟨t, h1, -⟩ | ⟨-, h2⟩
    · exact ⟨t, h1⟩
    · exact absurd rfl (fun e => (readLine_none _).1 h2 (b%"PROXY UNKNOWN" ++ x) _ e)
  obtain ⟨t, hm⟩ := hm
  rw [if_neg (by simp)]
  simp only [hm, C33_unknown]

/-! ### C35 -/

/-- the line built by the relay is the protocol's -/
theorem proxyLine_eq (v4 : Bool) (rhost to rserv toPort : Bytes) :
    proxyLine v4 rhost to rserv toPort = v1line (if v4 then 4 else 6) rhost to rserv toPort := by
  cases v4 <;> simp [proxyLine, v1line]

/-- C35: on a connection that came without a PROXY header (nothing is in its buffer), what precedes the relayed request is
nothing, when the line would not fit in 107 bytes, or the complete line, which the parser reads back as the same
addresses and ports; whether it is sent in the clear or over TLS.  (Partial: the address texts are assumed to be
numeric ones of the family written, see `C35_family_mismatch`; and on connections that themselves came with a header
the buffer has stale data, see `C35_stale` and `C35_wraparound`.) -/
theorem C35_roundtrip_partial (num : Option Nat → Bytes → Option A) (v4 : Bool) (rhost to rserv toPort sock tail : Bytes) (p q : Nat) (a b : A)
    (h1 : AddrText rhost) (h2 : AddrText to) (h3 : PortText rserv p) (h4 : PortText toPort q)
    (hs : num (some (if v4 then 4 else 6)) rhost = some a) (hd : num none to = some b) :
    let st := proxySocketBuf v4 to toPort { proto := false, sock := sock, rhost := rhost, rserv := rserv }
    sentBeforeTls st = .ok (sentBeforePlain st) ∧
    ((107 < (v1line (if v4 then 4 else 6) rhost to rserv toPort).length ∧ sentBeforePlain st = []) ∨
     (sentBeforePlain st = v1line (if v4 then 4 else 6) rhost to rserv toPort ∧ (sentBeforePlain st).length ≤ 107 ∧
      ∃ b', ppParse num (sentBeforePlain st ++ tail) =
        .accept { fam := if v4 then 4 else 6, src := a, dst := b, sport := p, dport := q } (sentBeforePlain st).length b')) := by
  intro st
  simp only [st, proxySocketBuf, proxyLine_eq]
  by_cases hl : (v1line (if v4 then 4 else 6) rhost to rserv toPort).length ≥ 108
  · rw [if_pos hl]
    exact ⟨by simp [sentBeforeTls, sentBeforePlain], Or.inl ⟨by omega, by simp [sentBeforePlain]⟩⟩
  · rw [if_neg hl]
    refine ⟨by simp [sentBeforeTls, sentBeforePlain], Or.inr ⟨rfl, by simp only [sentBeforePlain]; omega, ?_⟩⟩
    obtain ⟨b', e, -⟩ := C33_wellformed num (if v4 then 4 else 6) rhost to rserv toPort tail p q a b (by cases v4 <;> simp) h1 h2 h3 h4 hs hd
    exact ⟨b', e⟩

/-- both cases occur -/
example : ((proxySocketBuf true b%"5.6.7.8" b%"80" { proto := false, sock := [], rhost := b%"1.2.3.4", rserv := b%"65535" }).data = b%"PROXY TCP4 1.2.3.4 5.6.7.8 65535 80\r\n") ∧
    (proxySocketBuf true (List.replicate 90 65) b%"80" { proto := false, sock := [], rhost := b%"1.2.3.4", rserv := b%"65535" }).data = [] := by
  decide +kernel

/-- C35 fails on a connection that came with a PROXY header, relayed over TLS to a server for which `proxy-v1` is not configured: the
inbound header (with its separators overwritten by NULs) is sent before the TLS handshake. -/
theorem C35_stale : ∃ st, readRun exNum exName [(5, 107)] { proto := true, sock := b%"PROXY TCP4 1.2.3.4 5.6.7.8 65535 80\r\n" } = .ok st ∧
    st.proto = false ∧ sentBeforeTls st = .ok (b%"PROXY TCP4 1.2.3.4" ++ [0] ++ b%"5.6.7.8" ++ [0] ++ b%"65535" ++ [0] ++ b%"80" ++ [0] ++ b%"\n") :=
  ⟨{ proto := false, data := b%"PROXY TCP4 1.2.3.4" ++ [0] ++ b%"5.6.7.8" ++ [0] ++ b%"65535" ++ [0] ++ b%"80" ++ [0] ++ b%"\n", readPos := 0, hasTail := false, rhost := b%"1.2.3.4", rserv := b%"65535", sock := [], out := [] }, by decide +kernel⟩

/-- where the read position is while, and after, what came with the header is handed to TLS -/
def TailInv (st : RState) : Prop :=
  st.failed = false ∧ ((st.hasTail = true ∧ st.proto = true ∧ st.readPos ≤ st.data.length) ∨ (st.proto = false ∧ st.readPos = st.data.length))

theorem readCb_tailInv (num : Option Nat → Bytes → Option A) (name : A → Option Bytes) (b n : Nat) (st g : RState)
    (e : readCb num name b n st = .ok g) (h : TailInv st) : TailInv g := by
  obtain ⟨hf, h | h⟩ := h
  · obtain ⟨h1, h2, h3⟩ := h
    unfold readCb at e
    rw [hf, h1, h2] at e
    simp only [Bool.not_true, Bool.false_eq_true, if_false, if_true, Res.ok.injEq] at e
    subst e
    split
    · rename_i hl
      refine ⟨rfl, Or.inr ⟨rfl, ?_⟩⟩
      show st.readPos + _ = st.data.length
      omega
    · refine ⟨rfl, Or.inl ⟨rfl, rfl, ?_⟩⟩
      show st.readPos + _ ≤ st.data.length
      omega
  · obtain ⟨h1, h2⟩ := h
    unfold readCb at e
    rw [hf, h1] at e
    simp only [Bool.not_false, Bool.false_eq_true, if_false, if_true, Res.ok.injEq] at e
    subst e
    exact ⟨rfl, Or.inr ⟨rfl, h2⟩⟩

theorem readRun_tailInv (num : Option Nat → Bytes → Option A) (name : A → Option Bytes) :
    ∀ (calls : List (Nat × Nat)) (st g : RState), readRun num name calls st = .ok g → TailInv st → TailInv g
  | [], st, g, e, h => by simp only [readRun, Res.ok.injEq] at e; subst e; exact h
  | (b, n) :: r, st, g, e, h => by
    cases e' : readCb num name b n st with
    | ok g' =>
      simp only [readRun, e'] at e
      exact readRun_tailInv num name r g' g e (readCb_tailInv num name b n st g' e' h)
    | err => simp [readRun, e'] at e
    | ub => simp [readRun, e'] at e

/-- before the header has been read there is no tail, and a tail is never longer than what was read -/
def HeadInv (st : RState) : Prop :=
  (st.hasTail = true → st.failed = false ∧ st.proto = true ∧ st.readPos ≤ st.data.length)

theorem readCb_headInv (num : Option Nat → Bytes → Option A) (name : A → Option Bytes) (b n : Nat) (st g : RState)
    (e : readCb num name b n st = .ok g) (h : HeadInv st) : HeadInv g := by
  by_cases ht : st.hasTail = true
  · obtain ⟨h1, h2, h3⟩ := h ht
    have := readCb_tailInv num name b n st g e ⟨h1, Or.inl ⟨ht, h2, h3⟩⟩
    intro hg
    obtain ⟨hf, h | h⟩ := this
    · exact ⟨hf, h.2.1, h.2.2⟩
    · exfalso
      unfold readCb at e
      rw [h1, ht, h2] at e
      simp only [Bool.not_true, Bool.false_eq_true, if_false, if_true, Res.ok.injEq] at e
      subst e
      split at hg
      · simp at hg
      · rename_i hl
        rw [if_neg hl] at h
        simp at h
  · have ht' : st.hasTail = false := by simpa using ht
    unfold readCb at e
    rw [ht'] at e
    simp only [Bool.false_eq_true, if_false] at e
    intro hg
    grind

theorem readRun_headInv (num : Option Nat → Bytes → Option A) (name : A → Option Bytes) :
    ∀ (calls : List (Nat × Nat)) (st g : RState), readRun num name calls st = .ok g → HeadInv st → HeadInv g
  | [], st, g, e, h => by simp only [readRun, Res.ok.injEq] at e; subst e; exact h
  | (b, n) :: r, st, g, e, h => by
    cases e' : readCb num name b n st with
    | ok g' =>
      simp only [readRun, e'] at e
      exact readRun_headInv num name r g' g e (readCb_headInv num name b n st g' e' h)
    | err => simp [readRun, e'] at e
    | ub => simp [readRun, e'] at e

/-- C35: on a connection whose PROXY header was read together with what followed it, once all of that has been handed to
TLS, a relay over TLS to a server for which `proxy-v1` is not configured sends nothing before its handshake (in
particular, nothing of the client's own header).  When the header was read alone, see `C35_stale`. -/
theorem C35_nothing_before (num : Option Nat → Bytes → Option A) (name : A → Option Bytes) (S : Bytes) (calls calls' : List (Nat × Nat))
    (mid st : RState) (h1 : readRun num name calls { proto := true, sock := S } = .ok mid) (ht : mid.hasTail = true)
    (h2 : readRun num name calls' mid = .ok st) (hp : st.proto = false) : sentBeforeTls st = .ok [] := by
  obtain ⟨a, b, c⟩ := readRun_headInv num name calls _ mid h1 (fun h => by simp at h) ht
  obtain ⟨-, h | h⟩ := readRun_tailInv num name calls' mid st h2 ⟨a, Or.inl ⟨ht, b, c⟩⟩
  · rw [hp] at h; exact absurd h.2.1 (by decide)
  · unfold sentBeforeTls
    rw [if_neg (by omega), h.2, List.drop_length]

example : ∃ mid st, readRun exNum exName [(5, 107)] { proto := true, sock := b%"PROXY TCP4 1.2.3.4 5.6.7.8 65535 80\r\nabcdef" } = .ok mid ∧
    mid.hasTail = true ∧ readRun exNum exName [(100, 1)] mid = .ok st ∧ st.proto = false ∧ st.out = b%"abcdef" :=
  ⟨{ proto := true, data := b%"PROXY TCP4 1.2.3.4" ++ [0] ++ b%"5.6.7.8" ++ [0] ++ b%"65535" ++ [0] ++ b%"80" ++ [0] ++ b%"\nabcdef", readPos := 37, hasTail := true, rhost := b%"1.2.3.4", rserv := b%"65535", sock := [], out := [] },
   { proto := false, data := b%"PROXY TCP4 1.2.3.4" ++ [0] ++ b%"5.6.7.8" ++ [0] ++ b%"65535" ++ [0] ++ b%"80" ++ [0] ++ b%"\nabcdef", readPos := 43, hasTail := false, rhost := b%"1.2.3.4", rserv := b%"65535", sock := [], out := b%"abcdef" }, by decide +kernel⟩

/-- C35 fails on a connection whose PROXY header arrived in one piece with other data, relayed over TLS with `proxy-v1`: the read position left
by the inbound header lies beyond the outbound line, and the size of what is left to send wraps around. -/
theorem C35_wraparound : ∃ st, readRun exNum exName [(5, 107), (100, 1)] { proto := true, sock := b%"PROXY TCP4 1.2.3.4 5.6.7.8 65535 80\r\nabcdef" } = .ok st ∧
    st.proto = false ∧ st.out = b%"abcdef" ∧ sentBeforeTls (proxySocketBuf true b%"5.6.7.8" b%"80" st) = .ub :=
  ⟨{ proto := false, data := b%"PROXY TCP4 1.2.3.4" ++ [0] ++ b%"5.6.7.8" ++ [0] ++ b%"65535" ++ [0] ++ b%"80" ++ [0] ++ b%"\nabcdef", readPos := 43, hasTail := false, rhost := b%"1.2.3.4", rserv := b%"65535", sock := [], out := b%"abcdef" }, by decide +kernel⟩

/-- C35 fails when the client's address, as written in its own PROXY header, is not of the listening address's family (`TCP4` or `TCP6` is chosen from the latter alone): the parser
refuses the line. -/
theorem C35_family_mismatch : ppParse exNum (proxyLine true b%"::1" b%"5.6.7.8" b%"1" b%"80") = .reject := by decide +kernel

end Gmid.Props
