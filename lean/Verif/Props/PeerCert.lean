import Verif.Spec.PeerCert
import Verif.Lemmas.Server

/-!
# C142: what an application is told of the client's certificate
-/

set_option autoImplicit false

namespace Gmid.Props

open Spec

/-! ## the digest -/

theorem lowHex_of_nibble (n : Nat) (h : n < 16) : lowHexVal (b%"0123456789abcdef".getD n 0) = some n := by
  have : ∀ n : Fin 16, lowHexVal (b%"0123456789abcdef".getD n.val 0) = some n.val := by decide +kernel
  exact this ⟨n, h⟩

theorem nibble_hi (x : UInt8) : ((x >>> 4) &&& 15).toNat = x.toNat / 16 := by
  have : ∀ x : Fin 256, ((UInt8.ofNat x.val >>> 4) &&& 15).toNat = x.val / 16 := by decide +kernel
  have h := this ⟨x.toNat, x.toNat_lt⟩
  simpa using h

theorem nibble_lo (x : UInt8) : (x &&& 15).toNat = x.toNat % 16 := by
  have : ∀ x : Fin 256, (UInt8.ofNat x.val &&& 15).toNat = x.val % 16 := by decide +kernel
  have h := this ⟨x.toNat, x.toNat_lt⟩
  simpa using h

theorem readHex_hex (d : Bytes) : readHex (certHex d) = some d := by
  induction d with
  | nil => rfl
  | cons x r ih =>
    have hx := x.toNat_lt
    rw [show certHex (x :: r) = b%"0123456789abcdef".getD ((x >>> 4) &&& 15).toNat 0 :: b%"0123456789abcdef".getD (x &&& 15).toNat 0 :: certHex r from rfl, nibble_hi, nibble_lo]
    unfold readHex
    rw [lowHex_of_nibble _ (by omega), lowHex_of_nibble _ (by omega), ih]
    simp only
    rw [show 16 * (x.toNat / 16) + x.toNat % 16 = x.toNat by omega]
    simp

theorem hex_length (d : Bytes) : (certHex d).length = 2 * d.length := by
  induction d with
  | nil => rfl
  | cons x r ih => simp only [certHex, List.length_cons, ih]; omega

/-- C142: the hash an application gets is that of one digest only: two clients have the same if and only if their certificates have the same digest -/
theorem C142_hash (d e : Bytes) : tlsCertHash d = tlsCertHash e ↔ d = e := by
  constructor
  · intro h
    have h' : certHex d = certHex e := List.append_cancel_left h
    have := readHex_hex d
    rw [h', readHex_hex e] at this
    injection this with h
    exact h.symm
  · rintro rfl
    rfl

example : tlsCertHash [0xde, 0x0f] = b%"SHA256:de0f" := by decide +kernel

/-! ## the times -/

theorem leap_iff (y : Nat) : leapYear y = true ↔ ((4 ∣ y ∧ ¬ 100 ∣ y) ∨ 400 ∣ y) := by
  unfold leapYear
  simp only [Bool.and_eq_true, Bool.or_eq_true, decide_eq_true_eq, ne_eq]
  omega

theorem year_len (y : Nat) : yearStart (y + 1) = yearStart y + 365 + (if leapYear y then 1 else 0) := by
  have a : (y + 1 + 3) / 4 = (y + 3) / 4 + (if y % 4 = 0 then 1 else 0) := by split <;> omega
  have b : (y + 1 + 99) / 100 = (y + 99) / 100 + (if y % 100 = 0 then 1 else 0) := by split <;> omega
  have c : (y + 1 + 399) / 400 = (y + 399) / 400 + (if y % 400 = 0 then 1 else 0) := by split <;> omega
  have le : (y + 99) / 100 ≤ (y + 3) / 4 := by omega
  have f1 : y % 400 = 0 → y % 100 = 0 := fun h => by omega
  have f2 : y % 100 = 0 → y % 4 = 0 := fun h => by omega
  unfold yearStart
  rw [a, b, c]
  clear a b c
  generalize (y + 3) / 4 = A at *
  generalize (y + 99) / 100 = B at *
  generalize (y + 399) / 400 = C at *
  unfold leapYear
  by_cases h2 : y % 400 = 0
  · simp only [h2, f1 h2, f2 (f1 h2)]
    simp
    omega
  · by_cases h1 : y % 100 = 0
    · simp only [h2, h1, f2 h1]
      simp
      omega
    · by_cases h4 : y % 4 = 0
      · simp [h2, h1, h4]
        omega
      · simp [h2, h1, h4]
        omega

theorem year_mono (y z : Nat) (h : y ≤ z) : yearStart y ≤ yearStart z := by
  induction z with
  | zero => simp [Nat.le_zero.mp h]
  | succ z ih =>
    by_cases e : y = z + 1
    · rw [e]; exact Nat.le_refl _
    · have := ih (by omega)
      rw [year_len]
      omega

theorem monthStart_len (y m : Nat) (h1 : 1 ≤ m) (h2 : m ≤ 12) : monthStart (leapYear y) (m + 1) = monthStart (leapYear y) m + monthDays y m := by
  have hd : ∀ (b : Bool) (m : Fin 13), 1 ≤ m.val → monthStart b (m.val + 1) = monthStart b m.val + (if m.val = 2 then (if b then 29 else 28) else if m.val = 4 ∨ m.val = 6 ∨ m.val = 9 ∨ m.val = 11 then 30 else 31) := by
    decide +kernel
  have h := hd (leapYear y) ⟨m, by omega⟩ h1
  simp only at h
  rw [h]
  unfold monthDays
  by_cases hl : leapYear y = true
  · rw [if_pos ((leap_iff y).mp hl)]
    simp only [hl, if_true]
  · rw [if_neg (fun c => hl ((leap_iff y).mpr c))]
    simp only [hl]
    rfl

theorem monthStart_mono (b : Bool) (m n : Nat) (h : m ≤ n) (hn : n ≤ 13) : monthStart b m ≤ monthStart b n := by
  have : ∀ (b : Bool) (m n : Fin 14), m.val ≤ n.val → monthStart b m.val ≤ monthStart b n.val := by decide +kernel
  exact this b ⟨m, by omega⟩ ⟨n, by omega⟩ h

theorem monthStart_end (b : Bool) : monthStart b 13 = 365 + (if b then 1 else 0) := by cases b <;> rfl

theorem timegm_inj (t u : Tm) (ht : RealTime t) (hu : RealTime u) (h : timegm t = timegm u) : t = u := by
  obtain ⟨y, m, d, hh, mi, s⟩ := t
  obtain ⟨y', m', d', hh', mi', s'⟩ := u
  obtain ⟨-, ⟨m1, m2⟩, ⟨d1, d2⟩, h1, i1, s1⟩ := ht
  obtain ⟨-, ⟨m1', m2'⟩, ⟨d1', d2'⟩, h1', i1', s1'⟩ := hu
  simp only at m1 m2 d1 d2 h1 i1 s1 m1' m2' d1' d2' h1' i1' s1'
  simp only [timegm] at h
  have eD : yearStart y + monthStart (leapYear y) m + (d - 1) = yearStart y' + monthStart (leapYear y') m' + (d' - 1) := by omega
  have eS : hh = hh' ∧ mi = mi' ∧ s = s' := by omega
  have a1 := monthStart_len y m m1 m2
  have a2 := monthStart_mono (leapYear y) (m + 1) 13 (by omega) (by omega)
  rw [monthStart_end] at a2
  have b1 := monthStart_len y' m' m1' m2'
  have b2 := monthStart_mono (leapYear y') (m' + 1) 13 (by omega) (by omega)
  rw [monthStart_end] at b2
  have ey : y = y' := by
    have l1 := year_len y
    have l2 := year_len y'
    by_cases h1 : y < y'
    · have := year_mono (y + 1) y' h1
      omega
    · by_cases h2 : y' < y
      · have := year_mono (y' + 1) y h2
        omega
      · omega
  subst ey
  have em : m = m' := by
    by_cases h1 : m < m'
    · have := monthStart_mono (leapYear y) (m + 1) m' h1 (by omega)
      omega
    · by_cases h2 : m' < m
      · have := monthStart_mono (leapYear y) (m' + 1) m h2 (by omega)
        omega
      · omega
  subst em
  have ed : d = d' := by omega
  subst ed
  obtain ⟨rfl, rfl, rfl⟩ := eS
  rfl

theorem real1969 : RealTime lastOf1969 := ⟨by decide, by decide, by decide, by decide, by decide, by decide⟩

theorem timegm1969 : timegm lastOf1969 = -1 := by decide +kernel

theorem timegm_bad (t : Tm) (ht : RealTime t) : timegm t = -1 ↔ t = lastOf1969 :=
  ⟨fun h => timegm_inj t _ ht real1969 (h.trans timegm1969.symm), fun h => h ▸ timegm1969⟩

/-- such a gmtime_r exists -/
theorem saysTime_exists : ∃ g, SaysTime g := by
  refine ⟨fun s => open Classical in if h : ∃ t, RealTime t ∧ timegm t = s then some h.choose else none, fun t ht => ?_⟩
  have hex : ∃ u, RealTime u ∧ timegm u = timegm t := ⟨t, ht, rfl⟩
  simp only [dif_pos hex]
  rw [timegm_inj _ _ hex.choose_spec.1 ht hex.choose_spec.2]

theorem dig2_eq (n : Nat) (h : n ≤ 99) : dig2 n = [digitOf (n / 10), digitOf n] := by
  have : ∀ n : Fin 100, dig2 n.val = [digitOf (n.val / 10), digitOf n.val] := by decide +kernel
  exact this ⟨n, by omega⟩

theorem dig4_eq (n : Nat) (h1 : 1000 ≤ n) (h2 : n ≤ 9999) : natDec n = [digitOf (n / 1000), digitOf (n / 100), digitOf (n / 10), digitOf n] := by
  rw [natDec_step n (by omega), natDec_step (n / 10) (by omega), natDec_step (n / 10 / 10) (by omega), natDec_small (n / 10 / 10 / 10) (by omega)]
  simp only [digitOf, Nat.div_div_eq_div_mul, List.cons_append, List.nil_append]
  rw [show n / 1000 % 10 = n / 1000 by omega]

theorem natDec_len4 (n : Nat) (h : n ≤ 9999) : (natDec n).length ≤ 4 := by
  by_cases h1 : 1000 ≤ n
  · rw [dig4_eq n h1 h]; simp
  · by_cases h2 : n < 10
    · rw [natDec_small n h2]; simp
    · rw [natDec_step n (by omega)]
      by_cases h3 : n / 10 < 10
      · rw [natDec_small _ h3]; simp
      · rw [natDec_step _ (by omega), natDec_small _ (by omega)]; simp

theorem monthDays_le (y m : Nat) : monthDays y m ≤ 31 := by
  unfold monthDays
  split <;> split <;> omega

theorem ftZ_iso (t : Tm) (ht : RealTime t) (h : 1000 ≤ t.year) : ftZ t = isoText t := by
  have := monthDays_le t.year t.mon
  obtain ⟨hy, hm, hd, hh, hmi, hs⟩ := ht
  unfold ftZ isoText
  rw [dig4_eq _ h hy, dig2_eq _ (by omega), dig2_eq _ (by omega), dig2_eq _ (by omega), dig2_eq _ (by omega), dig2_eq _ (by omega)]
  rfl

theorem ftZ_fits (t : Tm) (ht : RealTime t) : (ftZ t).length < 22 := by
  have := monthDays_le t.year t.mon
  obtain ⟨hy, hm, hd, hh, hmi, hs⟩ := ht
  have := natDec_len4 _ hy
  unfold ftZ
  rw [dig2_eq _ (by omega), dig2_eq _ (by omega), dig2_eq _ (by omega), dig2_eq _ (by omega), dig2_eq _ (by omega)]
  simp only [List.length_append, List.length_cons, List.length_nil]
  have e : ∀ x : Bytes, x.length = x.length := fun _ => rfl
  simp
  omega

theorem certTime_eq (g : Int → Option Tm) (hg : SaysTime g) (t : Tm) (ht : RealTime t) : certTime g (timegm t) = .ok (ftZ t) := by
  unfold certTime
  rw [hg t ht]
  simp only
  rw [if_pos (ftZ_fits t ht)]

theorem digitOf_inj {a b : Nat} (h : digitOf a = digitOf b) : a % 10 = b % 10 := by
  unfold digitOf at h
  have := congrArg UInt8.toNat h
  simp only [UInt8.toNat_ofNat'] at this
  omega

/-- C142: two different times have different texts -/
theorem C142_time (t u : Tm) (ht : RealTime t) (hu : RealTime u) : isoText t = isoText u ↔ t = u := by
  refine ⟨fun h => ?_, fun h => h ▸ rfl⟩
  have := monthDays_le t.year t.mon
  have := monthDays_le u.year u.mon
  obtain ⟨y, m, d, hh, mi, s⟩ := t
  obtain ⟨y', m', d', hh', mi', s'⟩ := u
  obtain ⟨a1, a2, a3, a4, a5, a6⟩ := ht
  obtain ⟨b1, b2, b3, b4, b5, b6⟩ := hu
  simp only at *
  simp only [isoText, List.cons.injEq, and_true, true_and] at h
  obtain ⟨h1, h2, h3, h4, h5, h6, h7, h8, h9, h10, h11, h12, h13, h14⟩ := h
  have := digitOf_inj h1; have := digitOf_inj h2; have := digitOf_inj h3; have := digitOf_inj h4; have := digitOf_inj h5
  have := digitOf_inj h6; have := digitOf_inj h7; have := digitOf_inj h8; have := digitOf_inj h9; have := digitOf_inj h10
  have := digitOf_inj h11; have := digitOf_inj h12; have := digitOf_inj h13; have := digitOf_inj h14
  have : y = y' := by omega
  have : m = m' := by omega
  have : d = d' := by omega
  have : hh = hh' := by omega
  have : mi = mi' := by omega
  have : s = s' := by omega
  subst_vars
  rfl

/-! ## the handshake -/

theorem peerTimes_eq (p : PeerCert) (hp : PeerCertOk p) (b a : Tm) (hb : p.notBefore = some b) (ha : p.notAfter = some a) :
    tlsPeerTimes p = if b = lastOf1969 ∨ a = lastOf1969 then none else some (timegm b, timegm a) := by
  have rb : RealTime b := by
    obtain ⟨t, e, h⟩ := hp.before
    rw [hb] at e; cases e; exact h
  have ra : RealTime a := by
    obtain ⟨t, e, h⟩ := hp.after
    rw [ha] at e; cases e; exact h
  unfold tlsPeerTimes
  rw [hb, ha]
  simp only
  by_cases h1 : b = lastOf1969
  · rw [if_pos ((timegm_bad b rb).mpr h1), if_pos (.inl h1)]
  · rw [if_neg (fun c => h1 ((timegm_bad b rb).mp c))]
    by_cases h2 : a = lastOf1969
    · rw [if_pos ((timegm_bad a ra).mpr h2), if_pos (.inr h2)]
    · rw [if_neg (fun c => h2 ((timegm_bad a ra).mp c)), if_neg (by simp [h1, h2])]

/-- C142: when OpenSSL has accepted a client with a certificate, the handshake succeeds, unless the certificate begins or ends to be valid in the last second of 1969 -/
theorem C142_accepted (c : LibConn) (hc : c.complete = false) (p : PeerCert) (hp : PeerCertOk p) :
    (tlsHandshakePeer c none (some p)).2.1 = .zero ↔ p.notBefore ≠ some lastOf1969 ∧ p.notAfter ≠ some lastOf1969 := by
  obtain ⟨b, hb, -⟩ := hp.before
  obtain ⟨a, ha, -⟩ := hp.after
  unfold tlsHandshakePeer tlsHandshake tlsPeerInfo
  simp only [hc]
  rw [peerTimes_eq p hp b a hb ha, hb, ha]
  by_cases h : b = lastOf1969 ∨ a = lastOf1969
  · rw [if_pos h]
    simp
    rcases h with h | h <;> simp [h]
  · rw [if_neg h]
    simp
    exact ⟨fun e => h (.inl e), fun e => h (.inr e)⟩

/-- C142: a client without a certificate is accepted -/
theorem C142_without (c : LibConn) (hc : c.complete = false) : (tlsHandshakePeer c none none).2 = (.zero, some none) := by
  unfold tlsHandshakePeer tlsHandshake tlsPeerInfo
  simp [hc]

/-- an ordinary certificate -/
def someCert : PeerCert :=
  { digest := List.replicate 32 0xab, subject := b%"/CN=ann", issuer := b%"/CN=ann", notBefore := some { year := 2024, mon := 2, day := 29, hour := 12, min := 0, sec := 5 },
    notAfter := some { year := 9999, mon := 12, day := 31, hour := 23, min := 59, sec := 59 } }

theorem someCert_ok : PeerCertOk someCert :=
  ⟨by decide, ⟨_, rfl, by decide, by decide, by decide, by decide, by decide, by decide⟩, ⟨_, rfl, by decide, by decide, by decide, by decide, by decide, by decide⟩⟩

example : (tlsHandshakePeer {} none (some someCert)).2.1 = .zero :=
  (C142_accepted {} rfl someCert someCert_ok).mpr ⟨by decide, by decide⟩

/-- C142: when one of the dates of the certificate cannot be read, the client is not accepted, and nothing is told of it -/
theorem C142_no_times (c : LibConn) (hc : c.complete = false) (p : PeerCert) (h : p.notBefore = none ∨ p.notAfter = none) :
    (tlsHandshakePeer c none (some p)).2 = (.fail, none) := by
  unfold tlsHandshakePeer tlsHandshake tlsPeerInfo tlsPeerTimes
  simp only [hc]
  rcases h with h | h
  · rw [h]; simp
  · rw [h]; cases p.notBefore <;> simp

example : (tlsHandshakePeer {} none (some { someCert with notAfter := none })).2 = (.fail, none) := C142_no_times {} rfl _ (.inr rfl)

/-- C142 is false of the code: a client whose certificate is valid from 1969-12-31 23:59:59 on cannot connect, and there is no message -/
theorem C142_refused (c : LibConn) (hc : c.complete = false) :
    PeerCertOk { someCert with notBefore := some lastOf1969 } ∧
    (tlsHandshakePeer c none (some { someCert with notBefore := some lastOf1969 })).2 = (.fail, none) ∧
    (tlsHandshakePeer c none (some { someCert with notBefore := some lastOf1969 })).1.msg = none := by
  have hp : PeerCertOk { someCert with notBefore := some lastOf1969 } := ⟨someCert_ok.digest, ⟨_, rfl, real1969⟩, someCert_ok.after⟩
  have e : tlsPeerInfo (some { someCert with notBefore := some lastOf1969 }) = none := by
    unfold tlsPeerInfo
    simp only
    rw [peerTimes_eq _ hp lastOf1969 { year := 9999, mon := 12, day := 31, hour := 23, min := 59, sec := 59 } rfl rfl, if_pos (Or.inl rfl)]
  refine ⟨hp, ?_⟩
  unfold tlsHandshakePeer
  rw [e]
  unfold tlsHandshake
  simp [hc]

/-! ## the parameters -/

/-- C142: an application is told the names, the digest and the times of the certificate, of every client with a certificate that is accepted -/
theorem C142_told (g : Int → Option Tm) (hg : SaysTime g) (c : LibConn) (p : PeerCert) (hp : PeerCertOk p) (i : Option ConnCert) (v ci st : Bytes)
    (hs : (tlsHandshakePeer c none (some p)).2 = (.zero, some i)) :
    ∃ t, fcgiCertOf g v ci st i = .ok (some t) ∧ ∀ x : FcgiIn, x.cert = some t → Told p (fcgiReqParams x) := by
  obtain ⟨b, hb, rb⟩ := hp.before
  obtain ⟨a, ha, ra⟩ := hp.after
  have hi : i = some { hash := tlsCertHash p.digest, subject := p.subject, issuer := p.issuer, notBefore := timegm b, notAfter := timegm a } := by
    revert hs
    unfold tlsHandshakePeer tlsPeerInfo
    simp only [peerTimes_eq p hp b a hb ha]
    cases hq : tlsHandshake c none none with
    | mk c' rv =>
      cases rv with
      | zero =>
        simp only
        by_cases h : b = lastOf1969 ∨ a = lastOf1969
        · rw [if_pos h]; simp
        · rw [if_neg h]
          simp only [Prod.mk.injEq, Option.some.injEq, true_and]
          exact fun e => e.symm
      | pollIn => simp
      | pollOut => simp
      | fail => simp
  subst hi
  refine ⟨{ subject := p.subject, issuer := p.issuer, hash := tlsCertHash p.digest, version := v, cipher := ci, strength := st, notBefore := ftZ b, notAfter := ftZ a }, ?_, ?_⟩
  · simp only [fcgiCertOf, certTime_eq g hg b rb, certTime_eq g hg a ra]
  · intro x hx
    unfold fcgiReqParams
    rw [hx]
    refine ⟨?_, ?_, ?_, ⟨certHex p.digest, ?_, ?_, readHex_hex _⟩, ?_, ?_⟩
    · simp
    · simp
    · simp
    · simp [tlsCertHash]
    · rw [hex_length, hp.digest]
    · intro t e h
      rw [hb] at e; cases e
      rw [← ftZ_iso b rb h]; simp
    · intro t e h
      rw [ha] at e; cases e
      rw [← ftZ_iso a ra h]; simp

example : ∃ g i, SaysTime g ∧ (tlsHandshakePeer {} none (some someCert)).2 = (.zero, some i) := by
  obtain ⟨g, hg⟩ := saysTime_exists
  exact ⟨g, _, hg, rfl⟩

/-- C142: of a client without a certificate it is told that there is none, and nothing of these -/
theorem C142_no_certificate (g : Int → Option Tm) (c : LibConn) (i : Option ConnCert) (v ci st : Bytes) (hs : (tlsHandshakePeer c none none).2 = (.zero, some i)) :
    fcgiCertOf g v ci st i = .ok none ∧ ∀ x : FcgiIn, x.cert = none → (b%"AUTH_TYPE", []) ∈ fcgiReqParams x ∧
      ∀ n w, n ∈ [b%"REMOTE_USER", b%"TLS_CLIENT_ISSUER", b%"TLS_CLIENT_HASH", b%"TLS_CLIENT_NOT_BEFORE", b%"TLS_CLIENT_NOT_AFTER"] → (n, w) ∈ fcgiReqParams x → (n, w) ∈ x.params := by
  have hi : i = none := by
    revert hs
    unfold tlsHandshakePeer tlsPeerInfo
    cases hq : tlsHandshake c none none with
    | mk c' rv =>
      cases rv <;> simp
      exact fun e => e.symm
  subst hi
  refine ⟨rfl, fun x hx => ?_⟩
  unfold fcgiReqParams
  rw [hx]
  refine ⟨by simp, ?_⟩
  intro n w hn h
  simp only [List.mem_append] at h
  rcases h with ((h | h) | h) | h
  · simp only [List.mem_cons, List.not_mem_nil, or_false] at hn
    rcases hn with rfl | rfl | rfl | rfl | rfl <;> revert h <;> simp <;> decide
  · simp only [List.mem_cons, List.not_mem_nil, or_false] at hn
    split at h
    · simp only [List.mem_cons, List.not_mem_nil, or_false, Prod.mk.injEq] at h
      rcases hn with rfl | rfl | rfl | rfl | rfl <;> exact absurd h.1 (by decide)
    · simp at h
  · exact (List.mem_filter.mp h).1
  · simp only [List.mem_cons, List.not_mem_nil, or_false, Prod.mk.injEq] at h hn
    rcases hn with rfl | rfl | rfl | rfl | rfl <;> exact absurd h.1 (by decide)

end Gmid.Props
