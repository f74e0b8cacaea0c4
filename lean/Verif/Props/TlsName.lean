import Verif.Spec.TlsName
import Verif.Props.Reply

/-!
# C97, C98, C99: certificates and addresses
-/

set_option autoImplicit false

namespace Gmid.Props
open Gmid.Spec

theorem fromDot_iff (s t : Bytes) : fromDot s = some t ↔ ∃ pre post, s = pre ++ c%'.' :: post ∧ c%'.' ∉ pre ∧ t = c%'.' :: post := by
  induction s with
  | nil => simp [fromDot]
  | cons c r ih =>
    rw [fromDot]
    split
    · rename_i h
      subst h
      constructor
      · intro h; cases h; exact ⟨[], r, rfl, by simp, rfl⟩
      · rintro ⟨pre, post, h1, h2, h3⟩
        cases pre with
        | nil => simp at h1; rw [h1, h3]
        | cons a pre => simp only [List.cons_append, List.cons.injEq] at h1; exact absurd (by simp [← h1.1]) h2
    · rename_i h
      rw [ih]
      constructor
      · rintro ⟨pre, post, h1, h2, h3⟩
        exact ⟨c :: pre, post, by simp [h1], by simp [h2, Ne.symm h], h3⟩
      · rintro ⟨pre, post, h1, h2, h3⟩
        cases pre with
        | nil => simp at h1; exact absurd h1.1 h
        | cons a pre =>
          simp only [List.cons_append, List.cons.injEq] at h1
          exact ⟨pre, post, h1.2, fun hx => h2 (by simp [hx]), h3⟩

theorem fromDot_none (s : Bytes) : fromDot s = none ↔ c%'.' ∉ s := by
  induction s with
  | nil => simp [fromDot]
  | cons c r ih =>
    rw [fromDot]
    split
    · rename_i h; simp [h]
    · rename_i h; rw [ih]; simp [Ne.symm h]

theorem matchName_iff (cert name : Bytes) : tlsMatchName cert name = true ↔ NameMatches cert name := by
  unfold tlsMatchName NameMatches
  have e1 : eqNoCase cert name = true ↔ SameName cert name := by simp [eqNoCase, SameName]
  by_cases hs : SameName cert name
  · simp [e1.mpr hs, hs]
  · rw [if_neg (by rw [e1]; exact hs)]
    simp only [hs, false_or]
    constructor
    · intro h
      cases cert with
      | nil => cases h
      | cons c dom =>
        dsimp only at h
        split at h
        · rename_i hc
          subst hc
          cases dom with
          | nil => cases h
          | cons d dom' =>
            dsimp only at h
            split at h
            · cases h
            rename_i hd
            have hd : d = c%'.' := by simpa using hd
            subst hd
            split at h
            · cases h
            rename_i h1
            split at h
            · cases h
            rename_i nd hnd
            obtain ⟨a, b, e, ha, rfl⟩ := (fromDot_iff _ _).mp hnd
            split at h
            · cases h
            rename_i h2
            split at h
            · cases h
            rename_i h3
            split at h
            · cases h
            rename_i domain hdom
            obtain ⟨label, rest, e', hl, rfl⟩ := (fromDot_iff _ _).mp hdom
            split at h
            · cases h
            rename_i h4
            refine ⟨a, b, label, rest, ?_, ?_, ha, by simpa using h2, by simpa using e', ?_, hl, ?_⟩
            · simp [e]
            · rintro rfl; simp [e] at h1
            · rintro rfl; simp [e'] at h3
            · simp only [eqNoCase, beq_iff_eq, List.map_cons, List.cons.injEq, true_and] at h
              unfold SameName
              rw [← h, e]
              simp
        · cases h
    · rintro ⟨a, b, label, rest, e, ha, ha', hb, e', hl, hl', hsn⟩
      subst e e'
      simp only [List.cons_append, List.nil_append, List.append_assoc]
      have f1 : fromDot (a ++ c%'.' :: b) = some (c%'.' :: b) := (fromDot_iff _ _).mpr ⟨a, b, rfl, ha', rfl⟩
      have f2 : fromDot (label ++ c%'.' :: rest) = some (c%'.' :: rest) := (fromDot_iff _ _).mpr ⟨label, rest, rfl, hl', rfl⟩
      rw [if_pos trivial, if_neg (by simp), if_neg, f1]
      · dsimp only
        rw [if_neg (by simpa using hb), if_neg, f2]
        · dsimp only
          rw [if_neg]
          · simp only [eqNoCase, beq_iff_eq, List.map_cons, List.cons.injEq, true_and]
            simpa [SameName] using hsn
          · simp only [List.length_cons, Nat.add_eq_right]
            intro h0
            unfold SameName at hsn
            have := congrArg List.length hsn
            simp [h0] at this
        · cases label with
          | nil => exact absurd rfl hl
          | cons x l => intro h; simp at h; exact hl' (by simp [h])
      · cases a with
        | nil => exact absurd rfl ha
        | cons x l => intro h; simp at h; exact ha' (by simp [h])

theorem altLoop_spec (ip : Option Bytes) (name : Bytes) (ex : Bool) (alts : List AltName) (m e : Bool) (h : altLoop ip name ex alts = some (m, e)) :
    (m = true ↔ AltCovers ip alts name) ∧
    (e = false ↔ ex = false ∧ ∀ x ∈ alts, x = .other) := by
  induction alts generalizing ex with
  | nil =>
    simp only [altLoop, Option.some.injEq, Prod.mk.injEq] at h
    obtain ⟨rfl, rfl⟩ := h
    cases ip <;> simp [AltCovers]
  | cons x r ih =>
    cases x with
    | other =>
      rw [altLoop] at h
      have := ih ex h
      refine ⟨this.1.trans ?_, this.2.trans ?_⟩
      · cases ip <;> simp [AltCovers]
      · simp
    | dns ia5 d =>
      rw [altLoop.eq_def] at h
      cases ip with
      | some a =>
        dsimp only at h
        have := ih true h
        exact ⟨this.1.trans (by simp [AltCovers]), this.2.trans (by simp)⟩
      | none =>
        dsimp only at h
        split at h
        · rename_i hi
          subst hi
          split at h
          · cases h
          split at h
          · cases h
          split at h
          · rename_i hm
            rw [matchName_iff] at hm
            cases h
            exact ⟨by simp [AltCovers]; exact .inl hm, by simp⟩
          · rename_i hm
            rw [matchName_iff] at hm
            have := ih true h
            refine ⟨this.1.trans ?_, this.2.trans (by simp)⟩
            simp only [AltCovers, reduceCtorEq, false_and, exists_false, true_and, false_or]
            constructor
            · rintro ⟨d', h1, h2⟩; exact ⟨d', by simp [h1], h2⟩
            · rintro ⟨d', h1, h2⟩
              rcases List.mem_cons.mp h1 with h1 | h1
              · cases h1; exact absurd h2 hm
              · exact ⟨d', h1, h2⟩
        · rename_i hi
          have := ih true h
          refine ⟨this.1.trans ?_, this.2.trans (by simp)⟩
          simp [hi, AltCovers]
    | ip a =>
      rw [altLoop.eq_def] at h
      cases ip with
      | none =>
        dsimp only at h
        have := ih true h
        exact ⟨this.1.trans (by simp [AltCovers]), this.2.trans (by simp)⟩
      | some y =>
        dsimp only at h
        split at h
        · rename_i hy; subst hy; cases h; simp [AltCovers]
        · rename_i hy
          have := ih true h
          exact ⟨this.1.trans (by simp [AltCovers, Ne.symm hy]), this.2.trans (by simp)⟩

theorem altLoop_defined (ip : Option Bytes) (name : Bytes) (ex : Bool) (alts : List AltName) (h : ∀ d, .dns true d ∈ alts → 0 ∉ d ∧ d ≠ b%" ") :
    ∃ x, altLoop ip name ex alts = some x := by
  induction alts generalizing ex with
  | nil => exact ⟨_, rfl⟩
  | cons x r ih =>
    have ih := fun ex => ih ex (fun d hd => h d (by simp [hd]))
    cases x with
    | other => exact ih ex
    | ip a =>
      rw [altLoop.eq_def]
      cases ip with
      | none => exact ih true
      | some y =>
        dsimp only
        split
        · exact ⟨_, rfl⟩
        · exact ih true
    | dns ia5 d =>
      rw [altLoop.eq_def]
      cases ip with
      | some y => exact ih true
      | none =>
        dsimp only
        cases ia5 with
        | false => exact ih true
        | true =>
          have := h d (by simp)
          simp only [if_true, this.1, this.2, if_false]
          split
          · exact ⟨_, rfl⟩
          · exact ih true

/-- C97: a certificate that is accepted for a name is one for that name, in the sense of RFC 6125, whatever is in it, and one that is not accepted is not,
unless it is malformed. -/
theorem C97_accepted (inet : Bytes → Option Bytes) (c : CertNames) (name : Bytes) (b : Bool) (h : tlsCheckName inet c name = some b) :
    b = true ↔ Covers (inet name) c name := by
  unfold tlsCheckName at h
  unfold Covers
  cases ha : c.alts with
  | none => rw [ha] at h; cases h
  | some alts =>
    rw [ha] at h
    dsimp only at h
    simp only [Option.some.injEq, exists_eq_left']
    split at h
    · cases h
    · rename_i e hl
      cases h
      have := altLoop_spec _ _ _ _ _ _ hl
      simp only [true_iff]
      exact .inl (this.1.mp rfl)
    · rename_i hl
      cases h
      have := altLoop_spec _ _ _ _ _ _ hl
      simp only [Bool.false_eq_true, false_iff, not_or]
      refine ⟨fun hx => absurd (this.1.mpr hx) (by simp), ?_⟩
      rintro ⟨hx, _⟩
      cases this.2.mpr ⟨rfl, hx⟩
    · rename_i hl
      have hs := altLoop_spec _ _ _ _ _ _ hl
      have hno : ¬ (AltCovers (inet name) alts name) :=
        fun hx => by cases hs.1.mpr hx
      have hoth := (hs.2.mp rfl).2
      have key : ∀ P : Prop, ((AltCovers (inet name) alts name) ∨
          ((∀ x ∈ alts, x = .other) ∧ P)) ↔ P := by
        intro P
        constructor
        · rintro (hx | hx)
          · exact absurd hx hno
          · exact hx.2
        · exact fun hp => .inr ⟨hoth, hp⟩
      rw [key]
      unfold checkCn at h
      split at h
      · rename_i hc; cases h; simp [hc]
      · cases h
      · rename_i cn hc
        split at h
        · cases h
        rename_i hlen
        split at h
        · cases h
        rename_i h0
        rw [hc]
        have hb : (∃ cn', [some cn] = [some cn'] ∧ 1 ≤ cn'.length ∧ cn'.length ≤ 64 ∧ 0 ∉ cn' ∧
            ((inet name ≠ none ∧ cn' = name) ∨ (inet name = none ∧ NameMatches cn' name))) ↔
            ((inet name ≠ none ∧ cn = name) ∨ (inet name = none ∧ NameMatches cn name)) := by
          constructor
          · rintro ⟨cn', e, _, _, _, hx⟩; cases e; exact hx
          · intro hx; exact ⟨cn, rfl, by omega, by omega, h0, hx⟩
        rw [hb]
        cases hi : inet name with
        | some a => rw [hi] at h; simp at h; rw [← h]; simp
        | none => rw [hi] at h; simp at h; rw [← h, matchName_iff]; simp
      · cases h

/-- C97: every proper certificate is judged. -/
theorem C97_judged (inet : Bytes → Option Bytes) (c : CertNames) (name : Bytes) (h : ProperCert c) : ∃ b, tlsCheckName inet c name = some b := by
  obtain ⟨⟨alts, ha, hd⟩, hc⟩ := h
  obtain ⟨⟨m, e⟩, hl⟩ := altLoop_defined (inet name) name false alts hd
  unfold tlsCheckName
  rw [ha]
  dsimp only
  rw [hl]
  cases m
  · cases e
    · dsimp only
      rcases hc with hc | ⟨cn, hc, h1, h2, h0⟩
      · exact ⟨false, by rw [hc]; rfl⟩
      · rw [hc]
        unfold checkCn
        dsimp only
        rw [if_neg (by omega), if_neg h0]
        split <;> exact ⟨_, rfl⟩
    · exact ⟨_, rfl⟩
  · exact ⟨_, rfl⟩

/-- `*.example.com` is for one label, not for two and not for none -/
example : tlsMatchName b%"*.example.com" b%"WWW.Example.com" = true ∧ tlsMatchName b%"*.example.com" b%"a.b.example.com" = false ∧
    tlsMatchName b%"*.example.com" b%"example.com" = false ∧ tlsMatchName b%"*.com" b%"example.com" = false ∧ tlsMatchName b%"*" b%"com" = false := by
  decide

example : WildcardMatches b%"*.example.com" b%"WWW.Example.com" :=
  ⟨b%"example", b%"com", b%"WWW", b%"Example.com", by decide, by decide, by decide, by decide, by decide, by decide, by decide, by unfold SameName; decide⟩

/-- the common name does not count when there is an alternative name -/
example : tlsCheckName (fun _ => none) { alts := some [.dns true b%"a.org"], cns := [some b%"b.org"] } b%"b.org" = some false ∧
    tlsCheckName (fun _ => none) { alts := some [.other], cns := [some b%"b.org"] } b%"b.org" = some true ∧
    ProperCert { alts := some [.dns true b%"a.org"], cns := [some b%"b.org"] } := by
  refine ⟨by decide, by decide, ⟨_, rfl, ?_⟩, .inr ⟨_, rfl, by decide⟩⟩
  intro d hd
  simp at hd
  subst hd
  decide

/-! ## C98 -/

theorem matchAddr_iff (a b : AddrInfo) : matchAddr a b = true ↔ a = b := by
  obtain ⟨a1, a2, a3, a4, a5⟩ := a
  obtain ⟨b1, b2, b3, b4, b5⟩ := b
  simp only [matchAddr, Bool.and_eq_true, beq_iff_eq, AddrInfo.mk.injEq]
  constructor
  · rintro ⟨⟨⟨⟨⟨h1, h2⟩, h3⟩, h4⟩, _⟩, h5⟩; exact ⟨h1, h2, h3, h4, h5⟩
  · rintro ⟨h1, h2, h3, h4, h5⟩; exact ⟨⟨⟨⟨⟨h1, h2⟩, h3⟩, h4⟩, by rw [h5]⟩, h5⟩

/-- the key pairs in their order -/
def TlsConf.all (t : TlsConf) : List KP := t.first.toList ++ t.rest

theorem addKpsOf_all (addr : AddrInfo) (kp : KP) (as : List AddrInfo) (t : TlsConf) (any : Bool) (h : any = t.first.isSome)
    (h' : t.first = none → t.rest = []) :
    TlsConf.all (addKpsOf addr kp as (t, any)).1 = TlsConf.all t ++ (as.filter (· == addr)).map (fun _ => kp) ∧
      (addKpsOf addr kp as (t, any)).2 = (addKpsOf addr kp as (t, any)).1.first.isSome ∧
      ((addKpsOf addr kp as (t, any)).1.first = none → (addKpsOf addr kp as (t, any)).1.rest = []) := by
  induction as generalizing t any with
  | nil => exact ⟨by simp [addKpsOf], h, h'⟩
  | cons a r ih =>
    rw [addKpsOf]
    by_cases hm : a = addr
    · have hm' : matchAddr addr a = true := (matchAddr_iff _ _).mpr hm.symm
      simp only [hm', Bool.not_true, Bool.false_eq_true, if_false]
      cases any with
      | false =>
        have hf : t.first = none := by cases hx : t.first <;> simp_all
        simp only [Bool.not_false, if_true]
        have := ih { t with first := some kp } true rfl (by simp)
        refine ⟨this.1.trans ?_, this.2⟩
        simp [TlsConf.all, hf, h' hf, hm]
      | true =>
        simp only [Bool.not_true, Bool.false_eq_true, if_false]
        have := ih { t with rest := t.rest ++ [kp] } true h (by intro hx; dsimp only at hx; simp [hx] at h)
        refine ⟨this.1.trans ?_, this.2⟩
        simp [TlsConf.all, hm]
    · have hm' : matchAddr addr a = false := by
        cases hx : matchAddr addr a
        · rfl
        · exact absurd ((matchAddr_iff _ _).mp hx).symm hm
      simp only [hm', Bool.not_false, if_true]
      have := ih t any h h'
      refine ⟨this.1.trans ?_, this.2⟩
      simp [hm]

theorem addMatchingKps_all (addr : AddrInfo) (hosts : List TServer) (t : TlsConf) (any : Bool) (h : any = t.first.isSome)
    (h' : t.first = none → t.rest = []) :
    TlsConf.all (addMatchingKps addr hosts (t, any)).1 = TlsConf.all t ++ listening addr hosts := by
  induction hosts generalizing t any with
  | nil => simp [addMatchingKps, listening]
  | cons x r ih =>
    rw [addMatchingKps]
    have := addKpsOf_all addr x.kp x.addrs t any h h'
    have := ih _ _ this.2.1 this.2.2
    rename_i h2
    rw [show addKpsOf addr x.kp x.addrs (t, any) = ((addKpsOf addr x.kp x.addrs (t, any)).1, (addKpsOf addr x.kp x.addrs (t, any)).2) from rfl, this, h2.1]
    simp [listening]

theorem setupTls_all (addr : AddrInfo) (hosts : List TServer) : TlsConf.all (setupTls addr hosts) = listening addr hosts := by
  have := addMatchingKps_all addr hosts {} false rfl (fun _ => rfl)
  simpa [setupTls, TlsConf.all] using this

/-- C98: an address has exactly the certificates of the servers that listen on it, in the order of the configuration. -/
theorem C98_certificates (addr : AddrInfo) (hosts : List TServer) :
    (setupTls addr hosts).first = (listening addr hosts).head? ∧
      ∀ kp, kp ∈ (setupTls addr hosts).first.toList ++ (setupTls addr hosts).rest ↔ ∃ h ∈ hosts, addr ∈ h.addrs ∧ h.kp = kp := by
  have h := setupTls_all addr hosts
  constructor
  · have hx : (TlsConf.all (setupTls addr hosts)).head? = (setupTls addr hosts).first := by
      unfold TlsConf.all
      cases hf : (setupTls addr hosts).first with
      | some a => rfl
      | none =>
        have : ∀ (hs : List TServer) (s : TlsConf × Bool), (s.1.first = none → s.1.rest = []) → s.2 = s.1.first.isSome →
            ((addMatchingKps addr hs s).1.first = none → (addMatchingKps addr hs s).1.rest = []) := by
          intro hs
          induction hs with
          | nil => intro s h _; exact h
          | cons x r ih =>
            intro s hs1 hs2
            rw [addMatchingKps]
            have := addKpsOf_all addr x.kp x.addrs s.1 s.2 hs2 hs1
            exact ih _ this.2.2 this.2.1
        have := this hosts ({}, false) (fun _ => rfl) rfl hf
        change (setupTls addr hosts).rest = [] at this
        simp [this]
    rw [← hx, h]
  · intro kp
    change kp ∈ TlsConf.all (setupTls addr hosts) ↔ _
    rw [h]
    simp only [listening, List.mem_flatMap, List.mem_map, List.mem_filter, beq_iff_eq]
    constructor
    · rintro ⟨s, hs, a, ⟨h1, rfl⟩, h2⟩; exact ⟨s, hs, h1, h2⟩
    · rintro ⟨s, hs, h1, h2⟩; exact ⟨s, hs, addr, ⟨h1, rfl⟩, h2⟩

theorem sniLoop_spec (inet : Bytes → Option Bytes) (name : Bytes) (dflt : Option KP) (l : List KP) (r : Option KP)
    (h : sniLoop inet name dflt l = some r) :
    (∃ kp ∈ l, r = some kp ∧ Covers (inet name) kp.names name) ∨ (r = dflt ∧ ∀ kp ∈ l, ¬ Covers (inet name) kp.names name) := by
  induction l with
  | nil => simp [sniLoop] at h; exact .inr ⟨h.symm, by simp⟩
  | cons kp rest ih =>
    rw [sniLoop] at h
    split at h
    · cases h
    · rename_i hc
      cases h
      exact .inl ⟨kp, by simp, rfl, (C97_accepted _ _ _ _ hc).mp rfl⟩
    · rename_i hc
      have hn : ¬ Covers (inet name) kp.names name := fun hx => by cases (C97_accepted _ _ _ _ hc).mpr hx
      rcases ih h with ⟨k, hk, h1, h2⟩ | ⟨h1, h2⟩
      · exact .inl ⟨k, by simp [hk], h1, h2⟩
      · exact .inr ⟨h1, by intro k hk; rcases List.mem_cons.mp hk with rfl | hk; exact hn; exact h2 k hk⟩

theorem sniLoop_defined (inet : Bytes → Option Bytes) (name : Bytes) (dflt : Option KP) (l : List KP) (hl : ∀ kp ∈ l, ProperCert kp.names) :
    ∃ r, sniLoop inet name dflt l = some r := by
  induction l with
  | nil => exact ⟨_, rfl⟩
  | cons kp r ih =>
    obtain ⟨b, hb⟩ := C97_judged inet kp.names name (hl kp (by simp))
    rw [sniLoop, hb]
    cases b
    · exact ih (fun k hk => hl k (by simp [hk]))
    · exact ⟨_, rfl⟩

/-- C98: whatever name a client asks for on an address some server listens on, the certificate it gets belongs to a server that listens there; it is good for
that name if any of theirs is; and a client that names nothing gets that of the first of them. -/
theorem C98_offered (inet : Bytes → Option Bytes) (addr : AddrInfo) (hosts : List TServer) (hl : ∃ h ∈ hosts, addr ∈ h.addrs)
    (hp : ∀ h ∈ hosts, ProperCert h.kp.names) (sni : Option Bytes) :
    ∃ kp, offered inet (setupTls addr hosts) sni = some (some kp) ∧ (∃ h ∈ hosts, addr ∈ h.addrs ∧ h.kp = kp) ∧
      (∀ name, sni = some name → inet name = none → (∃ h ∈ hosts, addr ∈ h.addrs ∧ Covers none h.kp.names name) → Covers none kp.names name) ∧
      (sni = none → some kp = (listening addr hosts).head?) := by
  obtain ⟨h1, h2⟩ := C98_certificates addr hosts
  have hne : (setupTls addr hosts).first ≠ none := by
    obtain ⟨h, hh, ha⟩ := hl
    have := (h2 h.kp).mpr ⟨h, hh, ha, rfl⟩
    rw [h1]
    intro hx
    rw [List.head?_eq_none_iff] at hx
    have h3 := setupTls_all addr hosts
    rw [hx] at h3
    unfold TlsConf.all at h3
    rw [h3] at this
    cases this
  obtain ⟨k0, hk0⟩ := Option.ne_none_iff_exists'.mp hne
  have hk0' := (h2 k0).mp (by simp [hk0])
  unfold offered
  cases sni with
  | none => exact ⟨k0, by simp [hk0], hk0', by simp, fun _ => by rw [← h1, hk0]⟩
  | some name =>
    dsimp only
    cases hi : inet name with
    | some a => exact ⟨k0, by simp [hk0], hk0', (by intro n e hn; cases e; rw [hi] at hn; cases hn), by simp⟩
    | none =>
      simp only [Option.isSome_none, Bool.false_eq_true, if_false]
      obtain ⟨r, hr⟩ := sniLoop_defined inet name (setupTls addr hosts).first (setupTls addr hosts).rest (by
        intro kp hkp
        obtain ⟨h, hh, _, rfl⟩ := (h2 kp).mp (by simp [hkp])
        exact hp h hh)
      rcases sniLoop_spec inet name _ _ r hr with ⟨kp, hkp, rfl, hc⟩ | ⟨rfl, hno⟩
      · refine ⟨kp, hr, (h2 kp).mp (by simp [hkp]), ?_, by simp⟩
        rintro n ⟨⟩ _ _
        rw [hi] at hc
        exact hc
      · refine ⟨k0, by rw [hr, hk0], hk0', ?_, by simp⟩
        rintro n ⟨⟩ _ ⟨h, hh, ha, hc⟩
        have := (h2 h.kp).mpr ⟨h, hh, ha, rfl⟩
        rcases List.mem_append.mp this with hx | hx
        · rw [hk0] at hx
          simp at hx
          rw [← hx]; exact hc
        · exact absurd (by rw [hi]; exact hc) (hno _ hx)

/-- an address, for the examples -/
def exListenAi (b : UInt8) : AddrInfo := { flags := 1, family := 2, socktype := 1, protocol := 6, addr := [2, 0, 7, 173, b] }

def exServer (name : Bytes) (id : Nat) (a : List AddrInfo) : TServer :=
  { addrs := a, kp := { id := id, names := { alts := some [.dns true name], cns := [] } }, v := { domain := name, dflt := { dirfd := id } } }

/-- two servers on one address, a third elsewhere -/
example : (offered (fun _ => none) (setupTls (exListenAi 1) [exServer b%"c" 3 [exListenAi 2], exServer b%"a" 1 [exListenAi 1], exServer b%"b" 2 [exListenAi 2, exListenAi 1]]) (some b%"b")) =
      some (some (exServer b%"b" 2 []).kp) ∧
    (offered (fun _ => none) (setupTls (exListenAi 1) [exServer b%"c" 3 [exListenAi 2], exServer b%"a" 1 [exListenAi 1], exServer b%"b" 2 [exListenAi 2, exListenAi 1]]) (some b%"c")) =
      some (some (exServer b%"a" 1 []).kp) := by
  decide +kernel

/-! ## C99 -/

/-- what a connection to `addr` that asks for `sni` is answered by -/
def answeredBy (env : Env) (hosts : List TServer) (sni : Option Bytes) : Option Vhost :=
  (handshakeDone { env with hosts := hosts.map (·.v) } sni {}).host

/-- a server only answers on the addresses it listens on -/
def OnlyWhereListening (env : Env) (addr : AddrInfo) (hosts : List TServer) : Prop :=
  ∀ sni v, answeredBy env hosts sni = some v → ∃ h ∈ hosts, h.v = v ∧ addr ∈ h.addrs

theorem findHost_mem (fnm : Bytes → Bytes → Bool) (d : Bytes) (l : List Vhost) (v : Vhost) (h : findHost fnm d l = some v) : v ∈ l := by
  induction l with
  | nil => cases h
  | cons x r ih =>
    rw [findHost] at h
    split at h
    · cases h; simp
    · simp [ih h]

/-- C99 when the address is one that all servers listen on.  Missing: servers with different addresses, for which it is false. -/
theorem C99_common_address_partial (env : Env) (addr : AddrInfo) (hosts : List TServer) (h : ∀ x ∈ hosts, addr ∈ x.addrs) :
    OnlyWhereListening env addr hosts := by
  intro sni v hv
  unfold answeredBy handshakeDone at hv
  have hstart : ∀ (c : Client) (e : Env) (n : Int) (m : Bytes), (startReply e c n m).host = c.host := by
    intro c e n m
    unfold startReply
    dsimp only
    repeat' split
    all_goals first | rfl | (unfold queueHeader; repeat' split <;> rfl)
  split at hv
  · rw [hstart] at hv; cases hv
  · dsimp only at hv
    split at hv
    · rename_i v' hf
      cases hv
      have := findHost_mem _ _ _ _ hf
      simp only [List.mem_map] at this
      obtain ⟨x, hx, rfl⟩ := this
      exact ⟨x, hx, rfl, h x hx⟩
    · rw [hstart] at hv; cases hv

/-- C99 is false: a server that listens on one address only, say that of the machine itself, answers on every other address as well when it is asked for by
its name. -/
theorem C99_answers_elsewhere : ∃ (env : Env) (addr : AddrInfo) (hosts : List TServer), (∃ h ∈ hosts, addr ∈ h.addrs) ∧ ¬ OnlyWhereListening env addr hosts := by
  refine ⟨exEnv, exListenAi 1, [exServer b%"internal" 4 [exListenAi 127], exServer b%"public" 5 [exListenAi 1]], ⟨_, by simp; exact .inr rfl, by decide⟩, ?_⟩
  intro h
  obtain ⟨x, hx, hv, ha⟩ := h (some b%"internal") (exServer b%"internal" 4 [exListenAi 127]).v (by decide +kernel)
  simp only [List.mem_cons, List.not_mem_nil, or_false] at hx
  rcases hx with rfl | rfl
  · revert ha; decide
  · revert hv; decide

end Gmid.Props
