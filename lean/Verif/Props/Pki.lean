import Verif.Spec.Pki
import Verif.Spec.Crypto
import Verif.Lemmas.CStr
import Verif.Props.Config
import Verif.Props.Deploy
import Verif.Props.Text

/-!
# C113: the key of a certificate is found; C114: what gmid -n tells; C115: the file of client CAs
-/

set_option autoImplicit false

namespace Gmid.Props
open Gmid.Spec

/-! ## Names of public keys -/

theorem hexDigit_char (n : UInt8) (h : n.toNat < 16) : HexDigit (hexChar n) n.toNat := by
  unfold hexChar HexDigit
  by_cases hn : n < 10
  · rw [if_pos hn]
    have : n.toNat < 10 := by simpa [UInt8.lt_iff_toNat_lt] using hn
    left; constructor
    · rw [UInt8.toNat_add]; simp; omega
    · omega
  · rw [if_neg hn]
    have : ¬ n.toNat < 10 := by simpa [UInt8.lt_iff_toNat_lt] using hn
    right
    refine ⟨?_, by omega, h⟩
    rw [UInt8.toNat_add]; simp; omega

/-- the digits of the bytes -/
def hexOf (d : Bytes) : Bytes := d.flatMap fun c => [hexChar (c / 16), hexChar (c % 16)]

theorem hexOf_length (d : Bytes) : (hexOf d).length = 2 * d.length := by
  induction d with
  | nil => rfl
  | cons c d ih => simp only [hexOf, List.flatMap_cons, List.length_append] at ih ⊢; simp [ih]; omega

theorem hexOf_hex (d : Bytes) : Hex d (hexOf d) := by
  induction d with
  | nil => exact .nil
  | cons c d ih =>
    have h1 : (c / 16).toNat = c.toNat / 16 := by rw [UInt8.toNat_div]; rfl
    have h2 : (c % 16).toNat = c.toNat % 16 := by rw [UInt8.toNat_mod]; rfl
    have hc := c.toNat_lt
    exact .byte c _ _ (c / 16).toNat (c % 16).toNat d _ (hexDigit_char _ (by omega)) (hexDigit_char _ (by omega)) (by omega) ih

theorem hexDigit_inj {c : UInt8} {n m : Nat} (h : HexDigit c n) (h' : HexDigit c m) : n = m := by
  unfold HexDigit at h h'; omega

theorem hex_inj {d d' s : Bytes} (h : Hex d s) (h' : Hex d' s) : d = d' := by
  induction h generalizing d' with
  | nil => cases h'; rfl
  | byte c a b hi lo d s h1 h2 h3 _ ih =>
    cases h' with
    | byte c' _ _ hi' lo' d' _ k1 k2 k3 k4 =>
      have e1 := hexDigit_inj h1 k1
      have e2 := hexDigit_inj h2 k2
      have : c = c' := UInt8.toNat_inj.1 (by omega)
      rw [this, ih k4]

theorem hex_unique {d s s' : Bytes} (h : Hex d s) (h' : Hex d s') : s = s' := by
  induction h generalizing s' with
  | nil => cases h'; rfl
  | byte c a b hi lo d s h1 h2 h3 _ ih =>
    cases h' with
    | byte _ a' b' hi' lo' _ s' k1 k2 k3 k4 =>
      have e : a = a' ∧ b = b' := by
        unfold HexDigit at h1 h2 k1 k2
        constructor <;> apply UInt8.toNat_inj.1 <;> omega
      rw [e.1, e.2, ih k4]

theorem hex_nonul {d s : Bytes} (h : Hex d s) : (0 : UInt8) ∉ s := by
  induction h with
  | nil => simp
  | byte c a b hi lo d s h1 h2 _ _ ih =>
    unfold HexDigit at h1 h2
    simp only [List.mem_cons, not_or]
    refine ⟨?_, ?_, ih⟩ <;> (intro e; subst e; simp at h1 h2; try omega)

theorem hexLoop_eq (d m : Bytes) (off : Nat) (h : off + 2 * d.length ≤ m.length) : hexLoop m off d = some (put m off (hexOf d), off + 2 * d.length) := by
  induction d generalizing m off with
  | nil => simp [hexLoop, hexOf, put_nil]
  | cons c d ih =>
    simp only [List.length_cons] at h
    rw [hexLoop, wr_put m off _ (by omega)]
    dsimp only
    rw [wr_put _ (off + 1) _ (by rw [put_length _ _ _ (by lsz)]; omega)]
    dsimp only
    rw [show off + 1 = off + [hexChar (c / 16)].length from rfl, put_put _ _ _ _ (by lsz)]
    rw [ih _ _ (by rw [put_length _ _ _ (by lsz)]; omega)]
    rw [show off + 2 = off + ([hexChar (c / 16)] ++ [hexChar (c % 16)]).length from rfl, put_put _ _ _ _ (by simp [hexOf_length]; omega)]
    simp [hexOf]; omega

section
variable {X K P : Type} {lib : PkiLib X K P}

theorem sslPubkeyHash_eq (hd : Digests lib) (junk buf : Bytes) (hj : junk.length = 128) :
    sslPubkeyHash lib junk buf = .ok ((lib.pems buf).head?.bind fun x => (lib.digest (lib.pub x)).map fun d => b%"SHA256:" ++ hexOf d) := by
  unfold sslPubkeyHash
  cases (lib.pems buf).head? with
  | none => rfl
  | some x =>
    obtain ⟨d, e, hl⟩ := hd (lib.pub x)
    simp only [e, Option.bind_some, Option.map_some]
    rw [if_neg (by omega), strlcpy_eq _ _ _ (by omega) (by omega)]
    dsimp only
    generalize hm : put junk 0 (List.take (128 - 1) b%"SHA256:" ++ [0]) = m
    have hp : m.length = 128 := by rw [← hm, put_length _ _ _ (by simp; omega)]; exact hj
    have ht : m.take 7 = b%"SHA256:" := by rw [← hm]; simp [put]
    rw [show (b%"SHA256:").length = 7 from rfl, hexLoop_eq _ _ _ (by omega)]
    dsimp only
    have hp' : (put m 7 (hexOf d)).length = 128 := by rw [put_length _ _ _ (by simp [hexOf_length]; omega)]; exact hp
    rw [wr_put _ _ _ (by omega)]
    dsimp only
    congr 2
    apply cstr_of_take (q := 7 + 2 * d.length)
    · have h1 : (put m 7 (hexOf d)).take (7 + 2 * d.length) = b%"SHA256:" ++ hexOf d := by
        rw [← hexOf_length, put_take _ _ _ (by omega), ht]
      have h2 := put_take (put m 7 (hexOf d)) [] (7 + 2 * d.length) (by omega)
      rw [← h1]
      unfold put
      rw [List.append_assoc, List.take_append_of_le_length (by simp; unfold put at hp'; omega), List.take_take]
      simp
    · simp [hexOf_length]; omega
    · have := hex_nonul (hexOf_hex d)
      simpa using this
    · have := put_get_in (put m 7 (hexOf d)) [0] (7 + 2 * d.length) 0 (by simp) (by omega)
      simpa using this

theorem tlsHexString_eq (junk : Nat → Bytes) (hj : ∀ n, (junk n).length = n) (d : Bytes) : tlsHexString junk d = .ok (hexOf d) := by
  unfold tlsHexString
  have hp := hj ((d.length + 1) * 2)
  rw [hexLoop_eq _ _ _ (by omega)]
  dsimp only
  have hp' : (put (junk ((d.length + 1) * 2)) 0 (hexOf d)).length = (d.length + 1) * 2 := by rw [put_length _ _ _ (by simp [hexOf_length]; omega)]; exact hp
  rw [wr_put _ _ _ (by omega)]
  dsimp only
  rw [show 0 + 2 * d.length = 0 + (hexOf d).length by rw [hexOf_length], put_put _ _ _ _ (by simp [hexOf_length]; omega)]
  rw [cstr_put _ _ (hex_nonul (hexOf_hex d))]

theorem keypairPubkeyHash_eq (hd : Digests lib) (junk : Nat → Bytes) (hj : ∀ n, (junk n).length = n) (buf : Bytes) :
    keypairPubkeyHash lib junk buf = .ok ((lib.pems buf).head?.bind fun x => (lib.digest (lib.pub x)).map fun d => b%"SHA256:" ++ hexOf d) := by
  unfold keypairPubkeyHash
  cases (lib.pems buf).head? with
  | none => rfl
  | some x =>
    obtain ⟨d, e, hl⟩ := hd (lib.pub x)
    simp only [e, Option.bind_some, Option.map_some]
    rw [tlsHexString_eq junk hj]

/-- **C113.** The crypto process and the TLS library, each with its own code, give the public key of a certificate file the same name, and never write outside of
their buffers: "SHA256:" and the digest of the public key of the first certificate in lowercase hexadecimal. -/
theorem C113_same_name (hd : Digests lib) (junk : Bytes) (hj : junk.length = 128) (junk' : Nat → Bytes) (hj' : ∀ n, (junk' n).length = n) (buf : Bytes) :
    ∃ r, sslPubkeyHash lib junk buf = .ok r ∧ keypairPubkeyHash lib junk' buf = .ok r ∧
      ∀ s, r = some s ↔ ∃ x chain d, lib.pems buf = x :: chain ∧ lib.digest (lib.pub x) = some d ∧ KeyName d s := by
  refine ⟨_, sslPubkeyHash_eq hd junk buf hj, keypairPubkeyHash_eq hd junk' hj' buf, fun s => ?_⟩
  cases hp : lib.pems buf with
  | nil => simp
  | cons x chain =>
    obtain ⟨d, e, _⟩ := hd (lib.pub x)
    simp only [List.head?_cons, Option.bind_some, e, Option.map_some, Option.some.injEq]
    constructor
    · rintro rfl; exact ⟨x, chain, d, rfl, e, _, hexOf_hex d, rfl⟩
    · rintro ⟨x', ch', d', h1, h2, h, h3, h4⟩
      cases h1
      rw [e] at h2
      cases h2
      rw [h4, hex_unique h3 (hexOf_hex d)]

/-- **C113.** Different public keys have different names, as far as their digests are different; a name has 71 bytes, and no NUL. -/
theorem C113_names {d d' s : Bytes} (h : KeyName d s) : (KeyName d' s → d = d') ∧ s.length = 7 + 2 * d.length ∧ (0 : UInt8) ∉ s := by
  obtain ⟨x, h1, h2⟩ := h
  refine ⟨?_, ?_, ?_⟩
  · rintro ⟨y, h3, h4⟩
    rw [h2] at h4
    rw [List.append_cancel_left h4] at h1
    exact hex_inj h1 h3
  · rw [h2, hex_unique h1 (hexOf_hex d), List.length_append, hexOf_length]; rfl
  · rw [h2]
    have := hex_nonul h1
    simpa using this

theorem first_with {α : Type} (p : α → Prop) [DecidablePred p] (l : List α) : (∃ a ∈ l, p a) → ∃ b a c, l = b ++ a :: c ∧ p a ∧ ∀ x ∈ b, ¬ p x := by
  induction l with
  | nil => rintro ⟨a, h, _⟩; cases h
  | cons y r ih =>
    intro h
    by_cases hy : p y
    · exact ⟨[], y, r, rfl, hy, by simp⟩
    · obtain ⟨a, ha, pa⟩ := h
      rcases List.mem_cons.1 ha with e | ha
      · subst e; exact absurd pa hy
      · obtain ⟨b, a, c, h1, h2, h3⟩ := ih ⟨a, ha, pa⟩
        refine ⟨y :: b, a, c, by rw [h1]; rfl, h2, ?_⟩
        intro x hx
        rcases List.mem_cons.1 hx with e | hx
        · subst e; exact hy
        · exact h3 x hx

/-- **C113 (partial).** With the keys in the crypto process: once the configuration is sent, the name under which the TLS library asks for the key of a
server's certificate names, in the crypto process, a key with the public key of that certificate, as long as the servers whose certificates have that public key
all have matching keys.  Missing: this is not checked (C113_checked), and one server with the wrong key is enough to break others (C113_wrong_key). -/
theorem C113_key_found_partial {L E PR AD F C : Type} (hd : Digests lib) (hc : NoCollision lib) (junk : Bytes) (hj : junk.length = 128) (junk' : Nat → Bytes)
    (hj' : ∀ n, (junk' n).length = n) (files : Bytes → Option Bytes) (loadCa : Bytes → Option C) (sup : AD → Bool) (c : PConf L E PR AD F) (hp : c.privsep = true)
    (ms : List (Proc × CMsg L E PR AD F)) (hsent : mainConfigure files sup c = some ms) (hload : ∀ h ∈ c.hosts, ∃ x k, HostHas lib files h x k)
    (st0 : WState L E PR AD F C K) (h0 : st0.pki = .null) :
    ∃ st, recvAll files loadCa (fun d => (sslPubkeyHash lib junk d).val?.bind id) lib.key .crypto st0 (forProc .crypto ms) = .ok st ∧
      ∀ h ∈ c.hosts, ∀ cert x chain, files h.cert = some cert → lib.pems cert = x :: chain →
        (∀ h' ∈ c.hosts, ∀ x' k', HostHas lib files h' x' k' → lib.pub x' = lib.pub x → lib.keyPub k' = lib.pub x) →
        ∃ s k, keypairPubkeyHash lib junk' cert = .ok (some s) ∧ s.length = 71 ∧ NamedKey st.pkis s k ∧ lib.keyPub k = lib.pub x := by
  have hname : ∀ buf x chain, lib.pems buf = x :: chain → ∃ d, lib.digest (lib.pub x) = some d ∧ d.length = 32 ∧
      (sslPubkeyHash lib junk buf).val?.bind id = some (b%"SHA256:" ++ hexOf d) := by
    intro buf x chain e
    obtain ⟨d, h1, h2⟩ := hd (lib.pub x)
    refine ⟨d, h1, h2, ?_⟩
    rw [sslPubkeyHash_eq hd junk buf hj, e]
    simp [h1, Res.val?]
  have hk : KeysLoad files (fun d => (sslPubkeyHash lib junk d).val?.bind id) lib.key c := by
    intro h hh
    obtain ⟨x, k, cert, key, chain, e1, e2, e3, e4⟩ := hload h hh
    obtain ⟨d, _, _, e⟩ := hname cert x chain e2
    simp only [e1, e3, Option.bind_some, e4, e]
    simp
  obtain ⟨st, r1, r2, r3, r4, r5⟩ := C38_crypto files loadCa _ lib.key sup c ms hsent hk st0 h0
  refine ⟨st, r1, ?_⟩
  intro h hh cert x chain e1 e2 hall
  rw [if_pos hp] at r4
  obtain ⟨d, d1, d2, d3⟩ := hname cert x chain e2
  have hk1 : keypairPubkeyHash lib junk' cert = .ok (some (b%"SHA256:" ++ hexOf d)) := by
    rw [keypairPubkeyHash_eq hd junk' hj', e2]
    simp [d1]
  obtain ⟨b, a, t, f1, f2, f3⟩ := first_with (fun p : Bytes × Option K => p.1 = b%"SHA256:" ++ hexOf d) st.pkis (by
    have : (((files h.cert).bind fun d => (sslPubkeyHash lib junk d).val?.bind id).map fun x => (x, (files h.key).bind lib.key)) ∈ st.pkis.map some := by
      rw [r4]; exact List.mem_map.2 ⟨h, hh, rfl⟩
    obtain ⟨a, ha, e⟩ := List.mem_map.1 this
    rw [e1, Option.bind_some, d3] at e
    simp only [Option.map_some, Option.some.injEq] at e
    exact ⟨a, ha, by rw [e]⟩)
  have : some a ∈ st.pkis.map some := List.mem_map.2 ⟨a, by rw [f1]; simp, rfl⟩
  rw [r4] at this
  obtain ⟨h', hh', e⟩ := List.mem_map.1 this
  obtain ⟨x', k', cert', key', chain', g1, g2, g3, g4⟩ := hload h' hh'
  obtain ⟨d', q1, q2, q3⟩ := hname cert' x' chain' g2
  simp only [g1, g3, Option.bind_some, g4, q3, Option.map_some, Option.some.injEq] at e
  have hdd : d' = d := by
    rw [← e] at f2
    exact hex_inj (hexOf_hex d') (by rw [List.append_cancel_left f2]; exact hexOf_hex d)
  subst hdd
  have hpub := hc _ _ _ q1 d1
  refine ⟨_, k', hk1, ?_, ⟨b, t, ?_, f3⟩, hall h' hh' x' k' ⟨cert', key', chain', g1, g2, g3, g4⟩ hpub⟩
  · rw [List.length_append, hexOf_length, d2]; rfl
  · rw [f1, ← e]

/-- **C113.** A key pair is taken by the TLS library, when it has the key, exactly when the certificate file has certificates and nothing else, and the key is the one of the first
certificate; when it does not have it, whatever the key is, if it is of the kinds RSA and EC. -/
theorem C113_checked [DecidableEq P] (cert key : Bytes) :
    (configureKeypair lib false cert key = true ↔ Pair lib cert key) ∧
    (configureKeypair lib true cert key = true ↔ ∃ x, CertFile lib cert x ∧ lib.kind (lib.pub x) ≠ .other) := by
  unfold configureKeypair Pair CertFile
  cases hp : lib.pems cert with
  | nil => simp
  | cons x chain =>
    cases hc : lib.clean cert with
    | false => simp
    | true =>
      cases hk : lib.key key with
      | none => simp [keypairToPkey, keypairSetup, hk, hp]
      | some k => simp [keypairToPkey, keypairSetup, hk, hp]

/-! ## C114 -/

theorem loadAll_some_iff {α β : Type} (f : α → Option β) (l : List α) : (∃ r, loadAll f l = some r) ↔ ∀ a ∈ l, ∃ b, f a = some b := by
  induction l with
  | nil => simp [loadAll]
  | cons a l ih =>
    rw [loadAll]
    cases ha : f a with
    | none => simp [ha]
    | some b => cases hr : loadAll f l <;> simp_all

theorem testDir_some_iff (dirs : Bytes → Option Int) (chroot : Bytes) (l : CLoc) : (∃ fd, testDir dirs chroot l = some fd) ↔
    (l.dir ≠ [] → (∃ fd, dirs (inChroot chroot l.dir) = some fd) ∧ (chroot ≠ [] → (inChroot chroot l.dir).length < 4096)) := by
  unfold testDir testPath inChroot
  by_cases h1 : l.dir = []
  · simp [h1]
  · by_cases h2 : chroot = []
    · simp [h1, h2]
    · rw [if_neg h1, if_neg h2, if_neg h2]
      by_cases h3 : (chroot ++ b%"/" ++ l.dir).length ≥ 4096
      · rw [if_pos h3]
        simp only [Option.bind_none]
        constructor
        · rintro ⟨fd, h⟩; cases h
        · intro h; have := (h h1).2 h2; omega
      · rw [if_neg h3]
        simp only [Option.bind_some]
        exact ⟨fun h _ => ⟨h, fun _ => by omega⟩, fun h => (h h1).1⟩

theorem setupTls_iff [DecidableEq P] (hd : Digests lib) (junk : Nat → Bytes) (hj : ∀ n, (junk n).length = n) (kps : List (Bytes × Bytes)) (fake : Bool) :
    setupTlsOk lib junk fake kps = true ↔ ∀ kp ∈ kps, configureKeypair lib fake kp.1 kp.2 = true := by
  unfold setupTlsOk
  rw [List.all_eq_true]
  refine forall_congr' fun kp => forall_congr' fun _ => ?_
  rw [keypairPubkeyHash_eq hd junk hj]
  cases hp : lib.pems kp.1 with
  | nil => simp [configureKeypair, hp]
  | cons x chain =>
    obtain ⟨d, e, _⟩ := hd (lib.pub x)
    simp [e]

/-- **C114.** gmid -n says that the configuration is good exactly when the certificates and the keys of the servers can be read and match, and the directories can be opened. -/
theorem C114_says_ok [DecidableEq P] (hd : Digests lib) (junk : Nat → Bytes) (hj : ∀ n, (junk n).length = n) (files : Bytes → Option Bytes) (dirs : Bytes → Option Int)
    (c : CConf) (hset : ∀ h ∈ c.hosts, h.certPath ≠ none ∧ h.keyPath ≠ none) :
    configTest lib files junk dirs c = some true ↔ (∀ h ∈ c.hosts, HostOk lib files h) ∧ RootsOpen dirs c := by
  have hdirs : (∃ r, loadAll (fun h : CHost => loadAll (testDir dirs c.chroot) h.locs) c.hosts = some r) ↔ RootsOpen dirs c := by
    rw [loadAll_some_iff]
    refine forall_congr' fun h => forall_congr' fun _ => ?_
    rw [loadAll_some_iff]
    refine forall_congr' fun l => forall_congr' fun _ => ?_
    exact testDir_some_iff dirs c.chroot l
  rw [← hdirs]
  unfold configTest
  cases hl : loadAll (testLoad files) c.hosts with
  | none =>
    simp only [Option.some.injEq, Bool.false_eq_true, false_iff, not_and]
    intro hall
    have : ∃ r, loadAll (testLoad files) c.hosts = some r := (loadAll_some_iff _ _).2 (by
      intro h hh
      obtain ⟨p, q, cert, key, h1, h2, h3, h4, _⟩ := hall h hh
      exact ⟨(cert, key), by simp [testLoad, h1, h2, h3, h4]⟩)
    rw [hl] at this
    obtain ⟨_, h⟩ := this
    cases h
  | some kps =>
    have hk : setupTlsOk lib junk false kps = true ↔ ∀ h ∈ c.hosts, HostOk lib files h := by
      rw [setupTls_iff hd junk hj]
      have hmem := loadAll_mem _ _ _ hl
      have hex := (loadAll_some_iff _ _).1 ⟨kps, hl⟩
      have hmem2 : ∀ h ∈ c.hosts, ∀ kp, testLoad files h = some kp → kp ∈ kps := by
        clear hex hmem hset hdirs
        revert hl
        generalize c.hosts = l
        intro hl
        induction l generalizing kps with
        | nil => intro h hh; cases hh
        | cons a l ih =>
          rw [loadAll] at hl
          cases ha : testLoad files a with
          | none => rw [ha] at hl; cases hl
          | some b =>
            rw [ha] at hl
            cases hr : loadAll (testLoad files) l with
            | none => rw [hr] at hl; cases hl
            | some bs =>
              rw [hr] at hl
              simp only [Option.map_some, Option.some.injEq] at hl
              subst hl
              intro h hh kp hkp
              rcases List.mem_cons.1 hh with e | hh
              · subst e; rw [ha] at hkp; cases hkp; simp
              · simp [ih bs hr h hh kp hkp]
      constructor
      · intro hall h hh
        obtain ⟨kp, e⟩ := hex h hh
        have := (C113_checked (lib := lib) kp.1 kp.2).1.1 (hall kp (hmem2 h hh kp e))
        obtain ⟨s1, s2⟩ := hset h hh
        cases hp : h.certPath with
        | none => exact absurd hp s1
        | some p =>
          cases hq : h.keyPath with
          | none => exact absurd hq s2
          | some q =>
            unfold testLoad at e
            rw [hp, hq] at e
            simp only [Option.getD_some] at e
            cases f1 : files p with
            | none => simp [f1] at e
            | some cert =>
              cases f2 : files q with
              | none => simp [f1, f2] at e
              | some key =>
                simp only [f1, f2, Option.some.injEq] at e
                subst e
                exact ⟨p, q, cert, key, hp, hq, f1, f2, this⟩
      · intro hall kp hkp
        obtain ⟨h, hh, e⟩ := hmem kp hkp
        obtain ⟨p, q, cert, key, h1, h2, h3, h4, h5⟩ := hall h hh
        simp only [testLoad, h1, h2, Option.getD_some, h3, h4, Option.some.injEq] at e
        subst e
        exact (C113_checked cert key).1.2 h5
    rw [← hk]
    dsimp only
    cases hb : setupTlsOk lib junk false kps with
    | false => simp
    | true =>
      cases loadAll (fun h : CHost => loadAll (testDir dirs c.chroot) h.locs) c.hosts <;> simp

theorem sendAll_exists {α β : Type} (f : α → Option (List β)) (xs : List α) (h : ∀ x ∈ xs, ∃ m, f x = some m) : ∃ ms, sendAll f xs = some ms := by
  induction xs with
  | nil => exact ⟨_, rfl⟩
  | cons y r ih =>
    obtain ⟨m, hm⟩ := h y (by simp)
    obtain ⟨ms, hms⟩ := ih (fun x hx => h x (by simp [hx]))
    exact ⟨_, by rw [sendAll, hm, hms]; rfl⟩

/-- the configuration is sent when every file in it can be opened -/
theorem mainConfigure_of (files : Bytes → Option Bytes) (caOk : Bytes → Prop) (sup : LAddr → Bool) (privsep : Bool) (c : CConf)
    (hk : ∀ h ∈ c.hosts, HostOk lib files h) (ho : OtherFiles files caOk c) : ∃ ms, mainConfigure files sup (c.toP privsep) = some ms := by
  unfold mainConfigure configSend
  suffices h : ∃ hs, sendAll (sendHost (F := FcgiEp) files (c.toP privsep).privsep) (c.toP privsep).hosts = some hs by
    obtain ⟨hs, e⟩ := h
    exact ⟨_, by rw [e]; rfl⟩
  apply sendAll_exists
  intro x hx
  simp only [CConf.toP, List.mem_map] at hx
  obtain ⟨h, hh, rfl⟩ := hx
  obtain ⟨p, q, cert, key, h1, h2, h3, h4, _⟩ := hk h hh
  obtain ⟨o1, o2, o3⟩ := ho h hh
  have kp : ∃ m, sendKp (L := CLoc) (E := Bytes × Bytes) (P := CProxy) (AD := LAddr) (F := FcgiEp) files privsep h.toP.cert h.toP.key = some m := by
    simp only [CHost.toP, h1, h2, Option.getD_some, sendKp, h3, openSend, h4, Option.map_some]
    exact ⟨_, rfl⟩
  obtain ⟨kp, hkp⟩ := kp
  have ls : ∃ m, sendAll (sendLoc (P := CProxy) (AD := LAddr) (F := FcgiEp) files) h.toP.locs = some m := by
    apply sendAll_exists
    intro x hx
    simp only [CHost.toP, List.mem_map] at hx
    obtain ⟨l, hl, rfl⟩ := hx
    have := o2 l hl
    unfold sendLoc
    rw [if_neg]
    · exact ⟨_, rfl⟩
    · cases hr : l.reqcaPath with
      | none => simp [caMissing]
      | some p => obtain ⟨d, e, _⟩ := this p hr; simp [caMissing, e]
  obtain ⟨ls, hls⟩ := ls
  have ps : ∃ m, sendAll (sendProxy (L := CLoc) (E := Bytes × Bytes) (AD := LAddr) (F := FcgiEp) files) h.toP.proxies = some m := by
    apply sendAll_exists
    intro x hx
    simp only [CHost.toP, List.mem_map] at hx
    obtain ⟨r, hr, rfl⟩ := hx
    obtain ⟨q1, q2⟩ := o3 r hr
    unfold sendProxy
    rw [if_neg]
    · cases ha : r.certPath with
      | none => exact ⟨_, rfl⟩
      | some a =>
        cases hb : r.keyPath with
        | none => exact ⟨_, rfl⟩
        | some b =>
          obtain ⟨⟨d1, e1⟩, d2, e2⟩ := q2 a b ha hb
          simp [openSend, e1, e2]
    · cases hc : r.reqcaPath with
      | none => simp [caMissing]
      | some p => obtain ⟨d, e, _⟩ := q1 p hc; simp [caMissing, e]
  obtain ⟨ps, hps⟩ := ps
  unfold sendHost
  simp only [hkp, hls, hps, CConf.toP]
  have : h.toP.ocsp = h.ocspPath := rfl
  rw [this]
  cases hoc : h.ocspPath with
  | none => exact ⟨_, rfl⟩
  | some o =>
    obtain ⟨d, e⟩ := o1 o hoc
    simp [openSend, e]

theorem workerTypes_some (st : Worker) (h : ∀ m ∈ st.mime, m.1.length < 128 ∧ m.2.length < 128) : ∃ t, workerTypes st = some t := by
  unfold workerTypes
  obtain ⟨m', l1, l2, l3⟩ := loadLoop_entries (st.mime.map fun m => ⟨m.1, m.2⟩) initMime ⟨by simp [initMime], by simp [initMime], by simp [initMime]⟩ (by
    intro e he
    obtain ⟨m, hm, rfl⟩ := List.mem_map.1 he
    exact h m hm)
  rw [l1]
  dsimp only
  obtain ⟨m2, b, d1, d2, d3⟩ := C27_defaults true m' l2
  rw [d1]
  by_cases he : m'.len = 0
  · obtain ⟨e1, e2⟩ := d3 he rfl
    subst e1
    exact ⟨_, rfl⟩
  · obtain ⟨_, e1⟩ := d2 he
    subst e1
    exact ⟨_, rfl⟩

/-- **C114 (partial).** If gmid -n says that the configuration is good, and moreover the files it does not look at can be read (OCSP responses, CAs, and the certificates and keys of the relays),
the CAs load, and, with the keys in the crypto process, the keys of the servers are of the kinds RSA and EC, then the configuration is sent,
every process takes it, and the server processes set up TLS, the types and the directories (seen from the chroot).  Missing: those files are not looked at, see
C114_not_tested.  That the sockets can be bound is an assumption of the model. -/
theorem C114_starts_partial [DecidableEq P] (hd : Digests lib) (junk junk2 : Nat → Bytes) (hj : ∀ n, (junk n).length = n) (hj2 : ∀ n, (junk2 n).length = n)
    (junk' : Bytes) (hj' : junk'.length = 128) (files : Bytes → Option Bytes) (dirs : Bytes → Option Int) (c : CConf)
    (hset : ∀ h ∈ c.hosts, h.certPath ≠ none ∧ h.keyPath ≠ none) (htest : configTest lib files junk dirs c = some true)
    (loadCa : Bytes → Option Nat) (ho : OtherFiles files (fun d => (loadCa d).isSome) c) (privsep : Bool) (hm : MimesFit (c.toP privsep))
    (hkind : privsep = true → ∀ h ∈ c.hosts, ∀ p cert x chain, h.certPath = some p → files p = some cert → lib.pems cert = x :: chain → lib.kind (lib.pub x) ≠ .other)
    (sup : LAddr → Bool) :
    ∃ ms, mainConfigure files sup (c.toP privsep) = some ms ∧
      (∀ hash loadKey, ∀ st0 : Worker, ∃ st, recvAll files loadCa hash loadKey .server st0 (forProc .server ms) = .ok st ∧
        setupTlsOk lib junk2 privsep (st.hosts.map fun h => (h.cert.getD [], h.key.getD [])) = true ∧
        (∃ vs, loadVhosts (fun dir => dirs (inChroot c.chroot dir)) st.hosts = some vs) ∧ ∃ t, workerTypes st = some t) ∧
      ∀ st0 : WState CLoc (Bytes × Bytes) CProxy LAddr FcgiEp Nat K, st0.pki = .null →
        ∃ st, recvAll files loadCa (fun d => (sslPubkeyHash lib junk' d).val?.bind id) lib.key .crypto st0 (forProc .crypto ms) = .ok st := by
  obtain ⟨hk, hr⟩ := (C114_says_ok hd junk hj files dirs c hset).1 htest
  obtain ⟨ms, hms⟩ := mainConfigure_of files _ sup privsep c hk ho
  have hca : CasLoad files loadCa (c.toP privsep) := by
    intro x hx path hpath
    simp only [CConf.toP, List.mem_map] at hx
    obtain ⟨h, hh, rfl⟩ := hx
    obtain ⟨_, o2, o3⟩ := ho h hh
    rcases hpath with hpath | hpath
    · obtain ⟨l', hl', e⟩ := List.mem_filterMap.1 hpath
      simp only [CHost.toP, List.mem_map] at hl'
      obtain ⟨l, hl, rfl⟩ := hl'
      obtain ⟨d, e1, e2⟩ := o2 l hl path e
      simpa [e1] using e2
    · obtain ⟨l', hl', e⟩ := List.mem_filterMap.1 hpath
      simp only [CHost.toP, List.mem_map] at hl'
      obtain ⟨l, hl, rfl⟩ := hl'
      obtain ⟨d, e1, e2⟩ := (o3 l hl).1 path e
      simpa [e1] using e2
  refine ⟨ms, hms, ?_, ?_⟩
  · intro hash loadKey st0
    obtain ⟨st, k1, k2, _⟩ := C38_server files loadCa hash loadKey sup _ ms hms hm hca st0
    refine ⟨st, k1, ?_, ?_, workerTypes_some st (by rw [k2.2.1]; exact hm)⟩
    · rw [setupTls_iff hd junk2 hj2]
      intro kp hkp
      rw [k2.2.2.2.2.2] at hkp
      simp only [CConf.toP, List.map_map, List.mem_map, Function.comp] at hkp
      obtain ⟨h, hh, rfl⟩ := hkp
      obtain ⟨p, q, cert, key, h1, h2, h3, h4, h5⟩ := hk h hh
      simp only [expHost, CHost.toP, h1, h2, Option.getD_some, h3, h4]
      cases privsep with
      | false => exact (C113_checked _ _).1.2 h5
      | true =>
        obtain ⟨x, k, ⟨⟨chain, hc⟩, hcl⟩, _, _⟩ := h5
        exact (C113_checked _ _).2.2 ⟨x, ⟨⟨chain, hc⟩, hcl⟩, hkind rfl h hh p cert x chain h1 h3 hc⟩
    · unfold loadVhosts
      rw [loadAll_some_iff, k2.2.2.2.2.2]
      intro v hv
      simp only [CConf.toP, List.map_map, List.mem_map, Function.comp] at hv
      obtain ⟨h, hh, rfl⟩ := hv
      unfold loadHost
      obtain ⟨ls, hls⟩ := (loadAll_some_iff (loadLoc (fun dir => dirs (inChroot c.chroot dir))) (expHost files loadCa privsep h.toP).locs).2 (by
        intro l' hl'
        simp only [expHost, CHost.toP, List.map_map, List.mem_map, Function.comp] at hl'
        obtain ⟨l, hl, rfl⟩ := hl'
        have hfd : ∃ fd, locFd (fun dir => dirs (inChroot c.chroot dir)) l.dir = some fd := by
          unfold locFd
          by_cases he : l.dir = []
          · simp [he]
          · obtain ⟨⟨fd, hfd⟩, _⟩ := hr h hh l hl he
            exact ⟨fd, by rw [if_neg he]; exact hfd⟩
        obtain ⟨fd, hfd⟩ := hfd
        have e : (expLoc files loadCa { loc := l.wire, reqca := l.reqcaPath, params := l.params }).loc.dir = l.dir := rfl
        unfold loadLoc
        rw [e, hfd]
        exact ⟨_, rfl⟩)
      rw [hls]
      exact ⟨_, rfl⟩
  · intro st0 h0
    have hkl : KeysLoad files (fun d => (sslPubkeyHash lib junk' d).val?.bind id) lib.key (c.toP privsep) := by
      intro x hx
      simp only [CConf.toP, List.mem_map] at hx
      obtain ⟨h, hh, rfl⟩ := hx
      obtain ⟨p, q, cert, key, h1, h2, h3, h4, x, k, ⟨⟨chain, hc⟩, _⟩, hkk, _⟩ := hk h hh
      obtain ⟨d, e, _⟩ := hd (lib.pub x)
      simp only [CHost.toP, h1, h2, Option.getD_some, h3, h4, Option.bind_some, hkk]
      rw [sslPubkeyHash_eq hd junk' cert hj', hc]
      simp [e, Res.val?]
    obtain ⟨st, k1, _⟩ := C38_crypto files loadCa _ lib.key sup _ ms hms hkl st0 h0
    exact ⟨st, k1⟩

/-! ## C115 -/

/-- **C115.** A file of CAs is taken exactly when its first certificate is one of a CA, and trusted is that one alone; a client is accepted by what OpenSSL says of the
first certificate it sent. -/
theorem C115_first (ca chain : Bytes) (store : List X) :
    (loadCaStore lib ca = some store ↔ ∃ x rest, lib.pems ca = x :: rest ∧ lib.isCa x = true ∧ store = [x]) ∧
    (∀ x rest, lib.pems chain = x :: rest → validateAgainstCa lib store chain = lib.verify store x) ∧
    (lib.pems chain = [] → validateAgainstCa lib store chain = 0) := by
  refine ⟨?_, ?_, ?_⟩
  · unfold loadCaStore
    cases lib.pems ca with
    | nil => simp
    | cons x r =>
      cases h : lib.isCa x with
      | false =>
        simp only [List.head?_cons, h]
        constructor
        · intro e; simp at e
        · rintro ⟨x', r', e, e2, _⟩; cases e; rw [h] at e2; cases e2
      | true =>
        simp only [List.head?_cons, h, if_true, Option.some.injEq]
        constructor
        · intro e; exact ⟨x, r, rfl, h, e.symm⟩
        · rintro ⟨x', r', e, _, e2⟩; cases e; exact e2.symm
  · intro x rest e; simp [validateAgainstCa, e]
  · intro e; simp [validateAgainstCa, e]

/-- **C115 (partial).** With one certificate in the file of CAs, a client is accepted exactly when OpenSSL verifies its certificate against the CAs of the file.  Missing: with more of them (C115_others_ignored). -/
theorem C115_accepts_partial (ca chain : Bytes) (a x : X) (rest : List X) (hca : lib.pems ca = [a]) (ha : lib.isCa a = true) (hc : lib.pems chain = x :: rest) :
    ∃ store, loadCaStore lib ca = some store ∧ validateAgainstCa lib store chain = lib.verify (lib.pems ca) x := by
  refine ⟨[a], by simp [loadCaStore, hca, ha], ?_⟩
  simp [validateAgainstCa, hc, hca]

end

/-! ## Concrete cases -/

/-- certificates and keys that are one byte; those from 200 on are neither RSA nor EC, CAs are from 100 on, and the CA of n is 100 + n / 10 -/
def exLib : PkiLib UInt8 UInt8 UInt8 where
  pems := id
  clean := fun _ => true
  key := List.head?
  pub := id
  keyPub := id
  digest := fun p => some (List.replicate 31 0 ++ [p])
  kind := fun p => if p < 200 then .rsa else .other
  isCa := fun x => x ≥ 100
  verify := fun trusted x => if 100 + x / 10 ∈ trusted then 1 else 0

theorem exLib_digests : Digests exLib ∧ NoCollision exLib := by
  refine ⟨fun p => ⟨_, rfl, by simp⟩, ?_⟩
  intro p q d h1 h2
  simp only [exLib, Option.some.injEq] at h1 h2
  rw [← h2] at h1
  have := List.append_cancel_left h1
  simpa using this

def exJunk (n : Nat) : Bytes := List.replicate n 7
theorem exJunk_length (n : Nat) : (exJunk n).length = n := by simp [exJunk]

/-- the name of the public key of a certificate file -/
example : sslPubkeyHash exLib (exJunk 128) [171, 5] = .ok (some b%"SHA256:00000000000000000000000000000000000000000000000000000000000000ab") := by decide +kernel

example : KeyName [1, 171] b%"SHA256:01ab" := ⟨_, hexOf_hex _, by decide +kernel⟩

def exKFiles (p : Bytes) : Option Bytes :=
  if p = b%"/c" ∨ p = b%"/k" then some [1] else if p = b%"/d" ∨ p = b%"/k2" then some [2] else none

def exKHost (name cert key : Bytes) : PHost Unit Unit Unit Unit := { domain := name, cert := cert, key := key, ocsp := none, addrs := [], locs := [], aliases := [], proxies := [] }

def exKConf (hs : List (PHost Unit Unit Unit Unit)) : PConf Unit Unit Unit Unit Unit where
  logFormat := 0
  mime := []
  protos := 24
  addrs := []
  fcgi := []
  hosts := hs
  privsep := true

def exKMs (hs : List (PHost Unit Unit Unit Unit)) : List (Proc × CMsg Unit Unit Unit Unit Unit) := (mainConfigure exKFiles (fun _ => true) (exKConf hs)).getD []

/-- C113_key_found_partial applies: two servers with their own certificates -/
example : ∃ st : WState Unit Unit Unit Unit Unit Nat UInt8, recvAll exKFiles (fun _ => none) (fun d => (sslPubkeyHash exLib (exJunk 128) d).val?.bind id) exLib.key .crypto {}
    (forProc .crypto (exKMs [exKHost b%"a" b%"/c" b%"/k", exKHost b%"b" b%"/d" b%"/k2"])) = .ok st ∧
    ∃ s k, keypairPubkeyHash exLib exJunk [2] = .ok (some s) ∧ s.length = 71 ∧ NamedKey st.pkis s k ∧ k = 2 := by
  obtain ⟨st, h1, h2⟩ := C113_key_found_partial exLib_digests.1 exLib_digests.2 (exJunk 128) (exJunk_length _) exJunk exJunk_length exKFiles (fun _ => (none : Option Nat)) (fun _ => true)
    (exKConf [exKHost b%"a" b%"/c" b%"/k", exKHost b%"b" b%"/d" b%"/k2"]) rfl (exKMs [exKHost b%"a" b%"/c" b%"/k", exKHost b%"b" b%"/d" b%"/k2"]) (by decide +kernel)
    (by
      intro h hh
      simp only [exKConf, List.mem_cons, List.not_mem_nil, or_false] at hh
      rcases hh with rfl | rfl
      · exact ⟨1, 1, [1], [1], [], by decide +kernel, rfl, by decide +kernel, rfl⟩
      · exact ⟨2, 2, [2], [2], [], by decide +kernel, rfl, by decide +kernel, rfl⟩) {} rfl
  refine ⟨st, h1, ?_⟩
  obtain ⟨s, k, k1, k2, k3, k4⟩ := h2 (exKHost b%"b" b%"/d" b%"/k2") (by simp [exKConf]) [2] 2 [] (by decide +kernel) rfl (by
    intro h' hh' x' k' hx e
    simp only [exKConf, List.mem_cons, List.not_mem_nil, or_false] at hh'
    obtain ⟨cert, key, chain, e1, e2, e3, e4⟩ := hx
    rcases hh' with rfl | rfl
    · have : exKFiles (exKHost b%"a" b%"/c" b%"/k").cert = some [1] := by decide +kernel
      rw [this] at e1; cases e1
      simp only [exLib, id, List.cons.injEq] at e2 e
      rw [← e2.1] at e; exact absurd e (by decide)
    · have : exKFiles (exKHost b%"b" b%"/d" b%"/k2").key = some [2] := by decide +kernel
      rw [this] at e3; cases e3
      simp [exLib] at e4
      subst e4; rfl)
  exact ⟨s, k, k1, k2, k3, k4⟩

/-- **C113 (witness).** Two servers with the same certificate, the key of one of which is wrong: everything is accepted, since the server processes do not see the keys and the crypto process does not compare, and
the key that is found for the other server, which has the right one, is the wrong one. -/
theorem C113_wrong_key : ∃ st : WState Unit Unit Unit Unit Unit Nat UInt8,
    recvAll exKFiles (fun _ => none) (fun d => (sslPubkeyHash exLib (exJunk 128) d).val?.bind id) exLib.key .crypto {}
      (forProc .crypto (exKMs [exKHost b%"a" b%"/c" b%"/k2", exKHost b%"b" b%"/c" b%"/k"])) = .ok st ∧
    setupTlsOk exLib exJunk true [([1], []), ([1], [])] = true ∧ HostHas exLib exKFiles (exKHost b%"b" b%"/c" b%"/k") 1 1 ∧
    ∃ s, keypairPubkeyHash exLib exJunk [1] = .ok (some s) ∧ NamedKey st.pkis s 2 ∧ exLib.keyPub 2 ≠ exLib.pub 1 := by
  refine ⟨((recvAll exKFiles (fun _ => none) (fun d => (sslPubkeyHash exLib (exJunk 128) d).val?.bind id) exLib.key .crypto {}
      (forProc .crypto (exKMs [exKHost b%"a" b%"/c" b%"/k2", exKHost b%"b" b%"/c" b%"/k"])) : Res (WState Unit Unit Unit Unit Unit Nat UInt8)).val?).getD {},
    by decide +kernel, by decide +kernel, ⟨[1], [1], [], by decide +kernel, rfl, by decide +kernel, rfl⟩,
    b%"SHA256:0000000000000000000000000000000000000000000000000000000000000001", by decide +kernel, ⟨[], [(b%"SHA256:0000000000000000000000000000000000000000000000000000000000000001", some 1)], by decide +kernel, by simp⟩, by decide⟩

/-- a key that does not match is not taken by the library when it has it, and is when it does not -/
example : configureKeypair exLib false [1] [2] = false ∧ configureKeypair exLib true [1] [2] = true ∧ configureKeypair exLib false [1] [1] = true := by decide

/-- the files of the configuration of C112: the certificate, the key and the CA -/
def exTFiles (cert key : UInt8) (ca : Option Bytes) (p : Bytes) : Option Bytes :=
  if p = b%"/c" then some [cert] else if p = b%"/k" then some [key] else if p = b%"/ca" then ca else none

/-- its hosts -/
theorem exDep_hosts : exDepC.hosts.map (fun h => (h.certPath, h.keyPath)) = [(some b%"/c", some b%"/k")] := by decide +kernel

theorem exDep_set : ∀ h ∈ exDepC.hosts, h.certPath ≠ none ∧ h.keyPath ≠ none := by
  intro h hh
  have : (h.certPath, h.keyPath) ∈ exDepC.hosts.map (fun h => (h.certPath, h.keyPath)) := List.mem_map.2 ⟨h, hh, rfl⟩
  rw [exDep_hosts] at this
  simp at this
  simp [this.1, this.2]

def exDepCa2 (d : Bytes) : Option Nat := (loadCaStore exLib d).map fun _ => 1

theorem exDep_other : OtherFiles (exTFiles 1 1 (some [100])) (fun d => (exDepCa2 d).isSome = true) exDepC ∧ MimesFit (exDepC.toP true) := by
  have h1 : ∀ h ∈ exDepC.hosts, h.ocspPath = none ∧ h.proxies = [] ∧ ∀ l ∈ h.locs, l.reqcaPath = none ∨ l.reqcaPath = some b%"/ca" := by decide +kernel
  have h2 : ∀ m ∈ (exDepC.toP true).mime, m.1.length < 128 ∧ m.2.length < 128 := by decide +kernel
  refine ⟨?_, h2⟩
  intro h hh
  obtain ⟨a, b, c⟩ := h1 h hh
  rw [a, b]
  refine ⟨by simp, ?_, by simp⟩
  intro l hl p hp
  rcases c l hl with e | e
  · rw [hp] at e; cases e
  · rw [hp] at e; cases e; exact ⟨[100], by decide, by decide⟩

/-- C114_says_ok and C114_starts_partial apply: the configuration of C112, with everything there, and the keys in the crypto process -/
example : ∃ ms, mainConfigure (exTFiles 1 1 (some [100])) (fun _ => true) (exDepC.toP true) = some ms := by
  obtain ⟨ms, h, _⟩ := C114_starts_partial (lib := exLib) exLib_digests.1 exJunk exJunk exJunk_length exJunk_length (exJunk 128) (exJunk_length _) (exTFiles 1 1 (some [100])) exDepDir exDepC
    exDep_set (by decide +kernel) exDepCa2 exDep_other.1 true exDep_other.2 (by
      intro _ h hh p cert x chain h1 h2 h3
      have : (h.certPath, h.keyPath) ∈ exDepC.hosts.map (fun h => (h.certPath, h.keyPath)) := List.mem_map.2 ⟨h, hh, rfl⟩
      rw [exDep_hosts] at this
      simp at this
      rw [this.1] at h1
      cases h1
      have : exTFiles 1 1 (some [100]) b%"/c" = some [1] := by decide
      rw [this] at h2
      cases h2
      simp [exLib] at h3
      rw [← h3.1]
      decide) (fun _ => true)
  exact ⟨ms, h⟩

/-- **C114 (witnesses).** gmid -n says that the configuration is good, but gmid does not start: the file of CAs is missing, or is not one of CAs; the key is neither RSA nor EC, and kept in the crypto process.
Conversely it says that it is not, because of a key that does not match, and gmid starts. -/
theorem C114_not_tested :
    (configTest exLib (exTFiles 1 1 none) exJunk exDepDir exDepC = some true ∧ mainConfigure (exTFiles 1 1 none) (fun _ => true) (exDepC.toP true) = none) ∧
    (configTest exLib (exTFiles 1 1 (some [5])) exJunk exDepDir exDepC = some true ∧ loadCaStore exLib [5] = none) ∧
    (configTest exLib (exTFiles 200 200 (some [100])) exJunk exDepDir exDepC = some true ∧ setupTlsOk exLib exJunk true [([200], [])] = false) ∧
    (configTest exLib (exTFiles 1 2 (some [100])) exJunk exDepDir exDepC = none ∧ setupTlsOk exLib exJunk true [([1], [])] = true) := by decide +kernel

/-- **C115 (witness).** Two CAs in the file, and a client with a certificate of the second: it is refused. -/
theorem C115_others_ignored : loadCaStore exLib [100, 101] = some [100] ∧ exLib.verify [100, 101] 11 = 1 ∧ validateAgainstCa exLib [100] [11] = 0 := by decide

example : ∃ store, loadCaStore exLib [101] = some store ∧ validateAgainstCa exLib store [11, 101] = 1 := C115_accepts_partial (lib := exLib) [101] [11, 101] 101 11 [101] rfl rfl rfl

end Gmid.Props
