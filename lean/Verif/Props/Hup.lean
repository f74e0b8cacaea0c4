import Verif.Model.Hup
import Verif.Spec.Hup
import Verif.Props.Pki

/-!
# C139: what a reload does to gmid when files are missing, damaged or being written
-/

set_option autoImplicit false

namespace Gmid.Props

open Spec

/-! ## load_file -/

/-- **C139.** A file that nobody changes is read completely, byte for byte. -/
theorem C139_whole_file (d : Bytes) : loadFile ⟨d.length, some d⟩ = some d := by
  unfold loadFile
  simp

/-- **C139.** If it is changed meanwhile, what is taken has the length the file had before and is the beginning of what it has now; if it has become shorter, nothing is taken. -/
theorem C139_changed_file (old new : Bytes) :
    (∀ d, loadFile ⟨old.length, some new⟩ = some d ↔ d.length = old.length ∧ ∃ rest, new = d ++ rest) ∧
    (loadFile ⟨old.length, some new⟩ = none ↔ new.length < old.length) := by
  unfold loadFile
  simp only [Int.toNat_natCast]
  rw [if_neg (by omega)]
  by_cases h : (new.take old.length).length ≠ old.length
  · rw [if_pos h]
    simp only [List.length_take] at h
    refine ⟨fun d => ⟨fun e => (by cases e), ?_⟩, ?_⟩
    · rintro ⟨e, rest, rfl⟩
      simp only [List.length_append] at h
      omega
    · simp; omega
  · rw [if_neg h]
    simp only [ne_eq, Decidable.not_not] at h
    refine ⟨fun d => ⟨?_, ?_⟩, ?_⟩
    · intro e
      simp only [Option.some.injEq] at e
      subst e
      exact ⟨h, _, (List.take_append_drop old.length new).symm⟩
    · rintro ⟨e, rest, rfl⟩
      simp [← e]
    · simp only [List.length_take] at h
      simp; omega

/-! ## The messages of a reload in a server process -/

section
variable {L E P AD F C K : Type}

/-- what a message brings can be read, and is a CA where it should be one -/
def Loads (f : Bytes → Option Bytes) (loadCa : Bytes → Option C) : CMsg L E P AD F → Prop
  | .cert fd | .key fd | .ocsp fd | .proxyCert fd | .proxyKey fd => (f fd).isSome = true
  | .loc _ (some fd) | .proxy _ (some fd) => ((f fd).bind loadCa).isSome = true
  | _ => True

theorem configRecv_ext (f g : Bytes → Option Bytes) (ca ca' : Bytes → Option C) (hash : Bytes → Option Bytes) (loadKey : Bytes → Option K)
    (hf : ∀ p d, f p = some d → g p = some d) (hca : ∀ p d, ca p = some d → ca' p = some d)
    (s s' : WState L E P AD F C K) (m : CMsg L E P AD F) (h : configRecv g ca' hash loadKey .server s m = .ok s') :
    (Loads f ca m → configRecv f ca hash loadKey .server s m = .ok s') ∧ (¬ Loads f ca m → configRecv f ca hash loadKey .server s m = .err) := by
  cases m with
  | cert fd =>
    cases e : f fd with
    | some d => have e' := hf _ _ e; simp_all [configRecv, Loads]
    | none => simp [configRecv, Loads, e]
  | key fd =>
    cases e : f fd with
    | some d => have e' := hf _ _ e; simp_all [configRecv, Loads]
    | none => simp [configRecv, Loads, e]
  | ocsp fd =>
    cases e : f fd with
    | some d => have e' := hf _ _ e; simp_all [configRecv, Loads]
    | none => simp [configRecv, Loads, e]
  | loc l fd =>
    cases fd with
    | none => simp_all [configRecv, Loads]
    | some fd =>
      cases e : f fd with
      | none => simp [configRecv, Loads, e]
      | some d =>
        have e' := hf _ _ e
        cases e2 : ca d with
        | none => simp [configRecv, Loads, e, e2]
        | some x => have e3 := hca _ _ e2; simp_all [configRecv, Loads]
  | proxy p fd =>
    cases fd with
    | none => simp_all [configRecv, Loads]
    | some fd =>
      cases e : f fd with
      | none => simp [configRecv, Loads, e]
      | some d =>
        have e' := hf _ _ e
        cases e2 : ca d with
        | none => simp [configRecv, Loads, e, e2]
        | some x => have e3 := hca _ _ e2; simp_all [configRecv, Loads]
  | proxyCert fd =>
    cases hp : s.p with
    | null => simp [configRecv, hp] at h
    | dangling => simp [configRecv, hp] at h
    | last =>
      cases e : f fd with
      | some d => have e' := hf _ _ e; simp_all [configRecv, Loads]
      | none => simp [configRecv, Loads, e, hp]
  | proxyKey fd =>
    cases hp : s.p with
    | null => simp [configRecv, hp] at h
    | dangling => simp [configRecv, hp] at h
    | last =>
      cases e : f fd with
      | some d => have e' := hf _ _ e; simp_all [configRecv, Loads]
      | none => simp [configRecv, Loads, e, hp]
  | _ => exact ⟨fun _ => h, fun hn => absurd trivial hn⟩

theorem recvAll_ext (f g : Bytes → Option Bytes) (ca ca' : Bytes → Option C) (hash : Bytes → Option Bytes) (loadKey : Bytes → Option K)
    (hf : ∀ p d, f p = some d → g p = some d) (hca : ∀ p d, ca p = some d → ca' p = some d) (ms : List (CMsg L E P AD F)) :
    ∀ s t : WState L E P AD F C K, recvAll g ca' hash loadKey .server s ms = .ok t →
      ((∀ m ∈ ms, Loads f ca m) → recvAll f ca hash loadKey .server s ms = .ok t) ∧
      (¬ (∀ m ∈ ms, Loads f ca m) → recvAll f ca hash loadKey .server s ms = .err) := by
  induction ms with
  | nil => intro s t h; exact ⟨fun _ => h, fun hn => absurd (by simp) hn⟩
  | cons m r ih =>
    intro s t h
    rw [recvAll] at h
    rw [recvAll]
    cases e : configRecv g ca' hash loadKey .server s m with
    | err => rw [e] at h; cases h
    | ub => rw [e] at h; cases h
    | ok s1 =>
      rw [e] at h
      obtain ⟨a, b⟩ := configRecv_ext f g ca ca' hash loadKey hf hca s s1 m e
      by_cases hl : Loads f ca m
      · rw [a hl]
        obtain ⟨c, d⟩ := ih s1 t h
        refine ⟨fun hh => c fun m' hm' => hh m' (by simp [hm']), fun hn => d fun hh => hn ?_⟩
        intro m' hm'
        rcases List.mem_cons.1 hm' with rfl | hm'
        · exact hl
        · exact hh m' hm'
      · rw [b hl]
        exact ⟨fun hh => absurd (hh m (by simp)) hl, fun _ => rfl⟩

/-- every file of the configuration can be opened -/
def Opens (files : Bytes → Option Bytes) (c : PConf L E P AD F) : Prop :=
  ∀ h ∈ c.hosts, (files h.cert).isSome = true ∧ (files h.key).isSome = true ∧ (∀ o, h.ocsp = some o → (files o).isSome = true) ∧
    (∀ l ∈ h.locs, ∀ p, l.reqca = some p → (files p).isSome = true) ∧
    ∀ r ∈ h.proxies, (∀ p, r.reqca = some p → (files p).isSome = true) ∧ ∀ a b, r.cert = some a → r.key = some b → (files a).isSome = true ∧ (files b).isSome = true

theorem caMissing_iff (files : Bytes → Option Bytes) (r : Option Bytes) : caMissing files r = false ↔ ∀ p, r = some p → (files p).isSome = true := by
  cases r with
  | none => simp [caMissing]
  | some p => cases h : files p <;> simp [caMissing, h]

theorem sendLoc_iff (files : Bytes → Option Bytes) (l : PLoc L E) :
    (∃ ms, sendLoc (P := P) (AD := AD) (F := F) files l = some ms) ↔ ∀ p, l.reqca = some p → (files p).isSome = true := by
  rw [← caMissing_iff]
  unfold sendLoc
  cases caMissing files l.reqca <;> simp

theorem openSend_iff (files : Bytes → Option Bytes) (to : Proc) (mk : Bytes → CMsg L E P AD F) (p : Bytes) :
    (∃ ms, openSend files to mk p = some ms) ↔ (files p).isSome = true := by
  unfold openSend
  cases files p <;> simp

theorem sendProxy_iff (files : Bytes → Option Bytes) (r : PProxy P) :
    (∃ ms, sendProxy (L := L) (E := E) (AD := AD) (F := F) files r = some ms) ↔
      (∀ p, r.reqca = some p → (files p).isSome = true) ∧ ∀ a b, r.cert = some a → r.key = some b → (files a).isSome = true ∧ (files b).isSome = true := by
  rw [← caMissing_iff]
  obtain ⟨pr, rq, ct, ky⟩ := r
  unfold sendProxy
  cases caMissing files rq with
  | true => simp
  | false =>
    cases ct with
    | none => simp
    | some a =>
      cases ky with
      | none => simp
      | some b => cases ha : files a <;> cases hb : files b <;> simp [openSend, ha, hb]

theorem sendAll_iff {α β : Type} (f : α → Option (List β)) (xs : List α) : (∃ ms, sendAll f xs = some ms) ↔ ∀ x ∈ xs, ∃ m, f x = some m :=
  ⟨fun ⟨ms, h⟩ => sendAll_all f xs ms h, sendAll_exists f xs⟩

theorem sendHost_iff (files : Bytes → Option Bytes) (privsep : Bool) (h : PHost L E P AD) :
    (∃ ms, sendHost (F := F) files privsep h = some ms) ↔
      (files h.cert).isSome = true ∧ (files h.key).isSome = true ∧ (∀ o, h.ocsp = some o → (files o).isSome = true) ∧
      (∀ l ∈ h.locs, ∀ p, l.reqca = some p → (files p).isSome = true) ∧
      ∀ r ∈ h.proxies, (∀ p, r.reqca = some p → (files p).isSome = true) ∧ ∀ a b, r.cert = some a → r.key = some b → (files a).isSome = true ∧ (files b).isSome = true := by
  have e1 : (∃ ms, sendAll (sendLoc (P := P) (AD := AD) (F := F) files) h.locs = some ms) ↔ (∀ l ∈ h.locs, ∀ p, l.reqca = some p → (files p).isSome = true) := by
    rw [sendAll_iff]
    exact forall_congr' fun l => forall_congr' fun _ => sendLoc_iff files l
  have e2 := (sendAll_iff (sendProxy (L := L) (E := E) (AD := AD) (F := F) files) h.proxies).trans
    (forall_congr' fun l => forall_congr' fun _ => sendProxy_iff files l)
  rw [← e1, ← e2]
  have e3 : (∃ ms, sendKp (L := L) (E := E) (P := P) (AD := AD) (F := F) files privsep h.cert h.key = some ms) ↔ ((files h.cert).isSome = true ∧ (files h.key).isSome = true) := by
    unfold sendKp openSend
    cases files h.cert <;> cases files h.key <;> simp
  rw [← and_assoc, ← e3]
  unfold sendHost
  clear e1 e2 e3
  cases sendKp (L := L) (E := E) (P := P) (AD := AD) (F := F) files privsep h.cert h.key with
  | none => simp
  | some kp =>
    cases ho : h.ocsp with
    | none =>
      cases sendAll (sendLoc (P := P) (AD := AD) (F := F) files) h.locs with
      | none => simp
      | some ls => cases sendAll (sendProxy (L := L) (E := E) (AD := AD) (F := F) files) h.proxies <;> simp
    | some o =>
      cases hf : files o with
      | none => simp [openSend, hf]
      | some d =>
        cases sendAll (sendLoc (P := P) (AD := AD) (F := F) files) h.locs with
        | none => simp [openSend, hf]
        | some ls => cases sendAll (sendProxy (L := L) (E := E) (AD := AD) (F := F) files) h.proxies <;> simp [openSend, hf]

theorem mainConfigure_iff (files : Bytes → Option Bytes) (sup : AD → Bool) (c : PConf L E P AD F) : (∃ ms, mainConfigure files sup c = some ms) ↔ Opens files c := by
  unfold Opens
  have := (sendAll_iff (sendHost (F := F) files c.privsep) c.hosts).trans (forall_congr' fun l => forall_congr' fun _ => sendHost_iff files c.privsep l)
  rw [← this]
  unfold mainConfigure configSend
  cases sendAll (sendHost (F := F) files c.privsep) c.hosts <;> simp

/-- what a server process gets loads -/
def HostLoads (f : Bytes → Option Bytes) (loadCa : Bytes → Option C) (privsep : Bool) (h : PHost L E P AD) : Prop :=
  (f h.cert).isSome = true ∧ (privsep = false → (f h.key).isSome = true) ∧ (∀ o, h.ocsp = some o → (f o).isSome = true) ∧
  (∀ l ∈ h.locs, ∀ p, l.reqca = some p → ((f p).bind loadCa).isSome = true) ∧
  ∀ r ∈ h.proxies, (∀ p, r.reqca = some p → ((f p).bind loadCa).isSome = true) ∧ ∀ a b, r.cert = some a → r.key = some b → (f a).isSome = true ∧ (f b).isSome = true

theorem locMsgs_loads (f : Bytes → Option Bytes) (loadCa : Bytes → Option C) (l : PLoc L E) :
    (∀ m ∈ (locMsgs l : List (CMsg L E P AD F)), Loads f loadCa m) ↔ ∀ p, l.reqca = some p → ((f p).bind loadCa).isSome = true := by
  unfold locMsgs
  cases hr : l.reqca with
  | none => simp [Loads]
  | some p => simp [Loads]

theorem proxyMsgs_loads (f : Bytes → Option Bytes) (loadCa : Bytes → Option C) (r : PProxy P) :
    (∀ m ∈ (proxyMsgs r : List (CMsg L E P AD F)), Loads f loadCa m) ↔
      (∀ p, r.reqca = some p → ((f p).bind loadCa).isSome = true) ∧ ∀ a b, r.cert = some a → r.key = some b → (f a).isSome = true ∧ (f b).isSome = true := by
  obtain ⟨pr, rq, ct, ky⟩ := r
  unfold proxyMsgs
  cases rq <;> cases ct <;> cases ky <;> simp [Loads]

theorem hostMsgs_loads (f : Bytes → Option Bytes) (loadCa : Bytes → Option C) (privsep : Bool) (h : PHost L E P AD) :
    (∀ m ∈ (hostMsgs privsep h : List (CMsg L E P AD F)), Loads f loadCa m) ↔ HostLoads f loadCa privsep h := by
  unfold hostMsgs HostLoads
  have e1 : (∀ m, (∃ a, a ∈ h.locs ∧ m ∈ (locMsgs a : List (CMsg L E P AD F))) → Loads f loadCa m) ↔
      (∀ l ∈ h.locs, ∀ p, l.reqca = some p → ((f p).bind loadCa).isSome = true) := by
    constructor
    · intro hh l hl
      exact (locMsgs_loads (P := P) (AD := AD) (F := F) f loadCa l).1 fun m hm => hh m ⟨l, hl, hm⟩
    · rintro hh m ⟨l, hl, hm⟩
      exact (locMsgs_loads f loadCa l).2 (hh l hl) m hm
  have e2 : (∀ m, (∃ a, a ∈ h.proxies ∧ m ∈ (proxyMsgs a : List (CMsg L E P AD F))) → Loads f loadCa m) ↔
      ∀ r ∈ h.proxies, (∀ p, r.reqca = some p → ((f p).bind loadCa).isSome = true) ∧ ∀ a b, r.cert = some a → r.key = some b → (f a).isSome = true ∧ (f b).isSome = true := by
    constructor
    · intro hh l hl
      exact (proxyMsgs_loads (L := L) (E := E) (AD := AD) (F := F) f loadCa l).1 fun m hm => hh m ⟨l, hl, hm⟩
    · rintro hh m ⟨l, hl, hm⟩
      exact (proxyMsgs_loads f loadCa l).2 (hh l hl) m hm
  rw [← e1, ← e2]
  simp only [List.mem_append, or_imp, forall_and, List.mem_flatMap]
  cases privsep <;> cases h.ocsp <;> simp [Loads, and_assoc]

end

/-! ## A server process -/

section
variable {X K P : Type} {lib : PkiLib X K P}

theorem server_loads {C : Type} (f : Bytes → Option Bytes) (loadCa : Bytes → Option C) (opened : Bytes → Option Bytes) {L E PR AD F : Type} (sup : AD → Bool) (c : PConf L E PR AD F)
    (ms : List (Proc × CMsg L E PR AD F)) (hsent : mainConfigure opened sup c = some ms) :
    (∀ m ∈ forProc .server ms, Loads f loadCa m) ↔ ∀ h ∈ c.hosts, HostLoads f loadCa c.privsep h := by
  obtain ⟨hs, _, _⟩ := mainConfigure_some hsent
  rw [hs]
  constructor
  · intro hh h hm
    rw [← hostMsgs_loads (F := F)]
    intro m hmm
    exact hh m (by simp only [List.mem_append, List.mem_flatMap]; exact .inr (.inr (.inr (.inr (.inr (.inr (.inl ⟨h, hm, hmm⟩)))))))
  · intro hh m hm
    simp only [List.mem_append, List.mem_flatMap, List.mem_singleton] at hm
    rcases hm with rfl | rfl | ⟨_, _, rfl⟩ | rfl | ⟨_, _, rfl⟩ | ⟨_, _, rfl⟩ | ⟨h, hh', hm⟩ | rfl
    any_goals trivial
    exact (hostMsgs_loads f loadCa c.privsep h).2 (hh h hh') m hm

theorem hostUses_iff [DecidableEq P] (f : Bytes → Option Bytes) (loadCa : Bytes → Option Nat) (privsep : Bool) (h : CHost) (hset : h.certPath ≠ none ∧ h.keyPath ≠ none) :
    ServerUses lib f loadCa privsep h ↔ HostLoads f loadCa privsep h.toP ∧
      configureKeypair lib privsep ((f h.toP.cert).getD []) (if privsep then [] else (f h.toP.key).getD []) = true := by
  cases hc : h.certPath with
  | none => exact absurd hc hset.1
  | some p =>
    cases hk : h.keyPath with
    | none => exact absurd hk hset.2
    | some q =>
      have hcert : h.toP.cert = p := by simp [CHost.toP, hc]
      have hkey : h.toP.key = q := by simp [CHost.toP, hk]
      have e : ∀ p, ((f p).bind loadCa).isSome = true ↔ ∃ d, f p = some d ∧ ∃ ca, loadCa d = some ca := by
        intro p
        cases hf : f p with
        | none => simp
        | some d => cases hc : loadCa d <;> simp [hc]
      have hl : (∀ l ∈ h.toP.locs, ∀ p, l.reqca = some p → ((f p).bind loadCa).isSome = true) ↔ ∀ l ∈ h.locs, ∀ p, l.reqcaPath = some p → ∃ d ca, f p = some d ∧ loadCa d = some ca := by
        simp [CHost.toP, e]
      have hp : (∀ r ∈ h.toP.proxies, (∀ p, r.reqca = some p → ((f p).bind loadCa).isSome = true) ∧ ∀ a b, r.cert = some a → r.key = some b → (f a).isSome = true ∧ (f b).isSome = true) ↔
          ∀ r ∈ h.proxies, (∀ p, r.reqcaPath = some p → ∃ d ca, f p = some d ∧ loadCa d = some ca) ∧
            ∀ a b, r.certPath = some a → r.keyPath = some b → (∃ d, f a = some d) ∧ ∃ d, f b = some d := by
        simp [CHost.toP, e, Option.isSome_iff_exists]
      have ho : (∀ o, h.toP.ocsp = some o → (f o).isSome = true) ↔ ∀ p, h.ocspPath = some p → ∃ d, f p = some d := by
        simp [CHost.toP, ← Option.isSome_iff_exists]
      unfold ServerUses HostLoads
      rw [hl, hp, ho, hcert, hkey]
      have hk2 : (∃ p cert x, h.certPath = some p ∧ f p = some cert ∧ CertFile lib cert x ∧ (privsep = true → lib.kind (lib.pub x) ≠ .other) ∧
            (privsep = false → ∃ q key k, h.keyPath = some q ∧ f q = some key ∧ lib.key key = some k ∧ lib.keyPub k = lib.pub x)) ↔
          ((f p).isSome = true ∧ (privsep = false → (f q).isSome = true)) ∧
            configureKeypair lib privsep ((f p).getD []) (if privsep then [] else (f q).getD []) = true := by
        cases hfp : f p with
        | none =>
          constructor
          · rintro ⟨p', cert, x, e, e2, _⟩
            rw [hc] at e
            cases e
            rw [hfp] at e2
            cases e2
          · rintro ⟨⟨h1, _⟩, _⟩
            cases h1
        | some cert =>
          cases privsep with
          | true =>
            rw [(C113_checked _ _).2]
            constructor
            · rintro ⟨p', cert', x, e, e2, e3, e4, _⟩
              rw [hc] at e
              cases e
              rw [hfp] at e2
              cases e2
              exact ⟨by simp, x, e3, e4 rfl⟩
            · rintro ⟨_, x, e3, e4⟩
              exact ⟨p, cert, x, hc, hfp, e3, fun _ => e4, by simp⟩
          | false =>
            rw [if_neg (by decide)]
            rw [(C113_checked _ _).1]
            constructor
            · rintro ⟨p', cert', x, e, e2, e3, _, e4⟩
              rw [hc] at e
              cases e
              rw [hfp] at e2
              cases e2
              obtain ⟨q', key, k, a1, a2, a3, a4⟩ := e4 rfl
              rw [hk] at a1
              cases a1
              rw [a2]
              exact ⟨by simp, x, k, e3, a3, a4⟩
            · rintro ⟨⟨_, hq⟩, x, k, e3, a3, a4⟩
              have hq := hq rfl
              cases hfq : f q with
              | none => rw [hfq] at hq; cases hq
              | some key =>
                rw [hfq] at a3
                exact ⟨p, cert, x, hc, hfp, e3, by simp, fun _ => ⟨q, key, k, hk, hfq, a3, a4⟩⟩
      rw [hk2]
      constructor
      · rintro ⟨⟨⟨a1, a2⟩, a3⟩, a4, a5, a6⟩
        exact ⟨⟨a1, a2, a4, a5, a6⟩, a3⟩
      · rintro ⟨⟨a1, a2, a4, a5, a6⟩, a3⟩
        exact ⟨⟨⟨a1, a2⟩, a3⟩, a4, a5, a6⟩

theorem dirsOpen_iff (f : Bytes → Option Bytes) (loadCa : Bytes → Option Nat) (openDir : Bytes → Option Int) (privsep : Bool) (h : CHost) :
    (∃ v, loadHost openDir (expHost f loadCa privsep h.toP) = some v) ↔ DirsOpen openDir h := by
  unfold loadHost DirsOpen
  have : (∃ ls, loadAll (loadLoc openDir) (expHost f loadCa privsep h.toP).locs = some ls) ↔ ∀ l ∈ h.locs, l.dir ≠ [] → ∃ fd, openDir l.dir = some fd := by
    rw [loadAll_some_iff]
    simp only [expHost, CHost.toP, List.map_map, List.mem_map, Function.comp, forall_exists_index, and_imp, forall_apply_eq_imp_iff₂]
    refine forall_congr' fun l => forall_congr' fun _ => ?_
    unfold loadLoc locFd
    have e : (expLoc f loadCa { loc := l.wire, reqca := l.reqcaPath, params := l.params : PLoc CLoc (Bytes × Bytes) }).loc.dir = l.dir := rfl
    rw [e]
    by_cases hd : l.dir = []
    · simp [hd]
    · rw [if_neg hd]
      cases openDir l.dir <;> simp [hd]
  rw [← this]
  cases loadAll (loadLoc openDir) (expHost f loadCa privsep h.toP).locs <;> simp

/-- **C139.** A server process takes a configuration exactly when it can use every file, as it reads them, and open the directories; it holds the certificates it read then. -/
theorem C139_server [DecidableEq P] (hd : Digests lib) (junk : Nat → Bytes) (hj : ∀ n, (junk n).length = n) (loadCa : Bytes → Option Nat) (openDir : Bytes → Option Int) (privsep : Bool)
    (c : CConf) (hset : ∀ h ∈ c.hosts, h.certPath ≠ none ∧ h.keyPath ≠ none) (hm : MimesFit (c.toP privsep)) (opened : Bytes → Option Bytes) (sup : LAddr → Bool)
    (ms : List (Proc × CMsg CLoc (Bytes × Bytes) CProxy LAddr FcgiEp)) (hsent : mainConfigure opened sup (c.toP privsep) = some ms) (v : SeenFiles) (st0 : Worker) :
    ((∀ h ∈ c.hosts, ServerUses lib v.read loadCa privsep h ∧ DirsOpen openDir h) →
      ∃ st, serverTakes lib junk loadCa openDir privsep v st0 (forProc .server ms) = .ok st ∧ st.done = st0.done + 1 ∧
        st.hosts.map (fun h => (h.domain, h.cert)) = c.hosts.map fun h => (h.domain, h.certPath.bind v.read)) ∧
    (¬ (∀ h ∈ c.hosts, ServerUses lib v.read loadCa privsep h ∧ DirsOpen openDir h) →
      serverTakes lib junk loadCa openDir privsep v st0 (forProc .server ms) = .err) := by
  let g : Bytes → Option Bytes := fun p => some ((v.read p).getD [])
  let ca : Bytes → Option Nat := fun d => some ((loadCa d).getD 0)
  have hg : ∀ p d, v.read p = some d → g p = some d := fun p d e => by simp [g, e]
  have hca : ∀ p d, loadCa p = some d → ca p = some d := fun p d e => by simp [ca, e]
  obtain ⟨ms', hms'⟩ := (mainConfigure_iff g sup (c.toP privsep)).2 (by
    intro h _
    simp [g])
  have hsame : forProc .server ms = forProc .server ms' := by rw [(mainConfigure_some hsent).1, (mainConfigure_some hms').1]
  obtain ⟨st, k1, k2, _, k4⟩ := C38_server g ca (fun _ => none) (fun _ => none : Bytes → Option Unit) sup (c.toP privsep) ms' hms' hm (by
    intro h _ p _
    simp [g, ca]) st0
  rw [← hsame] at k1
  obtain ⟨r1, r2⟩ := recvAll_ext v.read g loadCa ca (fun _ => none) (fun _ => none : Bytes → Option Unit) hg hca _ st0 st k1
  rw [server_loads v.read loadCa opened sup (c.toP privsep) ms hsent] at r1 r2
  have hloads : (∀ h ∈ (c.toP privsep).hosts, HostLoads v.read loadCa (c.toP privsep).privsep h) ↔ ∀ h ∈ c.hosts, HostLoads v.read loadCa privsep h.toP := by
    simp [CConf.toP]
  rw [hloads] at r1 r2
  have hhosts : st.hosts = c.hosts.map fun h => expHost g ca privsep h.toP := by
    rw [k2.2.2.2.2.2]
    simp [CConf.toP]
  have hdone : configureDoneOk lib junk openDir privsep st = true ↔
      (∀ h ∈ c.hosts, configureKeypair lib privsep ((v.read h.toP.cert).getD []) (if privsep then [] else (v.read h.toP.key).getD []) = true) ∧ ∀ h ∈ c.hosts, DirsOpen openDir h := by
    unfold configureDoneOk
    obtain ⟨t, ht⟩ := workerTypes_some st (by rw [k2.2.1]; exact hm)
    rw [ht]
    simp only [Option.isSome_some, Bool.true_and, Bool.and_eq_true]
    rw [setupTls_iff hd junk hj]
    have e2 : (loadVhosts openDir st.hosts).isSome = true ↔ ∀ h ∈ c.hosts, DirsOpen openDir h := by
      rw [Option.isSome_iff_exists]
      unfold loadVhosts
      rw [loadAll_some_iff, hhosts]
      simp only [List.mem_map, forall_exists_index, and_imp, forall_apply_eq_imp_iff₂]
      exact forall_congr' fun h => forall_congr' fun _ => dirsOpen_iff g ca openDir privsep h
    rw [e2, hhosts]
    refine and_congr ?_ Iff.rfl
    simp only [List.map_map, List.mem_map, Function.comp, forall_exists_index, and_imp, forall_apply_eq_imp_iff₂]
    refine forall_congr' fun h => forall_congr' fun _ => ?_
    cases privsep <;> simp [expHost, g]
  have hall : (∀ h ∈ c.hosts, ServerUses lib v.read loadCa privsep h ∧ DirsOpen openDir h) ↔
      (∀ h ∈ c.hosts, HostLoads v.read loadCa privsep h.toP) ∧ configureDoneOk lib junk openDir privsep st = true := by
    rw [hdone]
    constructor
    · intro hh
      exact ⟨fun h hm => ((hostUses_iff v.read loadCa privsep h (hset h hm)).1 (hh h hm).1).1, fun h hm => ((hostUses_iff v.read loadCa privsep h (hset h hm)).1 (hh h hm).1).2,
        fun h hm => (hh h hm).2⟩
    · rintro ⟨a, b, d⟩ h hm
      exact ⟨(hostUses_iff v.read loadCa privsep h (hset h hm)).2 ⟨a h hm, b h hm⟩, d h hm⟩
  rw [hall]
  unfold serverTakes
  by_cases hl : ∀ h ∈ c.hosts, HostLoads v.read loadCa privsep h.toP
  · rw [r1 hl]
    dsimp only
    by_cases hc : configureDoneOk lib junk openDir privsep st = true
    · rw [if_pos hc]
      refine ⟨fun _ => ⟨st, rfl, k4, ?_⟩, fun hn => absurd ⟨hl, hc⟩ hn⟩
      rw [hhosts, List.map_map]
      apply List.map_congr_left
      intro h hh
      cases hcp : h.certPath with
      | none => exact absurd hcp (hset h hh).1
      | some p =>
        have := (hl h hh).1
        simp only [Function.comp, expHost, CHost.toP, hcp, Option.getD_some, Option.bind_some, Prod.mk.injEq, g] at this ⊢
        cases e : v.read p with
        | none => rw [e] at this; cases this
        | some d => simp
    · rw [if_neg hc]
      exact ⟨fun hh => absurd hh.2 hc, fun _ => rfl⟩
  · rw [r2 hl]
    exact ⟨fun hh => absurd hh.1 hl, fun _ => rfl⟩

/-! ## The crypto process -/

theorem crypto_hosts {L E PR AD F C : Type} (f : Bytes → Option Bytes) (ca : Bytes → Option C) (hash : Bytes → Option Bytes) (loadKey : Bytes → Option K) (hs : List (PHost L E PR AD)) :
    ∀ s : WState L E PR AD F C K, s.pki = .null →
      ((∀ h ∈ hs, ((f h.cert).bind hash).isSome = true ∧ ((f h.key).bind loadKey).isSome = true) →
        ∃ st, recvAll f ca hash loadKey .crypto s (hs.flatMap (hostMsgsC true) ++ [.fin]) = .ok st ∧ st.pki = .null ∧ st.done = s.done + 1) ∧
      (¬ (∀ h ∈ hs, ((f h.cert).bind hash).isSome = true ∧ ((f h.key).bind loadKey).isSome = true) →
        recvAll f ca hash loadKey .crypto s (hs.flatMap (hostMsgsC true) ++ [.fin]) = .err) := by
  induction hs with
  | nil => intro s h; exact ⟨fun _ => ⟨_, rfl, h, rfl⟩, fun hn => absurd (by simp) hn⟩
  | cons h r ih =>
    intro s hs
    rw [List.flatMap_cons]
    simp only [hostMsgsC, if_true, List.append_assoc, List.cons_append, List.nil_append]
    rw [recvAll]
    cases hc : (f h.cert).bind hash with
    | none =>
      refine ⟨fun hh => absurd (hh h (by simp)).1 (by simp [hc]), fun _ => ?_⟩
      simp [configRecv, cryptoRecvKp, hs, hc]
    | some x =>
      have e1 : configRecv f ca hash loadKey .crypto s (.cert h.cert : CMsg L E PR AD F) = .ok { s with pkis := s.pkis ++ [(x, none)], pki := .last } := by
        simp [configRecv, cryptoRecvKp, hs, hc]
      rw [e1]
      dsimp only
      rw [recvAll]
      cases hk : (f h.key).bind loadKey with
      | none =>
        refine ⟨fun hh => absurd (hh h (by simp)).2 (by simp [hk]), fun _ => ?_⟩
        simp [configRecv, cryptoRecvKp, hk]
      | some k =>
        have e2 : configRecv f ca hash loadKey .crypto { s with pkis := s.pkis ++ [(x, none)], pki := .last } (.key h.key : CMsg L E PR AD F) =
            .ok { s with pkis := modLast (fun p => (p.1, some k)) (s.pkis ++ [(x, none)]), pki := .null } := by
          simp [configRecv, cryptoRecvKp, hk]
        rw [e2]
        dsimp only
        obtain ⟨a, b⟩ := ih { s with pkis := modLast (fun p => (p.1, some k)) (s.pkis ++ [(x, none)]), pki := .null } rfl
        refine ⟨fun hh => a fun h' hm => hh h' (by simp [hm]), fun hn => b fun hh => hn ?_⟩
        intro h' hm
        rcases List.mem_cons.1 hm with rfl | hm
        · exact ⟨by simp [hc], by simp [hk]⟩
        · exact hh h' hm

/-- **C139.** The crypto process takes a configuration exactly when it can use every certificate and key, as it reads them (without the crypto process in use: always). -/
theorem C139_crypto (hd : Digests lib) (junk : Bytes) (hj : junk.length = 128) (privsep : Bool)
    (c : CConf) (hset : ∀ h ∈ c.hosts, h.certPath ≠ none ∧ h.keyPath ≠ none) (opened : Bytes → Option Bytes) (sup : LAddr → Bool)
    (ms : List (Proc × CMsg CLoc (Bytes × Bytes) CProxy LAddr FcgiEp)) (hsent : mainConfigure opened sup (c.toP privsep) = some ms) (v : SeenFiles)
    (st0 : CryptoConf K) (h0 : st0.pki = .null) :
    ((privsep = true → ∀ h ∈ c.hosts, CryptoUses lib v.read h) →
      ∃ st, cryptoTakes lib junk v st0 (forProc .crypto ms) = .ok st ∧ st.pki = .null ∧ st.done = st0.done + 1) ∧
    (¬ (privsep = true → ∀ h ∈ c.hosts, CryptoUses lib v.read h) → cryptoTakes lib junk v st0 (forProc .crypto ms) = .err) := by
  unfold cryptoTakes
  rw [(mainConfigure_some hsent).2.1]
  have e : recvAll v.read (fun _ => none) (fun d => (sslPubkeyHash lib junk d).val?.bind id) lib.key .crypto st0
      ([.start] ++ ((c.toP privsep).hosts.flatMap (hostMsgsC (c.toP privsep).privsep) ++ [.fin])) =
      recvAll v.read (fun _ => none) (fun d => (sslPubkeyHash lib junk d).val?.bind id) lib.key .crypto { purge st0 with h := .null, p := .null }
        ((c.toP privsep).hosts.flatMap (hostMsgsC (c.toP privsep).privsep) ++ [.fin]) := rfl
  rw [e]
  clear e
  have hp : (purge st0).pki = .null := by simp [purge, h0]
  cases privsep with
  | false =>
    have : ∀ hs : List (PHost CLoc (Bytes × Bytes) CProxy LAddr), (hs.flatMap (hostMsgsC false) : List (CMsg CLoc (Bytes × Bytes) CProxy LAddr FcgiEp)) = [] := by
      intro hs
      induction hs with
      | nil => rfl
      | cons a r ih => rw [List.flatMap_cons, ih]; rfl
    have e2 : (c.toP false).privsep = false := rfl
    rw [e2, this]
    exact ⟨fun _ => ⟨_, rfl, hp, rfl⟩, fun hn => absurd (by simp) hn⟩
  | true =>
    have e2 : (c.toP true).privsep = true := rfl
    rw [e2]
    have hiff : (true = true → ∀ h ∈ c.hosts, CryptoUses lib v.read h) ↔
        ∀ h ∈ (c.toP true).hosts, ((v.read h.cert).bind fun d => (sslPubkeyHash lib junk d).val?.bind id).isSome = true ∧ ((v.read h.key).bind lib.key).isSome = true := by
      simp only [CConf.toP, List.mem_map, forall_exists_index, and_imp, forall_apply_eq_imp_iff₂, forall_const]
      refine forall_congr' fun h => forall_congr' fun hh => ?_
      obtain ⟨s1, s2⟩ := hset h hh
      cases hc : h.certPath with
      | none => exact absurd hc s1
      | some p =>
        cases hk : h.keyPath with
        | none => exact absurd hk s2
        | some q =>
          have hcert : h.toP.cert = p := by simp [CHost.toP, hc]
          have hkey : h.toP.key = q := by simp [CHost.toP, hk]
          rw [hcert, hkey]
          have hh : ∀ d, ((sslPubkeyHash lib junk d).val?.bind id).isSome = true ↔ ∃ x chain, lib.pems d = x :: chain := by
            intro d
            rw [sslPubkeyHash_eq hd junk d hj]
            cases hx : lib.pems d with
            | nil => simp [Res.val?]
            | cons x chain =>
              obtain ⟨dg, e, _⟩ := hd (lib.pub x)
              simp [Res.val?, e]
          constructor
          · rintro ⟨p', q', cert, key, x, chain, k, a1, a2, a3, a4, a5, a6⟩
            rw [hc] at a1
            rw [hk] at a2
            cases a1
            cases a2
            rw [a3, a5]
            exact ⟨(hh cert).2 ⟨x, chain, a4⟩, by simp [a6]⟩
          · rintro ⟨a1, a2⟩
            cases hr : v.read p with
            | none => rw [hr] at a1; cases a1
            | some cert =>
              cases hrk : v.read q with
              | none => rw [hrk] at a2; cases a2
              | some key =>
                rw [hr] at a1
                rw [hrk] at a2
                obtain ⟨x, chain, hx⟩ := (hh cert).1 a1
                cases hkk : lib.key key with
                | none => simp [hkk] at a2
                | some k => exact ⟨p, q, cert, key, x, chain, k, hc, hk, hr, hx, hrk, hkk⟩
    rw [hiff]
    exact crypto_hosts v.read (fun _ => none) _ lib.key (c.toP true).hosts _ hp

/-! ## All of gmid -/

theorem outcomes_ok {α β : Type} (f : α → Res β) (l : List α) (good : α → Prop) (Q : α → β → Prop)
    (h : ∀ a ∈ l, (good a → ∃ b, f a = .ok b ∧ Q a b) ∧ (¬ good a → f a = .err)) :
    ((∀ a ∈ l, good a) → ∃ bs, outcomes (l.map f) = .ok bs ∧ bs.length = l.length ∧ ∀ b ∈ bs, ∃ a ∈ l, f a = .ok b ∧ Q a b) ∧
    (¬ (∀ a ∈ l, good a) → outcomes (l.map f) = .err) := by
  induction l with
  | nil => exact ⟨fun _ => ⟨[], rfl, rfl, by simp⟩, fun hn => absurd (by simp) hn⟩
  | cons a r ih =>
    obtain ⟨i1, i2⟩ := ih fun b hb => h b (by simp [hb])
    obtain ⟨h1, h2⟩ := h a (by simp)
    rw [List.map_cons]
    by_cases hg : good a
    · obtain ⟨b, hb, hq⟩ := h1 hg
      rw [hb, outcomes]
      by_cases hr : ∀ a ∈ r, good a
      · obtain ⟨bs, j1, j2, j3⟩ := i1 hr
        rw [j1]
        refine ⟨fun _ => ⟨b :: bs, rfl, by simp [j2], ?_⟩, fun hn => absurd ?_ hn⟩
        · intro x hx
          rcases List.mem_cons.1 hx with rfl | hx
          · exact ⟨a, by simp, hb, hq⟩
          · obtain ⟨y, hy, hy2⟩ := j3 x hx
            exact ⟨y, by simp [hy], hy2⟩
        · intro x hx
          rcases List.mem_cons.1 hx with rfl | hx
          · exact hg
          · exact hr x hx
      · rw [i2 hr]
        exact ⟨fun hh => absurd (fun x hx => hh x (by simp [hx])) hr, fun _ => rfl⟩
    · rw [h2 hg, outcomes]
      refine ⟨fun hh => absurd (hh a (by simp)) hg, fun _ => ?_⟩
      by_cases hr : ∀ a ∈ r, good a
      · obtain ⟨bs, j1, _⟩ := i1 hr
        rw [j1]
      · rw [i2 hr]

/-- **C139.** A file that does not parse changes nothing. -/
theorem C139_parse_failure [DecidableEq P] (junk : Nat → Bytes) (junkH : Bytes) (loadCa : Bytes → Option Nat) (privsep : Bool) (sup : LAddr → Bool) (opened : Bytes → Option Bytes)
    (servers : List ServerNow) (crypto : CryptoConf K) (cview : SeenFiles) :
    hupAll lib junk junkH loadCa privsep sup opened servers crypto cview none = .kept := rfl

/-- **C139 (partial).** After a SIGHUP with a file that parses gmid goes on exactly when everybody can use everything that the file names, as they find it when they read it: then every process has the
new configuration, with the certificates as they were read.  Otherwise it ends, in a defined manner: it does not go on with the configuration it had.  Missing: the first half of
the statement, that gmid goes on in every case, is false (C139_ends). -/
theorem C139_goes_on_partial [DecidableEq P] (hd : Digests lib) (junk : Nat → Bytes) (hj : ∀ n, (junk n).length = n) (junkH : Bytes) (hjH : junkH.length = 128)
    (loadCa : Bytes → Option Nat) (privsep : Bool) (sup : LAddr → Bool) (opened : Bytes → Option Bytes) (servers : List ServerNow) (crypto : CryptoConf K) (h0 : crypto.pki = .null)
    (cview : SeenFiles) (c : CConf) (hset : ∀ h ∈ c.hosts, h.certPath ≠ none ∧ h.keyPath ≠ none) (hm : MimesFit (c.toP privsep)) :
    (AllUsable lib loadCa privsep opened servers cview c →
      ∃ ss k, hupAll lib junk junkH loadCa privsep sup opened servers crypto cview (some c) = .took ss k ∧ ss.length = servers.length ∧ k.done = crypto.done + 1 ∧
        ∀ st ∈ ss, ∃ s ∈ servers, st.done = s.st.done + 1 ∧ st.hosts.map (fun h => (h.domain, h.cert)) = c.hosts.map fun h => (h.domain, h.certPath.bind s.view.read)) ∧
    (¬ AllUsable lib loadCa privsep opened servers cview c → hupAll lib junk junkH loadCa privsep sup opened servers crypto cview (some c) = .ended) := by
  have hopen : (∃ ms, mainConfigure opened sup (c.toP privsep) = some ms) ↔ ∀ h ∈ c.hosts, MainOpens opened h := by
    rw [mainConfigure_iff]
    unfold Opens MainOpens
    simp only [CConf.toP, List.mem_map, forall_exists_index, and_imp, forall_apply_eq_imp_iff₂]
    refine forall_congr' fun h => forall_congr' fun hh => ?_
    obtain ⟨s1, s2⟩ := hset h hh
    cases hc : h.certPath with
    | none => exact absurd hc s1
    | some p =>
      cases hk : h.keyPath with
      | none => exact absurd hk s2
      | some q => simp [CHost.toP, hc, hk, Option.isSome_iff_exists]
  unfold hupAll
  dsimp only
  cases hs : mainConfigure opened sup (c.toP privsep) with
  | none =>
    refine ⟨fun hu => ?_, fun _ => rfl⟩
    obtain ⟨ms, e⟩ := hopen.2 fun h hh => (hu h hh).1
    rw [hs] at e
    cases e
  | some ms =>
    have hmain := hopen.1 ⟨ms, hs⟩
    dsimp only
    obtain ⟨o1, o2⟩ := outcomes_ok (fun s : ServerNow => serverTakes lib junk loadCa s.openDir privsep s.view s.st (forProc .server ms)) servers
      (fun s => ∀ h ∈ c.hosts, ServerUses lib s.view.read loadCa privsep h ∧ DirsOpen s.openDir h)
      (fun s st => st.done = s.st.done + 1 ∧ st.hosts.map (fun h => (h.domain, h.cert)) = c.hosts.map fun h => (h.domain, h.certPath.bind s.view.read))
      (fun s _ => C139_server hd junk hj loadCa s.openDir privsep c hset hm opened sup ms hs s.view s.st)
    obtain ⟨c1, c2⟩ := C139_crypto hd junkH hjH privsep c hset opened sup ms hs cview crypto h0
    by_cases hc : privsep = true → ∀ h ∈ c.hosts, CryptoUses lib cview.read h
    · obtain ⟨k, k1, _, k3⟩ := c1 hc
      rw [k1]
      dsimp only
      by_cases hv : ∀ s ∈ servers, ∀ h ∈ c.hosts, ServerUses lib s.view.read loadCa privsep h ∧ DirsOpen s.openDir h
      · obtain ⟨ss, j1, j2, j3⟩ := o1 hv
        rw [j1]
        refine ⟨fun _ => ⟨ss, k, rfl, j2, k3, ?_⟩, fun hn => absurd ?_ hn⟩
        · intro st hst
          obtain ⟨s, a, _, b⟩ := j3 st hst
          exact ⟨s, a, b⟩
        · intro h hh
          exact ⟨hmain h hh, fun s hs => hv s hs h hh, fun hp => hc hp h hh⟩
      · rw [o2 hv]
        exact ⟨fun hu => absurd (fun s hs h hh => (hu h hh).2.1 s hs) hv, fun _ => rfl⟩
    · rw [c2 hc]
      dsimp only
      refine ⟨fun hu => absurd (fun hp h hh => (hu h hh).2.2 hp) hc, fun _ => ?_⟩
      by_cases hv : ∀ s ∈ servers, ∀ h ∈ c.hosts, ServerUses lib s.view.read loadCa privsep h ∧ DirsOpen s.openDir h
      · obtain ⟨ss, j1, _⟩ := o1 hv
        rw [j1]
      · rw [o2 hv]

end

/-! ## Witnesses -/

/-- the files, as nobody changes them -/
def stillFiles (f : Bytes → Option Bytes) : SeenFiles := fun p => ⟨((f p).getD []).length, f p⟩

/-- the outcome in short -/
def HupOut.tag {K : Type} : HupOut K → Nat
  | .kept => 0
  | .took _ _ => 1
  | .ended => 2
  | .undefined => 3

/-- a reload of the configuration of C112 with two server processes -/
def exHup (opened : Bytes → Option Bytes) (a b c : SeenFiles) : Nat :=
  HupOut.tag (hupAll exLib exJunk (exJunk 128) exDepCa2 true (fun _ => true) opened [⟨{}, a, exDepDir⟩, ⟨{}, b, exDepDir⟩] ({} : CryptoConf UInt8) c (some exDepC))

/-- **C139 (witness).** All is well and the configuration is taken.  If the file of CAs is not there, or is no longer one of CAs, or the certificate is shortened just before one of the two server processes
reads it, then gmid ends, and nothing is served any more. -/
theorem C139_ends :
    exHup (exTFiles 1 1 (some [100])) (stillFiles (exTFiles 1 1 (some [100]))) (stillFiles (exTFiles 1 1 (some [100]))) (stillFiles (exTFiles 1 1 (some [100]))) = 1 ∧
    exHup (exTFiles 1 1 none) (stillFiles (exTFiles 1 1 none)) (stillFiles (exTFiles 1 1 none)) (stillFiles (exTFiles 1 1 none)) = 2 ∧
    exHup (exTFiles 1 1 (some [5])) (stillFiles (exTFiles 1 1 (some [5]))) (stillFiles (exTFiles 1 1 (some [5]))) (stillFiles (exTFiles 1 1 (some [5]))) = 2 ∧
    exHup (exTFiles 1 1 (some [100])) (stillFiles (exTFiles 1 1 (some [100]))) (fun p => ⟨1, if p = b%"/c" then some [] else exTFiles 1 1 (some [100]) p⟩)
      (stillFiles (exTFiles 1 1 (some [100]))) = 2 := by decide +kernel

/-- C139_goes_on_partial applies in both ways -/
example : AllUsable exLib exDepCa2 true (exTFiles 1 1 (some [100])) [⟨{}, stillFiles (exTFiles 1 1 (some [100])), exDepDir⟩, ⟨{}, stillFiles (exTFiles 1 1 (some [100])), exDepDir⟩]
      (stillFiles (exTFiles 1 1 (some [100]))) exDepC ∧
    ¬ AllUsable exLib exDepCa2 true (exTFiles 1 1 none) [⟨{}, stillFiles (exTFiles 1 1 none), exDepDir⟩, ⟨{}, stillFiles (exTFiles 1 1 none), exDepDir⟩]
      (stillFiles (exTFiles 1 1 none)) exDepC := by
  have w := C139_ends
  have hm := exDep_other.2
  constructor
  · apply Classical.byContradiction
    intro hn
    have := (C139_goes_on_partial exLib_digests.1 exJunk exJunk_length (exJunk 128) (exJunk_length _) exDepCa2 true (fun _ => true) _ _ ({} : CryptoConf UInt8) rfl _ exDepC exDep_set hm).2 hn
    have w1 := w.1
    unfold exHup at w1
    rw [this] at w1
    cases w1
  · intro hu
    obtain ⟨ss, k, this, _⟩ := (C139_goes_on_partial exLib_digests.1 exJunk exJunk_length (exJunk 128) (exJunk_length _) exDepCa2 true (fun _ => true) _ _ ({} : CryptoConf UInt8) rfl _ exDepC exDep_set hm).1 hu
    have w1 := w.2.1
    unfold exHup at w1
    rw [this] at w1
    cases w1

/-- a certificate that is being appended to is taken without what is new; one that is written anew from the start, with the old length at least, is taken in part -/
example : loadFile ⟨2, some [1, 2, 3]⟩ = some [1, 2] ∧ loadFile ⟨2, some [9]⟩ = none ∧ loadFile ⟨2, some [9, 8, 7]⟩ = some [9, 8] := by decide

end Gmid.Props
