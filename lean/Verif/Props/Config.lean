import Verif.Model.Config
import Verif.Spec.Config

/-!
# C38, C39: the configuration reaches the other processes, and the keys only the crypto process
-/

set_option autoImplicit false

namespace Gmid.Props

open Spec

variable {L E P AD F C K : Type}

theorem modLast_concat {α : Type} (f : α → α) (xs : List α) (x : α) : modLast f (xs ++ [x]) = xs ++ [f x] := by
  induction xs with
  | nil => rfl
  | cons a r ih =>
    cases r with
    | nil => rfl
    | cons b t => simp only [List.cons_append] at ih ⊢; rw [modLast, ih]; simp

theorem recvAll_append (files : Bytes → Option Bytes) (loadCa : Bytes → Option C) (hash : Bytes → Option Bytes) (loadKey : Bytes → Option K)
    (me : Proc) (a b : List (CMsg L E P AD F)) :
    ∀ s s' : WState L E P AD F C K, recvAll files loadCa hash loadKey me s a = .ok s' →
      recvAll files loadCa hash loadKey me s (a ++ b) = recvAll files loadCa hash loadKey me s' b := by
  induction a with
  | nil => intro s s' h; simp only [recvAll, Res.ok.injEq] at h; rw [h]; rfl
  | cons m r ih =>
    intro s s' h
    rw [List.cons_append, recvAll]
    rw [recvAll] at h
    cases hm : configRecv files loadCa hash loadKey me s m with
    | ok t => rw [hm] at h; exact ih t s' h
    | err => rw [hm] at h; cases h
    | ub => rw [hm] at h; cases h

/-- a run of groups of messages, one group for each element of a list -/
theorem recvAll_append_ne (files : Bytes → Option Bytes) (loadCa : Bytes → Option C) (hash : Bytes → Option Bytes) (loadKey : Bytes → Option K)
    (me : Proc) (a b : List (CMsg L E P AD F)) (s : WState L E P AD F C K) (h : ∀ s', recvAll files loadCa hash loadKey me s a ≠ .ok s') :
    ∀ s', recvAll files loadCa hash loadKey me s (a ++ b) ≠ .ok s' := by
  induction a generalizing s with
  | nil => exact absurd rfl (h s)
  | cons m r ih =>
    intro s'
    rw [List.cons_append, recvAll]
    cases e : configRecv files loadCa hash loadKey me s m with
    | ok s1 => exact ih s1 (fun s2 h2 => h s2 (by rw [recvAll, e]; exact h2)) s'
    | err => simp
    | ub => simp

theorem recvAll_list {α : Type} (files : Bytes → Option Bytes) (loadCa : Bytes → Option C) (hash : Bytes → Option Bytes) (loadKey : Bytes → Option K)
    (me : Proc) (ms : α → List (CMsg L E P AD F)) (Inv : List α → WState L E P AD F C K → Prop) (xs : List α)
    (step : ∀ pre x s, x ∈ xs → Inv pre s → ∃ s', recvAll files loadCa hash loadKey me s (ms x) = .ok s' ∧ Inv (pre ++ [x]) s') :
    ∀ pre s, Inv pre s → ∃ s', recvAll files loadCa hash loadKey me s (xs.flatMap ms) = .ok s' ∧ Inv (pre ++ xs) s' := by
  induction xs with
  | nil => intro pre s h; exact ⟨s, rfl, by simpa using h⟩
  | cons x r ih =>
    intro pre s h
    obtain ⟨s1, h1, i1⟩ := step pre x s (by simp) h
    obtain ⟨s2, h2, i2⟩ := ih (fun p y t hy => step p y t (by simp [hy])) (pre ++ [x]) s1 i1
    refine ⟨s2, ?_, by simpa using i2⟩
    rw [List.flatMap_cons, recvAll_append _ _ _ _ _ _ _ _ _ h1]; exact h2

theorem recvAll_then (files : Bytes → Option Bytes) (loadCa : Bytes → Option C) (hash : Bytes → Option Bytes) (loadKey : Bytes → Option K)
    (me : Proc) (a b : List (CMsg L E P AD F)) (s : WState L E P AD F C K) (Q R : WState L E P AD F C K → Prop)
    (ha : ∃ s', recvAll files loadCa hash loadKey me s a = .ok s' ∧ Q s')
    (hb : ∀ s', Q s' → ∃ s'', recvAll files loadCa hash loadKey me s' b = .ok s'' ∧ R s'') :
    ∃ s'', recvAll files loadCa hash loadKey me s (a ++ b) = .ok s'' ∧ R s'' := by
  obtain ⟨s', h1, q⟩ := ha
  obtain ⟨s'', h2, r⟩ := hb s' q
  exact ⟨s'', by rw [recvAll_append _ _ _ _ _ _ _ _ _ h1]; exact h2, r⟩

/-! ## What is sent -/

theorem forProc_append (me : Proc) (a b : List (Proc × CMsg L E P AD F)) : forProc me (a ++ b) = forProc me a ++ forProc me b := by
  simp [forProc]

theorem forProc_server_map {α : Type} (f : α → CMsg L E P AD F) (xs : List α) :
    forProc .server (xs.map fun a => (Proc.server, f a)) = xs.map f ∧ forProc .crypto (xs.map fun a => (Proc.server, f a)) = [] := by
  constructor
  · induction xs with
    | nil => rfl
    | cons x r ih => simp only [List.map_cons]; rw [← ih]; rfl
  · induction xs with
    | nil => rfl
    | cons x r ih => simp only [List.map_cons]; rw [← ih]; rfl

theorem sendAll_for {α : Type} (f : α → Option (List (Proc × CMsg L E P AD F))) (me : Proc) (g : α → List (CMsg L E P AD F)) (xs : List α)
    (h : ∀ x ∈ xs, ∀ ms, f x = some ms → forProc me ms = g x) : ∀ ms, sendAll f xs = some ms → forProc me ms = xs.flatMap g := by
  induction xs with
  | nil => intro ms hm; simp only [sendAll, Option.some.injEq] at hm; subst hm; rfl
  | cons x r ih =>
    intro ms hm
    rw [sendAll] at hm
    cases hx : f x with
    | none => rw [hx] at hm; cases hm
    | some a =>
      rw [hx] at hm
      cases hr : sendAll f r with
      | none => rw [hr] at hm; cases hm
      | some b =>
        rw [hr] at hm
        simp only [Option.map_some, Option.some.injEq] at hm
        subst hm
        rw [forProc_append, h x (by simp) a hx, ih (fun y hy => h y (by simp [hy])) b hr]; rfl

theorem sendAll_all {α β : Type} (f : α → Option (List β)) (xs : List α) : ∀ ms, sendAll f xs = some ms → ∀ x ∈ xs, ∃ m, f x = some m := by
  induction xs with
  | nil => intro ms _ x hx; cases hx
  | cons y r ih =>
    intro ms hm x hx
    rw [sendAll] at hm
    cases hy : f y with
    | none => rw [hy] at hm; cases hm
    | some a =>
      rw [hy] at hm
      cases hr : sendAll f r with
      | none => rw [hr] at hm; cases hm
      | some b =>
        rcases List.mem_cons.mp hx with h | h
        · subst h; exact ⟨a, hy⟩
        · exact ih b hr x h

/-- the messages a server process gets for a location -/
def locMsgs (l : PLoc L E) : List (CMsg L E P AD F) := CMsg.loc l.loc l.reqca :: l.params.map CMsg.env

/-- for a relay -/
def proxyMsgs (p : PProxy P) : List (CMsg L E P AD F) :=
  CMsg.proxy p.proxy p.reqca :: (match p.cert, p.key with | some c, some k => [.proxyCert c, .proxyKey k] | _, _ => [])

/-- for a host -/
def hostMsgs (privsep : Bool) (h : PHost L E P AD) : List (CMsg L E P AD F) :=
  [CMsg.host h.domain] ++ (CMsg.cert h.cert :: (if privsep then [] else [CMsg.key h.key])) ++ h.ocsp.toList.map CMsg.ocsp ++
    h.addrs.map CMsg.hostAddr ++ h.locs.flatMap locMsgs ++ h.aliases.map CMsg.alias ++ h.proxies.flatMap proxyMsgs

/-- the messages the crypto process gets for a host -/
def hostMsgsC (privsep : Bool) (h : PHost L E P AD) : List (CMsg L E P AD F) :=
  if privsep then [CMsg.cert h.cert, CMsg.key h.key] else []

theorem openSend_some {files : Bytes → Option Bytes} {to : Proc} {mk : Bytes → CMsg L E P AD F} {path : Bytes} {ms : List (Proc × CMsg L E P AD F)}
    (h : openSend files to mk path = some ms) : ms = [(to, mk path)] ∧ (files path).isSome := by
  unfold openSend at h
  cases hf : files path with
  | none => rw [hf] at h; cases h
  | some d => rw [hf] at h; simp only [Option.some.injEq] at h; exact ⟨h.symm, rfl⟩

theorem sendLoc_some {files : Bytes → Option Bytes} {l : PLoc L E} {ms : List (Proc × CMsg L E P AD F)} (h : sendLoc files l = some ms) :
    forProc .server ms = locMsgs l ∧ forProc .crypto ms = [] := by
  unfold sendLoc at h
  by_cases hr : caMissing files l.reqca = true
  · simp only [hr, if_true] at h; cases h
  simp only [if_neg hr, Option.some.injEq] at h
  subst h
  have := forProc_server_map (L := L) (E := E) (P := P) (AD := AD) (F := F) CMsg.env l.params
  refine ⟨?_, ?_⟩
  · rw [forProc_append, this.1]; rfl
  · rw [forProc_append, this.2]; rfl

theorem sendProxy_some {files : Bytes → Option Bytes} {p : PProxy P} {ms : List (Proc × CMsg L E P AD F)} (h : sendProxy files p = some ms) :
    forProc .server ms = proxyMsgs p ∧ forProc .crypto ms = [] ∧ (∀ c k, p.cert = some c → p.key = some k → (files c).isSome ∧ (files k).isSome) := by
  unfold sendProxy at h
  by_cases hr : caMissing files p.reqca = true
  · rw [if_pos hr] at h; cases h
  · rw [if_neg hr] at h
    clear hr
    obtain ⟨pr, rq, ct, ky⟩ := p
    cases ct with
    | none => simp only [Option.some.injEq] at h; subst h; exact ⟨rfl, rfl, fun c k hc => by cases hc⟩
    | some c =>
      cases ky with
      | none => simp only [Option.some.injEq] at h; subst h; exact ⟨rfl, rfl, fun c k _ hc => by cases hc⟩
      | some k =>
        simp only at h
        cases ha : openSend (L := L) (E := E) (P := P) (AD := AD) (F := F) files .server .proxyCert c with
        | none => rw [ha] at h; cases h
        | some a =>
          cases hb : openSend (L := L) (E := E) (P := P) (AD := AD) (F := F) files .server .proxyKey k with
          | none => rw [ha, hb] at h; cases h
          | some b =>
            rw [ha, hb] at h
            simp only [Option.some.injEq] at h
            obtain ⟨e1, f1⟩ := openSend_some ha
            obtain ⟨e2, f2⟩ := openSend_some hb
            subst e1 e2 h
            refine ⟨rfl, rfl, fun c' k' hc hk => ?_⟩
            simp only [Option.some.injEq] at hc hk
            subst hc hk
            exact ⟨f1, f2⟩

theorem sendHost_some {files : Bytes → Option Bytes} {privsep : Bool} {h : PHost L E P AD} {ms : List (Proc × CMsg L E P AD F)}
    (hs : sendHost files privsep h = some ms) :
    forProc .server ms = hostMsgs privsep h ∧ forProc .crypto ms = hostMsgsC privsep h ∧
    (files h.cert).isSome ∧ (files h.key).isSome ∧ (∀ o, h.ocsp = some o → (files o).isSome) ∧
    (∀ p ∈ h.proxies, ∀ c k, p.cert = some c → p.key = some k → (files c).isSome ∧ (files k).isSome) := by
  unfold sendHost at hs
  cases hk : sendKp (L := L) (E := E) (P := P) (AD := AD) (F := F) files privsep h.cert h.key with
  | none => rw [hk] at hs; cases hs
  | some kp =>
    rw [hk] at hs
    have hkp : forProc .server kp = (CMsg.cert h.cert :: (if privsep then [] else [CMsg.key h.key])) ∧ forProc .crypto kp = hostMsgsC privsep h ∧
        (files h.cert).isSome ∧ (files h.key).isSome := by
      unfold sendKp at hk
      cases hc : files h.cert with
      | none => rw [hc] at hk; cases hk
      | some d =>
        rw [hc] at hk
        simp only at hk
        cases ho : openSend (L := L) (E := E) (P := P) (AD := AD) (F := F) files (if !privsep then Proc.server else Proc.crypto) .key h.key with
        | none => rw [ho] at hk; cases hk
        | some b =>
          rw [ho] at hk
          obtain ⟨e, f⟩ := openSend_some ho
          simp only [Option.map_some, Option.some.injEq] at hk
          subst e hk
          cases privsep
          · exact ⟨rfl, rfl, rfl, f⟩
          · exact ⟨rfl, rfl, rfl, f⟩
    obtain ⟨k1, k2, k3, k4⟩ := hkp
    simp only at hs
    split at hs
    · cases hs
    · rename_i oc ho
      have hoc : forProc .server oc = h.ocsp.toList.map CMsg.ocsp ∧ forProc .crypto oc = [] ∧ (∀ o, h.ocsp = some o → (files o).isSome) := by
        cases hx : h.ocsp with
        | none => rw [hx] at ho; simp only [Option.some.injEq] at ho; subst ho; exact ⟨rfl, rfl, fun o h => by cases h⟩
        | some path =>
          rw [hx] at ho
          obtain ⟨e, f⟩ := openSend_some ho
          subst e
          refine ⟨rfl, rfl, fun o h => ?_⟩
          simp only [Option.some.injEq] at h; subst h; exact f
      obtain ⟨o1, o2, o3⟩ := hoc
      cases hl : sendAll (sendLoc (P := P) (AD := AD) (F := F) files) h.locs with
      | none => rw [hl] at hs; cases hs
      | some ls =>
        rw [hl] at hs
        simp only at hs
        cases hp : sendAll (sendProxy (L := L) (E := E) (AD := AD) (F := F) files) h.proxies with
        | none => rw [hp] at hs; cases hs
        | some ps =>
          rw [hp] at hs
          simp only [Option.some.injEq] at hs
          have l1 := sendAll_for _ .server locMsgs h.locs (fun x _ ms e => (sendLoc_some e).1) ls hl
          have l2 := sendAll_for _ .crypto (fun _ => []) h.locs (fun x _ ms e => (sendLoc_some e).2) ls hl
          have p1 := sendAll_for _ .server proxyMsgs h.proxies (fun x _ ms e => (sendProxy_some e).1) ps hp
          have p2 := sendAll_for _ .crypto (fun _ => []) h.proxies (fun x _ ms e => (sendProxy_some e).2.1) ps hp
          have a1 := forProc_server_map (L := L) (E := E) (P := P) (AD := AD) (F := F) CMsg.hostAddr h.addrs
          have b1 := forProc_server_map (L := L) (E := E) (P := P) (AD := AD) (F := F) CMsg.alias h.aliases
          subst hs
          refine ⟨?_, ?_, k3, k4, o3, ?_⟩
          · simp only [forProc_append, k1, o1, a1.1, l1, b1.1, p1]; rfl
          · simp only [forProc_append, k2, o2, a1.2, l2, b1.2, p2]
            simp [forProc]
          · intro p hpm
            obtain ⟨m, hm⟩ := sendAll_all _ _ _ hp p hpm
            exact (sendProxy_some hm).2.2

theorem mainConfigure_some {files : Bytes → Option Bytes} {sup : AD → Bool} {c : PConf L E P AD F} {ms : List (Proc × CMsg L E P AD F)}
    (h : mainConfigure files sup c = some ms) :
    forProc .server ms = [.start] ++ ([.logFmt c.logFormat] ++ (c.mime.flatMap (fun m => [.mime m.1 m.2]) ++ ([.protos c.protos] ++
      ((c.addrs.filter sup).flatMap (fun a => [.sock a]) ++ (c.fcgi.flatMap (fun f => [.fcgi f]) ++ (c.hosts.flatMap (hostMsgs c.privsep) ++ [.fin])))))) ∧
    forProc .crypto ms = [.start] ++ (c.hosts.flatMap (hostMsgsC c.privsep) ++ [.fin]) ∧
    ∀ h ∈ c.hosts, (files h.cert).isSome ∧ (files h.key).isSome ∧ (∀ o, h.ocsp = some o → (files o).isSome) ∧
      (∀ p ∈ h.proxies, ∀ c k, p.cert = some c → p.key = some k → (files c).isSome ∧ (files k).isSome) := by
  unfold mainConfigure configSend at h
  cases hs : sendAll (sendHost (F := F) files c.privsep) c.hosts with
  | none => rw [hs] at h; cases h
  | some hm =>
    rw [hs] at h
    simp only [Option.map_some, Option.some.injEq] at h
    have h1 := sendAll_for _ .server (hostMsgs c.privsep) c.hosts (fun x _ ms e => (sendHost_some e).1) hm hs
    have h2 := sendAll_for _ .crypto (hostMsgsC c.privsep) c.hosts (fun x _ ms e => (sendHost_some e).2.1) hm hs
    have m1 := forProc_server_map (L := L) (E := E) (P := P) (AD := AD) (F := F) (fun m : Bytes × Bytes => CMsg.mime m.1 m.2) c.mime
    have a1 := forProc_server_map (L := L) (E := E) (P := P) (AD := AD) (F := F) CMsg.sock (c.addrs.filter sup)
    have f1 := forProc_server_map (L := L) (E := E) (P := P) (AD := AD) (F := F) CMsg.fcgi c.fcgi
    subst h
    refine ⟨?_, ?_, ?_⟩
    · simp only [forProc_append, h1, m1.1, a1.1, f1.1]
      simp [forProc]
      simp [← List.map_eq_flatMap]
    · simp only [forProc_append, h2, m1.2, a1.2, f1.2]
      simp [forProc]
    · intro x hx
      obtain ⟨m, hm'⟩ := sendAll_all _ _ _ hs x hx
      exact (sendHost_some hm').2.2

/-! ## What a server process makes of it -/

/-- without the static pointers to the current location, proxy and key -/
def clr (s : WState L E P AD F C K) : WState L E P AD F C K := { s with l := .null, p := .null, pki := .null }

/-- the state while a host is being received -/
def atHost (s : WState L E P AD F C K) (hs : List (WHost L E P AD C)) (h : WHost L E P AD C) : WState L E P AD F C K :=
  { s with hosts := hs ++ [h], h := .last, l := .null, p := .null, pki := .null }

theorem clr_eq {s t : WState L E P AD F C K} (h : clr s = clr t) : s = { t with l := s.l, p := s.p, pki := s.pki } := by
  cases s; cases t; simp only [clr, WState.mk.injEq] at h ⊢; simp_all

theorem recvAll_one (files : Bytes → Option Bytes) (loadCa : Bytes → Option C) (hash : Bytes → Option Bytes) (loadKey : Bytes → Option K)
    (me : Proc) (s s' : WState L E P AD F C K) (m : CMsg L E P AD F) (h : configRecv files loadCa hash loadKey me s m = .ok s') :
    recvAll files loadCa hash loadKey me s [m] = .ok s' := by
  rw [recvAll, h]; rfl

theorem getLast?_concat' {α : Type} (xs : List α) (x : α) : (xs ++ [x]).getLast? = some x := by simp

theorem mem_path {α : Type} {xs : List α} {f : α → Option Bytes} {x : α} {p : Bytes} (hx : x ∈ xs) (h : f x = some p) : p ∈ xs.filterMap f :=
  List.mem_filterMap.mpr ⟨x, hx, h⟩

/-- a location -/
theorem recv_loc (files : Bytes → Option Bytes) (loadCa : Bytes → Option C) (hash : Bytes → Option Bytes) (loadKey : Bytes → Option K)
    (t : WState L E P AD F C K) (hs : List (WHost L E P AD C)) (h : WHost L E P AD C) (x : PLoc L E)
    (hca : ∀ p, x.reqca = some p → ((files p).bind loadCa).isSome) (s : WState L E P AD F C K) (hc : clr s = atHost t hs h) :
    ∃ s', recvAll files loadCa hash loadKey .server s (locMsgs x) = .ok s' ∧
      clr s' = atHost t hs { h with locs := h.locs ++ [expLoc files loadCa x] } := by
  have hc' : clr s = clr (atHost t hs h) := hc
  have e := clr_eq hc'
  rw [e]
  have step1 : recvAll files loadCa hash loadKey .server { atHost t hs h with l := s.l, p := s.p, pki := s.pki } [CMsg.loc x.loc x.reqca] =
      .ok { atHost t hs { h with locs := h.locs ++ [{ loc := x.loc, reqca := expCa files loadCa x.reqca, params := [] }] } with l := .last, p := s.p, pki := s.pki } := by
    apply recvAll_one
    cases hr : x.reqca with
    | none => simp [configRecv, atHost, modLast_concat, expCa]
    | some p =>
      have := hca p hr
      cases hx : (files p).bind loadCa with
      | none => rw [hx] at this; cases this
      | some ca => simp [configRecv, atHost, modLast_concat, expCa, hx]
  have step2 := recvAll_list (C := C) (K := K) (L := L) (P := P) (AD := AD) (F := F) files loadCa hash loadKey .server (fun e : E => [CMsg.env e])
    (fun pre st => st = { atHost t hs { h with locs := h.locs ++ [{ loc := x.loc, reqca := expCa files loadCa x.reqca, params := pre }] } with l := .last, p := s.p, pki := s.pki })
    x.params (by
      intro pre ev st _ hst
      subst hst
      refine ⟨_, recvAll_one _ _ _ _ _ _ _ _ ?_, rfl⟩
      simp [configRecv, atHost, modLast_concat]) [] _ rfl
  obtain ⟨s2, h2, i2⟩ := step2
  refine ⟨s2, ?_, ?_⟩
  · have hl : (locMsgs x : List (CMsg L E P AD F)) = [CMsg.loc x.loc x.reqca] ++ x.params.flatMap (fun e => [CMsg.env e]) := by
      unfold locMsgs; simp [← List.map_eq_flatMap]
    rw [hl, recvAll_append _ _ _ _ _ _ _ _ _ step1]
    exact h2
  · rw [i2]; simp [clr, atHost, expLoc]

/-- a relay -/
theorem recv_proxy (files : Bytes → Option Bytes) (loadCa : Bytes → Option C) (hash : Bytes → Option Bytes) (loadKey : Bytes → Option K)
    (t : WState L E P AD F C K) (hs : List (WHost L E P AD C)) (h : WHost L E P AD C) (x : PProxy P)
    (hca : ∀ p, x.reqca = some p → ((files p).bind loadCa).isSome)
    (hf : ∀ c k, x.cert = some c → x.key = some k → (files c).isSome ∧ (files k).isSome) (s : WState L E P AD F C K) (hc : clr s = atHost t hs h) :
    ∃ s', recvAll files loadCa hash loadKey .server s (proxyMsgs x) = .ok s' ∧
      clr s' = atHost t hs { h with proxies := h.proxies ++ [expProxy files loadCa x] } := by
  have hc' : clr s = clr (atHost t hs h) := hc
  have e := clr_eq hc'
  rw [e]
  have step1 : recvAll files loadCa hash loadKey .server { atHost t hs h with l := s.l, p := s.p, pki := s.pki } [CMsg.proxy x.proxy x.reqca] =
      .ok { atHost t hs { h with proxies := h.proxies ++ [{ proxy := x.proxy, reqca := expCa files loadCa x.reqca, cert := none, key := none }] } with l := s.l, p := .last, pki := s.pki } := by
    apply recvAll_one
    cases hr : x.reqca with
    | none => simp [configRecv, atHost, modLast_concat, expCa]
    | some p =>
      have := hca p hr
      cases hx : (files p).bind loadCa with
      | none => rw [hx] at this; cases this
      | some ca => simp [configRecv, atHost, modLast_concat, expCa, hx]
  obtain ⟨pr, rq, ct, ky⟩ := x
  cases ct with
  | none => exact ⟨_, step1, by simp [clr, atHost, expProxy]⟩
  | some c =>
    cases ky with
    | none => exact ⟨_, step1, by simp [clr, atHost, expProxy]⟩
    | some k =>
      obtain ⟨f1, f2⟩ := hf c k rfl rfl
      cases hc1 : files c with
      | none => rw [hc1] at f1; cases f1
      | some dc =>
        cases hk1 : files k with
        | none => rw [hk1] at f2; cases f2
        | some dk =>
          simp only [proxyMsgs]
          have hl : (CMsg.proxy pr rq :: [CMsg.proxyCert c, CMsg.proxyKey k] : List (CMsg L E P AD F)) =
            [CMsg.proxy pr rq] ++ ([CMsg.proxyCert c] ++ [CMsg.proxyKey k]) := rfl
          rw [hl, recvAll_append _ _ _ _ _ _ _ _ _ step1]
          have step2 : recvAll files loadCa hash loadKey .server
              { atHost t hs { h with proxies := h.proxies ++ [{ proxy := pr, reqca := expCa files loadCa rq, cert := none, key := none }] } with l := s.l, p := .last, pki := s.pki }
              [CMsg.proxyCert c] = .ok
              { atHost t hs { h with proxies := h.proxies ++ [{ proxy := pr, reqca := expCa files loadCa rq, cert := some dc, key := none }] } with l := s.l, p := .last, pki := s.pki } := by
            apply recvAll_one
            simp [configRecv, atHost, modLast_concat, hc1]
          rw [recvAll_append _ _ _ _ _ _ _ _ _ step2]
          refine ⟨_, recvAll_one _ _ _ _ _ _ _ _ (by simp [configRecv, atHost, modLast_concat, hk1]; rfl), ?_⟩
          simp [clr, atHost, expProxy, hc1, hk1]

/-- a host -/
theorem recv_host (files : Bytes → Option Bytes) (loadCa : Bytes → Option C) (hash : Bytes → Option Bytes) (loadKey : Bytes → Option K)
    (privsep : Bool) (x : PHost L E P AD)
    (hca : ∀ path, (path ∈ x.locs.filterMap (·.reqca) ∨ path ∈ x.proxies.filterMap (·.reqca)) → ((files path).bind loadCa).isSome)
    (hf : (files x.cert).isSome ∧ (files x.key).isSome ∧ (∀ o, x.ocsp = some o → (files o).isSome) ∧
      (∀ p ∈ x.proxies, ∀ c k, p.cert = some c → p.key = some k → (files c).isSome ∧ (files k).isSome))
    (s : WState L E P AD F C K) :
    ∃ s', recvAll files loadCa hash loadKey .server s (hostMsgs privsep x) = .ok s' ∧
      clr s' = atHost s s.hosts (expHost files loadCa privsep x) := by
  obtain ⟨f1, f2, f3, f4⟩ := hf
  cases hc : files x.cert with
  | none => rw [hc] at f1; cases f1
  | some dc =>
  cases hk : files x.key with
  | none => rw [hk] at f2; cases f2
  | some dk =>
  unfold hostMsgs
  simp only [List.append_assoc]
  refine recvAll_then _ _ _ _ _ _ _ _ (fun s' => s' = { s with hosts := s.hosts ++ [{ domain := x.domain }], h := .last, l := .null, p := .null }) _
    ⟨_, recvAll_one _ _ _ _ _ _ _ _ rfl, rfl⟩ ?_
  intro s1 hs1
  refine recvAll_then _ _ _ _ _ _ _ _ (fun s' => clr s' = atHost s s.hosts { domain := x.domain, cert := some dc, key := if privsep then none else some dk }) _ ?_ ?_
  · subst hs1
    cases privsep
    · refine ⟨{ s with hosts := s.hosts ++ [{ domain := x.domain, cert := some dc, key := some dk }], h := .last, l := .null, p := .null }, ?_, rfl⟩
      simp [recvAll, configRecv, modLast_concat, hc, hk]
    · refine ⟨{ s with hosts := s.hosts ++ [{ domain := x.domain, cert := some dc }], h := .last, l := .null, p := .null }, ?_, rfl⟩
      simp [recvAll, configRecv, modLast_concat, hc]
  clear hs1 s1
  intro s1 hs1
  refine recvAll_then _ _ _ _ _ _ _ _ (fun s' => clr s' = atHost s s.hosts
    { domain := x.domain, cert := some dc, key := if privsep then none else some dk, ocsp := x.ocsp.bind files }) _ ?_ ?_
  · cases ho : x.ocsp with
    | none => exact ⟨s1, rfl, hs1⟩
    | some o =>
      have := f3 o ho
      cases hoo : files o with
      | none => rw [hoo] at this; cases this
      | some d =>
        rw [clr_eq (hs1.trans (rfl : _ = clr (atHost s s.hosts _)))]
        refine ⟨_, recvAll_one _ _ _ _ _ _ _ _ (by simp [configRecv, atHost, modLast_concat, hoo]; rfl), ?_⟩
        simp [clr, atHost, hoo]
  clear hs1 s1
  intro s1 hs1
  refine recvAll_then _ _ _ _ _ _ _ _ (fun s' => clr s' = atHost s s.hosts
    { domain := x.domain, cert := some dc, key := if privsep then none else some dk, ocsp := x.ocsp.bind files, addrs := x.addrs }) _ ?_ ?_
  · rw [show (x.addrs.map CMsg.hostAddr : List (CMsg L E P AD F)) = x.addrs.flatMap (fun a => [CMsg.hostAddr a]) by simp [← List.map_eq_flatMap]]
    have := recvAll_list (C := C) (K := K) (L := L) (P := P) (AD := AD) (F := F) files loadCa hash loadKey .server (fun a : AD => [CMsg.hostAddr a])
      (fun pre st => clr st = atHost s s.hosts { domain := x.domain, cert := some dc, key := if privsep then none else some dk, ocsp := x.ocsp.bind files, addrs := pre })
      x.addrs (by
        intro pre a st _ hst
        rw [clr_eq (hst.trans (rfl : _ = clr (atHost s s.hosts _)))]
        refine ⟨_, recvAll_one _ _ _ _ _ _ _ _ (by simp [configRecv, atHost, modLast_concat]; rfl), ?_⟩
        simp [clr, atHost]) [] s1 hs1
    exact this
  clear hs1 s1
  intro s1 hs1
  refine recvAll_then _ _ _ _ _ _ _ _ (fun s' => clr s' = atHost s s.hosts
    { domain := x.domain, cert := some dc, key := if privsep then none else some dk, ocsp := x.ocsp.bind files, addrs := x.addrs,
      locs := x.locs.map (expLoc files loadCa) }) _ ?_ ?_
  · have := recvAll_list (C := C) (K := K) (L := L) (P := P) (AD := AD) (F := F) files loadCa hash loadKey .server (fun a : PLoc L E => locMsgs a)
      (fun pre st => clr st = atHost s s.hosts { domain := x.domain, cert := some dc, key := if privsep then none else some dk, ocsp := x.ocsp.bind files, addrs := x.addrs, locs := pre.map (expLoc files loadCa) })
      x.locs (by
        intro pre a st ha hst
        obtain ⟨s', h1, h2⟩ := recv_loc files loadCa hash loadKey _ _ _ a (fun p hp => hca p (.inl (mem_path ha hp))) st hst
        exact ⟨s', h1, by rw [h2]; simp⟩) [] s1 hs1
    exact this
  clear hs1 s1
  intro s1 hs1
  refine recvAll_then _ _ _ _ _ _ _ _ (fun s' => clr s' = atHost s s.hosts
    { domain := x.domain, cert := some dc, key := if privsep then none else some dk, ocsp := x.ocsp.bind files, addrs := x.addrs,
      locs := x.locs.map (expLoc files loadCa), aliases := x.aliases }) _ ?_ ?_
  · rw [show (x.aliases.map CMsg.alias : List (CMsg L E P AD F)) = x.aliases.flatMap (fun a => [CMsg.alias a]) by simp [← List.map_eq_flatMap]]
    have := recvAll_list (C := C) (K := K) (L := L) (P := P) (AD := AD) (F := F) files loadCa hash loadKey .server (fun a : Bytes => [CMsg.alias a])
      (fun pre st => clr st = atHost s s.hosts { domain := x.domain, cert := some dc, key := if privsep then none else some dk, ocsp := x.ocsp.bind files, addrs := x.addrs, locs := x.locs.map (expLoc files loadCa), aliases := pre })
      x.aliases (by
        intro pre a st _ hst
        rw [clr_eq (hst.trans (rfl : _ = clr (atHost s s.hosts _)))]
        refine ⟨_, recvAll_one _ _ _ _ _ _ _ _ (by simp [configRecv, atHost, modLast_concat]; rfl), ?_⟩
        simp [clr, atHost]) [] s1 hs1
    exact this
  clear hs1 s1
  intro s1 hs1
  have := recvAll_list (C := C) (K := K) (L := L) (P := P) (AD := AD) (F := F) files loadCa hash loadKey .server (fun a : PProxy P => proxyMsgs a)
      (fun pre st => clr st = atHost s s.hosts { domain := x.domain, cert := some dc, key := if privsep then none else some dk, ocsp := x.ocsp.bind files, addrs := x.addrs, locs := x.locs.map (expLoc files loadCa), aliases := x.aliases, proxies := pre.map (expProxy files loadCa) })
      x.proxies (by
        intro pre a st ha hst
        obtain ⟨s', h1, h2⟩ := recv_proxy files loadCa hash loadKey _ _ _ a (fun p hp => hca p (.inr (mem_path ha hp))) (f4 a ha) st hst
        exact ⟨s', h1, by rw [h2]; simp⟩) [] s1 hs1
  obtain ⟨s', h1, h2⟩ := this
  refine ⟨s', h1, ?_⟩
  rw [h2]; simp [expHost, hc, hk]

/-! ## The whole reload -/

/-- **C38.** Whatever a server process held before, after the messages of a reload it holds exactly the configuration the
main process parsed, in the same order, and acknowledges it once. -/
theorem C38_server (files : Bytes → Option Bytes) (loadCa : Bytes → Option C) (hash : Bytes → Option Bytes) (loadKey : Bytes → Option K)
    (sup : AD → Bool) (c : PConf L E P AD F) (ms : List (Proc × CMsg L E P AD F)) (hsent : mainConfigure files sup c = some ms)
    (hm : MimesFit c) (hca : CasLoad files loadCa c) (st0 : WState L E P AD F C K) :
    ∃ st, recvAll files loadCa hash loadKey .server st0 (forProc .server ms) = .ok st ∧ Holds files loadCa sup c st ∧ st.pkis = [] ∧
      st.done = st0.done + 1 := by
  obtain ⟨hs, _, hf⟩ := mainConfigure_some hsent
  rw [hs]
  let z : WState L E P AD F C K := { logFormat := c.logFormat, done := st0.done }
  refine recvAll_then _ _ _ _ _ _ _ _ (fun s => ∃ n, clr s = { z with logFormat := n, protos := 24 }) _
    ⟨_, recvAll_one _ _ _ _ _ _ _ _ rfl, st0.logFormat, by simp [clr, purge, z]⟩ ?_
  rintro s ⟨n, h⟩
  refine recvAll_then _ _ _ _ _ _ _ _ (fun s => clr s = { z with protos := 24 }) _
    ⟨_, recvAll_one _ _ _ _ _ _ _ _ (by simp [configRecv]; rfl), by
      rw [clr_eq (h.trans (rfl : _ = clr { z with logFormat := n, protos := 24 }))]; simp [clr, z]⟩ ?_
  clear h s n
  intro s h
  refine recvAll_then _ _ _ _ _ _ _ _ (fun s => clr s = { z with mime := c.mime, protos := 24 }) _ ?_ ?_
  · exact recvAll_list (C := C) (K := K) (L := L) (P := P) (AD := AD) (F := F) files loadCa hash loadKey .server _
      (fun pre st => clr st = { z with mime := pre, protos := 24 }) c.mime (by
        intro pre a st ha hst
        rw [clr_eq (hst.trans (rfl : _ = clr { z with mime := pre, protos := 24 }))]
        have hlen := hm a ha
        refine ⟨_, recvAll_one _ _ _ _ _ _ _ _ (by
          simp only [configRecv]
          rw [if_neg (by decide), if_neg (by omega)]), ?_⟩
        simp [clr, z]) [] s h
  clear h s
  intro s h
  refine recvAll_then _ _ _ _ _ _ _ _ (fun s => clr s = { z with mime := c.mime, protos := c.protos }) _
    ⟨_, recvAll_one _ _ _ _ _ _ _ _ (by simp [configRecv]; rfl), by
      rw [clr_eq (h.trans (rfl : _ = clr { z with mime := c.mime, protos := 24 }))]; simp [clr, z]⟩ ?_
  clear h s
  intro s h
  refine recvAll_then _ _ _ _ _ _ _ _ (fun s => clr s = { z with mime := c.mime, protos := c.protos, addrs := (c.addrs.filter sup).reverse }) _ ?_ ?_
  · exact recvAll_list (C := C) (K := K) (L := L) (P := P) (AD := AD) (F := F) files loadCa hash loadKey .server _
      (fun pre st => clr st = { z with mime := c.mime, protos := c.protos, addrs := pre.reverse }) (c.addrs.filter sup) (by
        intro pre a st ha hst
        rw [clr_eq (hst.trans (rfl : _ = clr { z with mime := c.mime, protos := c.protos, addrs := pre.reverse }))]
        refine ⟨_, recvAll_one _ _ _ _ _ _ _ _ (by simp [configRecv]; rfl), ?_⟩
        simp [clr, z]) [] s h
  clear h s
  intro s h
  refine recvAll_then _ _ _ _ _ _ _ _ (fun s => clr s = { z with mime := c.mime, protos := c.protos, addrs := (c.addrs.filter sup).reverse, fcgi := c.fcgi }) _ ?_ ?_
  · exact recvAll_list (C := C) (K := K) (L := L) (P := P) (AD := AD) (F := F) files loadCa hash loadKey .server _
      (fun pre st => clr st = { z with mime := c.mime, protos := c.protos, addrs := (c.addrs.filter sup).reverse, fcgi := pre }) c.fcgi (by
        intro pre a st ha hst
        rw [clr_eq (hst.trans (rfl : _ = clr { z with mime := c.mime, protos := c.protos, addrs := (c.addrs.filter sup).reverse, fcgi := pre }))]
        refine ⟨_, recvAll_one _ _ _ _ _ _ _ _ (by simp [configRecv]; rfl), ?_⟩
        simp [clr, z]) [] s h
  clear h s
  intro s h
  refine recvAll_then _ _ _ _ _ _ _ _ (fun s => ∃ cu, clr s = { z with mime := c.mime, protos := c.protos, addrs := (c.addrs.filter sup).reverse, fcgi := c.fcgi, hosts := c.hosts.map (expHost files loadCa c.privsep), h := cu }) _ ?_ ?_
  · exact recvAll_list (C := C) (K := K) (L := L) (P := P) (AD := AD) (F := F) files loadCa hash loadKey .server _
      (fun pre st => ∃ cu, clr st = { z with mime := c.mime, protos := c.protos, addrs := (c.addrs.filter sup).reverse, fcgi := c.fcgi, hosts := pre.map (expHost files loadCa c.privsep), h := cu }) c.hosts (by
        rintro pre a st ha ⟨cu, hst⟩
        obtain ⟨s', h1, h2⟩ := recv_host files loadCa hash loadKey c.privsep a (hca a ha) (hf a ha) st
        refine ⟨s', h1, .last, ?_⟩
        rw [h2]
        rw [clr_eq (hst.trans (rfl : _ = clr { z with mime := c.mime, protos := c.protos, addrs := (c.addrs.filter sup).reverse, fcgi := c.fcgi, hosts := pre.map (expHost files loadCa c.privsep), h := cu }))]
        simp [atHost, z]) [] s ⟨.null, h⟩
  clear h s
  rintro s ⟨cu, h⟩
  refine ⟨_, recvAll_one _ _ _ _ _ _ _ _ rfl, ?_⟩
  have e := clr_eq (h.trans (rfl : _ = clr { z with mime := c.mime, protos := c.protos, addrs := (c.addrs.filter sup).reverse, fcgi := c.fcgi, hosts := c.hosts.map (expHost files loadCa c.privsep), h := cu }))
  rw [e]
  exact ⟨⟨rfl, rfl, rfl, rfl, rfl, rfl⟩, rfl, rfl⟩

/-- **C38.** Likewise the crypto process holds the public-key hashes of the server certificates with their keys, in the
same order; it must not have been left between a certificate and its key, and is not. -/
theorem C38_crypto (files : Bytes → Option Bytes) (loadCa : Bytes → Option C) (hash : Bytes → Option Bytes) (loadKey : Bytes → Option K)
    (sup : AD → Bool) (c : PConf L E P AD F) (ms : List (Proc × CMsg L E P AD F)) (hsent : mainConfigure files sup c = some ms)
    (hk : KeysLoad files hash loadKey c) (st0 : WState L E P AD F C K) (h0 : st0.pki = .null) :
    ∃ st, recvAll files loadCa hash loadKey .crypto st0 (forProc .crypto ms) = .ok st ∧ st.pki = .null ∧ st.hosts = [] ∧
      st.pkis.map some = (if c.privsep then c.hosts.map (fun h => ((files h.cert).bind hash).map fun x => (x, (files h.key).bind loadKey)) else []) ∧
      st.done = st0.done + 1 := by
  obtain ⟨_, hs, hf⟩ := mainConfigure_some hsent
  rw [hs]
  refine recvAll_then _ _ _ _ _ _ _ _ (fun s => s.pki = .null ∧ s.hosts = [] ∧ s.pkis = [] ∧ s.done = st0.done) _
    ⟨_, recvAll_one _ _ _ _ _ _ _ _ rfl, by simp [purge, h0]⟩ ?_
  rintro s ⟨h1, h2, h3, h4⟩
  refine recvAll_then _ _ _ _ _ _ _ _ (fun s => s.pki = .null ∧ s.hosts = [] ∧ s.pkis.map some =
    (if c.privsep then c.hosts.map (fun h => ((files h.cert).bind hash).map fun x => (x, (files h.key).bind loadKey)) else []) ∧ s.done = st0.done) _ ?_ ?_
  · cases hp : c.privsep with
    | false =>
      refine ⟨s, ?_, h1, h2, by simp [h3], h4⟩
      have : ∀ hs : List (PHost L E P AD), (hs.flatMap (hostMsgsC false) : List (CMsg L E P AD F)) = [] := by
        intro hs; induction hs with
        | nil => rfl
        | cons a r ih => rw [List.flatMap_cons, ih]; rfl
      rw [this]; rfl
    | true =>
      have := recvAll_list (C := C) (K := K) (L := L) (E := E) (P := P) (AD := AD) (F := F) files loadCa hash loadKey .crypto (hostMsgsC true)
        (fun pre s => s.pki = .null ∧ s.hosts = [] ∧ s.pkis.map some =
          pre.map (fun h => ((files h.cert).bind hash).map fun x => (x, (files h.key).bind loadKey)) ∧ s.done = st0.done) c.hosts (by
        rintro pre a st ha ⟨g1, g2, g3, g4⟩
        obtain ⟨k1, k2⟩ := hk a ha
        cases hc : (files a.cert).bind hash with
        | none => rw [hc] at k1; cases k1
        | some x =>
          cases hky : (files a.key).bind loadKey with
          | none => rw [hky] at k2; cases k2
          | some k =>
            refine ⟨{ st with pkis := st.pkis ++ [(x, some k)], pki := .null }, ?_, rfl, g2, ?_, g4⟩
            · simp [hostMsgsC, recvAll, configRecv, cryptoRecvKp, g1, hc, hky, modLast_concat]
            · rw [List.map_append, g3, List.map_append]; simp only [List.map_cons, hc, hky]; rfl) [] s ⟨h1, h2, by simp [h3], h4⟩
      exact this
  rintro s' ⟨g1, g2, g3, g4⟩
  exact ⟨_, recvAll_one _ _ _ _ _ _ _ _ rfl, g1, g2, g3, by rw [g4]⟩

theorem crypto_pki_kept (files : Bytes → Option Bytes) (loadCa : Bytes → Option C) (hash : Bytes → Option Bytes) (loadKey : Bytes → Option K)
    (ms : List (CMsg L E P AD F)) (hn : ∀ k, CMsg.key k ∉ ms) : ∀ s s' : WState L E P AD F C K, s.pki ≠ .null →
    recvAll files loadCa hash loadKey .crypto s ms = .ok s' → s'.pki ≠ .null ∧ ∀ c, CMsg.cert c ∉ ms := by
  induction ms with
  | nil => intro s s' h e; simp only [recvAll, Res.ok.injEq] at e; subst e; exact ⟨h, by simp⟩
  | cons m r ih =>
    intro s s' h e
    rw [recvAll] at e
    have hr : ∀ k, CMsg.key k ∉ r := fun k hk => hn k (by simp [hk])
    cases e1 : configRecv files loadCa hash loadKey .crypto s m with
    | err => rw [e1] at e; cases e
    | ub => rw [e1] at e; cases e
    | ok s1 =>
      rw [e1] at e
      simp only at e
      have : s1.pki ≠ .null ∧ ∀ c, m ≠ .cert c := by
        cases m with
        | start =>
          simp only [configRecv, purge, Res.ok.injEq] at e1
          subst e1
          simp [h]
        | fin => simp only [configRecv, Res.ok.injEq] at e1; subst e1; exact ⟨h, by simp⟩
        | key k => exact absurd (by simp) (hn k)
        | cert c => simp [configRecv, cryptoRecvKp, h] at e1
        | _ => simp [configRecv] at e1
      obtain ⟨h2, h3⟩ := ih hr s1 s' this.1 e
      exact ⟨h2, by intro c hc; rcases List.mem_cons.1 hc with hc | hc; exact this.2 c hc.symm; exact h3 c hc⟩

/-- **C38.** The crypto process never takes a certificate before it has the key of the one before: it ends instead. -/
theorem C38_crypto_pairs (files : Bytes → Option Bytes) (loadCa : Bytes → Option C) (hash : Bytes → Option Bytes) (loadKey : Bytes → Option K)
    (s s' : WState L E P AD F C K) (ms mid : List (CMsg L E P AD F)) (c c' : Bytes) (rest : List (CMsg L E P AD F))
    (hm : ms = .cert c :: mid ++ .cert c' :: rest) (h : recvAll files loadCa hash loadKey .crypto s ms = .ok s') : ∃ k, .key k ∈ mid := by
  apply Classical.byContradiction
  intro hno
  have hno : ∀ k, CMsg.key k ∉ mid := fun k hk => hno ⟨k, hk⟩
  subst hm
  rw [List.cons_append, recvAll] at h
  cases e1 : configRecv files loadCa hash loadKey .crypto s (.cert c) with
  | err => rw [e1] at h; cases h
  | ub => rw [e1] at h; cases h
  | ok s1 =>
    rw [e1] at h
    simp only at h
    have k1 : s1.pki ≠ .null := by
      simp only [configRecv, cryptoRecvKp, if_true] at e1
      split at e1
      · cases e1
      · split at e1
        · cases e1
        · simp only [Res.ok.injEq] at e1; subst e1; simp
    cases e2 : recvAll files loadCa hash loadKey .crypto s1 mid with
    | ok s2 =>
      have k2 := (crypto_pki_kept files loadCa hash loadKey mid hno s1 s2 k1 e2).1
      rw [recvAll_append _ _ _ _ _ _ _ _ _ e2, recvAll] at h
      simp [configRecv, cryptoRecvKp, k2] at h
    | err => exact absurd h (recvAll_append_ne _ _ _ _ _ _ _ _ (by rw [e2]; simp) s')
    | ub => exact absurd h (recvAll_append_ne _ _ _ _ _ _ _ _ (by rw [e2]; simp) s')

/-! ## Private keys -/

theorem forProc_mem {me : Proc} {ms : List (Proc × CMsg L E P AD F)} {m : CMsg L E P AD F} : (me, m) ∈ ms ↔ m ∈ forProc me ms := by
  simp [forProc]

theorem mem_hostMsgs_fd {h : PHost L E P AD} {m : CMsg L E P AD F} {path : Bytes} (hm : m ∈ hostMsgs true h) (hf : fdOf m = some path) :
    path ∈ [h.cert] ++ h.ocsp.toList ++ h.locs.filterMap (·.reqca) ++ h.proxies.filterMap (·.reqca) ++ h.proxies.filterMap (·.cert) ∨
    (m = .proxyKey path ∧ path ∈ h.proxies.filterMap (·.key)) := by
  simp only [hostMsgs, List.mem_append, List.mem_cons, List.mem_map, List.mem_flatMap, List.not_mem_nil, or_false, if_true] at hm
  rcases hm with (((((hm | hm) | ⟨o, ho, hm⟩) | ⟨a, ha, hm⟩) | ⟨l, hl, hm⟩) | ⟨a, ha, hm⟩) | ⟨p, hp, hm⟩
  · subst hm; cases hf
  · subst hm; simp only [fdOf, Option.some.injEq] at hf; subst hf; simp
  · subst hm; simp only [fdOf, Option.some.injEq] at hf; subst hf; simp [ho]
  · subst hm; cases hf
  · simp only [locMsgs, List.mem_cons, List.mem_map] at hm
    rcases hm with hm | ⟨e, _, hm⟩
    · subst hm
      have : path ∈ h.locs.filterMap (·.reqca) := mem_path hl hf
      left; simp only [List.mem_append]; simp [this]
    · subst hm; cases hf
  · subst hm; cases hf
  · obtain ⟨pr, rq, ct, ky⟩ := p
    simp only [proxyMsgs, List.mem_cons] at hm
    rcases hm with hm | hm
    · subst hm
      have : path ∈ h.proxies.filterMap (·.reqca) := mem_path hp hf
      left; simp only [List.mem_append]; simp [this]
    · cases ct with
      | none => simp at hm
      | some ct =>
        cases ky with
        | none => simp at hm
        | some ky =>
          simp only [List.mem_cons, List.not_mem_nil, or_false] at hm
          rcases hm with hm | hm
          · subst hm
            simp only [fdOf, Option.some.injEq] at hf; subst hf
            have : ct ∈ h.proxies.filterMap (·.cert) := mem_path hp rfl
            left; simp only [List.mem_append]; simp [this]
          · subst hm
            simp only [fdOf, Option.some.injEq] at hf; subst hf
            exact .inr ⟨rfl, mem_path hp rfl⟩

/-- **C39, in part.** With the crypto process, the only descriptors sent to a server process are those of files that
are not private keys, and of the keys of the client certificates of relays.  So the key of a server block stays out of the server processes unless the
same file is named for something else.  The full property, that no private key is sent, is false: see
`C39_relay_keys_sent`. -/
theorem C39_server_keys_partial (files : Bytes → Option Bytes) (sup : AD → Bool) (c : PConf L E P AD F) (ms : List (Proc × CMsg L E P AD F))
    (hsent : mainConfigure files sup c = some ms) (hp : c.privsep = true) :
    (∀ m path, (Proc.server, m) ∈ ms → fdOf m = some path → path ∈ publicPaths c ∨ (m = .proxyKey path ∧ path ∈ relayKeys c)) ∧
    (∀ m path, (Proc.server, m) ∈ ms → path ∈ serverKeys c → path ∉ publicPaths c → path ∉ relayKeys c → fdOf m ≠ some path) := by
  have main : ∀ m path, (Proc.server, m) ∈ ms → fdOf m = some path → path ∈ publicPaths c ∨ (m = .proxyKey path ∧ path ∈ relayKeys c) := by
    intro m path hm hfd
    rw [forProc_mem, (mainConfigure_some hsent).1, hp] at hm
    simp only [List.mem_append, List.mem_cons, List.mem_flatMap, List.not_mem_nil, or_false] at hm
    rcases hm with hm | hm | ⟨x, _, hm⟩ | hm | ⟨x, _, hm⟩ | ⟨x, _, hm⟩ | ⟨h, hh, hm⟩ | hm
    · subst hm; cases hfd
    · subst hm; cases hfd
    · subst hm; cases hfd
    · subst hm; cases hfd
    · subst hm; cases hfd
    · subst hm; cases hfd
    · rcases mem_hostMsgs_fd hm hfd with h1 | ⟨h1, h2⟩
      · exact .inl (List.mem_flatMap.mpr ⟨h, hh, h1⟩)
      · exact .inr ⟨h1, List.mem_flatMap.mpr ⟨h, hh, h2⟩⟩
    · subst hm; cases hfd
  refine ⟨main, fun m path hm _ hnp hnr hfd => ?_⟩
  rcases main m path hm hfd with h | ⟨_, h⟩
  · exact hnp h
  · exact hnr h

/-- **C39.** After a reload a server process holds no private key of a server block, whatever it held before. -/
theorem C39_no_key_held (files : Bytes → Option Bytes) (loadCa : Bytes → Option C) (hash : Bytes → Option Bytes) (loadKey : Bytes → Option K)
    (sup : AD → Bool) (c : PConf L E P AD F) (ms : List (Proc × CMsg L E P AD F)) (hsent : mainConfigure files sup c = some ms)
    (hp : c.privsep = true) (hm : MimesFit c) (hca : CasLoad files loadCa c) (st0 : WState L E P AD F C K) :
    ∃ st, recvAll files loadCa hash loadKey .server st0 (forProc .server ms) = .ok st ∧ st.pkis = [] ∧ ∀ h ∈ st.hosts, h.key = none := by
  obtain ⟨st, h1, h2, h3, _⟩ := C38_server files loadCa hash loadKey sup c ms hsent hm hca st0
  refine ⟨st, h1, h3, ?_⟩
  intro h hh
  rw [h2.2.2.2.2.2, List.mem_map] at hh
  obtain ⟨x, _, e⟩ := hh
  subst e
  simp [expHost, hp]

/-! ## Concrete configurations -/

/-- the contents of a file is its name, but "nope" does not exist -/
def exFiles : Bytes → Option Bytes := fun p => if p = b%"nope" then none else some p

/-- two hosts; the first with a location and a relay -/
def exPConf : PConf Nat Nat Nat Nat Nat :=
  { logFormat := 1
    mime := [(b%"text/gemini", b%"gmi")]
    protos := 8
    addrs := [1, 2, 3]
    fcgi := [7]
    hosts := [
      { domain := b%"a"
        cert := b%"a.pem"
        key := b%"a.key"
        ocsp := some b%"a.ocsp"
        addrs := [1]
        locs := [{ loc := 4, reqca := some b%"ca", params := [5, 6] }, { loc := 8, reqca := none, params := [] }]
        aliases := [b%"www.a"]
        proxies := [{ proxy := 9, reqca := none, cert := some b%"p.pem", key := some b%"p.key" }] },
      { domain := b%"b"
        cert := b%"b.pem"
        key := b%"b.key"
        ocsp := none
        addrs := [2, 3]
        locs := []
        aliases := []
        proxies := [] }]
    privsep := true }

/-- the hypotheses of C38 and C39 hold of it -/
example : (mainConfigure exFiles (fun a => decide (a ≠ 2)) exPConf).isSome = true := by decide
example : MimesFit exPConf := by intro m hm; simp [exPConf] at hm; subst hm; decide
example : CasLoad exFiles some exPConf := by
  intro h hh path hp
  simp only [exPConf, List.mem_cons, List.not_mem_nil, or_false] at hh
  rcases hh with hh | hh
  · subst hh
    simp at hp
    subst hp; decide
  · subst hh
    simp at hp
example : KeysLoad exFiles some some exPConf := by
  intro h hh
  simp only [exPConf, List.mem_cons, List.not_mem_nil, or_false] at hh
  rcases hh with hh | hh <;> subst hh <;> decide

/-- a server process that had another configuration gets this one -/
example :
    (match mainConfigure exFiles (fun a => decide (a ≠ 2)) exPConf with
     | none => false
     | some ms =>
       match recvAll exFiles some some (some : Bytes → Option Bytes) .server
         { hosts := [{ domain := b%"old" }], h := .last, l := .last, p := .last, done := 3 } (forProc .server ms) with
       | .ok st => decide (st.done = 4 ∧ st.addrs = [3, 1] ∧ st.hosts = exPConf.hosts.map (expHost exFiles (some : Bytes → Option Bytes) true))
       | _ => false) = true := by decide

/-- **C39, the rest is false.** The private key of a relay's client certificate is sent to the server processes, also with
the crypto process. -/
theorem C39_relay_keys_sent :
    ∃ ms, mainConfigure exFiles (fun _ => true) exPConf = some ms ∧ (Proc.server, CMsg.proxyKey b%"p.key") ∈ ms ∧
      b%"p.key" ∈ relayKeys exPConf ∧ exPConf.privsep = true :=
  ⟨(mainConfigure exFiles (fun _ => true) exPConf).get (by decide), by simp, by decide, by decide, rfl⟩

/-- in the example the keys of the server blocks are in no message to a server process, but they are in those to the
crypto process -/
example : ∀ p ∈ serverKeys exPConf, p ∉ publicPaths exPConf ∧ p ∉ relayKeys exPConf := by decide
example : forProc .crypto ((mainConfigure exFiles (fun _ => true) exPConf).getD []) =
    [.start, .cert b%"a.pem", .key b%"a.key", .cert b%"b.pem", .key b%"b.key", .fin] := by decide

end Gmid.Props
