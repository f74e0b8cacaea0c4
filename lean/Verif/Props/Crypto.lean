import Verif.Spec.Crypto

/-!
# C54, C78-C80: the crypto process
-/

set_option autoImplicit false

namespace Gmid.Props

open Spec

variable {K : Type}

theorem getPkey_named {pkis : List (Bytes × Option K)} {hash : Bytes} {key : K} : getPkey hash pkis = some key ↔ NamedKey pkis hash key := by
  induction pkis with
  | nil =>
    refine ⟨fun h => (by cases h), ?_⟩
    rintro ⟨b, a, e, _⟩
    exact absurd e (by simp)
  | cons p r ih =>
    rw [getPkey]
    by_cases hp : p.1 = hash
    · rw [if_pos hp]
      constructor
      · intro h; exact ⟨[], r, by simp [← hp, ← h], by simp⟩
      · rintro ⟨b, a, e, hb⟩
        cases b with
        | nil => simp only [List.nil_append, List.cons.injEq] at e; rw [e.1]
        | cons x t => simp only [List.cons_append, List.cons.injEq] at e; exact absurd (e.1 ▸ hp) (hb x (by simp))
    · rw [if_neg hp, ih]
      constructor
      · rintro ⟨b, a, e, hb⟩
        exact ⟨p :: b, a, by rw [e]; rfl, fun x hx => (List.mem_cons.mp hx).elim (fun h => h ▸ hp) (hb x)⟩
      · rintro ⟨b, a, e, hb⟩
        cases b with
        | nil => simp only [List.nil_append, List.cons.injEq] at e; exact absurd (by rw [e.1]) hp
        | cons x t =>
          simp only [List.cons_append, List.cons.injEq] at e
          exact ⟨t, a, e.2, fun x hx => hb x (by simp [hx])⟩

theorem arrayStr_pad {h : Bytes} (h0 : (0 : UInt8) ∉ h) (hl : h.length < 128) : arrayStr (h ++ List.replicate (128 - h.length) 0) = some h := by
  unfold arrayStr
  have hr : List.replicate (128 - h.length) (0 : UInt8) = 0 :: List.replicate (127 - h.length) 0 := by
    have : 128 - h.length = (127 - h.length) + 1 := by omega
    rw [this, List.replicate_succ]
  rw [hr, if_pos (by simp), List.takeWhile_append_of_pos (by intro x hx; simp only [decide_eq_true_eq]; intro (e : x = 0); exact h0 (e ▸ hx))]
  simp

theorem ask_some {i : Nat} {id : UInt64} {c : KCall} {q : CReq} (h : cryptoAsk i id c = .ok q) :
    c.hash.length < 128 ∧ q = { type := c.op, pid := i + 1, id := id, hash := c.hash ++ List.replicate (128 - c.hash.length) 0, flen := c.from_.length, tlen := if c.op = .ecSign then 0 else c.size, padding := if c.op = .ecSign then 0 else c.padding, from_ := c.from_ } := by
  unfold cryptoAsk at h
  split at h
  · cases h
  · simp only [Res.ok.injEq] at h
    exact ⟨by omega, h.symm⟩

/-- a request, its handling and the reply -/
theorem round_trip {ops : KeyOps K} {pkis : List (Bytes × Option K)} {i j : Nat} {id : UInt64} {c : KCall} {q : CReq} {a : CRes} (h0 : (0 : UInt8) ∉ c.hash)
    (h1 : cryptoAsk i id c = .ok q) (h2 : cryptoDispatch ops pkis q = .ok (j, a)) :
    j = i ∧ ∃ key, NamedKey pkis c.hash key ∧ cryptoAnswer id c a ≠ .ub ∧ (∀ x, cryptoAnswer id c a = .ok x → x = performed ops key c) ∧
      ((c.op = .ecSign ∨ performed ops key c ≠ none) → cryptoAnswer id c a ≠ .err) := by
  obtain ⟨hl, rfl⟩ := ask_some h1
  simp only [cryptoDispatch, ne_eq, not_true_eq_false, if_false, arrayStr_pad h0 hl] at h2
  cases hk : getPkey c.hash pkis with
  | none => rw [hk] at h2; cases h2
  | some key =>
    rw [hk] at h2
    simp only at h2
    by_cases ho : c.op = .ecSign
    · rw [if_pos ho] at h2
      cases hi : ops.isEc key with
      | false => rw [hi] at h2; simp at h2
      | true =>
        rw [hi] at h2
        simp only [if_true] at h2
        cases he : ops.ec key c.from_ with
        | none =>
          rw [he] at h2
          simp only [Res.ok.injEq, Prod.mk.injEq, Nat.add_sub_cancel] at h2
          obtain ⟨rfl, rfl⟩ := h2
          refine ⟨rfl, key, getPkey_named.mp hk, ?_⟩
          simp [cryptoAnswer, ho, performed, he]
        | some s =>
          rw [he] at h2
          simp only [Res.ok.injEq, Prod.mk.injEq, Nat.add_sub_cancel] at h2
          obtain ⟨rfl, rfl⟩ := h2
          refine ⟨rfl, key, getPkey_named.mp hk, ?_⟩
          simp [cryptoAnswer, ho, performed, he]
    · rw [if_neg ho] at h2
      cases hz : ops.rsaSize key with
      | none => rw [hz] at h2; cases h2
      | some z =>
        rw [hz] at h2
        simp only [ho, if_false] at h2
        have hperf : ops.rsa (decide (c.op = .rsaEnc)) key c.from_ c.padding = performed ops key c := by
          cases hc : c.op <;> simp_all [performed]
        rw [hperf] at h2
        cases he : performed ops key c with
        | none =>
          rw [he] at h2
          simp only [Res.ok.injEq, Prod.mk.injEq, Nat.add_sub_cancel] at h2
          obtain ⟨rfl, rfl⟩ := h2
          refine ⟨rfl, key, getPkey_named.mp hk, ?_⟩
          simp [cryptoAnswer, ho, he]
        | some s =>
          rw [he] at h2
          simp only at h2
          split at h2
          · cases h2
          · simp only [Res.ok.injEq, Prod.mk.injEq, Nat.add_sub_cancel] at h2
            obtain ⟨rfl, rfl⟩ := h2
            refine ⟨rfl, key, getPkey_named.mp hk, ?_⟩
            cases s with
            | nil => simp [cryptoAnswer, ho, he]
            | cons x t =>
              have : ¬ (t.length : Int) + 1 = 0 := by omega
              have h3 : (0 : Int) < (t.length : Int) + 1 := by omega
              simp [cryptoAnswer, ho, he, h3]

/-- a server process between its calls, and during one -/
inductive KOk (ops : KeyOps K) (pkis : List (Bytes × Option K)) (i : Nat) (s : KSrv) : Prop where
  | rest (h1 : s.call = none) (h2 : s.out = []) (h3 : s.inn = [])
  | asked (c : KCall) (q : CReq) (h0 : (0 : UInt8) ∉ c.hash) (h1 : s.call = some c) (h2 : cryptoAsk i s.reqid c = .ok q) (h3 : s.out = [q]) (h4 : s.inn = [])
  | replied (c : KCall) (q : CReq) (a : CRes) (h0 : (0 : UInt8) ∉ c.hash) (h1 : s.call = some c) (h2 : cryptoAsk i s.reqid c = .ok q) (h3 : s.out = []) (h4 : s.inn = [a])
      (h5 : cryptoDispatch ops pkis q = .ok (i, a))

/-- the results so far -/
def KGood (ops : KeyOps K) (pkis : List (Bytes × Option K)) (s : KSrv) : Prop :=
  ∀ x ∈ s.log, ∃ key, NamedKey pkis x.1.hash key ∧ x.2 = performed ops key x.1

def KInv (ops : KeyOps K) (pkis : List (Bytes × Option K)) (pre : List KEv) (ss : List KSrv) : Prop :=
  ∀ (i : Nat) s, ss[i]? = some s → KOk ops pkis i s ∧ KGood ops pkis s ∧ (s.log.map (·.1) ++ s.call.toList).Sublist (asksOf i pre)

theorem asksOf_snoc (i : Nat) (pre : List KEv) (e : KEv) : asksOf i (pre ++ [e]) = asksOf i pre ++ asksOf i [e] := by simp [asksOf]

theorem kStep_inv {ops : KeyOps K} {pkis : List (Bytes × Option K)} {pre : List KEv} {ss ss' : List KSrv} {e : KEv} (hc : ∀ i c, e = .ask i c → (0 : UInt8) ∉ c.hash)
    (hi : KInv ops pkis pre ss) (h : kStep ops pkis ss e = .ok ss') : KInv ops pkis (pre ++ [e]) ss' := by
  have hmono : KInv ops pkis (pre ++ [e]) ss := by
    intro i s hs
    obtain ⟨a, b, c⟩ := hi i s hs
    exact ⟨a, b, by rw [asksOf_snoc]; exact c.trans (List.sublist_append_left ..)⟩
  have hset : ∀ (i : Nat) (s' : KSrv), KOk ops pkis i s' → KGood ops pkis s' → (s'.log.map (·.1) ++ s'.call.toList).Sublist (asksOf i (pre ++ [e])) →
      KInv ops pkis (pre ++ [e]) (ss.set i s') := by
    intro i s' a b c j t ht
    by_cases hj : i = j
    · subst hj
      rw [List.getElem?_set_self'] at ht
      cases hs : ss[i]? with
      | none => rw [hs] at ht; cases ht
      | some s => rw [hs] at ht; simp only [Option.map_eq_map, Option.map_some, Function.const_apply, Option.some.injEq] at ht; subst ht; exact ⟨a, b, c⟩
    · rw [List.getElem?_set_ne hj] at ht
      exact hmono j t ht
  cases e with
  | ask i c =>
    simp only [kStep] at h
    cases hs : ss[i]? with
    | none => rw [hs] at h; simp only [Res.ok.injEq] at h; subst h; exact hmono
    | some s =>
      rw [hs] at h
      simp only at h
      by_cases hn : s.call = none
      · rw [if_neg (by simp [hn])] at h
        cases ha : cryptoAsk i (s.reqid + 1) c with
        | ub => rw [ha] at h; cases h
        | err => rw [ha] at h; cases h
        | ok q =>
          rw [ha] at h
          simp only [Res.ok.injEq] at h
          subst h
          obtain ⟨a, b, d⟩ := hi i s hs
          have hout : s.out = [] ∧ s.inn = [] := by
            cases a with
            | rest h1 h2 h3 => exact ⟨h2, h3⟩
            | asked c q h0 h1 => rw [hn] at h1; cases h1
            | replied c q a h0 h1 => rw [hn] at h1; cases h1
          refine hset i _ (.asked c q (hc i c rfl) rfl ha (by simp [hout.1]) hout.2) b ?_
          rw [asksOf_snoc]
          rw [hn] at d
          simp only [Option.toList_none, List.append_nil] at d
          refine List.Sublist.append d ?_
          simp [asksOf]
      · rw [if_pos hn] at h
        simp only [Res.ok.injEq] at h; subst h; exact hmono
  | handle i =>
    simp only [kStep] at h
    cases hs : ss[i]? with
    | none => rw [hs] at h; simp only [Res.ok.injEq] at h; subst h; exact hmono
    | some s =>
      rw [hs] at h
      simp only at h
      obtain ⟨a, b, d⟩ := hmono i s hs
      cases ho : s.out with
      | nil => rw [ho] at h; simp only [Res.ok.injEq] at h; subst h; exact hmono
      | cons q r =>
        rw [ho] at h
        simp only at h
        cases hd : cryptoDispatch ops pkis q with
        | ub => rw [hd] at h; cases h
        | err => rw [hd] at h; cases h
        | ok x =>
          obtain ⟨j, y⟩ := x
          rw [hd] at h
          simp only at h
          cases a with
          | rest h1 h2 h3 => rw [ho] at h2; cases h2
          | replied c q a h0 h1 h2 h3 => rw [ho] at h3; cases h3
          | asked c q' h0 h1 h2 h3 h4 =>
            rw [ho] at h3
            simp only [List.cons.injEq] at h3
            obtain ⟨rfl, rfl⟩ := h3
            obtain ⟨rfl, key, _⟩ := round_trip h0 h2 hd
            have hlt : j < ss.length := (List.getElem?_eq_some_iff.mp hs).1
            rw [List.getElem?_set_self hlt] at h
            simp only [Res.ok.injEq, List.set_set] at h
            subst h
            exact hset j _ (.replied c q y h0 h1 h2 rfl (by simp [h4]) hd) b d
  | answer i =>
    simp only [kStep] at h
    cases hs : ss[i]? with
    | none => rw [hs] at h; simp only [Res.ok.injEq] at h; subst h; exact hmono
    | some s =>
      rw [hs] at h
      simp only at h
      obtain ⟨a, b, d⟩ := hmono i s hs
      cases a with
      | rest h1 h2 h3 => rw [h1] at h; simp only [Res.ok.injEq] at h; subst h; exact hmono
      | asked c q h0 h1 h2 h3 h4 => rw [h1, h4] at h; simp only [Res.ok.injEq] at h; subst h; exact hmono
      | replied c q y h0 h1 h2 h3 h4 h5 =>
        rw [h1, h4] at h
        simp only at h
        obtain ⟨_, key, k1, _, k3, _⟩ := round_trip h0 h2 h5
        cases hx : cryptoAnswer s.reqid c y with
        | ub => rw [hx] at h; cases h
        | err => rw [hx] at h; cases h
        | ok x =>
          rw [hx] at h
          simp only [Res.ok.injEq] at h
          subst h
          refine hset i _ (.rest rfl h3 rfl) ?_ ?_
          · intro z hz
            simp only [List.mem_append, List.mem_singleton] at hz
            rcases hz with hz | rfl
            · exact b z hz
            · exact ⟨key, k1, k3 x hx⟩
          · rw [h1] at d
            simpa using d

theorem kRun_inv {ops : KeyOps K} {pkis : List (Bytes × Option K)} (evs : List KEv) : ∀ {pre : List KEv} {ss ss' : List KSrv}, CStrings evs →
    KInv ops pkis pre ss → kRun ops pkis ss evs = .ok ss' → KInv ops pkis (pre ++ evs) ss' := by
  induction evs with
  | nil => intro pre ss ss' _ hi h; simp only [kRun, Res.ok.injEq] at h; subst h; simpa using hi
  | cons e r ih =>
    intro pre ss ss' hc hi h
    rw [kRun] at h
    cases h1 : kStep ops pkis ss e with
    | ub => rw [h1] at h; cases h
    | err => rw [h1] at h; cases h
    | ok s1 =>
      rw [h1] at h
      have := ih (fun e he => hc e (by simp [he])) (kStep_inv (fun i c he => hc e (by simp) i c he) hi h1) h
      simpa using this

theorem atRest_inv {ops : KeyOps K} {pkis : List (Bytes × Option K)} {ss : List KSrv} (h : AtRest ss) : KInv ops pkis [] ss := by
  intro i s hs
  obtain ⟨a, b, c, d⟩ := h s (List.mem_of_getElem? hs)
  exact ⟨.rest a b c, by simp [KGood, d], by simp [a, d]⟩

/-- **C54.** Whatever the interleaving of the calls of any number of server processes, every call that returned has the result of the operation it
asked for, on its data, with the key whose hash it named; and a process gets the results of its own calls, in their order. -/
theorem C54_right_key (ops : KeyOps K) (pkis : List (Bytes × Option K)) (ss ss' : List KSrv) (evs : List KEv) (h0 : AtRest ss) (hc : CStrings evs)
    (h : kRun ops pkis ss evs = .ok ss') (i : Nat) (s : KSrv) (hs : ss'[i]? = some s) :
    (∀ x ∈ s.log, ∃ key, NamedKey pkis x.1.hash key ∧ x.2 = performed ops key x.1) ∧ (s.log.map (·.1)).Sublist (asksOf i evs) := by
  obtain ⟨_, b, c⟩ := kRun_inv evs hc (atRest_inv h0) h i s hs
  exact ⟨b, (List.sublist_append_left ..).trans (by simpa using c)⟩

/-- keys for the examples: (number, size) -/
def exKeyOps : KeyOps (Nat × Nat) where
  rsaSize := fun k => if k.1 = 9 then none else some k.2
  rsa := fun enc k d p => if p = 0 then none else some ((if enc then 1 else 2) :: UInt8.ofNat k.1 :: d)
  isEc := fun k => k.1 = 9
  ec := fun _ d => if d = [] then none else some (99 :: d)
def exPkis : List (Bytes × Option (Nat × Nat)) := [(b%"SHA256:aa", some (1, 64)), (b%"SHA256:bb", some (9, 64)), (b%"SHA256:aa", some (2, 64))]
def exKEvs : List KEv :=
  [.ask 0 ⟨.rsaEnc, b%"SHA256:aa", 64, [5], 1⟩, .ask 1 ⟨.ecSign, b%"SHA256:bb", 0, [6], 0⟩, .handle 1, .handle 0, .answer 0, .answer 1, .ask 1 ⟨.rsaDec, b%"SHA256:aa", 64, [7], 1⟩,
   .handle 1, .answer 1]

example : (kRun exKeyOps exPkis [{}, {}] exKEvs).val?.map (fun ss => ss.map fun s => s.log.map (·.2)) = some [[some [1, 1, 5]], [some [99, 6], some [2, 1, 7]]] := by decide +kernel
example : AtRest [{}, {}] ∧ CStrings exKEvs := by
  refine ⟨by simp [AtRest], ?_⟩
  intro e he i c hc
  simp only [exKEvs, List.mem_cons, List.not_mem_nil, or_false] at he
  rcases he with rfl | rfl | rfl | rfl | rfl | rfl | rfl | rfl | rfl <;> cases hc <;> decide

/-! ## C78 -/

theorem dispatch_ok {ops : KeyOps K} {pkis : List (Bytes × Option K)} {i : Nat} {id : UInt64} {c : KCall} {q : CReq} (h0 : (0 : UInt8) ∉ c.hash)
    (hk : KeyThere ops pkis c) (h1 : cryptoAsk i id c = .ok q) : ∃ a, cryptoDispatch ops pkis q = .ok (i, a) := by
  obtain ⟨hl, rfl⟩ := ask_some h1
  obtain ⟨_, key, hn, hkind⟩ := hk
  have hg := getPkey_named.mpr hn
  simp only [cryptoDispatch, ne_eq, not_true_eq_false, if_false, arrayStr_pad h0 hl, hg, Nat.add_sub_cancel]
  by_cases ho : c.op = .ecSign
  · rw [if_pos ho] at hkind ⊢
    rw [if_pos hkind]
    cases ops.ec key c.from_ with
    | none => exact ⟨_, rfl⟩
    | some s => exact ⟨_, rfl⟩
  · rw [if_neg ho] at hkind ⊢
    rw [hkind.1]
    simp only [ho, if_false]
    have hperf : ops.rsa (decide (c.op = .rsaEnc)) key c.from_ c.padding = performed ops key c := by
      cases hc : c.op <;> simp_all [performed]
    rw [hperf]
    cases he : performed ops key c with
    | none => exact ⟨_, rfl⟩
    | some s =>
      have := hkind.2 s he
      simp only
      rw [if_neg (by omega)]
      exact ⟨_, rfl⟩

/-- every pending call is for a key that is there, and works if it is RSA -/
def Pending (ops : KeyOps K) (pkis : List (Bytes × Option K)) (ss : List KSrv) : Prop :=
  ∀ s ∈ ss, ∀ c, s.call = some c → KeyThere ops pkis c ∧ RsaWorks ops pkis c

theorem kStep_ok {ops : KeyOps K} {pkis : List (Bytes × Option K)} {pre : List KEv} {ss : List KSrv} {e : KEv}
    (hc : ∀ i c, e = .ask i c → (0 : UInt8) ∉ c.hash ∧ KeyThere ops pkis c ∧ RsaWorks ops pkis c) (hi : KInv ops pkis pre ss) (hp : Pending ops pkis ss) :
    ∃ ss', kStep ops pkis ss e = .ok ss' ∧ Pending ops pkis ss' := by
  have hset : ∀ (l : List KSrv) (i : Nat) (s' : KSrv), Pending ops pkis l → (∀ c, s'.call = some c → KeyThere ops pkis c ∧ RsaWorks ops pkis c) → Pending ops pkis (l.set i s') := by
    intro l i s' hl h s hs
    rcases List.mem_or_eq_of_mem_set hs with hs | rfl
    · exact hl s hs
    · exact h
  cases e with
  | ask i c =>
    simp only [kStep]
    cases hs : ss[i]? with
    | none => exact ⟨_, rfl, hp⟩
    | some s =>
      simp only
      by_cases hn : s.call = none
      · rw [if_neg (by simp [hn])]
        obtain ⟨c0, ck, cr⟩ := hc i c rfl
        unfold cryptoAsk
        rw [if_neg (by have := ck.1; omega)]
        refine ⟨_, rfl, hset ss i _ hp ?_⟩
        intro c' h; simp only [Option.some.injEq] at h; subst h; exact ⟨ck, cr⟩
      · rw [if_pos hn]; exact ⟨_, rfl, hp⟩
  | handle i =>
    simp only [kStep]
    cases hs : ss[i]? with
    | none => exact ⟨_, rfl, hp⟩
    | some s =>
      simp only
      obtain ⟨a, _, _⟩ := hi i s hs
      cases a with
      | rest h1 h2 h3 => rw [h2]; exact ⟨_, rfl, hp⟩
      | replied c q a h0 h1 h2 h3 => rw [h3]; exact ⟨_, rfl, hp⟩
      | asked c q h0 h1 h2 h3 h4 =>
        rw [h3]
        obtain ⟨pk, pr⟩ := hp s (List.mem_of_getElem? hs) c h1
        obtain ⟨a, hd⟩ := dispatch_ok h0 pk h2
        simp only [hd]
        have hlt : i < ss.length := (List.getElem?_eq_some_iff.mp hs).1
        rw [List.getElem?_set_self hlt]
        simp only
        refine ⟨_, rfl, hset _ i _ (hset ss i _ hp ?_) ?_⟩
        · exact hp s (List.mem_of_getElem? hs)
        · exact hp s (List.mem_of_getElem? hs)
  | answer i =>
    simp only [kStep]
    cases hs : ss[i]? with
    | none => exact ⟨_, rfl, hp⟩
    | some s =>
      simp only
      obtain ⟨a, _, _⟩ := hi i s hs
      cases a with
      | rest h1 h2 h3 => rw [h1]; exact ⟨_, rfl, hp⟩
      | asked c q h0 h1 h2 h3 h4 => rw [h1, h4]; exact ⟨_, rfl, hp⟩
      | replied c q y h0 h1 h2 h3 h4 h5 =>
        rw [h1, h4]
        simp only
        obtain ⟨_, key, k1, k2, _, k4⟩ := round_trip h0 h2 h5
        obtain ⟨pk, pr⟩ := hp s (List.mem_of_getElem? hs) c h1
        have hne : cryptoAnswer s.reqid c y ≠ .err := by
          refine k4 ?_
          by_cases ho : c.op = .ecSign
          · exact .inl ho
          · exact .inr (pr ho key k1)
        cases hx : cryptoAnswer s.reqid c y with
        | ub => exact absurd hx k2
        | err => exact absurd hx hne
        | ok x => exact ⟨_, rfl, hset ss i _ hp (by intro c h; cases h)⟩

theorem kRun_ok {ops : KeyOps K} {pkis : List (Bytes × Option K)} (evs : List KEv) : ∀ {pre : List KEv} {ss : List KSrv},
    (∀ e ∈ evs, ∀ i c, e = .ask i c → (0 : UInt8) ∉ c.hash ∧ KeyThere ops pkis c ∧ RsaWorks ops pkis c) → KInv ops pkis pre ss → Pending ops pkis ss →
    ∃ ss', kRun ops pkis ss evs = .ok ss' ∧ Pending ops pkis ss' := by
  induction evs with
  | nil => intro pre ss _ _ hp; exact ⟨ss, rfl, hp⟩
  | cons e r ih =>
    intro pre ss hc hi hp
    obtain ⟨s1, h1, h2⟩ := kStep_ok (fun i c he => hc e (by simp) i c he) hi hp
    obtain ⟨s2, h3, h4⟩ := ih (fun e he => hc e (by simp [he])) (kStep_inv (fun i c he => (hc e (by simp) i c he).1) hi h1) h2
    exact ⟨s2, by rw [kRun, h1]; exact h3, h4⟩

/-- **C78, in part.** If the keys named are there and RSA operations succeed, no process ever ends, and a call that is pending returns once the
crypto process has handled its request and the reply is read: with the result, or with a failure if signing failed. -/
theorem C78_answered_partial (ops : KeyOps K) (pkis : List (Bytes × Option K)) (ss : List KSrv) (evs : List KEv) (h0 : AtRest ss) (hc : CStrings evs)
    (hk : ∀ e ∈ evs, ∀ i c, e = .ask i c → KeyThere ops pkis c ∧ RsaWorks ops pkis c) :
    ∃ ss', kRun ops pkis ss evs = .ok ss' ∧
      ∀ (i : Nat) s c, ss'[i]? = some s → s.call = some c →
        ∃ ss'' t key, kRun ops pkis ss' [.handle i, .answer i] = .ok ss'' ∧ ss''[i]? = some t ∧ t.call = none ∧ NamedKey pkis c.hash key ∧ t.log = s.log ++ [(c, performed ops key c)] := by
  have hall : ∀ e ∈ evs, ∀ i c, e = .ask i c → (0 : UInt8) ∉ c.hash ∧ KeyThere ops pkis c ∧ RsaWorks ops pkis c :=
    fun e he i c h => ⟨hc e he i c h, hk e he i c h⟩
  obtain ⟨ss', h1, h2⟩ := kRun_ok evs hall (atRest_inv h0) (fun s hs c h => by rw [(h0 s hs).1] at h; cases h)
  refine ⟨ss', h1, fun i s c hs hcall => ?_⟩
  have hinv := kRun_inv evs hc (atRest_inv h0) h1
  have hlt : i < ss'.length := (List.getElem?_eq_some_iff.mp hs).1
  obtain ⟨pk, pr⟩ := h2 s (List.mem_of_getElem? hs) c hcall
  -- the reply
  have fin : ∀ (l : List KSrv) (s' : KSrv) q a, l[i]? = some s' → s'.call = some c → s'.reqid = s.reqid → (0 : UInt8) ∉ c.hash → cryptoAsk i s.reqid c = .ok q →
      s'.inn = [a] → cryptoDispatch ops pkis q = .ok (i, a) → s'.log = s.log →
      ∃ l' t key, kStep ops pkis l (.answer i) = .ok l' ∧ l'[i]? = some t ∧ t.call = none ∧ NamedKey pkis c.hash key ∧ t.log = s.log ++ [(c, performed ops key c)] := by
    intro l s' q a hl e1 e2 e3 e4 e5 e6 e7
    obtain ⟨_, key, k1, k2, k3, k4⟩ := round_trip e3 e4 e6
    have hne : cryptoAnswer s.reqid c a ≠ .err := by
      refine k4 ?_
      by_cases ho : c.op = .ecSign
      · exact .inl ho
      · exact .inr (pr ho key k1)
    simp only [kStep, hl, e1, e5, e2]
    have hll : i < l.length := (List.getElem?_eq_some_iff.mp hl).1
    cases hx : cryptoAnswer s.reqid c a with
    | ub => exact absurd hx k2
    | err => exact absurd hx hne
    | ok x =>
      refine ⟨_, _, key, rfl, List.getElem?_set_self hll, rfl, k1, ?_⟩
      simp [e7, k3 x hx]
  obtain ⟨a, _, _⟩ := hinv i s hs
  cases a with
  | rest e1 => rw [hcall] at e1; cases e1
  | replied c' q y e0 e1 e2 e3 e4 e5 =>
    rw [hcall] at e1
    simp only [Option.some.injEq] at e1
    subst e1
    obtain ⟨l', t, key, f1, f2, f3, f4, f5⟩ := fin ss' s q y hs hcall rfl e0 e2 e4 e5 rfl
    have hh : kStep ops pkis ss' (.handle i) = .ok ss' := by simp only [kStep, hs, e3]
    exact ⟨l', t, key, by simp only [kRun, hh, f1], f2, f3, f4, f5⟩
  | asked c' q e0 e1 e2 e3 e4 =>
    rw [hcall] at e1
    simp only [Option.some.injEq] at e1
    subst e1
    obtain ⟨a, hd⟩ := dispatch_ok e0 pk e2
    have hh : kStep ops pkis ss' (.handle i) = .ok (ss'.set i { s with out := [], inn := [a] }) := by
      simp only [kStep, hs, e3, hd, List.getElem?_set_self hlt, e4, List.nil_append, List.set_set]
    obtain ⟨l', t, key, f1, f2, f3, f4, f5⟩ := fin _ { s with out := [], inn := [a] } q a (List.getElem?_set_self hlt) hcall rfl e0 e2 rfl hd rfl
    exact ⟨l', t, key, by simp only [kRun, hh, f1], f2, f3, f4, f5⟩

/-- **C78, the rest is false.** When an RSA operation fails, the server process that asked for it ends. -/
theorem C78_rsa_failure_fatal :
    kRun exKeyOps exPkis [{}] [.ask 0 ⟨.rsaDec, b%"SHA256:aa", 64, [5], 0⟩, .handle 0] ≠ .err ∧
    kRun exKeyOps exPkis [{}] [.ask 0 ⟨.rsaDec, b%"SHA256:aa", 64, [5], 0⟩, .handle 0, .answer 0] = .err := by decide +kernel

example : KeyThere exKeyOps exPkis ⟨.rsaEnc, b%"SHA256:aa", 64, [5], 1⟩ ∧ RsaWorks exKeyOps exPkis ⟨.rsaEnc, b%"SHA256:aa", 64, [5], 1⟩ := by
  refine ⟨⟨by decide, (1, 64), ⟨[], _, rfl, by simp⟩, ?_⟩, ?_⟩
  · rw [if_neg (by decide)]
    refine ⟨rfl, fun s hs => ?_⟩
    have : s = [1, 1, 5] := by
      have h : performed exKeyOps (1, 64) ⟨.rsaEnc, b%"SHA256:aa", 64, [5], 1⟩ = some [1, 1, 5] := by decide
      rw [h] at hs
      exact (Option.some.inj hs).symm
    subst this
    decide
  · intro _ key _
    simp [performed, exKeyOps]

/-! ## C79 -/

/-- what the crypto process receives: a message of a reload, or a request -/
inductive CryptoEv where
  | parent (m : CMsg Unit Unit Unit Unit Unit)
  | request (q : CReq)

/-- crypto.c:80-96, 111-232: one message; `.err`: the process ends -/
def cryptoEv (files : Bytes → Option Bytes) (hash : Bytes → Option Bytes) (loadKey : Bytes → Option K) (ops : KeyOps K)
    (s : WState Unit Unit Unit Unit Unit Unit K) : CryptoEv → Res (WState Unit Unit Unit Unit Unit Unit K)
  | .parent m => configRecv files (fun _ => none) hash loadKey .crypto s m
  | .request q =>
    match cryptoDispatch ops s.pkis q with
    | .ub => .ub
    | .err => .err
    | .ok _ => .ok s

def cryptoEvs (files : Bytes → Option Bytes) (hash : Bytes → Option Bytes) (loadKey : Bytes → Option K) (ops : KeyOps K)
    (s : WState Unit Unit Unit Unit Unit Unit K) : List CryptoEv → Res (WState Unit Unit Unit Unit Unit Unit K)
  | [] => .ok s
  | e :: r =>
    match cryptoEv files hash loadKey ops s e with
    | .ub => .ub
    | .err => .err
    | .ok s => cryptoEvs files hash loadKey ops s r

/-- the messages of a reload -/
def parentMsgs : List CryptoEv → List (CMsg Unit Unit Unit Unit Unit)
  | [] => []
  | .parent m :: r => m :: parentMsgs r
  | .request _ :: r => parentMsgs r

/-- **C79, in part.** A crypto process goes on through a reload, with any requests in between, exactly as it would without them, as long as each
request finds its key. -/
theorem C79_reload_partial (files : Bytes → Option Bytes) (hash : Bytes → Option Bytes) (loadKey : Bytes → Option K) (ops : KeyOps K) (evs : List CryptoEv) :
    ∀ (s s' : WState Unit Unit Unit Unit Unit Unit K),
      recvAll files (fun _ => none) hash loadKey .crypto s (parentMsgs evs) = .ok s' →
      (∀ (pre : List CryptoEv) q post, evs = pre ++ .request q :: post → ∀ t, recvAll files (fun _ => none) hash loadKey .crypto s (parentMsgs pre) = .ok t →
        ∃ a, cryptoDispatch ops t.pkis q = .ok a) →
      cryptoEvs files hash loadKey ops s evs = .ok s' := by
  induction evs with
  | nil => intro s s' h _; simpa [parentMsgs, recvAll, cryptoEvs] using h
  | cons e r ih =>
    intro s s' h hq
    cases e with
    | parent m =>
      rw [parentMsgs, recvAll] at h
      rw [cryptoEvs, cryptoEv]
      cases h1 : configRecv files (fun _ => none) hash loadKey .crypto s m with
      | ub => rw [h1] at h; cases h
      | err => rw [h1] at h; cases h
      | ok s1 =>
        rw [h1] at h
        simp only at h ⊢
        refine ih s1 s' h fun pre q post he t ht => ?_
        refine hq (.parent m :: pre) q post (by rw [he]; rfl) t ?_
        rw [parentMsgs, recvAll, h1]
        exact ht
    | request q =>
      rw [parentMsgs] at h
      obtain ⟨a, ha⟩ := hq [] q r rfl s rfl
      rw [cryptoEvs, cryptoEv, ha]
      refine ih s s' h fun pre q' post he t ht => ?_
      exact hq (.request q :: pre) q' post (by rw [he]; rfl) t ht

/-- the request of a server process for the key with hash "aa" -/
def exCReq : CReq := { type := .rsaEnc, pid := 1, id := 1, hash := b%"aa" ++ List.replicate 126 0, flen := 1, tlen := 64, padding := 1, from_ := [5] }

/-- **C79, the rest is false.** While a reload with the same certificate and key is in progress, a request for that key ends the crypto process: a handshake
at that moment takes the daemon down. -/
theorem C79_request_during_reload :
    let files : Bytes → Option Bytes := fun p => some p
    let hash : Bytes → Option Bytes := fun d => if d = b%"/c" then some b%"aa" else none
    let key : Bytes → Option (Nat × Nat) := fun d => if d = b%"/k" then some (1, 64) else none
    let s : WState Unit Unit Unit Unit Unit Unit (Nat × Nat) := { pkis := [(b%"aa", some (1, 64))] }
    (cryptoEvs files hash key exKeyOps s [.request exCReq, .parent .start, .parent (.cert b%"/c"), .parent (.key b%"/k"), .parent .fin, .request exCReq]).val?.map (·.pkis)
      = some [(b%"aa", some (1, 64))] ∧
    cryptoEvs files hash key exKeyOps s [.parent .start, .request exCReq] = .err ∧
    cryptoEvs files hash key exKeyOps s [.parent .start, .parent (.cert b%"/c"), .request exCReq] = .err := by decide +kernel

/-! ## C80 -/

/-- **C80, in part.** No request makes the crypto process read or write outside of its buffers if the hash in it is terminated and the room it announces is at least
that needed by the key. -/
theorem C80_bounds_partial (ops : KeyOps K) (pkis : List (Bytes × Option K)) (q : CReq) (h1 : (0 : UInt8) ∈ q.hash)
    (h2 : ∀ key n, ops.rsaSize key = some n → n ≤ q.tlen) (h3 : ∀ key n enc d p s, ops.rsaSize key = some n → ops.rsa enc key d p = some s → s.length ≤ n) :
    cryptoDispatch ops pkis q ≠ .ub := by
  unfold cryptoDispatch
  split
  · simp
  · unfold arrayStr
    rw [if_pos h1]
    simp only
    cases hk : getPkey (q.hash.takeWhile fun c => decide (c ≠ 0)) pkis with
    | none => simp
    | some key =>
      simp only
      split
      · split
        · split <;> simp
        · simp
      · cases hz : ops.rsaSize key with
        | none => simp
        | some n =>
          simp only
          cases hr : ops.rsa (decide (q.type = .rsaEnc)) key q.from_ q.padding with
          | none => simp
          | some s =>
            have a := h2 key n hz
            have b := h3 key n _ _ _ s hz hr
            simp only
            rw [if_neg (by omega)]
            simp

/-- **C80, the rest is false.** The room is the one the request announces: with less than the key needs, the crypto process writes past the end of
its buffer; and a hash that fills its array is read past its end. -/
theorem C80_overflow :
    cryptoDispatch exKeyOps [(b%"aa", some (1, 64))] { exCReq with tlen := 2 } = .ub ∧
    cryptoDispatch exKeyOps [(b%"aa", some (1, 64))] { exCReq with hash := List.replicate 128 c%'a' } = .ub ∧
    cryptoDispatch exKeyOps [(b%"aa", some (1, 64))] exCReq = .ok (0, { type := .rsaEnc, id := 1, ret := 3, len := 3, data := [1, 1, 5] }) := by decide +kernel

end Gmid.Props
