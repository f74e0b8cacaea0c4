import Verif.Lemmas.LogName
import Verif.Spec.LogName
import Verif.Props.Vis
import Verif.Props.Reply

/-!
# C122, C123: the log of gmid and gemexp, with the pointers it is made from
-/

set_option autoImplicit false

namespace Gmid.Props
open Gmid Gmid.Spec

/-- the fields of a request that has been looked at, where the older model has them -/
def withPtrs (l : LogIn) (p : IriPtrs) : LogIn :=
  { l with schema := p.schema, host := p.host.getD [], path := p.path.getD [], query := p.query.getD [] }

theorem logIri_host (l : LogIn) (h : Bytes) (hd : l.domain ≠ []) : logIri { l with host := h } = logIri l := by
  unfold logIri
  simp only [if_pos hd]

theorem logIriP_ok (l : LogIn) (p : IriPtrs) (hp : NotYet p ∨ LookedAt p) : logIriP l p = .ok (logIri (withPtrs l p)) := by
  rcases hp with ⟨h1, h2, h3, h4⟩ | ⟨⟨s, h1⟩, ⟨h, h2⟩, ⟨a, h3⟩, ⟨q, h4⟩⟩
  · unfold logIriP; rw [h1]; simp only [withPtrs, h1, h2, h3, h4]
    unfold logIri; rfl
  · unfold logIriP withPtrs
    rw [h1, h2, h3, h4]
    simp only [Option.getD_some]
    split
    · rfl
    · rename_i hd
      rw [← logIri_host _ h (by exact hd)]

theorem logHostP_ub (l : LogIn) (p : IriPtrs) : logHostP l p = .ub ↔ l.domain = [] ∧ p.host = none := by
  unfold logHostP
  split
  · rename_i h; cases p.host <;> simp [h]
  · rename_i h; simp [h]

theorem logHostP_ok (l : LogIn) (p : IriPtrs) (h : ¬ (l.domain = [] ∧ p.host = none)) :
    logHostP l p = .ok (if l.domain = [] then p.host.getD [] else l.domain) := by
  unfold logHostP
  split
  · rename_i hd
    cases hh : p.host with
    | none => exact absurd ⟨hd, hh⟩ h
    | some x => simp
  · rfl

theorem notYet_host (p : IriPtrs) (hp : NotYet p ∨ LookedAt p) : p.host = none ↔ NotYet p := by
  rcases hp with h | ⟨_, ⟨x, h⟩, _⟩
  · exact ⟨fun _ => h, fun h => h.2.1⟩
  · constructor
    · intro h2; rw [h] at h2; cases h2
    · intro h2; exact h2.2.1

/-- once it is defined, it is the text of Model/Vis -/
theorem logRequestP_eq (l : LogIn) (p : IriPtrs) (hp : NotYet p ∨ LookedAt p)
    (h : ¬ (l.domain = [] ∧ p.host = none) ∨ ¬ ShowsHost l.format) (cn : Bytes) (hcn : logCn l = some cn) :
    ∃ t, logRequestP l p = .ok t ∧ logRequest (withPtrs l p) = some t := by
  have hcn' : logCn (withPtrs l p) = some cn := hcn
  unfold logRequestP
  rw [logIriP_ok l p hp, hcn]
  unfold logRequest
  rw [hcn']
  simp only [Option.map_some]
  cases hf : l.format with
  | legacy => exact ⟨_, rfl, by simp only [withPtrs, hf]⟩
  | combined => exact ⟨_, rfl, by simp only [withPtrs, hf]⟩
  | condensed =>
    have h : ¬ (l.domain = [] ∧ p.host = none) := h.resolve_right (fun h => h (.inl hf))
    simp only
    rw [logHostP_ok l p h]
    refine ⟨_, rfl, ?_⟩
    simp only [withPtrs, hf]
  | common =>
    have h : ¬ (l.domain = [] ∧ p.host = none) := h.resolve_right (fun h => h (.inr hf))
    simp only
    rw [logHostP_ok l p h]
    refine ⟨_, rfl, ?_⟩
    simp only [withPtrs, hf]

/-- **C122 (partial)** Logging a reply is defined, and gives the text of the format, except in one case: no name is known for the connection, its request has not been looked at, and
the format is one that shows the name.  The full claim has no exception: `C122_undefined`. -/
theorem C122_defined_partial (l : LogIn) (p : IriPtrs) (hp : NotYet p ∨ LookedAt p) :
    ((∃ t, logRequestP l p = .ok t ∧ logRequest (withPtrs l p) = some t) ↔ ¬ (l.domain = [] ∧ NotYet p ∧ ShowsHost l.format)) ∧
    (logRequestP l p = .ub ↔ l.domain = [] ∧ NotYet p ∧ ShowsHost l.format) := by
  obtain ⟨cn, hcn, -⟩ := logCn_ok l
  rw [← notYet_host p hp]
  by_cases h : l.domain = [] ∧ p.host = none ∧ ShowsHost l.format
  · have hu : logRequestP l p = .ub := by
      unfold logRequestP
      rw [logIriP_ok l p hp, hcn]
      obtain ⟨h1, h2, h3⟩ := h
      have := (logHostP_ub l p).2 ⟨h1, h2⟩
      rcases h3 with h3 | h3 <;> (rw [h3]; simp only; rw [this])
    refine ⟨⟨fun ⟨t, ht, _⟩ => ?_, fun h2 => absurd h h2⟩, fun _ => h, fun _ => hu⟩
    rw [hu] at ht; cases ht
  · obtain ⟨t, ht, ht2⟩ := logRequestP_eq l p hp (by
      by_cases h1 : ShowsHost l.format
      · exact .inl fun h2 => h ⟨h2.1, h2.2, h1⟩
      · exact .inr h1) cn hcn
    refine ⟨⟨fun _ => h, fun _ => ⟨t, ht, ht2⟩⟩, fun h2 => ?_, fun h2 => absurd h2 h⟩
    rw [ht] at h2; cases h2

/-- **C122 (partial)** The same for gemexp, which always shows the name. -/
theorem C122_gemexp_partial (l : LogIn) (p : IriPtrs) (hp : NotYet p ∨ LookedAt p) :
    ((∃ t, geLogRequestP l p = .ok t) ↔ ¬ (l.domain = [] ∧ NotYet p)) ∧ (geLogRequestP l p = .ub ↔ l.domain = [] ∧ NotYet p) := by
  obtain ⟨cn, hcn, -⟩ := logCn_ok l
  rw [← notYet_host p hp]
  by_cases h : l.domain = [] ∧ p.host = none
  · have hu : geLogRequestP l p = .ub := by
      unfold geLogRequestP
      rw [logIriP_ok l p hp, hcn]
      simp only
      rw [(logHostP_ub l p).2 h]
    refine ⟨⟨fun ⟨t, ht⟩ => ?_, fun h2 => absurd h h2⟩, fun _ => h, fun _ => hu⟩
    rw [hu] at ht; cases ht
  · have hu : ∃ t, geLogRequestP l p = .ok t := by
      unfold geLogRequestP
      rw [logIriP_ok l p hp, hcn]
      simp only
      rw [logHostP_ok l p h]
      exact ⟨_, rfl⟩
    obtain ⟨t, ht⟩ := hu
    refine ⟨⟨fun _ => h, fun _ => ⟨t, ht⟩⟩, fun h2 => ?_, fun h2 => absurd h2 h⟩
    rw [ht] at h2; cases h2

/-- **C122 (partial)** A connection with a name keeps it: whatever happens on it, every reply is logged, by gmid in every format and by gemexp.
The full claim is about every connection. -/
theorem C122_connection_partial (env : Env) (sni : Option Bytes) (name : Bytes) (bufsiz : Nat) (evs : List (Env × Ev)) (c' : Client) (l : LogIn) (p : IriPtrs)
    (hn : Negotiated env sni name) (hne : name ≠ []) (hr : runEvents bufsiz evs (handshakeDone env sni {}) = .ok c')
    (hd : l.domain = c'.domain) (hp : NotYet p ∨ LookedAt p) :
    l.domain = name ∧ (∃ t, logRequestP l p = .ok t) ∧ ∃ t, geLogRequestP l p = .ok t := by
  have h1 : (handshakeDone env sni {}).domain = name := by
    rw [handshake_name env sni name _ hn]
    split
    · rfl
    · rw [startReply_domain]
  have h2 : l.domain = name := by rw [hd, run_domain _ _ _ _ hr, h1]
  refine ⟨h2, ?_, ?_⟩
  · obtain ⟨t, ht, _⟩ := (C122_defined_partial l p hp).1.2 (fun h => hne (h2 ▸ h.1))
    exact ⟨t, ht⟩
  · exact (C122_gemexp_partial l p hp).1.2 (fun h => hne (h2 ▸ h.1))

/-! ## the name of a connection -/

theorem splitDot_plain (l rest : Bytes) (hr : rest = [] ∨ rest.head? = some c%'.') (hl : c%'.' ∉ l) :
    splitDot (l ++ rest) = l :: (match rest with | [] => [] | _ :: r => splitDot r) := by
  induction l with
  | nil =>
    cases rest with
    | nil => rfl
    | cons a r =>
      have ha : a = c%'.' := by
        rcases hr with h | h
        · cases h
        · simpa using h
      subst ha
      rw [List.nil_append, splitDot, if_pos rfl]
  | cons a l ih =>
    have ha : a ≠ c%'.' := fun h => hl (by rw [h]; simp)
    rw [List.cons_append, splitDot, if_neg ha, ih (fun h => hl (List.mem_cons_of_mem _ h))]

theorem first_nul {m : Bytes} (h : (0 : UInt8) ∈ m) : ∃ x t, m = x ++ 0 :: t ∧ (0 : UInt8) ∉ x := by
  induction m with
  | nil => cases h
  | cons a m ih =>
    by_cases ha : a = 0
    · exact ⟨[], m, by rw [ha]; rfl, by simp⟩
    · obtain ⟨x, t, h1, h2⟩ := ih ((List.mem_cons.1 h).resolve_left (fun h => ha h.symm))
      exact ⟨a :: x, t, by rw [h1]; rfl, by simp only [List.mem_cons, not_or]; exact ⟨fun h => ha h.symm, h2⟩⟩

theorem strlcat_head (m : Bytes) (a : UInt8) (k : Nat) (m2 : Bytes) (hm : m.head? = some a) (ha : a ≠ 0)
    (h : strlcat m b%"." m.length = some (m2, k)) : m2.head? = some a := by
  cases m with
  | nil => cases hm
  | cons b m =>
    simp only [List.head?_cons, Option.some.injEq] at hm
    subst hm
    by_cases h0 : (0 : UInt8) ∈ m
    · obtain ⟨x, t, he, hx⟩ := first_nul h0
      rw [strlcat_eq (b :: m) b%"." (b :: x) t (b :: m).length (by rw [he]; rfl)
        (by simp only [List.mem_cons, not_or]; exact ⟨fun h => ha h.symm, hx⟩) (by rw [he]; simp) (Nat.le_refl _)] at h
      cases h
      unfold put
      simp
    · rw [strlcat_full (b :: m) b%"." _ (Nat.le_refl _) (by
        rw [List.take_length]; simp only [List.mem_cons, not_or]; exact ⟨fun h => ha h.symm, h0⟩)] at h
      cases h; rfl

theorem loopB_head (rest : List Bytes) (m : Bytes) (a : UInt8) (l : Bytes) (b : Bool) (m' : Bytes) (hl : l.head? = some a) (ha : a ≠ 0) (h64 : l.length < 64)
    (hx : l.take 4 ≠ b%"xn--") (hm : m ≠ []) (h : punyLoopB (l :: rest) m = .ok (b, m')) : m'.head? = some a := by
  unfold punyLoopB at h
  rw [if_neg (by omega)] at h
  have e : punyDecodeLabelB l m = .ok (true, (l ++ List.replicate m.length 0).take m.length) := by
    unfold punyDecodeLabelB; rw [if_pos hx]
  rw [e] at h
  have hh : ((l ++ List.replicate m.length 0).take m.length).head? = some a := by
    cases l with
    | nil => cases hl
    | cons x l =>
      cases m with
      | nil => exact absurd rfl hm
      | cons y m => simpa using hl
  revert h hh
  generalize (l ++ List.replicate m.length 0).take m.length = m1
  intro h hh
  cases rest with
  | nil => cases h; exact hh
  | cons l2 rest =>
    simp only at h
    cases hc : strlcat m1 b%"." m1.length with
    | none => rw [hc] at h; cases h
    | some x =>
      obtain ⟨m2, k⟩ := x
      rw [hc] at h
      simp only at h
      have h2 := strlcat_head m1 a k m2 hh ha hc
      split at h
      · cases h; exact h2
      · split at h
        · cases h
        · cases hq : punyLoopB (l2 :: rest) (m2.drop (cstr m2).length) with
          | ok y =>
            obtain ⟨b2, t⟩ := y
            rw [hq] at h
            cases h
            cases m2 with
            | nil => cases h2
            | cons z m2 =>
              simp only [List.head?_cons, Option.some.injEq] at h2
              subst h2
              have : (cstr (z :: m2)).length = (cstr m2).length + 1 := by
                unfold cstr; rw [List.takeWhile_cons, if_pos (by simpa using ha)]; rfl
              rw [this]; rfl
          | err => rw [hq] at h; cases h
          | arith => rw [hq] at h; cases h
          | mem => rw [hq] at h; cases h

/-- **C122** A name that starts with a plain label is never lost, even if what follows is malformed. -/
theorem C122_plain_name (pp name : Bytes) (b : Bool) (d : Bytes) (h : PlainStart name) (h0 : (0 : UInt8) ∉ name)
    (hd : domainAfter pp (some name) = .ok (b, d)) : d ≠ [] := by
  obtain ⟨l, rest, rfl, hr, hdot, hne, h64, hx⟩ := h
  unfold domainAfter punyDecodeB at hd
  simp only at hd
  cases hq : punyLoopB (splitDot (l ++ rest)) (List.replicate 254 0) with
  | err => rw [hq] at hd; cases hd
  | arith => rw [hq] at hd; cases hd
  | mem => rw [hq] at hd; cases hd
  | ok x =>
    obtain ⟨b2, m⟩ := x
    rw [hq] at hd
    simp only at hd
    rw [splitDot_plain l rest hr hdot] at hq
    cases l with
    | nil => exact absurd rfl hne
    | cons a l =>
      have ha : a ≠ 0 := fun h => h0 (by rw [h]; simp)
      have hx' : (a :: l).take 4 ≠ b%"xn--" := fun e => hx ⟨(a :: l).drop 4, by rw [← e]; exact List.take_append_drop ..⟩
      have hm := loopB_head _ _ a (a :: l) b2 m rfl ha h64 hx' (by rw [Ne, List.replicate_eq_nil_iff]; decide) hq
      have hc : cstr m ≠ [] := by
        cases m with
        | nil => cases hm
        | cons z m =>
          simp only [List.head?_cons, Option.some.injEq] at hm
          subst hm
          unfold cstr
          rw [List.takeWhile_cons, if_pos (by simpa using ha)]; simp
      split at hd
      · cases hd
      · have : (b2 && cstr m == []) = false := by
          cases b2
          · rfl
          · simpa using hc
        rw [this] at hd
        cases hd
        exact hc

/-- the decoder of the model of a connection is puny_decode -/
def DecodesWith (env : Env) : Prop := ∀ s, env.puny s = match punyDecode 254 s with | .ok m => some (cstr m) | _ => none

/-- **C122** What handle_handshake leaves in the name, with this model of its buffer, is what the model of a connection has. -/
theorem C122_domain (env : Env) (sni : Option Bytes) (b : Bool) (d : Bytes) (he : DecodesWith env)
    (h : domainAfter env.addrName sni = .ok (b, d)) :
    (b = true → (handshakeDone env sni {}).domain = d) ∧ (b = false ↔ ∃ s, sni = some s ∧ env.puny s = none) := by
  unfold domainAfter at h
  cases sni with
  | none =>
    have e : punyDecodeB 254 none = .ok (true, List.replicate 254 0) := rfl
    rw [e] at h
    have h1 : (0 : UInt8) ∈ List.replicate 254 (0 : UInt8) := by decide +kernel
    have h2 : (cstr (List.replicate 254 0) == []) = true := by decide +kernel
    simp only at h
    rw [if_neg (fun h => h h1), h2] at h
    simp only [Bool.and_self, if_true] at h
    cases h
    refine ⟨fun _ => ?_, by simp⟩
    unfold handshakeDone
    simp only [if_true]
    split
    · rfl
    · rw [startReply_domain]
  | some s =>
    have hf := punyDecodeB_fin 254 s
    have hp := he s
    cases hq : punyDecodeB 254 (some s) with
    | err => rw [hq] at h; cases h
    | arith => rw [hq] at h; cases h
    | mem => rw [hq] at h; cases h
    | ok x =>
      obtain ⟨b2, m⟩ := x
      rw [hq] at h hf
      simp only at h
      cases b2 with
      | false =>
        have hf : punyDecode 254 s = .err := hf.symm
        rw [hf] at hp
        split at h
        · cases h
        · simp only [Bool.false_and] at h
          cases h
          exact ⟨fun h => (by cases h), fun _ => ⟨s, rfl, hp⟩, fun _ => rfl⟩
      | true =>
        have hf : punyDecode 254 s = .ok m := hf.symm
        rw [hf] at hp
        simp only at hp
        split at h
        · cases h
        · have hb : b = true := by
            simp only [Bool.true_and] at h
            split at h <;> (cases h; rfl)
          subst hb
          refine ⟨fun _ => ?_, by simp [hp]⟩
          unfold handshakeDone
          simp only [hp]
          have hd : (if cstr m = [] then (if env.addrName.length ≥ 254 then [] else env.addrName) else cstr m) = d := by
            simp only [Bool.true_and, beq_iff_eq] at h
            by_cases hc : cstr m = []
            · rw [if_pos hc] at h ⊢; cases h; rfl
            · rw [if_neg hc] at h ⊢; cases h; rfl
          rw [hd]
          split
          · rfl
          · rw [startReply_domain]

/-- **C122 fails.** The name of the server that a client asks for is a single label of 64 bytes: the decoder reports an error before anything is stored, the answer is 59, and it is
logged: with `log style common` (or `condensed`) a null pointer is passed for the %s of the name. -/
theorem C122_undefined :
    domainAfter b%"::1" (some (List.replicate 64 c%'a')) = .ok (false, []) ∧
    logRequestP { exLog with domain := [], format := .common, code := 59, mt := b%"Wrong/malformed host" } {} = .ub ∧
    logRequestP { exLog with domain := [], format := .condensed, code := 59, mt := b%"Wrong/malformed host" } {} = .ub := by
  decide +kernel

/-- **C122 fails** for gemexp, whose addresses have no name: the client sends no name, and a line that is too long (or nothing, until the time is up). -/
theorem C122_gemexp_undefined :
    domainAfter [] none = .ok (true, []) ∧ geLogRequestP { exLog with domain := [], code := 59, mt := b%"bad request" } {} = .ub := by
  decide +kernel

/-- the same answer in the other formats is logged -/
example : logRequestP { exLog with domain := [], subject := none, code := 59, mt := b%"Wrong/malformed host" } {} =
    .ok b%"::1 - - [17/Nov/2026:22:00:00 +0000] \"\" 59 0 \"-\" \"\"" := by decide +kernel

example : PlainStart (b%"host." ++ List.replicate 64 c%'a') ∧
    domainAfter b%"::1" (some (b%"host." ++ List.replicate 64 c%'a')) = .ok (false, b%"host.") :=
  ⟨⟨b%"host", c%'.' :: List.replicate 64 c%'a', rfl, .inr rfl, by decide, by decide, by decide, by decide +kernel⟩, by decide +kernel⟩

/-! ## C123: what is shown -/

theorem catN_fit (n : Nat) (a b : Bytes) (h : a.length + b.length < n) : catN n a b = a ++ b := by
  unfold catN; exact List.take_of_length_le (by rw [List.length_append]; omega)

/-- **C123** The request is shown whole when it fits: the scheme, the name the client asked for when it connected and not that in the request (unless there was none), the path, and the query. -/
theorem C123_request (l : LogIn) (p : IriPtrs) (sch host path query : Bytes) (h1 : p.schema = some sch) (h2 : p.host = some host) (h3 : p.path = some path)
    (h4 : p.query = some query)
    (hfit : sch.length + 3 + (if l.domain = [] then host.length else l.domain.length) + 1 + path.length + 1 + query.length ≤ 1026) :
    ∃ t, logIriP l p = .ok t ∧ ShownAs l p t := by
  refine ⟨_, logIriP_ok l p (.inr ⟨⟨_, h1⟩, ⟨_, h2⟩, ⟨_, h3⟩, ⟨_, h4⟩⟩), ⟨sch, (if l.domain = [] then host else l.domain), path, query,
    (if path.head? = some c%'/' then [] else b%"/"), h1, h3, h4, fun h => if_neg h, fun h => by rw [if_pos h]; exact h2, fun h => if_pos h, fun h => if_neg h, ?_⟩⟩
  have hn : (if l.domain = [] then host else l.domain).length = if l.domain = [] then host.length else l.domain.length := by split <;> rfl
  have he : (if l.domain ≠ [] then l.domain else host) = (if l.domain = [] then host else l.domain) := by
    by_cases h : l.domain = [] <;> simp [h]
  have hh : hd path ≠ c%'/' ↔ path.head? ≠ some c%'/' := by
    cases path with
    | nil => simp [hd]
    | cons a r => simp [hd]
  unfold logIri withPtrs
  simp only [h1, h2, h3, h4, Option.getD_some]
  rw [he]
  generalize (if l.domain = [] then host else l.domain) = name at *
  rw [← hn] at hfit
  have e1 : cpyN 1027 sch = sch := by unfold cpyN; exact List.take_of_length_le (by omega)
  have k3 : (b%"://").length = 3 := rfl
  have k1 : (b%"/").length = 1 := rfl
  have k2 : (b%"?").length = 1 := rfl
  rw [e1, catN_fit _ sch _ (by omega), catN_fit _ _ name (by simp only [List.length_append]; omega)]
  by_cases hs : path.head? = some c%'/'
  · rw [if_neg (fun h => hh.1 h hs), if_pos hs, catN_fit _ _ path (by simp only [List.length_append]; omega)]
    by_cases hq : query = []
    · rw [if_neg (fun h => h hq), if_pos hq]; simp
    · rw [if_pos hq, if_neg hq, catN_fit _ _ b%"?" (by simp only [List.length_append]; omega), catN_fit _ _ query (by simp only [List.length_append]; omega)]
      simp
  · rw [if_pos (hh.2 hs), if_neg hs, catN_fit _ _ b%"/" (by simp only [List.length_append]; omega), catN_fit _ _ path (by simp only [List.length_append]; omega)]
    by_cases hq : query = []
    · rw [if_neg (fun h => h hq), if_pos hq]; simp
    · rw [if_pos hq, if_neg hq, catN_fit _ _ b%"?" (by simp only [List.length_append]; omega), catN_fit _ _ query (by simp only [List.length_append]; omega)]
      simp

/-- **C123** Each format has the address of the client, the request as above and the code of the reply, in its places; `t` stands for the request. -/
theorem C123_line (l : LogIn) (p : IriPtrs) (t line : Bytes) (ht : logIriP l p = .ok t) (h : logRequestP l p = .ok line) :
    (l.format = .legacy → line = l.rhost ++ b%":" ++ l.rserv ++ b%" GET " ++ t ++ b%" " ++ intDec l.code ++ b%" " ++ l.mt) ∧
    (l.format = .condensed → ∃ cn name, logCn l = some cn ∧ (l.domain ≠ [] → name = l.domain) ∧ (l.domain = [] → p.host = some name) ∧
      line = l.rfc3339 ++ b%" " ++ l.rhost ++ b%" " ++ cn ++ b%" " ++ name ++ b%" " ++ t ++ b%" 0 0 " ++ intDec l.code ++ b%" " ++ l.mt) ∧
    (l.format = .common → ∃ cn name, logCn l = some cn ∧ (l.domain ≠ [] → name = l.domain) ∧ (l.domain = [] → p.host = some name) ∧
      line = name ++ b%" " ++ l.rhost ++ b%" - " ++ cn ++ b%" " ++ l.tstamp ++ b%" \"" ++ t ++ b%"\" " ++ intDec l.code ++ b%" 0") ∧
    (l.format = .combined → ∃ cn, logCn l = some cn ∧
      line = l.rhost ++ b%" - " ++ cn ++ b%" [" ++ l.tstamp ++ b%"] \"" ++ t ++ b%"\" " ++ intDec l.code ++ b%" 0 \"-\" \"\"") := by
  obtain ⟨cn, hcn, -⟩ := logCn_ok l
  have hname : ∀ x, logHostP l p = .ok x → (l.domain ≠ [] → x = l.domain) ∧ (l.domain = [] → p.host = some x) := by
    intro x hx
    unfold logHostP at hx
    split at hx
    · rename_i hd
      refine ⟨fun h => absurd hd h, fun _ => ?_⟩
      cases hp : p.host with
      | none => rw [hp] at hx; cases hx
      | some y => rw [hp] at hx; cases hx; rfl
    · rename_i hd
      cases hx
      exact ⟨fun _ => rfl, fun h => absurd h hd⟩
  unfold logRequestP at h
  rw [ht, hcn] at h
  simp only at h
  refine ⟨?_, ?_, ?_, ?_⟩
  · intro hf; rw [hf] at h; cases h; rfl
  · intro hf; rw [hf] at h
    simp only at h
    cases hh : logHostP l p with
    | ok x => rw [hh] at h; cases h; exact ⟨cn, x, hcn, (hname x hh).1, (hname x hh).2, rfl⟩
    | err => rw [hh] at h; cases h
    | ub => rw [hh] at h; cases h
  · intro hf; rw [hf] at h
    simp only at h
    cases hh : logHostP l p with
    | ok x => rw [hh] at h; cases h; exact ⟨cn, x, hcn, (hname x hh).1, (hname x hh).2, rfl⟩
    | err => rw [hh] at h; cases h
    | ub => rw [hh] at h; cases h
  · intro hf; rw [hf] at h; cases h; exact ⟨cn, hcn, rfl⟩

/-- **C123 (partial)** gemexp writes one line for each reply if the names and the decoded parts of the request have no control characters.
The full claim has no such hypothesis: `C123_gemexp_forged`. -/
theorem C123_gemexp_line_partial (l : LogIn) (p : IriPtrs) (out : Bytes) (hp : NotYet p ∨ LookedAt p) (hc : LogClean (withPtrs l p))
    (h : geLogRequestP l p = .ok out) :
    ∃ t cn name, logIriP l p = .ok t ∧ logCn l = some cn ∧ (l.domain ≠ [] → name = l.domain) ∧ (l.domain = [] → p.host = some name) ∧
      out = l.rhost ++ b%" " ++ cn ++ b%" " ++ name ++ b%" " ++ t ++ b%" " ++ intDec l.code ++ b%" " ++ l.mt ++ b%"\n" ∧
      ∃ line, out = line ++ b%"\n" ∧ ∀ x ∈ line, ¬ Control x := by
  obtain ⟨cn, hcn, hcl⟩ := logCn_ok l
  have hdef : ¬ (l.domain = [] ∧ p.host = none) := by
    intro hx
    rw [notYet_host p hp] at hx
    rw [(C122_gemexp_partial l p hp).2.2 hx] at h; cases h
  have hi := logIriP_ok l p hp
  unfold geLogRequestP at h
  rw [hi, hcn] at h
  simp only at h
  rw [logHostP_ok l p hdef] at h
  simp only at h
  cases h
  refine ⟨_, cn, _, hi, hcn, fun h => if_neg h, fun hd => ?_, rfl, _, rfl, ?_⟩
  · rw [if_pos hd]
    cases hh : p.host with
    | none => exact absurd ⟨hd, hh⟩ hdef
    | some x => rfl
  · have hg : ∀ x : UInt8, Graphic x → ¬ Control x := by decide +kernel
    have hs : ∀ x ∈ b%" ", ¬ Control x := by decide +kernel
    have hb := logIri_clean _ hc
    have hd := intDec_clean l.code
    have hr : ∀ x ∈ l.rhost, ¬ Control x := hc.rhost
    have hm : ∀ x ∈ l.mt, ¬ Control x := hc.mt
    have hn : ∀ x ∈ (if l.domain = [] then p.host.getD [] else l.domain), ¬ Control x := by
      split
      · exact hc.host
      · exact hc.domain
    intro x hx
    simp only [List.mem_append] at hx
    rcases hx with (((((((((h | h) | h) | h) | h) | h) | h) | h) | h) | h) | h
    all_goals first
      | exact hr x h
      | exact hs x h
      | exact hg x (hcl x h)
      | exact hn x h
      | exact hb x h
      | exact hd x h
      | exact hm x h

/-- **C123 fails** The decoded path brings its own line into what gemexp writes (cf. `C49_log_forged`). -/
theorem C123_gemexp_forged :
    ((parseIri (fun _ => false) b%"gemini://h/x%0A::1").val?.map fun i => i.path) = some b%"x\n::1" ∧
    geLogRequestP { exLog with subject := none, code := 51, mt := b%"not found" } { schema := some b%"gemini", host := some b%"h", path := some b%"x\n::1", query := some [] } =
      .ok b%"::1 - h gemini://h/x\n::1 51 not found\n" := by
  decide +kernel

example : logIriP exLog { schema := some b%"gemini", host := some b%"other", path := some b%"a", query := some b%"q" } = .ok b%"gemini://h/a?q" := by decide +kernel
example : logIriP { exLog with domain := [] } { schema := some b%"gemini", host := some b%"other", path := some b%"/a", query := some [] } = .ok b%"gemini://other/a" := by
  decide +kernel
example : LookedAt { schema := some b%"gemini", host := some b%"other", path := some b%"a", query := some b%"q" } := ⟨⟨_, rfl⟩, ⟨_, rfl⟩, ⟨_, rfl⟩, ⟨_, rfl⟩⟩
/-- a connection with a name, that is timed out: one that meets the hypotheses of `C122_connection_partial` -/
example : Negotiated exEnv none b%"127.0.0.1" ∧
    (runEvents 1024 [(exEnv, .read b%"gem"), (exEnv, .failed .timeout)] (handshakeDone exEnv none {})).val?.map (fun c => (c.domain, c.out)) =
      some (b%"127.0.0.1", b%"59 Wrong/malformed host\r\n") :=
  ⟨.inr ⟨.inl rfl, by decide, rfl⟩, by decide +kernel⟩
example : ∃ s, domainAfter b%"::1" (some s) = .ok (true, b%"h.x") := ⟨b%"h.x", by decide +kernel⟩

end Gmid.Props
