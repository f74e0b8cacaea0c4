import Verif.Spec.Clients
import Verif.Props.FcgiReply
import Verif.Props.Encode
import Verif.Props.Iri
import Verif.Props.Files

/-!
# C58, C81-C84: the clients gg and titan
-/
set_option autoImplicit false

namespace Gmid.Props

open Spec

/-! ### reading -/

theorem dorep_spec (script : List TRead) : ∀ (len : Nat) (acc : Bytes),
    (len ≤ (stream script).1.length → ∃ rest, dorep len script acc = some (acc ++ (stream script).1.take len, rest) ∧
      stream rest = ((stream script).1.drop len, (stream script).2) ∧ TRead.bytes rest + len = TRead.bytes script) ∧
    ((stream script).1.length < len →
      dorep len script acc = if (stream script).2 then some (acc ++ (stream script).1, []) else none) := by
  induction script with
  | nil =>
    intro len acc
    constructor
    · intro h
      have h0 : len = 0 := by simpa [stream] using h
      subst h0
      exact ⟨[], by simp [dorep, stream], by simp [stream], by simp [TRead.bytes]⟩
    · intro _; simp [dorep, stream]
  | cons x r ih =>
    intro len acc
    cases x with
    | want =>
      simp only [stream, dorep, TRead.bytes]
      by_cases h0 : len = 0
      · subst h0
        exact ⟨fun _ => ⟨.want :: r, by simp, by simp [stream], by simp [TRead.bytes]⟩, fun h => absurd h (by omega)⟩
      · rw [if_neg h0]; exact ih len acc
    | fail =>
      simp only [stream, dorep, TRead.bytes]
      by_cases h0 : len = 0
      · subst h0
        exact ⟨fun _ => ⟨.fail :: r, by simp, by simp [stream], by simp [TRead.bytes]⟩, fun h => absurd h (by omega)⟩
      · rw [if_neg h0]
        refine ⟨fun h => absurd h (by simp; omega), fun _ => by simp⟩
    | data b t =>
      by_cases h0 : len = 0
      · subst h0
        refine ⟨fun _ => ⟨.data b t :: r, by simp [dorep], by simp [stream], by simp⟩, fun h => absurd h (by omega)⟩
      by_cases h1 : t.length + 1 ≤ len
      · have hd : dorep len (.data b t :: r) acc = dorep (len - (t.length + 1)) r (acc ++ b :: t) := by
          simp only [dorep, if_neg h0, if_pos h1]
        rw [hd]
        obtain ⟨ih1, ih2⟩ := ih (len - (t.length + 1)) (acc ++ b :: t)
        have hs : (stream (.data b t :: r)).1 = (b :: t) ++ (stream r).1 := rfl
        have hs2 : (stream (.data b t :: r)).2 = (stream r).2 := rfl
        rw [hs2]
        constructor
        · intro h
          rw [hs] at h
          simp only [List.length_append, List.length_cons] at h
          obtain ⟨rest, e1, e2, e3⟩ := ih1 (by omega)
          refine ⟨rest, ?_, ?_, ?_⟩
          · rw [e1, hs, List.take_append, List.take_of_length_le (l := b :: t) (by simpa using h1)]
            simp
          · rw [e2, hs, List.drop_append, List.drop_eq_nil_of_le (as := b :: t) (by simpa using h1)]
            simp
          · simp only [TRead.bytes]; omega
        · intro h
          rw [hs] at h
          simp only [List.length_append, List.length_cons] at h
          rw [ih2 (by omega), hs]
          simp
      · have hl : len ≤ (b :: t).length := by simp; omega
        constructor
        · intro _
          have hs : (stream (.data b t :: r)).1 = (b :: t) ++ (stream r).1 := rfl
          have htk : (stream (.data b t :: r)).1.take len = (b :: t).take len := by
            rw [hs, List.take_append_of_le_length hl]
          have hdp : (stream (.data b t :: r)).1.drop len = (b :: t).drop len ++ (stream r).1 := by
            rw [hs, List.drop_append_of_le_length hl]
          have hdd : (b :: t).drop len = t.drop (len - 1) := by
            obtain ⟨k, rfl⟩ : ∃ k, len = k + 1 := ⟨len - 1, by omega⟩
            simp
          have hn : (t.drop (len - 1)).length = t.length - (len - 1) := by simp
          simp only [dorep, if_neg h0, if_neg h1]
          rw [htk, hdp, hdd]
          cases hq : t.drop (len - 1) with
          | nil => rw [hq] at hn; simp at hn; omega
          | cons b' t' =>
            refine ⟨.data b' t' :: r, rfl, by simp [stream], ?_⟩
            rw [hq] at hn
            simp only [List.length_cons] at hn
            simp only [TRead.bytes]
            omega
        · intro h
          simp only [stream, List.length_append] at h
          omega

/-- what the reading loop adds after the header -/
def ggTail (code : Nat) (s : Bytes × Bool) (o : GgOut) : GgOut :=
  if s.2 then { o with out := o.out ++ s.1, status := ggStatus code }
  else { o with out := o.out ++ s.1.take (2048 * (s.1.length / 2048)), status := 1 }

theorem ggBody_spec (code : Nat) : ∀ (fuel : Nat) (script : List TRead) (o : GgOut), TRead.bytes script < fuel →
    ggBody code fuel script o = ggTail code (stream script) o := by
  intro fuel
  induction fuel with
  | zero => intro _ _ h; omega
  | succ fuel ih =>
    intro script o hf
    obtain ⟨h1, h2⟩ := dorep_spec script 2048 []
    by_cases hl : 2048 ≤ (stream script).1.length
    · obtain ⟨rest, e1, e2, e3⟩ := h1 hl
      have hne : (stream script).1.take 2048 ≠ [] := by
        intro e
        have h := congrArg List.length e
        rw [List.length_take] at h
        simp only [List.length_nil] at h
        omega
      simp only [ggBody, e1, List.nil_append]
      cases hq : (stream script).1.take 2048 with
      | nil => exact absurd hq hne
      | cons a q =>
        rw [ih rest _ (by omega), e2]
        unfold ggTail
        simp only
        cases (stream script).2 with
        | true => simp [← hq]
        | false =>
          have hk : (stream script).1.length / 2048 = ((stream script).1.drop 2048).length / 2048 + 1 := by
            simp only [List.length_drop]; omega
          simp only [Bool.false_eq_true, if_false, ← hq, hk, Nat.mul_add, Nat.mul_one, List.append_assoc]
          rw [Nat.add_comm (2048 * _) 2048, List.take_add]
    · simp only [ggBody, h2 (by omega), List.nil_append]
      unfold ggTail
      cases (stream script).2 with
      | true =>
        simp only [if_true]
        cases hq : (stream script).1 with
        | nil => simp
        | cons a q =>
          simp only
          have hf' : 0 < fuel := by
            have : 0 < TRead.bytes script := by
              have hb : ∀ sc : List TRead, (stream sc).1.length ≤ TRead.bytes sc := by
                intro sc
                induction sc with
                | nil => simp [stream, TRead.bytes]
                | cons x r ih => cases x <;> simp [stream, TRead.bytes] <;> omega
              have := hb script
              rw [hq] at this
              simp at this; omega
            omega
          obtain ⟨f, rfl⟩ : ∃ f, fuel = f + 1 := ⟨fuel - 1, by omega⟩
          simp [ggBody, dorep]
      | false =>
        have h0 : (stream script).1.length / 2048 = 0 := by omega
        simp [h0]

/-- gg's outcome as a function of what arrives alone -/
def ggOf (mode : GgMode) (quiet : Bool) (s : Bytes × Bool) : GgOut :=
  if s.1.length < 2048 ∧ s.2 = false then {}
  else if s.1 = [] then { status := ggStatus (-1) }
  else
    match memmem (s.1.take 2048) b%"\r\n" with
    | some (some t) =>
      match s.1.take 2048 with
      | d1 :: d2 :: 32 :: _ =>
        if isDigit d1 && isDigit d2 then
          let code := (d1.toNat - 48) * 10 + (d2.toNat - 48)
          match mode with
          | .code => { out := natDec code ++ b%"\n", status := ggStatus code }
          | .header => { out := cstr ((s.1.take 2048).take t) ++ b%"\n", status := ggStatus code }
          | .onlyMeta => { out := cstr (((s.1.take 2048).take t).drop 3) ++ b%"\n", status := ggStatus code }
          | .all => ggTail code (s.1.drop 2048, s.2) { out := s.1.take 2048 }
          | .none =>
            let says := if (code < 20 ∨ 30 ≤ code) ∧ quiet = false then some (cstr (((s.1.take 2048).take t).drop 3)) else none
            ggTail code (s.1.drop 2048, s.2) { out := (s.1.take 2048).drop (t + 2), says := says }
        else {}
      | _ => {}
    | _ => {}

theorem ggReply_of (mode : GgMode) (quiet : Bool) (script : List TRead) :
    ggReply mode quiet script = ggOf mode quiet (stream script) := by
  obtain ⟨h1, h2⟩ := dorep_spec script 2048 []
  have key : ∀ rest, stream rest = ((stream script).1.drop 2048, (stream script).2) → TRead.bytes rest < TRead.bytes script + 1 →
      dorep 2048 script [] = some ((stream script).1.take 2048, rest) → ¬ ((stream script).1.length < 2048 ∧ (stream script).2 = false) →
      ggReply mode quiet script = ggOf mode quiet (stream script) := by
    intro rest hr hb he hn
    have hbody := fun code o => ggBody_spec code (TRead.bytes script + 1) rest o hb
    unfold ggReply ggOf
    rw [he, if_neg hn]
    by_cases h0 : (stream script).1 = []
    · simp [h0]
    · rw [if_neg h0]
      have hne : (stream script).1.take 2048 ≠ [] := by
        intro e
        rw [List.take_eq_nil_iff] at e
        rcases e with e | e
        · omega
        · exact h0 e
      revert hne
      generalize (stream script).1.take 2048 = buf
      intro hne
      cases buf with
      | nil => exact absurd rfl hne
      | cons a q =>
        simp only [hbody, hr]
        rfl
  by_cases hl : 2048 ≤ (stream script).1.length
  · obtain ⟨rest, e1, e2, e3⟩ := h1 hl
    exact key rest e2 (by omega) e1 (by omega)
  · have e := h2 (by omega)
    cases hc : (stream script).2 with
    | true =>
      rw [hc] at e
      simp only [if_true] at e
      refine key [] ?_ (by simp [TRead.bytes]) ?_ (by simp [hc])
      · simp [stream, hc, List.drop_eq_nil_of_le (by omega : (stream script).1.length ≤ 2048)]
      · rw [e, List.take_of_length_le (by omega)]; rfl
    | false =>
      rw [hc] at e
      simp only [Bool.false_eq_true, if_false] at e
      unfold ggReply ggOf
      rw [e, if_pos ⟨by omega, hc⟩]

/-- C58: however the reply is cut into pieces on its way, gg prints and returns the same. -/
theorem C58_fragmentation (mode : GgMode) (quiet : Bool) (s1 s2 : List TRead) (h : stream s1 = stream s2) :
    ggReply mode quiet s1 = ggReply mode quiet s2 := by
  rw [ggReply_of, ggReply_of, h]

/-- two ways to deliver the same reply -/
example : stream [.data 50 b%"0 a\r\nhi"] = stream [.data 50 [], .want, .data 48 b%" a\r", .want, .data 10 b%"hi"] := by decide

/-! ### the header -/

/-- the first block holds the header of a well-formed reply -/
theorem reply_block (r : Reply) (hr : r.WF) (hl : r.header.length + 2 ≤ 2048) (s : Bytes) (part : Bytes)
    (hs : s = r.header ++ b%"\r\n" ++ part) :
    memmem (s.take 2048) b%"\r\n" = some (some r.header.length) ∧
    (s.take 2048).take r.header.length = r.header ∧
    (s.take 2048).drop (r.header.length + 2) ++ s.drop 2048 = part ∧
    ∃ u, s.take 2048 = r.d1 :: r.d2 :: 32 :: u := by
  have hlen : (r.header ++ b%"\r\n").length = r.header.length + 2 := by simp
  have htk : s.take 2048 = r.header ++ b%"\r\n" ++ part.take (2048 - (r.header.length + 2)) := by
    rw [hs, List.take_append, List.take_of_length_le (by rw [hlen]; exact hl), hlen]
  have hdp : s.drop 2048 = part.drop (2048 - (r.header.length + 2)) := by
    rw [hs, List.drop_append, List.drop_eq_nil_of_le (by rw [hlen]; exact hl), hlen, List.nil_append]
  have hrl : readLine (s.take 2048) = some (r.header, part.take (2048 - (r.header.length + 2))) := by
    rw [htk]
    apply readLine_append
    intro a b e
    -- a CR LF inside header ++ CR lies inside the meta
    have h1 := hr.digit1
    have h2 := hr.digit2
    have e' : r.d1 :: r.d2 :: 32 :: (r.text ++ b%"\r") = a ++ (b%"\r\n" ++ b) := by
      have := e
      simp only [Reply.header, List.append_assoc, List.cons_append, List.nil_append] at this
      simpa using this
    have hd1 : r.d1 ≠ 13 := by intro h; rw [h] at h1; exact absurd h1.1 (by decide)
    have hd2 : r.d2 ≠ 13 := by intro h; rw [h] at h2; exact absurd h2.1 (by decide)
    match a, e' with
    | [], e' => simp at e'; exact hd1 e'.1
    | [x], e' => exact hd2 (by injection e' with _ e'; injection e' with e' _)
    | [x, y], e' => simp at e'
    | x :: y :: z :: a, e' =>
      simp only [List.cons_append, List.cons.injEq] at e'
      obtain ⟨-, -, -, e'⟩ := e'
      rcases List.eq_nil_or_concat b with rfl | ⟨b0, c, rfl⟩
      · have := congrArg List.getLast? e'
        simp at this
      · have hc : r.text ++ b%"\r" = (a ++ b%"\r\n" ++ b0) ++ [c] := by simpa using e'
        have := (List.append_inj' hc rfl).1
        exact hr.crlf a b0 this
  rcases memmem_crlf (s.take 2048) with ⟨t, e1, e2, e3⟩ | ⟨-, e2⟩
  · rw [hrl] at e2
    injection e2 with e2
    injection e2 with e2 e4
    have ht : t = r.header.length := by
      have := congrArg List.length e2
      rw [List.length_take] at this
      omega
    subst ht
    refine ⟨e1, e2.symm, ?_, part.take (2048 - (r.header.length + 2)) |> fun x => r.text ++ b%"\r\n" ++ x, ?_⟩
    · rw [← e4, hdp, List.take_append_drop]
    · rw [htk]; simp [Reply.header]
  · rw [hrl] at e2; cases e2

theorem digit_isDigit (d : UInt8) (h : 48 ≤ d ∧ d ≤ 57) : isDigit d = true := by
  simp [isDigit, h.1, h.2]

theorem reply_status_lt (r : Reply) (hr : r.WF) : r.status < 100 := by
  have h1 := hr.digit1.2
  have h2 := hr.digit2.2
  have h1' : r.d1.toNat ≤ 57 := h1
  have h2' : r.d2.toNat ≤ 57 := h2
  unfold Reply.status
  omega

theorem ggStatus_exit (r : Reply) (hr : r.WF) : ggStatus r.status = ggExit r.status := by
  have := reply_status_lt r hr
  unfold ggStatus ggExit
  by_cases h : 20 ≤ r.status ∧ r.status < 30
  · rw [if_pos h, if_pos (by omega)]
  · rw [if_neg h, if_neg (by omega)]; omega

/-- what gg does with anything that starts with the header of a well-formed reply -/
theorem gg_wf (r : Reply) (hr : r.WF) (hl : r.header.length + 2 ≤ 2048) (part : Bytes) (fin : Bool) (mode : GgMode) (quiet : Bool)
    (hb : fin = false → 2048 ≤ (r.header ++ b%"\r\n" ++ part).length) :
    ∃ x, x ++ ((r.header ++ b%"\r\n" ++ part).drop 2048) = part ∧
    ggOf mode quiet (r.header ++ b%"\r\n" ++ part, fin) =
      match mode with
      | .code => { out := natDec r.status ++ b%"\n", status := ggExit r.status }
      | .header => { out := cstr r.header ++ b%"\n", status := ggExit r.status }
      | .onlyMeta => { out := cstr r.text ++ b%"\n", status := ggExit r.status }
      | .all => ggTail r.status ((r.header ++ b%"\r\n" ++ part).drop 2048, fin) { out := (r.header ++ b%"\r\n" ++ part).take 2048 }
      | .none => ggTail r.status ((r.header ++ b%"\r\n" ++ part).drop 2048, fin)
          { out := x, says := if (r.status < 20 ∨ 30 ≤ r.status) ∧ quiet = false then some (cstr r.text) else none } := by
  obtain ⟨h1, h2, h3, u, h4⟩ := reply_block r hr hl _ part rfl
  refine ⟨_, h3, ?_⟩
  unfold ggOf
  rw [if_neg (by intro h; have := hb h.2; simp only at h; omega)]
  rw [if_neg (by simp [Reply.header])]
  have hd1 := digit_isDigit _ hr.digit1
  have hd2 := digit_isDigit _ hr.digit2
  have hst : (r.d1.toNat - 48) * 10 + (r.d2.toNat - 48) = r.status := rfl
  have hdrop : r.header.drop 3 = r.text := by simp [Reply.header]
  simp only [h1, h2]
  rw [h4] at *
  simp only [hd1, hd2, Bool.and_self, if_true, hst, hdrop, ggStatus_exit r hr]

/-- C58: when the server sends a reply whose header is complete within the first 2048 bytes (a gemini
header has at most 1029) and closes the connection, then however it is cut into pieces: gg's exit
status is 0 for a 2x status and the status otherwise, and it prints exactly the body; with `-d all`
the reply as it is, with `-d code`, `header` and `meta` that part (as far as a NUL in it) on a
line.  The meta of a reply that is not 2x goes to the standard error, unless `-q`. -/
theorem C58_gg_reply (script : List TRead) (r : Reply) (hr : r.WF) (hl : r.header.length + 2 ≤ 2048) (quiet : Bool)
    (h : stream script = (r.bytes, true)) :
    ggReply .none quiet script =
      { out := r.body, status := ggExit r.status,
        says := if (r.status < 20 ∨ 30 ≤ r.status) ∧ quiet = false then some (cstr r.text) else none } ∧
    ggReply .all quiet script = { out := r.bytes, status := ggExit r.status } ∧
    ggReply .code quiet script = { out := natDec r.status ++ b%"\n", status := ggExit r.status } ∧
    ggReply .header quiet script = { out := cstr r.header ++ b%"\n", status := ggExit r.status } ∧
    ggReply .onlyMeta quiet script = { out := cstr r.text ++ b%"\n", status := ggExit r.status } := by
  have hx := fun mode => gg_wf r hr hl r.body true mode quiet (by intro h; cases h)
  simp only [ggReply_of, h]
  have hbytes : r.bytes = r.header ++ b%"\r\n" ++ r.body := rfl
  rw [hbytes]
  refine ⟨?_, ?_, ?_, ?_, ?_⟩
  · obtain ⟨x, e1, e2⟩ := hx .none
    rw [e2]
    simp only [ggTail, if_true, e1, ggStatus_exit r hr]
  · obtain ⟨x, e1, e2⟩ := hx .all
    rw [e2]
    simp only [ggTail, if_true, List.take_append_drop, ggStatus_exit r hr]
  · obtain ⟨x, e1, e2⟩ := hx .code
    exact e2
  · obtain ⟨x, e1, e2⟩ := hx .header
    exact e2
  · obtain ⟨x, e1, e2⟩ := hx .onlyMeta
    exact e2

/-- a reply and its delivery that meet the hypotheses -/
example : ∃ r : Reply, r.WF ∧ r.header.length + 2 ≤ 2048 ∧ r.body = b%"hi\n" ∧ r.status = 20 ∧
    stream [.data 50 b%"0 text", .want, .data 47 b%"gemini\r", .data 10 b%"hi", .data 10 []] = (r.bytes, true) := by
  refine ⟨{ d1 := 50, d2 := 48, text := b%"text/gemini", body := b%"hi\n" }, ⟨by decide, by decide, ?_⟩, by decide, rfl, rfl, by decide⟩
  intro a b e
  have : (13 : UInt8) ∈ b%"text/gemini" := by rw [show b%"text/gemini" = _ from e]; simp
  exact absurd this (by decide)

/-- C58: when the connection breaks in the middle of a reply, gg exits with 1 and what it printed
until then is a beginning of the body (`-d all`: of the reply) -- in whole blocks of 2048 bytes. -/
theorem C58_gg_broken (script : List TRead) (r : Reply) (hr : r.WF) (hl : r.header.length + 2 ≤ 2048) (quiet : Bool)
    (part : Bytes) (h : stream script = (r.header ++ b%"\r\n" ++ part, false)) :
    (ggReply .none quiet script).status = 1 ∧ (ggReply .none quiet script).out <+: part ∧
    (ggReply .all quiet script).status = 1 ∧ (ggReply .all quiet script).out <+: r.header ++ b%"\r\n" ++ part := by
  simp only [ggReply_of, h]
  by_cases hb : 2048 ≤ (r.header ++ b%"\r\n" ++ part).length
  · have hx := fun mode => gg_wf r hr hl part false mode quiet (fun _ => hb)
    obtain ⟨x, e1, e2⟩ := hx .none
    obtain ⟨x', e1', e2'⟩ := hx .all
    rw [e2, e2']
    simp only [ggTail, Bool.false_eq_true, if_false, true_and]
    constructor
    · conv => rhs; rw [← e1]
      exact (List.prefix_append_right_inj _).2 (List.take_prefix _ _)
    · conv => rhs; rw [← List.take_append_drop 2048 (r.header ++ b%"\r\n" ++ part)]
      exact (List.prefix_append_right_inj _).2 (List.take_prefix _ _)
  · have e : ∀ mode, ggOf mode quiet (r.header ++ b%"\r\n" ++ part, false) = {} := by
      intro mode
      unfold ggOf
      rw [if_pos ⟨by simpa using hb, rfl⟩]
    rw [e, e]
    simp

/-- C58: anything else that a server sends -- no complete header within 2048 bytes, or one that does
not start with two digits and a space -- makes gg print nothing and exit with 1. -/
theorem C58_gg_malformed (script : List TRead) (mode : GgMode) (quiet : Bool) (h0 : (stream script).1 ≠ [])
    (h : ∀ r : Reply, r.WF → r.header.length + 2 ≤ 2048 → r.bytes ≠ (stream script).1) :
    ggReply mode quiet script = { out := [], status := 1 } := by
  rw [ggReply_of]
  unfold ggOf
  by_cases hc : (stream script).1.length < 2048 ∧ (stream script).2 = false
  · rw [if_pos hc]
  rw [if_neg hc, if_neg h0]
  rcases memmem_crlf ((stream script).1.take 2048) with ⟨t, e1, e2, e3⟩ | ⟨e1, -⟩
  · rw [e1]
    simp only
    split
    · rename_i d1 d2 rest hbuf
      split
      · rename_i hd
        exfalso
        obtain ⟨hs, hcr⟩ := readLine_some _ _ _ e2
        have ht3 : 3 ≤ t := by
          simp only [Bool.and_eq_true, isDigit, decide_eq_true_eq] at hd
          rw [hbuf] at hs
          match t, hs with
          | 0, hs => simp at hs; rw [hs.1] at hd; exact absurd hd.1.1 (by decide)
          | 1, hs => exact absurd (show d2 = 13 by injection hs with _ hs; injection hs with hs _) (by intro h; rw [h] at hd; exact absurd hd.2.1 (by decide))
          | 2, hs => simp at hs
          | t + 3, _ => omega
        have hlen : ((stream script).1.take 2048).length ≤ 2048 := by simp; omega
        have hhd : ((stream script).1.take 2048).take t = [d1, d2, 32] ++ (((stream script).1.take 2048).take t).drop 3 := by
          obtain ⟨k, rfl⟩ : ∃ k, t = k + 3 := ⟨t - 3, by omega⟩
          rw [hbuf]; simp
        have htl : (((stream script).1.take 2048).take t).length = t := by rw [List.length_take]; omega
        simp only [Bool.and_eq_true, isDigit, decide_eq_true_eq] at hd
        refine h { d1 := d1, d2 := d2, text := (((stream script).1.take 2048).take t).drop 3, body := ((stream script).1.take 2048).drop (t + 2) ++ (stream script).1.drop 2048 } ⟨hd.1, hd.2, ?_⟩ ?_ ?_
        · intro a b e
          refine hcr ([d1, d2, 32] ++ a) (b ++ b%"\r") ?_
          rw [hhd]
          simp only at e
          rw [e]; simp
        · simp only [Reply.header]
          rw [← hhd, htl]
          omega
        · simp only [Reply.bytes, Reply.header]
          rw [← hhd]
          conv => rhs; rw [← List.take_append_drop 2048 (stream script).1]
          rw [← List.append_assoc]
          congr 1
          exact hs.symm
      · rfl
    · rfl
  · rw [e1]

example : (stream [.data 50 b%"0\r\n"]).1 ≠ [] ∧ ∀ r : Reply, r.WF → r.header.length + 2 ≤ 2048 → r.bytes ≠ (stream [.data 50 b%"0\r\n"]).1 := by
  refine ⟨by decide, ?_⟩
  intro r _ _ e
  simp [Reply.bytes, Reply.header, stream] at e

/-- C58, false of the code: gg(1) says that a failure makes gg exit with 1, but when the server
closes the connection without a reply it exits with 255. -/
theorem C58_no_reply (mode : GgMode) (quiet : Bool) (script : List TRead) (h : stream script = ([], true)) :
    ggReply mode quiet script = { out := [], status := 255 } := by
  rw [ggReply_of, h]
  simp [ggOf]
  decide

example : stream [.want, .want] = ([], true) := by decide

/-- C58, false of the code: gg exits with 0 for a reply that is not 2x, when the status is "00". -/
theorem C58_status_00 (quiet : Bool) :
    (ggReply .none quiet [.data 48 b%"0 no such status\r\n"]).status = 0 := by
  cases quiet <;> decide +kernel

/-! ### C81: the request of gg -/

theorem doreq_sends (ws : List (Option Nat)) : ∀ buf : Bytes,
    (doreq ws buf).1 <+: buf ∧ ((doreq ws buf).2 = true → (doreq ws buf).1 = buf) := by
  induction ws with
  | nil => intro buf; cases buf <;> simp [doreq]
  | cons w ws ih =>
    intro buf
    cases buf with
    | nil => simp [doreq]
    | cons b r =>
      cases w with
      | none => simp [doreq]
      | some n =>
        obtain ⟨h1, h2⟩ := ih ((b :: r).drop n)
        simp only [doreq]
        constructor
        · conv => rhs; rw [← List.take_append_drop n (b :: r)]
          exact (List.prefix_append_right_inj _).2 h1
        · intro h
          rw [h2 h, List.take_append_drop]

/-- a byte that is neither a class character, nor `%`, nor a hexadecimal digit, nor part of a UTF-8
character is not in decodable text -/
theorem decodes_cr {P : UInt8 → Prop} (h13 : ¬ P 13) {raw d : Bytes} (h : Decodes P raw d) : (13 : UInt8) ∉ raw := by
  induction h with
  | nil => simp
  | lit c raw dec hc _ ih =>
    intro hm
    rcases List.mem_cons.1 hm with e | e
    · exact h13 (by rw [e]; exact hc)
    · exact ih e
  | pct a b v raw dec he _ _ ih =>
    intro hm
    obtain ⟨x, y, hx, hy, -⟩ := he
    have hh : ∀ n, ¬ HexVal 13 n := by
      intro n hn
      rcases hn with hn | hn <;> exact absurd (List.mem_of_getElem? hn) (by decide)
    simp only [List.mem_cons] at hm
    rcases hm with e | e | e | e
    · exact absurd e (by decide)
    · rw [← e] at hx; exact hh _ hx
    · rw [← e] at hy; exact hh _ hy
    · exact ih e
  | multi u raw dec hu _ ih =>
    intro hm
    rcases List.mem_append.1 hm with e | e
    · exact absurd ((multi_bytes hu).2 _ e) (by decide)
    · exact ih e

theorem iri_no_cr (isAddr : Bytes → Bool) (ha : ∀ a, isAddr a = true → (13 : UInt8) ∉ a) (s : Bytes) (i : Iri)
    (h : parseIri isAddr s = .ok i) (hf : c%'#' ∉ s) : (13 : UInt8) ∉ s := by
  obtain ⟨sch, auth, pp, tail, rfl, h1, h2, h3, h4, ht⟩ := (parseIri_iff _ _ _).1 h
  have e1 : (13 : UInt8) ∉ sch := by
    obtain ⟨c, r, rfl, hc, hr⟩ := h1
    intro hm
    rcases List.mem_cons.1 hm with e | e
    · rw [← e] at hc; exact absurd hc (by decide)
    · exact absurd (hr _ e) (by decide)
  have e2 : (13 : UInt8) ∉ auth := by
    rcases h3 with ⟨rfl, -, hx⟩ | ⟨d, hd, -⟩
    · intro hm
      simp at hm
      exact ha _ hx hm
    · exact decodes_cr (by unfold HostChar Unreserved SubDelim; decide) hd
  have e3 : (13 : UInt8) ∉ pp := by
    rcases h4 with ⟨rfl, -⟩ | ⟨rfl, hd, -⟩
    · simp
    · intro hm
      simp at hm
      exact absurd (hd _ hm) (by decide)
  have e4 : (13 : UInt8) ∉ tail := by
    rcases ht with ⟨rfl, -⟩ | ⟨rp, d, qf, rfl, hd, -, hq⟩
    · simp
    · have e5 := decodes_cr (by unfold PathChar Unreserved SubDelim; decide) hd
      have e6 : (13 : UInt8) ∉ qf := by
        rcases hq with ⟨rfl, -⟩ | ⟨rfl, -⟩ | ⟨rfl, -, d, hd⟩ | ⟨rfl, d, hd⟩
        · simp
        · exact absurd (by simp) hf
        · have := decodes_cr (by unfold QueryChar Unreserved SubDelim; decide) hd
          simpa using this
        · exact absurd (by simp) hf
      simp [e5, e6]
  simp [e1, e2, e3, e4]

/-- C81: given a valid IRI of at most 1024 bytes, gg sends it to the IRI's host and port (1965 if there
is none) followed by CR LF and nothing else, whatever the pieces the TLS layer takes; the server
reads that line back as exactly the IRI given (if it has no fragment, which is the part missing here:
`C81_fragment_splits_request`). -/
theorem C81_gg_request_partial (isAddr : Bytes → Bool) (ha : ∀ a, isAddr a = true → (13 : UInt8) ∉ a) (url : Bytes) (i : Iri)
    (h : parseIri isAddr url = .ok i) (hl : url.length ≤ 1024) (hf : c%'#' ∉ url) :
    ggRequest isAddr url = .ok (url ++ b%"\r\n", i.host, if i.port = [] then b%"1965" else i.port) ∧
    readLine (url ++ b%"\r\n") = some (url, []) ∧
    ∀ ws, (doreq ws (url ++ b%"\r\n")).1 <+: url ++ b%"\r\n" ∧
      ((doreq ws (url ++ b%"\r\n")).2 = true → (doreq ws (url ++ b%"\r\n")).1 = url ++ b%"\r\n") := by
  refine ⟨?_, ?_, fun ws => doreq_sends ws _⟩
  · simp only [ggRequest]
    rw [if_neg (by omega), if_neg (by omega), h]
  · have := readLine_append url [] (by
      intro a b e
      have hcr := iri_no_cr isAddr ha url i h hf
      rcases List.eq_nil_or_concat b with rfl | ⟨b0, c, rfl⟩
      · have := congrArg List.getLast? e
        simp at this
      · have hc : url ++ b%"\r" = (a ++ b%"\r\n" ++ b0) ++ [c] := by simpa using e
        have := (List.append_inj' hc rfl).1
        exact hcr (by rw [this]; simp))
    simpa using this

example : ∃ i, parseIri (fun _ => false) b%"gemini://h:1966/a?b" = .ok i ∧ i.port = b%"1966" ∧ c%'#' ∉ b%"gemini://h:1966/a?b" := by
  refine ⟨{ schema := b%"gemini", host := b%"h", port := b%"1966", portNo := 1966, path := b%"a", query := b%"b", fragment := [] }, ?_, rfl, ?_⟩ <;> decide +kernel

/-- C81: nothing is sent for anything that is not a valid IRI or is longer than 1024 bytes. -/
theorem C81_gg_rejects (isAddr : Bytes → Bool) (url : Bytes) (h : 1024 < url.length ∨ parseIri isAddr url = .err) :
    ggRequest isAddr url = .err := by
  simp only [ggRequest]
  split
  · rfl
  · split
    · rfl
    · rcases h with h | h
      · omega
      · rw [h]

example : parseIri (fun _ => false) b%"gemini://h/a b" = .err := by decide +kernel

/-- C81, false of the code with a fragment: any bytes at all are accepted after the `#`, and sent.
Here a line end in it makes the server read a request that is not the IRI given to gg, and leaves
a second line behind. -/
theorem C81_fragment_splits_request :
    (ggRequest (fun _ => false) b%"gemini://h/a#\r\nx").val? = some (b%"gemini://h/a#\r\nx\r\n", b%"h", b%"1965") ∧
    readLine b%"gemini://h/a#\r\nx\r\n" = some (b%"gemini://h/a#", b%"x\r\n") := by decide +kernel

/-! ### gg -P -/

/-- C81: the argument of `-P`: `host`, `host:port`, `[address]`, `[address]:port`. -/
theorem C81_proxy_arg (h p : Bytes) :
    (c%':' ∉ h → (∀ r, h ≠ c%'[' :: r) →
      parseProxyArg h = some (h, b%"1965") ∧ parseProxyArg (h ++ b%":" ++ p) = some (h, p)) ∧
    (c%']' ∉ h →
      parseProxyArg (b%"[" ++ h ++ b%"]") = some (h, b%"1965") ∧
      parseProxyArg (b%"[" ++ h ++ b%"]:" ++ p) = some (h, p)) := by
  have h1 : ∀ (c : UInt8) (a : Bytes), c ∉ a → ∀ x ∈ a, (x != c) = true := by
    intro c a hc x hx
    simp only [bne_iff_ne, ne_eq]
    rintro rfl; exact hc hx
  have tw : ∀ (c : UInt8) (a r : Bytes), c ∉ a → (a ++ c :: r).takeWhile (· != c) = a ∧ (a ++ c :: r).dropWhile (· != c) = c :: r := by
    intro c a r hc
    rw [List.takeWhile_append_of_pos (h1 c a hc), List.dropWhile_append_of_pos (h1 c a hc)]
    simp
  have dw0 : ∀ (c : UInt8) (a : Bytes), c ∉ a → a.dropWhile (· != c) = [] := by
    intro c a hc
    have d := List.dropWhile_append_of_pos (l₂ := []) (h1 c a hc)
    simpa using d
  constructor
  · intro hc hb
    have hb' : ∀ r, (h ++ b%":" ++ p) ≠ c%'[' :: r := by
      intro r e
      cases h with
      | nil => simp at e
      | cons x t => simp at e; exact hb t (by rw [e.1])
    constructor
    · unfold parseProxyArg
      split
      · exact absurd rfl (hb _)
      · rw [dw0 _ _ hc]
    · unfold parseProxyArg
      split
      · rename_i r e; exact absurd e (hb' _)
      · rw [List.append_assoc, List.cons_append, List.nil_append, (tw _ _ _ hc).1, (tw _ _ _ hc).2]
  · intro hc
    constructor
    · obtain ⟨e1, e2⟩ := tw c%']' h [] hc
      simp only [parseProxyArg, List.cons_append, List.nil_append]
      rw [e1, e2]
    · obtain ⟨e1, e2⟩ := tw c%']' h (b%":" ++ p) hc
      simp only [List.cons_append, List.nil_append] at e1 e2
      simp only [parseProxyArg, List.cons_append, List.nil_append, List.append_assoc]
      rw [e1, e2]
      rfl

example : parseProxyArg b%"[::1]:1966" = some (b%"::1", b%"1966") := by decide

/-! ### C82, C83: titan -/

theorem ioWrite_sent (rd : Bool) (w : TWrite) (inp : Bytes) (k : Bytes → Bytes × IoRes) (hk : ∀ i, (k i).1 <+: i) :
    (ioWrite rd w inp k).1 <+: inp := by
  unfold ioWrite
  split
  · simp
  · split
    · exact hk _
    · split
      · exact hk _
      · simp
      · rename_i n
        show List.take (n + 1) inp ++ _ <+: inp
        conv => rhs; rw [← List.take_append_drop (n + 1) inp]
        exact (List.prefix_append_right_inj _).2 (hk _)

theorem ioWrite_res (w : TWrite) (inp : Bytes) (k : Bytes → Bytes × IoRes) (P : IoRes → Prop) (hf : w = .fail → P .fail) (hk : ∀ i, P (k i).2) :
    P (ioWrite true w inp k).2 := by
  unfold ioWrite
  rw [if_neg (by simp)]
  split
  · exact hk _
  · split
    · exact hk _
    · exact hf rfl
    · exact hk _

theorem iomux_sent (rd : Bool) (qs : List Round) : ∀ (room : Nat) (got inp : Bytes), (iomux rd qs room got inp).1 <+: inp := by
  induction qs with
  | nil => intro room got inp; simp [iomux]
  | cons q qs ih =>
    intro room got inp
    simp only [iomux]
    split
    · split
      · split <;> simp
      · split
        · split
          · exact ioWrite_sent _ _ _ _ (ih _ _)
          · exact ih _ _ _
        · simp
        · split <;> simp
        · exact ih _ _ _
    · exact ioWrite_sent _ _ _ _ (ih _ _)

/-- with a reply buffer, iomux does not come back empty-handed -/
theorem iomux_reply_ne (qs : List Round) : ∀ (room : Nat) (got inp : Bytes), (iomux true qs room got inp).2 ≠ .reply [] := by
  induction qs with
  | nil => intro room got inp; simp [iomux]
  | cons q qs ih =>
    intro room got inp
    simp only [iomux, if_true]
    split
    · split
      · simp
      · rename_i h; simpa using h
    · split
      · split
        · exact ioWrite_res q.wr inp _ (fun r => r ≠ .reply []) (by simp) (ih _ _)
        · exact ih _ _ _
      · simp
      · split
        · simp
        · rename_i h; simpa using h
      · exact ih _ _ _

/-- C82, false of the code: whatever the server does and whenever, titan never sends more than the
first `BUFSIZ` bytes of the file.  (After the first block it only waits for the reply.) -/
theorem C82_only_first_block (bufsiz : Nat) (runs : List (List Round)) (file : Bytes) :
    (titanLoop bufsiz runs file).sent <+: file.take bufsiz := by
  cases runs with
  | nil => simp [titanLoop]
  | cons qs runs =>
    have h1 := iomux_sent true qs 1025 [] (file.take bufsiz)
    have h2 := iomux_reply_ne qs 1025 [] (file.take bufsiz)
    simp only [titanLoop]
    revert h1 h2
    generalize iomux true qs 1025 [] (file.take bufsiz) = x
    obtain ⟨s, r⟩ := x
    intro h1 h2
    cases r with
    | waiting => exact h1
    | fail => exact h1
    | reply b =>
      cases b with
      | nil => exact absurd rfl h2
      | cons b t =>
        simp only
        split <;> exact h1

/-- C82: so a file of more than `BUFSIZ` bytes is never uploaded, and a server that answers once it
has got everything leaves titan waiting: for every number of rounds in which the server stays
silent, titan has no result, and has sent at most the first block. -/
theorem C82_big_file_hangs (bufsiz : Nat) (runs : List (List Round)) (file : Bytes)
    (hbig : bufsiz < file.length) (hs : ∀ qs ∈ runs, ∀ q ∈ qs, q.rd = some .want ∧ q.wr ≠ .fail) :
    (titanLoop bufsiz runs file).res = none ∧ (titanLoop bufsiz runs file).sent ≠ file := by
  constructor
  · have silent : ∀ (qs : List Round) (room : Nat) (inp : Bytes), (∀ q ∈ qs, q.rd = some .want ∧ q.wr ≠ .fail) → 0 < room →
        (iomux true qs room [] inp).2 = .waiting := by
      intro qs
      induction qs with
      | nil => intro _ _ _ _; rfl
      | cons q qs ih =>
        intro room inp hq hr
        have h0 := hq q (by simp)
        have ih' := fun inp => ih room inp (fun x hx => hq x (by simp [hx])) hr
        simp only [iomux, if_true, h0.1, if_neg (by omega : ¬ room = 0)]
        exact ioWrite_res q.wr inp _ (fun r => r = .waiting) (fun h => absurd h h0.2) ih'
    cases runs with
    | nil => rfl
    | cons qs runs =>
      have := silent qs 1025 (file.take bufsiz) (hs qs (by simp)) (by omega)
      simp only [titanLoop]
      revert this
      generalize iomux true qs 1025 [] (file.take bufsiz) = x
      obtain ⟨s, r⟩ := x
      rintro rfl
      rfl
  · intro e
    have := (C82_only_first_block bufsiz runs file).length_le
    rw [e, List.length_take] at this
    omega

example : (2 : Nat) < b%"abc".length ∧ ∀ qs ∈ [[(⟨some .want, .took 0⟩ : Round), ⟨some .want, .took 5⟩, ⟨some .want, .want⟩]], ∀ q ∈ qs, q.rd = some .want ∧ q.wr ≠ .fail := by
  decide

/-- writing: in silent rounds without failures the file goes out in order, and all of it once the
rounds have taken enough -/
theorem iomux_silent (qs post : List Round) : ∀ (room : Nat) (inp : Bytes), 0 < room → (∀ q ∈ qs, q.rd = some .want ∧ q.wr ≠ .fail) →
    inp.length ≤ took qs → iomux true (qs ++ post) room [] inp = (inp ++ (iomux true post room [] []).1, (iomux true post room [] []).2) := by
  induction qs with
  | nil =>
    intro room inp _ _ h
    have : inp = [] := by simpa [took] using h
    subst this
    rfl
  | cons q qs ih =>
    intro room inp hr hq h
    have h0 := hq q (by simp)
    have hq' : ∀ x ∈ qs, x.rd = some .want ∧ x.wr ≠ .fail := fun x hx => hq x (by simp [hx])
    simp only [List.cons_append, iomux, if_true, h0.1, if_neg (by omega : ¬ room = 0)]
    unfold ioWrite
    rw [if_neg (by simp)]
    by_cases hi : inp = []
    · rw [if_pos hi]
      subst hi
      exact ih room [] hr hq' (by simp)
    · rw [if_neg hi]
      cases hw : q.wr with
      | want =>
        simp only
        exact ih room inp hr hq' (by simpa [took, hw] using h)
      | fail => exact absurd hw h0.2
      | took n =>
        simp only
        rw [ih room (inp.drop (n + 1)) hr hq' (by simp [took, hw] at h; simp; omega)]
        rw [← List.append_assoc, List.take_append_drop]

/-- reading: the pieces of the reply, up to the end of the connection -/
theorem iomux_reply (qs : List Round) : ∀ (room : Nat) (got b : Bytes), got.length + b.length ≠ 0 → roundsReply qs = some b → b.length < room →
    iomux true qs room got [] = ([], .reply (got ++ b)) := by
  induction qs with
  | nil => intro room got b _ h; simp [roundsReply] at h
  | cons q qs ih =>
    intro room got b hne h hr
    simp only [iomux, if_true, if_neg (by omega : ¬ room = 0)]
    unfold roundsReply at h
    cases hq : q.rd with
    | none =>
      simp only [hq] at h
      injection h with h
      subst h
      have hg : got ≠ [] := by intro e; simp [e] at hne
      simp [hg]
    | some x =>
      cases x with
      | want =>
        simp only [hq] at h
        have e := ih room got b hne h hr
        simp only
        split
        · rename_i hg
          subst hg
          simpa [ioWrite] using e
        · exact e
      | fail => simp [hq] at h
      | data c t =>
        simp only [hq, Option.map_eq_some_iff] at h
        obtain ⟨b', hb', rfl⟩ := h
        simp only [List.length_append, List.length_cons] at hr
        have htk : (c :: t).take room = c :: t := List.take_of_length_le (by simp; omega)
        simp only [htk]
        rw [ih _ _ b' (by simp) hb' (by simp; omega)]
        simp

theorem titan_reply_line (r : Reply) (hr : r.WF) (b : Bytes) (hb : b = r.bytes) :
    memmem b b%"\r\n" = some (some r.header.length) ∧ titanResponse (cstr (b.take r.header.length)) = titanSays r := by
  subst hb
  have hl : readLine r.bytes = some (r.header, r.body) := by
    unfold Reply.bytes
    apply readLine_append
    intro a b e
    have h1 := hr.digit1
    have h2 := hr.digit2
    have e' : r.d1 :: r.d2 :: 32 :: (r.text ++ b%"\r") = a ++ (b%"\r\n" ++ b) := by
      have := e
      simp only [Reply.header, List.append_assoc, List.cons_append, List.nil_append] at this
      simpa using this
    have hd1 : r.d1 ≠ 13 := by intro h; rw [h] at h1; exact absurd h1.1 (by decide)
    have hd2 : r.d2 ≠ 13 := by intro h; rw [h] at h2; exact absurd h2.1 (by decide)
    match a, e' with
    | [], e' => simp at e'; exact hd1 e'.1
    | [x], e' => exact hd2 (by injection e' with _ e'; injection e' with e' _)
    | [x, y], e' => simp at e'
    | x :: y :: z :: a, e' =>
      simp only [List.cons_append, List.cons.injEq] at e'
      obtain ⟨-, -, -, e'⟩ := e'
      rcases List.eq_nil_or_concat b with rfl | ⟨b0, c, rfl⟩
      · have := congrArg List.getLast? e'
        simp at this
      · have hc : r.text ++ b%"\r" = (a ++ b%"\r\n" ++ b0) ++ [c] := by simpa using e'
        have := (List.append_inj' hc rfl).1
        exact hr.crlf a b0 this
  rcases memmem_crlf r.bytes with ⟨t, e1, e2, e3⟩ | ⟨-, e2⟩
  · rw [hl] at e2
    injection e2 with e2
    injection e2 with e2 e4
    have ht : t = r.header.length := by
      have := congrArg List.length e2
      rw [List.length_take] at this
      omega
    subst ht
    refine ⟨e1, ?_⟩
    rw [← e2]
    have hd1 := digit_isDigit _ hr.digit1
    have hd2 := digit_isDigit _ hr.digit2
    have n1 : r.d1 ≠ 0 := by intro h; have := hr.digit1.1; rw [h] at this; exact absurd this (by decide)
    have n2 : r.d2 ≠ 0 := by intro h; have := hr.digit2.1; rw [h] at this; exact absurd this (by decide)
    have hc : cstr r.header = r.d1 :: r.d2 :: 32 :: cstr r.text := by
      simp [Reply.header, cstr, n1, n2]
    rw [hc]
    have hst : (r.d1.toNat - 48) * 10 + (r.d2.toNat - 48) = r.status := rfl
    simp only [titanResponse, hd1, hd2, Bool.and_self, if_true, hst, titanSays]
  · rw [hl] at e2; cases e2

/-- C82: a file of at most `BUFSIZ` bytes is sent whole, in order, followed by nothing, when the
server only answers after it has got it; and the server's reply, in whatever pieces it comes, decides
what is printed and the exit status.  Missing: longer files, for which it is false
(`C82_big_file_hangs`). -/
theorem C82_small_file_partial (bufsiz : Nat) (file : Bytes) (hsmall : file.length ≤ bufsiz) (pre post : List Round) (runs : List (List Round))
    (hs : ∀ q ∈ pre, q.rd = some .want ∧ q.wr ≠ .fail) (ht : file.length ≤ took pre)
    (r : Reply) (hr : r.WF) (hp : roundsReply post = some r.bytes) (hl : r.bytes.length ≤ 1024) :
    titanLoop bufsiz ((pre ++ post) :: runs) file = { sent := file, res := some (titanSays r) } := by
  have hrep := iomux_reply post 1025 [] r.bytes (by simp [Reply.bytes]) hp (by omega)
  have hio := iomux_silent pre post 1025 file (by omega) hs ht
  rw [hrep] at hio
  simp only [List.append_nil, List.nil_append] at hio
  obtain ⟨m1, m2⟩ := titan_reply_line r hr r.bytes rfl
  simp only [titanLoop]
  rw [List.take_of_length_le hsmall, hio]
  have hne : ∃ x y, r.bytes = x :: y := ⟨_, _, rfl⟩
  obtain ⟨x, y, hxy⟩ := hne
  simp only
  rw [hxy] at m1 m2 ⊢
  simp only [m1, m2]

/-- an upload in three pieces with an answer in two -/
example : ∃ r : Reply, r.WF ∧ roundsReply [⟨some (.data 50 b%"0 ok"), .want⟩, ⟨some (.data 13 b%"\n"), .want⟩, ⟨none, .want⟩] = some r.bytes ∧
    r.bytes.length ≤ 1024 ∧ titanSays r = ([], 0) ∧ b%"abc".length ≤ took [⟨some .want, .took 0⟩, ⟨some .want, .want⟩, ⟨some .want, .took 5⟩] := by
  refine ⟨{ d1 := 50, d2 := 48, text := b%"ok", body := [] }, ⟨by decide, by decide, ?_⟩, by decide, by decide, by decide, by decide⟩
  intro a b e
  have : (13 : UInt8) ∈ b%"ok" := by rw [show b%"ok" = _ from e]; simp
  exact absurd this (by decide)

theorem titanSays_status (r : Reply) :
    ((titanSays r).2 = 0 ↔ 20 ≤ r.status ∧ r.status < 40) ∧
    ((titanSays r).2 = 2 ↔ (10 ≤ r.status ∧ r.status < 20) ∨ (40 ≤ r.status ∧ r.status < 70)) ∧
    ((titanSays r).2 = 1 ↔ r.status < 10 ∨ 70 ≤ r.status) := by
  unfold titanSays
  refine ⟨?_, ?_, ?_⟩
  all_goals
    split
    · simp; try omega
    · split
      · simp; try omega
      · split
        · simp; try omega
        · simp; try omega

/-- C83: titan's exit status for a reply: 0 exactly for 2x and 3x, 2 for every other valid status, 1
for what is not a gemini status. -/
theorem C83_titan_status (bufsiz : Nat) (file : Bytes) (hsmall : file.length ≤ bufsiz) (pre post : List Round) (runs : List (List Round))
    (hs : ∀ q ∈ pre, q.rd = some .want ∧ q.wr ≠ .fail) (ht : file.length ≤ took pre)
    (r : Reply) (hr : r.WF) (hp : roundsReply post = some r.bytes) (hl : r.bytes.length ≤ 1024) :
    ∃ out code, (titanLoop bufsiz ((pre ++ post) :: runs) file).res = some (out, code) ∧
    (code = 0 ↔ 20 ≤ r.status ∧ r.status < 40) ∧
    (code = 2 ↔ (10 ≤ r.status ∧ r.status < 20) ∨ (40 ≤ r.status ∧ r.status < 70)) ∧
    (code = 1 ↔ r.status < 10 ∨ 70 ≤ r.status) ∧
    out = (if 30 ≤ r.status ∧ r.status < 40 then cstr r.text ++ b%"\n" else []) := by
  refine ⟨(titanSays r).1, (titanSays r).2, by rw [C82_small_file_partial bufsiz file hsmall pre post runs hs ht r hr hp hl], ?_⟩
  have := titanSays_status r
  refine ⟨this.1, this.2.1, this.2.2, ?_⟩
  unfold titanSays
  split
  · rw [if_neg (by omega)]
  · split
    · rw [if_neg (by omega)]
    · split
      · rfl
      · rfl

/-- C83: and for every exchange whatsoever the status is 0 only if the server sent a 2x or 3x line. -/
theorem C83_success_only_after_2x_3x (bufsiz : Nat) (runs : List (List Round)) (file out : Bytes)
    (h : (titanLoop bufsiz runs file).res = some (out, 0)) :
    ∃ line rest d1 d2 u, (∃ s, iomux true (runs.headD []) 1025 [] (file.take bufsiz) = (s, .reply (line ++ b%"\r\n" ++ rest))) ∧
      line = d1 :: d2 :: 32 :: u ∧ (d1 = c%'2' ∨ d1 = c%'3') ∧ c%'0' ≤ d2 ∧ d2 ≤ c%'9' := by
  cases runs with
  | nil => simp [titanLoop] at h
  | cons qs runs =>
    have h2 := iomux_reply_ne qs 1025 [] (file.take bufsiz)
    simp only [titanLoop] at h
    revert h h2
    cases hx : iomux true qs 1025 [] (file.take bufsiz) with
    | mk s r =>
      intro h h2
      simp only [List.headD_cons, hx]
      cases r with
      | waiting => simp at h
      | fail => simp at h
      | reply b =>
        cases b with
        | nil => exact absurd rfl h2
        | cons b t =>
          simp only at h
          rcases memmem_crlf (b :: t) with ⟨k, e1, e2, e3⟩ | ⟨e1, -⟩
          · rw [e1] at h
            simp only [Option.some.injEq] at h
            obtain ⟨hsp, -⟩ := readLine_some _ _ _ e2
            have hstart : ∃ d1 d2 u, (b :: t).take k = d1 :: d2 :: 32 :: u ∧ titanResponse (cstr ((b :: t).take k)) = (out, 0) ∧
                isDigit d1 = true ∧ isDigit d2 = true ∧ 20 ≤ (d1.toNat - 48) * 10 + (d2.toNat - 48) ∧ (d1.toNat - 48) * 10 + (d2.toNat - 48) < 40 := by
              generalize (b :: t).take k = line at *
              have hpre : cstr line <+: line := List.takeWhile_prefix _
              obtain ⟨tl, htl⟩ := hpre
              unfold titanResponse at h
              split at h
              · rename_i d1 d2 m hl
                split at h
                · rename_i hd
                  simp only [Bool.and_eq_true] at hd
                  refine ⟨d1, d2, m ++ tl, ?_, ?_, hd.1, hd.2, ?_⟩
                  · rw [← htl, hl]; simp
                  · rw [hl]
                    simp only [titanResponse, hd.1, hd.2, Bool.and_self, if_true]
                    exact h
                  · dsimp only at h
                    revert h
                    split
                    · intro h; injection h with _ h; simp at h
                    · split
                      · intro _; omega
                      · split
                        · intro _; omega
                        · intro h; injection h with _ h; simp at h
                · injection h with _ h; simp at h
              · injection h with _ h; simp at h
            obtain ⟨d1, d2, u, hl, -, hd1, hd2, hlo, hhi⟩ := hstart
            refine ⟨(b :: t).take k, (b :: t).drop (k + 2), d1, d2, u, ⟨s, ?_⟩, hl, ?_, ?_⟩
            · rw [← hsp]
            · simp only [isDigit, Bool.and_eq_true, decide_eq_true_eq] at hd1 hd2
              have a1 : 48 ≤ d1.toNat := hd1.1
              have a2 : d1.toNat ≤ 57 := hd1.2
              have a3 : d2.toNat ≤ 57 := hd2.2
              have : d1.toNat = 50 ∨ d1.toNat = 51 := by omega
              rcases this with e | e
              · left; exact UInt8.toNat_inj.1 e
              · right; exact UInt8.toNat_inj.1 e
            · simpa [isDigit] using hd2
          · rw [e1] at h
            simp at h

example : (titanLoop 8 [[⟨some .want, .took 5⟩, ⟨some (.data 51 b%"0 /x\r\n"), .want⟩, ⟨none, .want⟩]] b%"abc").res = some (b%"/x\n", 0) := by
  decide +kernel

/-! ### C84: the request line of titan -/

/-- the parameters titan adds to the path -/
theorem titanLine_text (i : Iri) (size : Nat) (token mimeArg : Option Bytes) (hs : i.schema = b%"titan") :
    titanLine i.host i.path i.query size token mimeArg = iriText { i with path := i.path ++ titanParams size token mimeArg } := by
  unfold titanLine iriText titanParams
  simp only [hs]
  cases token <;> cases mimeArg <;> simp [List.append_assoc]

theorem natDec_nonul (n : Nat) : ∀ c ∈ natDec n, 48 ≤ c ∧ c ≤ 57 := by
  induction n using Nat.strongRecOn with
  | _ n ih =>
    have key : ∀ k, k < 10 → 48 ≤ UInt8.ofNat (48 + k) ∧ UInt8.ofNat (48 + k) ≤ 57 := by decide
    by_cases h : n < 10
    · rw [natDec_small n h]; intro c hc
      simp only [List.mem_singleton] at hc
      rw [hc]; exact key n h
    · rw [natDec_step n (by omega)]; intro c hc
      rcases List.mem_append.1 hc with hc | hc
      · exact ih (n / 10) (by omega) c hc
      · simp only [List.mem_singleton] at hc
        rw [hc]; exact key (n % 10) (by omega)

theorem query_nonul (isAddr : Bytes → Bool) (url : Bytes) (i : Iri) (h : parseIri isAddr url = .ok i)
    (h0 : (0 : UInt8) ∉ url) : (0 : UInt8) ∉ i.query := by
  obtain ⟨sch, auth, pp, tail, rfl, -, -, -, -, ht⟩ := (parseIri_iff _ _ _).1 h
  intro hm
  apply h0
  rcases ht with ⟨-, -, e, -⟩ | ⟨rp, d, qf, rfl, -, -, k⟩
  · rw [e] at hm; simp at hm
  · rcases k with ⟨-, e, -⟩ | ⟨-, e⟩ | ⟨rfl, -⟩ | ⟨rfl, -⟩
    · rw [e] at hm; simp at hm
    · rw [e] at hm; simp at hm
    · simp [hm]
    · simp [hm]

/-- C84: titan sends exactly one request line, made of the host, the path and the query it has read
from the url and the parameters, or refuses: it never sends a truncated line. -/
theorem C84_titan_line (isAddr : Bytes → Bool) (url : Bytes) (i : Iri) (size : Nat) (token mimeArg : Option Bytes)
    (h : parseIri isAddr url = .ok i) (h0 : (0 : UInt8) ∉ url)
    (ht : ∀ t, token = some t → (0 : UInt8) ∉ t) (hm : ∀ m, mimeArg = some m → (0 : UInt8) ∉ m) :
    titanRequest isAddr url size token mimeArg =
      if url.length ≤ 1024 ∧ i.schema = b%"titan" ∧
          (titanLine i.host i.path i.query size token mimeArg).length + 2 ≤ 1024 then
        .ok (titanLine i.host i.path i.query size token mimeArg ++ b%"\r\n")
      else .err := by
  unfold titanRequest
  by_cases hl : url.length ≤ 1024
  · rw [if_neg (by omega), h]
    dsimp only
    by_cases hs : i.schema = b%"titan"
    · rw [if_neg (by simp [hs])]
      rw [titanLine_text i size token mimeArg hs]
      generalize hp : i.path ++ titanParams size token mimeArg = path
      obtain ⟨z2, z3⟩ := C04_no_nul isAddr url i h0 h
      have z4 := query_nonul isAddr url i h h0
      have z1 : (0 : UInt8) ∉ i.schema := by rw [hs]; decide
      have zp : (0 : UInt8) ∉ path := by
        rw [← hp]
        have hd : (0 : UInt8) ∉ natDec size := fun hh => absurd (natDec_nonul size 0 hh).1 (by decide)
        cases token with
        | none =>
          cases mimeArg with
          | none => simp [titanParams, z3, hd]
          | some m => simp [titanParams, z3, hd, hm m rfl]
        | some t =>
          cases mimeArg with
          | none => simp [titanParams, z3, hd, ht t rfl]
          | some m => simp [titanParams, z3, hd, ht t rfl, hm m rfl]
      have hpne : path ≠ [] := by
        rw [← hp]; cases token <;> cases mimeArg <;> simp [titanParams]
      have zt : (0 : UInt8) ∉ iriText { i with path := path } := by
        unfold iriText
        split <;> simp [z1, z2, zp, z4]
      obtain ⟨m', ok, e, hbx, hok⟩ := serialize_box { i with path := path } (List.replicate 1025 0) 1025 (by decide) (by rw [List.length_replicate]; exact Nat.le_refl _) z1 z2 zp
      rw [e]
      generalize iriText { i with path := path } = T at *
      cases ok with
      | false =>
        have : ¬ T.length < 1025 := fun hh => by simpa using hok.2 (.inl hh)
        simp only
        rw [if_neg (by intro hh; omega)]
      | true =>
        have hT : T.length < 1025 := by
          rcases hok.1 rfl with hh | ⟨hh, -⟩
          · exact hh
          · exact absurd hh hpne
        obtain ⟨m2, l, e2, b2, hl2⟩ := box_cat _ _ b%"\r\n" _ (by decide) (by rw [List.length_replicate]; exact Nat.le_refl _) _ hbx zt
        simp only [e2]
        have hl3 : l = T.length + 2 := by rw [hl2]; simp; omega
        by_cases h2 : T.length + 2 ≤ 1024
        · rw [if_neg (by omega), if_pos ⟨hl, hs, h2⟩]
          congr 1
          rw [boxed_cstr _ _ _ _ b2 (by simp [zt])]
          exact List.take_of_length_le (by simp; omega)
        · rw [if_pos (by omega), if_neg (by intro hh; omega)]
    · rw [if_pos (by simpa using hs), if_neg (by intro hh; exact hs hh.2.1)]
  · rw [if_pos (by omega), if_neg (by intro hh; exact hl hh.1)]

example : titanRequest (fun _ => false) b%"titan://h:70/a/../b?q#f" 12 (some b%"tok") (some b%"text/gemini") =
    .ok b%"titan://h/b;size=12;token=tok;mime=text/gemini?q\r\n" := by decide +kernel

/-- an IRI that is not one: titan refuses -/
theorem C84_titan_rejects (isAddr : Bytes → Bool) (url : Bytes) (size : Nat) (token mimeArg : Option Bytes)
    (h : ∀ i, parseIri isAddr url ≠ .ok i) :
    ∀ r, titanRequest isAddr url size token mimeArg ≠ .ok r := by
  intro r
  unfold titanRequest
  split
  · simp
  · cases e : parseIri isAddr url with
    | ok i => exact absurd e (h i)
    | err => simp
    | ub => simp

example : ∀ i, parseIri (fun _ => false) b%"titan:/x" ≠ .ok i := by
  intro i h; have : parseIri (fun _ => false) b%"titan:/x" = .err := by decide +kernel
  rw [this] at h; cases h

theorem normalize_of_staysBelow (q : Bytes) (h : StaysBelow q) : normalize q = q := by
  obtain ⟨h1, h2, h3, h4⟩ := h
  have hns := splitSlash_noSlash_mem q
  obtain ⟨l, c, hlc⟩ : ∃ l c, splitSlash q = l ++ [c] := by
    rcases List.eq_nil_or_concat (splitSlash q) with e | ⟨l, c, e⟩
    · exact absurd e (splitSlash_ne q)
    · exact ⟨l, c, by simpa using e⟩
  rw [hlc] at h2 h3 h4 hns
  simp only [List.dropLast_concat] at h4
  simp only [List.mem_append, List.mem_singleton, not_or] at h2 h3
  have hgl : ∀ x ∈ l, Good x := by
    intro x hx
    exact ⟨hns x (by simp [hx]), fun e => h4 (e ▸ hx), fun e => h2.1 (e ▸ hx), fun e => h3.1 (e ▸ hx)⟩
  have hj : joinSlash (splitSlash q) = q := join_split q
  by_cases hc : c = []
  · subst hc
    have hsv : survivors q = l := by
      rw [survivors, hlc, List.foldl_append, foldl_push_good _ _ hgl]; simp [pushComp]
    by_cases hl : l = []
    · subst hl
      rw [normalize, hsv]
      rw [hlc] at hj
      rw [← hj]; simp [joinSlash]
    · have hq : q = joinSlash l ++ [47] := by
        rw [hlc, joinSlash_append_single l [] hl] at hj
        exact hj.symm
      rw [normalize, hsv, if_pos ⟨hl, by rw [hq]; simp⟩]; exact hq.symm
  · have hgc : Good c := ⟨hns c (by simp), hc, fun e => h2.2 e.symm, fun e => h3.2 e.symm⟩
    have hg : ∀ x ∈ l ++ [c], Good x := by
      intro x hx
      rcases List.mem_append.1 hx with hx | hx
      · exact hgl x hx
      · simp at hx; exact hx ▸ hgc
    have hsv : survivors q = l ++ [c] := by
      rw [survivors, hlc, foldl_push_good _ _ hg]; simp
    rw [normalize, hsv, ← hlc, hj]
    have : q.getLast? ≠ some 47 := by
      rw [← hj, hlc]; exact noSlash_getLast_join _ hg
    simp [this]

theorem splitSlash_append (q w : Bytes) : splitSlash (q ++ w) =
    (splitSlash q).dropLast ++ (match splitSlash w with
      | [] => []
      | x :: xs => ((splitSlash q).getLast?.getD [] ++ x) :: xs) := by
  induction q with
  | nil =>
    cases e : splitSlash w with
    | nil => exact absurd e (splitSlash_ne w)
    | cons x xs => simp [splitSlash, e]
  | cons c r ih =>
    by_cases h : c = 47
    · subst h
      have hne := splitSlash_ne r
      rw [List.cons_append, splitSlash_slash, splitSlash_slash, ih]
      cases e : splitSlash r with
      | nil => exact absurd e hne
      | cons y ys => simp [List.getLast?_cons_cons]
    · have hne := splitSlash_ne r
      simp only [List.cons_append, splitSlash, if_neg h]
      rw [ih]
      cases e : splitSlash r with
      | nil => exact absurd e hne
      | cons y ys =>
        cases ys with
        | nil =>
          cases e2 : splitSlash w with
          | nil => exact absurd e2 (splitSlash_ne w)
          | cons x xs => simp
        | cons z zs => simp [List.getLast?_cons_cons]

/-- a path below its root followed by parameters which begin with a semicolon is below its root -/
theorem staysBelow_params (q w : Bytes) (hq : StaysBelow q) (hw : StaysBelow (59 :: w)) :
    StaysBelow (q ++ 59 :: w) := by
  obtain ⟨q1, q2, q3, q4⟩ := hq
  obtain ⟨-, w2, w3, w4⟩ := hw
  obtain ⟨x, xs, hx⟩ : ∃ x xs, splitSlash (59 :: w) = (59 :: x) :: xs := by
    cases e : splitSlash w with
    | nil => exact absurd e (splitSlash_ne w)
    | cons y ys => exact ⟨y, ys, by simp [splitSlash, e]⟩
  obtain ⟨l, c, hlc⟩ : ∃ l c, splitSlash q = l ++ [c] := by
    rcases List.eq_nil_or_concat (splitSlash q) with e | ⟨l, c, e⟩
    · exact absurd e (splitSlash_ne q)
    · exact ⟨l, c, by simpa using e⟩
  have hs : splitSlash (q ++ 59 :: w) = l ++ (c ++ 59 :: x) :: xs := by
    rw [splitSlash_append, hx, hlc]; simp
  rw [hx] at w2 w3 w4
  rw [hlc] at q2 q3 q4
  simp only [List.dropLast_concat] at q4
  simp only [List.mem_append, List.mem_cons, not_or] at q2 q3 w2 w3
  have h59 : ∀ (a b : Bytes), (59 : UInt8) ∉ b → b ≠ a ++ 59 :: x := by
    intro a b hb e; apply hb; rw [e]; simp
  refine ⟨?_, ?_, ?_, ?_⟩
  · cases q with
    | nil => simp
    | cons a r => simpa using q1
  · rw [hs]; simp only [List.mem_append, List.mem_cons, not_or]
    exact ⟨q2.1, h59 c _ (by decide), w2.2⟩
  · rw [hs]; simp only [List.mem_append, List.mem_cons, not_or]
    exact ⟨q3.1, h59 c _ (by decide), w3.2⟩
  · rw [hs]
    cases xs with
    | nil => rw [List.dropLast_append_of_ne_nil (by simp)]; simpa using q4
    | cons y ys =>
      rw [List.dropLast_append_of_ne_nil (by simp)]
      rw [List.dropLast_cons_of_ne_nil (by simp)] at w4 ⊢
      simp only [List.mem_append, List.mem_cons, not_or] at w4 ⊢
      exact ⟨q4, h59 c _ (by decide), w4.2⟩

/-- every byte stands for itself -/
theorem decodes_self {P : UInt8 → Prop} (a : Bytes) (h : ∀ c ∈ a, P c) : Decodes P a a := by
  induction a with
  | nil => exact .nil
  | cons c r ih => exact .lit c _ _ (h c (by simp)) (ih (fun x hx => h x (by simp [hx])))

/-- C84, partial: when the host and the path have no bytes that need an escape and the parameters have
none and do not introduce a `.`, `..` or empty component, a server reading the line finds the host, the
path, the parameters and the query which titan was given.
Missing: urls with percent escapes, bracketed addresses, and the port, for which it is false, see below. -/
theorem C84_line_names_resource_partial (isAddr : Bytes → Bool) (url : Bytes) (i : Iri) (size : Nat)
    (token mimeArg : Option Bytes) (line : Bytes)
    (h : parseIri isAddr url = .ok i) (h0 : (0 : UInt8) ∉ url)
    (hb : c%'[' ∉ url) (hh : ∀ c ∈ i.host, HostChar c) (hp : ∀ c ∈ i.path, PathChar c)
    (ht : ∀ t, token = some t → ∀ c ∈ t, PathChar c) (hm : ∀ m, mimeArg = some m → ∀ c ∈ m, PathChar c)
    (w : Bytes) (hw : w = b%";size=" ++ natDec size ++ (match token with | some t => b%";token=" ++ t | none => []) ++
      (match mimeArg with | some m => b%";mime=" ++ m | none => []))
    (hs : StaysBelow w)
    (hr : titanRequest isAddr url size token mimeArg = .ok line) :
    ∃ t j, line = t ++ b%"\r\n" ∧ parseIri isAddr t = .ok j ∧ j.schema = b%"titan" ∧ j.host = i.host ∧
      j.path = i.path ++ w ∧ j.query = i.query := by
  have z : (0 : UInt8) ∉ [] := by simp
  have hnP : ¬ PathChar 0 := by decide
  rw [C84_titan_line isAddr url i size token mimeArg h h0 (fun t e hh' => hnP (ht t e 0 hh'))
    (fun t e hh' => hnP (hm t e 0 hh'))] at hr
  split at hr
  · rename_i hc
    injection hr with hr
    refine ⟨_, ⟨b%"titan", i.host, [], 1965, i.path ++ w, i.query, []⟩, hr.symm, ?_, rfl, rfl, rfl, rfl⟩
    rw [parseIri_iff]
    have hwp : ∀ c ∈ w, PathChar c := by
      rw [hw]
      intro c hc
      simp only [List.mem_append] at hc
      rcases hc with ((hc | hc) | hc) | hc
      · revert hc; revert c; decide +kernel
      · have := natDec_nonul size c hc
        exact (by decide +kernel : ∀ c : UInt8, 48 ≤ c ∧ c ≤ 57 → PathChar c) c this
      · cases token with
        | none => simp at hc
        | some t =>
          simp only [List.mem_append] at hc
          rcases hc with hc | hc
          · revert hc; revert c; decide +kernel
          · exact ht t rfl c hc
      · cases mimeArg with
        | none => simp at hc
        | some t =>
          simp only [List.mem_append] at hc
          rcases hc with hc | hc
          · revert hc; revert c; decide +kernel
          · exact hm t rfl c hc
    have hlow : i.host.map lower = i.host := by
      obtain ⟨sch, auth, pp, tail, rfl, -, -, k, -, -⟩ := (parseIri_iff _ _ _).1 h
      rcases k with ⟨rfl, k2⟩ | ⟨d, -, e⟩
      · exact absurd (by simp) hb
      · have : ∀ c, lower (lower c) = lower c := by decide +kernel
        rw [e, List.map_map]; congr 1; funext c; exact this c
    have hstay : StaysBelow (i.path ++ w) := by
      have hw' : ∃ v, w = 59 :: v := by
        rw [hw]; exact ⟨_, rfl⟩
      obtain ⟨v, rfl⟩ := hw'
      exact staysBelow_params _ _ (C01_path_confined isAddr url i h).1 hs
    refine ⟨b%"titan", i.host, [], b%"/" ++ (i.path ++ w) ++ (if i.query = [] then [] else b%"?" ++ i.query), ?_,
      ⟨c%'t', b%"itan", rfl, by decide, by decide +kernel⟩, rfl, .inr ⟨i.host, decodes_self _ hh, hlow.symm⟩, .inl ⟨rfl, rfl, rfl⟩,
      .inr ⟨i.path ++ w, i.path ++ w, _, rfl, decodes_self _ ?_, (normalize_of_staysBelow _ hstay).symm, ?_⟩⟩
    · rw [hw]; unfold titanLine
      cases token <;> cases mimeArg <;> simp [List.append_assoc]
    · intro c hc
      rcases List.mem_append.1 hc with hc | hc
      · exact hp c hc
      · exact hwp c hc
    · obtain ⟨sch, auth, pp, tail, -, -, -, -, -, k⟩ := (parseIri_iff _ _ _).1 h
      by_cases hq : i.query = []
      · left; simp [hq]
      · right; right; left
        rw [if_neg hq]
        refine ⟨rfl, rfl, ?_⟩
        rcases k with ⟨-, -, e, -⟩ | ⟨rp, d, qf, rfl, -, -, k⟩
        · exact absurd e hq
        · rcases k with ⟨-, e, -⟩ | ⟨-, e⟩ | ⟨-, -, e⟩ | ⟨-, e⟩
          · exact absurd e hq
          · exact absurd e hq
          · exact e
          · exact e
  · cases hr

example : parseIri (fun _ => false) b%"titan://h/b;size=12;mime=text/gemini?q" =
    .ok ⟨b%"titan", b%"h", [], 1965, b%"b;size=12;mime=text/gemini", b%"q", []⟩ := by decide +kernel

example : StaysBelow b%";size=12;mime=text/gemini" ∧ (∀ c ∈ b%"text/gemini", PathChar c) ∧ (∀ c ∈ b%"h", HostChar c) ∧
    titanRequest (fun _ => false) b%"titan://h/b?q" 12 none (some b%"text/gemini") =
      .ok b%"titan://h/b;size=12;mime=text/gemini?q\r\n" := by
  refine ⟨?_, ?_, ?_, ?_⟩
  · unfold StaysBelow; decide +kernel
  · decide +kernel
  · decide +kernel
  · decide +kernel

/-- C84 is false of the code: an escaped line break in the url reaches the server as a line break, so
the server sees another request, for another resource and another size ... -/
theorem C84_escaped_break_splits :
    titanRequest (fun _ => false) b%"titan://h/a;size=0%0D%0Ab" 5 none none =
      .ok b%"titan://h/a;size=0\r\nb;size=5\r\n" := by decide +kernel

/-- ... an escaped space makes a line no server accepts ... -/
theorem C84_escaped_space_refused :
    titanRequest (fun _ => false) b%"titan://h/a%20b" 5 none none = .ok b%"titan://h/a b;size=5\r\n" ∧
    parseIri (fun _ => false) b%"titan://h/a b;size=5" = .err := by decide +kernel

/-- ... and the port is dropped, so that the line names the resource of the default port. -/
theorem C84_port_dropped :
    ∃ i j line, parseIri (fun _ => false) b%"titan://h:70/a" = .ok i ∧ i.portNo = 70 ∧
      titanRequest (fun _ => false) b%"titan://h:70/a" 5 none none = .ok (line ++ b%"\r\n") ∧
      parseIri (fun _ => false) line = .ok j ∧ j.portNo = 1965 := by
  refine ⟨⟨b%"titan", b%"h", b%"70", 70, b%"a", [], []⟩, ⟨b%"titan", b%"h", [], 1965, b%"a;size=5", [], []⟩,
    b%"titan://h/a;size=5", ?_⟩
  decide +kernel

end Gmid.Props
