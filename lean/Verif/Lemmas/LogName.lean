import Verif.Model.LogName
import Verif.Props.Files
import Verif.Lemmas.Server

/-!
# Lemmas on the name in the log: the buffer of the decoder, and the name of a connection
-/

set_option autoImplicit false

namespace Gmid

/-- the outcome of Model/Puny -/
def PRes.fin : PRes (Bool × Bytes) → PRes Bytes
  | .ok (true, m) => .ok m
  | .ok (false, _) => .err
  | .err => .err
  | .arith => .arith
  | .mem => .mem

theorem decodeLoopB_fin (f : Nat) (m : Bytes) (n i bias np : Nat) (s : Bytes) :
    (decodeLoopB f m n i bias np s).fin = decodeLoop f m n i bias np s := by
  induction f generalizing m n i bias np s with
  | zero => cases s <;> simp [decodeLoopB, decodeLoop, PRes.fin]
  | succ f ih =>
    cases s with
    | nil => simp [decodeLoopB, decodeLoop, PRes.fin]
    | cons a s =>
      unfold decodeLoopB decodeLoop
      simp only
      cases deltaLoop bias 36 i 1 (a :: s) with
      | none => rfl
      | some x =>
        obtain ⟨j, r⟩ := x
        simp only
        cases adapt (toInt32 (j + 18446744073709551616 - i % 4294967296)) (np + 1) (decide (i % 4294967296 = 0)) with
        | none => rfl
        | some b =>
          simp only
          cases punyInsert m ((n + j / (np + 1)) % 4294967296) (j % (np + 1)) with
          | ok m => exact ih ..
          | err => rfl
          | arith => rfl
          | mem => rfl

theorem takeWhile_full (p : UInt8 → Bool) (s : Bytes) : (s.takeWhile p).length = s.length ↔ s.all p = true := by
  induction s with
  | nil => simp
  | cons a s ih =>
    rw [List.takeWhile_cons]
    by_cases h : p a = true
    · rw [if_pos h]; simp only [List.length_cons, List.all_cons, h, Bool.true_and, ← ih]; omega
    · rw [if_neg h]; simp [h]

theorem takeWhile_id (p : UInt8 → Bool) (s : Bytes) (h : s.all p = true) : s.takeWhile p = s := by
  induction s with
  | nil => rfl
  | cons a s ih =>
    simp only [List.all_cons, Bool.and_eq_true] at h
    rw [List.takeWhile_cons, if_pos h.1, ih h.2]

theorem copyBasic_eq (basic m : Bytes) :
    (copyBasic basic m).1 = !basic.any (fun c => decide (122 < c.toNat ∧ c.toNat < 128)) ∧
    ((copyBasic basic m).1 = true → (copyBasic basic m).2 = basic ++ m.drop basic.length) := by
  have h := takeWhile_full (fun c => !decide (122 < c.toNat ∧ c.toNat < 128)) basic
  have e : (basic.all fun c => !decide (122 < c.toNat ∧ c.toNat < 128)) = !basic.any (fun c => decide (122 < c.toNat ∧ c.toNat < 128)) := by
    rw [List.not_any_eq_all_not]
  constructor
  · rw [← e]
    unfold copyBasic
    cases hb : basic.all (fun c => !decide (122 < c.toNat ∧ c.toNat < 128)) with
    | true => simp only [beq_iff_eq]; exact h.mpr hb
    | false =>
      simp only [beq_eq_false_iff_ne]
      intro h2; rw [h.mp h2] at hb; cases hb
  · intro h1
    unfold copyBasic at h1 ⊢
    simp only [beq_iff_eq] at h1 ⊢
    rw [takeWhile_id _ _ (h.mp h1)]

theorem splitLastDash_length (s a b : Bytes) (h : splitLastDash s = some (a, b)) : a.length + b.length + 1 = s.length := by
  induction s generalizing a b with
  | nil => cases h
  | cons c r ih =>
    rw [splitLastDash] at h
    split at h
    · rename_i a' b' hr
      cases h
      have := ih a' b hr
      simp only [List.length_cons]; omega
    · split at h
      · cases h; simp
      · cases h

theorem decodeLabelB_fin (str m : Bytes) : (punyDecodeLabelB str m).fin = punyDecodeLabel str m := by
  unfold punyDecodeLabelB punyDecodeLabel
  by_cases h : str.take 4 ≠ b%"xn--"
  · rw [if_pos h, if_pos h]; rfl
  · rw [if_neg h, if_neg h]
    simp only
    cases hs : splitLastDash (str.drop 4) with
    | none =>
      simp only
      by_cases h0 : (0 : UInt8) ∉ m
      · rw [if_pos h0, if_pos h0]; rfl
      · rw [if_neg h0, if_neg h0]; exact decodeLoopB_fin ..
    | some x =>
      obtain ⟨basic, s⟩ := x
      have hlen := splitLastDash_length _ _ _ hs
      simp only
      by_cases hl : (str.drop 4).length > m.length
      · rw [if_pos hl, if_pos hl]; rfl
      · rw [if_neg hl, if_neg hl]
        obtain ⟨h1, h2⟩ := copyBasic_eq basic m
        cases hc : (copyBasic basic m).1 with
        | false =>
          rw [hc] at h1
          have h1 : basic.any (fun c => decide (122 < c.toNat ∧ c.toNat < 128)) = true := by
            cases hq : basic.any (fun c => decide (122 < c.toNat ∧ c.toNat < 128)) with
            | true => rfl
            | false => rw [hq] at h1; cases h1
          rw [if_pos (by rfl), if_pos h1]; rfl
        | true =>
          rw [hc] at h1
          have h1 : ¬ basic.any (fun c => decide (122 < c.toNat ∧ c.toNat < 128)) = true := by
            intro hq; rw [hq] at h1; cases h1
          have hb : ¬ basic.length > m.length := by omega
          rw [if_neg (by decide), if_neg h1, if_neg hb, h2 hc]
          dsimp only
          by_cases h0 : (0 : UInt8) ∉ basic ++ m.drop basic.length
          · rw [if_pos h0, if_pos h0]; rfl
          · rw [if_neg h0, if_neg h0]; exact decodeLoopB_fin ..

theorem punyLoopB_fin (ls : List Bytes) (m : Bytes) : (punyLoopB ls m).fin = punyLoop ls m := by
  induction ls generalizing m with
  | nil => rfl
  | cons l rest ih =>
    unfold punyLoopB punyLoop
    by_cases hl : l.length ≥ 64
    · rw [if_pos hl, if_pos hl]; rfl
    · rw [if_neg hl, if_neg hl, ← decodeLabelB_fin]
      cases punyDecodeLabelB l m with
      | err => rfl
      | arith => rfl
      | mem => rfl
      | ok x =>
        obtain ⟨b, m⟩ := x
        cases b with
        | false => rfl
        | true =>
          cases rest with
          | nil => rfl
          | cons l2 rest =>
            simp only
            show _ = match strlcat m b%"." m.length with
              | none => PRes.mem
              | some (m, k) =>
                if k ≥ m.length then .err
                else if (0 : UInt8) ∉ m then .mem
                else
                  match punyLoop (l2 :: rest) (m.drop (cstr m).length) with
                  | .ok t => .ok (m.take (cstr m).length ++ t)
                  | .err => .err
                  | .arith => .arith
                  | .mem => .mem
            cases strlcat m b%"." m.length with
            | none => rfl
            | some x =>
              obtain ⟨m2, k⟩ := x
              simp only
              by_cases hk2 : k ≥ m2.length
              · rw [if_pos hk2, if_pos hk2]; rfl
              · rw [if_neg hk2, if_neg hk2]
                by_cases h0 : (0 : UInt8) ∉ m2
                · rw [if_pos h0, if_pos h0]; rfl
                · rw [if_neg h0, if_neg h0, ← ih]
                  cases punyLoopB (l2 :: rest) (m2.drop (cstr m2).length) with
                  | err => rfl
                  | arith => rfl
                  | mem => rfl
                  | ok y => obtain ⟨b, t⟩ := y; cases b <;> rfl

/-- the buffer this adds to Model/Puny is the same one: outcome and, for a success, content agree -/
theorem punyDecodeB_fin (len : Nat) (host : Bytes) : (punyDecodeB len (some host)).fin = punyDecode len host :=
  punyLoopB_fin _ _

/-! ## the name of a connection does not change -/

theorem startReply_domain (env : Env) (c : Client) (code : Int) (mt : Bytes) : (startReply env c code mt).domain = c.domain := by
  rcases startReply_replied env c code mt with h | h <;> exact h.domain

theorem checkCert_domain (env : Env) (c : Client) (s : Nat) : (checkCert env c s).1.domain = c.domain := by
  unfold checkCert; repeat' split
  all_goals first | rfl | exact startReply_domain ..

theorem relayTo_domain (env : Env) (c : Client) (p : Proxy) : (relayTo env c p).domain = c.domain := by
  unfold relayTo; simp only; repeat' split
  all_goals first | rfl | (rw [startReply_domain])

theorem reverse_domain (env : Env) (c : Client) (i : Iri) : (applyReverseProxy env c i).1.domain = c.domain := by
  unfold applyReverseProxy
  split
  · rfl
  · split
    · rename_i s _
      have := checkCert_domain env c s
      split
      · rename_i he; rw [he] at this; exact this
      · rename_i he; rw [he] at this; rw [relayTo_domain]; exact this
    · exact relayTo_domain ..

theorem requireCa_domain (env : Env) (c : Client) (i : Iri) : (applyRequireCa env c i).1.domain = c.domain := by
  unfold applyRequireCa; split
  · rfl
  · exact checkCert_domain ..

theorem block_domain (env : Env) (c : Client) (i : Iri) (c' : Client) (b : Bool) (h : applyBlockReturn env c i = .ok (c', b)) : c'.domain = c.domain := by
  unfold applyBlockReturn at h
  split at h
  · cases h; rfl
  · split at h
    · cases h; exact startReply_domain ..
    · cases h
    · cases h

theorem fastcgi_domain (env : Env) (c : Client) (i : Iri) : (applyFastcgi env c i).1.domain = c.domain := by
  unfold applyFastcgi; simp only; repeat' split
  all_goals first | rfl | (simp only; rw [startReply_domain])

theorem dirListing_domain (env : Env) (c : Client) (i : Iri) : (dirListing env c i).domain = c.domain := by
  unfold dirListing; simp only; repeat' split
  all_goals first | exact startReply_domain .. | (simp only; rw [startReply_domain])

theorem openDir_domain (env : Env) (c c' : Client) (i : Iri) (h : openDir env c i = .ok c') : c'.domain = c.domain := by
  unfold openDir at h
  simp only at h
  repeat' split at h
  all_goals first
    | cases h; done
    | (cases h; unfold redirectDir; simp only; split <;> exact startReply_domain ..)
    | (cases h; exact dirListing_domain ..)
    | (cases h; rw [startReply_domain])

theorem serveFile_domain (env : Env) (c c' : Client) (i : Iri) (h : serveFile env c i = .ok c') : c'.domain = c.domain := by
  unfold serveFile at h
  simp only at h
  repeat' split at h
  all_goals first
    | cases h; done
    | (have := openDir_domain _ _ _ _ h; exact this)
    | (cases h; rw [startReply_domain])

theorem dispatch_domain (env : Env) (c c' : Client) (i : Iri) (decoded : Bytes) (h : dispatch env c i decoded = .ok c') : c'.domain = c.domain := by
  unfold dispatch at h
  have h1 := reverse_domain env c i
  revert h h1
  generalize applyReverseProxy env c i = r
  obtain ⟨c1, b⟩ := r
  intro h h1
  cases b with
  | true => cases h; exact h1
  | false =>
    simp only at h h1
    rw [← h1]
    split at h
    · cases h; exact startReply_domain ..
    · have h2 := requireCa_domain env c1 i
      revert h h2
      generalize applyRequireCa env c1 i = r
      obtain ⟨c2, b⟩ := r
      intro h h2
      cases b with
      | true => cases h; exact h2
      | false =>
        simp only at h h2
        rw [← h2]
        have h3 := block_domain env c2 i
        revert h h3
        generalize applyBlockReturn env c2 i = r
        intro h h3
        cases r with
        | err => cases h
        | ub => cases h
        | ok x =>
          obtain ⟨c3, b⟩ := x
          have h3' := h3 c3 b rfl
          clear h3
          cases b with
          | true => cases h; exact h3'
          | false =>
            simp only at h
            rw [← h3']
            have h4 := fastcgi_domain env c3 i
            revert h h4
            generalize applyFastcgi env c3 i = r
            obtain ⟨c4, b⟩ := r
            intro h h4
            cases b with
            | true => cases h; exact id h4
            | false =>
              simp only at h h4
              rw [← h4]
              exact serveFile_domain _ _ _ _ h

theorem clientRead_domain (env : Env) (c c' : Client) (h : clientRead env c = .ok c') : c'.domain = c.domain := by
  rcases Props.clientRead_cases c c' h with h | ⟨r, h⟩ | ⟨_, _, i, d, _, _, _, _, _, _, h⟩
  · rw [h]
  · rw [h, startReply_domain]
  · have := dispatch_domain _ _ _ _ _ h; exact this

theorem clientError_domain (env : Env) (k : ErrKind) (c : Client) : (clientError env k c).domain = c.domain := by
  unfold clientError clientClose; simp only; repeat' split
  all_goals first | rfl | (rw [startReply_domain])

theorem step_domain (env : Env) (bufsiz : Nat) (ev : Ev) (c c' : Client) (h : step env bufsiz ev c = .ok c') : c'.domain = c.domain := by
  unfold step at h
  split at h
  · cases h; rfl
  · split at h
    · have := clientRead_domain _ _ _ h; exact this
    · simp only at h
      split at h
      · unfold clientWrite at h
        simp only at h
        repeat' split at h
        all_goals first
          | (cases h; done)
          | (cases h; rfl)
          | (cases h; rw [clientError_domain])
          | (cases h; split <;> rfl)
      · cases h; rfl
    · cases h; exact clientError_domain ..

theorem run_domain (bufsiz : Nat) (evs : List (Env × Ev)) (c c' : Client) (h : runEvents bufsiz evs c = .ok c') : c'.domain = c.domain := by
  induction evs generalizing c with
  | nil => cases h; rfl
  | cons x evs ih =>
    obtain ⟨env, ev⟩ := x
    rw [runEvents] at h
    cases hs : step env bufsiz ev c with
    | ok c1 => rw [hs] at h; rw [ih c1 h, step_domain _ _ _ _ _ hs]
    | err => rw [hs] at h; cases h
    | ub => rw [hs] at h; cases h

end Gmid
