import Verif.Props.Listing

/-! # C59 (a reply header is one line), C60 (for-host without a port), C62 (one request per connection) -/

set_option autoImplicit false

namespace Gmid.Props
open Spec

/-! ## C59 -/

/-- the text has no carriage return and no newline -/
def OneLine (s : Bytes) : Prop := ∀ x ∈ s, x ≠ c%'\r' ∧ x ≠ c%'\n'

instance (s : Bytes) : Decidable (OneLine s) := by unfold OneLine; infer_instance

/-- the texts of a configuration that may end up in a header -/
structure ConfLine (v : Vhost) (mimes : List Etm) : Prop where
  lang : ∀ l, l = v.dflt ∨ l ∈ v.locs → OneLine l.lang
  defaultMime : ∀ l, l = v.dflt ∨ l ∈ v.locs → OneLine l.defaultMime
  blockFmt : ∀ l, l = v.dflt ∨ l ∈ v.locs → OneLine l.blockFmt
  mimes : ∀ t ∈ mimes, OneLine t.mime

/-- every reply header among the effects is one line -/
def HeadersLine (effs : List Eff) : Prop := ∀ code text, Eff.header code text ∈ effs → OneLine text

theorem oneLine_of {s : Bytes} (h : s.all (fun x => x != 13 && x != 10) = true) : OneLine s := by
  intro x hx
  have := List.all_eq_true.1 h x hx
  simpa using this

macro "line" : tactic => `(tactic| (refine oneLine_of ?_; rfl))

theorem OneLine.append {a b : Bytes} (ha : OneLine a) (hb : OneLine b) : OneLine (a ++ b) := by
  intro x hx; rcases List.mem_append.1 hx with h | h
  · exact ha x h
  · exact hb x h

theorem OneLine.take {a : Bytes} (ha : OneLine a) (n : Nat) : OneLine (a.take n) :=
  fun x hx => ha x (List.mem_of_mem_take hx)

theorem OneLine.left {a b : Bytes} (h : OneLine (a ++ b)) : OneLine a := fun x hx => h x (by simp [hx])

theorem intDec_line (n : Int) : OneLine (intDec n) := by
  have nat : ∀ n : Nat, OneLine (natDec n) := by
    intro n x hx
    have := (natDec_numeral n).2.1 x hx
    have key : OneLine b%"0123456789" := by line
    exact key x this
  unfold intDec
  split
  · intro x hx
    rcases List.mem_cons.1 hx with rfl | h
    · decide
    · exact nat _ x h
  · exact nat _

theorem catS_line (n : Nat) {a b : Bytes} (ha : OneLine a) (hb : OneLine b) : OneLine (catS n a b) := by
  unfold catS; split
  · exact (ha.append hb).take _
  · exact ha

theorem OneLine.tail {a : UInt8} {r : Bytes} (h : OneLine (a :: r)) : OneLine r := fun x hx => h x (by simp [hx])

theorem oneLine_nil : OneLine [] := by intro x hx; simp at hx

theorem fmtLoop_line (n : Nat) (path query name : Bytes) (port : Int) (hp : OneLine path) (hq : OneLine query)
    (hn : OneLine name) (k : Nat) : ∀ (fmt buf tmp t : Bytes), fmt.length ≤ k →
    OneLine fmt → OneLine buf → OneLine tmp → fmtLoop n path query name port buf tmp fmt = .ok t → OneLine t := by
  induction k with
  | zero =>
    intro fmt buf tmp t hk hf hb ht h
    have : fmt = [] := by simpa using hk
    subst this
    rw [fmtLoop] at h
    simp only [Res.ok.injEq] at h
    rw [← h]
    split
    · exact catS_line _ hb ht
    · exact hb
  | succ k ih =>
    intro fmt buf tmp t hk hf hb ht h
    cases fmt with
    | nil =>
      rw [fmtLoop] at h
      simp only [Res.ok.injEq] at h
      rw [← h]
      split
      · exact catS_line _ hb ht
      · exact hb
    | cons c r =>
      simp only [List.length_cons] at hk
      by_cases hc : c = 37
      · subst hc
        have hr := hf.tail
        cases r with
        | nil => simp [fmtLoop] at h
        | cons d r =>
          have hr2 := hr.tail
          simp only [List.length_cons] at hk
          have hbuf := catS_line n hb ht
          unfold fmtLoop at h
          simp only at h
          split at h
          · cases ‹d :: r = []›
          · rename_i r' e; injection e with e1 e2; subst e1; subst e2
            exact ih _ _ _ _ (by omega) hr2 (catS_line _ hbuf (by line)) oneLine_nil h
          · rename_i r' e; injection e with e1 e2; subst e1; subst e2
            refine ih _ _ _ _ (by omega) hr2 (catS_line _ ?_ hp) oneLine_nil h
            split
            · exact catS_line _ hbuf (by line)
            · exact hbuf
          · rename_i r' e; injection e with e1 e2; subst e1; subst e2
            exact ih _ _ _ _ (by omega) hr2 (catS_line _ hbuf hq) oneLine_nil h
          · rename_i r' e; injection e with e1 e2; subst e1; subst e2
            exact ih _ _ _ _ (by omega) hr2 (catS_line _ hbuf ((intDec_line _).take _)) oneLine_nil h
          · rename_i r' e; injection e with e1 e2; subst e1; subst e2
            exact ih _ _ _ _ (by omega) hr2 (catS_line _ hbuf hn) oneLine_nil h
          · rename_i e; injection e with e1 e2; subst e1; subst e2
            exact ih _ _ _ _ (by omega) hr2 hbuf oneLine_nil h
      · rw [fmtLoop_lit _ _ _ _ _ _ _ _ _ hc] at h
        have hcl : OneLine [c] := by intro x hx; rw [List.mem_singleton] at hx; subst hx; exact hf _ (by simp)
        split at h
        · exact ih _ _ _ _ (by omega) hf.tail (catS_line _ hb ht) hcl h
        · exact ih _ _ _ _ (by omega) hf.tail hb (ht.append hcl) h

theorem lang_line (fnm : Bytes → Bytes → Bool) (v : Vhost) (mimes : List Etm) (hv : ConfLine v mimes) (p : Option Bytes) (l : Bytes)
    (h : vhostLang fnm (some v) p = some l) : OneLine l := by
  cases p with
  | none => simp [vhostLang] at h
  | some p =>
    rcases C15_exhaustive fnm (fun l : Location => l.lang ≠ []) v.locs p with ⟨x, hx⟩ | hx
    · rw [(C15_lang fnm v p).1 x hx] at h
      simp only [Option.some.injEq] at h
      obtain ⟨b, a, e, -⟩ := hx
      rw [← h]; exact hv.lang x (.inr (by rw [e]; simp))
    · rw [(C15_lang fnm v p).2 hx] at h
      split at h
      · cases h
      · simp only [Option.some.injEq] at h
        rw [← h]; exact hv.lang _ (.inl rfl)

theorem default_line (fnm : Bytes → Bytes → Bool) (v : Vhost) (mimes : List Etm) (hv : ConfLine v mimes) (p : Bytes) :
    OneLine (vhostDefaultMime fnm (some v) (some p)) := by
  rcases C15_exhaustive fnm (fun l : Location => l.defaultMime ≠ []) v.locs p with ⟨x, hx⟩ | hx
  · rw [(C15_default_type fnm v p).1 x hx]
    obtain ⟨b, a, e, -⟩ := hx
    exact hv.defaultMime x (.inr (by rw [e]; simp))
  · rw [(C15_default_type fnm v p).2 hx]
    split
    · line
    · exact hv.defaultMime _ (.inl rfl)

theorem bsearchLoop_mem (key : Bytes) (t : List Etm) (n l u : Nat) (e : Etm)
    (h : bsearchLoop key t n l u = some e) : e ∈ t := by
  induction n generalizing l u with
  | zero => simp [bsearchLoop] at h
  | succ n ih =>
    unfold bsearchLoop at h
    split at h
    · simp only at h
      split at h
      · cases h
      · rename_i e' he
        split at h
        · exact ih _ _ h
        · exact ih _ _ h
        · simp only [Option.some.injEq] at h
          subst h
          exact List.mem_of_getElem? he
    · cases h

theorem mime_line (fnm : Bytes → Bytes → Bool) (v : Vhost) (mimes : List Etm) (hv : ConfLine v mimes) (p m : Bytes)
    (h : mimeType fnm mimes (some v) p = .ok m) : OneLine m := by
  unfold mimeType at h
  simp only at h
  split at h
  · cases h
  · cases h
  · simp only [Res.ok.injEq] at h; rw [← h]; exact default_line fnm v mimes hv p
  · split at h
    · rename_i t ht
      simp only [Res.ok.injEq] at h; rw [← h]
      exact hv.mimes t (bsearchLoop_mem _ _ _ _ _ _ ht)
    · split at h
      · simp only [Res.ok.injEq] at h; rw [← h]; line
      · simp only [Res.ok.injEq] at h; rw [← h]; exact default_line fnm v mimes hv p

/-- what is kept: the host, the headers -/
structure Keep (v : Vhost) (name inp : Bytes) (c : Client) : Prop where
  host : c.host = some v
  domain : c.domain = name
  inp : c.inp = inp
  effs : HeadersLine c.effs

theorem queueHeader_line (env : Env) (c : Client) (code : Int) (mt hdr : Bytes) (hc : HeadersLine c.effs) (h : OneLine hdr) :
    HeadersLine (queueHeader env c code mt hdr).effs := by
  intro k t ht
  simp only [queueHeader] at ht
  rcases List.mem_append.1 ht with ht | ht
  · rcases List.mem_append.1 ht with ht | ht
    · exact hc k t ht
    · rw [List.mem_singleton] at ht; injection ht with _ e; rw [e]; exact h
  · split at ht
    · simp at ht
    · simp at ht

theorem startReply_line (env : Env) (c : Client) (v : Vhost) (name inp : Bytes) (hv : ConfLine v env.mimes)
    (hc : Keep v name inp c) (code : Int) (mt : Bytes)
    (hm : OneLine mt) : Keep v name inp (startReply env c code mt) := by
  have hbase : OneLine (intDec code ++ c%' ' :: mt) := by
    refine (intDec_line code).append ?_
    intro x hx
    rcases List.mem_cons.1 hx with rfl | h
    · decide
    · exact hm x h
  rcases startReply_cases env c code mt with ⟨hdr, e, -, hx⟩ | ⟨e, -⟩
  · rw [e]
    refine ⟨hc.host, hc.domain, hc.inp, queueHeader_line env c code mt hdr hc.effs ?_⟩
    rcases hx with hx | ⟨l, -, -, -, hl, hx⟩
    · rw [hx]; exact hbase
    · rw [hx]; rw [hc.host] at hl
      exact (hbase.append (by line)).append (lang_line _ _ _ hv _ _ hl)
  · rw [e]
    exact ⟨hc.host, hc.domain, hc.inp, queueHeader_line env _ 40 _ _ hc.effs (by line)⟩

theorem stripPath_suffix (p : Bytes) (n : Int) : ∃ d, p = d ++ stripPath p n := by
  have hs : ∀ p t : Bytes, strchrSlash p = some t → ∃ d, p = d ++ t := by
    intro p
    induction p with
    | nil => intro t h; simp [strchrSlash] at h
    | cons c r ih =>
      intro t h
      unfold strchrSlash at h
      split at h
      · simp only [Option.some.injEq] at h; exact ⟨[], by simp [h]⟩
      · obtain ⟨d, hd⟩ := ih t h; exact ⟨c :: d, by rw [hd]; simp⟩
  have hl : ∀ (n : Nat) (p : Bytes), ∃ d, p = d ++ stripLoopN n p := by
    intro n
    induction n with
    | zero => intro p; exact ⟨[], rfl⟩
    | succ n ih =>
      intro p
      unfold stripLoopN
      split
      · exact ⟨p, by simp⟩
      · rename_i t ht
        obtain ⟨d, hd⟩ := hs _ _ ht
        obtain ⟨e, he⟩ := ih t
        exact ⟨d ++ e, by rw [List.append_assoc, ← he, ← hd]⟩
  exact hl _ _

theorem keep_eff (v : Vhost) (name inp : Bytes) (c : Client) (hc : Keep v name inp c) (e : Eff) (he : ∀ k t, e ≠ .header k t) :
    Keep v name inp { c with effs := c.effs ++ [e] } := by
  refine ⟨hc.host, hc.domain, hc.inp, fun k t ht => ?_⟩
  rcases List.mem_append.1 ht with ht | ht
  · exact hc.effs k t ht
  · rw [List.mem_singleton] at ht; exact absurd ht.symm (he k t)

section
variable (env : Env) (v : Vhost) (name inp : Bytes) (hv : ConfLine v env.mimes)
include hv

theorem checkCert_line (c : Client) (hc : Keep v name inp c) (store : Nat) : Keep v name inp (checkCert env c store).1 := by
  unfold checkCert
  split
  · exact startReply_line env c v name inp hv hc 60 b%"client certificate required" (by line)
  · split
    · exact startReply_line env c v name inp hv hc 61 b%"certificate not authorised" (by line)
    · exact hc

theorem relayTo_line (c : Client) (hc : Keep v name inp c) (p : Proxy) : Keep v name inp (relayTo env c p) := by
  have := keep_eff v name inp c hc (.relay p) (by simp)
  unfold relayTo
  simp only
  split
  · exact startReply_line env _ v name inp hv this _ _ (by line)
  · split
    · exact startReply_line env _ v name inp hv this _ _ (by line)
    · exact ⟨this.host, this.domain, this.inp, this.effs⟩

theorem reverse_line (c : Client) (hc : Keep v name inp c) (i : Iri) : Keep v name inp (applyReverseProxy env c i).1 := by
  unfold applyReverseProxy
  split
  · exact hc
  · split
    · rename_i store _
      have := checkCert_line env v name inp hv c hc store
      split
      · rename_i h; rw [h] at this; exact this
      · rename_i h; rw [h] at this; exact relayTo_line env v name inp hv _ this _
    · exact relayTo_line env v name inp hv _ hc _

theorem fastcgi_line (c : Client) (hc : Keep v name inp c) (i : Iri) : Keep v name inp (applyFastcgi env c i).1 := by
  unfold applyFastcgi
  split
  · exact hc
  · rename_i l _
    split
    · exact hc
    · have := keep_eff v name inp c hc (.fastcgi l.fcgi l) (by simp)
      simp only
      split
      · exact startReply_line env _ v name inp hv this 42 b%"CGI error" (by line)
      · split
        · exact startReply_line env _ v name inp hv this 40 b%"internal server error" (by line)
        · exact this

theorem dirListing_line (c : Client) (hc : Keep v name inp c) (i : Iri) : Keep v name inp (dirListing env c i) := by
  unfold dirListing
  split
  · exact startReply_line env _ v name inp hv hc _ _ (by line)
  · split
    · exact startReply_line env _ v name inp hv hc _ _ (by line)
    · rename_i d _
      have := startReply_line env { c with dir := d, type := .dir } v name inp hv ⟨hc.host, hc.domain, hc.inp, hc.effs⟩ 20 b%"text/gemini" (by line)
      exact ⟨this.host, this.domain, this.inp, this.effs⟩

theorem serveFile_line (c : Client) (hc : Keep v name inp c) (i : Iri) (hi : OneLine i.path) (c' : Client)
    (h : serveFile env c i = .ok c') : Keep v name inp c' := by
  unfold serveFile at h
  simp only at h
  split at h
  · cases h
    refine startReply_line env _ v name inp hv ?_ _ _ (by line)
    have := keep_eff v name inp c hc (.openat (vhostDirfd env.fnm c.host (some i.path)).1 (openName (vhostStrip env.fnm c.host (some i.path)) i.path)) (by simp)
    exact ⟨this.host, this.domain, this.inp, this.effs⟩
  · rename_i fd _
    have hk := keep_eff v name inp c hc (.openat (vhostDirfd env.fnm c.host (some i.path)).1 (openName (vhostStrip env.fnm c.host (some i.path)) i.path)) (by simp)
    split at h
    · cases h
      exact startReply_line env _ v name inp hv (by exact ⟨hk.host, hk.domain, hk.inp, hk.effs⟩) _ _ (by line)
    · unfold openDir at h
      split at h
      · cases h
        unfold redirectDir
        simp only
        split
        · exact startReply_line env _ v name inp hv (by exact ⟨hk.host, hk.domain, hk.inp, hk.effs⟩) _ _ (by line)
        · refine startReply_line env _ v name inp hv (by exact ⟨hk.host, hk.domain, hk.inp, hk.effs⟩) _ _ ?_
          intro x hx
          simp only [List.mem_cons, List.mem_append, List.not_mem_nil, or_false] at hx
          rcases hx with rfl | hx | rfl
          · decide
          · exact hi x hx
          · decide
      · simp only at h
        have hk2 := keep_eff v name inp _ hk (.openat fd (vhostIndex env.fnm c.host (some i.path))) (by simp)
        split at h
        · cases h
          exact dirListing_line env v name inp hv _ (by exact ⟨hk2.host, hk2.domain, hk2.inp, hk2.effs⟩) _
        · split at h
          · cases h
            exact startReply_line env _ v name inp hv (by exact ⟨hk2.host, hk2.domain, hk2.inp, hk2.effs⟩) _ _ (by line)
          · split at h
            · rename_i m hm
              cases h
              rw [hc.host] at hm
              exact startReply_line env _ v name inp hv (by exact ⟨hk2.host, hk2.domain, hk2.inp, hk2.effs⟩) _ _ (mime_line env.fnm v env.mimes hv _ _ hm)
            · cases h
            · cases h
          · cases h
            exact dirListing_line env v name inp hv _ (by exact ⟨hk2.host, hk2.domain, hk2.inp, hk2.effs⟩) _
    · split at h
      · rename_i m hm
        cases h
        rw [hc.host] at hm
        exact startReply_line env _ v name inp hv (by exact ⟨hk.host, hk.domain, hk.inp, hk.effs⟩) _ _ (mime_line env.fnm v env.mimes hv _ _ hm)
      · cases h
      · cases h

theorem dispatch_line (c : Client) (hc : Keep v name inp c) (i : Iri) (decoded : Bytes) (hi : OneLine i.path)
    (hq : OneLine i.query) (hn : OneLine name) (c' : Client)
    (h : dispatch env c i decoded = .ok c') : Keep v name inp c' := by
  unfold dispatch at h
  have h1 := reverse_line env v name inp hv c hc i
  split at h
  · rename_i k; rw [k] at h1; cases h; exact h1
  · rename_i c1 k; rw [k] at h1
    split at h
    · cases h; exact startReply_line env _ v name inp hv h1 _ _ (by line)
    · have h2 : Keep v name inp (applyRequireCa env c1 i).1 := by
        unfold applyRequireCa
        split
        · exact h1
        · exact checkCert_line env v name inp hv _ h1 _
      split at h
      · rename_i k; rw [k] at h2; cases h; exact h2
      · rename_i c2 k; rw [k] at h2
        have h3 : ∀ c3 b, applyBlockReturn env c2 i = .ok (c3, b) → Keep v name inp c3 := by
          intro c3 b hb
          unfold applyBlockReturn at hb
          split at hb
          · cases hb; exact h2
          · rename_i code fmt hbr
            split at hb
            · rename_i buf hbuf
              cases hb
              refine startReply_line env _ v name inp hv h2 _ _ ?_
              have hfmt : OneLine fmt := by
                rw [h2.host] at hbr
                rcases C15_exhaustive env.fnm (fun l : Location => l.blockCode ≠ 0) v.locs i.path with ⟨x, hx⟩ | hx
                · rw [(C15_block_return env.fnm v i.path).1 x hx] at hbr
                  simp only [Option.some.injEq, Prod.mk.injEq] at hbr
                  obtain ⟨b, a, e, -⟩ := hx
                  rw [← hbr.2]; exact hv.blockFmt x (.inr (by rw [e]; simp))
                · rw [(C15_block_return env.fnm v i.path).2 hx] at hbr
                  split at hbr
                  · cases hbr
                  · simp only [Option.some.injEq, Prod.mk.injEq] at hbr
                    rw [← hbr.2]; exact hv.blockFmt _ (.inl rfl)
              refine fmtLoop_line 1027 _ i.query c2.domain env.port ?_ hq (by rw [h2.domain]; exact hn) _ fmt [] [] buf
                (Nat.le_refl _) hfmt oneLine_nil oneLine_nil hbuf
              obtain ⟨d, hd⟩ := stripPath_suffix i.path (vhostStrip env.fnm c2.host (some i.path))
              intro x hx
              exact hi x (by rw [hd]; simp [hx])
            · cases hb
            · cases hb
        split at h
        · cases h
        · cases h
        · rename_i k; cases h; exact h3 _ _ k
        · rename_i c3 k
          have h4 := fastcgi_line env v name inp hv _ (h3 _ _ k) i
          split at h
          · rename_i k; rw [k] at h4; cases h; exact h4
          · rename_i c4 k; rw [k] at h4
            exact serveFile_line env v name inp hv _ h4 i hi _ h
end


/-- no escape in the text denotes a carriage return or a newline -/
def NoCrlfEscape (s : Bytes) : Prop :=
  ∀ pre a b post, s = pre ++ [c%'%', a, b] ++ post → ¬ Escape a b c%'\r' ∧ ¬ Escape a b c%'\n'

theorem NoCrlfEscape.infix {x s y : Bytes} (h : NoCrlfEscape (x ++ s ++ y)) : NoCrlfEscape s := by
  intro pre a b post e
  exact h (x ++ pre) a b (post ++ y) (by rw [e]; simp)

theorem decodes_line {P : UInt8 → Prop} (hP : ∀ c, P c → c ≠ c%'\r' ∧ c ≠ c%'\n') {raw d : Bytes} (h : Decodes P raw d)
    (hn : NoCrlfEscape raw) : OneLine d := by
  induction h with
  | nil => exact oneLine_nil
  | lit c raw dec hc _ ih =>
    have := ih (NoCrlfEscape.infix (x := [c]) (y := []) (by simpa using hn))
    intro x hx
    rcases List.mem_cons.1 hx with rfl | hx
    · exact hP _ hc
    · exact this x hx
  | pct a b v raw dec he _ _ ih =>
    have := ih (NoCrlfEscape.infix (x := [c%'%', a, b]) (y := []) (by simpa using hn))
    intro x hx
    rcases List.mem_cons.1 hx with rfl | hx
    · have := hn [] a b raw rfl
      constructor
      · rintro rfl; exact this.1 he
      · rintro rfl; exact this.2 he
    · exact this x hx
  | multi u raw dec hu _ ih =>
    have := ih (NoCrlfEscape.infix (x := u) (y := []) (by simpa using hn))
    intro x hx
    rcases List.mem_append.1 hx with hx | hx
    · have h128 := (multi_bytes hu).2 x hx
      constructor <;> (rintro rfl; revert h128; decide)
    · exact this x hx

/-- the characters of a query are those of its text, so no line break is among them -/
theorem raw_line {P : UInt8 → Prop} (hP : ∀ c, P c → c ≠ c%'\r' ∧ c ≠ c%'\n') {raw d : Bytes} (h : Decodes P raw d) :
    OneLine raw := by
  have hexl : ∀ c n, HexVal c n → c ≠ c%'\r' ∧ c ≠ c%'\n' := by
    intro c n h
    have key1 : OneLine b%"0123456789abcdef" := by line
    have key2 : OneLine b%"0123456789ABCDEF" := by line
    rcases h with h | h
    · exact key1 c (List.mem_of_getElem? h)
    · exact key2 c (List.mem_of_getElem? h)
  induction h with
  | nil => exact oneLine_nil
  | lit c raw dec hc _ ih =>
    intro x hx
    rcases List.mem_cons.1 hx with rfl | hx
    · exact hP _ hc
    · exact ih x hx
  | pct a b v raw dec he _ _ ih =>
    obtain ⟨m, n, h1, h2, -⟩ := he
    intro x hx
    simp only [List.mem_cons] at hx
    rcases hx with rfl | rfl | rfl | hx
    · decide
    · exact hexl _ _ h1
    · exact hexl _ _ h2
    · exact ih x hx
  | multi u raw dec hu _ ih =>
    intro x hx
    rcases List.mem_append.1 hx with hx | hx
    · have h128 := (multi_bytes hu).2 x hx
      constructor <;> (rintro rfl; revert h128; decide)
    · exact ih x hx

theorem parsed_line (isAddr : Bytes → Bool) (s : Bytes) (i : Iri) (h : parseIri isAddr s = .ok i) (hn : NoCrlfEscape s) :
    OneLine i.path ∧ OneLine i.query := by
  obtain ⟨sch, auth, pp, tail, e, -, -, -, -, ht⟩ := (C07_accepts_grammar isAddr s i).1 h
  have kp : ∀ c, PathChar c → c ≠ c%'\r' ∧ c ≠ c%'\n' := by decide +kernel
  have kq : ∀ c, QueryChar c → c ≠ c%'\r' ∧ c ≠ c%'\n' := by
    unfold QueryChar Unreserved SubDelim; decide +kernel
  rcases ht with ⟨-, h2, h3, -⟩ | ⟨rp, d, qf, h1, h2, h3, h4⟩
  · rw [h2, h3]; exact ⟨oneLine_nil, oneLine_nil⟩
  · constructor
    · have hd := decodes_line kp h2 (NoCrlfEscape.infix (x := sch ++ b%"://" ++ auth ++ pp ++ b%"/") (y := qf) (by
        rw [e, h1] at hn; simpa using hn))
      rw [h3]
      intro x hx
      rcases mem_normalize d x hx with k | k
      · rw [k]; decide
      · exact hd x k
    · rcases h4 with ⟨-, h, -⟩ | ⟨-, h⟩ | ⟨-, -, d, h⟩ | ⟨-, d, h⟩
      · rw [h]; exact oneLine_nil
      · rw [h]; exact oneLine_nil
      · exact raw_line kq h
      · exact raw_line kq h

theorem close_keep (v : Vhost) (name inp : Bytes) (c : Client) (hc : Keep v name inp c) : Keep v name inp (clientClose c) := by
  have := keep_eff v name inp c hc .close (by simp)
  exact ⟨this.host, this.domain, this.inp, this.effs⟩

theorem error_keep (env : Env) (v : Vhost) (name inp : Bytes) (hv : ConfLine v env.mimes) (k : ErrKind) (c : Client)
    (hc : Keep v name inp c) : Keep v name inp (clientError env k c) := by
  have hd : Keep v name inp { c with type := .done } := ⟨hc.host, hc.domain, hc.inp, hc.effs⟩
  unfold clientError
  cases k with
  | timeout =>
    simp only
    split
    · exact startReply_line env _ v name inp hv hd _ _ (by line)
    · exact close_keep _ _ _ _ hd
  | eof => exact close_keep _ _ _ _ hd
  | error => exact close_keep _ _ _ _ hd

theorem step_line (env : Env) (v : Vhost) (name : Bytes) (hv : ConfLine v env.mimes) (hname : OneLine name)
    (bufsiz : Nat) (ev : Ev) (c c' : Client) (before : Bytes)
    (hc : Keep v name c.inp c) (hopen : c.closed = false) (hn : NoCrlfEscape (before ++ c.inp ++ received [(env, ev)]))
    (h : step env bufsiz ev c = .ok c') :
    ∃ before', Keep v name c'.inp c' ∧ before' ++ c'.inp = before ++ c.inp ++ received [(env, ev)] := by
  unfold step at h
  rw [if_neg (by simp [hopen])] at h
  have fin : ∀ inp, Keep v name inp c' → Keep v name c'.inp c' := fun inp k => by rw [k.inp]; exact k
  cases ev with
  | read data =>
    simp only at h
    have hc' : Keep v name (c.inp ++ data) { c with inp := c.inp ++ data } := ⟨hc.host, hc.domain, rfl, hc.effs⟩
    have hrec : received [(env, Ev.read data)] = data := by simp [received]
    rw [hrec] at hn ⊢
    unfold clientRead at h
    split at h
    · cases h; exact ⟨before, hc', by simp⟩
    · split at h
      · cases h
        have := startReply_line env { c with inp := c.inp ++ data } v name _ hv hc' 59 b%"bad request" (by line)
        exact ⟨before, fin _ this, by rw [this.inp]; simp⟩
      · split at h
        · cases h; exact ⟨before, hc', by simp⟩
        · rename_i req rest hl
          have hin := (readLine_some _ _ _ hl).1
          simp only at hin
          have hbad : Keep v name rest (startReply env { c with inp := rest } 59 b%"bad request") :=
            startReply_line env { c with inp := rest } v name _ hv ⟨hc.host, hc.domain, rfl, hc.effs⟩ 59 b%"bad request" (by line)
          have hb : ∀ k : Keep v name rest c', ∃ before', Keep v name c'.inp c' ∧ before' ++ c'.inp = before ++ c.inp ++ data := by
            intro k
            refine ⟨before ++ req ++ b%"\r\n", fin _ k, ?_⟩
            rw [k.inp, List.append_assoc before c.inp, hin]; simp
          simp only at h
          split at h
          · cases h; exact hb hbad
          · split at h
            · cases h; exact hb hbad
            · split at h
              · cases h
              · cases h; exact hb hbad
              · rename_i i hi
                split at h
                · cases h; exact hb hbad
                · rename_i decoded _
                  have hpq := parsed_line env.isAddr req i hi (NoCrlfEscape.infix (x := before) (y := b%"\r\n" ++ rest) (by
                    rw [List.append_assoc before c.inp, hin] at hn; simpa using hn))
                  exact hb (dispatch_line env v name rest hv _ (by exact ⟨hc.host, hc.domain, rfl, hc.effs⟩) i decoded hpq.1 hpq.2 hname c' h)
  | writable n rd =>
    have hrec : received [(env, Ev.writable n rd)] = [] := by simp [received]
    rw [hrec, List.append_nil]
    simp only at h
    have hw : Keep v name c.inp { c with sent := c.sent ++ c.out.take n, out := c.out.drop n } :=
      ⟨hc.host, hc.domain, rfl, hc.effs⟩
    have hb : ∀ k : Keep v name c.inp c', ∃ before', Keep v name c'.inp c' ∧ before' ++ c'.inp = before ++ c.inp :=
      fun k => ⟨before, fin _ k, by rw [k.inp]⟩
    apply hb
    split at h
    · unfold clientWrite at h
      split at h
      · cases h; exact hw
      · split at h
        · cases h; exact error_keep env v name _ hv _ _ hw
        · cases h; exact close_keep _ _ _ _ hw
        · cases h; exact ⟨hw.host, hw.domain, hw.inp, hw.effs⟩
      · split at h
        · cases h; exact ⟨hw.host, hw.domain, hw.inp, hw.effs⟩
        · cases h
        · cases h
      · cases h; exact hw
      · cases h; exact hw
      · cases h
        split <;> first | exact close_keep _ _ _ _ hw | exact hw
    · cases h; exact hw
  | failed k =>
    have hrec : received [(env, Ev.failed k)] = [] := by simp [received]
    rw [hrec, List.append_nil]
    simp only at h
    cases h
    have := error_keep env v name _ hv k c hc
    exact ⟨before, fin _ this, by rw [this.inp]⟩

theorem run_line (v : Vhost) (name : Bytes) (hname : OneLine name) (bufsiz : Nat) (evs : List (Env × Ev))
    (hv : ∀ e ∈ evs, ConfLine v e.1.mimes) (c c' : Client) (before : Bytes)
    (hc : Keep v name c.inp c) (hn : NoCrlfEscape (before ++ c.inp ++ received evs))
    (h : runEvents bufsiz evs c = .ok c') : Keep v name c'.inp c' := by
  induction evs generalizing c before with
  | nil => simp only [runEvents, Res.ok.injEq] at h; rw [← h]; exact hc
  | cons p r ih =>
    obtain ⟨env, ev⟩ := p
    simp only [runEvents] at h
    cases hcl : c.closed with
    | true =>
      rw [show step env bufsiz ev c = .ok c by simp [step, hcl]] at h
      simp only at h
      -- a closed connection stays as it is
      have stay : ∀ l : List (Env × Ev), runEvents bufsiz l c = .ok c := by
        intro l
        induction l with
        | nil => rfl
        | cons q l ih =>
          obtain ⟨e, v⟩ := q
          simp only [runEvents, show step e bufsiz v c = .ok c by simp [step, hcl], ih]
      rw [stay r] at h
      cases h; exact hc
    | false =>
      have hsplit : received ((env, ev) :: r) = received [(env, ev)] ++ received r := by
        cases ev <;> simp [received]
      rw [hsplit, ← List.append_assoc] at hn
      split at h
      · rename_i c1 h1
        obtain ⟨b', k1, k2⟩ := step_line env v name (hv (env, ev) (by simp)) hname bufsiz ev c c1 before hc hcl
          (NoCrlfEscape.infix (x := []) (y := received r) (by simpa using hn)) h1
        exact ih (fun e he => hv e (by simp [he])) c1 b' k1 (by rw [k2]; exact hn) h
      · cases h
      · cases h

/-- C59: on a connection bound to a virtual host, whatever is received and whatever else happens,
every reply header queued is a single line - if no escape in what the client sends denotes a line
break. -/
theorem C59_header_is_one_line_partial (v : Vhost) (name : Bytes) (hname : OneLine name) (bufsiz : Nat)
    (evs : List (Env × Ev)) (hv : ∀ e ∈ evs, ConfLine v e.1.mimes) (hn : NoCrlfEscape (received evs)) (c' : Client)
    (h : runEvents bufsiz evs { host := some v, domain := name } = .ok c') :
    ∀ code text, Eff.header code text ∈ c'.effs → OneLine text :=
  (run_line v name hname bufsiz evs hv _ c' [] ⟨rfl, rfl, rfl, by intro k t ht; simp at ht⟩ (by simpa using hn) h).effs

/-- C59, what is missing: with `block return 52 "bye %p"` the client chooses what follows the header,
since %p is the decoded path: here, a header for another document. -/
theorem C59_header_injection :
    ((runEvents 4 [(exEnv2, .read b%"gemini://h/x%0D%0A20%20text/plain%0D%0Aowned\r\n")]
      { host := some { domain := b%"h", dflt := { blockCode := 52, blockFmt := b%"bye %p" } }, domain := b%"h" }).val?.map (·.out)) =
      some b%"52 bye /x\r\n20 text/plain\r\nowned\r\n" := by
  decide +kernel

/-- the hypotheses of C59 are met by a request with an escape -/
example : NoCrlfEscape (received [(exEnv2, .read b%"gemini://h/go%6Ee\r\n")]) ∧ ConfLine exHost2 exEnv2.mimes ∧ OneLine b%"h" ∧
    ((runEvents 4 [(exEnv2, .read b%"gemini://h/go%6Ee\r\n")] { host := some exHost2, domain := b%"h" }).val?.map (·.effs)) =
      some [.header 52 b%"52 bye /gone", .log 52 b%"bye /gone"] := by
  refine ⟨?_, ?_, by line, by decide +kernel⟩
  · intro pre a b post e
    have : ∀ k, k < 20 → (b%"gemini://h/go%6Ee\r\n".drop k).head? = some c%'%' → k = 13 := by decide +kernel
    have hlen : pre.length < 20 := by
      have := congrArg List.length e
      simp [received] at this; omega
    have hk := this pre.length hlen (by
      have e' : b%"gemini://h/go%6Ee\r\n" = pre ++ [c%'%', a, b] ++ post := by simpa [received] using e
      rw [e']; simp)
    have ha : a = c%'6' ∧ b = c%'E' := by
      have e' : b%"gemini://h/go%6Ee\r\n" = pre ++ [c%'%', a, b] ++ post := by simpa [received] using e
      have e1 : (b%"gemini://h/go%6Ee\r\n".drop 13) = [c%'%', a, b] ++ post := by rw [e', ← hk]; simp
      have e2 : (b%"gemini://h/go%6Ee\r\n".drop 13) = b%"%6Ee\r\n" := by decide
      rw [e2] at e1
      simp at e1; exact ⟨e1.1.symm, e1.2.1.symm⟩
    rw [ha.1, ha.2]
    have hx : ∀ v : UInt8, Escape c%'6' c%'E' v → v = c%'n' := by
      rintro v ⟨x, y, h1, h2, h3⟩
      have hx : ∀ n, HexVal c%'6' n → n = 6 := by
        intro n h
        rcases Nat.lt_or_ge n 16 with hn | hn
        · revert h; unfold HexVal
          have : ∀ n, n < 16 → (b%"0123456789abcdef"[n]? = some c%'6' ∨ b%"0123456789ABCDEF"[n]? = some c%'6') → n = 6 := by decide
          exact this n hn
        · rcases h with h | h <;> (rw [List.getElem?_eq_none (by simpa using hn)] at h; cases h)
      have hy : ∀ n, HexVal c%'E' n → n = 14 := by
        intro n h
        rcases Nat.lt_or_ge n 16 with hn | hn
        · revert h; unfold HexVal
          have : ∀ n, n < 16 → (b%"0123456789abcdef"[n]? = some c%'E' ∨ b%"0123456789ABCDEF"[n]? = some c%'E') → n = 14 := by decide
          exact this n hn
        · rcases h with h | h <;> (rw [List.getElem?_eq_none (by simpa using hn)] at h; cases h)
      rw [hx x h1, hy y h2] at h3
      exact UInt8.toNat_inj.1 (by rw [h3]; decide)
    constructor
    · intro h; exact absurd (hx _ h) (by decide)
    · intro h; exact absurd (hx _ h) (by decide)
  · constructor <;> intro l hl
    · rcases hl with rfl | hl
      · line
      · simp [exHost2] at hl; rcases hl with rfl | rfl | rfl <;> line
    · rcases hl with rfl | hl
      · line
      · simp [exHost2] at hl; rcases hl with rfl | rfl | rfl <;> line
    · rcases hl with rfl | hl
      · line
      · simp [exHost2] at hl; rcases hl with rfl | rfl | rfl <;> line
    · simp [exEnv2, exEnv] at hl

/-! ## C60 -/

/-- C60, false of the code: a relay-to rule with `for-host "h"` (the configuration parser stores the
default port "1965", parse.y:492-505) is not applied to a request for that host that leaves the
port out, although 1965 is its port: the request's port text is compared, and it is empty. -/
theorem C60_for_host_default_port :
    let rule : Proxy := { matchHost := b%"h", matchPort := b%"1965", host := b%"up" }
    (parseIri exEnv2.isAddr b%"gemini://h/").val?.map (fun i => (i.portNo, i.port)) = some (1965, []) ∧
    matchedProxy exEnv2.fnm b%"gemini" b%"h" [] [rule] = none ∧
    matchedProxy exEnv2.fnm b%"gemini" b%"h" b%"1965" [rule] = some rule := by
  decide +kernel

/-! ## C62 -/

/-- C62, false of the code: while a FastCGI application is producing its answer, a second request
line on the same connection is processed as well. -/
theorem C62_second_request :
    ((runEvents 4 [(exEnv2, .read b%"gemini://h/app\r\n"), (exEnv2, .read b%"gemini://h/f.gmi\r\n")]
      { host := some exHost2, domain := b%"h" }).val?.map (·.effs)) =
      some [.fastcgi 0 { pat := b%"app", fcgi := 0 }, .openat 3 b%"f.gmi", .header 20 b%"20 text/gemini", .log 20 b%"text/gemini"] := by
  decide +kernel

theorem startReply_type (env : Env) (c : Client) (code : Int) (mt : Bytes) (h : code ≠ 20 ∨ c.type ≠ .undecided) :
    (startReply env c code mt).type ≠ .undecided := by
  rcases startReply_cases env c code mt with ⟨hdr, e, -⟩ | ⟨e, -⟩
  · rw [e, (queueHeader_replied env c code mt hdr).type]
    by_cases hc : code = 20
    · rw [if_neg (by simp [hc])]
      rcases h with h | h
      · exact absurd hc h
      · exact h
    · rw [if_pos hc]; simp
  · rw [e]; simp [replyOverflow, queueHeader]

theorem serveFile_type (env : Env) (c c' : Client) (i : Iri) (h : serveFile env c i = .ok c') : c'.type ≠ .undecided := by
  have dl : ∀ c : Client, (dirListing env c i).type ≠ .undecided := by
    intro c
    unfold dirListing
    split
    · exact startReply_type _ _ _ _ (.inl (by decide))
    · split
      · exact startReply_type _ _ _ _ (.inl (by decide))
      · exact startReply_type env _ 20 _ (.inr (by simp))
  unfold serveFile at h
  simp only at h
  split at h
  · cases h; exact startReply_type _ _ _ _ (.inl (by decide))
  · split at h
    · cases h; exact startReply_type _ _ _ _ (.inl (by decide))
    · unfold openDir at h
      split at h
      · cases h
        unfold redirectDir
        simp only
        split
        · exact startReply_type _ _ _ _ (.inl (by decide))
        · exact startReply_type _ _ _ _ (.inl (by decide))
      · simp only at h
        split at h
        · cases h; exact dl _
        · split at h
          · cases h; exact startReply_type _ _ _ _ (.inl (by decide))
          · split at h
            · cases h; exact startReply_type _ _ _ _ (.inr (by simp))
            · cases h
            · cases h
          · cases h; exact dl _
    · split at h
      · cases h; exact startReply_type _ _ _ _ (.inr (by simp))
      · cases h
      · cases h

/-- the effect is the contacting of a FastCGI application -/
def IsFastcgi : Eff → Prop
  | .fastcgi _ _ => True
  | _ => False

theorem dispatch_type (env : Env) (v : Vhost) (hv : ConfOk v) (c c' : Client) (hh : c.host = some v) (i : Iri) (decoded : Bytes)
    (h : dispatch env c i decoded = .ok c') : c'.type ≠ .undecided ∨ ∃ x ∈ c'.effs, IsFastcgi x := by
  have rt : ∀ (c : Client) (p : Proxy), (relayTo env c p).type ≠ .undecided := by
    intro c p
    unfold relayTo
    simp only
    split
    · exact startReply_type _ _ _ _ (.inl (by decide))
    · split
      · exact startReply_type _ _ _ _ (.inl (by decide))
      · simp
  have ct : ∀ (c : Client) (store : Nat) (c1 : Client) (b : Bool), checkCert env c store = (c1, b) →
      (b = true ∧ c1.type ≠ .undecided) ∨ (b = false ∧ c1 = c) := by
    intro c store c1 b hc
    unfold checkCert at hc
    split at hc
    · cases hc; exact .inl ⟨rfl, startReply_type _ _ _ _ (.inl (by decide))⟩
    · split at hc
      · cases hc; exact .inl ⟨rfl, startReply_type _ _ _ _ (.inl (by decide))⟩
      · cases hc; exact .inr ⟨rfl, rfl⟩
  unfold dispatch at h
  split at h
  · rename_i c1 k
    cases h
    left
    unfold applyReverseProxy at k
    split at k
    · cases k
    · split at k
      · rename_i p store _
        split at k
        · rename_i hc; cases k
          rcases ct _ _ _ _ hc with h | h
          · exact h.2
          · cases h.1
        · rename_i hc; cases k; exact rt _ _
      · cases k; exact rt _ _
  · rename_i c1 k
    have e1 : c1 = c := by
      unfold applyReverseProxy at k
      split at k
      · cases k; rfl
      · split at k
        · split at k <;> cases k
        · cases k
    subst e1
    split at h
    · cases h; exact .inl (startReply_type _ _ _ _ (.inl (by decide)))
    · split at h
      · rename_i c2 k
        cases h
        left
        unfold applyRequireCa at k
        split at k
        · cases k
        · rcases ct _ _ _ _ k with h | h
          · exact h.2
          · cases h.1
      · rename_i c2 k
        have e2 : c2 = c1 := by
          unfold applyRequireCa at k
          split at k
          · cases k; rfl
          · rcases ct _ _ _ _ k with h | h
            · cases h.1
            · exact h.2
        subst e2
        split at h
        · cases h
        · cases h
        · rename_i c3 k
          cases h
          left
          unfold applyBlockReturn at k
          split at k
          · cases k
          · rename_i code fmt hb
            split at k
            · cases k
              rw [hh] at hb
              exact startReply_type _ _ _ _ (.inl (block_code env.fnm v hv _ _ _ hb).2)
            · cases k
            · cases k
        · rename_i c3 k
          have e3 : c3 = c2 := by
            unfold applyBlockReturn at k
            split at k
            · cases k; rfl
            · split at k <;> cases k
          subst e3
          split at h
          · rename_i c4 k
            cases h
            unfold applyFastcgi at k
            split at k
            · cases k
            · rename_i l _
              split at k
              · cases k
              · simp only at k
                split at k
                · cases k; exact .inl (startReply_type _ _ _ _ (.inl (by decide)))
                · split at k
                  · cases k; exact .inl (startReply_type _ _ _ _ (.inl (by decide)))
                  · cases k; exact .inr ⟨.fastcgi l.fcgi l, by simp, trivial⟩
          · exact .inl (serveFile_type _ _ _ _ h)

theorem decided_step (env : Env) (bufsiz : Nat) (ev : Ev) (c c' : Client) (ht : c.type ≠ .undecided)
    (h : step env bufsiz ev c = .ok c') :
    c'.type ≠ .undecided ∧ ∃ e, c'.effs = c.effs ++ e ∧ ∀ x ∈ e, Quiet x ∨ x = .close := by
  have ce : ∀ (c : Client) k, (clientError env k c).type ≠ .undecided ∧
      ∃ e, (clientError env k c).effs = c.effs ++ e ∧ ∀ x ∈ e, Quiet x ∨ x = .close := by
    intro c k
    unfold clientError
    cases k
    · simp only; split
      · refine ⟨startReply_type _ _ _ _ (.inl (by decide)), ?_⟩
        rcases startReply_replied env { c with type := .done } 59 b%"timeout" with hr | hr
        all_goals
          obtain ⟨e, k1, k2⟩ := hr.effs
          exact ⟨e, k1, fun x hx => .inl (onlyReply_quiet k2 x hx)⟩
      · exact ⟨by simp [clientClose], [.close], rfl, by simp⟩
    · exact ⟨by simp [clientClose], [.close], rfl, by simp⟩
    · exact ⟨by simp [clientClose], [.close], rfl, by simp⟩
  unfold step at h
  split at h
  · cases h; exact ⟨ht, [], by simp, by simp⟩
  · cases ev with
    | read data =>
      simp only at h
      unfold clientRead at h
      rw [if_pos ht] at h
      cases h; exact ⟨ht, [], by simp, by simp⟩
    | writable n rd =>
      simp only at h
      split at h
      · unfold clientWrite at h
        split at h
        · rename_i hx; exact absurd hx ht
        · split at h
          · simp only [Res.ok.injEq] at h; rw [← h]
            exact ce { c with sent := c.sent ++ c.out.take n, out := c.out.drop n } .error
          · cases h; exact ⟨ht, [.close], rfl, by simp⟩
          · cases h
            refine ⟨?_, [], by simp, by simp⟩
            simp only; split
            · simp
            · exact ht
        · split at h
          · cases h; exact ⟨by simp, [], by simp, by simp⟩
          · cases h
          · cases h
        · cases h; exact ⟨ht, [], by simp, by simp⟩
        · cases h; exact ⟨ht, [], by simp, by simp⟩
        · split at h
          · cases h; exact ⟨ht, [.close], rfl, by simp⟩
          · rename_i h1 _ _ h2
            exact absurd h1 h2
      · cases h; exact ⟨ht, [], by simp, by simp⟩
    | failed k =>
      simp only [Res.ok.injEq] at h
      rw [← h]; exact ce c k

theorem decided_run (bufsiz : Nat) (evs : List (Env × Ev)) (c c' : Client) (ht : c.type ≠ .undecided)
    (h : runEvents bufsiz evs c = .ok c') : ∃ e, c'.effs = c.effs ++ e ∧ ∀ x ∈ e, Quiet x ∨ x = .close := by
  induction evs generalizing c with
  | nil => cases h; exact ⟨[], by simp, by simp⟩
  | cons p r ih =>
    obtain ⟨env, ev⟩ := p
    simp only [runEvents] at h
    split at h
    · rename_i c1 h1
      obtain ⟨k1, e, k2, k3⟩ := decided_step env bufsiz ev c c1 ht h1
      obtain ⟨e', j1, j2⟩ := ih c1 k1 h
      refine ⟨e ++ e', by rw [j1, k2]; simp, fun x hx => ?_⟩
      rcases List.mem_append.1 hx with hx | hx
      · exact k3 x hx
      · exact j2 x hx
    · cases h
    · cases h

theorem acted_run (v : Vhost) (hv : ConfOk v) (hf : FmtsOk v) (bufsiz : Nat) (evs : List (Env × Ev)) (c c' : Client)
    (hh : c.host = some v) (hc : c.effs = [] ∧ c.type = .undecided ∨ c.type ≠ .undecided ∨ (∃ x ∈ c.effs, IsFastcgi x))
    (h : runEvents bufsiz evs c = .ok c') :
    c'.effs = [] ∧ c'.type = .undecided ∨ c'.type ≠ .undecided ∨ (∃ x ∈ c'.effs, IsFastcgi x) := by
  induction evs generalizing c with
  | nil => cases h; exact hc
  | cons p r ih =>
    obtain ⟨env, ev⟩ := p
    simp only [runEvents] at h
    split at h
    · rename_i c1 h1
      have hh1 : c1.host = c.host := by
        obtain ⟨c2, k1, k2⟩ := step_total env bufsiz ev c (fun w hw => by rw [hh] at hw; cases hw; exact hf)
        rw [h1] at k1; cases k1; exact k2
      refine ih c1 (by rw [hh1, hh]) ?_ h
      obtain ⟨e0, he0⟩ := runEvents_effs env bufsiz ev c c1 h1
      rcases hc with ⟨hc1, hc2⟩ | hc | ⟨x, hx, hc⟩
      · unfold step at h1
        split at h1
        · cases h1; exact .inl ⟨hc1, hc2⟩
        · cases ev with
          | read data =>
            simp only at h1
            rcases clientRead_cases _ _ h1 with rfl | ⟨rest, rfl⟩ | ⟨req, rest, i, decoded, -, -, -, -, -, -, hd⟩
            · exact .inl ⟨hc1, hc2⟩
            · exact .inr (.inl (startReply_type _ _ _ _ (.inl (by decide))))
            · exact .inr (dispatch_type env v hv _ _ (by exact hh) i decoded hd)
          | writable n rd =>
            simp only at h1
            split at h1
            · unfold clientWrite at h1
              simp only [hc2, Res.ok.injEq] at h1
              rw [← h1]; exact .inl ⟨hc1, rfl⟩
            · cases h1; exact .inl ⟨hc1, hc2⟩
          | failed k =>
            simp only [Res.ok.injEq] at h1
            rw [← h1]
            refine .inr (.inl ?_)
            unfold clientError
            cases k
            · simp only
              split
              · exact startReply_type _ _ _ _ (.inl (by decide))
              · simp [clientClose]
            · simp [clientClose]
            · simp [clientClose]
      · exact .inr (.inl (decided_step env bufsiz ev c c1 hc h1).1)
      · exact .inr (.inr ⟨x, by rw [he0]; simp [hx], hc⟩)
    · cases h
    · cases h

/-- C62: as long as no FastCGI application is involved, a connection acts on one request: once it has
done anything at all, whatever is received afterwards and whatever happens, no file is opened and no
upstream or application is contacted any more; all that is added are reply headers (see C22), log
lines and the closing. -/
theorem C62_single_request_partial (v : Vhost) (hv : ConfOk v) (hf : FmtsOk v) (name : Bytes) (bufsiz : Nat) (before after : List (Env × Ev))
    (c1 c2 : Client) (h1 : runEvents bufsiz before { host := some v, domain := name } = .ok c1)
    (hacted : c1.effs ≠ []) (hn : ∀ x ∈ c1.effs, ¬ IsFastcgi x) (h2 : runEvents bufsiz after c1 = .ok c2) :
    ∃ e, c2.effs = c1.effs ++ e ∧ ∀ x ∈ e, Quiet x ∨ x = .close := by
  rcases acted_run v hv hf bufsiz before _ c1 rfl (.inl ⟨rfl, rfl⟩) h1 with ⟨h, -⟩ | h | ⟨x, hx, h⟩
  · exact absurd h hacted
  · exact decided_run bufsiz after c1 c2 h h2
  · exact absurd h (hn x hx)

/-- the hypotheses of C62 are met: a file is being served when a second request arrives -/
example : ConfOk exHost2 ∧ FmtsOk exHost2 ∧
    ((runEvents 4 [(exEnv2, .read b%"gemini://h/f.gmi\r\n")] { host := some exHost2, domain := b%"h" }).val?.map (·.effs)) =
      some [.openat 3 b%"f.gmi", .header 20 b%"20 text/gemini", .log 20 b%"text/gemini"] ∧
    ((runEvents 4 [(exEnv2, .read b%"gemini://h/f.gmi\r\n"), (exEnv2, .read b%"gemini://h/app\r\n")]
      { host := some exHost2, domain := b%"h" }).val?.map (·.effs)) =
      some [.openat 3 b%"f.gmi", .header 20 b%"20 text/gemini", .log 20 b%"text/gemini"] := by
  refine ⟨?_, ?_, by decide +kernel, by decide +kernel⟩
  · intro l hl
    rcases hl with rfl | hl
    · decide
    · simp [exHost2] at hl
      rcases hl with rfl | rfl | rfl <;> decide
  · intro l hl
    rcases hl with rfl | hl
    · decide
    · simp [exHost2] at hl
      rcases hl with rfl | rfl | rfl <;> decide

end Gmid.Props
