import Verif.Props.Dispatch
import Verif.Spec.Names

/-! # C16 (host selection), C25 (names opened), C53 (directory redirects); examples for C17-C20 -/

set_option autoImplicit false

namespace Gmid.Props
open Spec

/-! ## everything a read event may do -/

section
variable {env : Env}

theorem clientRead_cases (c c' : Client) (h : clientRead env c = .ok c') :
    (c' = c) ∨
    (∃ rest, c' = startReply env { c with inp := rest } 59 b%"bad request") ∨
    (∃ req rest i decoded, c.type = .undecided ∧ c.inp = req ++ b%"\r\n" ++ rest ∧ req.length ≤ 1024 ∧
      (0 : UInt8) ∉ req ∧ parseIri env.isAddr req = .ok i ∧ env.puny i.host = some decoded ∧
      dispatch env (parsed c rest i) i decoded = .ok c') := by
  unfold clientRead at h
  split at h
  · cases h; exact .inl rfl
  · rename_i hund
    split at h
    · simp only [Res.ok.injEq] at h
      exact .inr (.inl ⟨c.inp, h.symm⟩)
    · rename_i hlen
      split at h
      · cases h; exact .inl rfl
      · rename_i req rest hl
        have hin := (readLine_some _ _ _ hl).1
        simp only at h
        split at h
        · simp only [Res.ok.injEq] at h
          exact .inr (.inl ⟨rest, h.symm⟩)
        · split at h
          · simp only [Res.ok.injEq] at h
            exact .inr (.inl ⟨rest, h.symm⟩)
          · rename_i hnul
            split at h
            · cases h
            · simp only [Res.ok.injEq] at h
              exact .inr (.inl ⟨rest, h.symm⟩)
            · rename_i i hi
              split at h
              · simp only [Res.ok.injEq] at h
                exact .inr (.inl ⟨rest, h.symm⟩)
              · rename_i decoded hd
                refine .inr (.inr ⟨req, rest, i, decoded, by simpa using hund, hin, ?_, hnul, hi, hd, h⟩)
                rw [hin] at hlen; simp at hlen; omega

/-- the effect is the contacting of an upstream or of a FastCGI application -/
def Contact : Eff → Prop
  | .relay _ => True
  | .fastcgi _ _ => True
  | _ => False

/-- what dispatch may do: a plain reply, or contacting somebody, or the file handler -/
theorem dispatch_cases (c c' : Client) (i : Iri) (decoded : Bytes) (h : dispatch env c i decoded = .ok c') :
    (∃ code mt, c' = startReply env c code mt ∧
      (code = 53 ∨ code = 60 ∨ code = 61 ∨
        ∃ fmt, vhostBlockReturn env.fnm c.host (some i.path) = some (code, fmt))) ∨
    (∃ e, c'.effs = c.effs ++ e ∧ (∃ x ∈ e, Contact x) ∧ (∀ x ∈ e, Quiet x ∨ Contact x)) ∨
    (serveFile env c i = .ok c') := by
  have cert : ∀ (store : Nat) (b : Bool) (c1 : Client), checkCert env c store = (c1, b) →
      (b = true ∧ ∃ code mt, c1 = startReply env c code mt ∧ (code = 60 ∨ code = 61)) ∨ (b = false ∧ c1 = c) := by
    intro store b c1 hc
    unfold checkCert at hc
    split at hc
    · cases hc; exact .inl ⟨rfl, 60, _, rfl, .inl rfl⟩
    · split at hc
      · cases hc; exact .inl ⟨rfl, 61, _, rfl, .inr rfl⟩
      · cases hc; exact .inr ⟨rfl, rfl⟩
  have contact : ∀ (x : Eff) (c1 : Client) (code : Int) (mt : Bytes), Contact x → c1.effs = c.effs ++ [x] →
      ∃ e, (startReply env c1 code mt).effs = c.effs ++ e ∧ (∃ x ∈ e, Contact x) ∧ (∀ x ∈ e, Quiet x ∨ Contact x) := by
    intro x c1 code mt hx h1
    rcases startReply_replied env c1 code mt with hr | hr
    all_goals
      obtain ⟨e, k1, k2⟩ := hr.effs
      refine ⟨x :: e, by rw [k1, h1]; simp, ⟨x, by simp, hx⟩, fun y hy => ?_⟩
      rcases List.mem_cons.1 hy with rfl | hy
      · exact .inr hx
      · exact .inl (onlyReply_quiet k2 y hy)
  have relay : ∀ p, ∃ e, (relayTo env c p).effs = c.effs ++ e ∧ (∃ x ∈ e, Contact x) ∧ (∀ x ∈ e, Quiet x ∨ Contact x) := by
    intro p
    unfold relayTo
    simp only
    split
    · exact contact (.relay p) _ 43 _ trivial rfl
    · split
      · exact contact (.relay p) _ 43 _ trivial rfl
      · exact ⟨[.relay p], rfl, ⟨_, List.mem_singleton.2 rfl, trivial⟩, by simp [Contact]⟩
  unfold dispatch at h
  have hrp : (∃ c1, applyReverseProxy env c i = (c1, true) ∧
        ((∃ code mt, c1 = startReply env c code mt ∧ (code = 60 ∨ code = 61)) ∨
          ∃ e, c1.effs = c.effs ++ e ∧ (∃ x ∈ e, Contact x) ∧ (∀ x ∈ e, Quiet x ∨ Contact x))) ∨
      applyReverseProxy env c i = (c, false) := by
    unfold applyReverseProxy
    split
    · exact .inr rfl
    · rename_i p hp
      left
      split
      · rename_i store hs
        split
        · rename_i c1 hc
          rcases cert store true c1 hc with ⟨-, k⟩ | ⟨k, -⟩
          · exact ⟨c1, rfl, .inl k⟩
          · cases k
        · rename_i c1 hc
          rcases cert store false c1 hc with ⟨k, -⟩ | ⟨-, rfl⟩
          · cases k
          · exact ⟨_, rfl, .inr (relay p)⟩
      · exact ⟨_, rfl, .inr (relay p)⟩
  rcases hrp with ⟨c1, e1, k⟩ | e1
  · rw [e1] at h
    simp only [Res.ok.injEq] at h
    subst h
    rcases k with ⟨code, mt, k1, k2⟩ | k
    · left; exact ⟨code, mt, k1, by rcases k2 with rfl | rfl <;> simp⟩
    · right; left; exact k
  · rw [e1] at h
    simp only at h
    split at h
    · simp only [Res.ok.injEq] at h
      left; exact ⟨53, _, h.symm, .inl rfl⟩
    · split at h
      · rename_i c1 hc
        simp only [Res.ok.injEq] at h
        subst h
        unfold applyRequireCa at hc
        split at hc
        · cases hc
        · rename_i store _
          rcases cert store true c1 hc with ⟨-, code, mt, k1, k2⟩ | ⟨k, -⟩
          · left; exact ⟨code, mt, k1, by rcases k2 with rfl | rfl <;> simp⟩
          · cases k
      · rename_i c1 hc
        have : c1 = c := by
          unfold applyRequireCa at hc
          split at hc
          · cases hc; rfl
          · rename_i store _
            rcases cert store false c1 hc with ⟨k, -⟩ | ⟨-, k⟩
            · cases k
            · exact k
        subst this
        split at h
        · cases h
        · cases h
        · rename_i c2 hb
          simp only [Res.ok.injEq] at h
          subst h
          unfold applyBlockReturn at hb
          split at hb
          · cases hb
          · rename_i code fmt hbr
            split at hb
            · cases hb
              left; exact ⟨code, _, rfl, .inr (.inr (.inr ⟨fmt, hbr⟩))⟩
            · cases hb
            · cases hb
        · rename_i c2 hb
          have : c2 = c1 := by
            unfold applyBlockReturn at hb
            split at hb
            · cases hb; rfl
            · split at hb <;> cases hb
          subst this
          split at h
          · rename_i c3 hf
            simp only [Res.ok.injEq] at h
            subst h
            right; left
            unfold applyFastcgi at hf
            split at hf
            · cases hf
            · rename_i l _
              split at hf
              · cases hf
              · simp only at hf
                split at hf
                · cases hf; exact contact (.fastcgi l.fcgi l) _ 42 _ trivial rfl
                · split at hf
                  · cases hf; exact contact (.fastcgi l.fcgi l) _ 40 _ trivial rfl
                  · cases hf
                    exact ⟨[.fastcgi l.fcgi l], rfl, ⟨_, List.mem_singleton.2 rfl, trivial⟩, by simp [Contact]⟩
          · rename_i c3 hf
            have : c3 = c2 := by
              unfold applyFastcgi at hf
              split at hf
              · cases hf; rfl
              · split at hf
                · cases hf; rfl
                · simp only at hf
                  split at hf
                  · cases hf
                  · split at hf <;> cases hf
            subst this
            right; right; exact h

end

/-! ## C25 -/

theorem join_split (p : Bytes) : joinSlash (splitSlash p) = p := by
  induction p with
  | nil => rfl
  | cons c r ih =>
    simp only [splitSlash]
    split
    · rename_i h; subst h
      cases hs : splitSlash r with
      | nil => exact absurd hs (splitSlash_ne r)
      | cons x xs => rw [hs] at ih; simp [joinSlash, ih]
    · split
      · rename_i hs; exact absurd hs (splitSlash_ne r)
      · rename_i x xs hs
        rw [hs] at ih
        cases xs with
        | nil => simp only [joinSlash] at ih ⊢; rw [ih]
        | cons y ys => simp only [joinSlash, List.cons_append] at ih ⊢; rw [ih]

theorem dropWhile_noslash (p : Bytes) (h : p.head? ≠ some 47) : p.dropWhile (· == c%'/') = p := by
  cases p with
  | nil => rfl
  | cons c r =>
    have : c ≠ 47 := by simpa using h
    rw [List.dropWhile_cons_of_neg (by simpa using this)]

theorem openName_spec (strip : Int) (path : Bytes) (hs : StaysBelow path) (h0 : (0 : UInt8) ∉ path) :
    SafeName (openName strip path) ∧ NameFor strip path (openName strip path) := by
  have hdot : SafeName b%"." := by unfold SafeName; decide
  by_cases hp : strip ≤ 0
  · have e : openName strip path = if path = [] then b%"." else path := by
      have : strip.toNat = 0 := by omega
      simp only [openName, stripPath, this, stripLoopN, dropWhile_noslash path hs.1]
    refine ⟨?_, ⟨fun _ => e, fun h => by omega⟩⟩
    rw [e]
    split
    · exact hdot
    · rename_i hne; exact ⟨hne, hs.1, hs.2.2.1, h0⟩
  · have e1 : stripPath path strip = stripPath path 1 := by
      have := C24_strip_n_is_strip_one path strip.toNat (by omega)
      rwa [show ((strip.toNat : Nat) : Int) = strip by omega] at this
    have e2 := (C24_strip_partial path).2
    have e : openName strip path = if joinSlash ((splitSlash path).drop 1) = [] then b%"."
        else joinSlash ((splitSlash path).drop 1) := by
      simp only [openName, e1, e2]
      by_cases hd : (splitSlash path).drop 1 = []
      · simp [hd, joinSlash]
      · rw [if_neg hd]
        have : (c%'/' :: joinSlash ((splitSlash path).drop 1)).dropWhile (· == c%'/') =
            joinSlash ((splitSlash path).drop 1) := by
          rw [List.dropWhile_cons_of_pos (by decide)]
          apply dropWhile_noslash
          -- the second component is empty only when it is the last one
          obtain ⟨a, l, hl⟩ : ∃ a l, splitSlash path = a :: l := by
            cases hx : splitSlash path with
            | nil => exact absurd hx (splitSlash_ne _)
            | cons a l => exact ⟨a, l, rfl⟩
          have hns := splitSlash_noSlash_mem path
          have hem := hs.2.2.2
          rw [hl] at hem hns ⊢
          rw [hl] at hd
          cases l with
          | nil => simp at hd
          | cons b l =>
            have hb : NoSlash b := hns b (by simp)
            cases l with
            | nil =>
              simp only [List.drop_succ_cons, List.drop_zero, joinSlash]
              intro hh
              cases b with
              | nil => simp at hh
              | cons x b => simp at hh; exact hb (by simp [hh])
            | cons d l =>
              simp only [List.drop_succ_cons, List.drop_zero, joinSlash]
              have hbne : b ≠ [] := by
                rintro rfl
                exact hem (by simp)
              cases b with
              | nil => exact absurd rfl hbne
              | cons x b => intro hh; simp at hh; exact hb (by simp [hh])
        rw [this]
    refine ⟨?_, ⟨fun h => absurd h hp, fun _ => e⟩⟩
    rw [e]
    split
    · exact hdot
    · rename_i hne
      have hns : ∀ c ∈ (splitSlash path).drop 1, NoSlash c :=
        fun c hc => splitSlash_noSlash_mem path c (List.mem_of_mem_drop hc)
      have hdne : (splitSlash path).drop 1 ≠ [] := by
        intro hh; rw [hh] at hne; exact hne rfl
      have hsp : splitSlash (joinSlash ((splitSlash path).drop 1)) = (splitSlash path).drop 1 :=
        split_join _ hns hdne
      refine ⟨hne, ?_, ?_, ?_⟩
      · -- as above
        intro hh
        obtain ⟨x, hx⟩ : ∃ x, joinSlash ((splitSlash path).drop 1) = c%'/' :: x := by
          cases hj : joinSlash ((splitSlash path).drop 1) with
          | nil => rw [hj] at hh; simp at hh
          | cons y ys => rw [hj] at hh; simp at hh; exact ⟨ys, by rw [hh]⟩
        rw [hx, splitSlash_slash] at hsp
        have hem := hs.2.2.2
        cases hl : splitSlash path with
        | nil => exact splitSlash_ne _ hl
        | cons a l =>
          rw [hl] at hsp hem
          simp only [List.drop_succ_cons, List.drop_zero] at hsp
          subst hsp
          have hx2 : splitSlash x ≠ [] := splitSlash_ne _
          rw [List.dropLast_cons_of_ne_nil (by simp)] at hem
          rw [List.dropLast_cons_of_ne_nil hx2] at hem
          simp at hem
      · rw [hsp]; exact fun hm => hs.2.2.1 (List.mem_of_mem_drop hm)
      · intro hm
        rcases mem_joinSlash _ _ hm with hh | ⟨d, hd, hx⟩
        · exact absurd hh (by decide)
        · exact h0 (mem_splitSlash _ d (List.mem_of_mem_drop hd) _ hx)

/-- C25: whatever arrives on a connection bound to `v`, each file the server opens is either a safe
name below the root in force for the requested path, or the index file of a directory so opened. -/
theorem C25_opened_names (env : Env) (c c' : Client) (v : Vhost) (hv : c.host = some v)
    (h : clientRead env c = .ok c') :
    ∃ e, c'.effs = c.effs ++ e ∧ ∀ fd name, Eff.openat fd name ∈ e →
      ∃ req rest i, c.inp = req ++ b%"\r\n" ++ rest ∧ parseIri env.isAddr req = .ok i ∧
        ∃ root nm, RootIs env.fnm v i.path root ∧ SafeName nm ∧
          NameFor (vhostStrip env.fnm (some v) (some i.path)) i.path nm ∧
          ((fd = root ∧ name = nm) ∨
           (env.openat root nm = some fd ∧ env.fstat fd = some .dir ∧
            name = vhostIndex env.fnm (some v) (some i.path))) := by
  have quiet : ∀ e : List Eff, (∀ x ∈ e, Quiet x ∨ Contact x) → ∀ fd name, Eff.openat fd name ∉ e := by
    intro e he fd name hm
    rcases he _ hm with k | k <;> exact k
  rcases clientRead_cases c c' h with rfl | ⟨rest, rfl⟩ | ⟨req, rest, i, decoded, -, hin, -, -, hi, hd, hdis⟩
  · exact ⟨[], by simp, by simp⟩
  · obtain ⟨e, h1, h2⟩ := (startReply_replied_short env { c with inp := rest } 59 b%"bad request" (by decide) (by decide)).effs
    exact ⟨e, h1, fun fd name hm => absurd hm (quiet e (fun x hx => .inl (onlyReply_quiet h2 x hx)) fd name)⟩
  · rcases dispatch_cases _ _ _ _ hdis with ⟨code, mt, rfl, -⟩ | ⟨e, h1, -, h3⟩ | hs
    · rcases startReply_replied env (parsed c rest i) code mt with hr | hr
      all_goals
        obtain ⟨e, h1, h2⟩ := hr.effs
        exact ⟨e, h1, fun fd name hm => absurd hm (quiet e (fun x hx => .inl (onlyReply_quiet h2 x hx)) fd name)⟩
    · exact ⟨e, h1, fun fd name hm => absurd hm (quiet e h3 fd name)⟩
    · obtain ⟨c2, code, e, h1, h2, h3⟩ := serveFile_effs env (parsed c rest i) i
      rw [hs] at h1
      cases h1
      have hh : (parsed c rest i).host = some v := hv
      simp only [hh] at h3
      have hnm := openName_spec (vhostStrip env.fnm (some v) (some i.path)) i.path
        (C01_path_confined _ _ _ hi).1 (C01_path_confined _ _ _ hi).2
      have hroot : RootIs env.fnm v i.path (vhostDirfd env.fnm (some v) (some i.path)).1 := (rootIs_eq _ _ _ _).2 rfl
      have hq := quiet e (fun x hx => .inl (onlyReply_quiet h2 x hx))
      rcases h3 with ⟨k1, -⟩ | ⟨fd', k0, kd, (⟨k1, -⟩ | ⟨k1, -⟩)⟩
      · refine ⟨_, k1, fun fd name hm => ?_⟩
        rcases List.mem_cons.1 hm with hm | hm
        · cases hm; exact ⟨req, rest, i, hin, hi, _, _, hroot, hnm.1, hnm.2, .inl ⟨rfl, rfl⟩⟩
        · exact absurd hm (hq fd name)
      · refine ⟨_, k1, fun fd name hm => ?_⟩
        rcases List.mem_cons.1 hm with hm | hm
        · cases hm; exact ⟨req, rest, i, hin, hi, _, _, hroot, hnm.1, hnm.2, .inl ⟨rfl, rfl⟩⟩
        · exact absurd hm (hq fd name)
      · refine ⟨_, k1, fun fd name hm => ?_⟩
        rcases List.mem_cons.1 hm with hm | hm
        · cases hm; exact ⟨req, rest, i, hin, hi, _, _, hroot, hnm.1, hnm.2, .inl ⟨rfl, rfl⟩⟩
        · rcases List.mem_cons.1 hm with hm | hm
          · cases hm; exact ⟨req, rest, i, hin, hi, _, _, hroot, hnm.1, hnm.2, .inr ⟨k0, kd, rfl⟩⟩
          · exact absurd hm (hq fd name)

/-! ## C53 -/

theorem decodes_length {P : UInt8 → Prop} {raw d : Bytes} (h : Decodes P raw d) : d.length ≤ raw.length := by
  induction h with
  | nil => simp
  | lit c raw dec _ _ ih => simp; omega
  | pct a b v raw dec _ _ _ ih => simp; omega
  | multi u raw dec _ _ ih => simp; omega

theorem path_length (isAddr : Bytes → Bool) (s : Bytes) (i : Iri) (h : parseIri isAddr s = .ok i) :
    i.path.length + 5 ≤ s.length ∨ i.path = [] := by
  obtain ⟨sch, auth, pp, tail, hs, ⟨x, r, hsc, -⟩, -, -, -, ht⟩ := (parseIri_iff _ _ _).1 h
  rcases ht with ⟨-, hp, -⟩ | ⟨rp, d, qf, h0, h1, h2, -⟩
  · exact .inr hp
  · left
    have l1 := decodes_length h1
    have l2 := normalize_length d
    have : i.path.length ≤ rp.length := by rw [h2]; omega
    rw [hs, h0, hsc]
    simp
    omega

theorem endsWith_slash (p : Bytes) : endsWith p b%"/" = true ↔ p.getLast? = some c%'/' := by
  unfold endsWith
  cases hp : p.getLast? with
  | none => simp at hp; subst hp; simp
  | some x =>
    obtain ⟨l, rfl⟩ : ∃ l, p = l ++ [x] := by
      have hne : p ≠ [] := by rintro rfl; simp at hp
      have := List.dropLast_concat_getLast hne
      rw [List.getLast?_eq_some_getLast hne] at hp
      cases hp
      exact ⟨_, this.symm⟩
    simp

section
variable {env : Env} {c : Client} {v : Vhost} {name req rest : Bytes} {i : Iri} {decoded : Bytes}

/-- C53: a request for a directory without the trailing slash gets exactly the redirect to its path
with a slash; the index is not looked up and nothing is listed. -/
theorem C53_redirect (h : WellFormed env c v name req rest i decoded)
    (hn : NoRelay env.fnm v i.schema name i.port) (hu : ForUs i name decoded) (hc : CertOk env v i.path)
    (hb : NoBlock env.fnm v i.path) (hf : NoFcgi env.fnm v i.path)
    (root : Int) (nm : Bytes) (hroot : RootIs env.fnm v i.path root)
    (hnm : NameFor (vhostStrip env.fnm (some v) (some i.path)) i.path nm)
    (fd : Int) (ho : env.openat root nm = some fd) (hdir : env.fstat fd = some .dir)
    (hne : i.path ≠ []) (hls : i.path.getLast? ≠ some c%'/') :
    ∃ c' e, clientRead env c = .ok c' ∧ c'.out = b%"30 /" ++ i.path ++ b%"/\r\n" ∧
      c'.effs = .openat root nm :: e ∧ OnlyReply 30 e ∧ c'.type = .done := by
  have hh : (parsed c rest i).host = some v := h.requested.host
  have hnm' : openName (vhostStrip env.fnm (some v) (some i.path)) i.path = nm := by
    have := (openName_spec (vhostStrip env.fnm (some v) (some i.path)) i.path
        (C01_path_confined _ _ _ h.parses).1 (C01_path_confined _ _ _ h.parses).2).2
    by_cases hp : vhostStrip env.fnm (some v) (some i.path) ≤ 0
    · rw [this.1 hp, hnm.1 hp]
    · rw [this.2 (by omega), hnm.2 (by omega)]
  have hroot' : (vhostDirfd env.fnm (some v) (some i.path)).1 = root := (rootIs_eq _ _ _ _).1 hroot
  have hlen : (c%'/' :: (i.path ++ b%"/")).length + 3 ≤ 1027 := by
    have := path_length _ _ _ h.parses
    have hr := h.requested.room
    rw [h.requested.inp] at hr
    simp at hr ⊢
    rcases this with hp | hp
    · omega
    · exact absurd hp hne
  rw [dispatch_file h hn hu hc hb hf]
  unfold serveFile
  simp only [hh, hnm', hroot', ho, hdir]
  unfold openDir
  simp only
  rw [if_pos (by
    have : ¬ endsWith i.path b%"/" = true := fun k => hls ((endsWith_slash _).1 k)
    simp [hne, this])]
  unfold redirectDir
  simp only
  rw [if_neg (by simp at hlen ⊢; omega)]
  have hmt : (c%'/' :: (i.path ++ b%"/") : Bytes) ≠ b%"text/gemini" := by simp
  have hfit : (intDec 30).length + 1 + (c%'/' :: (i.path ++ b%"/")).length ≤ 1027 := by
    simp only [intDec_30]; simp at hlen ⊢; try omega
  rw [startReply_short _ _ _ _ hmt hfit]
  have key : ∀ cc : Client, cc.effs = [Eff.openat root nm] → cc.out = [] →
      ∃ c' e, (Res.ok (queueHeader env cc 30 (c%'/' :: (i.path ++ b%"/"))
          (intDec 30 ++ c%' ' :: (c%'/' :: (i.path ++ b%"/")))) : Res Client) = .ok c' ∧
        c'.out = b%"30 /" ++ i.path ++ b%"/\r\n" ∧
        c'.effs = .openat root nm :: e ∧ OnlyReply 30 e ∧ c'.type = .done := by
    intro cc hce hco
    have hr := queueHeader_replied env cc 30 (c%'/' :: (i.path ++ b%"/")) (intDec 30 ++ c%' ' :: (c%'/' :: (i.path ++ b%"/")))
    obtain ⟨e, h1, h2⟩ := hr.effs
    refine ⟨_, e, rfl, ?_, ?_, h2, ?_⟩
    · simp [queueHeader, hco]
    · rw [h1, hce]; rfl
    · rw [hr.type]; rfl
  refine key _ ?_ ?_
  · simp [parsed, h.requested.effs]
  · exact h.requested.out

/-- C53: a request with a trailing slash, or for the root, is never redirected by the file handler. -/
theorem C53_no_redirect (h : WellFormed env c v name req rest i decoded)
    (hn : NoRelay env.fnm v i.schema name i.port) (hu : ForUs i name decoded) (hc : CertOk env v i.path)
    (hb : NoBlock env.fnm v i.path) (hf : NoFcgi env.fnm v i.path)
    (hls : i.path = [] ∨ i.path.getLast? = some c%'/') :
    ∃ c' code, clientRead env c = .ok c' ∧ headerCodes c'.effs = [code] ∧ (code = 20 ∨ code = 40 ∨ code = 51) := by
  have hq : ∀ (code : Int) (e : List Eff), OnlyReply code e → headerCodes e = [code] := by
    rintro code e ⟨t, rfl | ⟨m, rfl⟩⟩ <;> rfl
  rw [dispatch_file h hn hu hc hb hf]
  obtain ⟨c', code, e, h1, h2, h3⟩ := serveFile_effs env (parsed c rest i) i
  have he : (parsed c rest i).effs = [] := h.requested.effs
  simp only [he, List.nil_append] at h3
  refine ⟨c', code, h1, ?_⟩
  rcases h3 with ⟨k1, k2, -⟩ | ⟨fd', k0, kd, (⟨k1, k2, k3, -⟩ | ⟨k1, k2, k3⟩)⟩
  · rw [k1]; exact ⟨by simpa only [headerCodes] using hq _ _ h2, by omega⟩
  · exfalso
    rcases hls with hl | hl
    · exact k2 hl
    · rw [(endsWith_slash _).2 hl] at k3; cases k3
  · rw [k1]; exact ⟨by simpa only [headerCodes] using hq _ _ h2, by omega⟩

end

theorem split_append_slash (p : Bytes) : splitSlash (p ++ b%"/") = splitSlash p ++ [[]] := by
  induction p with
  | nil => rfl
  | cons c r ih =>
    simp only [List.cons_append, splitSlash]
    rw [ih]
    split
    · rfl
    · cases hs : splitSlash r with
      | nil => exact absurd hs (splitSlash_ne r)
      | cons x xs => rfl

/-- C53: a client that follows the redirect asks for the same path with the slash, when the path
has no character that needs escaping.  Otherwise this is false of the code, see
`C53_redirect_elsewhere`: the target is the decoded path, not escaped again. -/
theorem C53_target_partial (isAddr : Bytes → Bool) (s : Bytes) (i : Iri) (hi : parseIri isAddr s = .ok i)
    (hne : i.path ≠ []) (hls : i.path.getLast? ≠ some c%'/')
    (hp : Decodes PathChar i.path i.path) (host : Bytes) (hhost : Decodes HostChar host host) :
    ∃ j, parseIri isAddr (b%"gemini://" ++ host ++ (b%"/" ++ i.path ++ b%"/")) = .ok j ∧
      j.schema = b%"gemini" ∧ j.host = host.map lower ∧ j.path = i.path ++ b%"/" ∧ j.query = [] := by
  have hs := (C01_path_confined _ _ _ hi).1
  obtain ⟨p0, hp0⟩ : ∃ p0, i.path = normalize p0 := by
    obtain ⟨sch, auth, pp, tail, -, -, -, -, -, ht⟩ := (parseIri_iff _ _ _).1 hi
    rcases ht with ⟨-, hp, -⟩ | ⟨rp, d, qf, -, h1, h2, -⟩
    · exact absurd hp hne
    · exact ⟨d, h2⟩
  have hnorm : normalize (i.path ++ b%"/") = i.path ++ b%"/" := by
    have hsur : survivors (i.path ++ b%"/") = survivors i.path := by
      simp only [survivors, split_append_slash, List.foldl_append, List.foldl_cons, List.foldl_nil]
      simp [pushComp]
    have hid : normalize i.path = i.path := by rw [hp0, normalize_idem]
    have hsne : survivors i.path ≠ [] := by
      intro hh
      rw [normalize_def, hh] at hid
      simp [joinSlash] at hid
      exact hne hid
    have hj : joinSlash (survivors i.path) = i.path := by
      rw [normalize_def] at hid
      simpa [hls] using hid
    rw [normalize_def, hsur, hj]
    simp [hsne]
  have hdec : Decodes PathChar (i.path ++ b%"/") (i.path ++ b%"/") := by
    have : ∀ {a b : Bytes}, Decodes PathChar a b → Decodes PathChar (a ++ b%"/") (b ++ b%"/") := by
      intro a b h
      induction h with
      | nil => exact .lit _ _ _ (by unfold PathChar; decide) .nil
      | lit c raw dec hc _ ih => exact .lit c _ _ hc ih
      | pct a b v raw dec h1 h2 _ ih => exact .pct a b v _ _ h1 h2 ih
      | multi u raw dec hu _ ih => rw [List.append_assoc, List.append_assoc]; exact .multi u _ _ hu ih
    exact this hp
  refine ⟨{ schema := b%"gemini", host := host.map lower, port := [], portNo := 1965,
            path := i.path ++ b%"/", query := [], fragment := [] }, ?_, rfl, rfl, rfl, rfl⟩
  refine (C07_accepts_grammar isAddr _ _).2 ⟨b%"gemini", host, [], b%"/" ++ i.path ++ b%"/", by simp, ?_, rfl,
    .inr ⟨host, hhost, rfl⟩, .inl ⟨rfl, rfl, rfl⟩, .inr ⟨i.path ++ b%"/", i.path ++ b%"/", [], by simp, hdec, hnorm.symm,
      .inl ⟨rfl, rfl, rfl⟩⟩⟩
  exact ⟨c%'g', b%"emini", rfl, by simp, by simp⟩

/-! ## examples for C17, C18, C20, C25, C53 -/

/-- files exist in this environment: descriptor 3 is the root; "d" is a directory, "f.gmi" a file -/
def exEnv2 : Env :=
  { exEnv with
    openat := fun fd n => if fd = 3 ∧ n = b%"d" then some 10 else if fd = 3 ∧ n = b%"f.gmi" then some 11 else
      if fd = 3 ∧ n = b%"a?b" then some 10 else none
    fstat := fun fd => if fd = 10 then some .dir else some .reg
    nFcgi := 1, fcgiConnect := fun _ => true, fcgiBev := true
    relayConnect := fun _ => true, relayInit := fun _ => true }

def exHost2 : Vhost :=
  { domain := b%"h",
    locs := [{ pat := b%"secret", reqca := some 7 }, { pat := b%"gone", blockCode := 52, blockFmt := b%"bye %p" },
             { pat := b%"app", fcgi := 0 }],
    dflt := { dirfd := 3 }
    proxies := [{ matchProto := b%"titan", reqca := some 9, host := b%"up" }] }

def exClient (req rest : Bytes) : Client :=
  { host := some exHost2, domain := b%"h", inp := req ++ b%"\r\n" ++ rest }

theorem exRequested (req rest : Bytes) (h1 : (req ++ b%"\r\n" ++ rest).length ≤ 1026)
    (h2 : readLine (req ++ b%"\r\n" ++ rest) = some (req, rest)) :
    Requested (exClient req rest) exHost2 b%"h" req rest :=
  ⟨rfl, rfl, rfl, rfl, rfl, rfl, rfl, (readLine_some _ _ _ h2).2, h1⟩

theorem exWell (env : Env) (i : Iri) (req : Bytes)
    (h1 : (req ++ b%"\r\n").length ≤ 1026) (h2 : readLine (req ++ b%"\r\n" ++ []) = some (req, []))
    (h3 : (0 : UInt8) ∉ req) (h4 : parseIri env.isAddr req = .ok i) (h5 : env.puny i.host = some i.host) :
    WellFormed env (exClient req []) exHost2 b%"h" req [] i i.host :=
  ⟨exRequested req [] (by simpa using h1) h2, h3, h4, h5⟩

def exI (p : Bytes) : Iri := exIriPath p

/-- the hypotheses of C17 are met: a request for /secret -/
example : WellFormed exEnv2 (exClient b%"gemini://H/secret" []) exHost2 b%"h" b%"gemini://H/secret" []
    (exI b%"secret") b%"h" ∧ NoRelay exEnv2.fnm exHost2 b%"gemini" b%"h" [] ∧
    ForUs (exI b%"secret") b%"h" b%"h" ∧ CaIs exEnv2.fnm exHost2 b%"secret" 7 ∧ exEnv2.certProvided = false := by
  refine ⟨exWell exEnv2 (exI b%"secret") _ (by decide) (by decide +kernel) (by decide) (by decide +kernel) (by decide),
    (noRelay_iff _ _ _ _ _).2 (by decide +kernel), ⟨rfl, rfl⟩, .inl ⟨{ pat := b%"secret", reqca := some 7 },
      ⟨[], [{ pat := b%"gone", blockCode := 52, blockFmt := b%"bye %p" }, { pat := b%"app", fcgi := 0 }], rfl,
        by decide, (locMatches_iff _ _ _).1 (by decide +kernel), by simp⟩, rfl⟩, rfl⟩

/-- C17, a relay-to rule with a client CA -/
example : RelayIs exEnv2.fnm exHost2 b%"titan" b%"h" [] { matchProto := b%"titan", reqca := some 9, host := b%"up" } :=
  (relayIs_iff _ _ _ _ _ _).2 (by decide +kernel)

/-- C17, what is missing: when X509_verify_cert fails with a negative value (an internal error, not
"does not verify"), the request is served as if the certificate had been verified. -/
theorem C17_verify_error_authorises :
    ((clientRead { exEnv2 with certProvided := true, verify := fun _ => -1 }
      (exClient b%"gemini://h/secret" [])).val?.map (·.effs)) =
      some [.openat 3 b%"secret", .header 51 b%"51 not found", .log 51 b%"not found"] ∧
    CaIs exEnv2.fnm exHost2 b%"secret" 7 := by
  refine ⟨by decide +kernel, .inl ⟨{ pat := b%"secret", reqca := some 7 },
      ⟨[], [{ pat := b%"gone", blockCode := 52, blockFmt := b%"bye %p" }, { pat := b%"app", fcgi := 0 }], rfl,
        by decide, (locMatches_iff _ _ _).1 (by decide +kernel), by simp⟩, rfl⟩⟩

/-- C18 -/
example : WellFormed exEnv2 (exClient b%"gemini://other/x" []) exHost2 b%"h" b%"gemini://other/x" []
    { exI b%"x" with host := b%"other" } b%"other" ∧
    NoRelay exEnv2.fnm exHost2 b%"gemini" b%"h" [] ∧ ¬ ForUs { exI b%"x" with host := b%"other" } b%"h" b%"other" := by
  refine ⟨⟨exRequested _ _ (by decide) (by decide +kernel), by decide, by decide +kernel, by decide⟩,
    (noRelay_iff _ _ _ _ _).2 (by decide +kernel), by unfold ForUs; decide⟩

/-- C20: one request for each of the outcomes -/
example :
    (clientRead exEnv2 (exClient b%"gemini://h/gone" [])).val?.map (·.out) = some b%"52 bye /gone\r\n" ∧
    (clientRead exEnv2 (exClient b%"gemini://h/app" [])).val?.map (·.effs) =
      some [.fastcgi 0 { pat := b%"app", fcgi := 0 }] ∧
    (clientRead exEnv2 (exClient b%"gemini://h/f.gmi" [])).val?.map (·.out) = some b%"20 text/gemini\r\n" ∧
    (clientRead exEnv2 (exClient b%"gemini://h/d" [])).val?.map (·.out) = some b%"30 /d/\r\n" ∧
    (clientRead exEnv2 (exClient b%"gemini://h/d/" [])).val?.map (·.out) = some b%"51 not found\r\n" := by
  decide +kernel

/-- C53: all the hypotheses of the redirect are met by a request for "d" -/
example : WellFormed exEnv2 (exClient b%"gemini://H/d" []) exHost2 b%"h" b%"gemini://H/d" [] (exI b%"d") b%"h" ∧
    NoRelay exEnv2.fnm exHost2 b%"gemini" b%"h" [] ∧ ForUs (exI b%"d") b%"h" b%"h" ∧
    CertOk exEnv2 exHost2 b%"d" ∧ NoBlock exEnv2.fnm exHost2 b%"d" ∧ NoFcgi exEnv2.fnm exHost2 b%"d" ∧
    RootIs exEnv2.fnm exHost2 b%"d" 3 ∧ NameFor (vhostStrip exEnv2.fnm (some exHost2) (some b%"d")) b%"d" b%"d" ∧
    exEnv2.openat 3 b%"d" = some 10 ∧ exEnv2.fstat 10 = some .dir := by
  have none : ∀ set : Location → Prop, NoneSet exEnv2.fnm set exHost2.locs b%"d" := by
    intro set l hl
    simp [exHost2] at hl
    have : ¬ LocMatches exEnv2.fnm l b%"d" := by
      rw [← locMatches_iff]
      rcases hl with rfl | rfl | rfl <;> decide +kernel
    exact fun h => absurd h.2 this
  refine ⟨exWell exEnv2 (exI b%"d") _ (by decide) (by decide +kernel) (by decide) (by decide +kernel) (by decide),
    (noRelay_iff _ _ _ _ _).2 (by decide +kernel), ⟨rfl, rfl⟩, .inl ⟨none _, rfl⟩, ⟨none _, rfl⟩,
    .inr ⟨none _, rfl⟩, .inr ⟨none _, rfl⟩, ⟨by decide +kernel, by decide +kernel⟩, by decide, by decide⟩

/-- C53, what is missing: for the directory named "a?b" (requested as a%3Fb) the redirect leads to
the resource "a" with the query "b/". -/
theorem C53_redirect_elsewhere :
    (clientRead exEnv2 (exClient b%"gemini://h/a%3Fb" [])).val?.map (·.out) = some b%"30 /a?b/\r\n" ∧
    (parseIri exEnv2.isAddr b%"gemini://h/a?b/").val?.map (fun i => (i.path, i.query)) = some (b%"a", b%"b/") := by
  decide +kernel

/-! ## C16 -/

section
variable (env : Env)

/-- once a reply is due and its code known, nothing but sending it and closing can happen -/
theorem done_step (bufsiz : Nat) (ev : Ev) (c : Client) (h : c.type = .done) (hc : c.code ≠ 0) :
    ∃ c' e, step env bufsiz ev c = .ok c' ∧ c'.type = .done ∧ c'.code = c.code ∧
      c'.sent ++ c'.out = c.sent ++ c.out ∧ c'.effs = c.effs ++ e ∧ (e = [] ∨ e = [.close]) := by
  unfold step
  split
  · exact ⟨c, [], rfl, h, rfl, rfl, by simp, .inl rfl⟩
  · cases ev with
    | read data =>
      simp only
      unfold clientRead
      rw [if_pos (by simp [h])]
      exact ⟨_, [], rfl, h, rfl, rfl, by simp, .inl rfl⟩
    | writable n rd =>
      simp only
      split
      · rename_i h1
        have : clientWrite env bufsiz rd { c with sent := c.sent ++ c.out.take n, out := c.out.drop n } =
            .ok (clientClose { c with sent := c.sent ++ c.out.take n, out := c.out.drop n }) := by
          unfold clientWrite
          simp only [h, h1, if_true]
        rw [this]
        exact ⟨_, [.close], rfl, h, rfl, by simp [clientClose], rfl, .inr rfl⟩
      · exact ⟨_, [], rfl, h, rfl, by simp, by simp, .inl rfl⟩
    | failed k =>
      simp only
      unfold clientError
      cases k with
      | timeout =>
        simp only [hc, if_false]
        exact ⟨_, [.close], rfl, rfl, rfl, rfl, rfl, .inr rfl⟩
      | eof => exact ⟨_, [.close], rfl, rfl, rfl, rfl, rfl, .inr rfl⟩
      | error => exact ⟨_, [.close], rfl, rfl, rfl, rfl, rfl, .inr rfl⟩

theorem done_run (bufsiz : Nat) (evs : List (Env × Ev)) (c : Client) (h : c.type = .done) (hc : c.code ≠ 0) :
    ∃ c' e, runEvents bufsiz evs c = .ok c' ∧ c'.type = .done ∧ c'.code = c.code ∧
      c'.sent ++ c'.out = c.sent ++ c.out ∧ c'.effs = c.effs ++ e ∧ ∀ x ∈ e, x = .close := by
  induction evs generalizing c with
  | nil => exact ⟨c, [], rfl, h, rfl, rfl, by simp, by simp⟩
  | cons ev r ih =>
    obtain ⟨env, ev⟩ := ev
    obtain ⟨c1, e, h1, h2, h3, h4, h5, h6⟩ := done_step env bufsiz ev c h hc
    obtain ⟨c2, e2, k1, k2, k3, k4, k5, k6⟩ := ih c1 h2 (by rw [h3]; exact hc)
    refine ⟨c2, e ++ e2, by simp only [runEvents, h1, k1], k2, by rw [k3, h3], by rw [k4, h4], by rw [k5, h5]; simp, ?_⟩
    intro x hx
    rcases List.mem_append.1 hx with hx | hx
    · rcases h6 with rfl | rfl
      · simp at hx
      · simpa using hx
    · exact k6 x hx

/-- the name negotiated: the decoded SNI, or the listening address when there is none -/
def Negotiated (sni : Option Bytes) (name : Bytes) : Prop :=
  (∃ s d, sni = some s ∧ env.puny s = some d ∧ d ≠ [] ∧ name = d) ∨
  ((sni = none ∨ ∃ s, sni = some s ∧ env.puny s = some []) ∧ env.addrName.length < 254 ∧ name = env.addrName)

theorem handshake_name (sni : Option Bytes) (name : Bytes) (c : Client) (h : Negotiated env sni name) :
    handshakeDone env sni c =
      match findHost env.fnm name env.hosts with
      | some h => { c with domain := name, host := some h }
      | none => startReply env { c with domain := name } 59 b%"Wrong/malformed host" := by
  unfold handshakeDone
  rcases h with ⟨s, d, rfl, h1, h2, rfl⟩ | ⟨h1, h2, rfl⟩
  · simp only [h1, if_neg h2]
    cases findHost env.fnm name env.hosts <;> rfl
  · have hl : ¬ env.addrName.length ≥ 254 := by omega
    rcases h1 with rfl | ⟨s, rfl, h⟩
    · simp only [if_true, if_neg hl]
      cases findHost env.fnm env.addrName env.hosts <;> rfl
    · simp only [h, if_true, if_neg hl]
      cases findHost env.fnm env.addrName env.hosts <;> rfl

/-- C16: a connection is bound to the first host that matches the negotiated name. -/
theorem C16_bound_to_first_match (sni : Option Bytes) (name : Bytes) (c : Client) (v : Vhost)
    (before after : List Vhost) (hn : Negotiated env sni name) (hh : env.hosts = before ++ v :: after)
    (hm : HostMatches env.fnm v name) (hb : ∀ w ∈ before, ¬ HostMatches env.fnm w name) :
    handshakeDone env sni c = { c with domain := name, host := some v } := by
  rw [handshake_name env sni name c hn, ((C16_first_matching_host env.fnm name env.hosts).1 v).2 ⟨before, after, hh, hm, hb⟩]

/-- C16: with no match, or a name that does not decode, the reply is 59, and whatever happens
afterwards on the connection, no request is processed: nothing more is ever sent or done. -/
theorem C16_refused (sni : Option Bytes) (bufsiz : Nat) (evs : List (Env × Ev))
    (h : (∃ name, Negotiated env sni name ∧ ∀ w ∈ env.hosts, ¬ HostMatches env.fnm w name) ∨
      ∃ s, sni = some s ∧ env.puny s = none) :
    ∃ c' m, runEvents bufsiz evs (handshakeDone env sni {}) = .ok c' ∧
      c'.sent ++ c'.out = b%"59 Wrong/malformed host\r\n" ∧
      (∀ x ∈ c'.effs, x = .header 59 b%"59 Wrong/malformed host" ∨ x = .log 59 m ∨ x = .close) ∧
      headerCodes c'.effs = [59] := by
  obtain ⟨name, hc⟩ : ∃ name, handshakeDone env sni {} =
      queueHeader env { ({} : Client) with domain := name } 59 b%"Wrong/malformed host" b%"59 Wrong/malformed host" := by
    have hs : ∀ c : Client, startReply env c 59 b%"Wrong/malformed host" =
        queueHeader env c 59 b%"Wrong/malformed host" b%"59 Wrong/malformed host" := by
      intro c; rw [startReply_short env c 59 _ (by decide) (by decide)]; rfl
    rcases h with ⟨name, h1, h2⟩ | ⟨s, rfl, h⟩
    · refine ⟨name, ?_⟩
      rw [handshake_name env sni name _ h1, (C16_first_matching_host env.fnm name env.hosts).2.2 h2]
      exact hs _
    · refine ⟨[], ?_⟩
      simp only [handshakeDone, h]
      exact hs _
  rw [hc]
  generalize hq : queueHeader env { ({} : Client) with domain := name } 59 b%"Wrong/malformed host" b%"59 Wrong/malformed host" = c0
  have ht : c0.type = .done := by rw [← hq]; rfl
  have hcode : c0.code = 59 := by rw [← hq]; rfl
  have hso : c0.sent ++ c0.out = b%"59 Wrong/malformed host\r\n" := by rw [← hq]; rfl
  have he : c0.effs = [.header 59 b%"59 Wrong/malformed host"] ∨
      c0.effs = [.header 59 b%"59 Wrong/malformed host", .log 59 b%"Wrong/malformed host"] := by
    rw [← hq]
    simp only [queueHeader]
    split
    · left; rfl
    · right; rfl
  obtain ⟨c', e, h1, h2, h3, h4, h5, h6⟩ := done_run bufsiz evs c0 ht (by rw [hcode]; decide)
  have hcl : ∀ e : List Eff, (∀ x ∈ e, x = .close) → headerCodes e = [] := by
    intro e
    induction e with
    | nil => intro _; rfl
    | cons x r ih =>
      intro hx
      rw [hx x (by simp)]
      exact ih (fun y hy => hx y (by simp [hy]))
  refine ⟨c', b%"Wrong/malformed host", h1, by rw [h4, hso], ?_, ?_⟩
  · intro x hx
    rw [h5] at hx
    rcases List.mem_append.1 hx with hx | hx
    · rcases he with he | he
      · rw [he] at hx
        exact .inl (List.mem_singleton.1 hx)
      · rw [he] at hx
        rcases List.mem_cons.1 hx with hx | hx
        · exact .inl hx
        · exact .inr (.inl (List.mem_singleton.1 hx))
    · exact .inr (.inr (h6 x hx))
  · rw [h5]
    rcases he with he | he
    · rw [he]; simp [headerCodes, hcl e h6]
    · rw [he]; simp [headerCodes, hcl e h6]

end

example : Negotiated { exEnv with hosts := [exHost2] } (some b%"zz") b%"zz" ∧
    (∀ w ∈ [exHost2], ¬ HostMatches exEnv.fnm w b%"zz") ∧
    Negotiated { exEnv with hosts := [exHost2] } none b%"127.0.0.1" ∧
    HostMatches exEnv.fnm exHost2 b%"h" := by
  refine ⟨.inl ⟨b%"zz", b%"zz", rfl, rfl, by decide, rfl⟩, ?_, .inr ⟨.inl rfl, by decide, rfl⟩,
    (matchHost_iff _ _ _).1 (by decide +kernel)⟩
  intro w hw
  rw [List.mem_singleton.1 hw, ← matchHost_iff]
  decide +kernel

end Gmid.Props
