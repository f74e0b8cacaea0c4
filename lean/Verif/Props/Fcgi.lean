import Verif.Model.Fcgi
import Verif.Spec.Fcgi
import Verif.Props.Iri

/-!
# C28 C30: what a FastCGI application is sent
-/

set_option autoImplicit false

namespace Gmid.Props

open Spec

theorem shr_div (n k : Nat) : n >>> k = n / 2 ^ k := Nat.shiftRight_eq_div_pow n k
theorem and_ff (n : Nat) : n &&& 0xFF = n % 256 := Nat.and_two_pow_sub_one_eq_mod n 8
theorem and_7 (n : Nat) : n &&& 7 = n % 8 := Nat.and_two_pow_sub_one_eq_mod n 3

theorem u8_toNat (n : Nat) : (UInt8.ofNat n).toNat = n % 256 := by simp

/-- decoding one record off the front -/
theorem decodeRecords_header (f type size pad : Nat) (content padding rest : Bytes) (hs : size = content.length)
    (hp : pad = padding.length) (h1 : size < 65536) (h2 : pad < 256) :
    decodeRecords (f + 1) (fcgiHeader type size pad ++ content ++ padding ++ rest) =
      (decodeRecords f rest).map
        ({ version := 1, type := UInt8.ofNat type, id := 1, content := content, padding := padding, reserved := 0 } :: ·) := by
  have hn : num16 (UInt8.ofNat (size >>> 8)) (UInt8.ofNat (size &&& 0xFF)) = size := by
    rw [num16, u8_toNat, u8_toNat, shr_div, and_ff]
    omega
  have hpn : (UInt8.ofNat pad).toNat = pad := by rw [u8_toNat]; omega
  unfold fcgiHeader
  simp only [List.cons_append, List.nil_append, decodeRecords]
  rw [hn, hpn]
  have e : (content ++ padding ++ rest).length = size + pad + rest.length := by simp [hs, hp]; omega
  rw [if_neg (by rw [e]; omega)]
  have e1 : (content ++ padding ++ rest).drop (size + pad) = rest := by
    rw [List.drop_append, List.drop_of_length_le (by simp; omega)]
    simp [hs, hp]
  have e2 : (content ++ padding ++ rest).take size = content := by
    rw [hs, List.append_assoc, List.take_left']; rfl
  have e3 : ((content ++ padding ++ rest).drop size).take pad = padding := by
    rw [hs, List.append_assoc, List.drop_left' rfl, hp, List.take_left' rfl]
  rw [e1, e2, e3]
  rfl

theorem decodeLen_fcgiLen (n : Nat) (h : n < 2147483648) (rest : Bytes) : decodeLen (fcgiLen n ++ rest) = some (n, rest) := by
  have e0 : n >>> 24 ||| 0x80 = n / 16777216 + 128 := by
    rw [shr_div]
    have hb : n / 2 ^ 24 < 2 ^ 7 := by omega
    have := Nat.two_pow_add_eq_or_of_lt hb 1
    rw [Nat.or_comm]
    have e : (2 ^ 7 * 1 ||| n / 2 ^ 24) = (0x80 ||| n / 2 ^ 24) := rfl
    rw [← e, ← this]
    omega
  have h1 : (UInt8.ofNat (n >>> 24 ||| 0x80)).toNat = n / 16777216 + 128 := by rw [u8_toNat, e0]; omega
  have h2 : ¬ (UInt8.ofNat (n >>> 24 ||| 0x80)) < 128 := by
    rw [UInt8.lt_iff_toNat_lt, h1]; simp
  unfold fcgiLen
  simp only [List.cons_append, List.nil_append, decodeLen]
  rw [if_neg h2, h1]
  simp only [and_ff, u8_toNat, shr_div]
  congr 2
  omega

theorem decodePairs_param (f : Nat) (name value rest : Bytes) (h1 : name.length < 2147483648) (h2 : value.length < 2147483648) :
    decodePairs (f + 1) (fcgiLen name.length ++ fcgiLen value.length ++ name ++ value ++ rest) =
      (decodePairs f rest).map ((name, value) :: ·) := by
  have hne : fcgiLen name.length ++ fcgiLen value.length ++ name ++ value ++ rest ≠ [] := by simp [fcgiLen]
  cases hs : fcgiLen name.length ++ fcgiLen value.length ++ name ++ value ++ rest with
  | nil => exact absurd hs hne
  | cons c s =>
    rw [decodePairs, ← hs]
    · simp only [List.append_assoc]
      rw [decodeLen_fcgiLen _ h1]
      simp only [Option.bind_eq_bind, Option.bind_some]
      rw [decodeLen_fcgiLen _ h2]
      simp only [Option.bind_some]
      rw [if_neg (by simp)]
      have e1 : (name ++ (value ++ rest)).drop (name.length + value.length) = rest := by
        rw [← List.append_assoc, List.drop_left']; simp
      have e2 : (name ++ (value ++ rest)).take name.length = name := List.take_left' rfl
      have e3 : ((name ++ (value ++ rest)).drop name.length).take value.length = value := by
        rw [List.drop_left' rfl, List.take_left' rfl]
      rw [e1, e2, e3]
      cases decodePairs f rest <;> rfl
    · simp

/-- the record a parameter is sent in -/
def paramRec (p : Bytes × Bytes) : FRec :=
  let size := p.1.length + p.2.length + 8
  { version := 1, type := 4, id := 1, content := fcgiLen p.1.length ++ fcgiLen p.2.length ++ p.1 ++ p.2,
    padding := List.replicate ((8 - (size &&& 7)) &&& 7) 0, reserved := 0 }

/-- parameters that fit a record -/
def Fits (p : Bytes × Bytes) : Prop := p.1.length + p.2.length + 8 < 65536

theorem fcgiLen_length (n : Nat) : (fcgiLen n).length = 4 := rfl

theorem decode_params (ps : List (Bytes × Bytes)) (hf : ∀ p ∈ ps, Fits p) : ∀ (f : Nat) (rest : Bytes),
    decodeRecords (f + ps.length) (ps.flatMap (fun p => fcgiParam p.1 p.2) ++ rest) =
      (decodeRecords f rest).map (ps.map paramRec ++ ·) := by
  induction ps with
  | nil => intro f rest; simp
  | cons p ps ih =>
    intro f rest
    have hp := hf p (List.mem_cons_self ..)
    unfold Fits at hp
    have e : (p :: ps).flatMap (fun p => fcgiParam p.1 p.2) ++ rest =
        fcgiHeader 4 (p.1.length + p.2.length + 8) ((8 - ((p.1.length + p.2.length + 8) &&& 7)) &&& 7) ++
        (fcgiLen p.1.length ++ fcgiLen p.2.length ++ p.1 ++ p.2) ++
        List.replicate ((8 - ((p.1.length + p.2.length + 8) &&& 7)) &&& 7) 0 ++
        (ps.flatMap (fun p => fcgiParam p.1 p.2) ++ rest) := by
      simp [fcgiParam]
    rw [e, List.length_cons, ← Nat.add_assoc, decodeRecords_header]
    · rw [ih (fun q hq => hf q (List.mem_cons_of_mem _ hq))]
      cases decodeRecords f rest <;> simp [paramRec]
    · simp [fcgiLen_length]; omega
    · simp
    · exact hp
    · rw [and_7, and_7]; omega

theorem decode_pairs (ps : List (Bytes × Bytes)) (hf : ∀ p ∈ ps, Fits p) : ∀ f : Nat, ps.length ≤ f →
    decodePairs f ((ps.map paramRec).flatMap (·.content)) = some ps := by
  induction ps with
  | nil => intro f _; cases f <;> simp [decodePairs]
  | cons p ps ih =>
    intro f hl
    have hp := hf p (List.mem_cons_self ..)
    unfold Fits at hp
    cases f with
    | zero => simp at hl
    | succ f =>
      have e : ((p :: ps).map paramRec).flatMap (·.content) =
          fcgiLen p.1.length ++ fcgiLen p.2.length ++ p.1 ++ p.2 ++ (ps.map paramRec).flatMap (·.content) := by
        simp [paramRec]
      rw [e, decodePairs_param _ _ _ _ (by omega) (by omega),
        ih (fun q hq => hf q (List.mem_cons_of_mem _ hq)) f (by simp at hl; omega)]
      rfl

theorem flatMap_length_ge (ps : List (Bytes × Bytes)) : 16 * ps.length ≤ (ps.flatMap (fun p => fcgiParam p.1 p.2)).length := by
  induction ps with
  | nil => simp
  | cons p ps ih =>
    have : 16 ≤ (fcgiParam p.1 p.2).length := by simp [fcgiParam, fcgiHeader, fcgiLen_length]; omega
    simp only [List.flatMap_cons, List.length_append, List.length_cons]; omega

/-- **C28** An application decoding the records sent for any list of parameters (each fitting in a record)
receives a responder request with id 1 and exactly those parameters, in order, properly terminated. -/
theorem C28_params_received (ps : List (Bytes × Bytes)) (hf : ∀ p ∈ ps, p.1.length + p.2.length + 8 < 65536) :
    receivesRequest (fcgiStream ps) 1 ps := by
  refine ⟨{ version := 1, type := 1, id := 1, content := [0, 1, 1, 0, 0, 0, 0, 0] }, ps.map paramRec,
    { type := 4, content := [] }, { type := 5, content := [] }, ?_, ?_, rfl, rfl, rfl, ?_, rfl, rfl, rfl, rfl, ?_⟩
  · have hl : ∃ k, (fcgiStream ps).length = (k + 2 + ps.length) + 1 := by
      refine ⟨(fcgiStream ps).length - ps.length - 3, ?_⟩
      have := flatMap_length_ge ps
      simp only [fcgiStream, fcgiBegin, fcgiEnd, fcgiHeader, List.length_append, List.length_cons, List.length_nil]
      omega
    obtain ⟨k, hk⟩ := hl
    rw [hk]
    have e : fcgiStream ps = fcgiHeader 1 8 0 ++ [0, 1, 1, 0, 0, 0, 0, 0] ++ [] ++
        (ps.flatMap (fun p => fcgiParam p.1 p.2) ++ fcgiEnd) := by
      simp [fcgiStream, fcgiBegin]
    rw [e, decodeRecords_header _ 1 8 0 [0, 1, 1, 0, 0, 0, 0, 0] [] _ rfl rfl (by omega) (by omega), decode_params ps hf]
    have e2 : decodeRecords (k + 2) fcgiEnd = some [{ type := 4, content := [] }, { type := 5, content := [] }] := by
      have := decodeRecords_header (k + 1) 4 0 0 [] [] (fcgiHeader 5 0 0) rfl rfl (by omega) (by omega)
      simp only [List.append_nil] at this
      rw [fcgiEnd, this]
      have := decodeRecords_header k 5 0 0 [] [] [] rfl rfl (by omega) (by omega)
      simp only [List.append_nil] at this
      rw [this]
      cases k <;> simp [decodeRecords]
    rw [e2]
    simp
  · intro r hr
    simp only [List.mem_append, List.mem_cons, List.mem_map, List.not_mem_nil, or_false] at hr
    rcases hr with (rfl | ⟨p, _, rfl⟩) | rfl | rfl <;> exact ⟨rfl, rfl⟩
  · intro r hr
    obtain ⟨p, _, rfl⟩ := List.mem_map.1 hr
    refine ⟨rfl, by simp [paramRec, fcgiLen]⟩
  · refine decode_pairs ps hf _ ?_
    have := flatMap_length_ge ps
    simp only [fcgiStream, fcgiBegin, fcgiEnd, fcgiHeader, List.length_append, List.length_cons, List.length_nil]
    omega

/-- **C28** Every record is padded to a multiple of 8 bytes. -/
theorem C28_padded (name value : Bytes) : (fcgiParam name value).length % 8 = 0 ∧ fcgiBegin.length % 8 = 0 ∧
    fcgiEnd.length % 8 = 0 := by
  refine ⟨?_, rfl, rfl⟩
  simp only [fcgiParam, List.length_append, fcgiLen_length, List.length_replicate, and_7, fcgiHeader, List.length_cons,
    List.length_nil]
  omega

example : receivesRequest (fcgiStream [(b%"PATH_INFO", b%"/x"), (b%"AUTH_TYPE", [])]) 1
    [(b%"PATH_INFO", b%"/x"), (b%"AUTH_TYPE", [])] := C28_params_received _ (by decide)

/-- **C28, limit.** The hypothesis on sizes is needed: a 65517 byte certificate subject makes the length field
of its record zero, and what the application decodes is not a request at all. -/
theorem C28_long_value (v : Bytes) (hl : v.length = 65517) :
    ¬ ∃ ps, receivesRequest (fcgiStream [(b%"REMOTE_USER", v)]) 1 ps := by
  rintro ⟨ps, first, rs, e, stdin, h1, h2, -⟩
  have hs : fcgiStream [(b%"REMOTE_USER", v)] =
      fcgiHeader 1 8 0 ++ [0, 1, 1, 0, 0, 0, 0, 0] ++ [] ++ (fcgiHeader 4 0 0 ++ [] ++ [] ++
        (fcgiLen 11 ++ fcgiLen 65517 ++ b%"REMOTE_USER" ++ v ++ fcgiEnd)) := by
    simp only [fcgiStream, List.flatMap_cons, List.flatMap_nil, fcgiParam, hl]
    have hsz : (b%"REMOTE_USER").length + 65517 + 8 = 65536 := rfl
    rw [hsz]
    have hh : fcgiHeader 4 65536 ((8 - (65536 &&& 7)) &&& 7) = fcgiHeader 4 0 0 := by decide
    have hr : List.replicate ((8 - (65536 &&& 7)) &&& 7) (0 : UInt8) = [] := by decide
    rw [hh, hr]
    have hb : fcgiBegin = fcgiHeader 1 8 0 ++ [0, 1, 1, 0, 0, 0, 0, 0] := rfl
    rw [hb]
    simp only [List.append_nil, List.append_assoc]
    rfl
  have hn : ∃ k, (fcgiStream [(b%"REMOTE_USER", v)]).length = k + 1 + 1 + 1 := by
    refine ⟨65573, ?_⟩
    rw [hs]
    simp only [fcgiHeader, fcgiLen, fcgiEnd, List.length_append, List.length_cons, List.length_nil, hl]
  obtain ⟨k, hk⟩ := hn
  rw [hk, hs, decodeRecords_header _ 1 8 0 [0, 1, 1, 0, 0, 0, 0, 0] [] _ rfl rfl (by omega) (by omega),
    decodeRecords_header _ 4 0 0 [] [] _ rfl rfl (by omega) (by omega)] at h1
  generalize hrest : b%"REMOTE_USER" ++ v ++ fcgiEnd = rest at h1
  have hlens : fcgiLen 11 ++ fcgiLen 65517 ++ b%"REMOTE_USER" ++ v ++ fcgiEnd =
      128 :: 0 :: 0 :: 11 :: 128 :: 0 :: 255 :: 237 :: rest := by
    rw [← hrest]; rfl
  rw [hlens] at h1
  simp only [decodeRecords] at h1
  split at h1
  · cases h1
  · simp only [Option.map_map, Option.map_eq_some_iff] at h1
    obtain ⟨tl, -, h1⟩ := h1
    simp only [Function.comp] at h1
    have hm : ({ version := 128, type := 0, id := num16 0 11, content := rest.take (num16 128 0), padding := (rest.drop (num16 128 0)).take (255 : UInt8).toNat, reserved := 237 } : FRec) ∈
        first :: rs ++ [e, stdin] := by
      rw [← h1]; simp
    have := (h2 _ hm).1
    exact absurd this (by show ¬ (128 : UInt8) = 1; decide)

example : ∃ v : Bytes, v.length = 65517 := ⟨List.replicate 65517 c%'A', List.length_replicate⟩

/-! ## the names -/

theorem trimSlashes_prefix (s : Bytes) : trimSlashes s <+: s := by
  unfold trimSlashes
  have := List.dropWhile_suffix (l := s.reverse) (· == c%'/')
  simpa using List.reverse_prefix.2 this

/-- the three names when the script name is a leading part of the path -/
theorem fcgiNames_script (x : FcgiIn) (script rest : Bytes) (hstrip : x.strip = 0)
    (hlen : x.iri.path.length ≤ 1024) (hslash : x.iri.path.head? ≠ some c%'/')
    (hscript : script = trimSlashes (scriptName x.params))
    (hp : c%'/' :: x.iri.path = script ++ rest) (hb : rest = [] ∨ rest.head? = some c%'/') :
    fcgiNames x = (rest, script, pathTranslate rest x.locDir x.rootDir) := by
  have e1 : stripPath x.iri.path x.strip = x.iri.path := by rw [hstrip]; rfl
  have e2 : fcgiPath x.iri.path = c%'/' :: x.iri.path := by
    unfold fcgiPath
    rw [if_pos]
    · simp only [snprintfN]; rw [List.take_of_length_le]; simp; omega
    · intro h
      cases hx : x.iri.path with
      | nil => rw [hx] at h; revert h; decide
      | cons c r => rw [hx] at h hslash; simp at h hslash; exact hslash h
  unfold fcgiNames
  simp only [e1, e2, ← hscript, hp]
  rw [if_pos]
  · simp
  · simp only [List.drop_left, Bool.and_eq_true, Bool.or_eq_true, decide_eq_true_eq]
    refine ⟨List.isPrefixOf_iff_prefix.2 (List.prefix_append _ _), ?_⟩
    rcases hb with rfl | hb
    · right; rfl
    · left; cases rest with
      | nil => cases hb
      | cons c r => simpa using hb

/-- **C30 (partial)** Without `strip`, if the configured script name (up to trailing slashes) is a leading part
of the request path, ending at a slash or at the end of the path, then SCRIPT_NAME is that part and SCRIPT_NAME
followed by PATH_INFO is the path.  The full claim is about every script name: `C30_unrelated_script`. -/
theorem C30_partition_partial (x : FcgiIn) (script rest : Bytes) (hstrip : x.strip = 0)
    (hlen : x.iri.path.length ≤ 1024) (hslash : x.iri.path.head? ≠ some c%'/')
    (hscript : script = trimSlashes (scriptName x.params))
    (hp : c%'/' :: x.iri.path = script ++ rest) (hb : rest = [] ∨ rest.head? = some c%'/') :
    (b%"SCRIPT_NAME", script) ∈ fcgiReqParams x ∧ (b%"PATH_INFO", rest) ∈ fcgiReqParams x ∧
      script ++ rest = c%'/' :: x.iri.path ∧
      (∀ v, (b%"SCRIPT_NAME", v) ∈ fcgiReqParams x → v = script) := by
  have hn := fcgiNames_script x script rest hstrip hlen hslash hscript hp hb
  refine ⟨?_, ?_, hp.symm, ?_⟩
  · unfold fcgiReqParams; rw [hn]; simp
  · unfold fcgiReqParams; rw [hn]; simp
  · intro v hv
    unfold fcgiReqParams at hv
    rw [hn] at hv
    simp only [List.mem_append, List.mem_filter] at hv
    rcases hv with ((hv | hv) | hv) | hv
    · simp at hv; exact hv
    · split at hv
      · simp at hv
      · cases hv
    · simp at hv
    · split at hv
      · simp at hv
      · simp at hv

/-- without a script name everything is in PATH_INFO -/
theorem C30_no_script (x : FcgiIn) (hstrip : x.strip = 0) (hlen : x.iri.path.length ≤ 1024)
    (hslash : x.iri.path.head? ≠ some c%'/') (hs : ∀ p ∈ x.params, p.1 ≠ b%"SCRIPT_NAME") :
    (b%"SCRIPT_NAME", []) ∈ fcgiReqParams x ∧ (b%"PATH_INFO", c%'/' :: x.iri.path) ∈ fcgiReqParams x := by
  have h0 : scriptName x.params = [] := by
    have : ∀ l : List (Bytes × Bytes), (∀ p ∈ l, p.1 ≠ b%"SCRIPT_NAME") → scriptName l = [] := by
      intro l hl
      induction l with
      | nil => rfl
      | cons p l ih =>
        simp only [scriptName, if_neg (hl p (List.mem_cons_self ..))]
        exact ih (fun q hq => hl q (List.mem_cons_of_mem _ hq))
    exact this _ hs
  have := C30_partition_partial x [] (c%'/' :: x.iri.path) hstrip hlen hslash (by rw [h0]; rfl) rfl (Or.inr rfl)
  exact ⟨this.1, this.2.1⟩

/-- an accepted request has a query with a text -/
theorem queryText_of_decodes (q d : Bytes) (h : Decodes QueryChar q d) : ∃ t, QueryText q t := by
  have hne : ∀ c : UInt8, QueryChar c → c ≠ c%'%' := by
    intro c hc
    rintro rfl
    revert hc
    unfold QueryChar Unreserved SubDelim
    decide
  induction h with
  | nil => exact ⟨[], .nil⟩
  | lit c raw dec hc _ ih =>
    obtain ⟨t, ht⟩ := ih
    by_cases hp : c = c%'+'
    · subst hp; exact ⟨_, .plus raw t ht⟩
    · exact ⟨_, .lit c raw t hp (hne c hc) ht⟩
  | pct a b v raw dec he h0 _ ih =>
    obtain ⟨t, ht⟩ := ih
    exact ⟨_, .pct a b v raw t he h0 ht⟩
  | multi u raw dec hu _ ih =>
    obtain ⟨t, ht⟩ := ih
    have hhi : ∀ x ∈ u, 128 ≤ x.toNat := (multi_bytes hu).2
    refine ⟨u ++ t, ?_⟩
    clear hu
    induction u with
    | nil => exact ht
    | cons c u ihu =>
      have hc := hhi c (List.mem_cons_self ..)
      refine .lit c _ _ ?_ ?_ (ihu (fun x hx => hhi x (List.mem_cons_of_mem _ hx)))
      · rintro rfl; revert hc; decide
      · rintro rfl; revert hc; decide

theorem pctDecodeStr_cons (c : UInt8) (r : Bytes) (h1 : c ≠ c%'+') (h2 : c ≠ c%'%') :
    pctDecodeStr (c :: r) = c :: pctDecodeStr r := by
  match r with
  | [] => simp [pctDecodeStr, h1]
  | [d] => simp [pctDecodeStr, h1]
  | a :: b :: r => rw [pctDecodeStr, if_neg h1, if_neg (by simp [h2])]

theorem pctDecodeStr_text (q t : Bytes) (h : QueryText q t) : pctDecodeStr q = t := by
  induction h with
  | nil => rfl
  | plus r t _ ih =>
    match r with
    | [] => simp [pctDecodeStr, ← ih]
    | [d] => simp [pctDecodeStr, ← ih]
    | a :: b :: r => rw [pctDecodeStr, if_pos rfl, ih]
  | pct a b v r t he h0 _ ih =>
    obtain ⟨x1, x2, x3⟩ := (escape_iff a b v).1 he
    have hz : ¬ (a = 48 ∧ b = 48) := fun hh => h0 (x3.trans ((escape_zero a x1 b x2).2 hh))
    rw [pctDecodeStr, if_neg (by decide), if_pos (by simp [x1, x2]; exact Decidable.not_and_iff_or_not.1 hz), ← x3, ih]
  | lit c r t h1 h2 _ ih => rw [pctDecodeStr_cons c r h1 h2, ih]

/-- **C30** The query reaches the application as it was sent, and if it has no `=` also as the text it stands
for (every accepted request's query stands for one). -/
theorem C30_query (isAddr : Bytes → Bool) (s : Bytes) (x : FcgiIn) (h : parseIri isAddr s = .ok x.iri) :
    (b%"QUERY_STRING", x.iri.query) ∈ fcgiReqParams x ∧
    ∃ t, QueryText x.iri.query t ∧
      ((b%"GEMINI_SEARCH_STRING", t) ∈ fcgiReqParams x ∨ x.iri.query = [] ∨ c%'=' ∈ x.iri.query) := by
  have hq : ∃ d, Decodes QueryChar x.iri.query d := by
    obtain ⟨sch, auth, pp, tail, -, -, -, -, -, ht⟩ := (parseIri_iff _ _ _).1 h
    rcases ht with ⟨-, -, hq, -⟩ | ⟨rp, d, qf, -, -, -, hqf⟩
    · rw [hq]; exact ⟨[], .nil⟩
    · rcases hqf with ⟨-, hq, -⟩ | ⟨-, hq⟩ | ⟨-, -, hq⟩ | ⟨-, hq⟩
      · rw [hq]; exact ⟨[], .nil⟩
      · rw [hq]; exact ⟨[], .nil⟩
      · exact hq
      · exact hq
  obtain ⟨d, hd⟩ := hq
  obtain ⟨t, ht⟩ := queryText_of_decodes _ _ hd
  refine ⟨by unfold fcgiReqParams; simp, t, ht, ?_⟩
  by_cases h1 : x.iri.query = []
  · exact Or.inr (Or.inl h1)
  · by_cases h2 : c%'=' ∈ x.iri.query
    · exact Or.inr (Or.inr h2)
    · left
      unfold fcgiReqParams
      rw [pctDecodeStr_text _ _ ht]
      simp [h1, h2]

/-- a request to an application mounted at /app -/
def exFcgiIn : FcgiIn :=
  { iri := { schema := b%"gemini", host := b%"h", port := [], portNo := 1965, path := b%"app/x/y", query := b%"a+b%21", fragment := [] },
    rhost := b%"::1", strip := 0, params := [(b%"SCRIPT_NAME", b%"/app/")], locDir := [], rootDir := b%"/srv", cert := none,
    software := b%"gmid/2.1" }

example : (fcgiReqParams exFcgiIn).take 2 = [(b%"PATH_INFO", b%"/x/y"), (b%"SCRIPT_NAME", b%"/app")] ∧
    (b%"GEMINI_SEARCH_STRING", b%"a b!") ∈ fcgiReqParams exFcgiIn := by decide +kernel
example : c%'/' :: exFcgiIn.iri.path = b%"/app" ++ b%"/x/y" ∧ b%"/app" = trimSlashes (scriptName exFcgiIn.params) := by decide +kernel
example : (parseIri (fun _ => false) b%"gemini://h/app/x/y?a+b%21").val? = some exFcgiIn.iri := by decide +kernel

/-- **C30 fails** for a script name that is not part of the path: the two do not add up to the path, and PATH_INFO
has lost its slash. -/
theorem C30_unrelated_script :
    (fcgiReqParams { exFcgiIn with params := [(b%"SCRIPT_NAME", b%"/cgi")] }).take 2 =
      [(b%"PATH_INFO", b%"app/x/y"), (b%"SCRIPT_NAME", b%"/cgi")] := by decide +kernel

end Gmid.Props
