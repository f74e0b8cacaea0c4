import Verif.Model.Grammar

/-!
# A parser for the grammar, that finds every derivation

It reads the tokens from left to right and never goes back: hence no list of tokens has two values.
-/

set_option autoImplicit false

namespace Gmid

def isNlTok : Tok → Bool
  | .chr c => decide (c = 10) || decide (c = c%';')
  | _ => false

def skipNl (ts : Toks) : Toks := ts.dropWhile isNlTok

def pNl : Toks → Option Toks
  | t :: r => if isNlTok t then some (skipNl r) else none
  | [] => none

def expKw (k : Bytes) : Toks → Option Toks
  | .kw k' :: r => if k' = k then some r else none
  | _ => none

def expChr (c : UInt8) : Toks → Option Toks
  | .chr c' :: r => if c' = c then some r else none
  | _ => none

def expNum : Toks → Option (Int × Toks)
  | .num n :: r => some (n, r)
  | _ => none

def expStr : Toks → Option (Bytes × Toks)
  | .str s :: r => some (s, r)
  | _ => none

def takeStrs : Toks → Bytes × Toks
  | .str s :: r => (s ++ (takeStrs r).1, (takeStrs r).2)
  | r => ([], r)

def pString : Toks → Option (Bytes × Toks)
  | .str s :: r => some (s ++ (takeStrs r).1, (takeStrs r).2)
  | _ => none

def pBool : Toks → Option (Bool × Toks)
  | .kw k :: r => if k = b%"ON" then some (true, r) else if k = b%"OFF" then some (false, r) else none
  | _ => none

def pLogopt : Toks → Option (Directive × Toks)
  | .kw k :: r =>
    if k = b%"ACCESS" then (pString r).map fun x => (.logAccess x.1, x.2)
    else if k = b%"STYLE" then (pString r).map fun x => (.logStyle x.1, x.2)
    else if k = b%"SYSLOG" then
      match expKw b%"FACILITY" r with
      | some r => (pString r).map fun x => (.syslogFacility x.1, x.2)
      | none =>
        match expKw b%"OFF" r with
        | some r => some (.syslogOff, r)
        | none => some (.syslog, r)
    else none
  | _ => none

/-- options up to the closing token -/
def pBody {V : Type} (stop : UInt8) (sep : Toks → Option Toks) (p : Toks → Option (List V × Toks)) : Nat → Toks → Option (List V × Toks)
  | 0, ts => (expChr stop ts).map fun r => ([], r)
  | fuel + 1, ts =>
    match expChr stop ts with
    | some r => some ([], r)
    | none =>
      match p ts with
      | none => none
      | some (v, r) =>
        match sep r with
        | none => none
        | some r => (pBody stop sep p fuel r).map fun x => (v ++ x.1, x.2)

def optSep (ts : Toks) : Option Toks := some (skipNl ts)

def one {V : Type} (p : Toks → Option (V × Toks)) (ts : Toks) : Option (List V × Toks) := (p ts).map fun x => ([x.1], x.2)

/-- `{` and the options up to `}` -/
def pBlock {V : Type} (p : Toks → Option (List V × Toks)) (ts : Toks) : Option (List V × Toks) :=
  match expChr c%'{' ts with
  | none => none
  | some r => pBody c%'}' optSep p r.length (skipNl r)

def pLog (r : Toks) : Option (List Directive × Toks) :=
  match expChr c%'{' r with
  | some _ => pBlock (one pLogopt) r
  | none => one pLogopt r

def pFcgiopt : Toks → Option (LocOpt × Toks)
  | .kw k :: r =>
    if k = b%"PARAM" then
      match pString r with
      | none => none
      | some (n, r) =>
        match expChr c%'=' r with
        | none => none
        | some r => (pString r).map fun x => (.fcgiParam n x.1, x.2)
    else if k = b%"SOCKET" then
      match expKw b%"TCP" r with
      | none => (pString r).map fun x => (.fcgiSocket x.1 none, x.2)
      | some r =>
        match pString r with
        | none => none
        | some (s, r) =>
          match expKw b%"PORT" r with
          | none => some (.fcgiSocket s (some b%"9000"), r)
          | some r =>
            match expNum r with
            | some (n, r) => some (.fcgiSocket s (some (intDec n)), r)
            | none => (pString r).map fun x => (.fcgiSocket s (some x.1), x.2)
    else if k = b%"STRIP" then (expNum r).map fun x => (.fcgiStrip x.1, x.2)
    else none
  | _ => none

def pFastcgi (r : Toks) : Option (List LocOpt × Toks) :=
  match expChr c%'{' r with
  | some _ => pBlock (one pFcgiopt) r
  | none =>
    match expKw b%"OFF" r with
    | some r => some ([.fcgiOff], r)
    | none =>
      match pString r with
      | some (s, r) => some ([.fcgiSocket s none], r)
      | none => one pFcgiopt r

def expKws : List Bytes → Toks → Option Toks
  | [], r => some r
  | k :: ks, r => match expKw k r with | some r => expKws ks r | none => none

def pLocopt : Toks → Option (List LocOpt × Toks)
  | .kw k :: r =>
    if k = b%"AUTO" then
      match expKw b%"INDEX" r with
      | none => none
      | some r => (pBool r).map fun x => ([.autoIndex x.1], x.2)
    else if k = b%"BLOCK" then
      match expKw b%"RETURN" r with
      | none => some ([.block], r)
      | some r =>
        match expNum r with
        | none => none
        | some (n, r) =>
          match pString r with
          | some (s, r) => some ([.blockReturn n (some s)], r)
          | none => some ([.blockReturn n none], r)
    else if k = b%"DEFAULT" then
      match expKw b%"TYPE" r with
      | none => none
      | some r => (pString r).map fun x => ([.defaultType x.1], x.2)
    else if k = b%"FASTCGI" then pFastcgi r
    else if k = b%"INDEX" then (pString r).map fun x => ([.index x.1], x.2)
    else if k = b%"LANG" then (pString r).map fun x => ([.lang x.1], x.2)
    else if k = b%"LOG" then (pBool r).map fun x => ([.log x.1], x.2)
    else if k = b%"REQUIRE" then
      match expKws [b%"CLIENT", b%"CA"] r with
      | none => none
      | some r => (pString r).map fun x => ([.requireCa x.1], x.2)
    else if k = b%"ROOT" then (pString r).map fun x => ([.root x.1], x.2)
    else if k = b%"STRIP" then (expNum r).map fun x => ([.strip x.1], x.2)
    else none
  | _ => none

def pPort (r : Toks) : PortArg × Toks :=
  match expKw b%"PORT" r with
  | none => (.none, r)
  | some r' =>
    match expNum r' with
    | some (n, r) => (.num n, r)
    | none =>
      match expStr r' with
      | some (s, r) => (.name s, r)
      | none => (.none, r)

def pProxyMatch : Toks → Option (ProxyMatch × Toks)
  | .kw k :: r =>
    if k = b%"PROTO" then (pString r).map fun x => (.proto x.1, x.2)
    else if k = b%"FOR_HOST" then (pString r).map fun x => (.forHost x.1 (pPort x.2).1, (pPort x.2).2)
    else none
  | _ => none

def pProxyOpt : Toks → Option (ProxyOpt × Toks)
  | .kw k :: r =>
    if k = b%"CERT" then (pString r).map fun x => (.cert x.1, x.2)
    else if k = b%"KEY" then (pString r).map fun x => (.key x.1, x.2)
    else if k = b%"PROTOCOLS" then (pString r).map fun x => (.protocols x.1, x.2)
    else if k = b%"PROXYV1" then some (.proxyV1, r)
    else if k = b%"RELAY_TO" then (pString r).map fun x => (.relayTo x.1 (pPort x.2).1, (pPort x.2).2)
    else if k = b%"REQUIRE" then
      match expKws [b%"CLIENT", b%"CA"] r with
      | none => none
      | some r => (pString r).map fun x => (.requireCa x.1, x.2)
    else if k = b%"SNI" then (pString r).map fun x => (.sni x.1, x.2)
    else if k = b%"USE_TLS" then (pBool r).map fun x => (.useTls x.1, x.2)
    else if k = b%"VERIFYNAME" then (pBool r).map fun x => (.verifyName x.1, x.2)
    else none
  | _ => none

def pProxy (r : Toks) : Option (SrvOpt × Toks) :=
  match pBody c%'{' some (one pProxyMatch) r.length r with
  | none => none
  | some (ms, r) => (pBody c%'}' optSep (one pProxyOpt) r.length (skipNl r)).map fun x => (.proxy ms x.1, x.2)

def pLocation (r : Toks) : Option (SrvOpt × Toks) :=
  match pString r with
  | none => none
  | some (s, r) => (pBlock pLocopt r).map fun x => (.location s x.1, x.2)

def pListenAddr (r : Toks) : Option (Option Bytes × Toks) :=
  match expChr c%'*' r with
  | some r => some (none, r)
  | none => (expStr r).map fun x => (some x.1, x.2)

def pListen (r : Toks) : Option (SrvOpt × Toks) :=
  match expKw b%"ON" r with
  | none => none
  | some r =>
    match pListenAddr r with
    | none => none
    | some (a, r) =>
      let fin (p : Bytes) (r : Toks) : Option (SrvOpt × Toks) :=
        match expKw b%"PROXYV1" r with
        | some r => some (.listen a p true, r)
        | none => some (.listen a p false, r)
      match expKw b%"PORT" r with
      | none => fin b%"1965" r
      | some r =>
        match expNum r with
        | some (n, r) => fin (intDec n) r
        | none =>
          match expStr r with
          | some (s, r) => fin s r
          | none => none

/-- the options, locations and proxies of a server -/
def pServ : Toks → Option (List SrvOpt × Toks)
  | .kw k :: r =>
    if k = b%"ALIAS" then (pString r).map fun x => ([.alias x.1], x.2)
    else if k = b%"CERT" then (pString r).map fun x => ([.cert x.1], x.2)
    else if k = b%"CGI" then (pString r).map fun x => ([.cgi x.1], x.2)
    else if k = b%"KEY" then (pString r).map fun x => ([.key x.1], x.2)
    else if k = b%"OCSP" then (pString r).map fun x => ([.ocsp x.1], x.2)
    else if k = b%"PARAM" then
      match pString r with
      | none => none
      | some (n, r) =>
        match expChr c%'=' r with
        | none => none
        | some r => (pString r).map fun x => ([.opt (.fcgiParam n x.1)], x.2)
    else if k = b%"LISTEN" then one pListen r
    else if k = b%"LOCATION" then one pLocation r
    else if k = b%"PROXY" then one pProxy r
    else (pLocopt (.kw k :: r)).map fun x => (x.1.map .opt, x.2)
  | _ => none

def takeNames : Toks → List Bytes × Toks
  | .str s :: r => (s :: (takeNames r).1, (takeNames r).2)
  | .num n :: r => (intDec n :: (takeNames r).1, (takeNames r).2)
  | r => ([], r)

def pMedia : Toks → Option (Media × Toks)
  | .str s :: r =>
    match takeNames r with
    | ([], _) => none
    | (n :: ns, r) => some (.names s (n :: ns), r)
  | .kw k :: r => if k = b%"INCLUDE" then (expStr r).map fun x => (.incl x.1, x.2) else none
  | _ => none

def pTypes (r : Toks) : Option (List Media × Toks) :=
  match expChr c%'{' r with
  | none => none
  | some r =>
    match pBody c%'}' pNl (one pMedia) r.length (skipNl r) with
    | some (m :: ms, r) => some (m :: ms, r)
    | _ => none

def pItem : Toks → Option (Item × Toks)
  | .str n :: r =>
    match expChr c%'=' r with
    | none => none
    | some r => (pString r).map fun x => (.varset n x.1, x.2)
  | .kw k :: r =>
    if k = b%"INCLUDE" then (expStr r).map fun x => (.incl x.1, x.2)
    else if k = b%"CHROOT" then (pString r).map fun x => (.option [.chroot x.1], x.2)
    else if k = b%"IPV6" then (pBool r).map fun x => (.option [.ipv6 x.1], x.2)
    else if k = b%"LOG" then (pLog r).map fun x => (.option x.1, x.2)
    else if k = b%"PORT" then (expNum r).map fun x => (.option [.port x.1], x.2)
    else if k = b%"PREFORK" then (expNum r).map fun x => (.option [.prefork x.1], x.2)
    else if k = b%"PROTOCOLS" then (pString r).map fun x => (.option [.protocols x.1], x.2)
    else if k = b%"USER" then (pString r).map fun x => (.option [.user x.1], x.2)
    else if k = b%"SERVER" then
      match pString r with
      | none => none
      | some (s, r) => (pBlock pServ r).map fun x => (.vhost (.server s x.1), x.2)
    else if k = b%"TYPES" then (pTypes r).map fun x => (.types x.1, x.2)
    else none
  | _ => none

/-- the whole -/
def pGrammar (ts : Toks) : Option (List Item) :=
  match pBody c%'}' pNl (one pItem) ts.length (skipNl ts ++ [.chr c%'}']) with
  | some (is, []) => some is
  | _ => none

/-! ## What may follow -/

/-- the tokens that can be part of what comes before them, if they can -/
def folOk : Tok → Bool
  | .str _ => false
  | .num _ => false
  | .kw k => decide (k ∉ [b%"PORT", b%"RETURN", b%"FACILITY", b%"OFF", b%"TCP"])
  | .chr c => decide (c ≠ c%'=')
  | _ => true

def Fol (r : Toks) : Prop := ∀ t r', r = t :: r' → folOk t = true
def FolS (r : Toks) : Prop := Fol r ∧ ∀ r', r ≠ .kw b%"PROXYV1" :: r'

theorem takeStrs_fol {r : Toks} (h : Fol r) : takeStrs r = ([], r) := by
  cases r with
  | nil => rfl
  | cons t r' =>
    have := h t r' rfl
    cases t <;> simp_all [takeStrs, folOk]

theorem pString_fol {r : Toks} (h : Fol r) : pString r = none := by
  cases r with
  | nil => rfl
  | cons t r' =>
    have := h t r' rfl
    cases t <;> simp_all [pString, folOk]

theorem takeNames_fol {r : Toks} (h : Fol r) : takeNames r = ([], r) := by
  cases r with
  | nil => rfl
  | cons t r' =>
    have := h t r' rfl
    cases t <;> simp_all [takeNames, folOk]

theorem expKw_fol {r : Toks} (k : Bytes) (hk : k ∈ [b%"PORT", b%"RETURN", b%"FACILITY", b%"OFF", b%"TCP"]) (h : Fol r) : expKw k r = none := by
  cases r with
  | nil => rfl
  | cons t r' =>
    have := h t r' rfl
    cases t with
    | kw k' =>
      simp only [folOk, decide_eq_true_eq] at this
      simp only [expKw]
      rw [if_neg]
      rintro rfl
      exact this hk
    | _ => rfl

theorem fol_chr (c : UInt8) (hc : c ≠ c%'=') (r : Toks) : Fol (.chr c :: r) := by
  intro t r' h
  simp only [List.cons.injEq] at h
  rw [← h.1]
  simp [folOk, hc]

theorem fol_nil : Fol [] := by intro t r' h; cases h

theorem fol_kw (k : Bytes) (hk : folOk (.kw k) = true) (r : Toks) : Fol (.kw k :: r) := by
  intro t r' h
  simp only [List.cons.injEq] at h
  rw [← h.1]
  exact hk

/-! ## Newlines -/

mutual
theorem gnl_all : ∀ {ts : Toks}, GNl ts → ts ≠ [] ∧ ∀ t ∈ ts, isNlTok t = true
  | _, .newline ts h => ⟨by simp, by
      intro t ht
      rcases List.mem_cons.1 ht with rfl | ht
      · rfl
      · exact goptnl_all h t ht⟩
  | _, .semi ts h => ⟨by simp, by
      intro t ht
      rcases List.mem_cons.1 ht with rfl | ht
      · rfl
      · exact goptnl_all h t ht⟩
theorem goptnl_all : ∀ {ts : Toks}, GOptnl ts → ∀ t ∈ ts, isNlTok t = true
  | _, .nl ts h => (gnl_all h).2
  | _, .empty => by simp
end

theorem all_goptnl : ∀ (ts : Toks), (∀ t ∈ ts, isNlTok t = true) → GOptnl ts
  | [], _ => .empty
  | t :: r, h => by
    have h1 := h t (by simp)
    have h2 := all_goptnl r (fun x hx => h x (by simp [hx]))
    cases t with
    | chr c =>
      simp only [isNlTok, Bool.or_eq_true, decide_eq_true_eq] at h1
      rcases h1 with rfl | rfl
      · exact .nl _ (.newline _ h2)
      · exact .nl _ (.semi _ h2)
    | _ => cases h1

theorem all_gnl (ts : Toks) (hne : ts ≠ []) (h : ∀ t ∈ ts, isNlTok t = true) : GNl ts := by
  cases all_goptnl ts h with
  | nl _ h => exact h
  | empty => exact absurd rfl hne

def NotNl (r : Toks) : Prop := ∀ t r', r = t :: r' → isNlTok t = false

theorem skipNl_append {n r : Toks} (h : ∀ t ∈ n, isNlTok t = true) (hr : NotNl r) : skipNl (n ++ r) = r := by
  unfold skipNl
  induction n with
  | nil =>
    cases r with
    | nil => rfl
    | cons t r' => simp [hr t r' rfl]
  | cons t n ih => simp [h t (by simp), ih (fun x hx => h x (by simp [hx]))]

theorem skipNl_spec (r : Toks) : ∃ n, r = n ++ skipNl r ∧ (∀ t ∈ n, isNlTok t = true) ∧ NotNl (skipNl r) := by
  refine ⟨r.takeWhile isNlTok, ?_, ?_, ?_⟩
  · exact (List.takeWhile_append_dropWhile ..).symm
  · induction r with
    | nil => simp
    | cons x r ih =>
      intro t ht
      rw [List.takeWhile_cons] at ht
      split at ht
      · rcases List.mem_cons.1 ht with rfl | ht
        · assumption
        · exact ih t ht
      · cases ht
  · intro t r' h
    unfold skipNl at h
    have := List.head?_dropWhile_not isNlTok r
    rw [h] at this
    simpa using this

theorem pNl_append {n r : Toks} (h : GNl n) (hr : NotNl r) : pNl (n ++ r) = some r := by
  obtain ⟨h1, h2⟩ := gnl_all h
  cases n with
  | nil => exact absurd rfl h1
  | cons t n =>
    simp only [List.cons_append, pNl]
    rw [if_pos (h2 t (by simp)), skipNl_append (fun x hx => h2 x (by simp [hx])) hr]

theorem pNl_sound {r r' : Toks} (h : pNl r = some r') : ∃ n, r = n ++ r' ∧ GNl n ∧ NotNl r' := by
  cases r with
  | nil => cases h
  | cons t r =>
    simp only [pNl] at h
    split at h
    · rename_i ht
      simp only [Option.some.injEq] at h
      subst h
      obtain ⟨n, h1, h2, h3⟩ := skipNl_spec r
      refine ⟨t :: n, by rw [List.cons_append, ← h1], all_gnl _ (by simp) ?_, h3⟩
      intro x hx
      rcases List.mem_cons.1 hx with rfl | hx
      · exact ht
      · exact h2 x hx
    · cases h

/-! ## Completeness -/

theorem takeStrs_G {ts : Toks} {s : Bytes} (h : GString ts s) (r : Toks) :
    pString (ts ++ r) = some (s ++ (takeStrs r).1, (takeStrs r).2) := by
  induction h generalizing r with
  | more ts a b _ ih => rw [List.append_assoc, ih]; simp [takeStrs]
  | one a => rfl

theorem pString_G {ts : Toks} {s : Bytes} (h : GString ts s) {r : Toks} (hr : takeStrs r = ([], r)) : pString (ts ++ r) = some (s, r) := by
  rw [takeStrs_G h, hr]; simp

theorem pBool_G {ts : Toks} {b : Bool} (h : GBool ts b) (r : Toks) : pBool (ts ++ r) = some (b, r) := by
  cases h <;> simp [pBool]

theorem pLogopt_G {ts : Toks} {d : Directive} (h : GLogopt ts d) {r : Toks} (hr : Fol r) : pLogopt (ts ++ r) = some (d, r) := by
  have h1 := takeStrs_fol hr
  have h2 := expKw_fol b%"FACILITY" (by simp) hr
  have h3 := expKw_fol b%"OFF" (by simp) hr
  cases h with
  | access ts s h => simp [pLogopt, pString_G h h1]
  | style ts s h => simp [pLogopt, pString_G h h1]
  | facility ts s h => simp [pLogopt, expKw, pString_G h h1]
  | syslogOff => simp [pLogopt, expKw]
  | syslog => simp [pLogopt, h2, h3]

/-! ### Lists of options -/

/-- a list of options, read from the left -/
inductive Body {V : Type} (P : Toks → List V → Prop) (N : Toks → Prop) : Toks → List V → Prop where
  | nil : Body P N [] []
  | cons (o n ts : Toks) (v vs : List V) (ho : P o v) (hn : N n) (h : Body P N ts vs) : Body P N (o ++ n ++ ts) (v ++ vs)

theorem Body.snoc {V : Type} {P : Toks → List V → Prop} {N : Toks → Prop} {ts o n : Toks} {vs v : List V} (h : Body P N ts vs) (ho : P o v)
    (hn : N n) : Body P N (ts ++ o ++ n) (vs ++ v) := by
  induction h with
  | nil => simpa using Body.cons o n [] v [] ho hn .nil
  | cons o' n' ts' v' vs' ho' hn' _ ih => simpa [List.append_assoc] using Body.cons o' n' _ v' _ ho' hn' ih

theorem Body.mono {V : Type} {P Q : Toks → List V → Prop} {N : Toks → Prop} (hq : ∀ o v, P o v → Q o v) {ts : Toks} {vs : List V}
    (h : Body P N ts vs) : Body Q N ts vs := by
  induction h with
  | nil => exact .nil
  | cons o n ts v vs ho hn _ ih => exact .cons o n ts v vs (hq _ _ ho) hn ih

/-- what the pieces of a list of options must be for the parser to find them -/
structure PieceOk {V : Type} (stop : UInt8) (sep : Toks → Option Toks) (p : Toks → Option (List V × Toks)) (P : Toks → List V → Prop)
    (N : Toks → Prop) (F : Toks → Prop) : Prop where
  parse : ∀ o v r, P o v → F r → p (o ++ r) = some (v, r)
  start : ∀ o v r, P o v → F (o ++ r) ∧ NotNl (o ++ r) ∧ expChr stop (o ++ r) = none
  stopF : ∀ r, F (.chr stop :: r)
  stopN : isNlTok (.chr stop) = false
  nlF : ∀ n r, N n → F r → F (n ++ r)
  sepN : ∀ n r, N n → NotNl r → sep (n ++ r) = some r

theorem PieceOk.ne {V : Type} {stop : UInt8} {sep : Toks → Option Toks} {p : Toks → Option (List V × Toks)} {P : Toks → List V → Prop}
    {N : Toks → Prop} {F : Toks → Prop} (k : PieceOk stop sep p P N F) {o : Toks} {v : List V} (h : P o v) : 0 < o.length := by
  cases o with
  | nil => have := (k.start _ _ [.chr stop] h).2.2; simp [expChr] at this
  | cons t o => simp

theorem pBody_G {V : Type} {stop : UInt8} {sep : Toks → Option Toks} {p : Toks → Option (List V × Toks)} {P : Toks → List V → Prop}
    {N : Toks → Prop} {F : Toks → Prop} (k : PieceOk stop sep p P N F) {ts : Toks} {vs : List V} (h : Body P N ts vs) (r : Toks) :
    (∀ fuel, ts.length ≤ fuel → pBody stop sep p fuel (ts ++ .chr stop :: r) = some (vs, r)) ∧ F (ts ++ .chr stop :: r) ∧
      NotNl (ts ++ .chr stop :: r) := by
  induction h with
  | nil =>
    refine ⟨?_, k.stopF r, ?_⟩
    · intro fuel _
      cases fuel <;> simp [pBody, expChr]
    · intro t r' h
      simp only [List.nil_append, List.cons.injEq] at h
      rw [← h.1]; exact k.stopN
  | cons o n ts v vs ho hn hb ih =>
    obtain ⟨i1, i2, i3⟩ := ih
    have hst := k.start o v (n ++ (ts ++ .chr stop :: r)) ho
    have e : o ++ n ++ ts ++ .chr stop :: r = o ++ (n ++ (ts ++ .chr stop :: r)) := by simp
    rw [e]
    refine ⟨?_, hst.1, hst.2.1⟩
    intro fuel hf
    have := k.ne ho
    simp only [List.length_append] at hf
    cases fuel with
    | zero => omega
    | succ fuel =>
      simp only [pBody]
      rw [hst.2.2]
      simp only
      rw [k.parse _ _ _ ho (k.nlF _ _ hn i2)]
      simp only
      rw [k.sepN _ _ hn i3]
      simp only
      rw [i1 fuel (by omega)]
      simp

theorem sep_opt (n r : Toks) (h : GOptnl n) (hr : NotNl r) : optSep (n ++ r) = some r := by
  unfold optSep; rw [skipNl_append (goptnl_all h) hr]

theorem fol_nl (n r : Toks) (h : GOptnl n) (hr : Fol r) : Fol (n ++ r) := by
  cases n with
  | nil => exact hr
  | cons t n =>
    have := goptnl_all h t (by simp)
    intro t' r' e
    simp only [List.cons_append, List.cons.injEq] at e
    rw [← e.1]
    cases t with
    | chr c =>
      simp only [isNlTok, Bool.or_eq_true, decide_eq_true_eq] at this
      rcases this with rfl | rfl <;> rfl
    | _ => cases this

theorem folS_nl (n r : Toks) (h : GOptnl n) (hr : FolS r) : FolS (n ++ r) := by
  refine ⟨fol_nl n r h hr.1, ?_⟩
  cases n with
  | nil => exact hr.2
  | cons t n =>
    have := goptnl_all h t (by simp)
    intro r' e
    simp only [List.cons_append, List.cons.injEq] at e
    rw [e.1] at this
    cases this

/-- the tokens start with a keyword that can follow anything -/
def StartKw (bad : List Bytes) (o : Toks) : Prop := ∃ k o', o = .kw k :: o' ∧ folOk (.kw k) = true ∧ k ∉ bad

theorem StartKw.fol {bad : List Bytes} {o : Toks} (h : StartKw bad o) (r : Toks) : Fol (o ++ r) := by
  obtain ⟨k, o', rfl, h, _⟩ := h
  exact fol_kw k h _

theorem StartKw.folS {bad : List Bytes} {o : Toks} (h : StartKw bad o) (hb : b%"PROXYV1" ∈ bad) (r : Toks) : FolS (o ++ r) := by
  refine ⟨h.fol r, ?_⟩
  obtain ⟨k, o', rfl, h, h2⟩ := h
  rintro r' e
  simp only [List.cons_append, List.cons.injEq, Tok.kw.injEq] at e
  rw [e.1] at h2
  exact h2 hb

theorem StartKw.rest {bad : List Bytes} {o : Toks} (h : StartKw bad o) (c : UInt8) (r : Toks) : NotNl (o ++ r) ∧ expChr c (o ++ r) = none := by
  obtain ⟨k, o', rfl, h, h2⟩ := h
  refine ⟨?_, rfl⟩
  intro t r' e
  simp only [List.cons_append, List.cons.injEq] at e
  rw [← e.1]; rfl

/-- options apart by optional newlines, up to `}` -/
theorem pieceOk_opt {V : Type} {p : Toks → Option (List V × Toks)} {P : Toks → List V → Prop} (hp : ∀ o v r, P o v → Fol r → p (o ++ r) = some (v, r))
    (hs : ∀ o v, P o v → StartKw [] o) : PieceOk c%'}' optSep p P GOptnl Fol where
  parse := hp
  start := fun o v r h => ⟨(hs o v h).fol r, (hs o v h).rest _ r⟩
  stopF := fun r => fol_chr _ (by decide) r
  stopN := by decide
  nlF := fol_nl
  sepN := sep_opt

theorem pieceOk_optS {V : Type} {p : Toks → Option (List V × Toks)} {P : Toks → List V → Prop}
    (hp : ∀ o v r, P o v → FolS r → p (o ++ r) = some (v, r))
    (hs : ∀ o v, P o v → StartKw [b%"PROXYV1"] o) : PieceOk c%'}' optSep p P GOptnl FolS where
  parse := hp
  start := fun o v r h => ⟨(hs o v h).folS (by simp) r, (hs o v h).rest _ r⟩
  stopF := fun r => ⟨fol_chr _ (by decide) r, by intro r' e; cases e⟩
  stopN := by decide
  nlF := folS_nl
  sepN := sep_opt

theorem pBlock_G {V : Type} {p : Toks → Option (List V × Toks)} {P : Toks → List V → Prop} {F : Toks → Prop}
    (k : PieceOk c%'}' optSep p P GOptnl F) {n ts : Toks} {vs : List V} (hn : GOptnl n) (h : Body P GOptnl ts vs) (r : Toks) :
    pBlock p (.chr c%'{' :: (n ++ (ts ++ .chr c%'}' :: r))) = some (vs, r) := by
  obtain ⟨h1, h2, h3⟩ := pBody_G k h r
  simp only [pBlock, expChr, if_true]
  rw [skipNl_append (goptnl_all hn) h3, h1]
  simp only [List.length_append]
  omega

/-! ### The options -/

def One {V : Type} (G : Toks → V → Prop) (o : Toks) (v : List V) : Prop := ∃ d, G o d ∧ v = [d]

theorem one_G {V : Type} {G : Toks → V → Prop} {p : Toks → Option (V × Toks)} {F : Toks → Prop}
    (hp : ∀ o v r, G o v → F r → p (o ++ r) = some (v, r)) (o : Toks) (v : List V) (r : Toks) (h : One G o v) (hr : F r) :
    one p (o ++ r) = some (v, r) := by
  obtain ⟨d, h, rfl⟩ := h
  simp [one, hp o d r h hr]

theorem glogopts_body {ts : Toks} {ds : List Directive} (h : GLogopts ts ds) : Body (One GLogopt) GOptnl ts ds := by
  induction h with
  | empty => exact .nil
  | more ts o n ds d _ ho hn ih => exact ih.snoc ⟨d, ho, rfl⟩ hn

theorem logopt_start {o : Toks} {d : Directive} (h : GLogopt o d) : StartKw [] o := by
  cases h <;> exact ⟨_, _, rfl, by decide +kernel, by simp⟩

theorem pLog_G {ts : Toks} {ds : List Directive} (h : GLog ts ds) {r : Toks} (hr : Fol r) :
    ∃ o, ts = .kw b%"LOG" :: o ∧ pLog (o ++ r) = some (ds, r) := by
  cases h with
  | block n ts ds hn h =>
    refine ⟨.chr c%'{' :: (n ++ (ts ++ [.chr c%'}'])), by simp, ?_⟩
    have k := pieceOk_opt (one_G (F := Fol) (fun o v r h hr => pLogopt_G h hr)) (fun o v ⟨d, h, _⟩ => logopt_start h)
    have := pBlock_G k hn (glogopts_body h) r
    simp only [pLog, List.cons_append, List.append_assoc, expChr, if_true, List.nil_append]
    exact this
  | one ts d h =>
    refine ⟨_, rfl, ?_⟩
    have h1 : expChr c%'{' (ts ++ r) = none := ((logopt_start h).rest _ r).2
    simp [pLog, h1, one, pLogopt_G h hr]

theorem gstring_start {ts : Toks} {s : Bytes} (h : GString ts s) (r : Toks) : ∃ a o, ts ++ r = .str a :: o := by
  induction h generalizing r with
  | more ts a b _ ih => obtain ⟨x, o, e⟩ := ih ([.str b] ++ r); exact ⟨x, o, by rw [List.append_assoc, e]⟩
  | one a => exact ⟨a, r, rfl⟩

theorem gstring_not {ts : Toks} {s : Bytes} (h : GString ts s) (r : Toks) :
    (∀ k, expKw k (ts ++ r) = none) ∧ (∀ c, expChr c (ts ++ r) = none) ∧ expNum (ts ++ r) = none := by
  obtain ⟨a, o, e⟩ := gstring_start h r
  rw [e]; exact ⟨fun _ => rfl, fun _ => rfl, rfl⟩

theorem takeStrs_kw (k : Bytes) (r : Toks) : takeStrs (.kw k :: r) = ([], .kw k :: r) := rfl
theorem takeStrs_chr (c : UInt8) (r : Toks) : takeStrs (.chr c :: r) = ([], .chr c :: r) := rfl

theorem pFcgiopt_G {ts : Toks} {d : LocOpt} (h : GFastcgiopt ts d) {r : Toks} (hr : Fol r) : pFcgiopt (ts ++ r) = some (d, r) := by
  have h1 := takeStrs_fol hr
  have h2 := expKw_fol b%"PORT" (by simp) hr
  cases h with
  | param t u n v h h' => simp [pFcgiopt, pString_G h (takeStrs_chr c%'=' _), expChr, pString_G h' h1]
  | socket t s h => simp [pFcgiopt, pString_G h h1, (gstring_not h r).1]
  | tcpNum t s n h => simp [pFcgiopt, expKw, expNum, pString_G h (takeStrs_kw b%"PORT" _)]
  | tcp t s h =>
    have e : ∀ r, expKw b%"TCP" (.kw b%"TCP" :: r) = some r := fun _ => rfl
    simp [pFcgiopt, e, pString_G h h1, h2]
  | tcpStr t u s p h h' => simp [pFcgiopt, expKw, pString_G h (takeStrs_kw b%"PORT" _), (gstring_not h' r).2.2, pString_G h' h1]
  | strip n => simp [pFcgiopt, expNum]

theorem gfcgiopts_body {ts : Toks} {ds : List LocOpt} (h : GFastcgiopts ts ds) : Body (One GFastcgiopt) GOptnl ts ds := by
  induction h with
  | empty => exact .nil
  | more ts o n ds d _ ho hn ih => exact ih.snoc ⟨d, ho, rfl⟩ hn

theorem fcgiopt_start {o : Toks} {d : LocOpt} (h : GFastcgiopt o d) : StartKw [b%"OFF"] o := by
  cases h <;> exact ⟨_, _, rfl, by decide +kernel, by decide +kernel⟩

theorem StartKw.nil {bad : List Bytes} {o : Toks} (h : StartKw bad o) : StartKw [] o := by
  obtain ⟨k, o', h1, h2, _⟩ := h; exact ⟨k, o', h1, h2, by simp⟩

theorem pFastcgi_G {ts : Toks} {ds : List LocOpt} (h : GFastcgi ts ds) {r : Toks} (hr : Fol r) :
    ∃ o, ts = .kw b%"FASTCGI" :: o ∧ pFastcgi (o ++ r) = some (ds, r) := by
  cases h with
  | block n ts ds hn h =>
    refine ⟨.chr c%'{' :: (n ++ (ts ++ [.chr c%'}'])), by simp, ?_⟩
    have k := pieceOk_opt (one_G (F := Fol) (fun o v r h hr => pFcgiopt_G h hr)) (fun o v ⟨d, h, _⟩ => (fcgiopt_start h).nil)
    have := pBlock_G k hn (gfcgiopts_body h) r
    simp only [pFastcgi, List.cons_append, List.append_assoc, expChr, if_true, List.nil_append]
    exact this
  | one ts d h =>
    refine ⟨_, rfl, ?_⟩
    have h1 : expChr c%'{' (ts ++ r) = none := ((fcgiopt_start h).rest _ r).2
    have h2 : expKw b%"OFF" (ts ++ r) = none := by
      obtain ⟨k, o, rfl, _, hk⟩ := fcgiopt_start h
      simp only [List.cons_append, expKw]
      rw [if_neg]
      simpa using hk
    have h3 : pString (ts ++ r) = none := by
      obtain ⟨k, o, rfl, _, hk⟩ := fcgiopt_start h
      rfl
    simp [pFastcgi, h1, h2, h3, one, pFcgiopt_G h hr]
  | off => exact ⟨_, rfl, by simp [pFastcgi, expChr, expKw]⟩
  | path ts s h =>
    refine ⟨_, rfl, ?_⟩
    have := gstring_not h r
    simp [pFastcgi, this.1, this.2.1, pString_G h (takeStrs_fol hr)]

theorem pLocopt_G {ts : Toks} {d : List LocOpt} (h : GLocopt ts d) {r : Toks} (hr : Fol r) : pLocopt (ts ++ r) = some (d, r) := by
  have h1 := takeStrs_fol hr
  have h2 := expKw_fol b%"RETURN" (by simp) hr
  have h3 := pString_fol hr
  cases h with
  | autoIndex ts b h => simp [pLocopt, expKw, pBool_G h]
  | blockText n ts s h => simp [pLocopt, expKw, expNum, pString_G h h1]
  | blockCode n => simp [pLocopt, expKw, expNum, h3]
  | block => simp [pLocopt, h2]
  | defaultType ts s h => simp [pLocopt, expKw, pString_G h h1]
  | fastcgi ts ds h =>
    obtain ⟨o, rfl, e⟩ := pFastcgi_G h hr
    simp [pLocopt, e]
  | index ts s h => simp [pLocopt, pString_G h h1]
  | lang ts s h => simp [pLocopt, pString_G h h1]
  | log ts b h => simp [pLocopt, pBool_G h]
  | requireCa ts s h => simp [pLocopt, expKws, expKw, pString_G h h1]
  | root ts s h => simp [pLocopt, pString_G h h1]
  | strip n => simp [pLocopt, expNum]

theorem fastcgi_start {o : Toks} {d : List LocOpt} (h : GFastcgi o d) : ∃ o', o = .kw b%"FASTCGI" :: o' := by
  cases h <;> exact ⟨_, rfl⟩

/-- the keywords of the options of a server that are not those of a location -/
abbrev servKws : List Bytes := [b%"ALIAS", b%"CERT", b%"CGI", b%"KEY", b%"OCSP", b%"PARAM", b%"LISTEN", b%"LOCATION", b%"PROXY", b%"PROXYV1"]

theorem locopt_start {o : Toks} {d : List LocOpt} (h : GLocopt o d) : StartKw servKws o := by
  cases h with
  | fastcgi ts ds h => obtain ⟨o', rfl⟩ := fastcgi_start h; exact ⟨_, _, rfl, by decide +kernel, by decide +kernel⟩
  | _ => exact ⟨_, _, rfl, by decide +kernel, by decide +kernel⟩

theorem glocopts_body {ts : Toks} {ds : List LocOpt} (h : GLocopts ts ds) : Body GLocopt GOptnl ts ds := by
  induction h with
  | empty => exact .nil
  | more ts o n ds d _ ho hn ih => exact ih.snoc ho hn

theorem pLocation_G {ts : Toks} {d : SrvOpt} (h : GLocation ts d) (r : Toks) : ∃ o, ts = .kw b%"LOCATION" :: o ∧ pLocation (o ++ r) = some (d, r) := by
  cases h with
  | mk t n ts s ds hs hn h =>
    refine ⟨t ++ .chr c%'{' :: (n ++ (ts ++ [.chr c%'}'])), by simp, ?_⟩
    have k := pieceOk_opt (fun o v r h hr => pLocopt_G h hr) (fun o v h => (locopt_start h).nil)
    have := pBlock_G k hn (glocopts_body h) r
    simp only [pLocation, List.cons_append, List.append_assoc, List.nil_append]
    rw [pString_G hs (takeStrs_chr _ _)]
    simp only
    rw [this]
    rfl

theorem pPort_G {ts : Toks} {p : PortArg} (h : GProxyPort ts p) {r : Toks} (hr : Fol r) :
    pPort (ts ++ r) = (p, r) ∧ takeStrs (ts ++ r) = ([], ts ++ r) := by
  cases h with
  | empty => exact ⟨by simp [pPort, expKw_fol b%"PORT" (by simp) hr], takeStrs_fol hr⟩
  | str s => exact ⟨by simp [pPort, expKw, expNum, expStr], rfl⟩
  | num n => exact ⟨by simp [pPort, expKw, expNum], rfl⟩

theorem pProxyMatch_G {ts : Toks} {d : ProxyMatch} (h : GProxyMatch ts d) {r : Toks} (hr : Fol r) : pProxyMatch (ts ++ r) = some (d, r) := by
  cases h with
  | proto t s h => simp [pProxyMatch, pString_G h (takeStrs_fol hr)]
  | forHost t u s p h hp => simp [pProxyMatch, pString_G h (pPort_G hp hr).2, (pPort_G hp hr).1]

theorem pProxyOpt_G {ts : Toks} {d : ProxyOpt} (h : GProxyOpt ts d) {r : Toks} (hr : Fol r) : pProxyOpt (ts ++ r) = some (d, r) := by
  have h1 := takeStrs_fol hr
  cases h with
  | cert t s h => simp [pProxyOpt, pString_G h h1]
  | key t s h => simp [pProxyOpt, pString_G h h1]
  | protocols t s h => simp [pProxyOpt, pString_G h h1]
  | proxyV1 => simp [pProxyOpt]
  | relayTo t u s p h hp => simp [pProxyOpt, pString_G h (pPort_G hp hr).2, (pPort_G hp hr).1]
  | requireCa t s h => simp [pProxyOpt, expKws, expKw, pString_G h h1]
  | sni t s h => simp [pProxyOpt, pString_G h h1]
  | useTls t b h => simp [pProxyOpt, pBool_G h]
  | verifyName t b h => simp [pProxyOpt, pBool_G h]

theorem proxyMatch_start {o : Toks} {d : ProxyMatch} (h : GProxyMatch o d) : StartKw [] o := by
  cases h <;> exact ⟨_, _, rfl, by decide +kernel, by simp⟩

theorem proxyOpt_start {o : Toks} {d : ProxyOpt} (h : GProxyOpt o d) : StartKw [] o := by
  cases h <;> exact ⟨_, _, rfl, by decide +kernel, by simp⟩

theorem gproxyMatches_body {ts : Toks} {ds : List ProxyMatch} (h : GProxyMatches ts ds) : Body (One GProxyMatch) (fun n => n = []) ts ds := by
  induction h with
  | empty => exact .nil
  | more ts o ds d _ ho ih => simpa using ih.snoc (n := []) ⟨d, ho, rfl⟩ rfl

theorem gproxyOpts_body {ts : Toks} {ds : List ProxyOpt} (h : GProxyOpts ts ds) : Body (One GProxyOpt) GOptnl ts ds := by
  induction h with
  | empty => exact .nil
  | more ts o n ds d _ ho hn ih => exact ih.snoc ⟨d, ho, rfl⟩ hn

theorem pProxy_G {ts : Toks} {d : SrvOpt} (h : GProxy ts d) (r : Toks) : ∃ o, ts = .kw b%"PROXY" :: o ∧ pProxy (o ++ r) = some (d, r) := by
  cases h with
  | mk m n ts ms ds hm hn h =>
    refine ⟨m ++ .chr c%'{' :: (n ++ (ts ++ [.chr c%'}'])), by simp, ?_⟩
    have k := pieceOk_opt (one_G (F := Fol) (fun o v r h hr => pProxyOpt_G h hr)) (fun o v ⟨d, h, _⟩ => proxyOpt_start h)
    have k' : PieceOk c%'{' some (one pProxyMatch) (One GProxyMatch) (fun n => n = []) Fol := {
      parse := one_G (F := Fol) (fun o v r h hr => pProxyMatch_G h hr)
      start := fun o v r ⟨d, h, _⟩ => ⟨(proxyMatch_start h).fol r, (proxyMatch_start h).rest _ r⟩
      stopF := fun r => fol_chr _ (by decide) r
      stopN := by decide
      nlF := fun n r hn hr => by subst hn; exact hr
      sepN := fun n r hn hr => by subst hn; rfl }
    have h1 := (pBody_G k' (gproxyMatches_body hm) (n ++ (ts ++ .chr c%'}' :: r))).1
    obtain ⟨h2, _, h3⟩ := pBody_G k (gproxyOpts_body h) r
    simp only [pProxy, List.cons_append, List.append_assoc, List.nil_append]
    rw [h1]
    · simp only
      rw [skipNl_append (goptnl_all hn) h3, h2]
      · rfl
      · simp only [List.length_append]; omega
    · simp only [List.length_append]; omega

theorem pListen_G {ts : Toks} {a : Option Bytes} (h : GListenAddr ts a) (r : Toks) : pListenAddr (ts ++ r) = some (a, r) := by
  cases h <;> simp [pListenAddr, expChr, expStr]

theorem expKw_folS {r : Toks} (h : FolS r) : expKw b%"PROXYV1" r = none := by
  cases r with
  | nil => rfl
  | cons t r' =>
    cases t with
    | kw k' =>
      simp only [expKw]
      rw [if_neg]
      rintro rfl
      exact h.2 r' rfl
    | _ => rfl

theorem pLocopt_none (k : Bytes) (r : Toks) (h : k ∈ servKws) : pLocopt (.kw k :: r) = none := by
  simp only [List.mem_cons, List.not_mem_nil, or_false] at h
  rcases h with rfl | rfl | rfl | rfl | rfl | rfl | rfl | rfl | rfl | rfl <;> simp [pLocopt]

theorem pServopt_G {ts : Toks} {d : List SrvOpt} (h : GServopt ts d) {r : Toks} (hr : FolS r) : pServ (ts ++ r) = some (d, r) := by
  have h1 := takeStrs_fol hr.1
  have h2 := expKw_fol b%"PORT" (by simp) hr.1
  have h3 := expKw_folS hr
  have on : ∀ r, expKw b%"ON" (.kw b%"ON" :: r) = some r := fun _ => rfl
  have pv : ∀ r, expKw b%"PROXYV1" (.kw b%"PROXYV1" :: r) = some r := fun _ => rfl
  have pt : ∀ r, expKw b%"PORT" (.kw b%"PORT" :: r) = some r := fun _ => rfl
  have np : ∀ r, expKw b%"PORT" (.kw b%"PROXYV1" :: r) = none := fun _ => by simp [expKw]
  cases h with
  | alias t s h => simp [pServ, pString_G h h1]
  | cert t s h => simp [pServ, pString_G h h1]
  | cgi t s h => simp [pServ, pString_G h h1]
  | key t s h => simp [pServ, pString_G h h1]
  | ocsp t s h => simp [pServ, pString_G h h1]
  | param t u n v h h' => simp [pServ, pString_G h (takeStrs_chr c%'=' _), expChr, pString_G h' h1]
  | listen t a h => simp [pServ, one, pListen, on, pListen_G h, h2, h3]
  | listenStr t a s h => simp [pServ, one, pListen, on, pListen_G h, pt, expNum, expStr, h3]
  | listenNum t a n h => simp [pServ, one, pListen, on, pListen_G h, pt, expNum, h3]
  | listenV1 t a h => simp [pServ, one, pListen, on, pListen_G h, np, pv]
  | listenStrV1 t a s h => simp [pServ, one, pListen, on, pListen_G h, pt, expNum, expStr, pv]
  | listenNumV1 t a n h => simp [pServ, one, pListen, on, pListen_G h, pt, expNum, pv]
  | locopt t ds h =>
    have := pLocopt_G h hr.1
    obtain ⟨k, o, rfl, _, hk⟩ := locopt_start h
    simp only [List.mem_cons, List.not_mem_nil, or_false, not_or] at hk
    obtain ⟨a1, a2, a3, a4, a5, a6, a7, a8, a9, _⟩ := hk
    rw [List.cons_append] at this ⊢
    simp only [pServ]
    rw [if_neg a1, if_neg a2, if_neg a3, if_neg a4, if_neg a5, if_neg a6, if_neg a7, if_neg a8, if_neg a9, this]
    rfl

/-- the pieces of a server -/
def GServ (o : Toks) (v : List SrvOpt) : Prop := GServopt o v ∨ One GLocation o v ∨ One GProxy o v

theorem pServ_G {ts : Toks} {d : List SrvOpt} (h : GServ ts d) {r : Toks} (hr : FolS r) : pServ (ts ++ r) = some (d, r) := by
  rcases h with h | ⟨d, h, rfl⟩ | ⟨d, h, rfl⟩
  · exact pServopt_G h hr
  · obtain ⟨o, rfl, e⟩ := pLocation_G h r
    simp [pServ, one, e]
  · obtain ⟨o, rfl, e⟩ := pProxy_G h r
    simp [pServ, one, e]

theorem serv_start {o : Toks} {d : List SrvOpt} (h : GServ o d) : StartKw [b%"PROXYV1"] o := by
  rcases h with h | ⟨d, h, rfl⟩ | ⟨d, h, rfl⟩
  · cases h with
    | locopt t ds h =>
      obtain ⟨k, o, e, h, hk⟩ := locopt_start h
      refine ⟨k, o, e, h, ?_⟩
      simp only [List.mem_cons, List.not_mem_nil, or_false, not_or] at hk ⊢
      exact hk.2.2.2.2.2.2.2.2.2
    | _ => exact ⟨_, _, rfl, by decide +kernel, by decide +kernel⟩
  · cases h; exact ⟨_, _, rfl, by decide +kernel, by decide +kernel⟩
  · cases h; exact ⟨_, _, rfl, by decide +kernel, by decide +kernel⟩

theorem gservbody_body {ts : Toks} {ds : List SrvOpt} (h : GServbody ts ds) : Body GServ GOptnl ts ds := by
  induction h with
  | empty => exact .nil
  | opt ts o n ds d _ ho hn ih => exact ih.snoc (.inl ho) hn
  | location ts o n ds d _ ho hn ih => exact ih.snoc (.inr (.inl ⟨d, ho, rfl⟩)) hn
  | proxy ts o n ds d _ ho hn ih => exact ih.snoc (.inr (.inr ⟨d, ho, rfl⟩)) hn

/-! ### types -/

theorem takeNames_G {ts : Toks} {ns : List Bytes} (h : GMedianames ts ns) (r : Toks) :
    takeNames (ts ++ r) = (ns ++ (takeNames r).1, (takeNames r).2) ∧ ns ≠ [] := by
  induction h generalizing r with
  | more ts o ns s _ ho ih =>
    rw [List.append_assoc, (ih _).1]
    refine ⟨?_, by simp⟩
    cases ho <;> simp [takeNames]
  | one o s h => cases h <;> simp [takeNames]

theorem pMedia_G {ts : Toks} {m : Media} (h : GMediaoptsl ts m) {r : Toks} (hr : Fol r) : pMedia (ts ++ r) = some (m, r) := by
  cases h with
  | names s ts ns h =>
    obtain ⟨h1, h2⟩ := takeNames_G h r
    rw [takeNames_fol hr] at h1
    cases ns with
    | nil => exact absurd rfl h2
    | cons n ns => simp [pMedia, h1]
  | incl ts s h => cases h; simp [pMedia, expStr]

theorem gmediaopts_body {ts : Toks} {ms : List Media} (h : GMediaopts ts ms) : Body (One GMediaoptsl) GNl ts ms ∧ ms ≠ [] := by
  induction h with
  | more ts o n ms m _ ho hn ih => exact ⟨ih.1.snoc ⟨m, ho, rfl⟩ hn, by simp⟩
  | one o n m ho hn => exact ⟨by simpa using Body.nil.snoc (P := One GMediaoptsl) ⟨m, ho, rfl⟩ hn, by simp⟩

theorem sep_nl (n r : Toks) (h : GNl n) (hr : NotNl r) : pNl (n ++ r) = some r := pNl_append h hr

/-- the tokens start with a keyword or a string -/
def StartKwStr (o : Toks) : Prop := (∃ k o', o = .kw k :: o') ∨ ∃ s o', o = .str s :: o'

theorem StartKwStr.rest {o : Toks} (h : StartKwStr o) (c : UInt8) (r : Toks) : NotNl (o ++ r) ∧ expChr c (o ++ r) = none := by
  rcases h with ⟨k, o', rfl⟩ | ⟨k, o', rfl⟩ <;>
  · refine ⟨?_, rfl⟩
    intro t r' e
    simp only [List.cons_append, List.cons.injEq] at e
    rw [← e.1]; rfl

/-- lines up to the closing token -/
theorem pBodyLines_G {V : Type} {p : Toks → Option (List V × Toks)} {P : Toks → List V → Prop}
    (hp : ∀ o v r, P o v → Fol r → p (o ++ r) = some (v, r)) (hs : ∀ o v, P o v → StartKwStr o) {ts : Toks} {vs : List V}
    (h : Body P GNl ts vs) (r : Toks) :
    (∀ fuel, ts.length ≤ fuel → pBody c%'}' pNl p fuel (ts ++ .chr c%'}' :: r) = some (vs, r)) ∧ NotNl (ts ++ .chr c%'}' :: r) := by
  induction h with
  | nil =>
    refine ⟨?_, ?_⟩
    · intro fuel _
      cases fuel <;> simp [pBody, expChr]
    · intro t r' h
      simp only [List.nil_append, List.cons.injEq] at h
      rw [← h.1]; decide
  | cons o n ts v vs ho hn hb ih =>
    obtain ⟨i1, i3⟩ := ih
    have hst := (hs o v ho).rest c%'}' (n ++ (ts ++ .chr c%'}' :: r))
    have e : o ++ n ++ ts ++ .chr c%'}' :: r = o ++ (n ++ (ts ++ .chr c%'}' :: r)) := by simp
    rw [e]
    refine ⟨?_, hst.1⟩
    intro fuel hf
    have hne : 0 < o.length := by rcases hs o v ho with ⟨k, o', rfl⟩ | ⟨k, o', rfl⟩ <;> simp
    simp only [List.length_append] at hf
    have hF : Fol (n ++ (ts ++ .chr c%'}' :: r)) := by
      have := gnl_all hn
      cases n with
      | nil => exact absurd rfl this.1
      | cons t n =>
        have := this.2 t (by simp)
        intro t' r' e
        simp only [List.cons_append, List.cons.injEq] at e
        rw [← e.1]
        cases t with
        | chr c =>
          simp only [isNlTok, Bool.or_eq_true, decide_eq_true_eq] at this
          rcases this with rfl | rfl <;> rfl
        | _ => cases this
    cases fuel with
    | zero => omega
    | succ fuel =>
      simp only [pBody]
      rw [hst.2]
      simp only
      rw [hp _ _ _ ho hF]
      simp only
      rw [pNl_append hn i3]
      simp only
      rw [i1 fuel (by omega)]
      simp

theorem media_start {o : Toks} {m : Media} (h : GMediaoptsl o m) : StartKwStr o := by
  cases h with
  | names s ts ns h => exact .inr ⟨_, _, rfl⟩
  | incl ts s h => cases h; exact .inl ⟨_, _, rfl⟩

theorem pTypes_G {ts : Toks} {ms : List Media} (h : GTypes ts ms) (r : Toks) : ∃ o, ts = .kw b%"TYPES" :: o ∧ pTypes (o ++ r) = some (ms, r) := by
  cases h with
  | mk n ts ms hn h =>
    refine ⟨.chr c%'{' :: (n ++ (ts ++ [.chr c%'}'])), by simp, ?_⟩
    obtain ⟨hb, hne⟩ := gmediaopts_body h
    obtain ⟨h1, h2⟩ := pBodyLines_G (one_G (F := Fol) (fun o v r h hr => pMedia_G h hr)) (fun o v ⟨d, h, _⟩ => media_start h) hb r
    simp only [pTypes, List.cons_append, List.append_assoc, List.nil_append, expChr, if_true]
    rw [skipNl_append (goptnl_all hn) h2, h1]
    · cases ms with
      | nil => exact absurd rfl hne
      | cons m ms => rfl
    · simp only [List.length_append]; omega

/-! ### The whole -/

theorem pItem_G {ts : Toks} {i : Item} (h : GItem ts i) {r : Toks} (hr : Fol r) : pItem (ts ++ r) = some (i, r) := by
  have h1 := takeStrs_fol hr
  cases h with
  | incl s h => cases h; simp [pItem, expStr]
  | varset n v h =>
    cases h with
    | mk n ts v h => simp [pItem, expChr, pString_G h h1]
  | option ds h =>
    cases h with
    | chroot ts s h => simp [pItem, pString_G h h1]
    | ipv6 ts b h => simp [pItem, pBool_G h]
    | log ts ds h => obtain ⟨o, rfl, e⟩ := pLog_G h hr; simp [pItem, e]
    | port n => simp [pItem, expNum]
    | prefork n => simp [pItem, expNum]
    | protocols ts s h => simp [pItem, pString_G h h1]
    | user ts s h => simp [pItem, pString_G h h1]
  | vhost d h =>
    cases h with
    | mk t n ts s ds hs hn h =>
      have k := pieceOk_optS (fun o v r h hr => pServ_G h hr) (fun o v h => serv_start h)
      have := pBlock_G k hn (gservbody_body h) r
      have e : (Tok.kw b%"SERVER" :: t ++ [.chr c%'{'] ++ n ++ ts ++ [.chr c%'}'] ++ r)
        = Tok.kw b%"SERVER" :: (t ++ .chr c%'{' :: (n ++ (ts ++ .chr c%'}' :: r))) := by simp
      rw [e]
      simp only [pItem]
      simp [pString_G hs (takeStrs_chr _ _), this]
  | types ms h => obtain ⟨o, rfl, e⟩ := pTypes_G h r; simp [pItem, e]

theorem item_start {o : Toks} {i : Item} (h : GItem o i) : StartKwStr o := by
  cases h with
  | incl s h => cases h; exact .inl ⟨_, _, rfl⟩
  | varset n v h => cases h; exact .inr ⟨_, _, rfl⟩
  | option ds h =>
    cases h with
    | log ts ds h => cases h <;> exact .inl ⟨_, _, rfl⟩
    | _ => exact .inl ⟨_, _, rfl⟩
  | vhost d h => cases h; exact .inl ⟨_, _, rfl⟩
  | types ms h => cases h; exact .inl ⟨_, _, rfl⟩

theorem gconf_body {ts : Toks} {is : List Item} (h : GConf ts is) : Body (One GItem) GNl ts is := by
  induction h with
  | empty => exact .nil
  | more ts o n is i _ ho hn ih => exact ih.snoc ⟨i, ho, rfl⟩ hn

/-- the tokens of a configuration: newlines, and lines -/
theorem grammar_parts {ts : Toks} {is : List Item} (h : Grammar ts is) : ∃ n c, ts = n ++ c ∧ GOptnl n ∧ GConf c is := by
  cases h with
  | nl n ts is hn h => exact ⟨n, ts, rfl, .nl _ hn, h⟩
  | conf ts is h => exact ⟨[], ts, rfl, .empty, h⟩

theorem pGrammar_G {ts : Toks} {is : List Item} (h : Grammar ts is) : pGrammar ts = some is := by
  obtain ⟨n, c, rfl, hn, h⟩ := grammar_parts h
  obtain ⟨h1, h2⟩ := pBodyLines_G (one_G (F := Fol) (fun o v r h hr => pItem_G h hr)) (fun o v ⟨d, h, _⟩ => item_start h) (gconf_body h) []
  have h3 : NotNl c := by
    intro t r' e
    exact h2 t (r' ++ [.chr c%'}']) (by rw [e]; rfl)
  unfold pGrammar
  rw [skipNl_append (goptnl_all hn) h3, h1]
  simp

theorem grammar_unique {ts : Toks} {a b : List Item} (ha : Grammar ts a) (hb : Grammar ts b) : a = b := by
  have h1 := pGrammar_G ha
  rw [pGrammar_G hb] at h1
  exact (Option.some.inj h1).symm

end Gmid
