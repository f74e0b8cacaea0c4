import Verif.Lemmas.Text
import Verif.Props.Grammar

/-!
# C104: a configuration says what is written in it
-/

set_option autoImplicit false

namespace Gmid.Props
open Gmid.Spec

/-- **C104.** Words, keywords, numbers, quoted strings and symbols, with any blanks and comments between them, are read as those tokens, in
that order, without an error, and then the end of the file, which is as good as a newline. -/
theorem C104_tokens (txt : Bytes) (ts : List Tok) (h : Text txt ts) (syms : List Sym) (n : Nat) (hn : ts.length + 2 ≤ n) :
    lexAll n (lexStart txt syms) = ts ++ [.chr c%'\n', .eof] :=
  text_eff h (lexStart txt syms) rfl (by simp [eff, lexStart, LFile.flat]) n hn

theorem lexAll_mono (n m : Nat) (l : Lex) (ts : List Tok) (h : lexAll n l = ts ++ [.eof]) (hnm : n ≤ m) : lexAll m l = ts ++ [.eof] := by
  induction n generalizing m l ts with
  | zero => simp [lexAll] at h
  | succ n ih =>
    obtain ⟨m, rfl⟩ : ∃ k, m = k + 1 := ⟨m - 1, by omega⟩
    rw [lexAll] at h ⊢
    split at h
    · exact h
    · rename_i t l1 e1 e2
      cases ts with
      | nil =>
        simp at h
        exact absurd h.1 e1
      | cons t' ts =>
        simp only [List.cons_append, List.cons.injEq] at h
        have := ih m l1 ts h.2 (by omega)
        simp [this, h.1]
    · simp at h

/-- **C104.** A file says one thing. -/
theorem C104_one_meaning (txt : Bytes) (a b : List Directive) (ha : Says txt a) (hb : Says txt b) : a = b := by
  obtain ⟨n, ts, is, h1, h2, h3⟩ := ha
  obtain ⟨m, ts', is', k1, k2, k3⟩ := hb
  have e1 := lexAll_mono n (max n m) _ _ h1 (by omega)
  have e2 := lexAll_mono m (max n m) _ _ k1 (by omega)
  rw [e1] at e2
  have := (List.append_inj' e2 rfl).1
  subst this
  rw [grammar_unique h2 k2] at h3
  rw [← h3, ← k3]

theorem gnl_snoc {n : Toks} (h : GNl n) : GNl (n ++ [.chr c%'\n']) := by
  refine all_gnl _ (by simp) ?_
  intro t ht
  rcases List.mem_append.1 ht with h' | h'
  · exact (gnl_all h).2 t h'
  · simp at h'; subst h'; decide

theorem grammar_snoc {ts : Toks} {is : List Item} (h : Grammar ts is) : Grammar (ts ++ [.chr c%'\n']) is := by
  cases h with
  | nl n ts _ hn h =>
    cases h with
    | empty => simpa using Grammar.nl (n ++ [.chr c%'\n']) [] [] (gnl_snoc hn) .empty
    | more ts o n' is i h ho hn' =>
      have := Grammar.nl n _ _ hn (.more ts o (n' ++ [.chr c%'\n']) is i h ho (gnl_snoc hn'))
      simpa using this
  | conf _ _ h =>
    cases h with
    | empty => simpa using Grammar.nl [.chr c%'\n'] [] [] gnl_newline .empty
    | more ts o n' is i h ho hn' =>
      have := Grammar.conf _ _ (.more ts o (n' ++ [.chr c%'\n']) is i h ho (gnl_snoc hn'))
      simpa using this

/-- **C104.** What a text says is what the grammar makes of the tokens that were written. -/
theorem C104_says (txt : Bytes) (ts : List Tok) (h : Text txt ts) (is : List Item) (hg : Grammar ts is) : Says txt (is.flatMap Item.directives) :=
  ⟨ts.length + 2, ts ++ [.chr c%'\n'], is, by rw [C104_tokens txt ts h [] _ (Nat.le_refl _)]; simp, grammar_snoc hg, rfl⟩

/-! ## Every directive can be written -/

/-- a token that can be written in front of a blank -/
def TokOk : Tok → Prop
  | .str s => WritableStr s
  | .num n => WritableInt n
  | .kw t => (keywords.any fun k => k.2 = t) = true
  | .chr c => c ∈ b%"{}=*;\n,()!"
  | _ => False

def ToksOk (ts : Toks) : Prop := ∀ t ∈ ts, TokOk t

theorem ok_nil : ToksOk [] := by simp [ToksOk]
theorem ok_cons {t : Tok} {ts : Toks} (h : TokOk t) (h' : ToksOk ts) : ToksOk (t :: ts) := by simpa [ToksOk] using ⟨h, h'⟩
theorem ok_append {a b : Toks} (ha : ToksOk a) (hb : ToksOk b) : ToksOk (a ++ b) := by
  intro t ht
  rcases List.mem_append.1 ht with h | h
  · exact ha t h
  · exact hb t h
theorem ok_str {s : Bytes} (h : WritableStr s) : ToksOk [.str s] := ok_cons h ok_nil
theorem ok_num {n : Int} (h : WritableInt n) : ToksOk [.num n] := ok_cons h ok_nil

theorem digits_exist (k n : Nat) (h : n < 10 ^ k) : ∃ ds : Bytes, ds.length = k ∧ (∀ c ∈ ds, Digit c) ∧ decValue ds = n := by
  induction k generalizing n with
  | zero => exact ⟨[], rfl, by simp, by simp at h; simp [decValue, h]⟩
  | succ k ih =>
    have hp : 0 < 10 ^ k := Nat.pow_pos (by omega)
    obtain ⟨ds, h1, h2, h3⟩ := ih (n % 10 ^ k) (Nat.mod_lt _ hp)
    have hq : n / 10 ^ k < 10 := (Nat.div_lt_iff_lt_mul hp).2 (by rw [Nat.pow_succ] at h; omega)
    have hb : (UInt8.ofNat (48 + n / 10 ^ k)).toNat = 48 + n / 10 ^ k := by
      rw [UInt8.toNat_ofNat']
      exact Nat.mod_eq_of_lt (by omega)
    refine ⟨UInt8.ofNat (48 + n / 10 ^ k) :: ds, by simp [h1], ?_, ?_⟩
    · intro c hc
      rcases List.mem_cons.1 hc with rfl | hc
      · unfold Digit
        have h48 : (48 : UInt8).toNat = 48 := rfl
        have h57 : (57 : UInt8).toNat = 57 := rfl
        constructor
        · rw [UInt8.le_iff_toNat_le, hb, h48]; exact Nat.le_add_right _ _
        · rw [UInt8.le_iff_toNat_le, hb, h57]; exact Nat.add_le_add_left (Nat.le_of_lt_succ hq) 48
      · exact h2 c hc
    · rw [decValue, hb, h1, h3]
      have := Nat.div_add_mod n (10 ^ k)
      rw [Nat.mul_comm] at this
      rw [Nat.add_sub_cancel_left]; exact this

theorem tok_written (t : Tok) (h : TokOk t) : ∃ w, Written w t c%' ' := by
  cases t with
  | str s => exact ⟨_, .quoted c%'"' _ s _ (.inr rfl) (inQuotes_escaped _ s h.1 h.2.1 (by decide)) h.2.2⟩
  | num n =>
    obtain ⟨h1, h2⟩ := h
    by_cases hn : 0 ≤ n
    · obtain ⟨ds, e1, e2, e3⟩ := digits_exist 10 n.toNat (by omega)
      have := Written.number ds c%' ' (by rintro rfl; simp at e1) e2 (by omega) (by omega) (by decide)
      rw [e3, Int.toNat_of_nonneg hn] at this
      exact ⟨_, this⟩
    · obtain ⟨ds, e1, e2, e3⟩ := digits_exist 10 (-n).toNat (by omega)
      have := Written.negative ds c%' ' (by rintro rfl; simp at e1) e2 (by omega) (by omega) (by decide)
      rw [e3, Int.toNat_of_nonneg (by omega), Int.neg_neg] at this
      exact ⟨_, this⟩
  | kw t =>
    simp only [TokOk, List.any_eq_true, decide_eq_true_eq] at h
    obtain ⟨⟨w, t'⟩, hk, rfl⟩ := h
    exact ⟨w, .keyword w _ _ hk (by decide)⟩
  | chr c => exact ⟨_, .symbol c _ h⟩
  | error => exact h.elim
  | eof => exact h.elim

theorem text_blank {txt : Bytes} {ts : List Tok} (h : Text txt ts) : Text (c%' ' :: txt) ts := by
  have hb : ∀ bs, Blank bs → Blank (c%' ' :: bs) := by
    intro bs h c hc
    rcases List.mem_cons.1 hc with rfl | hc
    · exact Or.inl rfl
    · exact h c hc
  cases h with
  | done _ h => exact .done _ (hb _ h)
  | tok bs w rest t ts h1 h2 h3 => exact .tok (c%' ' :: bs) w rest t ts (hb _ h1) h2 h3
  | comment bs c rest ts h1 h2 h3 => exact .comment (c%' ' :: bs) c rest ts (hb _ h1) h2 h3

theorem toks_text (ts : Toks) (h : ToksOk ts) : ∃ txt, Text txt ts := by
  induction ts with
  | nil => exact ⟨[], .done [] (by simp [Blank])⟩
  | cons t ts ih =>
    obtain ⟨txt, h1⟩ := ih (fun x hx => h x (by simp [hx]))
    obtain ⟨w, h2⟩ := tok_written t (h t (by simp))
    exact ⟨_, .tok [] w (c%' ' :: txt) t ts (by simp [Blank]) h2 (text_blank h1)⟩

theorem kw_ok (t : Bytes) (h : (keywords.any fun k => k.2 = t) = true := by decide +kernel) : TokOk (.kw t) := h
theorem chr_ok (c : UInt8) (h : c ∈ b%"{}=*;\n,()!" := by decide +kernel) : TokOk (.chr c) := h

theorem w_bool (b : Bool) : ∃ ts, GBool ts b ∧ ToksOk ts := by
  cases b
  · exact ⟨_, .off, ok_cons (kw_ok _) ok_nil⟩
  · exact ⟨_, .on, ok_cons (kw_ok _) ok_nil⟩

theorem w_locOpt (o : LocOpt) (h : WritableLocOpt o) : ∃ ts, GLocopt ts [o] ∧ ToksOk ts := by
  cases o with
  | autoIndex b => obtain ⟨u, hu, k⟩ := w_bool b; exact ⟨_, .autoIndex _ _ hu, ok_cons (kw_ok _) (ok_cons (kw_ok _) k)⟩
  | blockReturn n t => cases t with
    | none => exact ⟨_, .blockCode n, ok_cons (kw_ok _) (ok_cons (kw_ok _) (ok_num h.1))⟩
    | some s => exact ⟨_, .blockText n _ s (.one s), ok_cons (kw_ok _) (ok_cons (kw_ok _) (ok_cons h.1 (ok_str (h.2 s rfl))))⟩
  | block => exact ⟨_, .block, ok_cons (kw_ok _) ok_nil⟩
  | defaultType s => exact ⟨_, .defaultType _ _ (.one s), ok_cons (kw_ok _) (ok_cons (kw_ok _) (ok_str h))⟩
  | fcgiOff => exact ⟨_, .fastcgi _ _ .off, ok_cons (kw_ok _) (ok_cons (kw_ok _) ok_nil)⟩
  | fcgiParam n v =>
    exact ⟨_, .fastcgi _ _ (.one _ _ (.param _ _ _ _ (.one n) (.one v))),
      ok_cons (kw_ok _) (ok_cons (kw_ok _) (ok_append (ok_str h.1) (ok_cons (chr_ok _) (ok_str h.2))))⟩
  | fcgiSocket s p => cases p with
    | none => exact ⟨_, .fastcgi _ _ (.path _ _ (.one s)), ok_cons (kw_ok _) (ok_str h.1)⟩
    | some p =>
      exact ⟨_, .fastcgi _ _ (.one _ _ (.tcpStr _ _ _ _ (.one s) (.one p))),
        ok_cons (kw_ok _) (ok_cons (kw_ok _) (ok_cons (kw_ok _) (ok_append (ok_str h.1) (ok_cons (kw_ok _) (ok_str (h.2 p rfl))))))⟩
  | fcgiStrip n => exact ⟨_, .fastcgi _ _ (.one _ _ (.strip n)), ok_cons (kw_ok _) (ok_cons (kw_ok _) (ok_num h))⟩
  | index s => exact ⟨_, .index _ _ (.one s), ok_cons (kw_ok _) (ok_str h)⟩
  | lang s => exact ⟨_, .lang _ _ (.one s), ok_cons (kw_ok _) (ok_str h)⟩
  | log b => obtain ⟨u, hu, k⟩ := w_bool b; exact ⟨_, .log _ _ hu, ok_cons (kw_ok _) k⟩
  | requireCa s => exact ⟨_, .requireCa _ _ (.one s), ok_cons (kw_ok _) (ok_cons (kw_ok _) (ok_cons (kw_ok _) (ok_str h)))⟩
  | root s => exact ⟨_, .root _ _ (.one s), ok_cons (kw_ok _) (ok_str h)⟩
  | strip n => exact ⟨_, .strip n, ok_cons (kw_ok _) (ok_num h)⟩

theorem w_locOpts (os : List LocOpt) (h : ∀ o ∈ os, WritableLocOpt o) : ∃ ts, GLocopts ts os ∧ ToksOk ts := by
  have : ∃ ts, Body GLocopt GOptnl ts os ∧ ToksOk ts := by
    induction os with
    | nil => exact ⟨_, .nil, ok_nil⟩
    | cons o os ih =>
      obtain ⟨t, h1, h2⟩ := ih (fun x hx => h x (by simp [hx]))
      obtain ⟨o', h3, h4⟩ := w_locOpt o (h o (by simp))
      exact ⟨_, .cons _ _ _ _ _ h3 .empty h1, ok_append (ok_append h4 ok_nil) h2⟩
  obtain ⟨ts, h1, h2⟩ := this
  exact ⟨ts, by simpa using body_locopts h1 [] [] .empty, h2⟩

theorem w_port (p : PortArg) (h : WritablePort p) : ∃ ts, GProxyPort ts p ∧ ToksOk ts := by
  cases p with
  | none => exact ⟨_, .empty, ok_nil⟩
  | name s => exact ⟨_, .str s, ok_cons (kw_ok _) (ok_str h)⟩
  | num n => exact ⟨_, .num n, ok_cons (kw_ok _) (ok_num h)⟩

theorem w_proxyMatches (os : List ProxyMatch) (h : ∀ o ∈ os, WritableProxyMatch o) : ∃ ts, GProxyMatches ts os ∧ ToksOk ts := by
  have : ∃ ts, Body (One GProxyMatch) (fun n => n = []) ts os ∧ ToksOk ts := by
    induction os with
    | nil => exact ⟨_, .nil, ok_nil⟩
    | cons o os ih =>
      obtain ⟨t, h1, h2⟩ := ih (fun x hx => h x (by simp [hx]))
      have ho := h o (by simp)
      have : ∃ o', GProxyMatch o' o ∧ ToksOk o' := by
        cases o with
        | proto s => exact ⟨_, .proto _ _ (.one s), ok_cons (kw_ok _) (ok_str ho)⟩
        | forHost s p =>
          obtain ⟨u, hu, k⟩ := w_port p ho.2
          exact ⟨_, .forHost _ _ _ _ (.one s) hu, ok_cons (kw_ok _) (ok_append (ok_str ho.1) k)⟩
      obtain ⟨o', h3, h4⟩ := this
      exact ⟨_, .cons _ _ _ [o] _ ⟨o, h3, rfl⟩ rfl h1, ok_append (ok_append h4 ok_nil) h2⟩
  obtain ⟨ts, h1, h2⟩ := this
  exact ⟨ts, by simpa using body_proxyMatches h1 [] [] .empty, h2⟩

theorem w_proxyOpts (os : List ProxyOpt) (h : ∀ o ∈ os, WritableProxyOpt o) : ∃ ts, GProxyOpts ts os ∧ ToksOk ts := by
  have : ∃ ts, Body (One GProxyOpt) GOptnl ts os ∧ ToksOk ts := by
    induction os with
    | nil => exact ⟨_, .nil, ok_nil⟩
    | cons o os ih =>
      obtain ⟨t, h1, h2⟩ := ih (fun x hx => h x (by simp [hx]))
      have ho := h o (by simp)
      have : ∃ o', GProxyOpt o' o ∧ ToksOk o' := by
        cases o with
        | cert s => exact ⟨_, .cert _ _ (.one s), ok_cons (kw_ok _) (ok_str ho)⟩
        | key s => exact ⟨_, .key _ _ (.one s), ok_cons (kw_ok _) (ok_str ho)⟩
        | protocols s => exact ⟨_, .protocols _ _ (.one s), ok_cons (kw_ok _) (ok_str ho)⟩
        | proxyV1 => exact ⟨_, .proxyV1, ok_cons (kw_ok _) ok_nil⟩
        | relayTo s p =>
          obtain ⟨u, hu, k⟩ := w_port p ho.2
          exact ⟨_, .relayTo _ _ _ _ (.one s) hu, ok_cons (kw_ok _) (ok_append (ok_str ho.1) k)⟩
        | requireCa s => exact ⟨_, .requireCa _ _ (.one s), ok_cons (kw_ok _) (ok_cons (kw_ok _) (ok_cons (kw_ok _) (ok_str ho)))⟩
        | sni s => exact ⟨_, .sni _ _ (.one s), ok_cons (kw_ok _) (ok_str ho)⟩
        | useTls b => obtain ⟨u, hu, k⟩ := w_bool b; exact ⟨_, .useTls _ _ hu, ok_cons (kw_ok _) k⟩
        | verifyName b => obtain ⟨u, hu, k⟩ := w_bool b; exact ⟨_, .verifyName _ _ hu, ok_cons (kw_ok _) k⟩
      obtain ⟨o', h3, h4⟩ := this
      exact ⟨_, .cons _ _ _ [o] _ ⟨o, h3, rfl⟩ .empty h1, ok_append (ok_append h4 ok_nil) h2⟩
  obtain ⟨ts, h1, h2⟩ := this
  exact ⟨ts, by simpa using body_proxyOpts h1 [] [] .empty, h2⟩

theorem w_addr (a : Option Bytes) (h : ∀ s, a = some s → WritableStr s) : ∃ ts, GListenAddr ts a ∧ ToksOk ts := by
  cases a with
  | none => exact ⟨_, .any, ok_cons (chr_ok _) ok_nil⟩
  | some s => exact ⟨_, .str s, ok_str (h s rfl)⟩

theorem w_servbody (os : List SrvOpt) (h : ∀ o ∈ os, WritableSrvOpt o) : ∃ ts, GServbody ts os ∧ ToksOk ts := by
  have : ∃ ts, Body GServ GOptnl ts os ∧ ToksOk ts := by
    induction os with
    | nil => exact ⟨_, .nil, ok_nil⟩
    | cons o os ih =>
      obtain ⟨t, h1, h2⟩ := ih (fun x hx => h x (by simp [hx]))
      have ho := h o (by simp)
      have : ∃ o', GServ o' [o] ∧ ToksOk o' := by
        cases o with
        | alias s => exact ⟨_, .inl (.alias _ _ (.one s)), ok_cons (kw_ok _) (ok_str ho)⟩
        | cert s => exact ⟨_, .inl (.cert _ _ (.one s)), ok_cons (kw_ok _) (ok_str ho)⟩
        | cgi s => exact ⟨_, .inl (.cgi _ _ (.one s)), ok_cons (kw_ok _) (ok_str ho)⟩
        | key s => exact ⟨_, .inl (.key _ _ (.one s)), ok_cons (kw_ok _) (ok_str ho)⟩
        | ocsp s => exact ⟨_, .inl (.ocsp _ _ (.one s)), ok_cons (kw_ok _) (ok_str ho)⟩
        | listen a p v =>
          obtain ⟨u, hu, k⟩ := w_addr a ho.1
          cases v
          · exact ⟨_, .inl (.listenStr _ _ p hu), ok_cons (kw_ok _) (ok_cons (kw_ok _) (ok_append k (ok_cons (kw_ok _) (ok_str ho.2))))⟩
          · exact ⟨_, .inl (.listenStrV1 _ _ p hu),
              ok_cons (kw_ok _) (ok_cons (kw_ok _) (ok_append k (ok_cons (kw_ok _) (ok_cons ho.2 (ok_cons (kw_ok _) ok_nil)))))⟩
        | opt o => obtain ⟨u, hu, k⟩ := w_locOpt o ho; exact ⟨_, .inl (.locopt _ _ hu), k⟩
        | location p os =>
          obtain ⟨u, hu, k⟩ := w_locOpts os ho.2
          exact ⟨_, .inr (.inl ⟨_, .mk _ _ _ _ _ (.one p) .empty hu, rfl⟩),
            ok_append (ok_append (ok_append (ok_append (ok_cons (kw_ok _) (ok_str ho.1)) (ok_cons (chr_ok _) ok_nil)) ok_nil) k) (ok_cons (chr_ok _) ok_nil)⟩
        | proxy ms os =>
          obtain ⟨u, hu, k⟩ := w_proxyMatches ms ho.1
          obtain ⟨w, hw, k'⟩ := w_proxyOpts os ho.2
          exact ⟨_, .inr (.inr ⟨_, .mk _ _ _ _ _ hu .empty hw, rfl⟩),
            ok_append (ok_append (ok_append (ok_append (ok_cons (kw_ok _) k) (ok_cons (chr_ok _) ok_nil)) ok_nil) k') (ok_cons (chr_ok _) ok_nil)⟩
      obtain ⟨o', h3, h4⟩ := this
      exact ⟨_, .cons _ _ _ [o] _ h3 .empty h1, ok_append (ok_append h4 ok_nil) h2⟩
  obtain ⟨ts, h1, h2⟩ := this
  exact ⟨ts, by simpa using body_servbody h1 [] [] .empty, h2⟩

theorem w_names : ∀ (ns : List Bytes), ns ≠ [] → (∀ s ∈ ns, WritableStr s) → ∃ ts, GMedianames ts ns ∧ ToksOk ts := by
  intro ns h hs
  cases ns with
  | nil => exact absurd rfl h
  | cons n ns =>
    have : ∀ (ns : List Bytes) (o : Toks) (a : List Bytes), (∀ s ∈ ns, WritableStr s) → GMedianames o a → ToksOk o → ∃ ts, GMedianames ts (a ++ ns) ∧ ToksOk ts := by
      intro ns
      induction ns with
      | nil => intro o a _ h k; exact ⟨o, by simpa using h, k⟩
      | cons m ns ih =>
        intro o a hs h k
        obtain ⟨t, ht, k'⟩ := ih _ _ (fun x hx => hs x (by simp [hx])) (.more _ _ _ _ h (.str m)) (ok_append k (ok_str (hs m (by simp))))
        exact ⟨t, by simpa using ht, k'⟩
    exact this ns _ [n] (fun x hx => hs x (by simp [hx])) (.one _ _ (.str n)) (ok_str (hs n (by simp)))

theorem w_types (l : List (Bytes × List Bytes)) (h0 : l ≠ []) (h : ∀ x ∈ l, WritableStr x.1 ∧ x.2 ≠ [] ∧ ∀ s ∈ x.2, WritableStr s) :
    ∃ ts, GTypes ts (l.map fun x => Media.names x.1 x.2) ∧ ToksOk ts := by
  have : ∃ ts, Body (One GMediaoptsl) GNl ts (l.map fun x => Media.names x.1 x.2) ∧ ToksOk ts := by
    clear h0
    induction l with
    | nil => exact ⟨_, .nil, ok_nil⟩
    | cons x l ih =>
      obtain ⟨t, ht, k⟩ := ih (fun y hy => h y (by simp [hy]))
      have hx := h x (by simp)
      obtain ⟨u, hu, k'⟩ := w_names x.2 hx.2.1 hx.2.2
      exact ⟨_, .cons _ _ _ [_] _ ⟨_, .names x.1 _ _ hu, rfl⟩ gnl_newline ht,
        ok_append (ok_append (ok_cons hx.1 k') (ok_cons (chr_ok _) ok_nil)) k⟩
  obtain ⟨ts, hb, k⟩ := this
  exact ⟨_, .mk [] _ _ .empty ((body_mediaopts hb).2 (by simpa using h0)),
    ok_append (ok_append (ok_append (ok_cons (kw_ok _) (ok_cons (chr_ok _) ok_nil)) ok_nil) k) (ok_cons (chr_ok _) ok_nil)⟩

theorem w_directive (d : Directive) (h : WritableDirective d) : ∃ ts i, GItem ts i ∧ i.directives = [d] ∧ ToksOk ts := by
  cases d with
  | chroot s => exact ⟨_, _, .option _ _ (.chroot _ _ (.one s)), rfl, ok_cons (kw_ok _) (ok_str h)⟩
  | ipv6 b => obtain ⟨u, hu, k⟩ := w_bool b; exact ⟨_, _, .option _ _ (.ipv6 _ _ hu), rfl, ok_cons (kw_ok _) k⟩
  | port n => exact ⟨_, _, .option _ _ (.port n), rfl, ok_cons (kw_ok _) (ok_num h)⟩
  | prefork n => exact ⟨_, _, .option _ _ (.prefork n), rfl, ok_cons (kw_ok _) (ok_num h)⟩
  | protocols s => exact ⟨_, _, .option _ _ (.protocols _ _ (.one s)), rfl, ok_cons (kw_ok _) (ok_str h)⟩
  | user s => exact ⟨_, _, .option _ _ (.user _ _ (.one s)), rfl, ok_cons (kw_ok _) (ok_str h)⟩
  | logAccess s => exact ⟨_, _, .option _ _ (.log _ _ (.one _ _ (.access _ _ (.one s)))), rfl, ok_cons (kw_ok _) (ok_cons (kw_ok _) (ok_str h))⟩
  | logStyle s => exact ⟨_, _, .option _ _ (.log _ _ (.one _ _ (.style _ _ (.one s)))), rfl, ok_cons (kw_ok _) (ok_cons (kw_ok _) (ok_str h))⟩
  | syslogFacility s =>
    exact ⟨_, _, .option _ _ (.log _ _ (.one _ _ (.facility _ _ (.one s)))), rfl, ok_cons (kw_ok _) (ok_cons (kw_ok _) (ok_cons (kw_ok _) (ok_str h)))⟩
  | syslogOff => exact ⟨_, _, .option _ _ (.log _ _ (.one _ _ .syslogOff)), rfl, ok_cons (kw_ok _) (ok_cons (kw_ok _) (ok_cons (kw_ok _) ok_nil))⟩
  | syslog => exact ⟨_, _, .option _ _ (.log _ _ (.one _ _ .syslog)), rfl, ok_cons (kw_ok _) (ok_cons (kw_ok _) ok_nil)⟩
  | server s b =>
    obtain ⟨u, hu, k⟩ := w_servbody b h.2
    exact ⟨_, _, .vhost _ _ (.mk _ _ _ _ _ (.one s) .empty hu), rfl,
      ok_append (ok_append (ok_append (ok_append (ok_cons (kw_ok _) (ok_str h.1)) (ok_cons (chr_ok _) ok_nil)) ok_nil) k) (ok_cons (chr_ok _) ok_nil)⟩
  | types l =>
    obtain ⟨u, hu, k⟩ := w_types l h.1 h.2
    refine ⟨_, _, .types _ _ hu, ?_, k⟩
    simp only [Item.directives, List.filterMap_map]
    congr 2
    clear h hu k u
    induction l with
    | nil => rfl
    | cons x l ih => simp [ih]

/-- **C104.** Every configuration whose strings fit between quotes can be written down, and is read back as it was. -/
theorem C104_written (ds : List Directive) (h : ∀ d ∈ ds, WritableDirective d) : ∃ txt, Says txt ds ∧ ∀ ds', Says txt ds' → ds' = ds := by
  have : ∃ ts is, Body (One GItem) GNl ts is ∧ is.flatMap Item.directives = ds ∧ ToksOk ts := by
    induction ds with
    | nil => exact ⟨_, _, .nil, rfl, ok_nil⟩
    | cons d ds ih =>
      obtain ⟨t, is, h1, h2, k1⟩ := ih (fun x hx => h x (by simp [hx]))
      obtain ⟨o, i, h3, h4, k2⟩ := w_directive d (h d (by simp))
      exact ⟨_, _, .cons _ _ _ [i] _ ⟨i, h3, rfl⟩ gnl_newline h1, by simp [h2, h4], ok_append (ok_append k2 (ok_cons (chr_ok _) ok_nil)) k1⟩
  obtain ⟨ts, is, h1, h2, k⟩ := this
  obtain ⟨txt, ht⟩ := toks_text ts k
  have := C104_says txt ts ht is (.conf _ _ (by simpa using body_conf h1 [] [] .empty))
  rw [h2] at this
  exact ⟨txt, this, fun ds' h' => C104_one_meaning txt ds' ds h' this⟩

/-! ## A number before a semicolon -/

/-- **C104, what it leaves out.** A semicolon is not as good as a newline after a number: the digits before it are a string. -/
theorem C104_semicolon (ds : Bytes) (h0 : ds ≠ []) (hd : ∀ c ∈ ds, Digit c) (hl : ds.length ≤ 8094) (rest : Bytes) (ts : List Tok) (h : Text rest ts) :
    Text (ds ++ c%';' :: rest) (.str ds :: .chr c%';' :: ts) := by
  have hs : Text (c%';' :: rest) (.chr c%';' :: ts) := .tok [] [c%';'] rest _ _ (by simp [Blank]) (.symbol _ _ (by decide)) h
  cases ds with
  | nil => exact absurd rfl h0
  | cons c w =>
    have hc := hd c (by simp)
    refine .tok [] (c :: w) (c%';' :: rest) _ _ (by simp [Blank]) (.word c w _ (digit_ok c hc).2.2.2 ?_ (by simp at hl; omega)
      (by show EndsWord c%';'; decide) ?_ ?_) hs
    · intro d hd'
      have := forall_byte_of_all (p := fun c => decide (Digit c → WordChar c)) (by decide +kernel) d
      exact (of_decide_eq_true this) (hd d (by simp [hd']))
    · intro t ht
      obtain ⟨c', w', e, _, h2, _⟩ := keyword_shape _ ht
      simp at e
      exact h2 (by rw [← e.1]; exact hc)
    · -- the first character that is not a digit is the semicolon
      intro xs d r e _ hx hnd
      have : d ∈ c :: w ++ [c%';'] := by
        have : d ∈ xs ++ d :: r := by simp
        rw [← e] at this; exact this
      rcases List.mem_append.1 this with h' | h'
      · exact absurd (hd d h') hnd
      · simp only [List.mem_singleton] at h'
        subst h'; decide

/-- so `port 1965;` is an error, and `port 1965 ;` is not -/
theorem C104_port_semicolon : (¬ ∃ ds, Says b%"port 1965;" ds) ∧ Says b%"port 1965 ;" [.port 1965] := by
  have e : lexAll 6 (lexStart b%"port 1965;" []) = [.kw b%"PORT", .str b%"1965", .chr c%';', .chr c%'\n'] ++ [.eof] := by decide +kernel
  refine ⟨?_, 6, [.kw b%"PORT", .num 1965, .chr c%';', .chr c%'\n'], [.option [.port 1965]], by decide +kernel, pGrammar_iff.1 (by decide +kernel), rfl⟩
  rintro ⟨ds, n, ts, is, h1, h2, _⟩
  have e1 := lexAll_mono n (max n 6) _ _ h1 (by omega)
  have e2 := lexAll_mono 6 (max n 6) _ _ e (by omega)
  rw [e1] at e2
  have := (List.append_inj' e2 rfl).1
  subst this
  have hp := pGrammar_iff.2 h2
  revert hp
  have : pGrammar [.kw b%"PORT", .str b%"1965", .chr c%';', .chr c%'\n'] = none := by decide +kernel
  rw [this]; simp

/-! ## Examples -/

/-- a configuration with a comment, an address, a number before a brace that ends it, and quotes -/
def exConf : Bytes := b%"prefork 3 # three\nserver \"a b\" {\n\tlisten on 127.0.0.1 port 1966\n\tfastcgi strip 1}\n"

example : Text b%"listen on 127.0.0.1" [.kw b%"LISTEN", .kw b%"ON", .str b%"127.0.0.1"] := by
  refine .tok [] b%"listen" b%" on 127.0.0.1" _ _ (by simp [Blank]) (.keyword _ _ _ (by decide +kernel) (by decide)) ?_
  refine .tok b%" " b%"on" b%" 127.0.0.1" _ _ (by simp [Blank]) (.keyword _ _ _ (by decide +kernel) (by decide)) ?_
  refine .tok b%" " b%"127.0.0.1" [] _ _ (by simp [Blank]) (.word _ _ _ (by decide) (by decide +kernel) (by decide) (by decide) ?_ ?_) (.done [] (by simp [Blank]))
  · intro t ht
    obtain ⟨c', w', e, _, h2, _⟩ := keyword_shape _ ht
    simp at e
    exact h2 (by rw [← e.1]; decide)
  · intro ds d r e h0 hd hnd
    rcases ds with _ | ⟨a, _ | ⟨b, _ | ⟨c, _ | ⟨x, ds⟩⟩⟩⟩
    · exact absurd rfl h0
    · simp at e; exact absurd (by rw [← e.2.1]; decide) hnd
    · simp at e; exact absurd (by rw [← e.2.2.1]; decide) hnd
    · simp at e; rw [← e.2.2.2.1]; decide
    · simp at e; exact absurd (hd x (by simp)) (by rw [← e.2.2.2.1]; decide)

example : Says exConf [.prefork 3, .server b%"a b" [.listen (some b%"127.0.0.1") b%"1966" false, .opt (.fcgiStrip 1)]] :=
  ⟨60, (lexAll 60 (lexStart exConf [])).dropLast,
    [.option [.prefork 3], .vhost (.server b%"a b" [.listen (some b%"127.0.0.1") b%"1966" false, .opt (.fcgiStrip 1)])],
    by decide +kernel, pGrammar_iff.1 (by decide +kernel), rfl⟩

example : WritableDirective (.server b%"a\\b \"c\"" [.listen none b%"1965" true, .location b%"/*" [.blockReturn (-1) (some b%"%p")], .proxy [.forHost b%"h" (.num 70)] [.proxyV1]]) := by
  simp [WritableDirective, WritableSrvOpt, WritableLocOpt, WritableProxyMatch, WritableProxyOpt, WritablePort, WritableInt, WritableStr, Quotable]

end Gmid.Props
