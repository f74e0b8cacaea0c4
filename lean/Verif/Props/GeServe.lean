import Verif.Spec.GeServe
import Verif.Props.TlsName

/-!
# C124: gemexp listens on every address it can
-/

set_option autoImplicit false

namespace Gmid.Props
open Gmid Gmid.Spec

/-- the list from `p` on: where each is, and what it has -/
inductive ChainA (mem : Nat → Option ANode) : Nat → List (Nat × AddrInfo × Int) → Prop where
  | nil : ChainA mem 0 []
  | cons (p : Nat) (n : ANode) (r : List (Nat × AddrInfo × Int)) : p ≠ 0 → mem p = some n → ChainA mem n.next r → ChainA mem p ((p, n.ai, n.sock) :: r)

theorem chain_frame (mem mem' : Nat → Option ANode) (p : Nat) (l : List (Nat × AddrInfo × Int)) (h : ChainA mem p l)
    (hm : ∀ q, q ∈ l.map (·.1) → mem' q = mem q) : ChainA mem' p l := by
  induction h with
  | nil => exact .nil
  | cons p n r h1 h2 h3 ih =>
    refine .cons p n r h1 ?_ (ih (fun q hq => hm q (List.mem_cons_of_mem _ hq)))
    rw [hm p (by simp)]; exact h2

theorem chain_walk (mem : Nat → Option ANode) (p : Nat) (l : List (Nat × AddrInfo × Int)) (h : ChainA mem p l) :
    ∃ ns : List ANode, ns.length = l.length ∧ ns.map (fun n => (n.ai, n.sock)) = l.map (·.2) ∧ ∀ fuel, l.length ≤ fuel → walkAddrs mem fuel p = .ok ns := by
  induction h with
  | nil => exact ⟨[], rfl, rfl, fun fuel _ => by cases fuel <;> rfl⟩
  | cons p n r h1 h2 h3 ih =>
    obtain ⟨ns, k1, k2, k3⟩ := ih
    refine ⟨n :: ns, by simp [k1], by simp [k2], ?_⟩
    intro fuel hf
    cases fuel with
    | zero => simp at hf
    | succ f =>
      rw [walkAddrs, if_neg h1, h2]
      simp only
      rw [k3 f (by simpa using hf)]

theorem chain_head (mem : Nat → Option ANode) (p : Nat) (l : List (Nat × AddrInfo × Int)) (h : ChainA mem p l) (hp : p ≠ 0) : ∃ n, mem p = some n ∧ p ∈ l.map (·.1) := by
  cases h with
  | nil => exact absurd rfl hp
  | cons => rename_i n r h0 h1 h2; exact ⟨n, by assumption, by simp⟩

/-- one insertion of something new -/
theorem insert_ok (mem : Nat → Option ANode) (p q : Nat) (n : ANode) (l : List (Nat × AddrInfo × Int)) (h : ChainA mem p l) (hq : mem q = some n) (hn : q ∉ l.map (·.1)) :
    insertHead mem p q = .ok (fun x => if x = q then some { n with next := p } else mem x, q) := by
  unfold insertHead
  rw [hq]
  simp only
  by_cases hp : p ≠ 0
  · rw [if_pos hp]
    obtain ⟨m, h1, h2⟩ := chain_head mem p l h hp
    have hpq : p ≠ q := fun e => hn (e ▸ h2)
    rw [if_neg hpq, h1]
  · rw [if_neg hp]

/-- both lists are the same chain -/
def GeInv (s : GeLists) (l : List (Nat × AddrInfo × Int)) : Prop := s.host = s.conf ∧ ChainA s.mem s.conf l

theorem bindOne_ok (ai : AddrInfo) (fd : Int) (p : Nat) (s : GeLists) (l : List (Nat × AddrInfo × Int)) (h : GeInv s l) (hp : p ≠ 0) (hn : p ∉ l.map (·.1)) :
    ∃ s', geBindOne ai (.bound fd p) s = .go (.ok (s', true)) ∧ GeInv s' ((p, ai, fd) :: l) := by
  obtain ⟨h1, h2⟩ := h
  have hc1 : ChainA (fun q => if q = p then some { ai := ai, sock := fd, next := 0 } else s.mem q) s.conf l :=
    chain_frame _ _ _ _ h2 (fun q hq => by rw [if_neg (show q ≠ p from fun e => hn (e ▸ hq))])
  have i1 := insert_ok _ s.conf p { ai := ai, sock := fd, next := 0 } l hc1 (by simp) hn
  have hc2 : ChainA (fun x => if x = p then some { ai := ai, sock := fd, next := s.conf } else
      (fun q => if q = p then some { ai := ai, sock := fd, next := 0 } else s.mem q) x) s.host l := by
    rw [h1]
    exact chain_frame _ _ _ _ hc1 (fun q hq => by simp only; rw [if_neg (show q ≠ p from fun e => hn (e ▸ hq))])
  have i2 := insert_ok _ s.host p { ai := ai, sock := fd, next := s.conf } l hc2 (by simp) hn
  unfold geBindOne
  simp only
  rw [i1]
  simp only
  rw [i2]
  refine ⟨_, rfl, rfl, ?_⟩
  refine .cons p { ai := ai, sock := fd, next := s.host } l hp (by simp) ?_
  exact chain_frame _ _ _ _ hc2 (fun q hq => by simp only; rw [if_neg (show q ≠ p from fun e => hn (e ▸ hq))])

/-- the loop, from any state -/
theorem bindAll_ok (l : List (AddrInfo × GeBind)) (any : Bool) (s : GeLists) (done : List (Nat × AddrInfo × Int)) (h : GeInv s done) (ha : Apart l)
    (hd : ∀ p ∈ placedAt l, p ∉ done.map (·.1)) :
    (NoListen l → geBindAll l any s = .exit 1) ∧
    (¬ NoListen l → ∃ s' done', geBindAll l any s = .go (.ok (s', any || !(boundTo l).isEmpty)) ∧ GeInv s' done' ∧
      done'.map (·.2) = (boundTo l).reverse ++ done.map (·.2)) := by
  induction l generalizing any s done with
  | nil =>
    refine ⟨fun ⟨_, h⟩ => by (cases h), fun _ => ⟨s, done, by simp [geBindAll, boundTo], h, by simp [boundTo]⟩⟩
  | cons x l ih =>
    obtain ⟨ai, b⟩ := x
    cases b with
    | noSocket =>
      have := ih any s done h ha hd
      have hs : NoListen ((ai, .noSocket) :: l) ↔ NoListen l := by simp [NoListen]
      rw [hs]
      have e : geBindAll ((ai, .noSocket) :: l) any s = geBindAll l any s := by rw [geBindAll]; simp [geBindOne]
      rw [e]; exact this
    | noBind =>
      have := ih any s done h ha hd
      have hs : NoListen ((ai, .noBind) :: l) ↔ NoListen l := by simp [NoListen]
      rw [hs]
      have e : geBindAll ((ai, .noBind) :: l) any s = geBindAll l any s := by rw [geBindAll]; simp [geBindOne]
      rw [e]; exact this
    | noListen =>
      refine ⟨fun _ => by rw [geBindAll]; simp [geBindOne], fun h => absurd ⟨ai, by simp⟩ h⟩
    | bound fd p =>
      have hp : p ≠ 0 := fun e => ha.2 (by simp [placedAt, e])
      have hn : p ∉ done.map (·.1) := hd p (by simp [placedAt])
      obtain ⟨s1, h1, h2⟩ := bindOne_ok ai fd p s done h hp hn
      have ha1 : (p :: placedAt l).Nodup := ha.1
      rw [List.nodup_cons] at ha1
      have := ih true s1 ((p, ai, fd) :: done) h2 ⟨ha1.2, fun h => ha.2 (by simp [placedAt, h])⟩ (by
        intro q hq
        simp only [List.map_cons, List.mem_cons, not_or]
        exact ⟨fun e => ha1.1 (e ▸ hq), hd q (by simp [placedAt, hq])⟩)
      have hs : NoListen ((ai, .bound fd p) :: l) ↔ NoListen l := by simp [NoListen]
      rw [hs]
      have e : geBindAll ((ai, .bound fd p) :: l) any s = geBindAll l true s1 := by rw [geBindAll, h1]; simp
      rw [e]
      refine ⟨this.1, fun h => ?_⟩
      obtain ⟨s', d', k1, k2, k3⟩ := this.2 h
      refine ⟨s', d', ?_, k2, ?_⟩
      · rw [k1]; simp [boundTo]
      · rw [k3]; simp [boundTo]

/-- **C124** gemexp listens on every address of its name that can be bound, and on no other: the configuration and its host have all of them, the one that was bound last first.
It gives up when the name cannot be resolved, when listen(2) fails, and when no address can be bound, and only then. -/
theorem C124_listens (l : List (AddrInfo × GeBind)) (ha : Apart l) :
    geServe none = .exit 1 ∧
    (NoListen l ∨ boundTo l = [] → geServe (some l) = .exit 1) ∧
    (¬ NoListen l → boundTo l ≠ [] → ∃ s, geServe (some l) = .go (.ok s) ∧ BothAre s (boundTo l).reverse) := by
  obtain ⟨h1, h2⟩ := bindAll_ok l false {} [] ⟨rfl, .nil⟩ ha (by simp)
  refine ⟨rfl, ?_, ?_⟩
  · intro h
    by_cases hn : NoListen l
    · unfold geServe; simp only; rw [h1 hn]
    · obtain ⟨s, d, k1, _, _⟩ := h2 hn
      unfold geServe; simp only; rw [k1, h.resolve_left hn]; rfl
  · intro hn hb
    obtain ⟨s, d, k1, ⟨k2, k3⟩, k4⟩ := h2 hn
    refine ⟨s, ?_, ?_⟩
    · unfold geServe; simp only; rw [k1]
      cases hx : boundTo l with
      | nil => exact absurd hx hb
      | cons a r => rfl
    · obtain ⟨ns, j1, j2, j3⟩ := chain_walk _ _ _ k3
      refine ⟨ns, fun fuel hf => ⟨j3 fuel (by omega), by rw [k2]; exact j3 fuel (by omega)⟩, ?_⟩
      rw [j2, k4]; simp

/-- **C124** and the one certificate of gemexp is offered on each of them, whatever name the client asks for. -/
theorem C124_certificate (l : List (AddrInfo × GeBind)) (kp : KP) (v : Vhost) (inet : Bytes → Option Bytes) (sni : Option Bytes) (hp : ProperCert kp.names)
    (ai : AddrInfo) (fd : Int) (hai : (ai, fd) ∈ boundTo l) :
    offered inet (setupTls ai [{ addrs := (boundTo l).reverse.map (·.1), kp := kp, v := v }]) sni = some (some kp) := by
  obtain ⟨k, h1, ⟨h, h2, h3, h4⟩, -⟩ := C98_offered inet ai [{ addrs := (boundTo l).reverse.map (·.1), kp := kp, v := v }]
    ⟨_, List.mem_singleton.2 rfl, by simp only [List.mem_map, List.mem_reverse]; exact ⟨_, hai, rfl⟩⟩ (by simpa using hp) sni
  rw [List.mem_singleton] at h2
  subst h2
  rw [h1, ← h4]

/-- two addresses of a name, of which one is in use, and a third without socket -/
def exGeAddrs : List (AddrInfo × GeBind) :=
  [(⟨1, 10, 1, 6, b%"::"⟩, .bound 5 0x1000), (⟨1, 2, 1, 6, b%"0.0.0.0"⟩, .noBind), (⟨1, 99, 1, 6, b%"x"⟩, .noSocket), (⟨1, 2, 1, 6, b%"127.0.0.1"⟩, .bound 6 0x2000)]

example : Apart exGeAddrs ∧ ¬ NoListen exGeAddrs ∧ boundTo exGeAddrs ≠ [] :=
  ⟨⟨by decide, by decide⟩, by simp [NoListen, exGeAddrs], by decide⟩
example : (match geServe (some exGeAddrs) with
    | .go (.ok s) => (walkAddrs s.mem 5 s.conf, walkAddrs s.mem 5 s.host)
    | _ => (.err, .err)) =
    (.ok [⟨⟨1, 2, 1, 6, b%"127.0.0.1"⟩, 6, 0x1000⟩, ⟨⟨1, 10, 1, 6, b%"::"⟩, 5, 0⟩], .ok [⟨⟨1, 2, 1, 6, b%"127.0.0.1"⟩, 6, 0x1000⟩, ⟨⟨1, 10, 1, 6, b%"::"⟩, 5, 0⟩]) := by
  decide +kernel
example : geServe (some [(⟨1, 2, 1, 6, b%"0.0.0.0"⟩, .noBind)]) = .exit 1 := by rfl

end Gmid.Props
