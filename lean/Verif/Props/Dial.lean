import Verif.Model.Dial
import Verif.Spec.Dial
import Verif.Model.Parse

/-!
# C103: connections to upstream servers
-/

set_option autoImplicit false

namespace Gmid.Props

open Spec

variable {α : Type}

theorem socket_cases (t : Socks α) (o : Option Nat) :
    (t.socket o = (t, none) ∧ ¬ ∃ n, o = some n ∧ t n = none) ∨
      ∃ n, o = some n ∧ t n = none ∧ t.socket o = (fun x => if x = n then some none else t x, some n) := by
  unfold Socks.socket
  cases o with
  | none => left; simp
  | some n =>
    cases h : t n with
    | none => right; exact ⟨n, rfl, h, by simp [h]⟩
    | some v => left; simp [h]

theorem close_socket (t : Socks α) (n : Nat) (h : t n = none) : Socks.close (fun x => if x = n then some none else t x) n = t := by
  funext x
  unfold Socks.close
  by_cases hx : x = n
  · subst hx; simp [h]
  · simp [hx]

theorem connect_socket (t : Socks α) (n : Nat) (a : α) :
    Socks.connect (fun x => if x = n then some none else t x) n a = fun x => if x = n then some (some a) else t x := by
  funext x
  unfold Socks.connect
  by_cases hx : x = n <;> simp [hx]

theorem fr_skip {t t' : Socks α} {l : List (Attempt α)} {r : Option Nat} (a : Attempt α) (ha : ¬ Reachable t a)
    (h : FirstReachable t l t' r) : FirstReachable t (a :: l) t' r := by
  cases h with
  | connected pre b post n e hp h1 h2 h3 =>
    refine .connected (a :: pre) b post n (by rw [e]; rfl) ?_ h1 h2 h3
    intro c hc
    rcases List.mem_cons.mp hc with rfl | hc
    · exact ha
    · exact hp c hc
  | failed hp =>
    refine .failed ?_
    intro c hc
    rcases List.mem_cons.mp hc with rfl | hc
    · exact ha
    · exact hp c hc

theorem connectLoop_spec (l : List (Attempt α)) : ∀ (t : Socks α) (s : Option Nat), (l = [] → s = none) →
    FirstReachable t l (connectLoop t s l).1 (connectLoop t s l).2 := by
  induction l with
  | nil => intro t s hs; rw [hs rfl]; exact .failed (by simp)
  | cons a r ih =>
    intro t s _
    rw [connectLoop]
    rcases socket_cases t a.sock with ⟨e, hno⟩ | ⟨n, h1, h2, e⟩
    · rw [e]
      exact fr_skip a (h := ih t none (fun _ => rfl)) (by rintro ⟨n, g1, g2, -⟩; exact hno ⟨n, g1, g2⟩)
    · rw [e]
      simp only
      cases hc : a.conn with
      | true =>
        simp only [if_true, connect_socket]
        exact .connected [] a r n rfl (by simp) h1 h2 hc
      | false =>
        simp only [Bool.false_eq_true, if_false, close_socket t n h2]
        exact fr_skip a (h := ih t none (fun _ => rfl)) (by rintro ⟨_, -, -, g⟩; rw [hc] at g; exact absurd g (by simp))

theorem fcgiDialLoop_spec (l : List (Attempt α)) : ∀ (t : Socks α) (s : Option Nat),
    FirstReachable t l (fcgiDialLoop t s l).1 (if (fcgiDialLoop t s l).2.2 then (fcgiDialLoop t s l).2.1 else none) := by
  induction l with
  | nil => intro t s; exact .failed (by simp)
  | cons a r ih =>
    intro t s
    rw [fcgiDialLoop]
    rcases socket_cases t a.sock with ⟨e, hno⟩ | ⟨n, h1, h2, e⟩
    · rw [e]
      exact fr_skip a (h := ih t none) (by rintro ⟨n, g1, g2, -⟩; exact hno ⟨n, g1, g2⟩)
    · rw [e]
      simp only
      cases hc : a.conn with
      | true =>
        simp only [if_true, connect_socket]
        exact .connected [] a r n rfl (by simp) h1 h2 hc
      | false =>
        simp only [Bool.false_eq_true, if_false, close_socket t n h2]
        exact fr_skip a (h := ih t (some n)) (by rintro ⟨_, -, -, g⟩; rw [hc] at g; exact absurd g (by simp))

/-- A relay connects to the first of the upstream server's addresses that can be reached, and no descriptor of
an attempt that failed is left open.  (getaddrinfo never succeeds with an empty list.) -/
theorem C103_relay (t : Socks α) (junk : Option Nat) (l : List (Attempt α)) (hl : l ≠ []) :
    FirstReachable t l (proxySocket t junk (some l)).1 (proxySocket t junk (some l)).2 ∧ proxySocket t junk none = (t, none) := by
  refine ⟨?_, rfl⟩
  unfold proxySocket
  exact connectLoop_spec l t junk (fun e => absurd e hl)

/-- The same for a FastCGI application at a host and port. -/
theorem C103_fastcgi_tcp (t : Socks α) (junk : Option Nat) (l : List (Attempt α)) :
    FirstReachable t l (fcgiOpenConn t junk (some l)).1 (fcgiOpenConn t junk (some l)).2 ∧ fcgiOpenConn t junk none = (t, none) := by
  refine ⟨?_, rfl⟩
  have h := fcgiDialLoop_spec l t junk
  unfold fcgiOpenConn
  dsimp only
  generalize fcgiDialLoop t junk l = x at h ⊢
  obtain ⟨t', s, b⟩ := x
  cases b <;> exact h

/-- And for the two clients. -/
theorem C103_clients (t : Socks α) (l : List (Attempt α)) :
    FirstReachable t l (ggConnect t (some l)).1 (ggConnect t (some l)).2 ∧
      FirstReachable t l (titanDial t (some l)).1 (titanDial t (some l)).2 :=
  ⟨connectLoop_spec l t none (fun _ => rfl), connectLoop_spec l t none (fun _ => rfl)⟩

/-- A FastCGI application at a socket in the file system: the connection is to that socket and nothing leaks, when
its path has at most 107 bytes.  Missing: longer paths, for which it is false (`C103_long_path`). -/
theorem C103_fastcgi_socket_partial (t : Socks Bytes) (path : Bytes) (sock : Option Nat) (conn : Bytes → Bool) (hp : path.length < 108) :
    FirstReachable t [{ addr := path, sock := sock, conn := conn path }] (fcgiOpenSock t path sock conn).1 (fcgiOpenSock t path sock conn).2 := by
  have ht : path.take (sunPathLen - 1) = path := List.take_of_length_le (by simp [sunPathLen]; omega)
  have := connectLoop_spec [{ addr := path, sock := sock, conn := conn path }] t none (by simp)
  unfold fcgiOpenSock
  simp only [ht]
  simp only [connectLoop] at this
  rcases socket_cases t sock with ⟨e, -⟩ | ⟨n, -, -, e⟩
  · rw [e] at this ⊢; exact this
  · rw [e] at this ⊢
    simp only at this ⊢
    cases hc : conn path <;> simp only [hc, if_true, Bool.false_eq_true, if_false] at this ⊢ <;> exact this

/-- Whatever its length, nothing leaks and what is returned is a new descriptor. -/
theorem C103_fastcgi_socket_fd (t : Socks Bytes) (path : Bytes) (sock : Option Nat) (conn : Bytes → Bool) :
    ∃ p : Bytes, p <+: path ∧
      FirstReachable t [{ addr := p, sock := sock, conn := conn p }] (fcgiOpenSock t path sock conn).1 (fcgiOpenSock t path sock conn).2 := by
  refine ⟨path.take (sunPathLen - 1), List.take_prefix _ _, ?_⟩
  have := C103_fastcgi_socket_partial t (path.take (sunPathLen - 1)) sock conn (by simp [sunPathLen]; omega)
  unfold fcgiOpenSock at this ⊢
  simp only [List.take_take, Nat.min_self] at this
  exact this

/-- False in general: a path of 108 bytes or more is accepted in the configuration, but the server connects to the
socket whose name is the first 107 bytes of it, if there is one: the requests go to an application that is not the
configured one. -/
theorem C103_long_path (t : Socks Bytes) (path : Bytes) (n : Nat) (conn : Bytes → Bool) (hp : 108 ≤ path.length) (hm : path.length < 4096) (hn : t n = none)
    (hc : conn (path.take 107) = true) :
    fastcgiConf [] path none = .ok ([{ path := path, port := [] }], 0, 0) ∧
      (fcgiOpen t path [] none (some n) conn none).2 = some n ∧
      (fcgiOpen t path [] none (some n) conn none).1 n = some (some (path.take 107)) ∧ path.take 107 ≠ path := by
  refine ⟨?_, ?_⟩
  · have h1 : path.take 4095 = path := List.take_of_length_le (by omega)
    simp [fastcgiConf, fcgiFind, h1]
    omega
  unfold fcgiOpen fcgiOpenSock
  simp only [Socks.socket, hn, sunPathLen]
  simp only [Option.isSome_none, Bool.false_eq_true, if_false, hc, if_true, Socks.connect]
  refine ⟨by simp, by simp, ?_⟩
  intro e
  have := congrArg List.length e
  simp at this
  omega

/-- three addresses: no descriptor for the first, the second refuses, the third answers -/
example : ∃ t, FirstReachable (α := Nat) (fun _ => none) [⟨1, none, true⟩, ⟨2, some 5, false⟩, ⟨3, some 5, true⟩] t (some 5) ∧ t 5 = some (some 3) ∧
    proxySocket (fun _ => none) (some 9) (some [⟨1, none, true⟩, ⟨2, some 5, false⟩, ⟨3, some 5, true⟩]) = (t, some 5) := by
  refine ⟨_, ?_, ?_, rfl⟩
  · exact (C103_relay (α := Nat) (fun _ => none) (some 9) [⟨1, none, true⟩, ⟨2, some 5, false⟩, ⟨3, some 5, true⟩] (by simp)).1
  · rfl

/-- a path of 120 bytes -/
example : ∃ path : Bytes, path.length = 120 ∧ (fcgiOpenSock (fun _ => none) path (some 4) (fun p => p == List.replicate 107 97)).2 = some 4 :=
  ⟨List.replicate 120 97, by simp, by decide +kernel⟩

end Gmid.Props
