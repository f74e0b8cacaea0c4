import Verif.Model.Crypto

/-!
# Specification: private key operations
-/

set_option autoImplicit false

namespace Gmid.Spec

/-- the key with this hash, the first one if there are more -/
def NamedKey {K : Type} (pkis : List (Bytes × Option K)) (hash : Bytes) (key : K) : Prop :=
  ∃ before after, pkis = before ++ (hash, some key) :: after ∧ ∀ p ∈ before, p.1 ≠ hash

/-- what the operation gives with the key: none is a failure -/
def performed {K : Type} (ops : KeyOps K) (key : K) (c : KCall) : Option Bytes :=
  match c.op with
  | .rsaEnc => ops.rsa true key c.from_ c.padding
  | .rsaDec => ops.rsa false key c.from_ c.padding
  | .ecSign => ops.ec key c.from_

/-- server processes at rest -/
def AtRest (ss : List KSrv) : Prop := ∀ s ∈ ss, s.call = none ∧ s.out = [] ∧ s.inn = [] ∧ s.log = []

/-- the calls in a process -/
def asksOf (i : Nat) (evs : List KEv) : List KCall := evs.filterMap fun e => match e with | .ask j c => if j = i then some c else none | _ => none

/-- the hashes are C strings -/
def CStrings (evs : List KEv) : Prop := ∀ e ∈ evs, ∀ i c, e = .ask i c → (0 : UInt8) ∉ c.hash

/-- the key is the one of the certificate the caller has: there is one with that hash, of the right kind and size -/
def KeyThere {K : Type} (ops : KeyOps K) (pkis : List (Bytes × Option K)) (c : KCall) : Prop :=
  c.hash.length < 128 ∧ ∃ key, NamedKey pkis c.hash key ∧
    if c.op = .ecSign then ops.isEc key = true
    else ops.rsaSize key = some c.size ∧ ∀ s, performed ops key c = some s → s.length ≤ c.size

/-- an RSA operation does not fail -/
def RsaWorks {K : Type} (ops : KeyOps K) (pkis : List (Bytes × Option K)) (c : KCall) : Prop :=
  c.op ≠ .ecSign → ∀ key, NamedKey pkis c.hash key → performed ops key c ≠ none

end Gmid.Spec
