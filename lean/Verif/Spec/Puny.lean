import Verif.Spec.Utf8

/-!
# Specification: RFC 3492 (Punycode), section 6.2, over unbounded integers

The decoding procedure as the RFC gives it, with the parameters of section 5 (base 36, tmin 1,
tmax 26, skew 38, damp 700, initial bias 72, initial n 128).  Nothing here refers to the model.
-/

set_option autoImplicit false

namespace Gmid.Spec

/-- section 6.1: `while delta > ((base - tmin) * tmax) div 2` -/
def rfcAdaptLoop (delta k : Nat) : Nat × Nat :=
  if delta > (36 - 1) * 26 / 2 then rfcAdaptLoop (delta / (36 - 1)) (k + 36) else (delta, k)
termination_by delta

/-- section 6.1, bias adaptation -/
def rfcAdapt (delta numpoints : Nat) (first : Bool) : Nat :=
  let d := if first then delta / 700 else delta / 2
  let r := rfcAdaptLoop (d + d / numpoints) 0
  r.2 + (36 - 1 + 1) * r.1 / (r.1 + 38)

/-- section 5: letters of either case are 0 to 25, digits 26 to 35 -/
def rfcDigit (c : UInt8) : Option Nat :=
  if 65 ≤ c.toNat ∧ c.toNat ≤ 90 then some (c.toNat - 65)
  else if 97 ≤ c.toNat ∧ c.toNat ≤ 122 then some (c.toNat - 97)
  else if 48 ≤ c.toNat ∧ c.toNat ≤ 57 then some (c.toNat - 48 + 26)
  else none

/-- the threshold: `tmin if k <= bias, tmax if k >= bias + tmax, k - bias otherwise` -/
def rfcThreshold (k bias : Nat) : Nat := if k ≤ bias then 1 else if k ≥ bias + 26 then 26 else k - bias

/-- section 6.2, the inner loop: one variable-length integer is added to `i` -/
def rfcDelta (bias : Nat) : Nat → Nat → Nat → List UInt8 → Option (Nat × List UInt8)
  | _, _, _, [] => none
  | k, i, w, c :: r =>
    match rfcDigit c with
    | none => none
    | some digit =>
      if digit < rfcThreshold k bias then some (i + digit * w, r)
      else rfcDelta bias (k + 36) (i + digit * w) (w * (36 - rfcThreshold k bias)) r

/-- `insert n into output at position i` -/
def insertAt (out : List Nat) (i n : Nat) : List Nat := out.take i ++ n :: out.drop i

/-- section 6.2, the main loop; the first argument bounds the number of rounds -/
def rfcLoop : Nat → List Nat → Nat → Nat → Nat → List UInt8 → Option (List Nat)
  | _, out, _, _, _, [] => some out
  | 0, _, _, _, _, _ :: _ => none
  | f + 1, out, n, i, bias, s =>
    match rfcDelta bias 36 i 1 s with
    | none => none
    | some (i', r) =>
      let bias' := rfcAdapt (i' - i) (out.length + 1) (i = 0)
      let n' := n + i' / (out.length + 1)
      let i'' := i' % (out.length + 1)
      rfcLoop f (insertAt out i'' n') n' (i'' + 1) bias' r

/-- section 6.2: the basic code points before the last delimiter (if there are any), then the
extended string -/
def rfcSplit (s : List UInt8) : List UInt8 × List UInt8 :=
  let ext := (s.reverse.takeWhile (· ≠ 45)).reverse
  let basic := s.take (s.length - ext.length - 1)
  if basic = [] then ([], s) else (basic, ext)

/-- section 6.2: the code points a Punycode string stands for -/
def rfcDecode (s : List UInt8) : Option (List Nat) :=
  let (basic, ext) := rfcSplit s
  if basic.any (fun c => 128 ≤ c.toNat) then none
  else rfcLoop ext.length (basic.map UInt8.toNat) 128 0 72 ext

/-- The text a label of a host name stands for: labels that begin with "xn--" are Punycode, others
are taken as they are. `none` when there is none (not Punycode, or not made of characters). -/
def labelText (l : List UInt8) : Option (List UInt8) :=
  if l.take 4 = [120, 110, 45, 45] then
    match rfcDecode (l.drop 4) with
    | none => none
    | some cps => if cps.all (fun c => decide (IsScalar c)) then some (cps.map utf8Enc).flatten else none
  else some l

/-- a label as the DNS has it: letters, digits, hyphens -/
def Ldh (l : List UInt8) : Prop := ∀ c ∈ l, isAlnum' c ∨ c = 45
where isAlnum' (c : UInt8) : Prop := (65 ≤ c ∧ c ≤ 90) ∨ (97 ≤ c ∧ c ≤ 122) ∨ (48 ≤ c ∧ c ≤ 57)

/-- the name with the given labels -/
def joinDots : List (List UInt8) → List UInt8
  | [] => []
  | [l] => l
  | l :: r => l ++ 46 :: joinDots r

end Gmid.Spec
