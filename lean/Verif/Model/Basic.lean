/-!
# Basic vocabulary of the model

Bytes, C character classes (gmid.c:248 takes LC_CTYPE from the environment; assumed here is the "C"
locale or a UTF-8 one, where bytes of 128 and more belong to no class) and the outcome type with an explicit "undefined behaviour" case.
-/

set_option autoImplicit false

namespace Gmid

/-- `c%'x'` is the byte of the ASCII character `x`, as a numeric literal. -/
macro:max "c%" c:char : term => do
  let n := c.getChar.toNat
  `(($(Lean.quote n) : UInt8))

/-- `b%"text"` is the list of bytes of an ASCII string literal. -/
macro:max "b%" s:str : term => do
  let elems : Array (Lean.TSyntax `term) := s.getString.toList.toArray.map (fun c =>
    Lean.quote (k := `term) c.toNat)
  `(([$[$elems],*] : List UInt8))

/-- A C string (without its terminating NUL) or any byte sequence. -/
abbrev Bytes := List UInt8

/-- Outcome of a C function that may fail, or perform an operation whose behaviour C leaves
undefined (out-of-bounds access, division by zero, use of an uninitialised value ...). -/
inductive Res (α : Type) where
  | ok (a : α)
  | err
  | ub
  deriving Repr, DecidableEq

/-- the value, if the outcome is `ok` -/
def Res.val? {α : Type} : Res α → Option α
  | .ok a => some a
  | _ => none

/-- isdigit(3) -/
def isDigit (c : UInt8) : Bool := 48 ≤ c && c ≤ 57
/-- isalpha(3), C locale -/
def isUpper (c : UInt8) : Bool := 65 ≤ c && c ≤ 90
def isLower (c : UInt8) : Bool := 97 ≤ c && c ≤ 122
def isAlpha (c : UInt8) : Bool := isUpper c || isLower c
/-- isalnum(3), C locale -/
def isAlnum (c : UInt8) : Bool := isAlpha c || isDigit c
/-- isxdigit(3) -/
def isXdigit (c : UInt8) : Bool := isDigit c || (65 ≤ c && c ≤ 70) || (97 ≤ c && c ≤ 102)
/-- tolower(3), C locale.  Bytes >= 0x80 are unchanged (strictly, passing a negative `char`
to tolower(3) is undefined in ISO C; the libcs gmid targets accept it and return it unchanged). -/
def toLower (c : UInt8) : UInt8 := if isUpper c then c + 32 else c
/-- Value of a hexadecimal digit, as scanned by `sscanf("%2hhx")`. -/
def hexVal (c : UInt8) : UInt8 :=
  if isDigit c then c - 48
  else if 97 ≤ c && c ≤ 102 then c - 87
  else c - 55

/-- `a[0..]` dereference of a NUL-terminated string pointer: the byte, or 0 at the end. -/
def hd : Bytes → UInt8
  | [] => 0
  | c :: _ => c

@[simp] theorem hd_nil : hd [] = 0 := rfl
@[simp] theorem hd_cons (c : UInt8) (l : Bytes) : hd (c :: l) = c := rfl

/-- Number of bytes before the first NUL: the C string stored at the start of a memory block. -/
def cstr (mem : Bytes) : Bytes := mem.takeWhile (· ≠ 0)

/-- Exhaustive check over the 256 byte values. -/
def allBytes (p : UInt8 → Bool) : Bool := (List.range 256).all fun n => p (UInt8.ofNat n)

theorem forall_byte_of_all {p : UInt8 → Bool} (h : allBytes p = true) (b : UInt8) : p b = true := by
  have := List.all_eq_true.1 h b.toNat (List.mem_range.2 b.toNat_lt)
  simpa using this

/-- Statements about every byte value are decided by evaluating all 256 cases. -/
instance decForallByte {P : UInt8 → Prop} [DecidablePred P] : Decidable (∀ b : UInt8, P b) :=
  decidable_of_iff (allBytes (fun b => decide (P b)) = true)
    ⟨fun h b => of_decide_eq_true (forall_byte_of_all h b),
     fun h => List.all_eq_true.2 fun _ _ => decide_eq_true (h _)⟩

end Gmid
