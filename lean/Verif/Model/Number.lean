import Verif.Model.Parser
/-!
# Numbers: classification, conversions, equality, construction (lib/src/parser/number.rs)

Rust's `FromStr` for integers and `ToString` are part of `std`; they are transcribed here from the standard
library's definition (checked arithmetic digit by digit). `f64` is abstract (`FloatOps`).
-/
set_option autoImplicit false

namespace Verif

/-- number.rs:44-47 `is_signed` -/
def Number.isSigned (n : Number) : Bool := n.fraction.isNone && n.exponent.isNone
/-- number.rs:49-52 `is_unsigned` -/
def Number.isUnsigned (n : Number) : Bool := n.isSigned && n.positive
/-- number.rs:54-57 `is_float` -/
def Number.isFloat (n : Number) : Bool := !n.isSigned
/-- number.rs:136-141 `Deref`: the text of the number -/
def Number.text (n : Number) : Str := n.input.str

/-- A built-in integer type, `iN` or `uN`. -/
structure IntTy where
  signed : Bool
  bits : Nat
  deriving Repr, DecidableEq

/-- `T::MIN` -/
def IntTy.min (T : IntTy) : Int := if T.signed then -(2 ^ (T.bits - 1) : Nat) else 0
/-- `T::MAX` -/
def IntTy.max (T : IntTy) : Int := if T.signed then (2 ^ (T.bits - 1) : Nat) - 1 else (2 ^ T.bits : Nat) - 1
/-- Is the mathematical integer representable? -/
def IntTy.inRange (T : IntTy) (k : Int) : Bool := decide (T.min ≤ k) && decide (k ≤ T.max)

/-- std `from_str_radix(_, 10)`, the digit loop: `checked_mul(10)` then `checked_add`/`checked_sub`. -/
def parseDigits (T : IntTy) (pos : Bool) (acc : Int) : Str → Option Int
  | [] => some acc
  | c :: cs =>
    if c.isDigit then
      if T.inRange (acc * 10) then
        let a := if pos then acc * 10 + (digitVal c : Int) else acc * 10 - (digitVal c : Int)
        if T.inRange a then parseDigits T pos a cs else none
      else none
    else none

/-- std `<T as FromStr>::from_str`: sign, then at least one digit (`none` = `Err(ParseIntError)`) -/
def parseInt (T : IntTy) (s : Str) : Option Int :=
  match s with
  | [] => none
  | '+' :: ds => if ds.isEmpty then none else parseDigits T true 0 ds
  | '-' :: ds => if T.signed then (if ds.isEmpty then none else parseDigits T false 0 ds)
      else parseDigits T true 0 ('-' :: ds)
  | ds => parseDigits T true 0 ds

/-- number.rs:107-134 `as_u8` … `as_i128` -/
def Number.asInt (T : IntTy) (n : Number) : Option Int := parseInt T n.input.str

/-- `f64` as far as the comparison uses it: parsing, `abs`, and the comparison of two absolute values
(number.rs:171-183: equality, absolute or relative error). -/
structure FloatOps where
  F : Type
  parse : Str → Option F
  abs : F → F
  close : F → F → Bool

/-- number.rs:157-203 `PartialEq for Number` -/
def Number.eq (O : FloatOps) (a b : Number) : Bool :=
  if a.isFloat || b.isFloat then
    match O.parse a.input.str, O.parse b.input.str with
    | some x, some y => O.close (O.abs x) (O.abs y)
    | _, _ => false
  else if a.isUnsigned && b.isUnsigned then
    match a.asInt ⟨false, 128⟩, b.asInt ⟨false, 128⟩ with
    | some x, some y => x == y
    | _, _ => false
  else
    match a.asInt ⟨true, 128⟩, b.asInt ⟨true, 128⟩ with
    | some x, some y => x == y
    | _, _ => false

/-- The digit character of a number below 10. -/
def digitChar (n : Nat) : Char := Char.ofNat (48 + n)

/-- std `to_string` of an unsigned integer, with fuel: decimal digits, no leading zeros. -/
def decimalAux : Nat → Nat → Str
  | 0, n => [digitChar (n % 10)]
  | fuel + 1, n => if n < 10 then [digitChar n] else decimalAux fuel (n / 10) ++ [digitChar (n % 10)]

/-- std `to_string` of an unsigned integer -/
def decimal (n : Nat) : Str := decimalAux n n

/-- std `to_string` of an integer -/
def decimalInt (k : Int) : Str := if k < 0 then '-' :: decimal k.natAbs else decimal k.natAbs

/-- std `abs` of a signed integer: `MIN.abs()` panics when overflow checks are on (debug builds) and wraps to
`MIN` otherwise. -/
def IntTy.abs (T : IntTy) (checks : Bool) (k : Int) : Option Int :=
  if k = T.min then (if checks then none else some k) else some k.natAbs

/-- number.rs:60-85 `From<uN>`, `From<iN>` (`none` = panic in `abs`) -/
def Number.fromInt (T : IntTy) (checks : Bool) (k : Int) : Option Number :=
  if T.signed then
    (T.abs checks k).map fun a =>
      ⟨.ownedS (decimalInt k), decide (0 ≤ k), some (.ownedS (decimalInt a)), none, none⟩
  else some ⟨.ownedS (decimalInt k), true, some (.ownedS (decimalInt k)), none, none⟩

end Verif
