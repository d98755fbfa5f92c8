import Verif.Core
/-!
# Specification: numerals

What a digit, a numeral and a number literal are, independent of the implementation.
-/
namespace Utki.Spec

/-- The value of an ASCII letter or digit as a digit. -/
inductive Digit : Byte → Nat → Prop
  | dec (d : Nat) : d < 10 → Digit (BitVec.ofNat 8 (0x30 + d)) d
  | lower (d : Nat) : d < 26 → Digit (BitVec.ofNat 8 (0x61 + d)) (10 + d)
  | upper (d : Nat) : d < 26 → Digit (BitVec.ofNat 8 (0x41 + d)) (10 + d)

/-- `c` is a digit of the base. -/
def IsDigit (base : Nat) (c : Byte) : Prop := ∃ d, Digit c d ∧ d < base

/-- `Numeral base ds n`: the digit string `ds` denotes `n` in positional notation. -/
inductive Numeral (base : Nat) : List Byte → Nat → Prop
  | nil : Numeral base [] 0
  | cons (c : Byte) (d : Nat) (ds : List Byte) (n : Nat) :
      Digit c d → d < base → Numeral base ds n → Numeral base (c :: ds) (d * base ^ ds.length + n)

/-- The text does not go on with a digit of the base. -/
def NoDigitAhead (base : Nat) (rest : List Byte) : Prop := ∀ c, rest.head? = some c → ¬ IsDigit base c

/-- White space of the parser. -/
def IsBlank (c : Byte) : Prop := c ∈ [0x20, 0x0a, 0x09, 0x0d, 0x0b, 0x0c].map (BitVec.ofNat 8)

/-- What reading a number at the beginning of a text (white space already skipped) should do. -/
inductive Read where
  /-- the literal has this value, and this text is left -/
  | value (n : Nat) (rest : List Byte)
  /-- there is no number here -/
  | none
deriving DecidableEq, Repr

/-- Unsigned literals: `0x` and hexadecimal digits, `0b` and binary digits, `0` and octal digits, decimal digits; a `0`
that does not begin one of these is a zero. The digits extend as far as possible. -/
inductive UnsignedLit : List Byte → Read → Prop
  | hex (ds rest : List Byte) (n : Nat) : ds ≠ [] → Numeral 16 ds n → NoDigitAhead 16 rest →
      UnsignedLit (ch '0' :: ch 'x' :: ds ++ rest) (.value n rest)
  | bin (ds rest : List Byte) (n : Nat) : ds ≠ [] → Numeral 2 ds n → NoDigitAhead 2 rest →
      UnsignedLit (ch '0' :: ch 'b' :: ds ++ rest) (.value n rest)
  | oct (ds rest : List Byte) (n : Nat) : ds ≠ [] → Numeral 8 ds n → NoDigitAhead 8 rest →
      UnsignedLit (ch '0' :: ds ++ rest) (.value n rest)
  /-- decimal digits; after a leading zero only if the next digit is not octal -/
  | dec (ds rest : List Byte) (n : Nat) : ds ≠ [] → Numeral 10 ds n → NoDigitAhead 10 rest →
      (ds.head? ≠ some (ch '0') ∨ ∃ c r, ds = ch '0' :: c :: r ∧ ¬ IsDigit 8 c) → UnsignedLit (ds ++ rest) (.value n rest)
  | zero (rest : List Byte) : NoDigitAhead 10 rest →
      (∀ c r, rest = ch 'x' :: c :: r → ¬ IsDigit 16 c) → (∀ c r, rest = ch 'b' :: c :: r → ¬ IsDigit 2 c) →
      UnsignedLit (ch '0' :: rest) (.value 0 rest)
  | none (s : List Byte) : NoDigitAhead 10 s → UnsignedLit s .none

/-- What reading a signed number should do. -/
inductive ReadS where
  | value (n : Int) (rest : List Byte)
  | none
deriving DecidableEq, Repr

/-- Signed literals: an optional minus sign and decimal digits. -/
inductive SignedLit : List Byte → ReadS → Prop
  | pos (ds rest : List Byte) (n : Nat) : ds ≠ [] → Numeral 10 ds n → NoDigitAhead 10 rest → SignedLit (ds ++ rest) (.value n rest)
  | neg (ds rest : List Byte) (n : Nat) : ds ≠ [] → Numeral 10 ds n → NoDigitAhead 10 rest →
      SignedLit (ch '-' :: ds ++ rest) (.value (-(n : Int)) rest)
  | none (s : List Byte) : NoDigitAhead 10 s → (∀ r, s = ch '-' :: r → NoDigitAhead 10 r) → SignedLit s .none

end Utki.Spec
