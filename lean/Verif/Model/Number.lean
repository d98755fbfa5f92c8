import Verif.Core
/-!
# Model of number conversion

`std::to_chars` and `std::from_chars` for integers are the standard library's; they are given by their definition in the
standard ([charconv.to.chars], [charconv.from.chars]). On top of them: `to_int` (string.hpp:295-312) and `to_string`
(string.hpp:631-682). Values are natural numbers or integers together with the width of their type.
-/
namespace Utki

/-- `enum class integer_base`, string.hpp:284-290 -/
inductive Base where
  | bin | oct | dec | hex
deriving DecidableEq, Repr

/-- `to_int(integer_base)`, string.hpp:295-312 -/
def to_int : Base → Nat
  | .bin => 2
  | .oct => 8
  | .dec => 10
  | .hex => 16

/-- The digit with value `d` (< 36), as `std::to_chars` writes it: `0`-`9`, `a`-`z`. -/
def digitChar (d : Nat) : Byte := if d < 10 then BitVec.ofNat 8 (48 + d) else BitVec.ofNat 8 (97 + (d - 10))

/-- The value of a character as a digit for `std::from_chars`: `0`-`9`, then letters of either case. -/
def digitVal (c : Byte) : Option Nat :=
  if 48 ≤ c.toNat ∧ c.toNat ≤ 57 then some (c.toNat - 48)
  else if 97 ≤ c.toNat ∧ c.toNat ≤ 122 then some (c.toNat - 97 + 10)
  else if 65 ≤ c.toNat ∧ c.toNat ≤ 90 then some (c.toNat - 65 + 10)
  else none

/-- The character is a digit of the base. -/
def isDigit (base : Nat) (c : Byte) : Bool :=
  match digitVal c with
  | some d => d < base
  | none => false

/-- `std::to_chars` of a non-negative value into a buffer with `room` characters; `none` is
`std::errc::value_too_large`. -/
def toChars (base : Nat) : (room : Nat) → (n : Nat) → Option (List Byte)
  | 0, _ => none
  | room + 1, n =>
    if n < base then some [digitChar n]
    else (toChars base room (n / base)).map (· ++ [digitChar (n % base)])

/-- `std::to_chars` of a signed value: a minus sign first if negative. -/
def toCharsInt (base room : Nat) (v : Int) : Option (List Byte) :=
  if v < 0 then
    match room with
    | 0 => none
    | room + 1 => (toChars base room v.natAbs).map (ch '-' :: ·)
  else toChars base room v.natAbs

/-- The prefix `to_string` puts before an unsigned number, string.hpp:643-662. -/
def basePrefix : Base → List Byte
  | .bin => [ch '0', ch 'b']
  | .oct => [ch '0']
  | .hex => [ch '0', ch 'x']
  | .dec => []

/-- `to_string(value, base)` for an unsigned type, string.hpp:631-682: prefix, then `std::to_chars` into what remains of
the 128 characters; empty on error. (The ASSERT at 676 is about the contract of `std::to_chars`.) -/
def to_stringU (n : Nat) (b : Base) : List Byte :=
  match toChars (to_int b) (128 - (basePrefix b).length) n with
  | none => []
  | some ds => basePrefix b ++ ds

/-- `to_string(value, base)` for a signed type: no prefix. -/
def to_stringS (v : Int) (b : Base) : List Byte :=
  match toCharsInt (to_int b) 128 v with
  | none => []
  | some ds => ds

/-- The result of `std::from_chars`: `ec` and `ptr`; `ptr` is given as the number of characters consumed. -/
inductive FromChars (α : Type) where
  | invalid_argument
  | out_of_range (consumed : Nat)
  | ok (value : α) (consumed : Nat)
deriving DecidableEq, Repr

/-- The value `std::from_chars` accumulates over digits. -/
def accDigits (base : Nat) (ds : List Byte) : Nat := ds.foldl (fun a c => a * base + (digitVal c).getD 0) 0

/-- `std::from_chars` for an unsigned type of `w` bits: the longest digit run; no sign accepted. -/
def fromCharsU (w base : Nat) (s : List Byte) : FromChars Nat :=
  let ds := s.takeWhile (isDigit base)
  if ds = [] then .invalid_argument
  else if accDigits base ds < 2 ^ w then .ok (accDigits base ds) ds.length
  else .out_of_range ds.length

/-- `std::from_chars` for a signed type of `w` bits: an optional minus sign and the longest digit run. -/
def fromCharsS (w base : Nat) (s : List Byte) : FromChars Int :=
  let neg := s.head? = some (ch '-')
  let body := if neg then s.drop 1 else s
  let ds := body.takeWhile (isDigit base)
  if ds = [] then .invalid_argument
  else
    let v : Int := if neg then -(accDigits base ds : Int) else accDigits base ds
    let n := (if neg then 1 else 0) + ds.length
    if -(2 : Int) ^ (w - 1) ≤ v ∧ v < 2 ^ (w - 1) then .ok v n else .out_of_range n

end Utki
