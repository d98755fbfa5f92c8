import Verif.Core
import Mathlib.Data.Rat.Floor
/-!
# Specification: decimal literals

What a number in text form is and which number it denotes, independent of the model of the scanner. The grammar is that of
`std::from_chars`:

`[-] digits [. digits] [(e|E) [+|-] digits]`, where the digits before or after the point may be missing, but not both.
-/
namespace Utki.Spec

/-- A decimal digit character. -/
def DecDigit (c : Byte) : Prop := 48 ≤ c.toNat ∧ c.toNat ≤ 57

instance (c : Byte) : Decidable (DecDigit c) := by unfold DecDigit; infer_instance

/-- Only digits. -/
def AllDigits (l : List Byte) : Prop := ∀ c ∈ l, DecDigit c

/-- The whole number a sequence of digits denotes. -/
def decVal (l : List Byte) : Nat := l.foldl (fun v c => 10 * v + (c.toNat - 48)) 0

/-- The exponent part of a literal: the letter, the sign if there is one, the digits. -/
structure ExpPart where
  letter : Byte
  sign : Option Byte
  digits : List Byte

/-- A decimal literal. `frac` is `none` if there is no decimal point. -/
structure DecLit where
  neg : Bool
  int : List Byte
  frac : Option (List Byte)
  exp : Option ExpPart

/-- Whether an exponent may, and whether it must be there. -/
structure NumFormat where
  mayExp : Bool
  mustExp : Bool

def NumFormat.scientific : NumFormat := ⟨true, true⟩
def NumFormat.fixed : NumFormat := ⟨false, false⟩
def NumFormat.general : NumFormat := ⟨true, false⟩

def ExpPart.text (e : ExpPart) : List Byte := e.letter :: (e.sign.toList ++ e.digits)

def ExpPart.WF (e : ExpPart) : Prop :=
  (e.letter = ch 'e' ∨ e.letter = ch 'E') ∧ (∀ c ∈ e.sign, c = ch '+' ∨ c = ch '-') ∧ AllDigits e.digits ∧ e.digits ≠ []

def ExpPart.value (e : ExpPart) : Int := if e.sign = some (ch '-') then -(decVal e.digits : Int) else decVal e.digits

namespace DecLit

/-- The digits after the decimal point. -/
def fdigits (d : DecLit) : List Byte := d.frac.getD []

/-- All digits of the mantissa. -/
def digits (d : DecLit) : List Byte := d.int ++ d.fdigits

/-- How the literal is written. -/
def text (d : DecLit) : List Byte :=
  (if d.neg then [ch '-'] else []) ++ d.int ++ (match d.frac with | none => [] | some f => ch '.' :: f) ++
  (match d.exp with | none => [] | some e => e.text)

/-- A literal of the grammar that the format allows. -/
def WF (fmt : NumFormat) (d : DecLit) : Prop :=
  AllDigits d.digits ∧ d.digits ≠ [] ∧ (∀ e ∈ d.exp, e.WF ∧ fmt.mayExp = true) ∧ (fmt.mustExp = true → d.exp ≠ none)

/-- The exponent written in the literal. -/
def expVal (d : DecLit) : Int := match d.exp with | none => 0 | some e => e.value

/-- The absolute value of the number the literal denotes. -/
def absVal (d : DecLit) : ℚ := decVal d.digits * 10 ^ (d.expVal - d.fdigits.length)

end DecLit

/-- `n` is the length of the longest beginning of `s` that is a literal. -/
def LongestLiteral (fmt : NumFormat) (s : List Byte) (d : DecLit) : Prop :=
  d.WF fmt ∧ d.text <+: s ∧ ∀ d' : DecLit, d'.WF fmt → d'.text <+: s → d'.text.length ≤ d.text.length

end Utki.Spec
