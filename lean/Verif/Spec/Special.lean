import Verif.Core
/-!
# Specification: the texts for infinity and not-a-number

`[-] inf`, `[-] infinity`, `[-] nan` and `[-] nan(chars)`, in upper or lower case, where `chars` are letters, digits and underscores.
-/
namespace Utki.Spec

/-- The lower case form of an ASCII character. -/
def asciiLower (c : Byte) : Byte := if 65 ≤ c.toNat ∧ c.toNat ≤ 90 then c + 32 else c

/-- The word `w` except for the case of its letters. -/
def IsWord (w : String) (t : List Byte) : Prop := t.map asciiLower = str w

instance (w : String) (t : List Byte) : Decidable (IsWord w t) := by unfold IsWord; infer_instance

/-- A letter, a digit or an underscore. -/
def NanChar (c : Byte) : Prop :=
  (97 ≤ c.toNat ∧ c.toNat ≤ 122) ∨ (65 ≤ c.toNat ∧ c.toNat ≤ 90) ∨ (48 ≤ c.toNat ∧ c.toNat ≤ 57) ∨ c = ch '_'

/-- What such a text denotes. -/
inductive Special where
  | inf
  | nan
  deriving DecidableEq

/-- The text without the sign. -/
def IsSpecial : Special → List Byte → Prop
  | .inf, t => IsWord "inf" t ∨ IsWord "infinity" t
  | .nan, t => IsWord "nan" t ∨ ∃ w q, IsWord "nan" w ∧ (∀ c ∈ q, NanChar c) ∧ t = w ++ [ch '('] ++ q ++ [ch ')']

/-- The text with the sign. -/
def IsSignedSpecial (neg : Bool) (v : Special) (t : List Byte) : Prop :=
  ∃ w, IsSpecial v w ∧ t = (if neg then [ch '-'] else []) ++ w

/-- The longest such text at the beginning of `s`. -/
def LongestSpecial (s : List Byte) (neg : Bool) (v : Special) (t : List Byte) : Prop :=
  IsSignedSpecial neg v t ∧ t <+: s ∧ ∀ neg' v' t', IsSignedSpecial neg' v' t' → t' <+: s → t'.length ≤ t.length

end Utki.Spec
