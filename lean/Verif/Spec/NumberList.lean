import Verif.Spec.Numeral
/-!
# Specification: lists of numbers in text form
-/
namespace Utki.Spec

/-- A separator: white space with at most one comma in it. -/
def IsSeparator (s : List Byte) : Prop := (∀ c ∈ s, IsBlank c ∨ c = ch ',') ∧ s.count (ch ',') ≤ 1

/-- One number of a list: its value, how it is written, and the text between it and the next one. -/
structure Item (α : Type) where
  value : α
  text : List Byte
  sep : List Byte

/-- The whole list. -/
def listText {α : Type} (items : List (Item α)) : List Byte := items.flatMap fun i => i.text ++ i.sep

/-- Only the text after the last number may be empty. -/
def Apart {α : Type} (items : List (Item α)) : Prop :=
  (∀ i ∈ items, IsSeparator i.sep) ∧ ∀ k a b, items[k]? = some a → items[k + 1]? = some b → a.sep ≠ []

/-- For signed numbers it may also be empty before a minus sign, as in `1-2`. -/
def ApartOrNegative (items : List (Item Int)) : Prop :=
  (∀ i ∈ items, IsSeparator i.sep) ∧ ∀ k a b, items[k]? = some a → items[k + 1]? = some b → a.sep ≠ [] ∨ b.value < 0

end Utki.Spec
