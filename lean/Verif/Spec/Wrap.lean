import Verif.Core
/-!
# What wrapping a text into lines may do

Independent of the implementation.
-/
namespace Utki.Spec

/-- `Pieces sep s lines`: the lines are contiguous pieces of `s`, in order, and everything between them satisfies `sep`. -/
inductive Pieces {α : Type} (sep : α → Prop) : List α → List (List α) → Prop
  | nil (gap : List α) : (∀ c ∈ gap, sep c) → Pieces sep gap []
  | cons (gap line rest : List α) (lines : List (List α)) :
      (∀ c ∈ gap, sep c) → Pieces sep rest lines → Pieces sep (gap ++ line ++ rest) (line :: lines)

/-- `Layout sep s lines bounds`: the lines are the stretches `[a, b)` of `s` given by `bounds`, from left to right, and every
character outside of these stretches satisfies `sep`. -/
structure Layout {α : Type} (sep : α → Prop) (s : List α) (lines : List (List α)) (bounds : List (Nat × Nat)) : Prop where
  pieces : lines = bounds.map (fun p => (s.drop p.1).take (p.2 - p.1))
  inside : ∀ p ∈ bounds, p.1 ≤ p.2 ∧ p.2 ≤ s.length
  sorted : bounds.Pairwise (fun p q => p.2 ≤ q.1)
  rest : ∀ k c, s[k]? = some c → sep c ∨ ∃ p ∈ bounds, p.1 ≤ k ∧ k < p.2

/-- The stretch `[u, v)` of `s` is a word: not empty, free of separators, and not part of a longer such stretch. -/
structure WordAt {α : Type} (sep : α → Prop) (s : List α) (u v : Nat) : Prop where
  lt : u < v
  le : v ≤ s.length
  inside : ∀ k c, u ≤ k → k < v → s[k]? = some c → ¬ sep c
  before : u = 0 ∨ ∃ c, s[u - 1]? = some c ∧ sep c
  after : v = s.length ∨ ∃ c, s[v]? = some c ∧ sep c

/-- Every space of the text directly follows a character that is neither a space nor a newline. -/
def SingleSpaced (s : List Byte) : Prop :=
  ∀ k : Nat, s[k]? = some (ch ' ') → ∃ c, 0 < k ∧ s[k - 1]? = some c ∧ c ≠ ch ' ' ∧ c ≠ ch '\n'

/-- `Divided w s ls`: the text is divided into the lines `ls`, of at most `w` characters, at spaces and at all newlines; the
characters at which it is divided are dropped. -/
inductive Divided (w : Nat) : List Byte → List (List Byte) → Prop where
  | last (l : List Byte) : l.length ≤ w → ch '\n' ∉ l → Divided w l [l]
  | line (l : List Byte) (c : Byte) (rest : List Byte) (ls : List (List Byte)) : l.length ≤ w → ch '\n' ∉ l → c = ch ' ' ∨ c = ch '\n' →
      Divided w rest ls → Divided w (l ++ c :: rest) (l :: ls)

end Utki.Spec
