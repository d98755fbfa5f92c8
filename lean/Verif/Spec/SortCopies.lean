import Verif.Model.SortCopies
/-! # What becomes of the elements of a sorted range -/
namespace Utki.Spec

/-- All the elements are there, in whatever order. -/
def AllThere {α : Type} (now : List (Option α)) (before : List α) : Prop := now.Perm (before.map some)

/-- All the elements but one are there; in place of that one there is an object moved from. -/
def OneLost {α : Type} (now : List (Option α)) (before : List α) : Prop :=
  ∃ x rest, before.Perm (x :: rest) ∧ now.Perm (none :: rest.map some)

/-- Code that returns or throws. -/
def ReturnsOrThrows {σ β : Type} (f : Meth σ β) : Prop := ∀ s, (∃ b, (f s).1 = .ok b) ∨ ∃ e, (f s).1 = .throw e

/-- Code that returns. -/
def AlwaysReturns {σ β : Type} (f : Meth σ β) : Prop := ∀ s, ∃ b, (f s).1 = .ok b

/-- The exception is one that the user's code throws: a comparison, a copy or a move of an element, or a copy of the comparator. -/
def ThrownBy {α σ : Type} (ops : QSortX.Ops α σ) (e : Err) : Prop :=
  (∃ x y s, (ops.less x y s).1 = .throw e) ∨ (∃ x s, (ops.copy x s).1 = .throw e) ∨ (∃ s, (ops.copyCmp s).1 = .throw e) ∨
    (∃ x s, (ops.move x s).1 = .throw e) ∨ (∃ x s, (ops.assign x s).1 = .throw e)

/-- None of the user's code does anything but return or throw. -/
structure WellBehaved {α σ : Type} (ops : QSortX.Ops α σ) : Prop where
  less : ∀ x y, ReturnsOrThrows (ops.less x y)
  copy : ∀ x, ReturnsOrThrows (ops.copy x)
  copyCmp : ReturnsOrThrows ops.copyCmp
  move : ∀ x, ReturnsOrThrows (ops.move x)
  assign : ∀ x, ReturnsOrThrows (ops.assign x)

end Utki.Spec
