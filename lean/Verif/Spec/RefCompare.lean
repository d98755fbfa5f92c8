import Verif.Core
/-! # Keys of sets -/
namespace Utki.Spec.RefCompare

variable {V : Type}

/-- Neither value is less than the other: a set regards them as the same. -/
def Same (lt : V → V → Bool) (a b : V) : Prop := lt a b = false ∧ lt b a = false

/-- Of the references inserted, one after the other, `x` is the first with its value. -/
def First (lt : V → V → Bool) (key : Nat → V) (inserted : List Nat) (x : Nat) : Prop :=
  ∃ before after, inserted = before ++ x :: after ∧ ∀ y ∈ before, ¬ Same lt (key y) (key x)

/-- The references stand in the order of their values, no two with the same. -/
def Ascending (lt : V → V → Bool) (key : Nat → V) (l : List Nat) : Prop := l.Pairwise (fun a b => lt (key a) (key b) = true)

end Utki.Spec.RefCompare
