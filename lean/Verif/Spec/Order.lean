import Verif.Core
/-! # Orders -/
namespace Utki.Spec

/-- Strict weak order, as required from comparators of `std::sort`: irreflexive, transitive, and incomparability is
transitive. -/
structure StrictWeakOrder {α : Type} (lt : α → α → Bool) : Prop where
  irrefl : ∀ a, lt a a = false
  trans : ∀ a b c, lt a b = true → lt b c = true → lt a c = true
  incomparable : ∀ a b c, lt a b = false → lt b a = false → lt b c = false → lt c b = false → lt a c = false ∧ lt c a = false

/-- No element is less than one that stands before it. -/
def Sorted {α : Type} (lt : α → α → Bool) (l : List α) : Prop :=
  l.Pairwise (fun before after => lt after before = false)

/-- The comparator that answers as `lt` does and counts its calls in its state. -/
def counting {α : Type} (lt : α → α → Bool) : α → α → Meth Nat Bool := fun a b calls => (.ok (lt a b), calls + 1)

end Utki.Spec
