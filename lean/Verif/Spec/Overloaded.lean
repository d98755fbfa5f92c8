/-!
# What users expect of a visit with several functors
-/
namespace Utki.Spec.Visit

/-- What a functor's parameter is declared for: a certain type (types are numbered), or any type (`auto`). -/
inductive For where
  | type (t : Nat)
  | any
deriving DecidableEq, Repr

/-- `Only p l i`: element `i` of the list, and no other, satisfies `p`. -/
def Only {α : Type} (p : α → Prop) (l : List α) (i : Nat) : Prop := (∃ x, l[i]? = some x ∧ p x) ∧ ∀ j x, l[j]? = some x → p x → j = i

end Utki.Spec.Visit
