/-!
# Specification: lexicographic comparison of sequences
-/
namespace Utki.Spec

/-- `l` is lexicographically less than `r`: there is a position `k` before which the sequences are
equivalent (neither element is less than the other), and at `k` either `l` ends while `r` goes on,
or both go on and the element of `l` is less. -/
def LexLess {α : Type} (lt : α → α → Bool) (l r : List α) : Prop :=
  ∃ k, (∀ i, i < k → ∃ a b, l[i]? = some a ∧ r[i]? = some b ∧ lt a b = false ∧ lt b a = false) ∧
    ((k = l.length ∧ k < r.length) ∨ (∃ a b, l[k]? = some a ∧ r[k]? = some b ∧ lt a b = true))

/-- `lt` is a strict total order. -/
structure StrictTotal {α : Type} (lt : α → α → Bool) : Prop where
  irrefl : ∀ a, lt a a = false
  trans : ∀ a b c, lt a b = true → lt b c = true → lt a c = true
  tri : ∀ a b, lt a b = true ∨ a = b ∨ lt b a = true

end Utki.Spec
