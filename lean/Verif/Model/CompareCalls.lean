import Verif.Model.Tree
import Verif.Model.Span
import Verif.Model.RefCompare
/-!
# Comparisons with effects

The comparison functions of the library that call operators of the user's types, with operators that may throw and have effects on the rest `σ` of the program. Simplified: the operators do not
change the elements that are being compared.
-/
namespace Utki
namespace CompareCalls
open RefCompare
variable {σ α β : Type}

mutual
/-- `tree::operator==(const tree&)`, tree.hpp 142-145, which is `noexcept`, as it is for every node. -/
def eqTreeM (eq : α → α → Meth σ Bool) : Tree α → Tree α → Meth σ Bool
  | .node v cs, .node w ds => noexc (do
    if ← eq v w then
      if cs.length = ds.length then eqChildrenM eq cs ds else pure false
    else pure false)
/-- `operator==` of vectors of trees: elementwise, after the sizes have been compared. -/
def eqChildrenM (eq : α → α → Meth σ Bool) : List (Tree α) → List (Tree α) → Meth σ Bool
  | c :: cs, d :: ds => do
    if ← eqTreeM eq c d then eqChildrenM eq cs ds else pure false
  | _, _ => pure true
end

/-- `tree::operator==(const compare_value_type&)`, tree.hpp 136-140. -/
def eqValueM (eq : α → β → Meth σ Bool) (t : Tree α) (v : β) : Meth σ Bool := eq t.value v

/-- Element loop of `std::equal`. -/
def equalLoopM (eq : α → β → Meth σ Bool) (m1 : List α) (m2 : List β) : (count p q : Nat) → Meth σ Bool
  | 0, _, _ => pure true
  | n + 1, p, q => do
    let a ← Meth.lift (rd m1 p)
    let b ← Meth.lift (rd m2 q)
    if ← eq a b then equalLoopM eq m1 m2 n (p + 1) (q + 1) else pure false

/-- `deep_equals`, span.hpp 495-504: with four random access iterators `std::equal` compares the sizes first. -/
def deep_equalsM (eq : α → β → Meth σ Bool) (l : Span α) (r : Span β) : Meth σ Bool :=
  if l.size ≠ r.size then pure false else equalLoopM eq l.mem r.mem l.size l.off r.off

/-- `std::lexicographical_compare` as specified by the standard. -/
def lexLoopM (lt : α → α → Meth σ Bool) (m1 m2 : List α) : (n1 n2 p q : Nat) → Meth σ Bool
  | 0, n2, _, _ => pure (decide (n2 ≠ 0))
  | _ + 1, 0, _, _ => pure false
  | n1 + 1, n2 + 1, p, q => do
    let a ← Meth.lift (rd m1 p)
    let b ← Meth.lift (rd m2 q)
    if ← lt a b then pure true
    else if ← lt b a then pure false
    else lexLoopM lt m1 m2 n1 n2 (p + 1) (q + 1)

/-- `deep_less_than`, span.hpp 512-516; `deep_greater_than`, span.hpp 524-528, is this with the arguments swapped. -/
def deep_less_thanM (lt : α → α → Meth σ Bool) (l r : Span α) : Meth σ Bool := lexLoopM lt l.mem r.mem l.size r.size l.off r.off

/-- `deep_greater_or_equals`, span.hpp 518-522. -/
def deep_greater_or_equalsM (lt : α → α → Meth σ Bool) (l r : Span α) : Meth σ Bool := do
  return !(← deep_less_thanM lt l r)

/-- `deep_less_or_equals`, span.hpp 530-534, through `deep_greater_than`. -/
def deep_less_or_equalsM (lt : α → α → Meth σ Bool) (l r : Span α) : Meth σ Bool := do
  return !(← deep_less_thanM lt r l)

/-- `std::find`: the index of the first element equal to the value. -/
def findM (eq : α → β → Meth σ Bool) (x : β) : List α → Meth σ Nat
  | [] => pure 0
  | y :: l => do
    if ← eq y x then pure 0
    else do
      let k ← findM eq x l
      pure (k + 1)

/-- `contains` of a container that is not a map, utility.hpp 202-213. -/
def containsM (eq : α → β → Meth σ Bool) (l : List α) (x : β) : Meth σ Bool := do
  let i ← findM eq x l
  return i != l.length

end CompareCalls
end Utki
