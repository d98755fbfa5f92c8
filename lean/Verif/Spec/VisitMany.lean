import Verif.Spec.Overloaded
/-!
# What users expect of a visit of several variants
-/
namespace Utki.Spec.VisitMany
open Spec.Visit (For)

/-- The parameters are declared for just these types: each for the type itself or for any type. -/
def Takes (ps : List For) (ts : List Nat) : Prop :=
  ps.length = ts.length ∧ ∀ (i : Nat) (p : For) (t : Nat), ps[i]? = some p → ts[i]? = some t → p = .any ∨ p = .type t

/-- The parameters `ps` are declared for certain types wherever `qs` are, and the same ones. -/
def Specific (ps qs : List For) : Prop :=
  ps.length = qs.length ∧ ∀ (i : Nat) (p q : For), ps[i]? = some p → qs[i]? = some q → q = .any ∨ p = q

/-- Element `i` takes the types, and is declared for more certain types than any other that takes them. -/
def MostSpecific (l : List (List For)) (ts : List Nat) (i : Nat) : Prop :=
  (∃ ps, l[i]? = some ps ∧ Takes ps ts) ∧
  ∀ ps j qs, l[i]? = some ps → j ≠ i → l[j]? = some qs → Takes qs ts → Specific ps qs ∧ ps ≠ qs

/-- What it costs to pass a value of type `t` for a parameter: nothing for the type itself or any type; `conv t u` says how bad a conversion to another type is,
if there is one. -/
inductive Cost (conv : Nat → Nat → Option Nat) (t : Nat) : For → Nat → Prop
  | any : Cost conv t .any 0
  | same : Cost conv t (.type t) 0
  | convert {u r : Nat} : u ≠ t → conv t u = some r → Cost conv t (.type u) (r + 1)

/-- Values of the types `ts` can be passed, at the costs `cs`. -/
def Costs (conv : Nat → Nat → Option Nat) (ts : List Nat) (ps : List For) (cs : List Nat) : Prop :=
  ps.length = ts.length ∧ cs.length = ts.length ∧
  ∀ (k : Nat) (t : Nat) (p : For) (c : Nat), ts[k]? = some t → ps[k]? = some p → cs[k]? = some c → Cost conv t p c

/-- The functor gets `ys` for the values `xs` of the types `ts`: each is the value itself, or what it is converted to if the parameter is for another type. -/
def Passed {V : Type} (convert : Nat → Nat → V → V) (ps : List For) (ts : List Nat) (xs ys : List V) : Prop :=
  ys.length = xs.length ∧
  ∀ (k : Nat) (p : For) (t : Nat) (x y : V), ps[k]? = some p → ts[k]? = some t → xs[k]? = some x → ys[k]? = some y →
    ((p = .any ∨ p = .type t) → y = x) ∧ ∀ u, u ≠ t → p = .type u → y = convert t u x

/-- No cost is higher, and one is lower. -/
def Cheaper (as bs : List Nat) : Prop :=
  (∀ (k a b : Nat), as[k]? = some a → bs[k]? = some b → a ≤ b) ∧ ∃ k a b : Nat, as[k]? = some a ∧ bs[k]? = some b ∧ a < b

end Utki.Spec.VisitMany
