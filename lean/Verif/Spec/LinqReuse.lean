import Verif.Model.LinqReuse
import Verif.Props.Linq
/-!
# What using an aggregator of `linq` several times should give
-/
namespace Utki
namespace Spec
open Linq

variable {α : Type}

/-- The chains of the steps are used as documented. -/
def AllDocumented (ss : List (Step α)) : Prop := ∀ (γ : Type) (ch : Chain α γ), Step.use ch ∈ ss → Documented ch

/-- `View c ss rs c'`: the variable has the contents `c` before the steps and `c'` after them, only the program's own changes change it, and each
chain gives what it should for what the variable contains at that time. -/
inductive View : List α → List (Step α) → Results → List α → Prop
  | nil (c : List α) : View c [] [] c
  | use {γ : Type} {ch : Chain α γ} {c c' : List α} {r : List γ} {ss : List (Step α)} {rs : Results} :
      Gives ch c r → View c ss rs c' → View c (.use ch :: ss) (⟨γ, r⟩ :: rs) c'
  | write {g : List α → List α} {c c' : List α} {ss : List (Step α)} {rs : Results} : View (g c) ss rs c' → View c (.write g :: ss) rs c'

/-- What a chain leaves of a collection that the aggregator owns: `moved` is what is left of an element that was moved. The first operation of the
chain decides. -/
def left (moved : α → α) {γ : Type} : Chain α γ → List α → List α
  | .get, _ => []
  | .select f _, c => if f.takes then c.map moved else c
  | .select2 t _ _, c => if t then c.map moved else c
  | .where_ f _, c => c.map fun a => if f.app a then moved a else a
  | .groupBy _ _ _, c => c.map moved
  | .orderBy _ _ _ _, _ => []

/-- `Owned moved c ss rs`: the chains give what they should for what is left of the collection at that time, whatever happens to the variable. -/
inductive Owned (moved : α → α) : List α → List (Step α) → Results → Prop
  | nil (c : List α) : Owned moved c [] []
  | use {γ : Type} {ch : Chain α γ} {c : List α} {r : List γ} {ss : List (Step α)} {rs : Results} :
      Gives ch c r → Owned moved (left moved ch c) ss rs → Owned moved c (.use ch :: ss) (⟨γ, r⟩ :: rs)
  | write {g : List α → List α} {c : List α} {ss : List (Step α)} {rs : Results} : Owned moved c ss rs → Owned moved c (.write g :: ss) rs
  | leave {c : List α} {ss : List (Step α)} {rs : Results} : Owned moved c ss rs → Owned moved c (.leave :: ss) rs

/-- The chain starts with `select` with a function that takes a const reference. -/
def StartsReading : {γ : Type} → Chain α γ → Prop
  | _, .select f _ => f.takes = false
  | _, .select2 t _ _ => t = false
  | _, _ => False

/-- Every chain gives what it should for the collection `c`. -/
inductive EachGives (c : List α) : List (Step α) → Results → Prop
  | nil : EachGives c [] []
  | use {γ : Type} {ch : Chain α γ} {r : List γ} {ss : List (Step α)} {rs : Results} :
      Gives ch c r → EachGives c ss rs → EachGives c (.use ch :: ss) (⟨γ, r⟩ :: rs)
  | write {g : List α → List α} {ss : List (Step α)} {rs : Results} : EachGives c ss rs → EachGives c (.write g :: ss) rs
  | leave {ss : List (Step α)} {rs : Results} : EachGives c ss rs → EachGives c (.leave :: ss) rs

/-- The program does not change the variable. -/
def NoWrite (ss : List (Step α)) : Prop := ∀ s ∈ ss, match s with | .write _ => False | _ => True

/-- The variable does not go out of scope. -/
def NoLeave (ss : List (Step α)) : Prop := ∀ s ∈ ss, match s with | .leave => False | _ => True

/-- The program does not change the variable after it is gone. -/
def WritesAlive : List (Step α) → Prop
  | [] => True
  | .leave :: ss => NoWrite ss
  | _ :: ss => WritesAlive ss

end Spec
end Utki
