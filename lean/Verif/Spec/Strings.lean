import Verif.Core
/-!
# Specification: words of a text
-/
namespace Utki.Spec

/-- `Words sp s ws`: `ws` are the words of `s`, where `sp` tells which characters separate words. -/
inductive Words {α : Type} (sp : α → Prop) : List α → List (List α) → Prop
  /-- only separators: no words -/
  | none (s : List α) : (∀ c ∈ s, sp c) → Words sp s []
  /-- separators, then a maximal run of other characters, then the rest -/
  | word (gap w rest : List α) (ws : List (List α)) :
      (∀ c ∈ gap, sp c) → w ≠ [] → (∀ c ∈ w, ¬ sp c) → (∀ c, rest.head? = some c → sp c) →
      Words sp rest ws → Words sp (gap ++ w ++ rest) (w :: ws)

end Utki.Spec
