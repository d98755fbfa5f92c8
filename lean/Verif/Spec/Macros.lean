import Verif.Model.Macros
/-!
# Arguments of macros
-/
namespace Utki.Spec
open Macro

/-- A text with matching parentheses. -/
inductive Matching : List Tok → Prop where
  | nil : Matching []
  | word (w : String) (r : List Tok) : Matching r → Matching (.word w :: r)
  | comma (r : List Tok) : Matching r → Matching (.comma :: r)
  | parens (inner r : List Tok) : Matching inner → Matching r → Matching (.lpar :: inner ++ .rpar :: r)

/-- A text with matching parentheses and no comma outside of parentheses. -/
inductive Argument : List Tok → Prop where
  | nil : Argument []
  | word (w : String) (r : List Tok) : Argument r → Argument (.word w :: r)
  | parens (inner r : List Tok) : Matching inner → Argument r → Argument (.lpar :: inner ++ .rpar :: r)

/-- Texts separated by commas. -/
def separated : List (List Tok) → List Tok
  | [] => []
  | [c] => c
  | c :: cs => c ++ .comma :: separated cs

end Utki.Spec
