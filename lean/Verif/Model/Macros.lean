import Verif.Core
/-!
# macros.hpp, and the macro ASSERT

Macros with parameters over tokens. Only what decides how the arguments are told apart is kept of a token: parentheses and commas. The tokens of the arguments are not names of macros.
-/
namespace Utki
namespace Macro

/-- A token. -/
inductive Tok where
  | lpar | rpar | comma
  | word (s : String)
deriving DecidableEq, Repr

/-- The arguments in the text between the parentheses of a macro call, [cpp.replace]/11: separated by the commas that are not between inner parentheses. The first argument is the number of these that
are open, the second the beginning of the current argument. -/
def split : Nat → List Tok → List Tok → List (List Tok)
  | _, cur, [] => [cur]
  | d, cur, .lpar :: r => split (d + 1) (cur ++ [.lpar]) r
  | d, cur, .rpar :: r => split (d - 1) (cur ++ [.rpar]) r
  | 0, cur, .comma :: r => cur :: split 0 [] r
  | d + 1, cur, .comma :: r => split (d + 1) (cur ++ [.comma]) r
  | d, cur, .word w :: r => split d (cur ++ [.word w]) r

/-- All arguments. -/
def args (x : List Tok) : List (List Tok) := split 0 [] x

/-- `UTKI_GET_MACRO`, macros.hpp 36; none: too few arguments. (Before C++20 one more is asked for by the standard, but not by compilers.) -/
def getMacro (l : List (List Tok)) : Option (List Tok) := l[10]?

/-- The names of the overloads, debug.hpp 530. -/
def overloads : List String := ["_10", "_9", "_8", "_7", "_6", "_5", "_4", "_3", "ASSERT2", "ASSERT1"]

/-- `ASSERT1`, debug.hpp 517 and 523. -/
def assert1 (dbg : Bool) (c : List Tok) : List Tok := if dbg then [.word "utki::assert", .lpar] ++ c ++ [.comma, .word "SL", .rpar, .word ";"] else []

/-- `ASSERT2`, debug.hpp 519 and 524. -/
def assert2 (dbg : Bool) (c p : List Tok) : List Tok := if dbg then [.word "utki::assert", .lpar] ++ c ++ [.comma] ++ p ++ [.comma, .word "SL", .rpar, .word ";"] else []

/-- The text `m (x)` is scanned again for macros. -/
def rescan (dbg : Bool) (m x : List Tok) : Option (List Tok) :=
  match m.getLast? with
  | some (.word "ASSERT1") => match args x with
    | [c] => some (m.dropLast ++ assert1 dbg c)
    | _ => none
  | some (.word "ASSERT2") => match args x with
    | [c, p] => some (m.dropLast ++ assert2 dbg c p)
    | _ => none
  | _ => some (m ++ [.lpar] ++ x ++ [.rpar])

/-- `ASSERT(x)`, debug.hpp 530: what it is replaced with. -/
def ASSERT (dbg : Bool) (x : List Tok) : Option (List Tok) :=
  match getMacro (args (x ++ overloads.flatMap (fun n => [.comma, .word n]))) with
  | none => none
  | some m => rescan dbg m x

end Macro
end Utki
