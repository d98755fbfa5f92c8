import Verif.Core
/-!
# The preprocessor

As much of the C++ preprocessor ([cpp.cond], [cpp.replace]) as /repo/src/utki/config.hpp and /repo/src/utki/windows.hpp use: object-like macros whose body is one number, one name, empty or
some other text; `#define`, `#undef`, `#if`/`#elif`/`#else` with `defined`, comparisons, `&&` and `||`.
-/
namespace Utki
namespace Cpp

/-- The body of a macro. -/
inductive Body where
  | num (n : Int)
  | name (x : String)
  | blank
  | text (s : String)
deriving DecidableEq, Repr

/-- The macros that are defined. -/
abbrev Env := List (String × Body)

/-- Is a macro with that name defined? -/
def isDef (e : Env) (x : String) : Bool := (e.lookup x).isSome

/-- The value of a name in an `#if`: macros are replaced as long as that is possible, but not again inside of their own replacement; names that are left count as 0. None: not a number.
The first argument is a bound on the replacements, which the number of macros is. -/
def valueIn (e : Env) : Nat → List String → String → Option Int
  | 0, _, _ => none
  | n + 1, seen, x =>
    if x ∈ seen then some 0 else
    match e.lookup x with
    | none => some 0
    | some (.num v) => some v
    | some (.name y) => valueIn e n (x :: seen) y
    | some _ => none

/-- The value of a name. -/
def value (e : Env) (x : String) : Option Int := valueIn e (e.length + 1) [] x

/-- The conditions of `#if`. -/
inductive Cond where
  | defd (x : String)
  /-- `x == y` -/
  | eq (x y : String)
  /-- `x == n` -/
  | eqn (x : String) (n : Int)
  /-- `x > n` -/
  | gt (x : String) (n : Int)
  /-- `x < n` -/
  | lt (x : String) (n : Int)
  /-- `(x + 0)`, which is `(+ 0)` if the macro is empty -/
  | plus0 (x : String)
  | and (a b : Cond)
  | or (a b : Cond)

/-- The value of a condition; none: it is ill-formed. Also the operand of `&&` or `||` that does not count must be well-formed. -/
def Cond.eval (e : Env) : Cond → Option Bool
  | .defd x => some (isDef e x)
  | .eq x y => do
    let a ← value e x
    let b ← value e y
    pure (a == b)
  | .eqn x n => do
    let a ← value e x
    pure (a == n)
  | .gt x n => do
    let a ← value e x
    pure (decide (a > n))
  | .lt x n => do
    let a ← value e x
    pure (decide (a < n))
  | .plus0 x =>
    if e.lookup x = some .blank then some false else do
    let a ← value e x
    pure (a != 0)
  | .and a b => do
    let x ← a.eval e
    let y ← b.eval e
    pure (x && y)
  | .or a b => do
    let x ← a.eval e
    let y ← b.eval e
    pure (x || y)

/-- Directives. `#elif` is an `#if` in the `#else`. -/
inductive Text where
  | done
  | define (x : String) (b : Body) (rest : Text)
  | undef (x : String) (rest : Text)
  | cond (c : Cond) (t e : Text) (rest : Text)

/-- What a text does to the macros; none: it is ill-formed. A macro may be defined again only with the same body, [cpp.replace]/2. -/
def Text.run : Text → Env → Option Env
  | .done, e => some e
  | .define x b rest, e =>
    match e.lookup x with
    | none => rest.run ((x, b) :: e)
    | some b' => if b' = b then rest.run e else none
  | .undef x rest, e => rest.run (e.filter (fun m => m.1 != x))
  | .cond c t f rest, e =>
    match c.eval e with
    | none => none
    | some true => (t.run e).bind rest.run
    | some false => (f.run e).bind rest.run

/-- One directive after the other. -/
def Text.of : List (Text → Text) → Text := List.foldr (fun f t => f t) .done

/-- `#define x n` -/
def DEFINE (x : String) (n : Int) : Text → Text := .define x (.num n)
/-- `#define x y` -/
def ALIAS (x y : String) : Text → Text := .define x (.name y)
/-- `#if c … #else … #endif` -/
def IF (c : Cond) (t f : List (Text → Text)) : Text → Text := .cond c (.of t) (.of f)
/-- `#undef x` -/
def UNDEF (x : String) : Text → Text := .undef x

end Cpp
end Utki
