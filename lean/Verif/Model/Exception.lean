import Verif.Core
/-!
# Exceptions with nested exceptions: `exception.hpp`, `exception.cpp`

An exception object is described by how its class is related to `std::exception`, `utki::exception` and `std::nested_exception`, by the
demangled name of its dynamic type, by its `what()` and by the exception it holds. Simplified: memory is not exhausted; class names are those
GCC and Clang give (`demangle`, debug.cpp 102-145, is taken as it is); rethrowing an exception gives the same object.
-/
namespace Utki
namespace Exception

/-- How a class, other than `stacked_exception`, is related to the exception classes. -/
inductive Kind where
  /-- derived from `std::exception`, not from `utki::exception` -/
  | std
  /-- derived from `utki::exception`, inherits its `to_string` -/
  | utki
  /-- not derived from `std::exception` -/
  | other
  deriving DecidableEq, Repr

/-- An exception object. -/
inductive Exc where
  /-- not a `std::nested_exception` -/
  | plain (k : Kind) (type what : List Byte)
  /-- also a `std::nested_exception`, with an exception in it (made by `std::throw_with_nested`) -/
  | nest (k : Kind) (type what : List Byte) (inner : Exc)
  /-- also a `std::nested_exception`, made outside of any `catch` block -/
  | nestNull (k : Kind) (type what : List Byte)
  /-- `stacked_exception<...>` (made by `utki::throw_with_nested`), exception.hpp 76-126, with its members `nesting` and `nested` -/
  | stack (type : List Byte) (nesting inner : Exc)
  /-- the same made outside of any `catch` block -/
  | stackNull (type : List Byte) (nesting : Exc)

/-- `demangle(typeid(e))`. -/
def typeName : Exc → List Byte
  | .plain _ t _ | .nest _ t _ _ | .nestNull _ t _ | .stack t _ _ | .stackNull t _ => t

/-- `catch (std::exception&)` catches it. -/
def isStd : Exc → Bool
  | .plain k _ _ | .nest k _ _ _ | .nestNull k _ _ => k != .other
  | .stack .. | .stackNull .. => true

/-- `catch (utki::exception&)` catches it. -/
def isUtki : Exc → Bool
  | .plain k _ _ | .nest k _ _ _ | .nestNull k _ _ => k == .utki
  | .stack .. | .stackNull .. => true

/-- Measure for termination: number of exception objects in `e`. -/
def count : Exc → Nat
  | .plain .. | .nestNull .. => 1
  | .nest _ _ _ i => count i + 1
  | .stack _ n i => count n + count i + 1
  | .stackNull _ n => count n + 1

/-- Measure for termination: order of the functions on the same object. -/
def rank : Exc → Nat × Nat
  | .stack .. | .stackNull .. => (2, 1)
  | _ => (0, 4)

theorem rank_le (e : Exc) : (rank e).1 ≤ 2 ∧ (rank e).2 ≤ 4 := by cases e <;> simp [rank]
theorem rank_stack (t n i) : (rank (.stack t n i)).2 = 1 := rfl
theorem rank_stackNull (t n) : (rank (.stackNull t n)).2 = 1 := rfl
theorem rank_plain (k t w) : (rank (.plain k t w)).2 = 4 := rfl
theorem rank_nest (k t w i) : (rank (.nest k t w i)).2 = 4 := rfl
theorem rank_nestNull (k t w) : (rank (.nestNull k t w)).2 = 4 := rfl

mutual

/-- `e.what()`. For `stacked_exception`: exception.hpp 97-108 (`utki::cat` is concatenation). -/
def what : Exc → Res (List Byte)
  | .plain _ _ w | .nest _ _ w _ | .nestNull _ _ w => .ok w
  | .stack t n i => do
    let s ← member (.stack t n i) (str "- ")
    return str "exception stack:\n" ++ s
  | .stackNull t n => do
    let s ← member (.stackNull t n) (str "- ")
    return str "exception stack:\n" ++ s
termination_by e => 5 * count e + (rank e).1
decreasing_by all_goals simp [count, rank]

/-- `utki::to_string(e, indentation)`, exception.cpp 84-97. `std::rethrow_if_nested` does nothing unless `e` is a `std::nested_exception`, and
calls `std::terminate` if that holds no exception. -/
def toString (e : Exc) (ind : List Byte) : Res (List Byte) := do
  let w ← what e
  let ss := ind ++ typeName e ++ str ": " ++ w
  match e with
  | .nest _ _ _ i =>
    if isStd i then do
      let s ← toString i ind
      return ss ++ str "\n" ++ s
    else do
      let s ← current i ind
      return ss ++ str "\n" ++ s
  | .nestNull .. => .terminate
  | _ => return ss
termination_by 5 * count e + 3
decreasing_by
  all_goals first | (simp only [count]; omega) | (have h := rank_le e; omega)

/-- `e.to_string(indentation)` of an `utki::exception`: exception.cpp 45-48; for `stacked_exception`: exception.hpp 110-125.
`rethrow_nested` calls `std::terminate` if there is no exception. -/
def member (e : Exc) (ind : List Byte) : Res (List Byte) :=
  match e with
  | .stack _ n i => do
    let a ← toString n []
    let ss := ind ++ a
    if isUtki i then do
      let b ← member i ind
      return ss ++ str "\n" ++ b
    else if isStd i then do
      let b ← toString i ind
      return ss ++ str "\n" ++ b
    else do
      let b ← current i ind
      return ss ++ str "\n" ++ b
  | .stackNull _ n => do
    let _ ← toString n []
    .terminate
  | .plain k t w => toString (.plain k t w) []
  | .nest k t w i => toString (.nest k t w i) []
  | .nestNull k t w => toString (.nestNull k t w) []
termination_by 5 * count e + (rank e).2
decreasing_by
  all_goals (try (have h := rank_le i; simp only [count, rank_stack] at *; omega))
  all_goals (simp only [count, rank_stackNull, rank_plain, rank_nest, rank_nestNull] at *; omega)

/-- `current_exception_to_string(indentation)`, exception.cpp 50-82, called while `e` is handled. -/
def current (e : Exc) (ind : List Byte) : Res (List Byte) :=
  let ss := ind ++ typeName e
  match e with
  | .nest _ _ _ i =>
    if isStd i then do
      let s ← toString i ind
      return ss ++ str "\n" ++ s
    else do
      let s ← current i ind
      return ss ++ str "\n" ++ s
  | .nestNull .. => .terminate
  | _ => .ok ss
termination_by 5 * count e
decreasing_by all_goals (simp [count] <;> omega)

end

/-- `current_exception_to_string`, exception.cpp 50-54: throws outside of a `catch` block. `cur`: the exception being handled. -/
def currentToString (cur : Option Exc) (ind : List Byte) : Res (List Byte) :=
  match cur with
  | none => .throw .logic_error
  | some e => current e ind

/-- `throw_with_nested(exception)`, exception.hpp 134-149: the exception that it throws; `type` is the name of `stacked_exception<...>`. -/
def throwWithNested (dbg : Bool) (cur : Option Exc) (type : List Byte) (exception : Exc) : Res Exc := do
  ASSERT dbg cur.isSome
  match cur with
  | some e => return .stack type exception e
  | none => return .stackNull type exception

end Exception
end Utki
