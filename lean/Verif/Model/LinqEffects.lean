import Verif.Model.Linq
/-!
# `linq` with functions that have effects: `/repo/src/utki/linq.hpp`

`Model/Linq.lean` takes the functions passed to `select`, `where` and `group_by` to be pure. Here they are arbitrary function objects: they can
change a state `σ`, answer differently from call to call, throw, or not return at all. A parameter taken by value is initialised before the
function runs, so an element is gone even if the function then throws. Copying and moving elements does not throw. The key function of
`order_by` is called from within `std::sort`, how often is not specified; it is not modelled here.
-/
namespace Utki
namespace Linq

variable {α β κ σ : Type}

/-- What an operation leaves: what the elements of the old collection are, and the state of the function object. -/
structure After (α σ : Type) where
  src : List α
  user : σ
deriving DecidableEq, Repr

/-- Loop of `select` with a function of one argument, linq.hpp 113-115. `ret` is the result so far, `done` the elements already visited; when the
function does not return, the loop is left and the elements to come are as they were. -/
def selectLoopM (konst takes : Bool) (moved : α → α) (f : α → Meth σ β) : List α → List β → List α → σ → Res (List β) × After α σ
  | [], ret, done, s => (.ok ret, ⟨done, s⟩)
  | e :: es, ret, done, s =>
    let e1 := passed konst takes moved e
    match f e s with
    | (.ok r, s') => selectLoopM konst takes moved f es (ret ++ [r]) (done ++ [e1]) s'
    | (r, s') => (r.bind fun _ => .diverge, ⟨done ++ e1 :: es, s'⟩)

/-- `select`, linq.hpp 91-125, function of one argument. -/
def selectM (konst takes : Bool) (moved : α → α) (f : α → Meth σ β) (collection : List α) (s : σ) : Res (List β) × After α σ :=
  selectLoopM konst takes moved f collection [] [] s

/-- Loop of `select` with a function of two arguments, linq.hpp 117-121. -/
def select2LoopM (konst takes : Bool) (moved : α → α) (f : α → Nat → Meth σ β) :
    List α → Nat → List β → List α → σ → Res (List β) × After α σ
  | [], _, ret, done, s => (.ok ret, ⟨done, s⟩)
  | e :: es, i, ret, done, s =>
    let e1 := passed konst takes moved e
    match f e i s with
    | (.ok r, s') => select2LoopM konst takes moved f es (i + 1) (ret ++ [r]) (done ++ [e1]) s'
    | (r, s') => (r.bind fun _ => .diverge, ⟨done ++ e1 :: es, s'⟩)

/-- `select`, linq.hpp 91-125, function of two arguments. -/
def select2M (konst takes : Bool) (moved : α → α) (f : α → Nat → Meth σ β) (collection : List α) (s : σ) : Res (List β) × After α σ :=
  select2LoopM konst takes moved f collection 0 [] [] s

/-- Loop of `std::copy_if` in `where`, linq.hpp 172-177, for a sequence container. -/
def whereLoopM (konst takes : Bool) (moved : α → α) (f : α → Meth σ Bool) : List α → List α → List α → σ → Res (List α) × After α σ
  | [], ret, done, s => (.ok ret, ⟨done, s⟩)
  | e :: es, ret, done, s =>
    let e1 := passed konst takes moved e
    match f e s with
    | (.ok true, s') => whereLoopM konst takes moved f es (ret ++ [e1]) (done ++ [passed konst true moved e1]) s'
    | (.ok false, s') => whereLoopM konst takes moved f es ret (done ++ [e1]) s'
    | (r, s') => (r.bind fun _ => .diverge, ⟨done ++ e1 :: es, s'⟩)

/-- `where`, linq.hpp 155-180. -/
def whereM (konst takes : Bool) (moved : α → α) (f : α → Meth σ Bool) (collection : List α) (s : σ) : Res (List α) × After α σ :=
  whereLoopM konst takes moved f collection [] [] s

/-- Loop of `group_by`, linq.hpp 148-150: the key is computed before the element is moved. -/
def groupByLoopM (konst : Bool) (moved : α → α) (lt : κ → κ → Bool) (f : α → Meth σ κ) :
    List α → List (κ × List α) → List α → σ → Res (List (κ × List α)) × After α σ
  | [], ret, done, s => (.ok ret, ⟨done, s⟩)
  | v :: vs, ret, done, s =>
    match f v s with
    | (.ok k, s') =>
      groupByLoopM konst moved lt f vs (OMap.upsert lt k [] (fun g => g ++ [v]) ret) (done ++ [passed konst true moved v]) s'
    | (r, s') => (r.bind fun _ => .diverge, ⟨done ++ v :: vs, s'⟩)

/-- `group_by`, linq.hpp 127-153. -/
def groupByM (konst : Bool) (moved : α → α) (lt : κ → κ → Bool) (f : α → Meth σ κ) (collection : List α) (s : σ) :
    Res (List (κ × List α)) × After α σ :=
  groupByLoopM konst moved lt f collection [] [] s

end Linq
end Utki
