import Verif.Model.OMap
/-!
# `linq`: `/repo/src/utki/linq.hpp`

A collection is the list of its elements in iteration order. `moved a` is what moving from an element with value `a` leaves behind; copying an
element is counted, to be able to say what is not copied. Simplified: memory is not exhausted, copying elements does not throw; the passed functions
have no effects and do not throw (`Model/LinqEffects.lean` models functions that do).
-/
namespace Utki
namespace Linq

variable {α β κ : Type}

/-- A function object passed to one of the operations: its result for an element, and how it takes the element: `takes` is true if the
parameter is passed by value (or is an rvalue reference from which the function moves), false if it is a const reference. -/
structure Fn (α β : Type) where
  app : α → β
  takes : Bool

/-- What is left of an element of which a function took an rvalue: nothing happens to a const element, it is copied. `konst`: the collection is
const, that is, the aggregator was made from an lvalue. -/
def passed (konst takes : Bool) (moved : α → α) (a : α) : α := if takes && !konst then moved a else a

/-- Number of copies made for that. -/
def passedCopies (konst takes : Bool) : Nat := if takes && konst then 1 else 0

/-- The outcome of an operation: the new collection, what the elements of the old collection are afterwards, how many element copies were made. -/
structure Out (α β : Type) where
  ret : List β
  src : List α
  copies : Nat

/-- Loop of `select` with a function of one argument, linq.hpp 113-115: `for(auto&& e : collection) ret.push_back(func(std::move(e)))`.
The result of the function is moved into the vector. -/
def selectLoop (konst : Bool) (moved : α → α) (f : Fn α β) : List α → Out α β → Out α β
  | [], o => o
  | e :: es, o =>
    selectLoop konst moved f es ⟨o.ret ++ [f.app e], o.src ++ [passed konst f.takes moved e], o.copies + passedCopies konst f.takes⟩

/-- `select`, linq.hpp 91-125, function of one argument. -/
def select (konst : Bool) (moved : α → α) (f : Fn α β) (collection : List α) : Out α β := selectLoop konst moved f collection ⟨[], [], 0⟩

/-- Loop of `select` with a function of two arguments, linq.hpp 117-121. -/
def select2Loop (konst : Bool) (moved : α → α) (takes : Bool) (f : α → Nat → β) : List α → Nat → Out α β → Out α β
  | [], _, o => o
  | e :: es, i, o =>
    select2Loop konst moved takes f es (i + 1) ⟨o.ret ++ [f e i], o.src ++ [passed konst takes moved e], o.copies + passedCopies konst takes⟩

/-- `select`, linq.hpp 91-125, function of two arguments: the element and its index. -/
def select2 (konst : Bool) (moved : α → α) (takes : Bool) (f : α → Nat → β) (collection : List α) : Out α β :=
  select2Loop konst moved takes f collection 0 ⟨[], [], 0⟩

/-- Loop of `std::copy_if` in `where`, linq.hpp 172-177: `for(; first != last; ++first) if(func(*first)) { *out = *first; ++out; }` where
`*first` is an rvalue, as the iterators are `std::move_iterator`s: the function is passed an rvalue, and if it returns true what is in the element
then is moved (if const: copied) into the result. `insert` is the insertion into the result. -/
def whereLoop (konst : Bool) (moved : α → α) (insert : α → List α → List α) (f : Fn α Bool) : List α → Out α α → Out α α
  | [], o => o
  | e :: es, o =>
    let c := f.app e
    let e1 := passed konst f.takes moved e
    let n := o.copies + passedCopies konst f.takes
    if c then
      whereLoop konst moved insert f es ⟨insert e1 o.ret, o.src ++ [passed konst true moved e1], n + passedCopies konst true⟩
    else whereLoop konst moved insert f es ⟨o.ret, o.src ++ [e1], n⟩

/-- `where`, linq.hpp 155-180, for a sequence container (`std::vector`, `std::list`, `std::deque`): `std::inserter(ret, ret.end())` appends. -/
def where_ (konst : Bool) (moved : α → α) (f : Fn α Bool) (collection : List α) : Out α α :=
  whereLoop konst moved (fun a l => l ++ [a]) f collection ⟨[], [], 0⟩

/-- The same for `std::map`: elements are inserted at their place. (For `std::set` take the element as key and nothing as value; its elements are
const.) -/
def whereMap {ν : Type} (konst : Bool) (moved : κ × ν → κ × ν) (lt : κ → κ → Bool) (f : Fn (κ × ν) Bool) (collection : List (κ × ν)) :
    Out (κ × ν) (κ × ν) :=
  whereLoop konst moved (fun p l => OMap.insert lt p.1 p.2 l) f collection ⟨[], [], 0⟩

/-- Loop of `group_by`, linq.hpp 148-150: `ret[func(v)].push_back(std::move(v))`. The function is passed an lvalue: a parameter by value is
copied. -/
def groupByLoop (konst : Bool) (moved : α → α) (lt : κ → κ → Bool) (f : Fn α κ) : List α → Out α (κ × List α) → Out α (κ × List α)
  | [], o => o
  | v :: vs, o =>
    groupByLoop konst moved lt f vs ⟨OMap.upsert lt (f.app v) [] (fun g => g ++ [v]) o.ret, o.src ++ [passed konst true moved v],
      o.copies + (if f.takes then 1 else 0) + passedCopies konst true⟩

/-- `group_by`, linq.hpp 127-153. -/
def groupBy (konst : Bool) (moved : α → α) (lt : κ → κ → Bool) (f : Fn α κ) (collection : List α) : Out α (κ × List α) :=
  groupByLoop konst moved lt f collection ⟨[], [], 0⟩

/-- `order_by`, linq.hpp 182-213. `sort` is `std::sort` with the comparator of lines 199-201. With an rvalue the collection is sorted in place and
moved out as a whole (moving from a vector leaves it empty); with an lvalue a copy is sorted. -/
def orderBy (konst : Bool) (sort : List α → List α) (collection : List α) : Out α α :=
  if konst then ⟨sort collection, collection, collection.length⟩ else ⟨sort collection, [], 0⟩

/-- The comparator of `order_by`, linq.hpp 199-201. -/
def comparer (lt : κ → κ → Bool) (key : α → κ) (a b : α) : Bool := lt (key a) (key b)

/-- A chain of operations, `.select(...).where(...)...`. -/
inductive Chain : Type → Type → Type 1 where
  | get {α : Type} : Chain α α
  | select {α β γ : Type} (f : Fn α β) (next : Chain β γ) : Chain α γ
  | select2 {α β γ : Type} (takes : Bool) (f : α → Nat → β) (next : Chain β γ) : Chain α γ
  | where_ {α γ : Type} (f : Fn α Bool) (next : Chain α γ) : Chain α γ
  | groupBy {α κ γ : Type} (lt : κ → κ → Bool) (f : Fn α κ) (next : Chain (κ × List α) γ) : Chain α γ
  | orderBy {α κ γ : Type} (lt : κ → κ → Bool) (key : α → κ) (sort : List α → List α) (next : Chain α γ) : Chain α γ

/-- The chain run on an aggregator; `linq(lvalue)` makes a const one, linq.hpp 216-226, `linq(rvalue)` and every operation make one that owns its
collection (`konst = false`), linq.hpp 228-232. `moved` tells for every element type what moving leaves. `get`, linq.hpp 86-89: an aggregator of
an lvalue gives a reference to it, others move their collection out. -/
def run (moved : (α : Type) → α → α) : {α γ : Type} → Chain α γ → Bool → List α → Out α γ
  | _, _, .get, konst, c => ⟨c, if konst then c else [], 0⟩
  | α, _, .select f next, konst, c =>
    let o := select konst (moved α) f c
    let p := run moved next false o.ret
    ⟨p.ret, o.src, o.copies + p.copies⟩
  | α, _, .select2 takes f next, konst, c =>
    let o := select2 konst (moved α) takes f c
    let p := run moved next false o.ret
    ⟨p.ret, o.src, o.copies + p.copies⟩
  | α, _, .where_ f next, konst, c =>
    let o := where_ konst (moved α) f c
    let p := run moved next false o.ret
    ⟨p.ret, o.src, o.copies + p.copies⟩
  | α, _, .groupBy lt f next, konst, c =>
    let o := groupBy konst (moved α) lt f c
    let p := run moved next false o.ret
    ⟨p.ret, o.src, o.copies + p.copies⟩
  | _, _, .orderBy _ _ sort next, konst, c =>
    let o := orderBy konst sort c
    let p := run moved next false o.ret
    ⟨p.ret, o.src, o.copies + p.copies⟩

end Linq
end Utki
