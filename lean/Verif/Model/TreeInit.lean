import Verif.Model.Tree
/-!
# What the constructors of `utki::tree` make of braced lists

Model of the constructors of `tree`, /repo/src/utki/tree.hpp 70-128, and of the choice among them, with the rules of the language for initialization by lists.
Expressions of the type of the values, of a type that converts to it, of the type of trees and of the type of containers of trees are distinguished; no others occur.
Simplified: expressions of the types `tree` and `container_type` are lvalues or results of constructor calls; the former are copied where they are used.
The container is `std::vector`. The type of the values has no constructor from a list of two or more elements that could be meant.
-/
namespace Utki
namespace TreeInit
variable {α : Type}

/-- The type of the values: whether it is a scalar (`int`, a pointer, ...) or a class, and the value that `element_type()` gives. -/
structure ValueType (α : Type) where
  scalar : Bool
  default : α

/-- A member without an initializer: for scalars the value is indeterminate (`none`), for classes the default constructor is called. -/
def ValueType.noInit (T : ValueType α) : Option α := if T.scalar then none else some T.default

/-- A tree; a value that is `none` is indeterminate. -/
abbrev Node (α : Type) := Tree (Option α)

/-- Initializers. -/
inductive Init (α : Type) where
  /-- an expression of the type of the values, or of a type with a standard conversion to it that does not narrow -/
  | val (v : α)
  /-- an expression with a user-defined conversion to the type of the values, like a string literal for `std::string` -/
  | conv (v : α)
  /-- an expression of type `tree` -/
  | tree (t : Node α)
  /-- an expression of type `tree::container_type` -/
  | cont (c : List (Node α))
  /-- `{a, b, ...}` -/
  | braces (es : List (Init α))
  /-- `tree(a)` -/
  | call1 (a : Init α)
  /-- `tree(a, b)` -/
  | call2 (a b : Init α)

inductive Kind where
  | tree | cont | braces | other
deriving DecidableEq, Repr

/-- Ranks of conversions; that of `exact` is a standard conversion sequence, that of `user` a user-defined one. -/
inductive Rank where
  | exact | user
deriving DecidableEq, Repr

def Rank.worst : Rank → Rank → Rank
  | .exact, .exact => .exact
  | _, _ => .user

/-- To which parameters an initializer converts, how well, and what the conversion gives. -/
structure Info (α : Type) where
  kind : Kind
  /-- to `element_type` -/
  toValue : Option (Rank × α)
  /-- to `tree` -/
  toTree : Option (Rank × Res (Node α))
  /-- to `container_type` -/
  toCont : Option (Rank × Res (List (Node α)))
  /-- to `std::initializer_list<tree>` -/
  toList : Option (Rank × Res (List (Node α)))

mutual
/-- Has every value in the tree been initialized? -/
def initialized : Node α → Bool
  | .node v cs => v.isSome && initializedList cs
def initializedList : List (Node α) → Bool
  | [] => true
  | t :: ts => initialized t && initializedList ts
end

/-- The copy of a tree, tree.hpp 70: copying an indeterminate value is undefined. -/
def copyTree (t : Node α) : Res (Node α) := if initialized t then .ok t else .ub .bad_argument

/-- The copies of several trees. -/
def copyList (ts : List (Node α)) : Res (List (Node α)) := if initializedList ts then .ok ts else .ub .bad_argument

/-- `tree(element_type value = element_type())`, tree.hpp 84-86. -/
def ofValue (v : α) : Res (Node α) := .ok (.node (some v) [])
/-- `tree(container_type children)`, tree.hpp 93-95: the member `value` has no initializer. -/
def ofCont (T : ValueType α) (c : Res (List (Node α))) : Res (Node α) := do
  let c ← c
  return .node T.noInit c
/-- `tree(std::initializer_list<tree> children)`, tree.hpp 102-104: the member `value` has no initializer, the elements are copied. -/
def ofList (T : ValueType α) (l : Res (List (Node α))) : Res (Node α) := do
  let l ← l
  let c ← copyList l
  return .node T.noInit c
/-- `tree(element_type value, std::initializer_list<tree> children)`, tree.hpp 111-114. -/
def ofValueList (v : α) (l : Res (List (Node α))) : Res (Node α) := do
  let l ← l
  let c ← copyList l
  return .node (some v) c
/-- `tree(element_type value, container_type children)`, tree.hpp 121-124. -/
def ofValueCont (v : α) (c : Res (List (Node α))) : Res (Node α) := do
  let c ← c
  return .node (some v) c

/-- A candidate: how well its argument converts, whether to an `std::initializer_list`, and what it makes. -/
structure Cand (α : Type) where
  rank : Rank
  list : Bool
  result : Res (Node α)

/-- The best of the viable candidates: standard conversions are better than user-defined ones, among conversions of the same form that to an `std::initializer_list`
is the best; otherwise there must be one only. -/
def pick (cs : List (Cand α)) : Option (Res (Node α)) :=
  let best := if cs.any (·.rank = .exact) then cs.filter (·.rank = .exact) else cs
  match best.filter (·.list) with
  | [c] => some c.result
  | _ =>
    match best with
    | [c] => some c.result
    | _ => none

/-- The constructors with one parameter: of a value, of a container, of a list, and those that copy and move. -/
def candidates1 (T : ValueType α) (i : Info α) : List (Cand α) :=
  (i.toValue.map fun (r, v) => ⟨r, false, ofValue v⟩).toList ++
  (i.toCont.map fun (r, c) => ⟨r, false, ofCont T c⟩).toList ++
  (i.toList.map fun (r, l) => ⟨r, true, ofList T l⟩).toList ++
  (i.toTree.map fun (r, t) => ⟨r, false, t⟩).toList

/-- The constructors with two parameters. -/
def candidates2 (a b : Info α) : List (Cand α) :=
  match a.toValue with
  | none => []
  | some (_, v) =>
    (b.toList.map fun (r, l) => ⟨r, true, ofValueList v l⟩).toList ++
    (b.toCont.map fun (r, c) => ⟨r, false, ofValueCont v c⟩).toList

/-- The initialization of each element of an `std::initializer_list<tree>`: how well the worst converts, and what they give. -/
def elements : List (Info α) → Option (Rank × Res (List (Node α)))
  | [] => some (.exact, .ok [])
  | i :: is =>
    match i.toTree, elements is with
    | some (r, t), some (s, ts) =>
      some (r.worst s, do
        let t ← t
        let ts ← ts
        return t :: ts)
    | _, _ => none

/-- A list converted to `element_type`: `{}` and a single expression. -/
def listToValue (T : ValueType α) : List (Info α) → Option (Rank × α)
  | [] => some (if T.scalar then .exact else .user, T.default)
  | [i] => if i.kind = .braces then none else i.toValue
  | _ => none

/-- A list converted to `tree`. With `dr1467` a list of one expression of type `tree` is that tree, as some compilers do it (CWG 1467 without CWG 2137). Then: the default constructor
for the empty list; the constructor of a list, if all elements convert to `tree`; otherwise the constructors with the elements as arguments (in this step the constructors that
copy and move are not viable, because the element does not convert to `tree`). -/
def listToTree (T : ValueType α) (dr1467 : Bool) (is : List (Info α)) : Option (Rank × Res (Node α)) :=
  match is with
  | [] => some (.user, ofValue T.default)
  | i :: rest =>
    if dr1467 && rest.isEmpty && i.kind = .tree then i.toTree
    else
      match elements is with
      | some (_, l) => some (.user, ofList T l)
      | none =>
        match rest with
        | [] => (pick (candidates1 T i)).map (.user, ·)
        | [j] => (pick (candidates2 i j)).map (.user, ·)
        | _ => none

/-- A list converted to `container_type`. -/
def listToCont (dr1467 : Bool) (is : List (Info α)) : Option (Rank × Res (List (Node α))) :=
  match is with
  | [i] =>
    if dr1467 && i.kind = .cont then i.toCont
    else (elements is).map fun (_, l) => (.user, l.bind copyList)
  | _ => (elements is).map fun (_, l) => (.user, l.bind copyList)

mutual
/-- What can be done with an initializer; everything `none` if it is an expression that does not compile. -/
def info (T : ValueType α) (dr1467 : Bool) : Init α → Info α
  | .val v => ⟨.other, some (.exact, v), some (.user, ofValue v), none, none⟩
  | .conv v => ⟨.other, some (.user, v), none, none, none⟩
  | .tree t => ⟨.tree, none, some (.exact, copyTree t), none, none⟩
  | .cont c => ⟨.cont, none, some (.user, ofCont T (copyList c)), some (.exact, copyList c), none⟩
  | .braces es =>
    let is := infos T dr1467 es
    ⟨.braces, listToValue T is, listToTree T dr1467 is, listToCont dr1467 is, elements is⟩
  | .call1 a => ⟨.tree, none, (pick (candidates1 T (info T dr1467 a))).map (.exact, ·), none, none⟩
  | .call2 a b => ⟨.tree, none, (pick (candidates2 (info T dr1467 a) (info T dr1467 b))).map (.exact, ·), none, none⟩
def infos (T : ValueType α) (dr1467 : Bool) : List (Init α) → List (Info α)
  | [] => []
  | e :: es => info T dr1467 e :: infos T dr1467 es
end

/-- `tree t{...}`, `tree t = {...}`, `tree(...)`: the tree that is made; `none` if it does not compile. -/
def make (T : ValueType α) (dr1467 : Bool) (i : Init α) : Option (Res (Node α)) := (info T dr1467 i).toTree.map (·.2)

mutual
/-- `operator==(const tree&)`, tree.hpp 142-145; comparing an indeterminate value is undefined. -/
def equal (eq : α → α → Bool) : Node α → Node α → Res Bool
  | .node (some v) cs, .node (some w) ds =>
    if eq v w then (if cs.length = ds.length then equalList eq cs ds else .ok false) else .ok false
  | _, _ => .ub .bad_argument
/-- The elements of two vectors of the same size. -/
def equalList (eq : α → α → Bool) : List (Node α) → List (Node α) → Res Bool
  | c :: cs, d :: ds => do
    if ← equal eq c d then equalList eq cs ds else return false
  | _, _ => .ok true
end

end TreeInit
end Utki
