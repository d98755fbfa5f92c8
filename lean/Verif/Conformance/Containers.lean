import Verif.Model.Tree
import Verif.Model.Linq
import Verif.Model.Sort
import Verif.Model.Views
/-!
# The unit tests of trees, linq, sort and views on the model

The checks of /repo/tests/unit/src/tree.cpp, linq.cpp, sort.cpp and views.cpp, run on the model. These are tests of the model, not proofs of
properties. Construction of trees is in Props/TreeInit; left out is assignment, which is that of `std::vector`.
-/
namespace Utki.Conformance
open Trav

/-! ## tree.cpp -/

/-- A leaf. -/
def leaf (n : Nat) : Tree Nat := .node n []

/-- The trees of the traversal tests. -/
def roots : List (Tree Nat) :=
  [.node 1 [leaf 34, leaf 45], .node 2 [.node 3 [leaf 78, leaf 89, leaf 96], .node 4 [leaf 32, leaf 64, leaf 128], .node 42 [leaf 98, leaf 99, leaf 100]]]

/-- The values met by `for (auto i = begin; i != end; ++i)`. -/
def forwardFrom (dbg : Bool) (f : List (Tree Nat)) : Nat → Iter → Res (List Nat)
  | 0, _ => .diverge
  | fuel + 1, i => do
    if ← ne i (end_ f) then do
      let t ← star f i
      let i ← incr dbg f i
      let r ← forwardFrom dbg f fuel i
      return t.value :: r
    else return []

/-- The values met by `for (auto i = rbegin; i != rend; ++i)` with `std::reverse_iterator`, `i` is the base. -/
def backwardFrom (dbg : Bool) (f : List (Tree Nat)) : Nat → Iter → Res (List Nat)
  | 0, _ => .diverge
  | fuel + 1, i => do
    if ← ne i begin_ then do
      let i ← decr dbg f i
      let t ← star f i
      let r ← backwardFrom dbg f fuel i
      return t.value :: r
    else return []

example : ∀ dbg, forwardFrom dbg roots 20 begin_ = .ok [1, 34, 45, 2, 3, 78, 89, 96, 4, 32, 64, 128, 42, 98, 99, 100] := by decide +kernel
example : ∀ dbg, backwardFrom dbg roots 20 (end_ roots) = .ok [100, 99, 98, 42, 128, 64, 32, 4, 96, 89, 78, 3, 2, 45, 34, 1] := by decide +kernel

/-- `tree_to_tree_comparison`. -/
def t1 (a b : Nat) : Tree Nat :=
  .node a [.node b [leaf 34, leaf 45], .node 11 [.node 14 [leaf 78, leaf 89, leaf 96], .node 15 [leaf 32, leaf 64, leaf 128],
    .node 42 [leaf 98, leaf 99, leaf 100]]]

example : [(t1 10 13, t1 10 13), (t1 10 17, t1 10 13), (t1 10 17, t1 10 17), (t1 20 13, t1 10 13), (t1 20 13, t1 20 13)].map
    (fun p => p.1.eqTree (· == ·) p.2) = [true, false, true, false, true] := by decide +kernel
example : (Tree.node 42 [leaf 98, leaf 99, leaf 100]).eqValue (· == ·) 42 = true := by decide +kernel

/-- `traversal_..._index`: six increments, the index, and back. -/
example : ∀ dbg, (do
      let i ← incr dbg roots begin_
      let i ← incr dbg roots i
      let i ← incr dbg roots i
      let i ← incr dbg roots i
      let i ← incr dbg roots i
      let i ← incr dbg roots i
      let n ← index dbg i
      let j ← make_iterator roots n
      return (n, ← Trav.eq i j, ← index dbg j)) = .ok ([1, 0, 1], true, [1, 0, 1]) := by decide +kernel

example : [[], [0], [0, 0], [0, 1], [0, 1, 0], [0, 2], [1], [1, 0], [1, 0, 0], [1, 1, 0], [1, 1, 0, 2], [3, 1]].map (is_valid roots) =
    [.ok false, .ok true, .ok true, .ok true, .ok false, .ok false, .ok true, .ok true, .ok true, .ok true, .ok false, .ok false] := by decide +kernel
/-- The value of a tree. -/
def val (t : Res (Tree Nat)) : Res Nat := do return (← t).value
example : ∀ dbg, [[0], [0, 0], [0, 1], [1], [1, 0], [1, 0, 0], [1, 1, 0], [1, 1, 2]].map (fun i => val (at_index dbg roots i)) =
    [1, 34, 45, 2, 3, 78, 32, 128].map Res.ok := by decide +kernel

/-- `traversal_iterator_comparison`. -/
example : (do
      let i1 ← make_iterator roots [0, 1]
      let i2 ← make_iterator roots [1, 1, 2]
      let i3 ← make_iterator roots [1, 1, 2]
      return [← Trav.lt i1 i2, ← gt i2 i1, ← le i1 i2, ← ge i2 i1, ← ne i1 i3, ← Trav.eq i2 i3, ← ge i2 i3, ← le i2 i3]) =
    .ok [true, true, true, true, true, true, true, true] := by decide +kernel

/-- `traversal_insertion`. -/
example : ∀ dbg, (do
      let i ← make_iterator roots [1, 1]
      let b ← is_last_child roots i
      let (f, j) ← insert roots i (leaf 45)
      let t ← star f j
      let k ← make_iterator f [1, 1]
      return (b, t.value, t.children.length, ← val (star f k), ← val (star f (← incr dbg f k)))) = .ok (false, 45, 0, 45, 4) := by decide +kernel
/-- `traversal_insert_after`. -/
example : ∀ dbg, (do
      let i ← make_iterator roots [1, 2]
      let (f, j) ← insert_after roots i (.node 45 [leaf 46, leaf 47])
      return (← is_last_child roots i, ← is_last_child f j, ← val (star f j), ← val (star f (← incr dbg f j)))) = .ok (true, true, 45, 46) := by
  decide +kernel
/-- `traversal_erase_...`: whether the erased one is the last child, the value at the returned iterator, whether that is the last child. -/
def eraseTest (dbg : Bool) (idx : List Nat) : Res (Bool × Option Nat × Bool) := do
  let i ← make_iterator roots idx
  let (f, j) ← erase dbg roots i
  let atEnd ← Trav.eq j (end_ f)
  let v ← ((if atEnd then pure none else (do let n ← val (star f j); pure (some n))) : Res (Option Nat))
  return (← is_last_child roots i, v, ← is_last_child f j)
example : ∀ dbg, [[1, 1], [1, 0, 2], [1, 2, 2]].map (eraseTest dbg) =
    [.ok (false, some 42, true), .ok (true, some 4, false), .ok (true, none, false)] := by decide +kernel

example : [[], [1, 2, 2], [1, 2]].map (fun i => do return depth (← make_iterator roots i)) = [.ok 0, .ok 3, .ok 2] := by decide +kernel
example : (do
      let i ← make_iterator roots [1, 2, 2]
      let j ← make_iterator roots [0, 1]
      return [← val (at_level roots i 0), ← val (at_level roots i 1), ← val (at_level roots i 2), ← val (at_level roots j 0), ← val (at_level roots j 1)]) =
    .ok [2, 42, 100, 1, 45] := by decide +kernel

/-! ## linq.cpp. Elements are pairs of a number and a string; moving from them leaves the string empty. -/

open Linq

/-- What moving from a pair leaves. -/
def movedPair (p : Nat × String) : Nat × String := (p.1, "")
/-- 13.4f is 134 here. -/
def toPair (v : Nat × String) : String × Nat := (v.2, 134)

/-- `linq_from_rvalue_select`, `linq_from_const_lvalue_select`: result; whether all elements were left empty; number of copies. -/
example : (select false movedPair ⟨toPair, true⟩ [(13, "13"), (14, "14"), (1, "1")]).ret = [("13", 134), ("14", 134), ("1", 134)] ∧
    ∀ p ∈ (select false movedPair ⟨toPair, true⟩ [(13, "13"), (14, "14"), (1, "1")]).src, p.2 = "" := by decide +kernel
example : (select true movedPair ⟨toPair, true⟩ [(13, "13"), (14, "14"), (1, "1")]).ret = [("13", 134), ("14", 134), ("1", 134)] ∧
    (select true movedPair ⟨toPair, true⟩ [(13, "13"), (14, "14"), (1, "1")]).src = [(13, "13"), (14, "14"), (1, "1")] := by decide +kernel
/-- `linq_from_lvalue_select`: the elements of a map, in the order of the keys, with their indices. -/
example : (select2 true movedPair true (fun v i => (v.2, i)) [(1, "1"), (13, "13"), (14, "14")]).ret = [("1", 0), ("13", 1), ("14", 2)] ∧
    (select2 true movedPair true (fun v i => (v.2, i)) [(1, "1"), (13, "13"), (14, "14")]).src = [(1, "1"), (13, "13"), (14, "14")] := by decide +kernel
/-- `linq_from_rvalue_group_by`. -/
example :
    let s := select2 false movedPair true (fun v i => (v.2, v.1, i)) [(13, "13"), (14, "14"), (1, "1"), (132, "13"), (15, "15"), (133, "13"), (11, "1")]
    (groupBy false (fun v : String × Nat × Nat => ("", v.2)) (fun a b : String => decide (a < b)) ⟨fun v => v.1, false⟩ s.ret).ret =
      [("1", [("1", 1, 2), ("1", 11, 6)]), ("13", [("13", 13, 0), ("13", 132, 3), ("13", 133, 5)]), ("14", [("14", 14, 1)]), ("15", [("15", 15, 4)])] := by
  decide +kernel
/-- `linq_from_const_lvalue_where`. -/
example :
    let c := [(13, "13"), (14, "14"), (1, "1"), (13, "13_2"), (3, "3"), (13, "13_3")]
    let o := where_ true movedPair ⟨fun v => v.1 == 13, false⟩ c
    o.ret = [(13, "13"), (13, "13_2"), (13, "13_3")] ∧ o.src = c := by decide +kernel
/-- `linq_from_const_lvalue_group_by_where`. -/
example :
    let c := [(13, "13"), (14, "14"), (1, "1"), (13, "13_2"), (3, "3"), (3, "3_2")]
    let g := groupBy true movedPair (fun a b : Nat => decide (a < b)) ⟨fun v => v.1, false⟩ c
    let o := whereMap false id (fun a b : Nat => decide (a < b)) ⟨fun v => v.2.length == 2, false⟩ g.ret
    g.src = c ∧ o.ret = [(3, [(3, "3"), (3, "3_2")]), (13, [(13, "13"), (13, "13_2")])] := by decide +kernel

/-! ## sort.cpp -/

instance : QSort.MovedFrom String := ⟨fun _ => ""⟩
instance : QSort.MovedFrom (String × Nat) := ⟨fun p => ("", p.2)⟩

example : (QSort.sort (fun a b : String => pure (decide (a < b))) 100 0 5 : QSort.SM String Unit Unit) (["hello", "bye", "how", "are", "you"], ()) =
    (.ok (), ["are", "bye", "hello", "how", "you"], ()) := by decide +kernel
example : (QSort.sort (fun a b : String × Nat => pure (decide (a.1 < b.1))) 100 0 5 : QSort.SM _ Unit Unit)
      ([("hello", 13), ("bye", 15), ("how", 33), ("are", 4), ("you", 9)], ()) =
    (.ok (), [("are", 4), ("bye", 15), ("hello", 13), ("how", 33), ("you", 9)], ()) := by decide +kernel
example : (QSort.sort (fun a b : String × Nat => pure (decide (a.2 < b.2))) 100 0 5 : QSort.SM _ Unit Unit)
      ([("hello", 13), ("bye", 15), ("how", 33), ("are", 4), ("you", 9)], ()) =
    (.ok (), [("are", 4), ("you", 9), ("hello", 13), ("bye", 15), ("how", 33)], ()) := by decide +kernel

/-! ## views.cpp -/

example : Views.reverse id [0, 1, 2, 3, 4, 5, 6, 7, 8, 9] = .ok ([9, 8, 7, 6, 5, 4, 3, 2, 1, 0], [0, 1, 2, 3, 4, 5, 6, 7, 8, 9]) := by decide +kernel
/-- `a += 1` on the first of every tuple. -/
def bump : List Nat → List Nat
  | a :: r => (a + 1) :: r
  | [] => []
example : Views.zip bump [[0, 1, 2, 3, 4, 5, 6], [3, 4, 5], [1, 2, 3, 4]] =
    .ok ([[0, 3, 1], [1, 4, 2], [2, 5, 3]], [[1, 2, 3, 3, 4, 5, 6], [3, 4, 5], [1, 2, 3, 4]]) := by decide +kernel
example : Views.zip id [[0, 1, 2, 3, 4, 5, 6], [3, 4, 5], [1, 2, 3, 4]] =
    .ok ([[0, 3, 1], [1, 4, 2], [2, 5, 3]], [[0, 1, 2, 3, 4, 5, 6], [3, 4, 5], [1, 2, 3, 4]]) := by decide +kernel
example : Views.zip id [["a", "b", "c", "d"], ["1", "2", "3", "4"]] =
    .ok ([["a", "1"], ["b", "2"], ["c", "3"], ["d", "4"]], [["a", "b", "c", "d"], ["1", "2", "3", "4"]]) := by decide +kernel

end Utki.Conformance
