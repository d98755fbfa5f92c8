import Verif.Model.TreeAlloc
/-! # Specification of the memory that trees own and ask for -/
namespace Utki.Spec
open TreeAlloc
variable {α : Type}

mutual
/-- The tree without its memory. -/
def plainTree : MTree α → Tree α
  | .node c cs => .node c.val (plainList cs)
/-- Trees without their memory. -/
def plainList : List (MTree α) → List (Tree α)
  | [] => []
  | t :: ts => plainTree t :: plainList ts
end

mutual
/-- The blocks that a tree owns. -/
def blocksTree : MTree α → List Nat
  | .node c cs => c.mem ++ (c.buf.toList ++ blocksList cs)
/-- The blocks that the trees of a list own. -/
def blocksList : List (MTree α) → List Nat
  | [] => []
  | t :: ts => blocksTree t ++ blocksList ts
end

/-- The blocks that a vector of trees owns. -/
def blocksVec (v : Vec α) : List Nat := v.buf.toList ++ blocksList v.elems

mutual
/-- How often memory must be requested for a copy: for each value as many times as it has blocks, and once for each node that has children. -/
def requestsTree : MTree α → Nat
  | .node c cs => c.mem.length + ((if cs.isEmpty then 0 else 1) + requestsList cs)
/-- The same for the trees of a list. -/
def requestsList : List (MTree α) → Nat
  | [] => 0
  | t :: ts => requestsTree t + requestsList ts
end

/-- The next `n` requests for memory succeed. -/
def granted (n : Nat) (plan : List Bool) : Prop := ∀ b ∈ plan.take n, b = true

instance (n : Nat) (plan : List Bool) : Decidable (granted n plan) := inferInstanceAs (Decidable (∀ b ∈ plan.take n, b = true))

/-- No block is in use twice, and the next one is not in use. -/
structure Sound (m : Mem) : Prop where
  nodup : m.live.Nodup
  fresh : ∀ b ∈ m.live, b < m.next

/-- The blocks in use are those in the list, each once. -/
def InUse (m : Mem) (bs : List Nat) : Prop := Sound m ∧ m.live.Perm bs

/-- The vector that the iterator points into has no room for one more node. -/
def full (v : Vec α) (it : Trav.Iter) : Bool :=
  match it.list_stack.getLast? with
  | none => false
  | some p =>
    match v.at p with
    | none => false
    | some w => decide (w.cap ≤ w.elems.length)

/-- How often memory is requested to insert a node there. -/
def requestsInsert (v : Vec α) (it : Trav.Iter) : Nat := if full v it then 1 else 0

/-- How an operation may end that asks for memory `n` times. If all requests succeed it returns an iterator and leaves the forest as given; in use are the blocks of the roots, of the tree that was passed,
of the iterator and the others. The tree passed is as before, or nothing is left of it (`consumed`). If a request fails, `std::bad_alloc` is thrown, the roots and the tree passed are as before, and in use are
their blocks and the others. -/
def AllOrNothing (op : Meth (St α) It) (n : Nat) (s : St α) (f : List (Tree α)) (it : Trav.Iter) (others : List Nat) (consumed : Bool) : Prop :=
  (granted n s.mem.plan → ∃ j s', op s = (.ok j, s') ∧ plainList s'.roots.elems = f ∧ j.it = it ∧
    InUse s'.mem (blocksVec s'.roots ++ (blocksTree s'.arg ++ (j.mem ++ others))) ∧ s'.mem.plan = s.mem.plan.drop n ∧
    (if consumed then blocksTree s'.arg = [] else s'.arg = s.arg)) ∧
  (¬ granted n s.mem.plan → ∃ mem', op s = (.throw .bad_alloc, { s with mem := mem' }) ∧ InUse mem' (blocksVec s.roots ++ (blocksTree s.arg ++ others)))

end Utki.Spec
