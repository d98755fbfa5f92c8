import Verif.Model.TreeAssign
/-! # Specification of the assignment of trees -/
namespace Utki.Spec
open TreeAssign
variable {α : Type}

mutual
/-- The object `n` is the tree `t`, and the buffers `own` are those of its vector of children and of all nodes below. -/
def IsNode (h : Heap α) : Node α → Tree α → List Nat → Prop
  | n, .node v cs, own => n.val = v ∧
    ((n.buf = none ∧ n.cap = 0 ∧ cs = [] ∧ own = []) ∨
     (∃ b es below, n.buf = some b ∧ h.bufs b = some es ∧ es.length ≤ n.cap ∧ IsNodes h es cs below ∧ own = b :: below))
/-- The same for the elements of a vector. -/
def IsNodes (h : Heap α) : List (Node α) → List (Tree α) → List Nat → Prop
  | ns, [], own => ns = [] ∧ own = []
  | ns, t :: ts, own => ∃ n ns' own1 own2, ns = n :: ns' ∧ own = own1 ++ own2 ∧ IsNode h n t own1 ∧ IsNodes h ns' ts own2
end

/-- The object at an address. -/
def ObjAt (h : Heap α) (l : Loc) (n : Node α) : Prop := ∃ es, h.bufs l.1 = some es ∧ es[l.2]? = some n

/-- At the address is the tree `t`, which owns the buffers `own`, each once, and is not inside one of them. -/
def TreeAt (h : Heap α) (l : Loc) (t : Tree α) (own : List Nat) : Prop := ∃ n, ObjAt h l n ∧ IsNode h n t own ∧ own.Nodup ∧ l.1 ∉ own

/-- Numbers of buffers are not used before they are given out. -/
def HeapOk (h : Heap α) : Prop := ∀ b, h.next ≤ b → h.bufs b = none

/-- From `h` to `h'` the buffers `own` have become the buffers `own'`: all others are as they were, those of `own'` are of `own` or new, and those of `own` that are not in `own'` have been given
back. -/
structure Replaces (h h' : Heap α) (own own' : List Nat) : Prop where
  ok : HeapOk h'
  next : h.next ≤ h'.next
  new : ∀ b ∈ own', b ∈ own ∨ h.next ≤ b
  same : ∀ b, b ∉ own → b ∉ own' → h'.bufs b = h.bufs b
  gone : ∀ b ∈ own, b ∉ own' → h'.bufs b = none

/-- The other objects in the same buffer as `l` are as they were. -/
def SameBeside (h h' : Heap α) (l : Loc) : Prop := ∀ i n, i ≠ l.2 → (ObjAt h (l.1, i) n ↔ ObjAt h' (l.1, i) n)

/-- Neither of two trees, the first at `a` with the buffers `own1`, the other at `b` with the buffers `own2`, is a part of the other. -/
def NoPart (a : Loc) (own1 : List Nat) (b : Loc) (own2 : List Nat) : Prop := a ≠ b ∧ a.1 ∉ own2 ∧ b.1 ∉ own1 ∧ ∀ x ∈ own1, x ∉ own2

/-- The address of the node with the given path below the object at `l`. -/
def locBelow (h : Heap α) : Loc → Path → Option Loc
  | l, [] => some l
  | l, i :: p =>
    match h.bufs l.1 with
    | none => none
    | some es =>
      match es[l.2]? with
      | none => none
      | some n =>
        match n.buf with
        | none => none
        | some b => locBelow h (b, i) p

/-- The subtree with the given path. -/
def partAt : Tree α → Path → Option (Tree α)
  | t, [] => some t
  | t, i :: p =>
    match t.children[i]? with
    | none => none
    | some c => partAt c p

end Utki.Spec
